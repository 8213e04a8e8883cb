import Verif.Spec.LCE
import Verif.Lemmas.Py
import Mathlib.Tactic.Ring
import Mathlib.Algebra.BigOperators.Ring.List
/-
Lemmas about the local cluster expansion model.
-/
namespace KMC
open Spec

theorem pyGetAll_ok_iff {α : Type} {l : List α} {is : List Int} {vs : List α} :
    pyGetAll l is = .ok vs ↔ List.Forall₂ (fun i v => pyGet l i = .ok v) is vs := by
  induction is generalizing vs with
  | nil =>
    simp only [pyGetAll, Except.ok.injEq]
    constructor
    · rintro rfl; exact .nil
    · intro h; cases h; rfl
  | cons i is ih =>
    simp only [pyGetAll]
    cases hg : pyGet l i with
    | error e =>
      simp only [reduceCtorEq, false_iff]
      intro h
      cases h with
      | cons h1 h2 => rw [hg] at h1; cases h1
    | ok a =>
      cases hr : pyGetAll l is with
      | error e =>
        simp only [reduceCtorEq, false_iff]
        intro h
        cases h with
        | cons h1 h2 => rw [ih.2 h2] at hr; cases hr
      | ok as =>
        simp only [Except.ok.injEq]
        constructor
        · rintro rfl; exact .cons hg (ih.1 hr)
        · intro h
          cases h with
          | cons h1 h2 =>
            rw [hg] at h1
            cases h1
            rw [ih.2 h2] at hr
            cases hr
            rfl

theorem pyGet_error_indexError {α : Type} {l : List α} {i : Int} {e : PyErr}
    (h : pyGet l i = .error e) : e = .indexError := by
  unfold pyGet at h
  split at h
  · cases h; rfl
  · split at h <;> cases h
    rfl

theorem pyGetAll_congr {α : Type} {l l' : List α} {is : List Int}
    (h : ∀ i ∈ is, pyGet l i = pyGet l' i) : pyGetAll l is = pyGetAll l' is := by
  induction is with
  | nil => rfl
  | cons i is ih =>
    simp only [pyGetAll]
    rw [h i List.mem_cons_self, ih fun j hj => h j (List.mem_cons_of_mem _ hj)]

theorem pyGetAll_length {α : Type} {l vs : List α} {is : List Int} (h : pyGetAll l is = .ok vs) :
    vs.length = is.length := (pyGetAll_ok_iff.1 h).length_eq.symm

/-- Reading a local occupation at a position is reading the occupation at that position's
site. -/
theorem pyGet_pyGetAll {α : Type} {l vs : List α} {is : List Int} (h : pyGetAll l is = .ok vs)
    {s : Int} {v : α} (hv : pyGet vs s = .ok v) :
    ∃ i, pyGet is s = .ok i ∧ pyGet l i = .ok v := by
  have hf := pyGetAll_ok_iff.1 h
  obtain ⟨k, hk, hk2⟩ := pyGet_ok_iff.1 hv
  have hlen := hf.length_eq
  have hkl : k < is.length := by rw [hlen]; exact pyIdx_lt hk
  refine ⟨is[k], pyGet_ok_iff.2 ⟨k, by rw [hlen]; exact hk, by simp [hkl]⟩, ?_⟩
  have := List.forall₂_iff_get.1 hf
  have h2 := this.2 k hkl (by omega)
  simp only [List.get_eq_getElem] at h2
  rw [h2]
  rw [List.getElem?_eq_getElem (by omega)] at hk2
  simp only [Option.some.injEq] at hk2
  rw [hk2]

namespace LCE
variable {K : Type} [CommRing K]

/-! ### Plain correlations -/

theorem clusterProduct_ok {occ : List Int} {x : Int → Int}
    (hx : ∀ s v, pyGet occ s = .ok v → v = x s) :
    ∀ (c : List Int) (acc p : K), clusterProduct occ c acc = .ok p →
      p = acc * (c.map fun s => (x s : K)).prod := by
  intro c
  induction c with
  | nil => intro acc p h; simp only [clusterProduct, Except.ok.injEq] at h; simp [h]
  | cons s c ih =>
    intro acc p h
    simp only [clusterProduct] at h
    cases hs : pyGet occ s with
    | error e => rw [hs] at h; cases h
    | ok v =>
      rw [hs] at h
      rw [ih _ _ h, hx s v hs]
      simp [mul_assoc]

theorem orbitSum_ok {occ : List Int} {x : Int → Int}
    (hx : ∀ s v, pyGet occ s = .ok v → v = x s) :
    ∀ (o : List (List Int)) (acc p : K), orbitSum occ o acc = .ok p →
      p = acc + plainTerm x o := by
  intro o
  induction o with
  | nil => intro acc p h; simp only [orbitSum, Except.ok.injEq] at h; simp [h, plainTerm]
  | cons c o ih =>
    intro acc p h
    simp only [orbitSum] at h
    cases hc : clusterProduct (K := K) occ c 1 with
    | error e => rw [hc] at h; cases h
    | ok v =>
      rw [hc] at h
      rw [ih _ _ h, clusterProduct_ok hx _ _ _ hc]
      simp [plainTerm, add_assoc]

theorem calcCorr_ok {occ : List Int} {x : Int → Int}
    (hx : ∀ s v, pyGet occ s = .ok v → v = x s) :
    ∀ (os : List (List (List Int))) (corr : List K), calcCorr occ os = .ok corr →
      corr = os.map (plainTerm x) := by
  intro os
  induction os with
  | nil => intro corr h; simp only [calcCorr, Except.ok.injEq] at h; simp [← h]
  | cons o os ih =>
    intro corr h
    simp only [calcCorr] at h
    cases ho : orbitSum (K := K) occ o 0 with
    | error e => rw [ho] at h; cases h
    | ok v =>
      rw [ho] at h
      cases hr : calcCorr (K := K) occ os with
      | error e => rw [hr] at h; cases h
      | ok vs =>
        rw [hr] at h
        cases h
        rw [ih _ hr, orbitSum_ok hx _ _ _ ho]
        simp

/-- All sites can be read. -/
def Readable (occ : List Int) (sites : List Int) : Prop := ∀ s ∈ sites, ∃ v, pyGet occ s = .ok v

theorem clusterProduct_total {occ : List Int} :
    ∀ (c : List Int) (acc : K), Readable occ c → ∃ p, clusterProduct occ c acc = .ok p := by
  intro c
  induction c with
  | nil => intro acc _; exact ⟨acc, rfl⟩
  | cons s c ih =>
    intro acc h
    obtain ⟨v, hv⟩ := h s List.mem_cons_self
    simp only [clusterProduct, hv]
    exact ih _ fun t ht => h t (List.mem_cons_of_mem _ ht)

theorem clusterProduct_readable {occ : List Int} :
    ∀ (c : List Int) (acc p : K), clusterProduct occ c acc = .ok p → Readable occ c := by
  intro c
  induction c with
  | nil => intro acc p _ s hs; cases hs
  | cons s c ih =>
    intro acc p h
    simp only [clusterProduct] at h
    cases hs : pyGet occ s with
    | error e => rw [hs] at h; cases h
    | ok v =>
      rw [hs] at h
      intro t ht
      rcases List.mem_cons.1 ht with rfl | ht
      · exact ⟨v, hs⟩
      · exact ih _ _ h t ht

theorem clusterProduct_error {occ : List Int} :
    ∀ (c : List Int) (acc : K) (e : PyErr), clusterProduct occ c acc = .error e →
      e = .indexError := by
  intro c
  induction c with
  | nil => intro acc e h; cases h
  | cons s c ih =>
    intro acc e h
    simp only [clusterProduct] at h
    cases hs : pyGet occ s with
    | error e' =>
      rw [hs] at h
      cases h
      exact pyGet_error_indexError hs
    | ok v => rw [hs] at h; exact ih _ _ h

theorem orbitSum_total {occ : List Int} :
    ∀ (o : List (List Int)) (acc : K), (∀ c ∈ o, Readable occ c) →
      ∃ p, orbitSum occ o acc = .ok p := by
  intro o
  induction o with
  | nil => intro acc _; exact ⟨acc, rfl⟩
  | cons c o ih =>
    intro acc h
    obtain ⟨v, hv⟩ := clusterProduct_total (K := K) c 1 (h c List.mem_cons_self)
    simp only [orbitSum, hv]
    exact ih _ fun t ht => h t (List.mem_cons_of_mem _ ht)

theorem orbitSum_readable {occ : List Int} :
    ∀ (o : List (List Int)) (acc p : K), orbitSum occ o acc = .ok p → ∀ c ∈ o, Readable occ c := by
  intro o
  induction o with
  | nil => intro acc p _ c hc; cases hc
  | cons c o ih =>
    intro acc p h
    simp only [orbitSum] at h
    cases hc : clusterProduct (K := K) occ c 1 with
    | error e => rw [hc] at h; cases h
    | ok v =>
      rw [hc] at h
      intro d hd
      rcases List.mem_cons.1 hd with rfl | hd
      · exact clusterProduct_readable _ _ _ hc
      · exact ih _ _ h d hd

theorem orbitSum_error {occ : List Int} :
    ∀ (o : List (List Int)) (acc : K) (e : PyErr), orbitSum occ o acc = .error e →
      e = .indexError := by
  intro o
  induction o with
  | nil => intro acc e h; cases h
  | cons c o ih =>
    intro acc e h
    simp only [orbitSum] at h
    cases hc : clusterProduct (K := K) occ c 1 with
    | error e' => rw [hc] at h; cases h; exact clusterProduct_error _ _ _ hc
    | ok v => rw [hc] at h; exact ih _ _ h

theorem calcCorr_total {occ : List Int} :
    ∀ (os : List (List (List Int))), (∀ o ∈ os, ∀ c ∈ o, Readable occ c) →
      ∃ corr, calcCorr (K := K) occ os = .ok corr := by
  intro os
  induction os with
  | nil => intro _; exact ⟨[], rfl⟩
  | cons o os ih =>
    intro h
    obtain ⟨v, hv⟩ := orbitSum_total (K := K) o 0 (h o List.mem_cons_self)
    obtain ⟨vs, hvs⟩ := ih fun t ht => h t (List.mem_cons_of_mem _ ht)
    exact ⟨v :: vs, by simp only [calcCorr, hv, hvs]⟩

theorem calcCorr_readable {occ : List Int} :
    ∀ (os : List (List (List Int))) (corr : List K), calcCorr occ os = .ok corr →
      ∀ o ∈ os, ∀ c ∈ o, Readable occ c := by
  intro os
  induction os with
  | nil => intro corr _ o ho; cases ho
  | cons o os ih =>
    intro corr h
    simp only [calcCorr] at h
    cases ho : orbitSum (K := K) occ o 0 with
    | error e => rw [ho] at h; cases h
    | ok v =>
      rw [ho] at h
      cases hr : calcCorr (K := K) occ os with
      | error e => rw [hr] at h; cases h
      | ok vs =>
        rw [hr] at h
        intro o' ho'
        rcases List.mem_cons.1 ho' with rfl | ho'
        · exact orbitSum_readable _ _ _ ho
        · exact ih _ hr o' ho'

theorem calcCorr_error {occ : List Int} :
    ∀ (os : List (List (List Int))) (e : PyErr), calcCorr (K := K) occ os = .error e →
      e = .indexError := by
  intro os
  induction os with
  | nil => intro e h; cases h
  | cons o os ih =>
    intro e h
    simp only [calcCorr] at h
    cases ho : orbitSum (K := K) occ o 0 with
    | error e' => rw [ho] at h; cases h; exact orbitSum_error _ _ _ ho
    | ok v =>
      rw [ho] at h
      cases hr : calcCorr (K := K) occ os with
      | error e' => rw [hr] at h; cases h; exact ih _ hr
      | ok vs => rw [hr] at h; cases h

/-! ### Decorated correlations -/

theorem clusterProductDecorated_ok {t : List (List (List K))} {occ : List Int} {x : Int → Int}
    {φ : Int → Int → Int → K} (hx : ∀ s v, pyGet occ s = .ok v → v = x s)
    (hφ : ∀ s a b v, tableGet t s a b = .ok v → v = φ s a b) :
    ∀ (c d : List Int) (acc p : K), clusterProductDecorated t occ c d acc = .ok p →
      c.length ≤ d.length ∧ p = acc * ((c.zip d).map fun sb => φ sb.1 (x sb.1) sb.2).prod := by
  intro c
  induction c with
  | nil => intro d acc p h; simp only [clusterProductDecorated, Except.ok.injEq] at h; simp [h]
  | cons s c ih =>
    intro d acc p h
    cases d with
    | nil => simp [clusterProductDecorated] at h
    | cons b d =>
      simp only [clusterProductDecorated] at h
      cases hs : pyGet occ s with
      | error e => rw [hs] at h; cases h
      | ok a =>
        rw [hs] at h
        simp only at h
        cases ht : tableGet t s a b with
        | error e => rw [ht] at h; cases h
        | ok v =>
          rw [ht] at h
          obtain ⟨h1, h2⟩ := ih _ _ _ h
          refine ⟨by simpa using h1, ?_⟩
          rw [h2, hφ _ _ _ _ ht, hx s a hs]
          simp [mul_assoc]

theorem orbitSumDecorated_ok {t : List (List (List K))} {occ : List Int} {x : Int → Int}
    {φ : Int → Int → Int → K} (hx : ∀ s v, pyGet occ s = .ok v → v = x s)
    (hφ : ∀ s a b v, tableGet t s a b = .ok v → v = φ s a b) :
    ∀ (o d : List (List Int)) (acc p : K), orbitSumDecorated t occ o d acc = .ok p →
      o.length ≤ d.length ∧ p = acc + decoratedTerm φ x o d := by
  intro o
  induction o with
  | nil =>
    intro d acc p h
    simp only [orbitSumDecorated, Except.ok.injEq] at h
    simp [h, decoratedTerm]
  | cons c o ih =>
    intro d acc p h
    cases d with
    | nil => simp [orbitSumDecorated] at h
    | cons b d =>
      simp only [orbitSumDecorated] at h
      cases hc : clusterProductDecorated t occ c b 1 with
      | error e => rw [hc] at h; cases h
      | ok v =>
        rw [hc] at h
        obtain ⟨h1, h2⟩ := ih _ _ _ h
        refine ⟨by simpa using h1, ?_⟩
        rw [h2, (clusterProductDecorated_ok hx hφ _ _ _ _ hc).2]
        simp [decoratedTerm, add_assoc]

theorem calcCorrDecorated_ok {t : List (List (List K))} {occ : List Int} {x : Int → Int}
    {φ : Int → Int → Int → K} (hx : ∀ s v, pyGet occ s = .ok v → v = x s)
    (hφ : ∀ s a b v, tableGet t s a b = .ok v → v = φ s a b) :
    ∀ (os ds : List (List (List Int))) (corr : List K),
      calcCorrDecorated t occ os ds = .ok corr →
      os.length ≤ ds.length ∧ corr = (os.zip ds).map fun od => decoratedTerm φ x od.1 od.2 := by
  intro os
  induction os with
  | nil => intro ds corr h; simp only [calcCorrDecorated, Except.ok.injEq] at h; simp [← h]
  | cons o os ih =>
    intro ds corr h
    cases ds with
    | nil => simp [calcCorrDecorated] at h
    | cons d ds =>
      simp only [calcCorrDecorated] at h
      cases ho : orbitSumDecorated t occ o d 0 with
      | error e => rw [ho] at h; cases h
      | ok v =>
        rw [ho] at h
        simp only at h
        cases hr : calcCorrDecorated t occ os ds with
        | error e => rw [hr] at h; cases h
        | ok vs =>
          rw [hr] at h
          cases h
          obtain ⟨h1, h2⟩ := ih _ _ hr
          refine ⟨by simpa using h1, ?_⟩
          rw [h2, (orbitSumDecorated_ok hx hφ _ _ _ _ ho).2]
          simp

/-! ### The inner product -/

theorem npInner_ok {a b : List K} {v : K} (h : npInner a b = .ok v) :
    a.length = b.length ∧ v = ((b.zip a).map fun kt => kt.1 * kt.2).sum := by
  unfold npInner at h
  split at h
  · rename_i hl
    cases h
    refine ⟨hl, ?_⟩
    clear hl
    induction a generalizing b with
    | nil => simp
    | cons x a ih =>
      cases b with
      | nil => simp
      | cons y b =>
        simp only [List.zipWith_cons_cons, List.sum_cons, List.zip_cons_cons, List.map_cons]
        rw [ih, mul_comm]
  · cases h

/-! ### Evaluation as a list of independent terms -/

theorem orbitSum_iff {occ : List Int} (o : List (List Int)) (acc p : K) :
    orbitSum occ o acc = .ok p ↔
      ∃ ps, List.Forall₂ (fun c q => clusterProduct (K := K) occ c 1 = .ok q) o ps ∧
        p = acc + ps.sum := by
  induction o generalizing acc with
  | nil =>
    simp only [orbitSum, Except.ok.injEq, List.forall₂_nil_left_iff, exists_eq_left, List.sum_nil,
      add_zero]
    exact eq_comm
  | cons c o ih =>
    simp only [orbitSum]
    cases hc : clusterProduct (K := K) occ c 1 with
    | error e =>
      simp only [reduceCtorEq, false_iff, not_exists, not_and]
      intro ps h
      cases h with
      | cons h1 h2 => rw [hc] at h1; cases h1
    | ok q =>
      simp only [ih]
      constructor
      · rintro ⟨ps, h1, rfl⟩
        exact ⟨q :: ps, .cons hc h1, by simp [add_assoc]⟩
      · rintro ⟨ps, h1, rfl⟩
        cases h1 with
        | cons h2 h3 =>
          rw [hc] at h2
          cases h2
          exact ⟨_, h3, by simp [add_assoc]⟩

theorem orbitSumDecorated_iff {t : List (List (List K))} {occ : List Int} (o d : List (List Int))
    (acc p : K) :
    orbitSumDecorated t occ o d acc = .ok p ↔ o.length ≤ d.length ∧
      ∃ ps, List.Forall₂ (fun cd q => clusterProductDecorated t occ cd.1 cd.2 1 = .ok q)
        (o.zip d) ps ∧ p = acc + ps.sum := by
  induction o generalizing acc d with
  | nil =>
    simp only [orbitSumDecorated, Except.ok.injEq, List.zip_nil_left, List.forall₂_nil_left_iff,
      exists_eq_left, List.sum_nil, add_zero, List.length_nil, Nat.zero_le, true_and]
    exact eq_comm
  | cons c o ih =>
    cases d with
    | nil => simp [orbitSumDecorated]
    | cons b d =>
      simp only [orbitSumDecorated]
      cases hc : clusterProductDecorated t occ c b 1 with
      | error e =>
        simp only [reduceCtorEq, false_iff, not_exists, not_and]
        intro _ ps h
        simp only [List.zip_cons_cons] at h
        cases h with
        | cons h1 h2 => rw [hc] at h1; cases h1
      | ok q =>
        simp only [ih, List.length_cons, Nat.add_le_add_iff_right, List.zip_cons_cons]
        refine and_congr_right fun _ => ?_
        constructor
        · rintro ⟨ps, h1, rfl⟩
          exact ⟨q :: ps, .cons hc h1, by simp [add_assoc]⟩
        · rintro ⟨ps, h1, rfl⟩
          cases h1 with
          | cons h2 h3 =>
            rw [hc] at h2
            cases h2
            exact ⟨_, h3, by simp [add_assoc]⟩

theorem calcCorr_iff {occ : List Int} (os : List (List (List Int))) (corr : List K) :
    calcCorr occ os = .ok corr ↔
      List.Forall₂ (fun o q => orbitSum (K := K) occ o 0 = .ok q) os corr := by
  induction os generalizing corr with
  | nil =>
    simp only [calcCorr, Except.ok.injEq, List.forall₂_nil_left_iff]
    exact eq_comm
  | cons o os ih =>
    simp only [calcCorr]
    cases ho : orbitSum (K := K) occ o 0 with
    | error e =>
      simp only [reduceCtorEq, false_iff]
      intro h
      cases h with
      | cons h1 h2 => rw [ho] at h1; cases h1
    | ok v =>
      cases hr : calcCorr (K := K) occ os with
      | error e =>
        simp only [reduceCtorEq, false_iff]
        intro h
        cases h with
        | cons h1 h2 => rw [(ih _).2 h2] at hr; cases hr
      | ok vs =>
        simp only [Except.ok.injEq]
        constructor
        · rintro rfl; exact .cons ho ((ih _).1 hr)
        · intro h
          cases h with
          | cons h1 h2 =>
            rw [ho] at h1
            cases h1
            rw [(ih _).2 h2] at hr
            cases hr
            rfl

theorem calcCorrDecorated_iff {t : List (List (List K))} {occ : List Int}
    (os ds : List (List (List Int))) (corr : List K) :
    calcCorrDecorated t occ os ds = .ok corr ↔ os.length ≤ ds.length ∧
      List.Forall₂ (fun od q => orbitSumDecorated t occ od.1 od.2 0 = .ok q) (os.zip ds) corr := by
  induction os generalizing corr ds with
  | nil =>
    simp only [calcCorrDecorated, Except.ok.injEq, List.zip_nil_left, List.forall₂_nil_left_iff,
      List.length_nil, Nat.zero_le, true_and]
    exact eq_comm
  | cons o os ih =>
    cases ds with
    | nil => simp [calcCorrDecorated]
    | cons d ds =>
      simp only [calcCorrDecorated, List.length_cons, Nat.add_le_add_iff_right, List.zip_cons_cons]
      cases ho : orbitSumDecorated t occ o d 0 with
      | error e =>
        simp only [reduceCtorEq, false_iff, not_and]
        intro _ h
        cases h with
        | cons h1 h2 => rw [ho] at h1; cases h1
      | ok v =>
        cases hr : calcCorrDecorated t occ os ds with
        | error e =>
          simp only [reduceCtorEq, false_iff, not_and]
          intro hl h
          cases h with
          | cons h1 h2 => rw [(ih _ _).2 ⟨hl, h2⟩] at hr; cases hr
        | ok vs =>
          simp only [Except.ok.injEq]
          constructor
          · rintro rfl
            exact ⟨((ih _ _).1 hr).1, .cons ho ((ih _ _).1 hr).2⟩
          · rintro ⟨hl, h⟩
            cases h with
            | cons h1 h2 =>
              rw [ho] at h1
              cases h1
              rw [(ih _ _).2 ⟨hl, h2⟩] at hr
              cases hr
              rfl

theorem npInner_of_length {a b : List K} (h : a.length = b.length) :
    npInner a b = .ok ((b.zip a).map fun kt => kt.1 * kt.2).sum := by
  have h2 : ∃ v, npInner a b = .ok v := ⟨_, if_pos h⟩
  obtain ⟨v, hv⟩ := h2
  rw [hv, (npInner_ok hv).2]

theorem compute_of {m : LCE K} {occ : List Int} {e : Event} {keci : List K} {e0 : K}
    {localOcc : List Int} {corr : List K} (h1 : m.keci = some keci) (h2 : m.emptyCluster = some e0)
    (h3 : m.validateParameterOrbits keci m.parameterFingerprints m.parameterHash = .ok keci)
    (h4 : pyGetAll occ e.env = .ok localOcc) (h5 : m.calculateCorrelation localOcc = .ok corr)
    (h6 : corr.length = keci.length) : m.compute occ e = .ok (expansion e0 keci corr) := by
  simp only [compute, h1, h2, h3, h4, h5, npInner_of_length h6, expansion]
  rw [add_comm]

theorem compute_ok {m : LCE K} {occ : List Int} {e : Event} {v : K} (h : m.compute occ e = .ok v) :
    ∃ keci e0 localOcc corr, m.keci = some keci ∧ m.emptyCluster = some e0 ∧
      m.validateParameterOrbits keci m.parameterFingerprints m.parameterHash = .ok keci ∧
      pyGetAll occ e.env = .ok localOcc ∧ m.calculateCorrelation localOcc = .ok corr ∧
      corr.length = keci.length ∧ v = expansion e0 keci corr := by
  unfold compute at h
  split at h
  · rename_i keci e0 h1 h2
    split at h
    · cases h
    · rename_i k' hk
      have hkk : k' = keci := by
        unfold validateParameterOrbits at hk
        simp only at hk
        split at hk
        · cases hk
        · split at hk
          · cases hk
          · split at hk
            · cases hk; rfl
            · split at hk
              · cases hk
              · split at hk <;> cases hk
                rfl
      subst hkk
      split at h
      · cases h
      · rename_i lo hlo
        split at h
        · cases h
        · rename_i corr hc
          split at h
          · cases h
          · rename_i w hw
            cases h
            obtain ⟨h3, h4⟩ := npInner_ok hw
            exact ⟨k', e0, lo, corr, h1, h2, hk, hlo, hc, h3, by rw [h4, expansion, add_comm]⟩
  · cases h

omit [CommRing K] in
theorem validate_ok_iff {m : LCE K} {keci r : List K} {fps : Option (List String)}
    {hash : Option String} : m.validateParameterOrbits keci fps hash = .ok r ↔
      r = keci ∧ (m.getOrbitFingerprints ≠ [] → keci.length = m.getOrbitFingerprints.length) ∧
      (∀ h h', m.environmentHash = some h → h ≠ "" → hash = some h' → h' = h) ∧
      (∀ f, fps = some f → f = m.getOrbitFingerprints) := by
  unfold validateParameterOrbits
  simp only
  split
  · rename_i h1
    simp only [reduceCtorEq, false_iff]
    rintro ⟨-, h2, -⟩
    exact h1.2 (h2 h1.1)
  · rename_i h1
    have h1' : m.getOrbitFingerprints ≠ [] → keci.length = m.getOrbitFingerprints.length := by
      intro hne
      by_contra hc
      exact h1 ⟨hne, hc⟩
    split
    · rename_i h2
      simp only [reduceCtorEq, false_iff]
      rintro ⟨-, -, h3, -⟩
      obtain ⟨ha, hb, hc⟩ := h2
      cases hh : m.environmentHash with
      | none => rw [hh] at ha; exact ha rfl
      | some h =>
        cases hhash : hash with
        | none => exact hb hhash
        | some h' =>
          rw [hh] at ha
          have := h3 h h' hh ha hhash
          rw [hhash, hh, this] at hc
          exact hc rfl
    · rename_i h2
      have h2' : ∀ h h', m.environmentHash = some h → h ≠ "" → hash = some h' → h' = h := by
        intro h h' hh hne hhash
        by_contra hc
        apply h2
        rw [hh, hhash]
        exact ⟨by simpa using hne, by simp, by simpa using hc⟩
      split
      · simp only [Except.ok.injEq, reduceCtorEq, false_implies, implies_true, and_true]
        exact ⟨fun h => ⟨h.symm, h1', h2'⟩, fun h => h.1.symm⟩
      · rename_i f
        split
        · rename_i h3
          simp only [reduceCtorEq, false_iff]
          rintro ⟨-, -, -, h4⟩
          exact h3 (by rw [h4 f rfl])
        · split
          · rename_i h3
            simp only [reduceCtorEq, false_iff]
            rintro ⟨-, -, -, h4⟩
            exact h3 (h4 f rfl)
          · rename_i h3
            simp only [ne_eq, not_not] at h3
            simp only [Except.ok.injEq, Option.some.injEq]
            constructor
            · rintro rfl
              exact ⟨rfl, h1', h2', by rintro _ rfl; exact h3⟩
            · exact fun h => h.1.symm

omit [CommRing K] in
theorem validate_error {m : LCE K} {keci : List K} {fps : Option (List String)}
    {hash : Option String} {x : PyErr} (h : m.validateParameterOrbits keci fps hash = .error x) :
    x = .valueError := by
  unfold validateParameterOrbits at h
  simp only at h
  split at h
  · cases h; rfl
  · split at h
    · cases h; rfl
    · split at h
      · cases h
      · split at h
        · cases h; rfl
        · split at h <;> cases h
          rfl

end LCE
end KMC

namespace KMC.LCE
open Spec
variable {K : Type} [CommRing K]

/-! ### Evaluation when everything can be read -/

theorem clusterProduct_eq {occ : List Int} {x : Int → Int} :
    ∀ (c : List Int) (acc : K), (∀ s ∈ c, pyGet occ s = .ok (x s)) →
      clusterProduct occ c acc = .ok (acc * (c.map fun s => (x s : K)).prod) := by
  intro c
  induction c with
  | nil => intro acc _; simp [clusterProduct]
  | cons s c ih =>
    intro acc h
    simp only [clusterProduct, h s List.mem_cons_self]
    rw [ih _ fun t ht => h t (List.mem_cons_of_mem _ ht)]
    simp [mul_assoc]

theorem calcCorr_eq {occ : List Int} {x : Int → Int} (os : List (List (List Int)))
    (h : ∀ o ∈ os, ∀ c ∈ o, ∀ s ∈ c, pyGet occ s = .ok (x s)) :
    calcCorr (K := K) occ os = .ok (os.map (plainTerm x)) := by
  rw [calcCorr_iff]
  rw [List.forall₂_map_right_iff, List.forall₂_same]
  intro o ho
  rw [orbitSum_iff]
  refine ⟨o.map fun c => (c.map fun s => (x s : K)).prod, ?_, by simp [plainTerm]⟩
  rw [List.forall₂_map_right_iff, List.forall₂_same]
  intro c hc
  rw [clusterProduct_eq c 1 (h o ho c hc), one_mul]

theorem clusterProductDecorated_eq {t : List (List (List K))} {occ : List Int} {x : Int → Int}
    {φ : Int → Int → Int → K} :
    ∀ (c d : List Int) (acc : K), c.length ≤ d.length →
      (∀ sb ∈ c.zip d, pyGet occ sb.1 = .ok (x sb.1) ∧
        tableGet t sb.1 (x sb.1) sb.2 = .ok (φ sb.1 (x sb.1) sb.2)) →
      clusterProductDecorated t occ c d acc =
        .ok (acc * ((c.zip d).map fun sb => φ sb.1 (x sb.1) sb.2).prod) := by
  intro c
  induction c with
  | nil => intro d acc _ _; simp [clusterProductDecorated]
  | cons s c ih =>
    intro d acc hl h
    cases d with
    | nil => simp at hl
    | cons b d =>
      have h1 := h (s, b) (by simp)
      simp only at h1
      simp only [clusterProductDecorated, h1.1, h1.2]
      rw [ih d _ (by simpa using hl) fun sb hsb => h sb (by simp [hsb])]
      simp [mul_assoc]

theorem calcCorrDecorated_eq {t : List (List (List K))} {occ : List Int} {x : Int → Int}
    {φ : Int → Int → Int → K} (os ds : List (List (List Int))) (hl : os.length ≤ ds.length)
    (h : ∀ od ∈ os.zip ds, od.1.length ≤ od.2.length ∧ ∀ cd ∈ od.1.zip od.2,
      cd.1.length ≤ cd.2.length ∧ ∀ sb ∈ cd.1.zip cd.2, pyGet occ sb.1 = .ok (x sb.1) ∧
        tableGet t sb.1 (x sb.1) sb.2 = .ok (φ sb.1 (x sb.1) sb.2)) :
    calcCorrDecorated t occ os ds =
      .ok ((os.zip ds).map fun od => decoratedTerm φ x od.1 od.2) := by
  rw [calcCorrDecorated_iff]
  refine ⟨hl, ?_⟩
  rw [List.forall₂_map_right_iff, List.forall₂_same]
  intro od hod
  obtain ⟨h1, h2⟩ := h od hod
  rw [orbitSumDecorated_iff]
  refine ⟨h1, (od.1.zip od.2).map fun cd => ((cd.1.zip cd.2).map fun sb => φ sb.1 (x sb.1) sb.2).prod,
    ?_, by simp [decoratedTerm]⟩
  rw [List.forall₂_map_right_iff, List.forall₂_same]
  intro cd hcd
  obtain ⟨h3, h4⟩ := h2 cd hcd
  rw [clusterProductDecorated_eq _ _ _ h3 h4, one_mul]

end KMC.LCE
