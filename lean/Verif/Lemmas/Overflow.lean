import Verif.Spec.Overflow
import Verif.Lemmas.Table
import Verif.Lemmas.Propose
/-
Facts about event selection with infinities and NaN.
-/
set_option linter.unusedSectionVars false

namespace KMC
namespace Overflow
open Spec

variable {F : Format}

theorem Flt.add_def (a b : Flt F) : a + b = a.add b := rfl

theorem Flt.le_def (a b : Flt F) : (a ≤ b) = a.le b := rfl

@[simp] theorem Flt.add_nan (a : Flt F) : a.add .nan = .nan := by cases a <;> rfl

@[simp] theorem Flt.nan_add (a : Flt F) : Flt.add .nan a = .nan := by cases a <;> rfl

@[simp] theorem Flt.mul_nan (a : Flt F) : a.mul .nan = .nan := by cases a <;> rfl

@[simp] theorem Flt.nan_mul (a : Flt F) : Flt.mul .nan a = .nan := by cases a <;> rfl

@[simp] theorem Flt.div_nan (a : Flt F) : a.div .nan = .nan := by cases a <;> rfl

@[simp] theorem Flt.nan_div (a : Flt F) : Flt.div .nan a = .nan := by cases a <;> rfl

theorem round_inRange {x : ℝ} (h1 : F.rnd x ≤ F.limit) (h2 : -F.limit ≤ F.rnd x) :
    (Flt.round x : Flt F) = .fin (F.rnd x) := by
  simp [Flt.round, not_lt.2 h1, not_lt.2 h2]

theorem limit_pos (F : Format) : 0 < F.limit := lt_of_lt_of_le one_pos F.one_le

theorem rnd_nonneg {x : ℝ} (h : 0 ≤ x) : 0 ≤ F.rnd x := by
  have := F.mono h; rwa [F.zero] at this

theorem rnd_nonpos {x : ℝ} (h : x ≤ 0) : F.rnd x ≤ 0 := by
  have := F.mono h; rwa [F.zero] at this

/-- Where the searched value separates the list, bisection finds the place. -/
theorem bisectRight_eq {a : List (Flt F)} {v : ℝ} {k : Nat}
    (h1 : ∀ (j : Nat) x, j < k → a[j]? = some x → x ≤ .fin v)
    (h2 : ∀ (j : Nat) x, k ≤ j → a[j]? = some x → ¬ x ≤ .fin v) :
    ∀ fuel lo hi, lo ≤ k → k ≤ hi → hi ≤ a.length → hi - lo ≤ fuel →
      bisectRight a v fuel lo hi = k := by
  intro fuel
  induction fuel with
  | zero =>
    intro lo hi a1 a2 a3 a4
    unfold bisectRight; omega
  | succ fuel ih =>
    intro lo hi a1 a2 a3 a4
    unfold bisectRight
    by_cases hl : lo < hi
    · rw [if_pos hl]
      have hm : (lo + hi) / 2 < a.length := by omega
      simp only [List.getElem?_eq_getElem hm]
      have hx : a[(lo + hi) / 2]? = some a[(lo + hi) / 2] := by simp [hm]
      by_cases hk : (lo + hi) / 2 < k
      · rw [if_pos (h1 _ _ hk hx)]
        exact ih _ _ (by omega) a2 a3 (by omega)
      · rw [if_neg (h2 _ _ (by omega) hx)]
        exact ih _ _ a1 (by omega) (by omega) (by omega)
    · rw [if_neg hl]; omega

/-- On a list of numbers the bisection is the one of the model without overflow. -/
theorem bisectRight_map (a : List ℝ) (v : ℝ) (fuel lo hi : Nat) :
    bisectRight (a.map (Flt.fin (F := F))) v fuel lo hi = KMC.bisectRight a v fuel lo hi := by
  induction fuel generalizing lo hi with
  | zero => rfl
  | succ fuel ih =>
    unfold bisectRight KMC.bisectRight
    by_cases hl : lo < hi
    · rw [if_pos hl, if_pos hl]
      simp only [List.getElem?_map]
      cases a[(lo + hi) / 2]? with
      | none => rfl
      | some x =>
        simp only [Option.map_some]
        by_cases hx : v < x
        · rw [if_pos hx, if_neg (show ¬ (Flt.fin x : Flt F) ≤ .fin v from not_le.2 hx)]; exact ih _ _
        · rw [if_neg hx, if_pos (show (Flt.fin x : Flt F) ≤ .fin v from not_lt.1 hx)]; exact ih _ _
    · rw [if_neg hl, if_neg hl]

theorem cumsumFrom_length (acc : Flt F) (ps : List (Flt F)) : (cumsumFrom acc ps).length = ps.length := by
  induction ps generalizing acc with
  | nil => rfl
  | cons p ps ih => simp [cumsumFrom, ih]

theorem cumsum_length (ps : List (Flt F)) : (cumsum ps).length = ps.length := by
  cases ps with
  | nil => rfl
  | cons p ps => simp [cumsum, cumsumFrom_length]

theorem cumsumFrom_last_nan (acc : Flt F) (ps : List (Flt F)) (h : acc = .nan ∨ .nan ∈ ps) :
    (acc :: cumsumFrom acc ps).getLast? = some .nan := by
  induction ps generalizing acc with
  | nil => simpa [cumsumFrom] using h
  | cons p ps ih =>
    unfold cumsumFrom
    rw [List.getLast?_cons_cons]
    apply ih
    rcases h with rfl | h
    · simp
    · rcases List.mem_cons.1 h with rfl | h
      · simp
      · exact .inr h

/-- One rate that is not a number makes the total not a number. -/
theorem cumsum_last_nan {ps : List (Flt F)} (h : .nan ∈ ps) : (cumsum ps).getLast? = some .nan := by
  cases ps with
  | nil => simp at h
  | cons p ps =>
    apply cumsumFrom_last_nan
    rcases List.mem_cons.1 h with h | h
    · exact .inl h.symm
    · exact .inr h

theorem propose_nan {cum : List (Flt F)} (h : cum.getLast? = some .nan) (r1 r2 : ℝ) :
    propose cum r1 r2 = .ok (0, .nan) := by
  unfold propose
  rw [h]
  simp only [reduceCtorEq, if_false, Flt.div_nan, Flt.nan_mul]
  rw [bisectRight_eq (k := 0) (by simp) ?_ _ _ _ (le_refl _) (by simp) (by simp) (by simp)]
  intro j x _ hx
  rw [List.getElem?_map] at hx
  cases hc : cum[j]? with
  | none => rw [hc] at hx; simp at hx
  | some c => rw [hc] at hx; simp at hx; subst hx; exact id

/-- The running sums while they stay within range. -/
theorem cumsumFrom_fin {acc : ℝ} {ps : List ℝ} (ha : 0 ≤ acc) (hn : ∀ p ∈ ps, 0 ≤ p)
    (hl : ∀ c ∈ KMC.cumsumFrom F.toRounding acc ps, c ≤ F.limit) :
    cumsumFrom (.fin acc) (ps.map Flt.fin) = (KMC.cumsumFrom F.toRounding acc ps).map (Flt.fin (F := F)) := by
  induction ps generalizing acc with
  | nil => rfl
  | cons p ps ih =>
    have h0 : 0 ≤ F.rnd (acc + p) := rnd_nonneg (by have := hn p (by simp); linarith)
    have h1 : (Flt.fin acc : Flt F).add (.fin p) = .fin (F.rnd (acc + p)) :=
      round_inRange (hl _ (by simp [KMC.cumsumFrom])) (by have := limit_pos F; linarith)
    simp only [List.map_cons, cumsumFrom, KMC.cumsumFrom, h1]
    rw [ih h0 (fun q hq => hn q (by simp [hq])) (fun c hc => hl c (by simp [KMC.cumsumFrom, hc]))]

theorem cumsum_fin {ps : List ℝ} (hn : ∀ p ∈ ps, 0 ≤ p) (hl : ∀ c ∈ KMC.cumsum F.toRounding ps, c ≤ F.limit) :
    cumsum (ps.map Flt.fin) = (KMC.cumsum F.toRounding ps).map (Flt.fin (F := F)) := by
  cases ps with
  | nil => rfl
  | cons p ps =>
    simp only [List.map_cons, cumsum, KMC.cumsum]
    rw [cumsumFrom_fin (hn p (by simp)) (fun q hq => hn q (by simp [hq]))
      (fun c hc => hl c (by simp [KMC.cumsum, hc]))]

/-- Rates not below zero: every running sum is a number not below zero or infinite, and once infinite it stays so. -/
theorem cumsumFrom_shape {acc : Flt F} {ps : List (Flt F)} (ha : acc = .posInf ∨ ∃ x, acc = .fin x ∧ 0 ≤ x)
    (hn : NotNegative F ps) (j : Nat) {c : Flt F} (hc : (acc :: cumsumFrom acc ps)[j]? = some c) :
    (c = .posInf ∨ ∃ x, c = .fin x ∧ 0 ≤ x) ∧ (acc = .posInf → c = .posInf) := by
  induction ps generalizing acc j with
  | nil =>
    cases j with
    | zero => simp [cumsumFrom] at hc; subst hc; exact ⟨ha, id⟩
    | succ j => simp [cumsumFrom] at hc
  | cons p ps ih =>
    cases j with
    | zero => simp at hc; subst hc; exact ⟨ha, id⟩
    | succ j =>
      simp only [cumsumFrom, List.getElem?_cons_succ] at hc
      have hp := hn p (by simp)
      have h1 : (acc.add p = .posInf ∨ ∃ x, acc.add p = .fin x ∧ 0 ≤ x) ∧ (acc = .posInf → acc.add p = .posInf) := by
        rcases ha with rfl | ⟨x, rfl, hx⟩
        · rcases hp with rfl | ⟨y, rfl, -, hy⟩ <;> exact ⟨.inl rfl, fun _ => rfl⟩
        · refine ⟨?_, by simp⟩
          rcases hp with rfl | ⟨y, rfl, -, hy⟩
          · exact .inl rfl
          · have h0 : 0 ≤ F.rnd (x + y) := rnd_nonneg (by linarith)
            simp only [Flt.add, Flt.round]
            split
            · exact .inl rfl
            · rw [if_neg (by have := limit_pos F; linarith)]
              exact .inr ⟨_, rfl, h0⟩
      obtain ⟨h2, h3⟩ := ih h1.1 (fun q hq => hn q (by simp [hq])) j hc
      exact ⟨h2, fun h => h3 (h1.2 h)⟩

theorem cumsum_shape {ps : List (Flt F)} (hn : NotNegative F ps) {j : Nat} {c : Flt F}
    (hc : (cumsum ps)[j]? = some c) : c = .posInf ∨ ∃ x, c = .fin x ∧ 0 ≤ x := by
  cases ps with
  | nil => simp [cumsum] at hc
  | cons p ps =>
    refine (cumsumFrom_shape ?_ (fun q hq => hn q (by simp [hq])) j hc).1
    rcases hn p (by simp) with h | ⟨x, h, -, hx⟩
    · exact .inl h
    · exact .inr ⟨x, h, hx⟩

theorem cumsumFrom_drop (acc : Flt F) (ps : List (Flt F)) (j : Nat) {c : Flt F}
    (hc : (acc :: cumsumFrom acc ps)[j]? = some c) :
    (acc :: cumsumFrom acc ps).drop j = c :: cumsumFrom c (ps.drop j) := by
  induction ps generalizing acc j with
  | nil =>
    cases j with
    | zero => simp at hc; subst hc; simp [cumsumFrom]
    | succ j => simp [cumsumFrom] at hc
  | cons p ps ih =>
    cases j with
    | zero => simp at hc; subst hc; simp
    | succ j =>
      simp only [cumsumFrom, List.getElem?_cons_succ, List.drop_succ_cons] at hc ⊢
      exact ih _ j hc

theorem cumsum_stays_inf {ps : List (Flt F)} (hn : NotNegative F ps) {i j : Nat} (hij : i ≤ j)
    (hi : (cumsum ps)[i]? = some .posInf) {c : Flt F} (hc : (cumsum ps)[j]? = some c) : c = .posInf := by
  cases ps with
  | nil => simp [cumsum] at hc
  | cons p ps =>
    have hd := cumsumFrom_drop p ps i hi
    have hc' : ((p :: cumsumFrom p ps).drop i)[j - i]? = some c := by
      rw [List.getElem?_drop]; rw [show i + (j - i) = j by omega]; exact hc
    rw [hd] at hc'
    exact (cumsumFrom_shape (.inl rfl) (fun q hq => hn q (by
      have := List.mem_of_mem_drop hq; simp [this])) (j - i) hc').2 rfl

section
variable {σ φ M R T U : Type}

/-- Every entry of the rate table is one the model could give for its event. -/
structure TableGood (k : Kernel R T U) (Good : Event → R → Prop) (s : Sim σ φ M R T) : Prop where
  length : s.prob.length = s.lib.events.length
  good : ∀ (j : Nat) e p, s.lib.events[j]? = some e → s.prob[j]? = some p → Good e p
  cum : s.cum = k.cumsum s.prob

theorem recompute_good (m : RateModel M R T) (Good : Event → R → Prop)
    (hm : ∀ ms e st p, m.computeProbability ms e st = .ok p → Good e p) (events : List Event) (ms : M)
    (st : State T) (is : List Int) (prob prob' : List R) (hl : prob.length = events.length)
    (hg : ∀ (j : Nat) e p, events[j]? = some e → prob[j]? = some p → Good e p)
    (h : recompute m events ms st is prob = (.ok (), prob')) :
    prob'.length = events.length ∧
      ∀ (j : Nat) e p, events[j]? = some e → prob'[j]? = some p → Good e p := by
  induction is generalizing prob with
  | nil => simp only [recompute, Prod.mk.injEq, true_and] at h; subst h; exact ⟨hl, hg⟩
  | cons i is ih =>
    unfold recompute at h
    cases h1 : pyGet events i with
    | error x => rw [h1] at h; cases h
    | ok e =>
      rw [h1] at h
      simp only at h
      cases h2 : m.computeProbability ms e st with
      | error x => rw [h2] at h; cases h
      | ok p =>
        rw [h2] at h
        simp only at h
        cases h3 : pySet prob i p with
        | error x => rw [h3] at h; cases h
        | ok prob1 =>
          rw [h3] at h
          simp only at h
          obtain ⟨k, hk, hke⟩ := pyGet_ok_iff.1 h1
          unfold pySet at h3
          rw [hl, hk] at h3
          cases h3
          refine ih _ (by simpa using hl) ?_ h
          intro j e' p' he' hp'
          by_cases hj : j = k
          · subst hj
            rw [hke] at he'; cases he'
            have : j < prob.length := by
              rw [hl]; exact (List.getElem?_eq_some_iff.1 hke).1
            simp [this] at hp'
            subst hp'
            exact hm _ _ _ _ h2
          · rw [List.getElem?_set_ne (Ne.symm hj)] at hp'
            exact hg j e' p' he' hp'

theorem update_good [Add T] {k : Kernel R T U} {m : RateModel M R T} {Good : Event → R → Prop}
    (hm : ∀ ms e st p, m.computeProbability ms e st = .ok p → Good e p) {s s' : Sim σ φ M R T} {e : Event} {dt : T}
    (hg : TableGood k Good s) (h : s.update k m e dt = (.ok (), s')) :
    TableGood k Good s' ∧ s'.lib = s.lib := by
  obtain ⟨st, ms, i, prob, -, -, -, h4, rfl⟩ := update_ok h
  obtain ⟨h5, h6⟩ := recompute_good m Good hm _ _ _ _ _ _ hg.length hg.good h4
  exact ⟨⟨h5, h6, rfl⟩, rfl⟩

theorem fresh_good {k : Kernel R T U} {m : RateModel M R T} {Good : Event → R → Prop}
    (hm : ∀ ms e st p, m.computeProbability ms e st = .ok p → Good e p) {s : Sim σ φ M R T}
    (hf : TableFresh k m s) : TableGood k Good s := by
  refine ⟨hf.length, ?_, hf.cum⟩
  intro j e p he hp
  obtain ⟨q, hq, hc⟩ := hf.fresh j e he
  rw [hp] at hq; cases hq
  exact hm _ _ _ _ hc

/-- Something true of every proposal from a good table is true of every proposal of a history. -/
theorem steps_good [Add T] [Zero T] {k : Kernel R T U} {m : RateModel M R T} {Good : Event → R → Prop}
    (hm : ∀ ms e st p, m.computeProbability ms e st = .ok p → Good e p) {rng : Nat → U × U} {a : Bool}
    {lib : EventLib σ φ} (P : Event × T → Prop)
    (hP : ∀ (s : Sim σ φ M R T) (c : Nat) p, s.lib = lib → TableGood k Good s →
      s.propose k (rng c).1 (rng c).2 = .ok p → P p)
    {c : Nat} {s s' : Sim σ φ M R T} {h : List (Event × T)} (hs : Steps k m rng a c s h s')
    (hl : s.lib = lib) (hg : TableGood k Good s) :
    (∀ p ∈ h, P p) ∧ s'.lib = lib ∧ TableGood k Good s' := by
  induction hs with
  | nil => exact ⟨by simp, hl, hg⟩
  | @cons c s s1 s2 e dt h hp hu hs ih =>
    obtain ⟨g1, g2⟩ := update_good hm hg hu
    obtain ⟨i1, i2⟩ := ih (g2.trans hl) g1
    refine ⟨?_, i2⟩
    intro p hp'
    rcases List.mem_cons.1 hp' with rfl | hp'
    · exact hP s c _ hl hg hp
    · exact i1 p hp'

/-- The time after a history. -/
theorem steps_time [Add T] [Zero T] {k : Kernel R T U} {m : RateModel M R T} {rng : Nat → U × U} {a : Bool}
    {c : Nat} {s s' : Sim σ φ M R T} {h : List (Event × T)} (hs : Steps k m rng a c s h s') :
    s'.st.time = h.foldl (fun t p => t + if a then p.2 else 0) s.st.time := by
  induction hs with
  | nil => rfl
  | @cons c s s1 s2 e dt h hp hu hs ih =>
    obtain ⟨st, ms, i, prob, h1, -, -, -, rfl⟩ := update_ok hu
    obtain ⟨f, t, i, j, hi, hj, he, -, -, rfl⟩ := applyEvent_ok h1
    rw [ih]; rfl

/-- Executing one and the same event over and over. -/
theorem steps_same_event [Add T] [Zero T] {k : Kernel R T U} {m : RateModel M R T} {rng : Nat → U × U} {a : Bool}
    {c : Nat} {s s' : Sim σ φ M R T} {h : List (Event × T)} (hs : Steps k m rng a c s h s') {e : Event}
    (he : ∀ p ∈ h, p.1 = e) :
    (h.length % 2 = 0 → s'.st.occ = s.st.occ) ∧
    (h.length % 2 = 1 → ∃ dt st, s.st.applyEvent e dt = (.ok (), st) ∧ s'.st.occ = st.occ) := by
  induction hs with
  | nil => simp
  | @cons c s s1 s2 e' dt h hp hu hs ih =>
    have hee : e' = e := he (e', dt) (by simp)
    subst hee
    obtain ⟨st, ms, i, prob, h1, -, -, -, rfl⟩ := update_ok hu
    obtain ⟨i1, i2⟩ := ih (fun p hp => he p (by simp [hp]))
    simp only [List.length_cons]
    constructor
    · intro hl
      obtain ⟨dt', st', h2, h3⟩ := i2 (by omega)
      simp only at h2
      rw [h3]
      obtain ⟨f, t, a1, b1, ha, hb, hm, d1, d2, rfl⟩ := applyEvent_ok h1
      obtain ⟨f', t', a2, b2, ha2, hb2, hm2, d3, d4, rfl⟩ := applyEvent_ok h2
      rw [hm] at hm2
      cases hm2
      simp only [List.length_set] at d3 d4
      rw [d1] at d3; rw [d2] at d4
      cases d3; cases d4
      have x1 := set_set_exchanged ha hb
      have x2 := set_set_exchanged ha2 hb2
      exact exchanged_unique x2 (exchanged_symm x1)
    · intro hl
      exact ⟨_, _, h1, i1 (by omega)⟩

end

end Overflow
end KMC
