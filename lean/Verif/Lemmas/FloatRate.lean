import Verif.Spec.FloatRate
import Verif.Props.CompositeProps
import Verif.Lemmas.Description
/-
Rounding errors of the rates.
-/
namespace KMC
open Spec

/-- `y` approximates `x`, which is at most `a`, after `n` roundings. -/
def Approx (u : ℝ) (n : Nat) (a x y : ℝ) : Prop := |x| ≤ a ∧ |y - x| ≤ ((1 + u) ^ n - 1) * a

section near
variable {u : ℝ} (hu : 0 ≤ u)
include hu

theorem one_le_growth (n : Nat) : 1 ≤ (1 + u) ^ n := one_le_pow₀ (by linarith)

theorem Approx.nonneg {n : Nat} {a x y : ℝ} (h : Approx u n a x y) : 0 ≤ a := (abs_nonneg x).trans h.1

theorem Approx.mono {n k : Nat} {a x y : ℝ} (h : Approx u n a x y) (hk : n ≤ k) : Approx u k a x y := by
  refine ⟨h.1, h.2.trans ?_⟩
  have : (1 + u) ^ n ≤ (1 + u) ^ k := pow_le_pow_right₀ (by linarith) hk
  exact mul_le_mul_of_nonneg_right (by linarith) (h.nonneg hu)

theorem near_exact {n : Nat} {a x : ℝ} (h : |x| ≤ a) : Approx u n a x x := by
  refine ⟨h, ?_⟩
  rw [sub_self, abs_zero]
  have := one_le_growth hu n
  exact mul_nonneg (by linarith) ((abs_nonneg x).trans h)

theorem Approx.abs_le {n : Nat} {a x y : ℝ} (h : Approx u n a x y) : |y| ≤ (1 + u) ^ n * a := by
  have h1 : |y| ≤ |x| + |y - x| := by
    have := abs_add_le x (y - x)
    rwa [add_sub_cancel] at this
  have := h.1
  have := h.2
  nlinarith

theorem Approx.rnd {R : Rounding} (hR : Accurate R u) {n : Nat} {a x y : ℝ} (h : Approx u n a x y) :
    Approx u (n + 1) a x (R.rnd y) := by
  refine ⟨h.1, ?_⟩
  have h1 := hR y
  have h2 := h.abs_le hu
  have h3 : |R.rnd y - x| ≤ |R.rnd y - y| + |y - x| := by
    have := abs_add_le (R.rnd y - y) (y - x)
    rwa [sub_add_sub_cancel] at this
  have h4 : u * |y| ≤ u * ((1 + u) ^ n * a) := mul_le_mul_of_nonneg_left h2 hu
  have := h.2
  rw [pow_succ]
  nlinarith

theorem Approx.add {n : Nat} {a b x y z w : ℝ} (h : Approx u n a x y) (h' : Approx u n b z w) :
    Approx u n (a + b) (x + z) (y + w) := by
  refine ⟨(abs_add_le x z).trans (add_le_add h.1 h'.1), ?_⟩
  have h1 : |y + w - (x + z)| ≤ |y - x| + |w - z| := by
    have := abs_add_le (y - x) (w - z)
    have e : y - x + (w - z) = y + w - (x + z) := by ring
    rwa [e] at this
  have := h.2
  have := h'.2
  linarith

theorem Approx.mul {n k : Nat} {a b x y z w : ℝ} (h : Approx u n a x y) (h' : Approx u k b z w) :
    Approx u (n + k) (a * b) (x * z) (y * w) := by
  refine ⟨by rw [abs_mul]; exact mul_le_mul h.1 h'.1 (abs_nonneg _) (h.nonneg hu), ?_⟩
  have h1 : |y * w - x * z| ≤ |y - x| * |w| + |x| * |w - z| := by
    have := abs_add_le ((y - x) * w) (x * (w - z))
    have e : (y - x) * w + x * (w - z) = y * w - x * z := by ring
    rw [e, abs_mul, abs_mul] at this
    exact this
  have h2 := h'.abs_le hu
  have g1 := one_le_growth hu n
  have g2 := one_le_growth hu k
  have ha := h.nonneg hu
  have hb := h'.nonneg hu
  have h3 : |y - x| * |w| ≤ ((1 + u) ^ n - 1) * a * ((1 + u) ^ k * b) :=
    mul_le_mul h.2 h2 (abs_nonneg _) (mul_nonneg (by linarith) ha)
  have h4 : |x| * |w - z| ≤ a * (((1 + u) ^ k - 1) * b) := mul_le_mul h.1 h'.2 (abs_nonneg _) ha
  rw [pow_add]
  calc |y * w - x * z| ≤ _ := h1
    _ ≤ _ := add_le_add h3 h4
    _ = _ := by ring

theorem Approx.neg {n : Nat} {a x y : ℝ} (h : Approx u n a x y) : Approx u n a (-x) (-y) := by
  refine ⟨by rw [abs_neg]; exact h.1, ?_⟩
  have e : -y - -x = -(y - x) := by ring
  rw [e, abs_neg]
  exact h.2

end near

/-! ### Results of three computations: the sizes, the exact one, the rounded one -/

/-- The three computations fail with the same exception, or succeed with values related by `P`. -/
inductive Alike {α β γ : Type} (P : α → β → γ → Prop) : Py α → Py β → Py γ → Prop
  | error (x : PyErr) : Alike P (.error x) (.error x) (.error x)
  | ok {a : α} {b : β} {c : γ} : P a b c → Alike P (.ok a) (.ok b) (.ok c)

/-- Lists related entry by entry. -/
inductive NearAll (u : ℝ) (n : Nat) : List ℝ → List ℝ → List ℝ → Prop
  | nil : NearAll u n [] [] []
  | cons {a x y : ℝ} {as xs ys : List ℝ} : Approx u n a x y → NearAll u n as xs ys →
      NearAll u n (a :: as) (x :: xs) (y :: ys)

theorem NearAll.lengths {u : ℝ} {n : Nat} {as xs ys : List ℝ} (h : NearAll u n as xs ys) :
    as.length = xs.length ∧ ys.length = xs.length := by
  induction h with
  | nil => exact ⟨rfl, rfl⟩
  | cons _ _ ih => simp [ih.1, ih.2]

/-! ### Absolute values pass through the loops -/

theorem clusterProduct_abs (occ : List Int) (c : List Int) (acc : ℝ) :
    LCE.clusterProduct (K := ℝ) (occ.map fun v => |v|) c |acc| =
      (LCE.clusterProduct (K := ℝ) occ c acc).map fun x => |x| := by
  induction c generalizing acc with
  | nil => rfl
  | cons s ss ih =>
    simp only [LCE.clusterProduct, pyGet_map']
    cases pyGet occ s with
    | error x => rfl
    | ok v =>
      simp only [Except.map]
      rw [Int.cast_abs, ← abs_mul]
      exact ih _

theorem pyGetAll_map' {α β : Type} (f : α → β) (l : List α) (is : List Int) :
    pyGetAll (l.map f) is = (pyGetAll l is).map fun r => r.map f := by
  induction is with
  | nil => rfl
  | cons i is ih =>
    simp only [pyGetAll, pyGet_map', ih]
    cases pyGet l i with
    | error x => rfl
    | ok a =>
      simp only [Except.map]
      cases pyGetAll l is <;> rfl

/-- The table with absolute values. -/
noncomputable def absTable (t : List (List (List ℝ))) : List (List (List ℝ)) :=
  t.map fun rows => rows.map fun row => row.map fun x => |x|

theorem tableGet_abs (t : List (List (List ℝ))) (a b c : Int) :
    LCE.tableGet (absTable t) a b c = (LCE.tableGet t a b c).map fun x => |x| := by
  simp only [LCE.tableGet, absTable, pyGet_map']
  cases pyGet t a with
  | error x => rfl
  | ok rows =>
    simp only [Except.map, pyGet_map']
    cases pyGet rows b with
    | error x => rfl
    | ok row => simp only [Except.map, pyGet_map']

/-! ### The correlations -/

section loops
variable {u : ℝ} (hu : 0 ≤ u) {R : Rounding} (hR : Accurate R u)
include hu hR

theorem orbitSum_near (occ : List Int) (cs : List (List Int)) {n : Nat} {a x y : ℝ} (h : Approx u n a x y) :
    Alike (Approx u (n + cs.length)) (LCE.orbitSum (K := ℝ) (occ.map fun v => |v|) cs a)
      (LCE.orbitSum (K := ℝ) occ cs x) (LCE.orbitSumFloat R occ cs y) := by
  induction cs generalizing n a x y with
  | nil => exact .ok h
  | cons c cs ih =>
    have e := clusterProduct_abs occ c 1
    rw [abs_one] at e
    simp only [LCE.orbitSum, LCE.orbitSumFloat, e]
    cases LCE.clusterProduct (K := ℝ) occ c 1 with
    | error x => exact .error x
    | ok p =>
      simp only [Except.map]
      have h1 : Approx u (n + 1) (a + |p|) (x + p) (R.rnd (y + p)) :=
        (h.add hu (near_exact hu (le_refl |p|))).rnd hu hR
      have h2 := ih h1
      rw [List.length_cons, Nat.add_comm cs.length 1, ← Nat.add_assoc]
      exact h2

theorem calcCorr_near (occ : List Int) (orbits : List (List (List Int))) (c : Nat)
    (hc : ∀ o ∈ orbits, o.length ≤ c) :
    Alike (NearAll u c) (LCE.calcCorr (K := ℝ) (occ.map fun v => |v|) orbits)
      (LCE.calcCorr (K := ℝ) occ orbits) (LCE.calcCorrFloat R occ orbits) := by
  induction orbits with
  | nil => exact .ok .nil
  | cons o os ih =>
    have h0 : Approx u 0 0 0 0 := near_exact hu (by simp)
    have h1 := orbitSum_near hu hR occ o h0
    have h2 := ih fun o' ho => hc o' (List.mem_cons_of_mem _ ho)
    have hl : 0 + o.length ≤ c := by rw [Nat.zero_add]; exact hc o List.mem_cons_self
    simp only [LCE.calcCorr, LCE.calcCorrFloat]
    revert h1 h2
    generalize LCE.orbitSum (K := ℝ) (occ.map fun v => |v|) o 0 = A
    generalize LCE.orbitSum (K := ℝ) occ o 0 = B
    generalize LCE.orbitSumFloat R occ o 0 = C
    generalize LCE.calcCorr (K := ℝ) (occ.map fun v => |v|) os = A'
    generalize LCE.calcCorr (K := ℝ) occ os = B'
    generalize LCE.calcCorrFloat R occ os = C'
    intro h1 h2
    cases h1 with
    | error x => exact .error x
    | ok h1 =>
      cases h2 with
      | error x => exact .error x
      | ok h2 => exact .ok (.cons (h1.mono hu hl) h2)

theorem clusterProductDecorated_near (t : List (List (List ℝ))) (occ : List Int) (ss bs : List Int)
    {n : Nat} {a x y : ℝ} (h : Approx u n a x y) :
    Alike (Approx u (n + ss.length)) (LCE.clusterProductDecorated (absTable t) occ ss bs a)
      (LCE.clusterProductDecorated t occ ss bs x) (LCE.clusterProductDecoratedFloat R t occ ss bs y) := by
  induction ss generalizing bs n a x y with
  | nil => exact .ok h
  | cons s ss ih =>
    cases bs with
    | nil => exact .error _
    | cons b bs =>
      simp only [LCE.clusterProductDecorated, LCE.clusterProductDecoratedFloat]
      cases pyGet occ s with
      | error x => exact .error x
      | ok state =>
        simp only [tableGet_abs]
        cases LCE.tableGet t s state b with
        | error x => exact .error x
        | ok v =>
          simp only [Except.map]
          have h1 : Approx u (n + 1) (a * |v|) (x * v) (R.rnd (y * v)) :=
            (h.mul hu (near_exact (n := 0) hu (le_refl |v|))).rnd hu hR
          have h2 := ih bs h1
          rw [List.length_cons, Nat.add_comm ss.length 1, ← Nat.add_assoc]
          exact h2

theorem orbitSumDecorated_near (t : List (List (List ℝ))) (occ : List Int) (s : Nat) (cs bs : List (List Int))
    (hs : ∀ c ∈ cs, c.length ≤ s) {n : Nat} (hn : s ≤ n) {a x y : ℝ} (h : Approx u n a x y) :
    Alike (Approx u (n + cs.length)) (LCE.orbitSumDecorated (absTable t) occ cs bs a)
      (LCE.orbitSumDecorated t occ cs bs x) (LCE.orbitSumDecoratedFloat R t occ cs bs y) := by
  induction cs generalizing bs n a x y with
  | nil => exact .ok h
  | cons c cs ih =>
    cases bs with
    | nil => exact .error _
    | cons b bs =>
      have h0 : Approx u 0 1 1 1 := near_exact hu (by simp)
      have h1 := clusterProductDecorated_near hu hR t occ c b h0
      simp only [LCE.orbitSumDecorated, LCE.orbitSumDecoratedFloat]
      revert h1
      generalize LCE.clusterProductDecorated (absTable t) occ c b 1 = A
      generalize LCE.clusterProductDecorated t occ c b 1 = B
      generalize LCE.clusterProductDecoratedFloat R t occ c b 1 = C
      intro h1
      cases h1 with
      | error x => exact .error x
      | ok h1 =>
        have hl := hs c List.mem_cons_self
        have h2 := ((h.add hu (h1.mono hu (k := n) (by omega))).rnd hu hR)
        have h3 := ih bs (fun c' hc' => hs c' (List.mem_cons_of_mem _ hc')) (by omega) h2
        rw [List.length_cons, Nat.add_comm cs.length 1, ← Nat.add_assoc]
        exact h3

theorem calcCorrDecorated_near (t : List (List (List ℝ))) (occ : List Int) (s c : Nat)
    (orbits bases : List (List (List Int))) (hs : ∀ o ∈ orbits, ∀ cl ∈ o, cl.length ≤ s)
    (hc : ∀ o ∈ orbits, o.length ≤ c) :
    Alike (NearAll u (s + c)) (LCE.calcCorrDecorated (absTable t) occ orbits bases)
      (LCE.calcCorrDecorated t occ orbits bases) (LCE.calcCorrDecoratedFloat R t occ orbits bases) := by
  induction orbits generalizing bases with
  | nil => exact .ok .nil
  | cons o os ih =>
    cases bases with
    | nil => exact .error _
    | cons b bs =>
      have h0 : Approx u s 0 0 0 := near_exact hu (by simp)
      have h1 := orbitSumDecorated_near hu hR t occ s o b (hs o List.mem_cons_self) (le_refl s) h0
      have h2 := ih bs (fun o' ho => hs o' (List.mem_cons_of_mem _ ho))
        fun o' ho => hc o' (List.mem_cons_of_mem _ ho)
      have hl : s + o.length ≤ s + c := by
        have := hc o List.mem_cons_self
        omega
      simp only [LCE.calcCorrDecorated, LCE.calcCorrDecoratedFloat]
      revert h1 h2
      generalize LCE.orbitSumDecorated (absTable t) occ o b 0 = A
      generalize LCE.orbitSumDecorated t occ o b 0 = B
      generalize LCE.orbitSumDecoratedFloat R t occ o b 0 = C
      generalize LCE.calcCorrDecorated (absTable t) occ os bs = A'
      generalize LCE.calcCorrDecorated t occ os bs = B'
      generalize LCE.calcCorrDecoratedFloat R t occ os bs = C'
      intro h1 h2
      cases h1 with
      | error x => exact .error x
      | ok h1 =>
        cases h2 with
        | error x => exact .error x
        | ok h2 => exact .ok (.cons (h1.mono hu hl) h2)

theorem innerFrom_near {n : Nat} {as xs ys : List ℝ} (h : NearAll u n as xs ys) (ks : List ℝ)
    (hl : xs.length = ks.length) {k : Nat} (hk : n + 1 ≤ k) {a x y : ℝ} (h0 : Approx u k a x y) :
    Approx u (k + xs.length) (a + (List.zipWith (· * ·) as (ks.map fun v => |v|)).sum)
      (x + (List.zipWith (· * ·) xs ks).sum) (LCE.innerFrom R y ys ks) := by
  induction h generalizing ks k a x y with
  | nil =>
    simp only [List.zipWith_nil_left, List.sum_nil, add_zero, List.length_nil, LCE.innerFrom]
    exact h0
  | cons h1 _ ih =>
    cases ks with
    | nil => simp at hl
    | cons v ks =>
      have h2 := ((h1.mul hu (near_exact (n := 0) hu (le_refl |v|))).rnd hu hR).mono hu (k := k) (by omega)
      have h3 := (h0.add hu h2).rnd hu hR
      have h4 := ih ks (by simpa using hl) (k := k + 1) (by omega) h3
      simp only [List.map_cons, List.zipWith_cons_cons, List.sum_cons, List.length_cons, LCE.innerFrom]
      rw [← add_assoc a, ← add_assoc x, Nat.add_comm (List.length _) 1, ← Nat.add_assoc k]
      exact h4

theorem npInner_near {n : Nat} {as xs ys : List ℝ} (h : NearAll u n as xs ys) (ks : List ℝ) :
    Alike (Approx u (n + 1 + xs.length)) (LCE.npInner as (ks.map fun v => |v|)) (LCE.npInner xs ks)
      (LCE.npInnerFloat R ys ks) := by
  obtain ⟨l1, l2⟩ := h.lengths
  simp only [LCE.npInner, LCE.npInnerFloat, List.length_map, l1, l2]
  by_cases hl : xs.length = ks.length
  · simp only [if_pos hl]
    have h0 : Approx u (n + 1) 0 0 0 := near_exact hu (by simp)
    have := innerFrom_near hu hR h ks hl (le_refl _) h0
    rw [zero_add, zero_add] at this
    exact .ok this
  · simp only [if_neg hl]
    exact .error _

omit hu hR in
theorem absolute_validate (m : LCE ℝ) (keci : List ℝ) (fps : Option (List String)) (hash : Option String) :
    (absoluteLCE m).validateParameterOrbits (keci.map fun v => |v|) fps hash =
      (m.validateParameterOrbits keci fps hash).map fun l => l.map fun v => |v| := by
  have e1 : (absoluteLCE m).getOrbitFingerprints = m.getOrbitFingerprints := rfl
  have e2 : (absoluteLCE m).environmentHash = m.environmentHash := rfl
  simp only [LCE.validateParameterOrbits, e1, e2, List.length_map]
  by_cases h1 : m.getOrbitFingerprints ≠ [] ∧ keci.length ≠ m.getOrbitFingerprints.length
  · rw [if_pos h1, if_pos h1]; rfl
  · rw [if_neg h1, if_neg h1]
    by_cases h2 : m.environmentHash.getD "" ≠ "" ∧ hash ≠ none ∧ hash ≠ m.environmentHash
    · rw [if_pos h2, if_pos h2]; rfl
    · rw [if_neg h2, if_neg h2]
      cases fps with
      | none => rfl
      | some fps =>
        dsimp only
        by_cases h3 : fps.length ≠ m.getOrbitFingerprints.length
        · rw [if_pos h3, if_pos h3]; rfl
        · rw [if_neg h3, if_neg h3]
          by_cases h4 : fps ≠ m.getOrbitFingerprints
          · rw [if_pos h4, if_pos h4]; rfl
          · rw [if_neg h4, if_neg h4]; rfl

omit hu hR in
theorem calcCorr_length (occ : List Int) (orbits : List (List (List Int))) (l : List ℝ)
    (h : LCE.calcCorr (K := ℝ) occ orbits = .ok l) : l.length = orbits.length := by
  induction orbits generalizing l with
  | nil => cases h; rfl
  | cons o os ih =>
    simp only [LCE.calcCorr] at h
    split at h
    · cases h
    · split at h
      · cases h
      · rename_i vs hv
        cases h
        simp [ih vs hv]

omit hu hR in
theorem calcCorrDecorated_length (t : List (List (List ℝ))) (occ : List Int)
    (orbits bases : List (List (List Int))) (l : List ℝ)
    (h : LCE.calcCorrDecorated t occ orbits bases = .ok l) : l.length = orbits.length := by
  induction orbits generalizing l bases with
  | nil => cases h; rfl
  | cons o os ih =>
    cases bases with
    | nil => cases h
    | cons b bs =>
      simp only [LCE.calcCorrDecorated] at h
      split at h
      · cases h
      · split at h
        · cases h
        · rename_i vs hv
          cases h
          simp [ih bs vs hv]

theorem correlation_near (m : LCE ℝ) (occ : List Int) {s c k : Nat} (hm : SizeAtMost m s c k) :
    Alike (fun as xs ys => NearAll u (s + c) as xs ys ∧ xs.length ≤ k)
      ((absoluteLCE m).calculateCorrelation (absoluteOcc m occ)) (m.calculateCorrelation occ)
      (m.calculateCorrelationFloat R occ) := by
  have hf := hm.features
  have undecorated : Alike (fun as xs ys => NearAll u (s + c) as xs ys ∧ xs.length ≤ k)
      (LCE.calcCorr (K := ℝ) (occ.map fun v => |v|) m.clusterSiteIndices)
      (LCE.calcCorr (K := ℝ) occ m.clusterSiteIndices) (LCE.calcCorrFloat R occ m.clusterSiteIndices) := by
    have h := calcCorr_near hu hR occ m.clusterSiteIndices (s + c) fun o ho =>
      (hm.clusters o ho).trans (Nat.le_add_left c s)
    have hl := calcCorr_length occ m.clusterSiteIndices
    revert h hl
    generalize LCE.calcCorr (K := ℝ) (occ.map fun v => |v|) m.clusterSiteIndices = A
    generalize LCE.calcCorr (K := ℝ) occ m.clusterSiteIndices = B
    generalize LCE.calcCorrFloat R occ m.clusterSiteIndices = C
    intro h hl
    cases h with
    | error x => exact .error x
    | ok h => exact .ok ⟨h, by rw [hl _ rfl]; exact hf⟩
  cases hb : m.basisIndices with
  | none =>
    have e1 : absoluteOcc m occ = occ.map fun v => |v| := by simp only [absoluteOcc, hb]
    simp only [LCE.calculateCorrelation, LCE.calculateCorrelationFloat, absoluteLCE, hb, e1]
    exact undecorated
  | some b =>
    cases ht : m.siteBasisValues with
    | none =>
      have e1 : absoluteOcc m occ = occ.map fun v => |v| := by simp only [absoluteOcc, hb, ht]
      simp only [LCE.calculateCorrelation, LCE.calculateCorrelationFloat, absoluteLCE, hb, ht, e1,
        Option.map_none]
      exact undecorated
    | some t =>
      have e1 : absoluteOcc m occ = occ := by simp only [absoluteOcc, hb, ht]
      simp only [LCE.calculateCorrelation, LCE.calculateCorrelationFloat, absoluteLCE, hb, ht, e1,
        Option.map_some]
      have h := calcCorrDecorated_near hu hR t occ s c m.clusterSiteIndices b hm.sites hm.clusters
      have hl := calcCorrDecorated_length t occ m.clusterSiteIndices b
      simp only [absTable] at h
      revert h hl
      generalize LCE.calcCorrDecorated (t.map fun rows => rows.map fun row => row.map fun x => |x|) occ
        m.clusterSiteIndices b = A
      generalize LCE.calcCorrDecorated t occ m.clusterSiteIndices b = B
      generalize LCE.calcCorrDecoratedFloat R t occ m.clusterSiteIndices b = C
      intro h hl
      cases h with
      | error x => exact .error x
      | ok h => exact .ok ⟨h, by rw [hl _ rfl]; exact hf⟩

omit hu hR in
theorem absoluteOcc_surroundings (m : LCE ℝ) (occ : List Int) (env : List Int) :
    pyGetAll (absoluteOcc m occ) env = (pyGetAll occ env).map fun l => absoluteOcc m l := by
  simp only [absoluteOcc]
  split
  · cases pyGetAll occ env <;> rfl
  · exact pyGetAll_map' _ _ _

/-- The value of an expansion: the three computations go alike. -/
theorem compute_near (m : LCE ℝ) (occ : List Int) (e : Event) {s c k : Nat} (hm : SizeAtMost m s c k) :
    Alike (Approx u (s + c + k + 2)) (magnitude m occ e) (m.compute occ e) (m.computeFloat R occ e) := by
  simp only [magnitude, LCE.compute, LCE.computeFloat]
  cases hk : m.keci with
  | none =>
    have e1 : (absoluteLCE m).keci = none := by simp [absoluteLCE, hk]
    simp only [e1]
    exact .error _
  | some keci =>
    have e1 : (absoluteLCE m).keci = some (keci.map fun v => |v|) := by simp [absoluteLCE, hk]
    cases he : m.emptyCluster with
    | none =>
      have e2 : (absoluteLCE m).emptyCluster = none := by simp [absoluteLCE, he]
      simp only [e1, e2]
      exact .error _
    | some e0 =>
      have e2 : (absoluteLCE m).emptyCluster = some |e0| := by simp [absoluteLCE, he]
      have e3 := absolute_validate m keci m.parameterFingerprints m.parameterHash
      have e4 : (absoluteLCE m).parameterFingerprints = m.parameterFingerprints := rfl
      have e5 : (absoluteLCE m).parameterHash = m.parameterHash := rfl
      simp only [e1, e2, e4, e5, e3]
      cases m.validateParameterOrbits keci m.parameterFingerprints m.parameterHash with
      | error x => exact .error x
      | ok keci =>
        simp only [Except.map]
        rw [absoluteOcc_surroundings]
        cases pyGetAll occ e.env with
        | error x => exact .error x
        | ok l =>
          simp only [Except.map]
          have h := correlation_near hu hR m l hm
          revert h
          generalize (absoluteLCE m).calculateCorrelation (absoluteOcc m l) = A
          generalize m.calculateCorrelation l = B
          generalize m.calculateCorrelationFloat R l = C
          intro h
          cases h with
          | error x => exact .error x
          | @ok as xs ys h =>
            have h2 := npInner_near hu hR h.1 keci
            dsimp only
            revert h2
            generalize LCE.npInner as (keci.map fun v => |v|) = A
            generalize LCE.npInner xs keci = B
            generalize LCE.npInnerFloat R ys keci = C
            intro h2
            cases h2 with
            | error x => exact .error x
            | ok h2 =>
              have h3 := (h2.add hu (near_exact hu (le_refl |e0|))).rnd hu hR
              exact .ok (h3.mono hu (by omega))

end loops
end KMC
