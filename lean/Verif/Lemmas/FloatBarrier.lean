import Verif.Spec.FloatBarrier
import Verif.Lemmas.FloatRate
/-
Rates of local barrier models in floating-point arithmetic beside exact ones.
-/
namespace KMC
open Spec LocalBarrier

variable {u ε : ℝ} {R : Rounding} {expf : ℝ → ℝ}

/-- A rate from an exponent that is nearly right. -/
theorem rate_of_exponent (hu : 0 ≤ u) (hu1 : u ≤ 1) (hR : Accurate R u) (hε : 0 ≤ ε) (hε1 : ε ≤ 1)
    (hexp : ExpWithin expf ε) {ν x y η : ℝ} (hν : 0 ≤ ν) (hη : |y - x| ≤ η) :
    BetweenFactors (lowFactor u ε η) (highFactor u ε η) (ν * Real.exp x) (R.rnd (ν * expf y)) := by
  obtain ⟨g1, g2⟩ := abs_le.1 hη
  have e1 : Real.exp (-η) * Real.exp x ≤ Real.exp y := by
    rw [← Real.exp_add]; exact Real.exp_le_exp.2 (by linarith)
  have e2 : Real.exp y ≤ Real.exp η * Real.exp x := by
    rw [← Real.exp_add]; exact Real.exp_le_exp.2 (by linarith)
  obtain ⟨f1, f2⟩ := abs_le.1 (hexp y)
  have l1 : (1 - ε) * (Real.exp (-η) * Real.exp x) ≤ expf y := by
    have := mul_le_mul_of_nonneg_left e1 (show 0 ≤ 1 - ε by linarith)
    linarith
  have l2 : expf y ≤ (1 + ε) * (Real.exp η * Real.exp x) := by
    have := mul_le_mul_of_nonneg_left e2 (show 0 ≤ 1 + ε by linarith)
    linarith
  have p0 : 0 ≤ expf y := le_trans (mul_nonneg (by linarith) (by positivity)) l1
  have m1 := mul_le_mul_of_nonneg_left l1 hν
  have m2 := mul_le_mul_of_nonneg_left l2 hν
  have q0 : 0 ≤ ν * expf y := mul_nonneg hν p0
  have r1 := hR (ν * expf y)
  rw [abs_of_nonneg q0] at r1
  obtain ⟨r2, r3⟩ := abs_le.1 r1
  refine ⟨?_, ?_⟩
  · have := mul_le_mul_of_nonneg_left m1 (show 0 ≤ 1 - u by linarith)
    calc _ = (1 - u) * (ν * ((1 - ε) * (Real.exp (-η) * Real.exp x))) := by unfold lowFactor; ring
      _ ≤ (1 - u) * (ν * expf y) := this
      _ ≤ _ := by linarith
  · have := mul_le_mul_of_nonneg_left m2 (show 0 ≤ 1 + u by linarith)
    calc R.rnd (ν * expf y) ≤ (1 + u) * (ν * expf y) := by linarith
      _ ≤ _ := this
      _ = _ := by unfold highFactor; ring

theorem low_mul_high (hu : 0 ≤ u) (hu1 : u ≤ 1) (hε : 0 ≤ ε) (hε1 : ε ≤ 1) (η : ℝ) :
    lowFactor u ε η * highFactor u ε η ≤ 1 := by
  unfold lowFactor highFactor
  have e1 : (1 - u) * (1 - ε) * Real.exp (-η) * ((1 + u) * (1 + ε) * Real.exp η) =
      ((1 - u) * (1 + u)) * ((1 - ε) * (1 + ε)) * (Real.exp (-η) * Real.exp η) := by ring
  rw [e1, ← Real.exp_add, neg_add_cancel, Real.exp_zero, mul_one]
  exact mul_le_one₀ (by nlinarith) (mul_nonneg (by linarith) (by linarith)) (by nlinarith)

/-- A barrier that the model gives is one it holds. -/
theorem compute_held {m : LocalBarrierModel} {b : ℝ} (hb : BarriersAtMost m b) {occ : List Int} {e : Event}
    {property : String} {q : ℚ} (h : m.compute occ e property = .ok (.fin q)) : |(q : ℝ)| ≤ b := by
  have mem : ∀ (d : List (String × PyFloat)) k v, dictGet d k = some v → ∃ p ∈ d, p.2 = v := by
    intro d k v hd
    induction d with
    | nil => cases hd
    | cons x d ih =>
      obtain ⟨k', w⟩ := x
      simp only [dictGet] at hd
      split at hd
      · exact ⟨_, List.mem_cons_self, Option.some.inj hd⟩
      · obtain ⟨p, hp, hv⟩ := ih hd
        exact ⟨p, List.mem_cons_of_mem _ hp, hv⟩
  have first : ∀ (rules : List Rule) ps, m.firstMatch occ e rules = .ok (some ps) → ∃ r ∈ rules, ps = r.props := by
    intro rules ps h
    induction rules with
    | nil => cases h
    | cons r rs ih =>
      simp only [LocalBarrierModel.firstMatch] at h
      split at h
      · cases h
      · cases h; exact ⟨r, by simp, rfl⟩
      · obtain ⟨q, hq, he⟩ := ih h
        exact ⟨q, by simp [hq], he⟩
  simp only [LocalBarrierModel.compute] at h
  split at h
  · cases h
  · rename_i ps hps
    split at h
    · cases h
    · rename_i v hv
      cases h
      obtain ⟨p, hp, hpv⟩ := mem _ _ _ hv
      simp only [LocalBarrierModel.matchedProperties] at hps
      split at hps
      · cases hps
      · rename_i d hd
        cases hps
        obtain ⟨r, hr, rfl⟩ := first _ _ hd
        exact hb.rules r hr p hp q hpv
      · split at hps
        · rename_i d hd
          cases hps
          exact hb.defaults _ hd p hp q hpv
        · split at hps
          · cases hps
          · split at hps <;> cases hps

theorem barrier_exponent (hu : 0 ≤ u) (hu1 : u ≤ 1 / 2) (hR : Accurate R u) {t : ℝ} (ht : 0 < t)
    (hinv : Approx u 2 (1 / t) (1 / t) (1 / R.rnd t)) {q b : ℝ} (hq : |q| ≤ b) :
    |R.rnd (-q / R.rnd t) - -q / t| ≤ roundingError u 3 (b / t) := by
  have h1 := (((near_exact (n := 0) hu hq).neg hu).mul hu hinv).rnd hu hR
  simp only [mul_one_div] at h1
  exact h1.2

end KMC
