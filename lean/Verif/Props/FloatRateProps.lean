import Verif.Lemmas.FloatRate
import Verif.Props.ClockProps
import Verif.Props.EquilibriumProps
import Verif.Props.LongRunProps
import Verif.Props.HomogeneousProps
/-
C136: rates in floating-point arithmetic.
-/
set_option linter.unusedSectionVars false

namespace KMC
open Spec

variable {u ε : ℝ} {R : Rounding} {expf : ℝ → ℝ} {s c k : Nat}

/-! ### Energies -/

/-- C136.  The value of an expansion in floating-point arithmetic.  It differs from the exact value by at most
`s + c + k + 2` roundings of a sum with all terms positive, if the clusters have at most `s` sites, the orbits at
most `c` clusters and the expansion at most `k` features. -/
theorem C136_energy (hu : 0 ≤ u) (hR : Accurate R u) (m : LCE ℝ) (occ : List Int) (e : Event)
    (hm : SizeAtMost m s c k) (E : ℝ) (h : m.compute occ e = .ok E) :
    ∃ F A, m.computeFloat R occ e = .ok F ∧ magnitude m occ e = .ok A ∧ |E| ≤ A ∧
      |F - E| ≤ roundingError u (s + c + k + 2) A := by
  have h1 := compute_near hu hR m occ e hm
  rw [h] at h1
  revert h1
  generalize magnitude m occ e = X
  generalize m.computeFloat R occ e = Y
  intro h1
  cases h1 with
  | ok h1 => exact ⟨_, _, rfl, rfl, h1.1, h1.2⟩

/-- C136.  Every expansion has some size, so the bound applies to every expansion. -/
theorem C136_sized (m : LCE ℝ) : ∃ s c k, SizeAtMost m s c k := by
  have bound : ∀ l : List Nat, ∃ b, ∀ x ∈ l, x ≤ b := by
    intro l
    exact ⟨l.sum, fun x hx => List.le_sum_of_mem hx⟩
  obtain ⟨s, hs⟩ := bound (m.clusterSiteIndices.flatten.map List.length)
  obtain ⟨c, hc⟩ := bound (m.clusterSiteIndices.map List.length)
  refine ⟨s, c, m.clusterSiteIndices.length, ⟨?_, ?_, le_refl _⟩⟩
  · intro o ho cl hcl
    exact hs _ (List.mem_map.2 ⟨cl, List.mem_flatten.2 ⟨o, ho, hcl⟩, rfl⟩)
  · intro o ho
    exact hc _ (List.mem_map.2 ⟨o, ho, rfl⟩)

/-- C136.  Rounding neither causes nor hides a failure: the computation in floating-point arithmetic raises an
exception exactly if the exact one does, and the same. -/
theorem C136_failures (hu : 0 ≤ u) (hR : Accurate R u) (m : LCE ℝ) (occ : List Int) (e : Event) (x : PyErr) :
    m.computeFloat R occ e = .error x ↔ m.compute occ e = .error x := by
  obtain ⟨s, c, k, hm⟩ := C136_sized m
  have h1 := compute_near hu hR m occ e hm
  revert h1
  generalize magnitude m occ e = X
  generalize m.compute occ e = Y
  generalize m.computeFloat R occ e = Z
  intro h1
  cases h1 with
  | error y => rfl
  | ok h1 => simp

/-! ### Rates -/

theorem inverse_near (hu : 0 ≤ u) (hu1 : u ≤ 1 / 2) (hR : Accurate R u) {t : ℝ} (ht : 0 < t) :
    Approx u 2 (1 / t) (1 / t) (1 / R.rnd t) := by
  have h1 := hR t
  rw [abs_of_pos ht] at h1
  obtain ⟨h2, h3⟩ := abs_le.1 h1
  have h4 : (1 - u) * t ≤ R.rnd t := by linarith
  have h5 : 0 < (1 - u) * t := mul_pos (by linarith) ht
  have h6 : 0 < R.rnd t := lt_of_lt_of_le h5 h4
  refine ⟨by rw [abs_of_pos (by positivity)], ?_⟩
  have e : 1 / R.rnd t - 1 / t = (t - R.rnd t) / (R.rnd t * t) := by
    field_simp
  rw [e, abs_div, abs_of_pos (mul_pos h6 ht), div_le_iff₀ (mul_pos h6 ht), abs_sub_comm]
  have e2 : ((1 + u) ^ 2 - 1) * (1 / t) * (R.rnd t * t) = (2 * u + u ^ 2) * R.rnd t := by
    field_simp
    ring
  rw [e2]
  have h7 : (2 * u + u ^ 2) * ((1 - u) * t) ≤ (2 * u + u ^ 2) * R.rnd t :=
    mul_le_mul_of_nonneg_left h4 (by positivity)
  have h8 : u * t ≤ (2 * u + u ^ 2) * ((1 - u) * t) := by
    have : 0 ≤ u * t * (1 - u - u ^ 2) := mul_nonneg (mul_nonneg hu ht.le) (by nlinarith)
    nlinarith
  linarith

theorem exponent_near (hu : 0 ≤ u) (hu1 : u ≤ 1 / 2) (hR : Accurate R u) {t : ℝ} (ht : 0 < t) {n : Nat}
    {A a a' D δ δ' : ℝ} (ha : Approx u n A a a') (hd : Approx u n D δ δ') :
    Approx u (n + 5) ((A + D / 2) / t) (-(a + δ / 2) / t)
      (R.rnd (-(R.rnd (a' + R.rnd (δ' / 2))) / R.rnd t)) := by
  have h1 : Approx u n (D / 2) (δ / 2) (δ' / 2) := by
    have h2 : |(1 / 2 : ℝ)| ≤ 1 / 2 := by rw [abs_of_pos (by norm_num)]
    have := hd.mul hu (near_exact (n := 0) hu h2)
    simp only [mul_one_div, Nat.add_zero] at this
    exact this
  have h2 := ((((ha.mono hu (Nat.le_succ n)).add hu (h1.rnd hu hR)).rnd hu hR).neg hu).mul hu
    (inverse_near hu hu1 hR ht)
  have h3 := h2.rnd hu hR
  simp only [mul_one_div] at h3
  exact h3

/-- The rate from its ingredients. -/
theorem arrhenius_within (hu : 0 ≤ u) (hu1 : u ≤ 1 / 2) (hR : Accurate R u) (hε : 0 ≤ ε) (hε1 : ε < 1)
    (hexp : ExpWithin expf ε) {kB temp ν : ℝ} (hT : 0 < kB * temp) (hν : 0 ≤ ν) {n : Nat}
    {A a a' D δ δ' b : ℝ} (ha : Approx u n A a a') (hd : Approx u n D δ δ') (hb : A + D / 2 ≤ b) :
    BetweenFactors (lowFactor u ε (roundingError u (n + 5) (b / (kB * temp))))
      (highFactor u ε (roundingError u (n + 5) (b / (kB * temp))))
      (ν * Real.exp (-(a + δ / 2) / (kB * temp))) (arrheniusFloat R expf kB temp ν a' δ') := by
  have h1 := exponent_near hu hu1 hR hT ha hd
  unfold arrheniusFloat
  revert h1
  generalize -(a + δ / 2) / (kB * temp) = x
  generalize R.rnd (-(R.rnd (a' + R.rnd (δ' / 2))) / R.rnd (kB * temp)) = y
  intro h1
  have hη : |y - x| ≤ roundingError u (n + 5) (b / (kB * temp)) := by
    refine h1.2.trans ?_
    have := one_le_growth hu (n + 5)
    exact mul_le_mul_of_nonneg_left (div_le_div_of_nonneg_right hb hT.le) (by linarith)
  revert hη
  generalize roundingError u (n + 5) (b / (kB * temp)) = η
  intro hη
  obtain ⟨g1, g2⟩ := abs_le.1 hη
  have e1 : Real.exp (-η) * Real.exp x ≤ Real.exp y := by
    rw [← Real.exp_add]; exact Real.exp_le_exp.2 (by linarith)
  have e2 : Real.exp y ≤ Real.exp η * Real.exp x := by
    rw [← Real.exp_add]; exact Real.exp_le_exp.2 (by linarith)
  obtain ⟨f1, f2⟩ := abs_le.1 (hexp y)
  have l1 : (1 - ε) * (Real.exp (-η) * Real.exp x) ≤ expf y := by
    have := mul_le_mul_of_nonneg_left e1 (show 0 ≤ 1 - ε by linarith)
    linarith
  have l2 : expf y ≤ (1 + ε) * (Real.exp η * Real.exp x) := by
    have := mul_le_mul_of_nonneg_left e2 (show 0 ≤ 1 + ε by linarith)
    linarith
  have p0 : 0 ≤ expf y := le_trans (by have := Real.exp_pos (-η); have := Real.exp_pos x; positivity) l1
  have m1 := mul_le_mul_of_nonneg_left l1 hν
  have m2 := mul_le_mul_of_nonneg_left l2 hν
  have q0 : 0 ≤ ν * expf y := mul_nonneg hν p0
  have r1 := hR (ν * expf y)
  rw [abs_of_nonneg q0] at r1
  obtain ⟨r2, r3⟩ := abs_le.1 r1
  refine ⟨?_, ?_⟩
  · have := mul_le_mul_of_nonneg_left m1 (show 0 ≤ 1 - u by linarith)
    calc _ = (1 - u) * (ν * ((1 - ε) * (Real.exp (-η) * Real.exp x))) := by unfold lowFactor; ring
      _ ≤ (1 - u) * (ν * expf y) := this
      _ ≤ _ := by linarith
  · have := mul_le_mul_of_nonneg_left m2 (show 0 ≤ 1 + u by linarith)
    calc R.rnd (ν * expf y) ≤ (1 + u) * (ν * expf y) := by linarith
      _ ≤ _ := this
      _ = _ := by unfold highFactor; ring

/-- C136.  A rate in floating-point arithmetic lies within two factors of the exact one. -/
theorem C136_rate (hu : 0 ≤ u) (hu1 : u ≤ 1 / 2) (hR : Accurate R u) (hε : 0 ≤ ε) (hε1 : ε < 1)
    (hexp : ExpWithin expf ε) (kra : LCE ℝ) (site : Option (LCE ℝ)) (kB temp ν b : ℝ) (hT : 0 < kB * temp)
    (hν : 0 ≤ ν) (hk : SizeAtMost kra s c k) (hsite : ∀ m, site = some m → SizeAtMost m s c k)
    (e : Event) (st : State EReal) (hb : BarrierSizeAtMost kra site st.occ e b) (p : ℝ)
    (h : (⟨some kra, siteSource site⟩ : Composite Unit EReal).computeProbability kB temp ν () e st = .ok p) :
    ∃ q, probabilityFloat R expf kra site kB temp ν st.occ e = .ok q ∧
      BetweenFactors (lowFactor u ε (roundingError u (s + c + k + 7) (b / (kB * temp))))
        (highFactor u ε (roundingError u (s + c + k + 7) (b / (kB * temp)))) p q := by
  obtain ⟨d, hd, ⟨h0, rfl⟩ | ⟨h0, kra', a, δ, hkra, ha, hδ, rfl⟩⟩ := composite_ok h
  · refine ⟨0, by simp only [probabilityFloat, hd, if_pos h0], ?_⟩
    constructor <;> simp
  · cases hkra
    have ha' := compute_near hu hR kra st.occ e hk
    rw [ha] at ha'
    unfold BarrierSizeAtMost at hb
    simp only [probabilityFloat, hd, if_neg h0]
    revert ha' hb
    generalize magnitude kra st.occ e = X
    generalize kra.computeFloat R st.occ e = Y
    intro hb ha'
    cases ha' with
    | @ok A _ a' ha' =>
      cases site with
      | none =>
        simp only [siteDifferenceFloat]
        simp only [siteSource, SiteSource.none, Except.ok.injEq] at hδ
        subst hδ
        have hz : Approx u (s + c + k + 2) 0 (0 : ℝ) 0 := near_exact hu (by simp)
        exact ⟨_, rfl, arrhenius_within hu hu1 hR hε hε1 hexp hT hν ha' hz (hb A 0 rfl rfl)⟩
      | some m =>
        simp only [siteSource, SiteSource.expansion] at hδ
        have hv' := compute_near hu hR m st.occ e (hsite m rfl)
        simp only [siteDifferenceFloat]
        simp only [siteMagnitude] at hb
        revert hδ hv' hb
        generalize magnitude m st.occ e = X'
        generalize m.compute st.occ e = Y'
        generalize m.computeFloat R st.occ e = Z'
        intro hδ hb hv'
        cases hv' with
        | error x => cases hδ
        | @ok D v v' hv' =>
          simp only [Except.ok.injEq] at hδ
          subst hδ
          have hdir : |(d : ℝ)| ≤ 1 := by
            rcases eventDirection_values hd with rfl | rfl | rfl <;> norm_num
          have h1 := (near_exact (n := 0) hu hdir).mul hu hv'
          rw [Nat.zero_add, one_mul] at h1
          exact ⟨_, rfl, arrhenius_within hu hu1 hR hε hε1 hexp hT hν ha' h1 (hb A D rfl rfl)⟩


theorem lowFactor_pos (hu1 : u < 1) (hε1 : ε < 1) (η : ℝ) : 0 < lowFactor u ε η :=
  mul_pos (mul_pos (by linarith) (by linarith)) (Real.exp_pos _)

theorem highFactor_pos (hu : 0 ≤ u) (hε : 0 ≤ ε) (η : ℝ) : 0 < highFactor u ε η :=
  mul_pos (mul_pos (by linarith) (by linarith)) (Real.exp_pos _)

/-- C136.  With Python floats, a library exponential function that is right up to two units in the last place
(`2⁻⁵²`), fewer than 1000 roundings and a sum behind the barrier of at most 1000 times the thermal energy, rates
are right up to the fraction `10⁻⁹`. -/
theorem C136_double_rate (hexp : ExpWithin expf ((1 / 2) ^ 52)) (kra : LCE ℝ) (site : Option (LCE ℝ))
    (kB temp ν b : ℝ) (hT : 0 < kB * temp) (hν : 0 ≤ ν) (hk : SizeAtMost kra s c k)
    (hsite : ∀ m, site = some m → SizeAtMost m s c k) (hn : s + c + k + 7 ≤ 1000) (hb0 : 0 ≤ b)
    (hb1 : b ≤ 1000 * (kB * temp)) (e : Event) (st : State EReal)
    (hb : BarrierSizeAtMost kra site st.occ e b) (p : ℝ)
    (h : (⟨some kra, siteSource site⟩ : Composite Unit EReal).computeProbability kB temp ν () e st = .ok p) :
    ∃ q, probabilityFloat Rounding.double expf kra site kB temp ν st.occ e = .ok q ∧
      |q - p| ≤ (1 / 10) ^ 9 * p := by
  obtain ⟨q, hq, h1, h2⟩ := C136_rate (by positivity) (by norm_num) C123_double_accuracy (by positivity)
    (by norm_num) hexp kra site kB temp ν b hT hν hk hsite e st hb p h
  refine ⟨q, hq, ?_⟩
  have hp : 0 ≤ p := C34_composite_nonneg _ kB temp ν hν () e st p h
  have hbt : b / (kB * temp) ≤ 1000 := by rw [div_le_iff₀ hT]; exact hb1
  have hbt0 : 0 ≤ b / (kB * temp) := div_nonneg hb0 hT.le
  have g1 : (1 + (1 / 2 : ℝ) ^ 53) ^ (s + c + k + 7) ≤ 1 + 2000 * (1 / 2) ^ 53 := by
    have a1 : (1 + (1 / 2 : ℝ) ^ 53) ^ (s + c + k + 7) ≤ (1 + (1 / 2 : ℝ) ^ 53) ^ 1000 :=
      pow_le_pow_right₀ (by norm_num) hn
    have a2 : (1 + (1 / 2 : ℝ) ^ 53) ^ 1000 ≤ Real.exp (1000 * (1 / 2) ^ 53) := by
      have a3 : (1 + (1 / 2 : ℝ) ^ 53) ≤ Real.exp ((1 / 2) ^ 53) := by
        have := Real.add_one_le_exp ((1 / 2 : ℝ) ^ 53)
        linarith
      have a4 := pow_le_pow_left₀ (by positivity) a3 1000
      rw [← Real.exp_nat_mul] at a4
      exact_mod_cast a4
    have a5 := Real.abs_exp_sub_one_le (x := 1000 * (1 / 2) ^ 53) (by
      rw [abs_of_pos (by positivity)]; norm_num)
    rw [abs_of_pos (show (0 : ℝ) < 1000 * (1 / 2) ^ 53 by positivity)] at a5
    have a6 := (abs_le.1 a5).2
    refine a1.trans (a2.trans ?_)
    clear a1 a2
    linarith
  have hη0 : 0 ≤ roundingError ((1 / 2) ^ 53) (s + c + k + 7) (b / (kB * temp)) := by
    have := one_le_growth (u := (1 / 2 : ℝ) ^ 53) (by positivity) (s + c + k + 7)
    exact mul_nonneg (by linarith) hbt0
  have hη1 : roundingError ((1 / 2) ^ 53) (s + c + k + 7) (b / (kB * temp)) ≤ 2000 * (1 / 2) ^ 53 * 1000 :=
    mul_le_mul (by linarith) hbt hbt0 (by positivity)
  revert h1 h2 hη0 hη1
  generalize roundingError ((1 / 2) ^ 53) (s + c + k + 7) (b / (kB * temp)) = η
  intro h1 h2 hη0 hη1
  have e1 : 1 - η ≤ Real.exp (-η) := by
    have := Real.add_one_le_exp (-η)
    linarith
  have e2 : Real.exp η ≤ 1 + 2 * η := by
    have hη2 : η ≤ 1 := hη1.trans (by norm_num)
    have a5 := Real.abs_exp_sub_one_le (x := η) (by rw [abs_of_nonneg hη0]; exact hη2)
    rw [abs_of_nonneg hη0] at a5
    have := (abs_le.1 a5).2
    linarith
  have l1 : 1 - (1 / 10 : ℝ) ^ 9 ≤ lowFactor ((1 / 2) ^ 53) ((1 / 2) ^ 52) η := by
    unfold lowFactor
    have : (1 - (1 / 2 : ℝ) ^ 53) * (1 - (1 / 2) ^ 52) * (1 - η) ≤
        (1 - (1 / 2) ^ 53) * (1 - (1 / 2) ^ 52) * Real.exp (-η) :=
      mul_le_mul_of_nonneg_left e1 (by norm_num)
    refine le_trans ?_ this
    norm_num at hη1 ⊢
    linarith
  have l2 : highFactor ((1 / 2) ^ 53) ((1 / 2) ^ 52) η ≤ 1 + (1 / 10 : ℝ) ^ 9 := by
    unfold highFactor
    have : (1 + (1 / 2 : ℝ) ^ 53) * (1 + (1 / 2) ^ 52) * Real.exp η ≤
        (1 + (1 / 2) ^ 53) * (1 + (1 / 2) ^ 52) * (1 + 2 * η) :=
      mul_le_mul_of_nonneg_left e2 (by norm_num)
    refine this.trans ?_
    norm_num at hη1 ⊢
    linarith
  have m1 := mul_le_mul_of_nonneg_right l1 hp
  have m2 := mul_le_mul_of_nonneg_right l2 hp
  rw [abs_le]
  constructor <;> linarith

/-! ### A hop and its way back -/

theorem computeFloat_local (R : Rounding) (m : LCE ℝ) (e : Event) (occ occ' : List Int)
    (h : AgreeOn e.env occ occ') : m.computeFloat R occ e = m.computeFloat R occ' e := by
  simp only [LCE.computeFloat, pyGetAll_congr h]

/-- C136.  Without a site model a hop and its way back have exactly the same rate also in floating-point
arithmetic, however rounding and the exponential function of the library behave. -/
theorem C136_way_back (R : Rounding) (expf : ℝ → ℝ) (kra : LCE ℝ) (kB temp ν : ℝ) (st st' : State EReal)
    (e : Event) (dt : EReal) (d : Int) (htw : TwoWay e) (hap : SurroundingsApart st.occ.length e)
    (hd : eventDirection st.occ e = .ok d) (h0 : d ≠ 0) (happly : st.applyEvent e dt = (.ok (), st')) :
    probabilityFloat R expf kra none kB temp ν st'.occ e = probabilityFloat R expf kra none kB temp ν st.occ e := by
  obtain ⟨hc, h1, h2, h3, h4⟩ := htw
  have hd' := C13_hop_reverses_direction st st' e dt d hc h1 h2 h3 h4 hd h0 happly
  have hne : ¬ (-d = 0) := by omega
  simp only [probabilityFloat, hd, hd', if_neg h0, if_neg hne, siteDifferenceFloat,
    computeFloat_local R kra e _ _ (hop_keeps_surroundings hap happly)]

/-- Ratios of numbers that lie within factors of others. -/
theorem BetweenFactors.ratio {L U p q p' q' : ℝ} (hL : 0 < L) (hU : 0 < U) (hp : 0 < p) (hp' : 0 < p')
    (h : BetweenFactors L U p q) (h' : BetweenFactors L U p' q') :
    BetweenFactors (L / U) (U / L) (p / p') (q / q') := by
  have hq' : 0 < q' := lt_of_lt_of_le (mul_pos hL hp') h'.1
  constructor
  · rw [div_mul_div_comm]
    exact div_le_div₀ ((mul_pos hL hp).le.trans h.1) h.1 hq' h'.2
  · rw [div_mul_div_comm]
    exact div_le_div₀ (mul_pos hU hp).le h.2 (mul_pos hL hp') h'.1

/-- C136.  Detailed balance in floating-point arithmetic: with an expansion as site model the ratio of the rate
of a hop to the rate of the way back is the Boltzmann factor of the exact site-energy difference, up to the
accuracy of the two rates. -/
theorem C136_balance (hu : 0 ≤ u) (hu1 : u ≤ 1 / 2) (hR : Accurate R u) (hε : 0 ≤ ε) (hε1 : ε < 1)
    (hexp : ExpWithin expf ε) (kra site : LCE ℝ) (kB temp ν b : ℝ) (hT : 0 < kB * temp)
    (hν : 0 < ν) (hk : SizeAtMost kra s c k) (hsite : SizeAtMost site s c k)
    (st st' : State EReal) (e : Event) (dt : EReal) (d : Int) (v a : ℝ)
    (htw : TwoWay e) (hap : SurroundingsApart st.occ.length e)
    (hd : eventDirection st.occ e = .ok d) (h0 : d ≠ 0) (happly : st.applyEvent e dt = (.ok (), st'))
    (hkra : kra.compute st.occ e = .ok a) (hv : site.compute st.occ e = .ok v)
    (hb : BarrierSizeAtMost kra (some site) st.occ e b) (hb' : BarrierSizeAtMost kra (some site) st'.occ e b) :
    ∃ q q', probabilityFloat R expf kra (some site) kB temp ν st.occ e = .ok q ∧
      probabilityFloat R expf kra (some site) kB temp ν st'.occ e = .ok q' ∧
      BetweenFactors
        (lowFactor u ε (roundingError u (s + c + k + 7) (b / (kB * temp))) /
          highFactor u ε (roundingError u (s + c + k + 7) (b / (kB * temp))))
        (highFactor u ε (roundingError u (s + c + k + 7) (b / (kB * temp))) /
          lowFactor u ε (roundingError u (s + c + k + 7) (b / (kB * temp))))
        (Real.exp (-((d : ℝ) * v) / (kB * temp))) (q / q') := by
  obtain ⟨hc, h1, h2, h3, h4⟩ := htw
  have hd' := C13_hop_reverses_direction st st' e dt d hc h1 h2 h3 h4 hd h0 happly
  have hne : ¬ (-d = 0) := by omega
  have henv := hop_keeps_surroundings hap happly
  have p1 : (⟨some kra, siteSource (some site)⟩ : Composite Unit EReal).computeProbability kB temp ν () e st =
      .ok (ν * Real.exp (-(a + ((d : ℝ) * v) / 2) / (kB * temp))) := by
    simp only [Composite.computeProbability, hd, if_neg h0, hkra, siteSource, SiteSource.expansion, hv]
  have p2 : (⟨some kra, siteSource (some site)⟩ : Composite Unit EReal).computeProbability kB temp ν () e st' =
      .ok (ν * Real.exp (-(a + (((-d : Int) : ℝ) * v) / 2) / (kB * temp))) := by
    simp only [Composite.computeProbability, hd', if_neg hne, C36_local kra e _ _ henv, hkra, siteSource,
      SiteSource.expansion, C36_local site e _ _ henv, hv]
  have hs' : ∀ m, some site = some m → SizeAtMost m s c k := by rintro m ⟨⟩; exact hsite
  obtain ⟨q, hq, w⟩ := C136_rate hu hu1 hR hε hε1 hexp kra (some site) kB temp ν b hT hν.le hk hs' e st hb _ p1
  obtain ⟨q', hq', w'⟩ := C136_rate hu hu1 hR hε hε1 hexp kra (some site) kB temp ν b hT hν.le hk hs' e st' hb' _ p2
  refine ⟨q, q', hq, hq', ?_⟩
  have := BetweenFactors.ratio (lowFactor_pos (by linarith) hε1 _) (highFactor_pos hu hε _)
    (mul_pos hν (Real.exp_pos _)) (mul_pos hν (Real.exp_pos _)) w w'
  rw [C39_expansion_detailed_balance kra site kB temp ν hν st st' e dt d v _ _ ⟨hc, h1, h2, h3, h4⟩ hap hd h0
    happly hv p1 p2] at this
  exact this

/-- C136.  Rounding does not turn the order of rates round: an event whose barrier expansion has the lower value
(as computed) never has the smaller rate, if the library's exponential function is monotone. -/
theorem C136_order (R : Rounding) (expf : ℝ → ℝ) (hmono : Monotone expf) (kra : LCE ℝ) (kB temp ν : ℝ)
    (hT : 0 ≤ kB * temp) (hν : 0 ≤ ν) (occ occ' : List Int) (e e' : Event) (d d' : Int)
    (hd : eventDirection occ e = .ok d) (h0 : d ≠ 0) (hd' : eventDirection occ' e' = .ok d') (h0' : d' ≠ 0)
    (a a' : ℝ) (ha : kra.computeFloat R occ e = .ok a) (ha' : kra.computeFloat R occ' e' = .ok a')
    (hle : a ≤ a') :
    ∃ q q', probabilityFloat R expf kra none kB temp ν occ e = .ok q ∧
      probabilityFloat R expf kra none kB temp ν occ' e' = .ok q' ∧ q' ≤ q := by
  refine ⟨arrheniusFloat R expf kB temp ν a 0, arrheniusFloat R expf kB temp ν a' 0, ?_, ?_, ?_⟩
  · simp only [probabilityFloat, hd, if_neg h0, ha, siteDifferenceFloat]
  · simp only [probabilityFloat, hd', if_neg h0', ha', siteDifferenceFloat]
  · have ht : 0 ≤ R.rnd (kB * temp) := by
      have := R.mono hT
      rwa [R.zero] at this
    refine R.mono (mul_le_mul_of_nonneg_left (hmono (R.mono ?_)) hν)
    exact div_le_div_of_nonneg_right (neg_le_neg (R.mono (by linarith))) ht

/-! ### Simulations -/

variable {σ φ ψ K : Type} [Field K] [LinearOrder K] [FloorRing K] {o : ActiveSiteOrder String ψ} {mobile : String} {h : HopStateLookup} {g : Geometry K}
  {lib : EventLib σ φ} {st : State EReal} {R' : Rounding}

theorem arrheniusFloat_nonneg (hexp : ∀ x, 0 ≤ expf x) {kB temp ν a δ : ℝ} (hν : 0 ≤ ν) :
    0 ≤ arrheniusFloat R expf kB temp ν a δ := by
  have := R.mono (mul_nonneg hν (hexp (R.rnd (-(R.rnd (a + R.rnd (δ / 2))) / R.rnd (kB * temp)))))
  rwa [R.zero] at this

/-- C136.  The composite model in floating-point arithmetic satisfies everything the simulation theorems ask of a
rate model, with the same rounding in the simulator or any that represents the rounded numbers. -/
theorem C136_hop_system (hrep : ∀ x, R'.Rep (R.rnd x)) (hexp : ∀ x, 0 ≤ expf x)
    (kra : LCE ℝ) (site : Option (LCE ℝ)) (kB temp ν : ℝ) (hν : 0 ≤ ν)
    (hs : HopSystem o mobile h Rounding.exact
      ((⟨some kra, siteSource site⟩ : Composite Unit EReal).rateModel kB temp ν) g lib st) :
    HopSystem o mobile h R' (floatRateModel R expf kra site kB temp ν) g lib st := by
  refine ⟨hs.lookup, hs.labelled, hs.fit, hs.endpoints, hs.coords, ⟨?_⟩, ?_, ?_⟩
  · intro e s s' _ hsame
    have henv : AgreeOn e.env s.occ s'.occ := fun i hi => hsame i (by simp [hi])
    simp only [floatRateModel, probabilityFloat, eventDirection_congr hsame, computeFloat_local R kra e _ _ henv]
    cases site with
    | none => rfl
    | some m => simp only [siteDifferenceFloat, computeFloat_local R m e _ _ henv]
  · intro e s p hp
    simp only [floatRateModel, probabilityFloat] at hp
    split at hp
    · cases hp
    · split at hp
      · cases hp
        exact ⟨le_refl _, R'.zero⟩
      · split at hp
        · cases hp
        · split at hp
          · cases hp
          · cases hp
            refine ⟨?_, hrep _⟩
            exact arrheniusFloat_nonneg hexp hν
  · intro e s p hd hp
    simp only [floatRateModel, probabilityFloat, hd, if_true] at hp
    exact (Except.ok.inj hp).symm

/-- C136.  The model in floating-point arithmetic answers whenever the exact one does. -/
theorem C136_answers (hu : 0 ≤ u) (hR : Accurate R u) (kra : LCE ℝ) (site : Option (LCE ℝ))
    (kB temp ν : ℝ) (events : List Event) (occ : List Int)
    (ha : Answers o mobile ((⟨some kra, siteSource site⟩ : Composite Unit EReal).rateModel kB temp ν) events occ) :
    Answers o mobile (floatRateModel (T := EReal) R expf kra site kB temp ν) events occ := by
  refine ⟨fun _ _ => rfl, fun _ _ => rfl, ?_⟩
  intro e st he hc hw
  obtain ⟨p, hp⟩ := ha.rate e st he hc hw
  simp only [Composite.rateModel] at hp
  obtain ⟨d, hd, ⟨h0, rfl⟩ | ⟨h0, kra', a, δ, hkra, ha', hδ, rfl⟩⟩ := composite_ok hp
  · exact ⟨0, by simp only [floatRateModel, probabilityFloat, hd, if_pos h0]⟩
  · cases hkra
    obtain ⟨s, c, k, hm⟩ := C136_sized kra
    obtain ⟨F, -, hF, -⟩ := C136_energy hu hR kra st.occ e hm a ha'
    simp only [floatRateModel, probabilityFloat, hd, if_neg h0, hF]
    cases site with
    | none => exact ⟨_, rfl⟩
    | some m =>
      simp only [siteSource, SiteSource.expansion] at hδ
      cases hv : m.compute st.occ e with
      | error x => rw [hv] at hδ; cases hδ
      | ok v =>
        obtain ⟨s, c, k, hm⟩ := C136_sized m
        obtain ⟨G, -, hG, -⟩ := C136_energy hu hR m st.occ e hm v hv
        simp only [siteDifferenceFloat, hG]
        exact ⟨_, rfl⟩

theorem arrheniusFloat_pos (hu1 : u < 1) (hR : Accurate R u) (hexp : ∀ x, 0 < expf x) {kB temp ν a δ : ℝ}
    (hν : 0 < ν) : 0 < arrheniusFloat R expf kB temp ν a δ := by
  unfold arrheniusFloat
  generalize R.rnd (-(R.rnd (a + R.rnd (δ / 2))) / R.rnd (kB * temp)) = x
  have h0 : 0 < ν * expf x := mul_pos hν (hexp x)
  have h1 := hR (ν * expf x)
  rw [abs_of_pos h0] at h1
  have h2 := (abs_le.1 h1).1
  have : 0 < (1 - u) * (ν * expf x) := mul_pos (by linarith) h0
  linarith

/-- C136.  Possible hops keep a positive rate: rounding with a relative accuracy does not lose a rate. -/
theorem C136_willing (hu1 : u < 1) (hR : Accurate R u) (hexp : ∀ x, 0 < expf x) (kra : LCE ℝ)
    (site : Option (LCE ℝ)) (kB temp ν : ℝ) (hν : 0 < ν) :
    Willing (floatRateModel (T := EReal) R expf kra site kB temp ν) := by
  intro e st d p hd h0 hp
  simp only [floatRateModel, probabilityFloat, hd, if_neg h0] at hp
  split at hp
  · cases hp
  · split at hp
    · cases hp
    · cases hp
      exact arrheniusFloat_pos hu1 hR hexp hν

variable {s0 t0 : Sim σ φ Unit ℝ EReal}

/-- C136.  Barriers without site energies are balanced with equal weights also in floating-point arithmetic. -/
theorem C136_barriers_balanced (hexp : ∀ x, 0 ≤ expf x) (kra : LCE ℝ) (kB temp ν : ℝ) (hν : 0 ≤ ν)
    (hs : HopSystem o mobile h Rounding.exact
      ((⟨some kra, siteSource none⟩ : Composite Unit EReal).rateModel kB temp ν) g lib st)
    (hi : Sim.init (realKernel Rounding.exact) (floatRateModel R expf kra none kB temp ν)
      lib.generateEventDependencies (some h) (some st) = .ok s0)
    (hap : ∀ e ∈ lib.events, SurroundingsApart st.occ.length e) :
    Balanced o mobile (floatRateModel R expf kra none kB temp ν) s0.lib.events fun _ => 1 := by
  intro e he st1 st2 dt d p p' hw hd h0 happly hp hp'
  have hs' := C136_hop_system (R' := Rounding.exact) (fun _ => rfl) hexp kra none kB temp ν hν hs (R := R)
  have hlen : st1.occ.length = st.occ.length := hw.length.trans hs.labelled.length.symm
  obtain ⟨x, hx, h1, h2⟩ := running_event hi he
  have hsur : SurroundingsApart st1.occ.length e := by
    rw [hlen]
    intro i hi' j hj
    rw [h2] at hi'; rw [h1] at hj
    exact hap x hx i hi' j hj
  have := C136_way_back R expf kra kB temp ν st1 st2 e dt d (event_twoWay hs' hi he hw hlen hd h0) hsur hd h0 happly
  simp only [floatRateModel] at hp hp'
  rw [hp, hp'] at this
  rw [one_mul, one_mul, Except.ok.inj this]

/-- C136.  Rounding of the rates does not disturb the equilibrium of a model without site energies: with rates
as computed in floating-point arithmetic, a regime is stationary exactly if it spends the same time in every
arrangement of the network. -/
theorem C136_equal_shares (hu : 0 ≤ u) (hu1 : u < 1) (hR : Accurate R u) (hexp : ∀ x, 0 < expf x) (kra : LCE ℝ)
    (kB temp ν : ℝ) (hν : 0 < ν)
    (hs : HopSystem o mobile h Rounding.exact
      ((⟨some kra, siteSource none⟩ : Composite Unit EReal).rateModel kB temp ν) g lib st)
    (ha : Answers o mobile ((⟨some kra, siteSource none⟩ : Composite Unit EReal).rateModel kB temp ν) lib.events
      st.occ)
    (hi : Sim.init (realKernel Rounding.exact) (floatRateModel R expf kra none kB temp ν)
      lib.generateEventDependencies (some h) (some st) = .ok s0)
    {S : Nat → Prop} (hn : Network o mobile lib.events st.occ S)
    (hap : ∀ e ∈ lib.events, SurroundingsApart st.occ.length e)
    (Ω : Finset (List Int))
    (hΩ : ∀ x, x ∈ Ω ↔ SameComposition x st.occ ∧ ∀ i, ¬ S i → x[i]? = st.occ[i]?)
    (sims : List Int → Sim σ φ Unit ℝ EReal)
    (hsims : ∀ x ∈ Ω, Reaches (floatRateModel R expf kra none kB temp ν) s0 (sims x) ∧ (sims x).st.occ = x)
    (r1 r2 : ℝ) (h0 : 0 ≤ r1) (h1 : r1 < 1) (μ : List Int → ℝ) :
    Stationary Ω (fun x y => chance (floatRateModel R expf kra none kB temp ν) r2 (sims x) y) μ ↔
      ∀ x ∈ Ω, ∀ y ∈ Ω, μ x * meanStay r1 (sims x) = μ y * meanStay r1 (sims y) := by
  have hst : s0.st = st := by
    obtain ⟨i1, -⟩ := init_ok hi
    cases i1; rfl
  have hs' := C136_hop_system (R' := Rounding.exact) (fun _ => rfl) (fun x => (hexp x).le) kra none kB temp ν hν.le
    hs (R := R)
  have ha' := C136_answers (expf := expf) hu hR kra none kB temp ν lib.events st.occ ha
  have hw := C136_willing hu1 hR hexp kra none kB temp ν hν
  have hns := network_not_stuck hs' ha' hi hw (sim_init_inv hs' hi) (by rw [hst]) (by rw [hst]; exact hn)
  rw [C90_stationary_iff hs' ha' hi hns (fun _ => 1) (fun _ => one_pos)
    (C136_barriers_balanced (fun x => (hexp x).le) kra kB temp ν hν.le hs hi hap) Ω
    (fun x => (hΩ x).trans (C90_all_arrangements hs' ha' hw hi hn x).symm) sims hsims r1 r2 h0 h1 μ]
  constructor
  · rintro ⟨a, hall⟩ x hx y hy
    rw [hall x hx, hall y hy]
  · intro hall
    rcases Ω.eq_empty_or_nonempty with rfl | ⟨z, hz⟩
    · exact ⟨0, by simp⟩
    · exact ⟨μ z * meanStay r1 (sims z), fun x hx => by rw [mul_one]; exact hall x hx z hz⟩

theorem BetweenFactors.sum {ι : Type} {L U : ℝ} (I : Finset ι) {p q : ι → ℝ}
    (h : ∀ i ∈ I, BetweenFactors L U (p i) (q i)) : BetweenFactors L U (∑ i ∈ I, p i) (∑ i ∈ I, q i) := by
  constructor
  · rw [Finset.mul_sum]; exact Finset.sum_le_sum fun i hi => (h i hi).1
  · rw [Finset.mul_sum]; exact Finset.sum_le_sum fun i hi => (h i hi).2

/-- A part over a whole, if the whole is positive. -/
theorem BetweenFactors.share {L U p q P Q : ℝ} (hL : 0 < L) (hU : 0 < U) (hp : 0 ≤ p) (hP : 0 < P)
    (h : BetweenFactors L U p q) (h' : BetweenFactors L U P Q) :
    BetweenFactors (L / U) (U / L) (p / P) (q / Q) := by
  have hQ : 0 < Q := lt_of_lt_of_le (mul_pos hL hP) h'.1
  constructor
  · rw [div_mul_div_comm]
    exact div_le_div₀ ((mul_nonneg hL.le hp).trans h.1) h.1 hQ h'.2
  · rw [div_mul_div_comm]
    exact div_le_div₀ (mul_nonneg hU.le hp) h.2 (mul_pos hL hP) h'.1

open Classical in
/-- C136.  What rounding of the rates does to a step of the simulation.  Take a simulation with the exact rates
and one with the rates as computed, both in the same configuration.  The chance of every next configuration and
the mean time until the next step are the same up to the factors by which rates can be off. -/
theorem C136_next_step (hu : 0 ≤ u) (hu1 : u ≤ 1 / 2) (hR : Accurate R u) (hε : 0 ≤ ε) (hε1 : ε < 1)
    (hexp : ExpWithin expf ε) (kra : LCE ℝ) (site : Option (LCE ℝ)) (kB temp ν b : ℝ) (hT : 0 < kB * temp)
    (hν : 0 < ν) (hk : SizeAtMost kra s c k) (hsite : ∀ m, site = some m → SizeAtMost m s c k)
    (hs : HopSystem o mobile h Rounding.exact
      ((⟨some kra, siteSource site⟩ : Composite Unit EReal).rateModel kB temp ν) g lib st)
    (ha : Answers o mobile ((⟨some kra, siteSource site⟩ : Composite Unit EReal).rateModel kB temp ν) lib.events
      st.occ)
    (hi : Sim.init (realKernel Rounding.exact)
      ((⟨some kra, siteSource site⟩ : Composite Unit EReal).rateModel kB temp ν)
      lib.generateEventDependencies (some h) (some st) = .ok s0)
    (hi' : Sim.init (realKernel Rounding.exact) (floatRateModel R expf kra site kB temp ν)
      lib.generateEventDependencies (some h) (some st) = .ok t0)
    {sim sim' : Sim σ φ Unit ℝ EReal}
    (hr : Reaches ((⟨some kra, siteSource site⟩ : Composite Unit EReal).rateModel kB temp ν) s0 sim)
    (hr' : Reaches (floatRateModel R expf kra site kB temp ν) t0 sim') (hocc : sim'.st.occ = sim.st.occ)
    (hns : ¬ Stuck ((⟨some kra, siteSource site⟩ : Composite Unit EReal).rateModel kB temp ν) sim)
    (hb : ∀ e ∈ s0.lib.events, BarrierSizeAtMost kra site sim.st.occ e b) :
    (∀ r2 y, BetweenFactors
      (lowFactor u ε (roundingError u (s + c + k + 7) (b / (kB * temp))) /
        highFactor u ε (roundingError u (s + c + k + 7) (b / (kB * temp))))
      (highFactor u ε (roundingError u (s + c + k + 7) (b / (kB * temp))) /
        lowFactor u ε (roundingError u (s + c + k + 7) (b / (kB * temp))))
      (chance ((⟨some kra, siteSource site⟩ : Composite Unit EReal).rateModel kB temp ν) r2 sim y)
      (chance (floatRateModel R expf kra site kB temp ν) r2 sim' y)) ∧
    ∀ r1, 0 ≤ r1 → r1 < 1 → BetweenFactors
      (1 / highFactor u ε (roundingError u (s + c + k + 7) (b / (kB * temp))))
      (1 / lowFactor u ε (roundingError u (s + c + k + 7) (b / (kB * temp))))
      (meanStay r1 sim) (meanStay r1 sim') := by
  have hexp0 : ∀ x, 0 ≤ expf x := by
    intro x
    have h1 := (abs_le.1 (hexp x)).1
    have := mul_nonneg (show 0 ≤ 1 - ε by linarith) (Real.exp_pos x).le
    linarith
  have hs' := C136_hop_system (R' := Rounding.exact) (fun _ => rfl) hexp0 kra site kB temp ν hν.le hs (R := R)
  have ha' := C136_answers (expf := expf) hu hR kra site kB temp ν lib.events st.occ ha
  have hev : t0.lib.events = s0.lib.events := by
    obtain ⟨-, -, -, -, -, h1, -, -⟩ := init_ok hi
    obtain ⟨-, -, -, -, -, h2, -, -⟩ := init_ok hi'
    have := (h1 h rfl).symm.trans (h2 h rfl)
    exact (Except.ok.inj this).symm
  have hm := met_reaches hs ha hi (met_start hs hi) hr
  have hL := lowFactor_pos (u := u) (by linarith) hε1 (roundingError u (s + c + k + 7) (b / (kB * temp)))
  have hU := highFactor_pos hu hε (roundingError u (s + c + k + 7) (b / (kB * temp)))
  -- the rates of the two simulations
  have key : ∀ (i : Nat) e, s0.lib.events[i]? = some e → ∃ p q,
      (⟨some kra, siteSource site⟩ : Composite Unit EReal).computeProbability kB temp ν () e sim.st = .ok p ∧
      probabilityFloat R expf kra site kB temp ν sim'.st.occ e = .ok q ∧
      BetweenFactors (lowFactor u ε (roundingError u (s + c + k + 7) (b / (kB * temp))))
        (highFactor u ε (roundingError u (s + c + k + 7) (b / (kB * temp)))) p q := by
    intro i e he
    obtain ⟨p, h1, h2⟩ := hm.inv.table.fresh i e (by rw [hm.inv.lib]; exact he)
    obtain ⟨q, h3, h4⟩ := C136_rate hu hu1 hR hε hε1 hexp kra site kB temp ν b hT hν.le hk hsite e sim.st
      (hb e (List.mem_of_getElem? he)) p (by first | exact h1 | exact h2)
    exact ⟨p, q, by first | exact h1 | exact h2, by rw [hocc]; exact h3, h4⟩
  let n := s0.lib.events.length
  let m := (⟨some kra, siteSource site⟩ : Composite Unit EReal).rateModel kB temp ν
  let m' := floatRateModel (T := EReal) R expf kra site kB temp ν
  let rate : Nat → ℝ := fun i => (s0.lib.events[i]?.map (rateIn m sim.st)).getD 0
  let rate' : Nat → ℝ := fun i => (s0.lib.events[i]?.map (rateIn m' sim'.st)).getD 0
  have hrate : ∀ i e, s0.lib.events[i]? = some e → m.computeProbability () e sim.st = .ok (rate i) := by
    intro i e he
    obtain ⟨p, q, h1, -, -⟩ := key i e he
    have e1 : m.computeProbability () e sim.st = .ok p := h1
    simp only [rate, he, Option.map_some, Option.getD_some, rateIn, e1]
  have hrate' : ∀ i e, t0.lib.events[i]? = some e → m'.computeProbability () e sim'.st = .ok (rate' i) := by
    intro i e he
    rw [hev] at he
    obtain ⟨p, q, -, h1, -⟩ := key i e he
    have e1 : m'.computeProbability () e sim'.st = .ok q := h1
    simp only [rate', he, Option.map_some, Option.getD_some, rateIn, e1]
  have hw : ∀ i ∈ Finset.range n, BetweenFactors
      (lowFactor u ε (roundingError u (s + c + k + 7) (b / (kB * temp))))
      (highFactor u ε (roundingError u (s + c + k + 7) (b / (kB * temp)))) (rate i) (rate' i) := by
    intro i hi''
    have he : s0.lib.events[i]? = some (s0.lib.events[i]'(Finset.mem_range.1 hi'')) := by
      simp [Finset.mem_range.1 hi'']
    obtain ⟨p, q, h1, h2, h3⟩ := key i _ he
    have e1 := (hrate i _ he).symm.trans h1
    have e2 := (hrate' i _ (by rw [hev]; exact he)).symm.trans h2
    rw [Except.ok.inj e1, Except.ok.inj e2]
    exact h3
  have hnn : ∀ i, 0 ≤ rate i := by
    intro i
    cases he : s0.lib.events[i]? with
    | none => simp [rate, he]
    | some e => exact (hs.rates e sim.st _ (hrate i e he)).1
  have hpos : 0 < ∑ i ∈ Finset.range n, rate i := by
    refine lt_of_le_of_ne (Finset.sum_nonneg fun i _ => hnn i) fun hz => hns ?_
    intro e he p hp
    rw [hm.inv.lib] at he
    obtain ⟨i, hil, hie⟩ := List.getElem_of_mem he
    have hz' := (Finset.sum_eq_zero_iff_of_nonneg fun i _ => hnn i).1 hz.symm i (Finset.mem_range.2 hil)
    have h1 := hrate i e (by rw [List.getElem?_eq_getElem hil, hie])
    rw [hz'] at h1
    exact (Except.ok.inj (h1.symm.trans hp)).symm
  have hsum := BetweenFactors.sum (Finset.range n) hw
  have hpos' : 0 < ∑ i ∈ Finset.range n, rate' i := lt_of_lt_of_le (mul_pos hL hpos) hsum.1
  have hns' : ¬ Stuck m' sim' := by
    intro hstuck
    refine hpos'.ne' (Finset.sum_eq_zero fun i hi'' => ?_)
    have he : s0.lib.events[i]? = some (s0.lib.events[i]'(Finset.mem_range.1 hi'')) := by
      simp [Finset.mem_range.1 hi'']
    have hm' := met_reaches hs' ha' hi' (met_start hs' hi') hr'
    exact hstuck _ (by rw [hm'.inv.lib, hev]; exact List.mem_of_getElem? he) _ (hrate' i _ (by rw [hev]; exact he))
  refine ⟨fun r2 y => ?_, fun r1 h0 h1 => ?_⟩
  · rw [C90_step_chance hs ha hi hr hns rate hrate r2 y, C90_step_chance hs' ha' hi' hr' hns' rate' hrate' r2 y,
      hev, hocc]
    refine BetweenFactors.share hL hU ?_ hpos ?_ hsum
    · exact Finset.sum_nonneg fun i _ => by split <;> [exact hnn i; exact le_refl _]
    · refine BetweenFactors.sum _ fun i hi'' => ?_
      split
      · exact hw i hi''
      · constructor <;> simp
  · rw [C90_mean_stay hs ha hi hr hns rate hrate r1 h0 h1, C90_mean_stay hs' ha' hi' hr' hns' rate' hrate' r1 h0 h1,
      hev]
    constructor
    · rw [div_mul_div_comm, one_mul]
      exact one_div_le_one_div_of_le hpos' hsum.2
    · rw [div_mul_div_comm, one_mul]
      exact one_div_le_one_div_of_le (mul_pos hL hpos) hsum.1

/-! ### Concrete cases -/

theorem chainExpansion_size : SizeAtMost chainExpansion 2 2 2 := by
  refine ⟨?_, ?_, ?_⟩ <;> simp [chainExpansion]

theorem exp_within_double : ExpWithin Real.exp ((1 / 2) ^ 52) := by
  intro x
  rw [sub_self, abs_zero]
  have := Real.exp_pos x
  positivity

theorem chain_magnitude {e : Event} (he : ∃ x ∈ chainLib.events, e.mobile = x.mobile ∧ e.env = x.env) :
    ∃ A, magnitude chainExpansion [0, 1, 0, 1, 1] e = .ok A ∧ A ≤ 18 := by
  have key : (e.env = [4, 3] → magnitude chainExpansion [0, 1, 0, 1, 1] e = .ok 18) ∧
      (e.env = [0, 1] → magnitude chainExpansion [0, 1, 0, 1, 1] e = .ok 10) := by
    constructor <;> intro henv <;>
    · simp only [magnitude, absoluteOcc, absoluteLCE, LCE.compute, chainExpansion, Option.map_some,
        LCE.validateParameterOrbits, LCE.getOrbitFingerprints, henv]
      simp [pyGetAll, pyGet, pyIdx, LCE.calculateCorrelation, LCE.calcCorr, LCE.orbitSum, LCE.clusterProduct,
        LCE.npInner]
      norm_num
  rcases chain_mobile he with ⟨-, hn⟩ | ⟨-, hn⟩ | ⟨-, hn⟩ | ⟨-, hn⟩
  · exact ⟨_, key.1 hn, le_refl _⟩
  · exact ⟨_, key.1 hn, le_refl _⟩
  · exact ⟨_, key.2 hn, by norm_num⟩
  · exact ⟨_, key.2 hn, by norm_num⟩

theorem chain_barrier_size {e : Event} (he : ∃ x ∈ chainLib.events, e.mobile = x.mobile ∧ e.env = x.env) :
    BarrierSizeAtMost chainExpansion (some chainExpansion) [0, 1, 0, 1, 1] e 27 := by
  obtain ⟨A, hA, hle⟩ := chain_magnitude he
  intro A' D h1 h2
  simp only [siteMagnitude] at h2
  rw [hA] at h1 h2
  cases h1; cases h2
  linarith

/-- Non-vacuity: two ions on a chain of five sites, with an expansion for the barriers and one for the site
energies, and Python floats.  The simulation with exact rates and the one with rounded rates can be constructed.
At their start the chances of the next configuration agree up to the factors of `C136_next_step`, with `13`
roundings and sums of at most 27 meV. -/
example : ∃ s0 t0 : Sim Unit Unit Unit ℝ EReal,
    Sim.init (realKernel Rounding.exact) ((⟨some chainExpansion, siteSource (some chainExpansion)⟩ :
      Composite Unit EReal).rateModel 1 300 1000) chainLib.generateEventDependencies
      (some ⟨[0, 0, 0, 0, 0], [1, 1, 1, 1, 1]⟩) (some ⟨[0, 1, 0, 1, 1], 0, 0⟩) = .ok s0 ∧
    Sim.init (realKernel Rounding.exact) (floatRateModel Rounding.double Real.exp chainExpansion
      (some chainExpansion) 1 300 1000) chainLib.generateEventDependencies
      (some ⟨[0, 0, 0, 0, 0], [1, 1, 1, 1, 1]⟩) (some ⟨[0, 1, 0, 1, 1], 0, 0⟩) = .ok t0 ∧
    ∀ r2 y, BetweenFactors
      (lowFactor ((1 / 2) ^ 53) ((1 / 2) ^ 52) (roundingError ((1 / 2) ^ 53) 13 (27 / (1 * 300))) /
        highFactor ((1 / 2) ^ 53) ((1 / 2) ^ 52) (roundingError ((1 / 2) ^ 53) 13 (27 / (1 * 300))))
      (highFactor ((1 / 2) ^ 53) ((1 / 2) ^ 52) (roundingError ((1 / 2) ^ 53) 13 (27 / (1 * 300))) /
        lowFactor ((1 / 2) ^ 53) ((1 / 2) ^ 52) (roundingError ((1 / 2) ^ 53) 13 (27 / (1 * 300))))
      (chance ((⟨some chainExpansion, siteSource (some chainExpansion)⟩ :
        Composite Unit EReal).rateModel 1 300 1000) r2 s0 y)
      (chance (floatRateModel Rounding.double Real.exp chainExpansion (some chainExpansion) 1 300 1000) r2 t0 y) := by
  have hs := C69_hop_system exampleOrder "Na" _ (some chainExpansion) (some chainExpansion) 1 300 1000 hopGeometry
    chainLib ⟨[0, 1, 0, 1, 1], 0, 0⟩ (by norm_num) chain_hopSystem.lookup chain_hopSystem.labelled
    chain_hopSystem.fit chain_hopSystem.endpoints chain_hopSystem.coords
  have hs : HopSystem exampleOrder "Na" ⟨[0, 0, 0, 0, 0], [1, 1, 1, 1, 1]⟩ Rounding.exact
      ((⟨some chainExpansion, siteSource (some chainExpansion)⟩ : Composite Unit EReal).rateModel 1 300 1000)
      hopGeometry chainLib ⟨[0, 1, 0, 1, 1], 0, 0⟩ := hs
  have ha : Answers exampleOrder "Na" ((⟨some chainExpansion, siteSource (some chainExpansion)⟩ :
      Composite Unit EReal).rateModel 1 300 1000) chainLib.events [0, 1, 0, 1, 1] :=
    C85_composite_answers chainExpansion (some chainExpansion) 1 300 1000 chainLib.events [0, 1, 0, 1, 1] [2, 2]
      [2, 2] chainExpansion_built chain_surroundings
      (by rintro m ⟨⟩; exact ⟨chainExpansion_built, chain_surroundings⟩) chain_hopSystem.fit (by
        intro e he
        obtain ⟨f, t, h1, -⟩ := chain_hopSystem.endpoints e he
        exact ⟨f, t, h1⟩)
  have hs' := C136_hop_system (R' := Rounding.exact) (R := Rounding.double) (expf := Real.exp) (fun _ => rfl)
    (fun x => (Real.exp_pos x).le) chainExpansion (some chainExpansion) 1 300 1000 (by norm_num) hs
  have ha' := C136_answers (expf := Real.exp) (by positivity) C123_double_accuracy chainExpansion
    (some chainExpansion) 1 300 1000 _ _ ha
  obtain ⟨s0, hi⟩ := C85_can_be_constructed hs ha
  obtain ⟨t0, hi'⟩ := C85_can_be_constructed hs' ha'
  refine ⟨s0, t0, hi, hi', ?_⟩
  have hst : s0.st = ⟨[0, 1, 0, 1, 1], 0, 0⟩ := by
    obtain ⟨i1, -⟩ := init_ok hi
    exact (Option.some.inj i1).symm
  have hst' : t0.st = ⟨[0, 1, 0, 1, 1], 0, 0⟩ := by
    obtain ⟨i1, -⟩ := init_ok hi'
    exact (Option.some.inj i1).symm
  have hns := network_not_stuck hs ha hi (C85_composite_willing _ 1 300 1000 (by norm_num)) (sim_init_inv hs hi)
    (by rw [hst]) (by rw [hst]; exact chain_network)
  have hsz : ∀ m, some chainExpansion = some m → SizeAtMost m 2 2 2 := by rintro m ⟨⟩; exact chainExpansion_size
  exact (C136_next_step (by positivity) (by norm_num) C123_double_accuracy (by positivity) (by norm_num)
    exp_within_double chainExpansion (some chainExpansion) 1 300 1000 27 (by norm_num) (by norm_num)
    chainExpansion_size hsz hs ha hi hi' .refl .refl (by rw [hst, hst']) hns (by
      intro e he
      rw [hst]
      exact chain_barrier_size (running_event hi he))).1

/-- Non-vacuity: the rate of the first hop of the chain, with Python floats, is positive and right up to `10⁻⁹`. -/
example : ∃ p q,
    (⟨some chainExpansion, siteSource (some chainExpansion)⟩ : Composite Unit EReal).computeProbability 1 300 1000 ()
      ⟨[0, 1], [4, 3], some ⟨0, 1, 1, 0⟩⟩ ⟨[0, 1, 0, 1, 1], 0, 0⟩ = .ok p ∧ 0 < p ∧
    probabilityFloat Rounding.double Real.exp chainExpansion (some chainExpansion) 1 300 1000 [0, 1, 0, 1, 1]
      ⟨[0, 1], [4, 3], some ⟨0, 1, 1, 0⟩⟩ = .ok q ∧ |q - p| ≤ (1 / 10) ^ 9 * p := by
  have hv : chainExpansion.compute [0, 1, 0, 1, 1] ⟨[0, 1], [4, 3], some ⟨0, 1, 1, 0⟩⟩ = .ok 18 := by
    simp only [LCE.compute, chainExpansion, LCE.validateParameterOrbits, LCE.getOrbitFingerprints]
    simp [pyGetAll, pyGet, pyIdx, LCE.calculateCorrelation, LCE.calcCorr, LCE.orbitSum, LCE.clusterProduct,
      LCE.npInner]
    norm_num
  have hd : eventDirection [0, 1, 0, 1, 1] ⟨[0, 1], [4, 3], some ⟨0, 1, 1, 0⟩⟩ = .ok 1 := by decide
  have hp : (⟨some chainExpansion, siteSource (some chainExpansion)⟩ : Composite Unit EReal).computeProbability 1 300
      1000 () ⟨[0, 1], [4, 3], some ⟨0, 1, 1, 0⟩⟩ ⟨[0, 1, 0, 1, 1], 0, 0⟩ =
      .ok (1000 * Real.exp (-(18 + ((1 : Int) : ℝ) * 18 / 2) / (1 * 300))) := by
    simp only [Composite.computeProbability, hd, siteSource, SiteSource.expansion, hv]
    simp
  have hsz : ∀ m, some chainExpansion = some m → SizeAtMost m 2 2 2 := by rintro m ⟨⟩; exact chainExpansion_size
  obtain ⟨q, hq, hle⟩ := C136_double_rate exp_within_double chainExpansion (some chainExpansion) 1 300 1000 27
    (by norm_num) (by norm_num) chainExpansion_size hsz (by norm_num) (by norm_num) (by norm_num)
    ⟨[0, 1], [4, 3], some ⟨0, 1, 1, 0⟩⟩ ⟨[0, 1, 0, 1, 1], 0, 0⟩
    (chain_barrier_size ⟨⟨[0, 1], [4, 3], none⟩, by simp [chainLib, EventLib.addAll_events], rfl, rfl⟩) _ hp
  exact ⟨_, q, hp, by positivity, hq, hle⟩

/-- Non-vacuity: an expansion with site basis functions.  Its terms `1/4 · 2/5` and `-3/4 · 1/2` and the constant
`1/3` add up; with all signs removed the sum is bigger. -/
example : ∃ m : LCE ℝ, SizeAtMost m 1 1 2 ∧ ∃ E A,
    m.compute [0, 1] ⟨[0, 1], [0, 1], none⟩ = .ok E ∧ magnitude m [0, 1] ⟨[0, 1], [0, 1], none⟩ = .ok A ∧
    |E| < A := by
  refine ⟨{ clusterSiteIndices := [[[0]], [[1]]], basisIndices := some [[[0]], [[0]]],
            siteBasisValues := some [[[1 / 4], [1]], [[1], [-3 / 4]]], keci := some [2 / 5, 1 / 2],
            emptyCluster := some (1 / 3) },
    ⟨by simp, by simp, by simp⟩, 1 / 4 * (2 / 5) + -3 / 4 * (1 / 2) + 1 / 3,
    1 / 4 * (2 / 5) + 3 / 4 * (1 / 2) + 1 / 3, ?_, ?_, ?_⟩
  · simp [LCE.compute, LCE.validateParameterOrbits, LCE.getOrbitFingerprints, pyGetAll, pyGet, pyIdx,
      LCE.calculateCorrelation, LCE.calcCorrDecorated, LCE.orbitSumDecorated, LCE.clusterProductDecorated,
      LCE.tableGet, LCE.npInner]
  · simp [magnitude, absoluteLCE, absoluteOcc, LCE.compute, LCE.validateParameterOrbits, LCE.getOrbitFingerprints,
      pyGetAll, pyGet, pyIdx, LCE.calculateCorrelation, LCE.calcCorrDecorated, LCE.orbitSumDecorated,
      LCE.clusterProductDecorated, LCE.tableGet, LCE.npInner]
    norm_num [abs_of_pos, abs_of_neg]
  · rw [abs_lt]
    constructor <;> norm_num

end KMC
