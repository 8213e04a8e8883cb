import Verif.Lemmas.FloatRun
import Verif.Props.FloatRateProps
import Verif.Props.FloatTrackerProps
/-
C137: whole simulations in floating-point arithmetic, rates included.
-/
set_option linter.unusedSectionVars false

namespace KMC
open Spec MeasureTheory ProbabilityTheory

/-! ### Rate models in general -/

section
variable {σ φ M : Type} {R : Rounding} {u a : ℝ} {m : RateModel M ℝ (FloatTime R)} {m' : RateModel M ℝ EReal}
  {lookup : Option HopStateLookup} {lib : EventLib σ φ} {occ : List Int} {step : Int} {t0 : ℝ}
  {s' : Sim σ φ M ℝ EReal}

/-- The float simulation beside the exact one at the start. -/
theorem start_near (hm : RatesWithin R a s'.lib.events occ m m') (ht0 : 0 ≤ t0) (hrep : R.Rep t0)
    (hinit' : Sim.init (realKernel Rounding.exact) m' lib lookup (some ⟨occ, (t0 : EReal), step⟩) = .ok s') :
    ∃ s, Sim.init (onClock R (realKernel R)) m lib lookup (some ⟨occ, .of R (t0 : EReal), step⟩) = .ok s ∧
      Tandem R a s'.lib.events occ s s' ∧ TimesWithin R 1 s.st.time s'.st.time ∧
      s'.prob.length = s'.lib.events.length := by
  obtain ⟨s, h1, h2, h3, h4⟩ := init_near (R := R) (a := a) (m := m) (m' := m') (lib := lib) (lookup := lookup)
    (st := ⟨occ, .of R (t0 : EReal), step⟩) (st' := ⟨occ, (t0 : EReal), step⟩) (s' := s') hm rfl rfl hinit'
  obtain ⟨-, -, -, -, -, -, -, hf'⟩ := init_ok hinit'
  refine ⟨s, h1, h4, ⟨t0, t0, ?_, ?_, ht0, ht0, WithinFactor.refl t0⟩, hf'.length⟩
  · rw [h2]
    show roundTime R (t0 : EReal) = _
    rw [roundTime_coe, show R.rnd t0 = t0 from hrep]
  · rw [h3]

theorem timesWithin_start (hu : Accurate R u) (hu1 : u ≤ 1) (ha : 0 < a) (ha1 : a ≤ 1) (n : Nat)
    {t : FloatTime R} {t' : EReal} (h : TimesWithin R 1 t t') : TimesWithin R (a * (1 - u) ^ n) t t' := by
  have hu0 := accurate_nonneg hu
  obtain ⟨x, y, hx, hy, x0, y0, w⟩ := h
  refine ⟨x, y, hx, hy, x0, y0, w.weaken ?_ x0 y0⟩
  exact mul_le_one₀ ha1 (pow_nonneg (by linarith) n) (pow_le_one₀ (by linarith) (by linarith))

variable (hu : Accurate R u) (hu1 : u ≤ 1) (ha : 0 < a) (ha1 : a ≤ 1) (hm : RatesWithin R a s'.lib.events occ m m')
  (ht0 : 0 ≤ t0) (hrep : R.Rep t0)
  (hinit' : Sim.init (realKernel Rounding.exact) m' lib lookup (some ⟨occ, (t0 : EReal), step⟩) = .ok s')
include hu hu1 ha ha1 hm ht0 hrep hinit'

/-- C137.  If the exact simulation can be constructed, so can the one in floating-point arithmetic.  Random
numbers that keep clear of the points where the choice changes lead both through the same hops, and the clocks
agree up to the accuracy of the rates and `n + 2 + N` roundings (`N` steps, `n` events). -/
theorem C137_same_hops_if_clear :
    ∃ s, Sim.init (onClock R (realKernel R)) m lib lookup (some ⟨occ, .of R (t0 : EReal), step⟩) = .ok s ∧
      ∀ (draws : Nat → ℝ × ℝ) (hist' : List (Event × EReal)) (s1' : Sim σ φ M ℝ EReal),
        Steps (realKernel Rounding.exact) m' draws true 0 s' hist' s1' →
        ClearAhead (margin u a s'.lib.events.length) m' draws hist'.length 0 s' →
        ∃ hist s1, Steps (onClock R (realKernel R)) m draws true 0 s hist s1 ∧
          hist.map (·.1) = hist'.map (·.1) ∧ SamePlace a s1 s1' ∧
          ∃ t t' : ℝ, s1.st.time.val = (t : EReal) ∧ s1'.st.time = (t' : EReal) ∧
            WithinFactor (a * (1 - u) ^ (s'.lib.events.length + 2 + hist'.length)) t t' := by
  obtain ⟨s, h1, h2, h3, h4⟩ := start_near (a := a) (m := m) hm ht0 hrep hinit'
  refine ⟨s, h1, fun draws hist' s1' hs hc => ?_⟩
  obtain ⟨hist, s1, k1, k2, k3, x, y, hx, hy, -, -, w⟩ := steps_near (m := m) hu hu1 ha ha1 hm hs s 0 h2
    (by rw [h4]; exact hc) (timesWithin_start hu hu1 ha ha1 _ h3)
  rw [h4, Nat.zero_add] at w
  exact ⟨hist, s1, k1, k2, k3.samePlace, x, y, hx, hy, w⟩

variable (hc : IgnoresClock m' m') (hr : ∀ ms e st p, m'.computeProbability ms e st = .ok p → 0 ≤ p)
  {Θ : Type} [MeasurableSpace Θ] {μ : Measure Θ} [IsProbabilityMeasure μ] {U : Nat → Θ → ℝ × ℝ}
  (hU : RandomNumbers μ U)
include hc hr hU

/-- C137.  A simulation in floating-point arithmetic, rates included, and the exact one are given the same random
numbers.  With probability at least `1 - N * 2 * n * margin` the first makes all of the `N` steps that the
second makes, with the same hops, and the clocks agree up to the accuracy of the rates and `n + 2 + N`
roundings. -/
theorem C137_same_hops (N : Nat) :
    ∃ s, Sim.init (onClock R (realKernel R)) m lib lookup (some ⟨occ, .of R (t0 : EReal), step⟩) = .ok s ∧
    μ {ω | ∃ hist' s1', hist'.length = N ∧
      Steps (realKernel Rounding.exact) m' (fun k => U k ω) true 0 s' hist' s1' ∧
      ¬ ∃ hist s1, Steps (onClock R (realKernel R)) m (fun k => U k ω) true 0 s hist s1 ∧
        hist.map (·.1) = hist'.map (·.1) ∧ SamePlace a s1 s1' ∧
        ∃ t t' : ℝ, s1.st.time.val = (t : EReal) ∧ s1'.st.time = (t' : EReal) ∧
          WithinFactor (a * (1 - u) ^ (s'.lib.events.length + 2 + N)) t t'} ≤
      N * ENNReal.ofReal (2 * s'.lib.events.length * margin u a s'.lib.events.length) := by
  obtain ⟨s, h1, h2⟩ := C137_same_hops_if_clear hu hu1 ha ha1 hm ht0 hrep hinit'
  refine ⟨s, h1, ?_⟩
  obtain ⟨s2, -, h3, -, h4⟩ := start_near (a := a) (m := m) hm ht0 hrep hinit'
  have hu0 := accurate_nonneg hu
  have hδ : 0 ≤ margin u a s'.lib.events.length := by
    have : a * a ≤ 1 := mul_le_one₀ ha1 ha.le ha1
    unfold margin
    have : 0 ≤ 2 * (s'.lib.events.length : ℝ) * u := by positivity
    linarith
  obtain ⟨B, -, b2, b3⟩ := clear_likely hδ hc hr hU N s'.lib.events.length 0 s' h3.cum'
    (fun p hp => (nearRates_nonneg h3.rates p hp).1) h4
  refine le_trans (measure_mono_ae ?_) b2
  filter_upwards [b3] with ω k1
  rintro ⟨hist', s1', rfl, k3, k4⟩
  by_contra hB
  exact k4 (h2 _ _ _ k3 (k1 hB))

variable {K V Row V' Row' : Type} [Field K] [LinearOrder K] [FloorRing K] (g : Geometry K)
  (summary : Trajectory K → FloatTime R → List (String × Bool) → Row)
  (summary' : Trajectory K → EReal → List (String × Bool) → Row') (plan : PropertyPlan (FloatTime R) V)
  (plan' : PropertyPlan EReal V')

/-- C137.  The same for whole runs, with equilibration and tracker: two runs that finish report the same
displacements and hops with at least the probability `1 - (equil + prod) * len * 2 * n * margin`, and the clocks
agree up to the accuracy of the rates and `n + 2 + prod * len` roundings. -/
theorem C137_same_run (len equil prod : Nat) :
    ∃ s, Sim.init (onClock R (realKernel R)) m lib lookup (some ⟨occ, .of R (t0 : EReal), step⟩) = .ok s ∧
      s.lib = s'.lib ∧
    μ {ω | (s.run (onClock R (realKernel R)) m g lookup summary plan (fun k => U k ω) len equil prod).outcome = .ok () ∧
      (s'.run (realKernel Rounding.exact) m' g lookup summary' plan' (fun k => U k ω) len equil prod).outcome = .ok () ∧
      ¬ ∃ rs rs',
        (s.run (onClock R (realKernel R)) m g lookup summary plan (fun k => U k ω) len equil prod).tracker = some rs ∧
        (s'.run (realKernel Rounding.exact) m' g lookup summary' plan' (fun k => U k ω) len equil prod).tracker = some rs' ∧
        SamePlace a rs.sim rs'.sim ∧ rs.traj = rs'.traj ∧
        ∃ t t' : ℝ, rs.sim.st.time.val = (t : EReal) ∧ rs'.sim.st.time = (t' : EReal) ∧
          WithinFactor (a * (1 - u) ^ (s'.lib.events.length + 2 + prod * len)) t t'} ≤
      ((equil + prod) * len : Nat) *
        ENNReal.ofReal (2 * s'.lib.events.length * margin u a s'.lib.events.length) := by
  obtain ⟨s, h1, hb, ht, hl⟩ := start_near (a := a) (m := m) hm ht0 hrep hinit'
  refine ⟨s, h1, hb.lib, ?_⟩
  have hu0 := accurate_nonneg hu
  have hδ : 0 ≤ margin u a s'.lib.events.length := by
    have : a * a ≤ 1 := mul_le_one₀ ha1 ha.le ha1
    unfold margin
    have : 0 ≤ 2 * (s'.lib.events.length : ℝ) * u := by positivity
    linarith
  obtain ⟨B, -, b2, b3⟩ := clear_likely hδ hc hr hU ((equil + prod) * len) s'.lib.events.length 0 s' hb.cum'
    (fun p hp => (nearRates_nonneg hb.rates p hp).1) hl
  refine le_trans (measure_mono_ae ?_) b2
  filter_upwards [b3] with ω k1
  rintro ⟨h, h', h4⟩
  by_contra hB
  refine h4 ?_
  have hcl := k1 hB
  rw [show (equil + prod) * len = equil * len + prod * len by ring, ← hl] at hcl
  obtain ⟨s1, traj, sampler, rs, a1, a2, -, a4, a5⟩ := run_ok h
  obtain ⟨s1', traj', sampler', rs', c1, c2, -, c4, c5⟩ := run_ok h'
  obtain ⟨q1, q2, q3, q4, q5⟩ := equilSteps_near hu hu1 ha ha1 hm hb hcl a1 c1
  rw [q1.occs, c2] at a2
  have htr : traj = traj' := (Except.ok.inj a2).symm
  have ht' : TimesWithin R (a * (1 - u) ^ (s1'.prob.length + 2 + 0)) s1.st.time s1'.st.time := by
    rw [q3, q4]
    exact timesWithin_start hu hu1 ha ha1 _ ht
  rw [Nat.zero_add] at q2
  obtain ⟨z1, z2, x, y, hx, hy, -, -, w⟩ := passes_near hu hu1 ha ha1 hm
    (s := { sim := s1, traj := traj, sampler := sampler }) (s' := { sim := s1', traj := traj', sampler := sampler' })
    q1 q2 htr ht' a4 c4
  rw [a5, c5]
  simp only [q5, hl, Nat.zero_add] at w
  exact ⟨rs, rs', rfl, rfl, z1, z2, x, y, hx, hy, w⟩

end

/-! ### Cluster expansions -/

section
variable {u ε : ℝ} {R : Rounding} {expf : ℝ → ℝ} {s c k : Nat}

/-- C137.  The composite model of cluster expansions in floating-point arithmetic lies beside the exact one, with
the factor of C136, in every configuration of the composition. -/
theorem C137_expansions (hu : 0 ≤ u) (hu1 : u ≤ 1 / 2) (hR : Accurate R u) (hε : 0 ≤ ε) (hε1 : ε < 1)
    (hexp : ExpWithin expf ε) (kra : LCE ℝ) (site : Option (LCE ℝ)) (kB temp ν b : ℝ) (hT : 0 < kB * temp)
    (hν : 0 ≤ ν) (hk : SizeAtMost kra s c k) (hsite : ∀ m, site = some m → SizeAtMost m s c k)
    (events : List Event) (occ : List Int)
    (hb : ∀ e ∈ events, ∀ x, SameComposition x occ → BarrierSizeAtMost kra site x e b) :
    RatesWithin R (lowFactor u ε (roundingError u (s + c + k + 7) (b / (kB * temp)))) events occ
      (floatRateModel R expf kra site kB temp ν)
      ((⟨some kra, siteSource site⟩ : Composite Unit EReal).rateModel kB temp ν) := by
  have hexp0 : ∀ x, 0 ≤ expf x := by
    intro x
    have h1 := (abs_le.1 (hexp x)).1
    have h2 : 0 ≤ (1 - ε) * Real.exp x := mul_nonneg (by linarith) (Real.exp_pos x).le
    linarith
  have hlh : lowFactor u ε (roundingError u (s + c + k + 7) (b / (kB * temp))) *
      highFactor u ε (roundingError u (s + c + k + 7) (b / (kB * temp))) ≤ 1 := by
    unfold lowFactor highFactor
    generalize roundingError u (s + c + k + 7) (b / (kB * temp)) = η
    have e1 : (1 - u) * (1 - ε) * Real.exp (-η) * ((1 + u) * (1 + ε) * Real.exp η) =
        ((1 - u) * (1 + u)) * ((1 - ε) * (1 + ε)) * (Real.exp (-η) * Real.exp η) := by ring
    rw [e1, ← Real.exp_add, neg_add_cancel, Real.exp_zero, mul_one]
    exact mul_le_one₀ (by nlinarith) (mul_nonneg (by linarith) (by linarith)) (by nlinarith)
  refine ⟨fun st st' es _ _ => ?_, fun ms e st st' _ _ => ?_, fun ms e st st' he hx h1 _ p hp => ?_⟩
  · cases site <;> rfl
  · cases site <;> rfl
  · simp only [Composite.rateModel] at hp
    obtain ⟨q, hq, w⟩ := C136_rate hu hu1 hR hε hε1 hexp kra site kB temp ν b hT hν hk hsite e st' (hb e he _ hx) p hp
    have hp0 : 0 ≤ p := C34_composite_nonneg _ kB temp ν hν ms e st' p hp
    refine ⟨q, by simp only [floatRateModel, h1]; exact hq, ?_, ?_, hp0, w.1, ?_⟩
    · exact (mul_nonneg (lowFactor_pos (by linarith) hε1 _).le hp0).trans w.1
    · simp only [probabilityFloat] at hq
      split at hq
      · cases hq
      · split at hq
        · cases hq; exact R.zero
        · split at hq
          · cases hq
          · split at hq
            · cases hq
            · cases hq; exact R.idem _
    · have := mul_le_mul_of_nonneg_left w.2 (lowFactor_pos (u := u) (ε := ε) (by linarith) hε1
        (roundingError u (s + c + k + 7) (b / (kB * temp)))).le
      refine this.trans ?_
      rw [← mul_assoc]
      have := mul_le_mul_of_nonneg_right hlh hp0
      linarith

theorem expansions_ignore_clock (kra : LCE ℝ) (site : Option (LCE ℝ)) (kB temp ν : ℝ) :
    IgnoresClock ((⟨some kra, siteSource site⟩ : Composite Unit EReal).rateModel kB temp ν)
      ((⟨some kra, siteSource site⟩ : Composite Unit EReal).rateModel kB temp ν) := by
  refine ⟨fun st st' es _ _ => ?_, fun ms e st st' _ _ => ?_, fun ms e st st' h1 _ => ?_⟩
  · cases site <;> rfl
  · cases site <;> rfl
  · simp only [Composite.rateModel, Composite.computeProbability, h1]
    cases site with
    | none => rfl
    | some m => simp only [siteSource, SiteSource.expansion, h1]

/-- C137.  Python floats: with a library exponential function that is right up to two units in the last place,
fewer than 1000 roundings and sums behind the barriers of at most 1000 times the thermal energy, the rates of
every configuration of the composition are right up to the factor `1 - 10⁻⁹`. -/
theorem C137_double_rates (hexp : ExpWithin expf ((1 / 2) ^ 52)) (kra : LCE ℝ) (site : Option (LCE ℝ))
    (kB temp ν b : ℝ) (hT : 0 < kB * temp) (hν : 0 ≤ ν) (hk : SizeAtMost kra s c k)
    (hsite : ∀ m, site = some m → SizeAtMost m s c k) (hn : s + c + k + 7 ≤ 1000) (hb0 : 0 ≤ b)
    (hb1 : b ≤ 1000 * (kB * temp)) (events : List Event) (occ : List Int)
    (hb : ∀ e ∈ events, ∀ x, SameComposition x occ → BarrierSizeAtMost kra site x e b) :
    RatesWithin Rounding.double (1 - (1 / 10) ^ 9) events occ
      (floatRateModel Rounding.double expf kra site kB temp ν)
      ((⟨some kra, siteSource site⟩ : Composite Unit EReal).rateModel kB temp ν) := by
  have h0 := C137_expansions (by positivity) (by norm_num) C123_double_accuracy (by positivity) (by norm_num)
    hexp kra site kB temp ν b hT hν hk hsite events occ hb
  refine ⟨h0.starts, h0.applies, fun ms e st st' he hx h1 h2 p hp => ?_⟩
  obtain ⟨q, hq, w⟩ := h0.computes ms e st st' he hx h1 h2 p hp
  refine ⟨q, hq, w.nonneg, w.rep, w.nonneg', ?_⟩
  obtain ⟨q', hq', w'⟩ := C136_double_rate hexp kra site kB temp ν b hT hν hk hsite hn hb0 hb1 e st'
    (hb e he _ hx) p hp
  simp only [floatRateModel, h1] at hq
  rw [hq] at hq'
  obtain rfl := Except.ok.inj hq'
  have hp0 := w.nonneg'
  obtain ⟨w1, w2⟩ := abs_le.1 w'
  constructor
  · linarith
  · norm_num at w2 ⊢
    linarith

/-- C137.  Whole simulations with Python floats.  With at least the probability
`1 - N * 2 * n * (n / 2⁵² + 2 / 10⁹)` the first `N` steps make exactly the hops that exact arithmetic would make
with the same random numbers, for `n` events. -/
theorem C137_double_same_hops {σ φ : Type} (hexp : ExpWithin expf ((1 / 2) ^ 52)) (kra : LCE ℝ)
    (site : Option (LCE ℝ)) (kB temp ν b : ℝ) (hT : 0 < kB * temp) (hν : 0 ≤ ν) (hk : SizeAtMost kra s c k)
    (hsite : ∀ m, site = some m → SizeAtMost m s c k) (hn : s + c + k + 7 ≤ 1000) (hb0 : 0 ≤ b)
    (hb1 : b ≤ 1000 * (kB * temp)) (lookup : Option HopStateLookup) (lib : EventLib σ φ) (occ : List Int)
    (step : Int) (s' : Sim σ φ Unit ℝ EReal)
    (hinit' : Sim.init (realKernel Rounding.exact)
      ((⟨some kra, siteSource site⟩ : Composite Unit EReal).rateModel kB temp ν) lib lookup
      (some ⟨occ, ((0 : ℝ) : EReal), step⟩) = .ok s')
    (hb : ∀ e ∈ s'.lib.events, ∀ x, SameComposition x occ → BarrierSizeAtMost kra site x e b)
    {Θ : Type} [MeasurableSpace Θ] {μ : Measure Θ} [IsProbabilityMeasure μ] {U : Nat → Θ → ℝ × ℝ}
    (hU : RandomNumbers μ U) (N : Nat) :
    ∃ s0, Sim.init (onClock .double (realKernel .double)) (floatRateModel .double expf kra site kB temp ν) lib lookup
        (some ⟨occ, .of .double ((0 : ℝ) : EReal), step⟩) = .ok s0 ∧
    μ {ω | ∃ hist' s1', hist'.length = N ∧
      Steps (realKernel Rounding.exact) ((⟨some kra, siteSource site⟩ : Composite Unit EReal).rateModel kB temp ν)
        (fun k => U k ω) true 0 s' hist' s1' ∧
      ¬ ∃ hist s1, Steps (onClock .double (realKernel .double)) (floatRateModel .double expf kra site kB temp ν)
        (fun k => U k ω) true 0 s0 hist s1 ∧ hist.map (·.1) = hist'.map (·.1) ∧ s1.st.occ = s1'.st.occ} ≤
      N * ENNReal.ofReal (2 * s'.lib.events.length * (s'.lib.events.length / 2 ^ 52 + 2 / 10 ^ 9)) := by
  have hm := C137_double_rates hexp kra site kB temp ν b hT hν hk hsite hn hb0 hb1 s'.lib.events occ hb
  obtain ⟨s0, h1, h2⟩ := C137_same_hops C123_double_accuracy (by norm_num) (by norm_num) (by norm_num) hm
    (le_refl 0) Rounding.double.zero hinit' (expansions_ignore_clock kra site kB temp ν)
    (fun ms e st p hp => C34_composite_nonneg (⟨some kra, siteSource site⟩ : Composite Unit EReal) kB temp ν hν ms e st p
      hp) hU N
  refine ⟨s0, h1, (measure_mono ?_).trans (h2.trans ?_)⟩
  · rintro ω ⟨hist', s1', k1, k2, k3⟩
    refine ⟨hist', s1', k1, k2, ?_⟩
    rintro ⟨hist, s1, j1, j2, j3, -⟩
    exact k3 ⟨hist, s1, j1, j2, j3.occ⟩
  · gcongr
    unfold margin
    have : 0 ≤ (s'.lib.events.length : ℝ) := by positivity
    norm_num
    linarith

end

/-! ### Displacements -/

section
variable {σ φ M : Type} {R : Rounding} {u a : ℝ} {m : RateModel M ℝ (FloatTime R)} {m' : RateModel M ℝ EReal}
  {lookup : Option HopStateLookup} {lib : EventLib σ φ} {occ : List Int} {step : Int} {t0 : ℝ}
  {s' : Sim σ φ M ℝ EReal} {V Row V' Row' : Type}

/-- C137.  What the program reports against what exact arithmetic would report.  Rates, choices, clock and
displacements of the first run are rounded; nothing is rounded in the second.  With at least the probability
`1 - (equil + prod) * len * 2 * n * margin` two runs that finish hold the ions at the same places after the same
numbers of hops, every component of every displacement agrees up to the bound of C133, and the clocks agree up to
the accuracy of the rates and `n + 2 + prod * len` roundings. -/
theorem C137_same_transport (hu : Accurate R u) (hu1 : u ≤ 1 / 12) (ha : 0 < a) (ha1 : a ≤ 1)
    (hm : RatesWithin R a s'.lib.events occ m m') (ht0 : 0 ≤ t0) (hrep : R.Rep t0)
    (hinit' : Sim.init (realKernel Rounding.exact) m' lib lookup (some ⟨occ, (t0 : EReal), step⟩) = .ok s')
    (hc : IgnoresClock m' m') (hr : ∀ ms e st p, m'.computeProbability ms e st = .ok p → 0 ≤ p)
    {Θ : Type} [MeasurableSpace Θ] {μ : Measure Θ} [IsProbabilityMeasure μ] {U : Nat → Θ → ℝ × ℝ}
    (hU : RandomNumbers μ U) (g : Geometry ℝ) (hg : ∀ f ∈ g.fracCoords, ∀ i, 0 ≤ f i ∧ f i < 1)
    (hclear : ∀ e ∈ s'.lib.events, ClearImage u g e)
    (summary : Trajectory ℝ → FloatTime R → List (String × Bool) → Row)
    (summary' : Trajectory ℝ → EReal → List (String × Bool) → Row') (plan : PropertyPlan (FloatTime R) V)
    (plan' : PropertyPlan EReal V') (len equil prod : Nat) :
    ∃ s, Sim.init (onClock R (realKernel R)) m lib lookup (some ⟨occ, .of R (t0 : EReal), step⟩) = .ok s ∧
    μ {ω | (s.run (onClock R (realKernel R)) m g lookup summary plan (fun k => U k ω) len equil prod).outcome = .ok () ∧
      (s'.run (realKernel Rounding.exact) m' g lookup summary' plan' (fun k => U k ω) len equil prod).outcome = .ok () ∧
      ¬ ∃ rs rs' s1 start hist t,
        (s.run (onClock R (realKernel R)) m g lookup summary plan (fun k => U k ω) len equil prod).tracker = some rs ∧
        (s'.run (realKernel Rounding.exact) m' g lookup summary' plan' (fun k => U k ω) len equil prod).tracker = some rs' ∧
        s.equilSteps (onClock R (realKernel R)) m (fun k => U k ω) (equil * len) 0 = (.ok (), s1) ∧
        Trajectory.init g lookup s1.st.occ = .ok start ∧ hist.length = prod * len ∧
        TrackedSteps (onClock R (realKernel R)) m g (fun k => U k ω) (equil * len) s1 start hist rs.sim rs.traj ∧
        start.followFloat R g hist = (.ok (), t) ∧
        t.locations = rs'.traj.locations ∧ t.hopCounter = rs'.traj.hopCounter ∧
        t.displacement.length = rs'.traj.displacement.length ∧
        (∀ (i : Nat) v v' n, rs'.traj.displacement[i]? = some v → t.displacement[i]? = some v' →
          rs'.traj.hopCounter[i]? = some n →
            ∀ j, |v' j - v j| ≤ (1 + u) ^ n * u * extent g j * (6 * n + n * (n + 1) / 4)) ∧
        ∃ time time' : ℝ, rs.sim.st.time.val = (time : EReal) ∧ rs'.sim.st.time = (time' : EReal) ∧
          WithinFactor (a * (1 - u) ^ (s'.lib.events.length + 2 + prod * len)) time time'} ≤
      ((equil + prod) * len : Nat) *
        ENNReal.ofReal (2 * s'.lib.events.length * margin u a s'.lib.events.length) := by
  obtain ⟨s, h1, h2, h3⟩ := C137_same_run hu (by linarith) ha ha1 hm ht0 hrep hinit' hc hr hU g summary summary' plan
    plan' len equil prod
  refine ⟨s, h1, (measure_mono ?_).trans h3⟩
  rintro ω ⟨k1, k2, k3⟩
  refine ⟨k1, k2, fun ⟨rs, rs', j1, j2, j3, j4, j5⟩ => k3 ?_⟩
  obtain ⟨s1, start, rs1, hist, d1, d2, d3, d4, d5, t, d6, d7, d8, d9, d10⟩ := C133_displacements R u hu
    (accurate_nonneg hu) hu1 _ m g hg lookup summary plan _ len equil prod s (by rw [h2]; exact hclear) k1
  rw [j1] at d3
  obtain rfl := Option.some.inj d3
  rw [j4] at d7 d8 d9 d10
  exact ⟨rs, rs', s1, start, hist, t, j1, j2, d1, d2, d4, d5, d6, d7, d8, d9, d10, j5⟩

end

/-! ### Concrete cases -/

theorem chain_values {x : List Int} (h : SameComposition x [0, 1, 0, 1, 1]) {i : Int} (h0 : 0 ≤ i) (h5 : i < 5) :
    ∃ v, pyGet x i = .ok v ∧ (v = 0 ∨ v = 1) := by
  have hp := sameComposition_iff_perm.1 h
  have hl : x.length = 5 := hp.length_eq
  obtain ⟨n, rfl⟩ := Int.eq_ofNat_of_zero_le h0
  have hn : n < x.length := by omega
  refine ⟨x[n], ?_, ?_⟩
  · have hc : (n : Int) < (x.length : Int) := by exact_mod_cast hn
    simp [pyGet, pyIdx, hn, hc]
  · have := hp.mem_iff.1 (List.getElem_mem hn)
    simp only [List.mem_cons, List.not_mem_nil, or_false] at this
    omega

theorem chain_magnitude_any {e : Event} (he : ∃ x ∈ chainLib.events, e.mobile = x.mobile ∧ e.env = x.env)
    {x : List Int} (h : SameComposition x [0, 1, 0, 1, 1]) :
    ∃ A, magnitude chainExpansion x e = .ok A ∧ A ≤ 18 := by
  have key : ∀ i j : Int, 0 ≤ i → i < 5 → 0 ≤ j → j < 5 → e.env = [i, j] →
      ∃ A, magnitude chainExpansion x e = .ok A ∧ A ≤ 18 := by
    intro i j hi0 hi5 hj0 hj5 henv
    have hx : x.map (fun v => |v|) = x := by
      have hp := sameComposition_iff_perm.1 h
      conv_rhs => rw [← List.map_id x]
      refine List.map_congr_left fun v hv => ?_
      have := hp.mem_iff.1 hv
      simp only [List.mem_cons, List.not_mem_nil, or_false] at this
      rcases this with rfl | rfl | rfl | rfl | rfl <;> rfl
    obtain ⟨v, hv, hv'⟩ := chain_values h hi0 hi5
    obtain ⟨w, hw, hw'⟩ := chain_values h hj0 hj5
    have hget : pyGetAll x [i, j] = .ok [v, w] := by simp [pyGetAll, hv, hw]
    rcases hv' with rfl | rfl <;> rcases hw' with rfl | rfl <;>
    · simp only [magnitude, absoluteOcc, absoluteLCE, LCE.compute, chainExpansion, Option.map_some,
        LCE.validateParameterOrbits, LCE.getOrbitFingerprints, henv, hx]
      simp [hget, pyGet, pyIdx, LCE.calculateCorrelation, LCE.calcCorr, LCE.orbitSum, LCE.clusterProduct,
        LCE.npInner]
      norm_num
  rcases chain_mobile he with ⟨-, hn⟩ | ⟨-, hn⟩ | ⟨-, hn⟩ | ⟨-, hn⟩
  · exact key 4 3 (by norm_num) (by norm_num) (by norm_num) (by norm_num) hn
  · exact key 4 3 (by norm_num) (by norm_num) (by norm_num) (by norm_num) hn
  · exact key 0 1 (by norm_num) (by norm_num) (by norm_num) (by norm_num) hn
  · exact key 0 1 (by norm_num) (by norm_num) (by norm_num) (by norm_num) hn

/-- Non-vacuity: two ions on a chain of five sites, expansions for barriers and site energies, Python floats.  The
chance that the first 1000 steps of the two simulations differ is below one in ten thousand. -/
example {Θ : Type} [MeasurableSpace Θ] {μ : Measure Θ} [IsProbabilityMeasure μ] {U : Nat → Θ → ℝ × ℝ}
    (hU : RandomNumbers μ U) :
    ∃ (s0 : Sim Unit Unit Unit ℝ (FloatTime .double)) (s' : Sim Unit Unit Unit ℝ EReal),
      Sim.init (realKernel Rounding.exact) ((⟨some chainExpansion, siteSource (some chainExpansion)⟩ :
        Composite Unit EReal).rateModel 1 300 1000) chainLib.generateEventDependencies
        (some ⟨[0, 0, 0, 0, 0], [1, 1, 1, 1, 1]⟩) (some ⟨[0, 1, 0, 1, 1], ((0 : ℝ) : EReal), 0⟩) = .ok s' ∧
      Sim.init (onClock .double (realKernel .double)) (floatRateModel .double Real.exp chainExpansion
        (some chainExpansion) 1 300 1000) chainLib.generateEventDependencies
        (some ⟨[0, 0, 0, 0, 0], [1, 1, 1, 1, 1]⟩)
        (some ⟨[0, 1, 0, 1, 1], .of .double ((0 : ℝ) : EReal), 0⟩) = .ok s0 ∧
      μ {ω | ∃ hist' s1', hist'.length = 1000 ∧
        Steps (realKernel Rounding.exact) ((⟨some chainExpansion, siteSource (some chainExpansion)⟩ :
          Composite Unit EReal).rateModel 1 300 1000) (fun k => U k ω) true 0 s' hist' s1' ∧
        ¬ ∃ hist s1, Steps (onClock .double (realKernel .double)) (floatRateModel .double Real.exp chainExpansion
          (some chainExpansion) 1 300 1000) (fun k => U k ω) true 0 s0 hist s1 ∧
          hist.map (·.1) = hist'.map (·.1) ∧ s1.st.occ = s1'.st.occ} ≤ ENNReal.ofReal (1 / 10000) := by
  have hs := C69_hop_system exampleOrder "Na" _ (some chainExpansion) (some chainExpansion) 1 300 1000 hopGeometry
    chainLib ⟨[0, 1, 0, 1, 1], ((0 : ℝ) : EReal), 0⟩ (by norm_num) chain_hopSystem.lookup chain_hopSystem.labelled
    chain_hopSystem.fit chain_hopSystem.endpoints chain_hopSystem.coords
  have hs : HopSystem exampleOrder "Na" ⟨[0, 0, 0, 0, 0], [1, 1, 1, 1, 1]⟩ Rounding.exact
      ((⟨some chainExpansion, siteSource (some chainExpansion)⟩ : Composite Unit EReal).rateModel 1 300 1000)
      hopGeometry chainLib ⟨[0, 1, 0, 1, 1], ((0 : ℝ) : EReal), 0⟩ := hs
  have ha : Answers exampleOrder "Na" ((⟨some chainExpansion, siteSource (some chainExpansion)⟩ :
      Composite Unit EReal).rateModel 1 300 1000) chainLib.events [0, 1, 0, 1, 1] :=
    C85_composite_answers chainExpansion (some chainExpansion) 1 300 1000 chainLib.events [0, 1, 0, 1, 1] [2, 2]
      [2, 2] chainExpansion_built chain_surroundings
      (by rintro m ⟨⟩; exact ⟨chainExpansion_built, chain_surroundings⟩) chain_hopSystem.fit (by
        intro e he
        obtain ⟨f, t, h1, -⟩ := chain_hopSystem.endpoints e he
        exact ⟨f, t, h1⟩)
  obtain ⟨s', hi⟩ := C85_can_be_constructed hs ha
  have hsz : ∀ m, some chainExpansion = some m → SizeAtMost m 2 2 2 := by rintro m ⟨⟩; exact chainExpansion_size
  obtain ⟨s0, h1, h2⟩ := C137_double_same_hops exp_within_double chainExpansion (some chainExpansion) 1 300 1000 27
    (by norm_num) (by norm_num) chainExpansion_size hsz (by norm_num) (by norm_num) (by norm_num) _ _ _ _ s' hi (by
      intro e he x hx A D hA hD
      obtain ⟨A', hA', hle⟩ := chain_magnitude_any (running_event hi he) hx
      simp only [siteMagnitude] at hD
      rw [hA'] at hA hD
      cases hA; cases hD
      linarith) hU 1000
  refine ⟨s0, s', hi, h1, h2.trans ?_⟩
  have hlen : s'.lib.events.length = 4 := by
    obtain ⟨-, -, i3, -⟩ := init_ok hi
    have := congrArg List.length i3
    rw [List.length_map, List.length_map] at this
    rw [this]
    simp [EventLib.generateEventDependencies, chainLib, EventLib.addAll_events]
  rw [hlen, ← ENNReal.ofReal_natCast, ← ENNReal.ofReal_mul (by norm_num)]
  refine ENNReal.ofReal_le_ofReal ?_
  norm_num

/-- The other hypotheses of `C137_same_run` and `C137_same_transport` for Python floats: two sites, one event.  For
the geometry see the example of C133, which has the same event. -/
example : RatesWithin .double 1 (steadySim ((0 : ℝ) : EReal)).lib.events [0, 1]
      (steadyModel (FloatTime Rounding.double)) (steadyModel EReal) ∧
    IgnoresClock (steadyModel EReal) (steadyModel EReal) ∧
    (∀ ms e st p, (steadyModel EReal).computeProbability ms e st = .ok p → 0 ≤ p) ∧
    Sim.init (realKernel .exact) (steadyModel _) toyLib none (some ⟨[0, 1], ((0 : ℝ) : EReal), 0⟩) =
      .ok (steadySim ((0 : ℝ) : EReal)) ∧ (steadySim ((0 : ℝ) : EReal)).lib.events = realToySim.lib.events := by
  refine ⟨⟨fun _ _ _ _ _ => rfl, fun _ _ _ _ _ _ => rfl, ?_⟩,
    ⟨fun _ _ _ _ _ => rfl, fun _ _ _ _ _ _ => rfl, fun _ _ _ _ _ _ => rfl⟩, ?_, rfl, rfl⟩
  · intro ms e st st' _ _ _ _ p hp
    obtain rfl := Except.ok.inj hp
    exact ⟨1, rfl, zero_le_one, Rounding.double.one, zero_le_one, by constructor <;> norm_num⟩
  · rintro ms e st p hp
    obtain rfl := Except.ok.inj hp
    exact zero_le_one

end KMC
