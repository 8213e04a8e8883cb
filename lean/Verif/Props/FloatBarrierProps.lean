import Verif.Lemmas.FloatBarrier
import Verif.Props.FloatRunProps
import Verif.Props.ModelProgressProps
/-
C138: local barrier models in floating-point arithmetic.
-/
set_option linter.unusedSectionVars false

namespace KMC
open Spec LocalBarrier MeasureTheory ProbabilityTheory

variable {u ε : ℝ} {R : Rounding} {expf : ℝ → ℝ}

/-- C138.  A rate in floating-point arithmetic lies within two factors of the exact one: three roundings of the
exponent, the error of the exponential function and one more rounding. -/
theorem C138_rate (hu : 0 ≤ u) (hu1 : u ≤ 1 / 2) (hR : Accurate R u) (hε : 0 ≤ ε) (hε1 : ε < 1)
    (hexp : ExpWithin expf ε) (m : LocalBarrierModel) (kB temp ν b : ℝ) (hT : 0 < kB * temp) (hν : 0 ≤ ν)
    (hrep : R.Rep ν) (hb : BarriersAtMost m b) (e : Event) (occ : List Int) (p : ℝ)
    (h : m.computeProbability kB temp ν e occ = .ok (some p)) :
    ∃ q, m.computeProbabilityFloat R expf kB temp ν e occ = .ok (some q) ∧
      BetweenFactors (lowFactor u ε (roundingError u 3 (b / (kB * temp))))
        (highFactor u ε (roundingError u 3 (b / (kB * temp)))) p q := by
  simp only [LocalBarrierModel.computeProbability] at h
  simp only [LocalBarrierModel.computeProbabilityFloat]
  split at h
  · cases h
  · rename_i hmode
    rw [if_neg hmode]
    cases hc : m.compute occ e m.probabilityProperty with
    | error x => rw [hc] at h; cases h
    | ok v =>
      rw [hc] at h
      cases hd : eventDirection occ e with
      | error x => rw [hd] at h; cases h
      | ok d =>
        rw [hd] at h
        cases v with
        | fin q =>
          simp only [LocalBarrierModel.arrhenius, Except.ok.injEq, Option.some.injEq] at h
          subst h
          refine ⟨_, rfl, ?_⟩
          have hf : R.rnd ((if d ≠ 0 then (1 : ℝ) else 0) * ν) = (if d ≠ 0 then (1 : ℝ) else 0) * ν := by
            split
            · rw [one_mul]; exact hrep
            · rw [zero_mul]; exact R.zero
          rw [hf]
          refine rate_of_exponent hu (by linarith) hR hε hε1.le hexp (by split <;> simp [hν]) ?_
          exact barrier_exponent hu hu1 hR hT (inverse_near hu hu1 hR hT) (compute_held hb hc)
        | posInf =>
          simp only [LocalBarrierModel.arrhenius, Except.ok.injEq, Option.some.injEq] at h
          subst h
          exact ⟨0, rfl, by constructor <;> simp⟩
        | negInf => simp [LocalBarrierModel.arrhenius] at h
        | nan => simp [LocalBarrierModel.arrhenius] at h

/-- C138.  Rounding neither causes nor hides a failure. -/
theorem C138_failures (R : Rounding) (expf : ℝ → ℝ) (m : LocalBarrierModel) (kB temp ν : ℝ) (e : Event)
    (occ : List Int) :
    (∀ x, m.computeProbabilityFloat R expf kB temp ν e occ = .error x ↔
      m.computeProbability kB temp ν e occ = .error x) ∧
    (m.computeProbabilityFloat R expf kB temp ν e occ = .ok none ↔
      m.computeProbability kB temp ν e occ = .ok none) := by
  simp only [LocalBarrierModel.computeProbability, LocalBarrierModel.computeProbabilityFloat]
  split
  · simp
  · cases m.compute occ e m.probabilityProperty with
    | error x => simp
    | ok v =>
      cases eventDirection occ e with
      | error x => simp
      | ok d => cases v <;> simp [LocalBarrierModel.arrhenius, LocalBarrierModel.arrheniusFloat]

/-- C138.  Rounding does not turn the order of rates round: of two possible hops the one with the lower barrier
never has the smaller rate, and equal barriers give bitwise the same rate. -/
theorem C138_order (R : Rounding) (expf : ℝ → ℝ) (hmono : Monotone expf) (m m' : LocalBarrierModel)
    (kB temp ν : ℝ) (hT : 0 ≤ kB * temp) (hν : 0 ≤ ν) (occ occ' : List Int) (e e' : Event) (d d' : Int)
    (hm : m.probabilityMode = "barrier_arrhenius") (hm' : m'.probabilityMode = "barrier_arrhenius")
    (hd : eventDirection occ e = .ok d) (h0 : d ≠ 0) (hd' : eventDirection occ' e' = .ok d') (h0' : d' ≠ 0)
    (b b' : ℚ) (hb : m.compute occ e m.probabilityProperty = .ok (.fin b))
    (hb' : m'.compute occ' e' m'.probabilityProperty = .ok (.fin b')) :
    ∃ q q', m.computeProbabilityFloat R expf kB temp ν e occ = .ok (some q) ∧
      m'.computeProbabilityFloat R expf kB temp ν e' occ' = .ok (some q') ∧ (b ≤ b' → q' ≤ q) ∧ (b = b' → q' = q) := by
  refine ⟨R.rnd (R.rnd (1 * ν) * expf (R.rnd (-(b : ℝ) / R.rnd (kB * temp)))),
    R.rnd (R.rnd (1 * ν) * expf (R.rnd (-(b' : ℝ) / R.rnd (kB * temp)))), ?_, ?_, ?_, ?_⟩
  · simp only [LocalBarrierModel.computeProbabilityFloat, hm, LocalBarrierModel.supportedMode, ne_eq,
      not_true_eq_false, if_false, hb, hd, LocalBarrierModel.arrheniusFloat, h0, not_false_eq_true, if_true]
  · simp only [LocalBarrierModel.computeProbabilityFloat, hm', LocalBarrierModel.supportedMode, ne_eq,
      not_true_eq_false, if_false, hb', hd', LocalBarrierModel.arrheniusFloat, h0', not_false_eq_true, if_true]
  · intro hle
    have ht : 0 ≤ R.rnd (kB * temp) := by
      have := R.mono hT
      rwa [R.zero] at this
    have hn : 0 ≤ R.rnd (1 * ν) := by
      have := R.mono (show 0 ≤ 1 * ν by linarith)
      rwa [R.zero] at this
    refine R.mono (mul_le_mul_of_nonneg_left (hmono (R.mono ?_)) hn)
    have : (b : ℝ) ≤ b' := by exact_mod_cast hle
    exact div_le_div_of_nonneg_right (neg_le_neg this) ht
  · rintro rfl
    rfl

/-- C138.  A finite barrier gives the rate zero exactly to the hops that are not possible. -/
theorem C138_zero_iff_forbidden (hu1 : u < 1) (hR : Accurate R u) (hexp : ∀ x, 0 < expf x)
    (m : LocalBarrierModel) (kB temp ν : ℝ) (hν : 0 < ν) (occ : List Int) (e : Event) (d : Int)
    (hm : m.probabilityMode = "barrier_arrhenius") (hd : eventDirection occ e = .ok d)
    (b : ℚ) (hb : m.compute occ e m.probabilityProperty = .ok (.fin b)) :
    ∃ q, m.computeProbabilityFloat R expf kB temp ν e occ = .ok (some q) ∧ 0 ≤ q ∧ (q = 0 ↔ d = 0) := by
  have pos : ∀ x, 0 < x → 0 < R.rnd x := by
    intro x hx
    have h1 := hR x
    rw [abs_of_pos hx] at h1
    have h2 := (abs_le.1 h1).1
    have : 0 < (1 - u) * x := mul_pos (by linarith) hx
    linarith
  refine ⟨R.rnd (R.rnd ((if d ≠ 0 then 1 else 0) * ν) * expf (R.rnd (-(b : ℝ) / R.rnd (kB * temp)))), ?_, ?_⟩
  · simp only [LocalBarrierModel.computeProbabilityFloat, hm, LocalBarrierModel.supportedMode, ne_eq,
      not_true_eq_false, if_false, hb, hd, LocalBarrierModel.arrheniusFloat]
  · by_cases h0 : d = 0
    · simp [h0, R.zero]
    · have h1 := pos _ (mul_pos (pos _ (mul_pos one_pos hν)) (hexp (R.rnd (-(b : ℝ) / R.rnd (kB * temp)))))
      simp only [ne_eq, h0, not_false_eq_true, if_true, iff_false]
      exact ⟨h1.le, h1.ne'⟩

/-! ### Simulations -/

/-- C138.  A model whose rules read the sites of the event only is, in floating-point arithmetic, a rate model that
the simulation theorems apply to. -/
theorem C138_hop_system {R' : Rounding} {σ φ ψ K : Type} {o : ActiveSiteOrder String ψ} {mobile : String}
    {h : HopStateLookup} {g : Geometry K} {lib : EventLib σ φ} {st : State EReal}
    (hrep : ∀ x, R'.Rep (R.rnd x)) (hexp : ∀ x, 0 ≤ expf x) (m : LocalBarrierModel) (kB temp ν : ℝ) (hν : 0 ≤ ν)
    (hr : ∀ r ∈ m.rules, ReadsEventSitesOnly r)
    (hs : HopSystem o mobile h Rounding.exact (m.rateModel kB temp ν) g lib st) :
    HopSystem o mobile h R' (m.floatModel R expf kB temp ν) g lib st := by
  refine ⟨hs.lookup, hs.labelled, hs.fit, hs.endpoints, hs.coords, ⟨?_⟩, ?_, ?_⟩
  · intro e s s' hl hsame
    simp only [LocalBarrierModel.floatModel, LocalBarrierModel.computeProbabilityFloat]
    rw [compute_congr hr hl hsame, eventDirection_congr hsame]
  · intro e s p hp
    simp only [LocalBarrierModel.floatModel, LocalBarrierModel.computeProbabilityFloat] at hp
    split at hp
    · cases hp
    · rename_i r hx
      cases hp
      split at hx
      · cases hx
      · split at hx
        · cases hx
        · split at hx
          · cases hx
          · rename_i v _ _ d _
            cases v with
            | fin x =>
              simp only [LocalBarrierModel.arrheniusFloat, Except.ok.injEq, Option.some.injEq] at hx
              rw [← hx]
              refine ⟨?_, hrep _⟩
              have nn : ∀ x, 0 ≤ x → 0 ≤ R.rnd x := fun x hx => by
                have := R.mono hx
                rwa [R.zero] at this
              exact nn _ (mul_nonneg (nn _ (mul_nonneg (by split <;> norm_num) hν)) (hexp _))
            | posInf =>
              simp only [LocalBarrierModel.arrheniusFloat, Except.ok.injEq, Option.some.injEq] at hx
              rw [← hx]; exact ⟨le_refl _, R'.zero⟩
            | negInf => simp [LocalBarrierModel.arrheniusFloat] at hx
            | nan => simp [LocalBarrierModel.arrheniusFloat] at hx
    · cases hp
  · intro e s p hd hp
    simp only [LocalBarrierModel.floatModel, LocalBarrierModel.computeProbabilityFloat, hd] at hp
    split at hp
    · cases hp
    · rename_i r hx
      cases hp
      split at hx
      · cases hx
      · split at hx
        · cases hx
        · rename_i v _
          cases v with
          | fin x =>
            simp only [LocalBarrierModel.arrheniusFloat, Except.ok.injEq, Option.some.injEq] at hx
            rw [← hx]
            simp [R.zero]
          | posInf =>
            simp only [LocalBarrierModel.arrheniusFloat, Except.ok.injEq, Option.some.injEq] at hx
            exact hx.symm
          | negInf => simp [LocalBarrierModel.arrheniusFloat] at hx
          | nan => simp [LocalBarrierModel.arrheniusFloat] at hx
    · cases hp

theorem localBarrier_ignores_clock (m : LocalBarrierModel) (kB temp ν : ℝ) :
    IgnoresClock (m.rateModel kB temp ν) (m.rateModel kB temp ν) :=
  ⟨fun _ _ _ _ _ => rfl, fun _ _ _ _ _ _ => rfl, fun _ _ _ _ h1 _ => by
    simp only [LocalBarrierModel.rateModel, h1]⟩

theorem localBarrier_nonneg (m : LocalBarrierModel) {kB temp ν : ℝ} (hν : 0 ≤ ν) (ms : Unit) (e : Event)
    (st : State EReal) (p : ℝ) (h : (m.rateModel kB temp ν).computeProbability ms e st = .ok p) : 0 ≤ p := by
  simp only [LocalBarrierModel.rateModel] at h
  split at h
  · cases h
  · rename_i r hx
    cases h
    exact C34_local_barrier_nonneg m kB temp ν hν e st.occ p hx
  · cases h

/-- C138.  A local barrier model in floating-point arithmetic lies beside the exact one, for all events and
configurations, so that C137 applies to it. -/
theorem C138_rates_within (hu : 0 ≤ u) (hu1 : u ≤ 1 / 2) (hR : Accurate R u) (hε : 0 ≤ ε) (hε1 : ε < 1)
    (hexp : ExpWithin expf ε) (m : LocalBarrierModel) (kB temp ν b : ℝ) (hT : 0 < kB * temp) (hν : 0 ≤ ν)
    (hrep : R.Rep ν) (hb : BarriersAtMost m b) (events : List Event) (occ : List Int) :
    RatesWithin R (lowFactor u ε (roundingError u 3 (b / (kB * temp)))) events occ
      (m.floatModel R expf kB temp ν) (m.rateModel kB temp ν) := by
  have hlow : 0 < lowFactor u ε (roundingError u 3 (b / (kB * temp))) := lowFactor_pos (by linarith) hε1 _
  refine ⟨fun _ _ _ _ _ => rfl, fun _ _ _ _ _ _ => rfl, fun ms e st st' _ _ h1 _ p hp => ?_⟩
  have hp0 := localBarrier_nonneg m hν ms e st' p hp
  simp only [LocalBarrierModel.rateModel] at hp
  split at hp
  · cases hp
  · rename_i r hx
    cases hp
    obtain ⟨q, hq, w⟩ := C138_rate hu hu1 hR hε hε1 hexp m kB temp ν b hT hν hrep hb e st'.occ p hx
    refine ⟨q, by simp only [LocalBarrierModel.floatModel, h1, hq], ?_, ?_, hp0, w.1, ?_⟩
    · exact (mul_nonneg hlow.le hp0).trans w.1
    · simp only [LocalBarrierModel.computeProbabilityFloat] at hq
      split at hq
      · cases hq
      · split at hq
        · cases hq
        · split at hq
          · cases hq
          · rename_i v _ _ d _
            cases v with
            | fin x =>
              simp only [LocalBarrierModel.arrheniusFloat, Except.ok.injEq, Option.some.injEq] at hq
              rw [← hq]; exact R.idem _
            | posInf =>
              simp only [LocalBarrierModel.arrheniusFloat, Except.ok.injEq, Option.some.injEq] at hq
              rw [← hq]; exact R.zero
            | negInf => simp [LocalBarrierModel.arrheniusFloat] at hq
            | nan => simp [LocalBarrierModel.arrheniusFloat] at hq
    · have h2 := mul_le_mul_of_nonneg_left w.2 hlow.le
      refine h2.trans ?_
      rw [← mul_assoc]
      have := mul_le_mul_of_nonneg_right
        (low_mul_high hu (by linarith) hε hε1.le (roundingError u 3 (b / (kB * temp)))) hp0
      linarith
  · cases hp

/-- C138.  Python floats: with a library exponential function that is right up to two units in the last place and
barriers of at most 1000 times the thermal energy, rates are right up to the factor `1 - 10⁻¹²`. -/
theorem C138_double_rates (hexp : ExpWithin expf ((1 / 2) ^ 52)) (m : LocalBarrierModel) (kB temp ν b : ℝ)
    (hT : 0 < kB * temp) (hν : 0 ≤ ν) (hrep : Rounding.double.Rep ν) (hb0 : 0 ≤ b) (hb1 : b ≤ 1000 * (kB * temp))
    (hb : BarriersAtMost m b) (events : List Event) (occ : List Int) :
    RatesWithin Rounding.double (1 - (1 / 10) ^ 12) events occ
      (m.floatModel Rounding.double expf kB temp ν) (m.rateModel kB temp ν) := by
  have h0 := C138_rates_within (by positivity) (by norm_num) C123_double_accuracy (by positivity) (by norm_num)
    hexp m kB temp ν b hT hν hrep hb events occ
  have hbt : b / (kB * temp) ≤ 1000 := by rw [div_le_iff₀ hT]; exact hb1
  have hbt0 : 0 ≤ b / (kB * temp) := div_nonneg hb0 hT.le
  have hη1 : roundingError ((1 / 2) ^ 53) 3 (b / (kB * temp)) ≤ ((1 + (1 / 2) ^ 53) ^ 3 - 1) * 1000 :=
    mul_le_mul_of_nonneg_left hbt (by norm_num)
  have hη0 : 0 ≤ roundingError ((1 / 2) ^ 53) 3 (b / (kB * temp)) := mul_nonneg (by norm_num) hbt0
  refine ⟨h0.starts, h0.applies, fun ms e st st' he hx h1 h2 p hp => ?_⟩
  obtain ⟨q, hq, w⟩ := h0.computes ms e st st' he hx h1 h2 p hp
  refine ⟨q, hq, w.nonneg, w.rep, w.nonneg', w.within.weaken ?_ w.nonneg w.nonneg'⟩
  revert hη0 hη1
  generalize roundingError ((1 / 2) ^ 53) 3 (b / (kB * temp)) = η
  intro hη1 hη0
  have e1 : 1 - η ≤ Real.exp (-η) := by
    have := Real.add_one_le_exp (-η)
    linarith
  unfold lowFactor
  refine le_trans ?_ (mul_le_mul_of_nonneg_left e1 (by norm_num))
  norm_num at hη1 ⊢
  linarith

/-- C138.  Whole simulations with Python floats and a local barrier model.  With at least the probability
`1 - N * 2 * n * (n / 2⁵² + 2 / 10¹²)` the first `N` steps make exactly the hops that exact arithmetic would make
with the same random numbers, for `n` events. -/
theorem C138_double_same_hops {σ φ : Type} (hexp : ExpWithin expf ((1 / 2) ^ 52)) (m : LocalBarrierModel)
    (kB temp ν b : ℝ) (hT : 0 < kB * temp) (hν : 0 ≤ ν) (hrep : Rounding.double.Rep ν) (hb0 : 0 ≤ b)
    (hb1 : b ≤ 1000 * (kB * temp)) (hb : BarriersAtMost m b)
    (lookup : Option HopStateLookup) (lib : EventLib σ φ) (occ : List Int)
    (step : Int) (s' : Sim σ φ Unit ℝ EReal)
    (hinit' : Sim.init (realKernel Rounding.exact) (m.rateModel kB temp ν) lib lookup
      (some ⟨occ, ((0 : ℝ) : EReal), step⟩) = .ok s')
    {Θ : Type} [MeasurableSpace Θ] {μ : Measure Θ} [IsProbabilityMeasure μ] {U : Nat → Θ → ℝ × ℝ}
    (hU : RandomNumbers μ U) (N : Nat) :
    ∃ s0, Sim.init (onClock .double (realKernel .double)) (m.floatModel .double expf kB temp ν) lib lookup
        (some ⟨occ, .of .double ((0 : ℝ) : EReal), step⟩) = .ok s0 ∧
    μ {ω | ∃ hist' s1', hist'.length = N ∧
      Steps (realKernel Rounding.exact) (m.rateModel kB temp ν) (fun k => U k ω) true 0 s' hist' s1' ∧
      ¬ ∃ hist s1, Steps (onClock .double (realKernel .double)) (m.floatModel .double expf kB temp ν)
        (fun k => U k ω) true 0 s0 hist s1 ∧ hist.map (·.1) = hist'.map (·.1) ∧ s1.st.occ = s1'.st.occ} ≤
      N * ENNReal.ofReal (2 * s'.lib.events.length * (s'.lib.events.length / 2 ^ 52 + 2 / 10 ^ 12)) := by
  have hm := C138_double_rates hexp m kB temp ν b hT hν hrep hb0 hb1 hb s'.lib.events occ
  obtain ⟨s0, h1, h2⟩ := C137_same_hops C123_double_accuracy (by norm_num) (by norm_num) (by norm_num) hm
    (le_refl 0) Rounding.double.zero hinit' (localBarrier_ignores_clock m kB temp ν)
    (fun ms e st p hp => localBarrier_nonneg m hν ms e st p hp) hU N
  refine ⟨s0, h1, (measure_mono ?_).trans (h2.trans ?_)⟩
  · rintro ω ⟨hist', s1', k1, k2, k3⟩
    refine ⟨hist', s1', k1, k2, ?_⟩
    rintro ⟨hist, s1, j1, j2, j3, -⟩
    exact k3 ⟨hist, s1, j1, j2, j3.occ⟩
  · gcongr
    unfold margin
    have : 0 ≤ (s'.lib.events.length : ℝ) := by positivity
    norm_num
    linarith

/-! ### Concrete cases -/

/-- One barrier of 300 meV for the five-site chain, Python floats: the chance that the first million steps of the
two simulations differ is below one in ten thousand. -/
example {Θ : Type} [MeasurableSpace Θ] {μ : Measure Θ} [IsProbabilityMeasure μ] {U : Nat → Θ → ℝ × ℝ}
    (hU : RandomNumbers μ U) :
    ∃ (m : LocalBarrierModel) (s0 : Sim Unit Unit Unit ℝ (FloatTime .double)) (s' : Sim Unit Unit Unit ℝ EReal),
      LocalBarrierModel.constantBarrier (.float (.fin 300)) "chain" = .ok m ∧
      Sim.init (realKernel Rounding.exact) (m.rateModel 1 300 (10 ^ 13)) chainLib.generateEventDependencies
        (some ⟨[0, 0, 0, 0, 0], [1, 1, 1, 1, 1]⟩) (some ⟨[0, 1, 0, 1, 1], ((0 : ℝ) : EReal), 0⟩) = .ok s' ∧
      Sim.init (onClock .double (realKernel .double)) (m.floatModel .double Real.exp 1 300 (10 ^ 13))
        chainLib.generateEventDependencies (some ⟨[0, 0, 0, 0, 0], [1, 1, 1, 1, 1]⟩)
        (some ⟨[0, 1, 0, 1, 1], .of .double ((0 : ℝ) : EReal), 0⟩) = .ok s0 ∧
      μ {ω | ∃ hist' s1', hist'.length = 1000000 ∧
        Steps (realKernel Rounding.exact) (m.rateModel 1 300 (10 ^ 13)) (fun k => U k ω) true 0 s' hist' s1' ∧
        ¬ ∃ hist s1, Steps (onClock .double (realKernel .double)) (m.floatModel .double Real.exp 1 300 (10 ^ 13))
          (fun k => U k ω) true 0 s0 hist s1 ∧ hist.map (·.1) = hist'.map (·.1) ∧ s1.st.occ = s1'.st.occ} ≤
        ENNReal.ofReal (1 / 10000) := by
  obtain ⟨m, s', hm, hi, -⟩ := C85_constant_barrier_completes (V := Unit) (Row := Unit) (g := hopGeometry) (lib := chainLib)
    (st := ⟨[0, 1, 0, 1, 1], ((0 : ℝ) : EReal), 0⟩) 300 "chain" 1 300 (10 ^ 13) (by norm_num) chain_hopSystem.lookup
    chain_hopSystem.labelled chain_hopSystem.fit chain_hopSystem.endpoints rfl chain_network (fun _ _ _ => ()) []
    (by intro n spec hs; cases hs) (fun n => (1 / (n + 2), 1 / 2)) unit_draws 1 1 1
  have hm' : m = ⟨"chain", "barrier", "barrier_arrhenius", "barrier", [], some [("barrier", .fin 300)], [], []⟩ := by
    have h2 : LocalBarrierModel.constantBarrier (.float (.fin 300)) "chain" =
      .ok ⟨"chain", "barrier", "barrier_arrhenius", "barrier", [], some [("barrier", .fin 300)], [], []⟩ := by rfl
    rw [h2] at hm
    exact (Except.ok.inj hm).symm
  have hb : BarriersAtMost m 300 := by
    subst hm'
    refine ⟨by simp, ?_⟩
    rintro d ⟨⟩ p hp q hq
    simp only [List.mem_cons, List.not_mem_nil, or_false] at hp
    subst hp
    cases hq
    norm_num
  obtain ⟨s0, h1, h2⟩ := C138_double_same_hops exp_within_double m 1 300 (10 ^ 13) 300 (by norm_num) (by norm_num)
    (binaryRnd_fixes (by norm_num) (by positivity) (k := 10 ^ 13) (e := 0) (by norm_num) (by norm_num)) (by norm_num) (by norm_num) hb _ _ _ _ s' hi hU 1000000
  refine ⟨m, s0, s', hm, hi, h1, h2.trans ?_⟩
  have hlen : s'.lib.events.length = 4 := by
    obtain ⟨-, -, i3, -⟩ := init_ok hi
    have := congrArg List.length i3
    rw [List.length_map, List.length_map] at this
    rw [this]
    simp [EventLib.generateEventDependencies, chainLib, EventLib.addAll_events]
  rw [hlen, ← ENNReal.ofReal_natCast, ← ENNReal.ofReal_mul (by norm_num)]
  refine ENNReal.ofReal_le_ofReal ?_
  norm_num

end KMC
