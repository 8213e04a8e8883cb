import Verif.Lemmas.Correlation
import Verif.Spec.Diffusivity
/-
The clock in equilibrium (C135).
-/
set_option linter.unusedSectionVars false

namespace KMC
open Spec MeasureTheory Filter Topology ProbabilityTheory

section
variable {σ φ ψ : Type}
variable {o : ActiveSiteOrder String ψ} {mobile : String} {h : HopStateLookup}
  {m : RateModel Unit ℝ EReal} {g : Geometry ℝ} {lib : EventLib σ φ} {st : State EReal}
  {s0 : Sim σ φ Unit ℝ EReal}

/-- The mean time at the end of a run: the equilibration takes no time. -/
theorem mean_clock_at {V Row : Type} (hs : HopSystem o mobile h Rounding.exact m g lib st)
    (ha : Answers o mobile m lib.events st.occ)
    (hi : Sim.init (realKernel Rounding.exact) m lib.generateEventDependencies (some h) (some st) = .ok s0)
    {v : Event → Vec3 ℝ} (hv : ∀ e ∈ s0.lib.events, IsHopVector g e (v e))
    (alive : ∀ s, Reaches m s0 s → ¬ Stuck m s)
    {Θ : Type} [MeasurableSpace Θ] {μ : Measure Θ} [IsProbabilityMeasure μ] {U : Nat → Θ → ℝ × ℝ}
    (hU : RandomNumbers μ U) {summary : Trajectory ℝ → EReal → List (String × Bool) → Row}
    {plan : PropertyPlan EReal V} {len equil prod : Nat}
    (hok : ∀ᵐ ω ∂μ, (s0.run (realKernel Rounding.exact) m g (some h) summary plan (fun k => U k ω) len equil
      prod).outcome = .ok ()) {t0 : ℝ} (ht0 : s0.st.time = (t0 : EReal)) :
    MeanAtTheEnd μ U m g (some h) summary plan len equil prod s0 (fun _ sim => sim.st.time.toReal)
      (t0 + (expectedTime m s0.lib.events (equil * len + prod * len) s0.st -
        expectedTime m s0.lib.events (equil * len) s0.st)) := by
  obtain ⟨_Y, T, -, -, -, hTi, hT, -, hmean⟩ := expectation_from hs ha hi alive hU (equil * len + prod * len) 0 s0
    .refl (fun _ => 0)
  obtain ⟨_Y', T', -, -, -, hTi', hT', -, hmean'⟩ := expectation_from hs ha hi alive hU (equil * len) 0 s0
    .refl (fun _ => 0)
  refine ⟨fun ω => t0 + (T ω - T' ω), (integrable_const _).add (hTi.sub hTi'), ?_, ?_⟩
  · filter_upwards [hT, hT', hok, draws_in_range hU] with ω h1 h1' h2 h3
    obtain ⟨hist, s', b1, b2, -, b4, b5⟩ := h1
    obtain ⟨hist', s'', b1', b2', -, b4', b5'⟩ := h1'
    obtain ⟨rs, hist1, hist2, s1, s2, c1, c2, c3, c4, c5, -, c7⟩ :=
      run_walk hs ha hi hv (fun c => (h3 c).1) h2
    have c8 := Steps.append c2 (by simpa [c4] using c3)
    obtain ⟨rfl, -⟩ := steps_unique b1 c8 (by simp [b2, c4, c5])
    obtain ⟨rfl, -⟩ := steps_unique b1' c2 (by simp [b2', c4])
    refine ⟨rs, h2, c1, ?_⟩
    rw [c7 t0 ht0 fun x hx => b4 x (by simp [hx]), EReal.toReal_coe, b5, b5', List.map_append, List.sum_append]
    ring
  · have e1 : ∫ ω, (t0 + (T ω - T' ω)) ∂μ = ∫ _, t0 ∂μ + ∫ ω, (T ω - T' ω) ∂μ :=
      integral_add (integrable_const _) (hTi.sub hTi')
    simp only
    rw [e1, integral_sub hTi hTi', hmean, hmean']
    simp only [integral_const, probReal_univ, smul_eq_mul, one_mul]

section equilibrium
variable (hs : HopSystem o mobile h Rounding.exact m g lib st)
    (ha : Answers o mobile m lib.events st.occ)
    (hi : Sim.init (realKernel Rounding.exact) m lib.generateEventDependencies (some h) (some st) = .ok s0)
    {W : List Int → ℝ} (hW : ∀ x, 0 < W x) (hb : Balanced o mobile m s0.lib.events W)
    {Ω : Finset (List Int)} (hΩ : ∀ x, x ∈ Ω ↔ ∃ s, Reaches m s0 s ∧ s.st.occ = x)
include hs ha hi hW hb hΩ

/-- Started in equilibrium, every step takes the same time on average. -/
theorem equilibrium_time (alive : ∀ s, Reaches m s0 s → ¬ Stuck m s) (n : Nat) :
    ∑ x ∈ Ω, W x * totalRate m s0.lib.events (inConfig x) * expectedTime m s0.lib.events n (inConfig x) =
      n * ∑ x ∈ Ω, W x := by
  induction n with
  | zero => simp [expectedTime]
  | succ n ih =>
    have hstep : ∀ x ∈ Ω, W x * totalRate m s0.lib.events (inConfig x) *
        expectedTime m s0.lib.events (n + 1) (inConfig x) =
        W x + W x * totalRate m s0.lib.events (inConfig x) * expectedOver m s0.lib.events 1 (inConfig x)
          (fun p => (fun y => expectedTime m s0.lib.events n (inConfig y)) (afterAll (inConfig x) p).occ) := by
      intro x hx
      have hp := good_pos hs ha hi alive (config_good hs ha hi hW hb hΩ hx)
      rw [expectedTime, mul_add]
      congr 1
      · field_simp
      · simp only [expectedOver]
        congr 2
        refine List.map_congr_left fun e _ => ?_
        congr 1
        exact expectedTime_congr (st := inConfig (afterAll (inConfig x) [e]).occ)
          (st' := ((inConfig x).applyEvent e 0).2) hs.loc _ n rfl
    rw [Finset.sum_congr rfl hstep, Finset.sum_add_distrib,
      mean_after hs ha hi hW hb hΩ 1 (fun y => expectedTime m s0.lib.events n (inConfig y)), ih]
    push_cast
    ring

end equilibrium
end
end KMC
