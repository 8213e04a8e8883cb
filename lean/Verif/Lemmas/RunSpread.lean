import Mathlib.Probability.Moments.Variance
import Verif.Props.LatticeGasProps
import Verif.Spec.RunSpread
/-
Lemmas about fourth moments of random walks and about several runs.
-/
set_option linter.unusedSectionVars false

namespace KMC
open Spec MeasureTheory Filter Topology ProbabilityTheory

section
variable {σ φ ψ : Type}
variable {o : ActiveSiteOrder String ψ} {mobile : String} {h : HopStateLookup}
  {m : RateModel Unit ℝ EReal} {g : Geometry ℝ} {lib : EventLib σ φ} {st : State EReal}
  {s0 : Sim σ φ Unit ℝ EReal} {v : Event → Vec3 ℝ} {a : ℝ} {d : Nat}

theorem wayOf_direction_mem (occ : List Int) {e : Event} (he : e ∈ s0.lib.events) :
    wayOf o mobile v occ e ∈ hopDirections s0 v := by
  have hv : v e ∈ hopDirections s0 v := Submodule.subset_span ⟨e, he, rfl⟩
  unfold wayOf
  split
  · split
    · exact hv
    · split
      · exact neg_mem hv
      · exact zero_mem _
  · exact zero_mem _

theorem dotVec_comm (x y : Vec3 ℝ) : dotVec x y = dotVec y x := by
  unfold dotVec
  exact Finset.sum_congr rfl fun c _ => mul_comm _ _

/-- The rate-weighted squares of the components, in a state that occurs. -/
theorem isotropic_good (hs : HopSystem o mobile h Rounding.exact m g lib st) (hiso : Isotropic o mobile m s0 v a d)
    {st' : State EReal} (hg : GoodState m s0 st') {x : Vec3 ℝ} (hx : x ∈ hopDirections s0 v) :
    (s0.lib.events.map fun e => rateIn m st' e * dotVec x (wayOf o mobile v st'.occ e) ^ 2).sum =
      a ^ 2 / d * sqLen x * totalRate m s0.lib.events st' := by
  obtain ⟨s, hr, ho⟩ := hg
  rw [← totalRate_congr hs.loc _ ho, ← hiso s hr x hx]
  refine list_sum_congr fun e _ => ?_
  rw [ho, rateIn_congr hs.loc ho, dotVec_comm]

/-- The mean squared deviation of the squared distance from any value. -/
theorem walk_spread (hs : HopSystem o mobile h Rounding.exact m g lib st)
    (ha : Answers o mobile m lib.events st.occ)
    (hi : Sim.init (realKernel Rounding.exact) m lib.generateEventDependencies (some h) (some st) = .ok s0)
    (hub : Unbiased o mobile m g s0 v a) (hiso : Isotropic o mobile m s0 v a d) (y : ℝ) (n : Nat) :
    ∀ (st' : State EReal), GoodState m s0 st' → ∀ w ∈ hopDirections s0 v,
    expectedOver m s0.lib.events n st' (fun p => (sqLen (w + walkOf o mobile v st' p) - y) ^ 2) =
      sqLen w ^ 2 + n * (2 * a ^ 2 + 4 * (a ^ 2 / d)) * sqLen w + n * a ^ 4 +
        n * (n - 1) * (a ^ 4 + 2 * (a ^ 2 / d) * a ^ 2) - 2 * y * (sqLen w + n * a ^ 2) + y ^ 2 := by
  induction n with
  | zero => intro st' _ w _; simp [expectedOver, walkOf]; ring
  | succ n ih =>
    intro st' hg w hw
    have hpos := good_pos hs ha hi hub.alive hg
    rw [expectedOver]
    generalize hb : a ^ 2 / (d : ℝ) = b at ih ⊢
    have hsq := isotropic_good hs hiso hg hw
    rw [hb] at hsq
    have e1 : (s0.lib.events.map fun e => rateIn m st' e / totalRate m s0.lib.events st' *
        expectedOver m s0.lib.events n (st'.applyEvent e 0).2
          (fun p => (sqLen (w + walkOf o mobile v st' (e :: p)) - y) ^ 2)).sum =
        (s0.lib.events.map fun e => (rateIn m st' e / totalRate m s0.lib.events st' *
            ((sqLen w + a ^ 2) ^ 2 + n * (2 * a ^ 2 + 4 * b) * (sqLen w + a ^ 2) + n * a ^ 4 +
              n * (n - 1) * (a ^ 4 + 2 * b * a ^ 2) - 2 * y * (sqLen w + a ^ 2 + n * a ^ 2) + y ^ 2) +
          (4 * (sqLen w + a ^ 2) + 2 * n * (2 * a ^ 2 + 4 * b) - 4 * y) / totalRate m s0.lib.events st' *
            ∑ c, w c * (rateIn m st' e * wayOf o mobile v st'.occ e c)) +
          4 / totalRate m s0.lib.events st' * (rateIn m st' e * dotVec w (wayOf o mobile v st'.occ e) ^ 2)).sum := by
      refine list_sum_congr fun e he => ?_
      rcases (rateIn_nonneg hs st' e).lt_or_eq with hp | hp
      · have := ih _ (good_step hs ha hi hg he hp) (w + wayOf o mobile v st'.occ e)
          (add_mem hw (wayOf_direction_mem _ he))
        simp only [walkOf, ← add_assoc]
        rw [this, sqLen_add, way_length hs ha hi hub hg he hp]
        have : ∑ c, w c * (rateIn m st' e * wayOf o mobile v st'.occ e c) =
            rateIn m st' e * dotVec w (wayOf o mobile v st'.occ e) := by
          unfold dotVec
          rw [Finset.mul_sum]
          exact Finset.sum_congr rfl fun c _ => by ring
        rw [this]
        change _ * ((sqLen w + 2 * dotVec w (wayOf o mobile v st'.occ e) + a ^ 2) ^ 2 +
          n * (2 * a ^ 2 + 4 * b) * (sqLen w + 2 * dotVec w (wayOf o mobile v st'.occ e) + a ^ 2) + n * a ^ 4 +
          n * (n - 1) * (a ^ 4 + 2 * b * a ^ 2) -
          2 * y * (sqLen w + 2 * dotVec w (wayOf o mobile v st'.occ e) + a ^ 2 + n * a ^ 2) + y ^ 2) = _
        ring
      · rw [← hp]; simp
    rw [e1, sum_map_add, sum_map_add, sum_weights s0.lib.events (rateIn m st') _ hpos.ne' rfl, sum_map_const_mul,
      sum_map_const_mul, sum_map_sum, hsq]
    have : ∀ c, (s0.lib.events.map fun e => w c * (rateIn m st' e * wayOf o mobile v st'.occ e c)).sum = 0 := by
      intro c
      rw [sum_map_const_mul, level_component hs hub hg c, mul_zero]
    simp only [this, Finset.sum_const_zero, mul_zero, add_zero]
    have ht := hpos.ne'
    push_cast
    field_simp
    ring

/-- What a function of the sum of the displacements is at the end of a run. -/
theorem walk_at_end {V Row : Type} (hs : HopSystem o mobile h Rounding.exact m g lib st)
    (ha : Answers o mobile m lib.events st.occ)
    (hi : Sim.init (realKernel Rounding.exact) m lib.generateEventDependencies (some h) (some st) = .ok s0)
    (hub : Unbiased o mobile m g s0 v a)
    {Θ : Type} [MeasurableSpace Θ] {μ : Measure Θ} [IsProbabilityMeasure μ] {U : Nat → Θ → ℝ × ℝ}
    (hU : RandomNumbers μ U) {summary : Trajectory ℝ → EReal → List (String × Bool) → Row}
    {plan : PropertyPlan EReal V} {len equil prod : Nat}
    (hok : ∀ᵐ ω ∂μ, (s0.run (realKernel Rounding.exact) m g (some h) summary plan (fun k => U k ω) len equil
      prod).outcome = .ok ()) (G : Vec3 ℝ → ℝ) :
    ∃ Y : Θ → ℝ, Measurable[future U 0] Y ∧ Integrable Y μ ∧
      AtTheEnd μ U m g (some h) summary plan len equil prod s0 (fun traj _ => G traj.displacement.sum) Y := by
  obtain ⟨Y, T, hYm, -, hYi, -, hY, -, -⟩ := expectation_from hs ha hi hub.alive hU (equil * len + prod * len) 0 s0
    .refl (fun p => G (walkOf o mobile v (afterAll s0.st (p.take (equil * len))) (p.drop (equil * len))))
  refine ⟨Y, hYm, hYi, ?_⟩
  filter_upwards [hY, hok, draws_in_range hU] with ω h1 h2 h3
  obtain ⟨hist, s', b1, b2, b3, -, -⟩ := h1
  obtain ⟨rs, hist1, hist2, s1, s2, c1, c2, c3, c4, c5, c6, -⟩ :=
    run_walk hs ha hi hub.vector (fun c => (h3 c).1) h2
  have c7 := Steps.append c2 (by simpa [c4] using c3)
  obtain ⟨rfl, -⟩ := steps_unique b1 c7 (by simp [b2, c4, c5])
  refine ⟨rs, h2, c1, ?_⟩
  rw [b3, c6]
  simp only [List.map_append]
  rw [List.take_left' (by simpa using c4), List.drop_left' (by simpa using c4)]

/-- Two values at the end of the same run. -/
theorem atTheEnd_congr {V Row : Type} {lookup : Option HopStateLookup}
    {Θ : Type} [MeasurableSpace Θ] {μ : Measure Θ} {U : Nat → Θ → ℝ × ℝ}
    {summary : Trajectory ℝ → EReal → List (String × Bool) → Row}
    {plan : PropertyPlan EReal V} {len equil prod : Nat} {f f' : Trajectory ℝ → Sim σ φ Unit ℝ EReal → ℝ}
    {X Y : Θ → ℝ} (hX : AtTheEnd μ U m g lookup summary plan len equil prod s0 f X)
    (hY : AtTheEnd μ U m g lookup summary plan len equil prod s0 f' Y) (F : ℝ → ℝ)
    (hF : ∀ traj s, f' traj s = F (f traj s)) : Y =ᵐ[μ] fun ω => F (X ω) := by
  filter_upwards [hX, hY] with ω h1 h2
  obtain ⟨rs, -, b1, b2⟩ := h1
  obtain ⟨rs', -, c1, c2⟩ := h2
  rw [b1] at c1
  cases c1
  rw [b2, c2, hF]

/-- What different runs draw is independent. -/
theorem runs_indep {Θ : Type} [mΘ : MeasurableSpace Θ] {μ : Measure Θ} {K : Nat} {U : Fin K → Nat → Θ → ℝ × ℝ}
    (hU : IndependentRuns μ U) {i j : Fin K} (hij : i ≠ j) : Indep (future (U i) 0) (future (U j) 0) μ := by
  have hm : ∀ p : Fin K × Nat, MeasurableSpace.comap (U p.1 p.2) inferInstance ≤ mΘ := fun p =>
    ((hU.each p.1).measurable p.2).comap_le
  have key := indep_iSup_of_disjoint hm hU.independent (S := {p | p.1 = i}) (T := {p | p.1 = j}) (by
    rw [Set.disjoint_left]
    rintro p h1 h2
    exact hij (h1.symm.trans h2))
  have hle : ∀ i : Fin K, future (U i) 0 ≤
      ⨆ p ∈ {p : Fin K × Nat | p.1 = i}, MeasurableSpace.comap (U p.1 p.2) inferInstance := by
    intro i
    refine iSup₂_le fun n _ => ?_
    exact le_iSup₂_of_le (f := fun (p : Fin K × Nat) (_ : p ∈ {p : Fin K × Nat | p.1 = i}) =>
      MeasurableSpace.comap (U p.1 p.2) inferInstance) (i, n) rfl le_rfl
  exact indep_of_indep_of_le_left (indep_of_indep_of_le_right key (hle j)) (hle i)

end
end KMC
