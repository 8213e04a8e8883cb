import Verif.Spec.Correlation
/-
The clock in equilibrium.
-/
namespace KMC.Spec
open KMC

/-- `M` is the mean of `f`, for the simulation with which the run ends, over the configurations in which the
simulations are constructed and over all sequences of random numbers. -/
def MeanOfEnds {σ φ V Row Θ : Type} [MeasurableSpace Θ] (μ : MeasureTheory.Measure Θ) (U : Nat → Θ → ℝ × ℝ)
    (m : RateModel Unit ℝ EReal) (g : Geometry ℝ) (lookup : Option HopStateLookup)
    (summary : Trajectory ℝ → EReal → List (String × Bool) → Row) (plan : PropertyPlan EReal V)
    (len equil prod : Nat) (Ω : Finset (List Int)) (sims : List Int → Sim σ φ Unit ℝ EReal) (π : List Int → ℝ)
    (f : Sim σ φ Unit ℝ EReal → ℝ) (M : ℝ) : Prop :=
  ∃ D : List Int → ℝ, (∀ x ∈ Ω, MeanAtTheEnd μ U m g lookup summary plan len equil prod (sims x)
    (fun _ sim => f sim) (D x)) ∧ M = ∑ x ∈ Ω, π x * D x

/-- The mean of the total rate over the configurations `Ω` with the weights `W` (Boltzmann factors, for instance). -/
noncomputable def meanTotalRate (m : RateModel Unit ℝ EReal) (events : List Event) (Ω : Finset (List Int))
    (W : List Int → ℝ) : ℝ :=
  (∑ x ∈ Ω, W x * totalRate m events ⟨x, 0, 0⟩) / ∑ x ∈ Ω, W x

end KMC.Spec
