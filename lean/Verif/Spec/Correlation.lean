import Verif.Spec.RandomWalk
import Verif.Spec.Equilibrium
/-
Means over runs that start in equilibrium.
-/
namespace KMC.Spec
open KMC

/-- The configurations `Ω`, in which the simulations `sims` are constructed, are drawn with the probabilities `π`, and
a step does not change these probabilities. -/
structure InEquilibrium {σ φ : Type} (m : RateModel Unit ℝ EReal) (Ω : Finset (List Int))
    (sims : List Int → Sim σ φ Unit ℝ EReal) (π : List Int → ℝ) : Prop where
  nonneg : ∀ x ∈ Ω, 0 ≤ π x
  sum : ∑ x ∈ Ω, π x = 1
  steady : ∀ r2, Stationary Ω (fun x y => chance m r2 (sims x) y) π

/-- `M` is the mean of `f`, for the tracker with which the run ends, over the configurations in which the
simulations are constructed and over all sequences of random numbers. -/
def MeanOverStarts {σ φ V Row Θ : Type} [MeasurableSpace Θ] (μ : MeasureTheory.Measure Θ) (U : Nat → Θ → ℝ × ℝ)
    (m : RateModel Unit ℝ EReal) (g : Geometry ℝ) (lookup : Option HopStateLookup)
    (summary : Trajectory ℝ → EReal → List (String × Bool) → Row) (plan : PropertyPlan EReal V)
    (len equil prod : Nat) (Ω : Finset (List Int)) (sims : List Int → Sim σ φ Unit ℝ EReal) (π : List Int → ℝ)
    (f : Trajectory ℝ → ℝ) (M : ℝ) : Prop :=
  ∃ D : List Int → ℝ, (∀ x ∈ Ω, MeanAtTheEnd μ U m g lookup summary plan len equil prod (sims x)
    (fun traj _ => f traj) (D x)) ∧ M = ∑ x ∈ Ω, π x * D x

end KMC.Spec
