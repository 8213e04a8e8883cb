import Verif.Spec.LongRun
import Mathlib.Probability.Independence.Basic
import Mathlib.MeasureTheory.Measure.Prod
/-
A single simulation, as a function of all the random numbers it draws.
-/
namespace KMC.Spec
open KMC MeasureTheory ProbabilityTheory

variable {σ φ : Type}

/-- The law of the two random numbers of a step: uniform in the unit square. -/
noncomputable def twoUniform : Measure (ℝ × ℝ) :=
  (volume.restrict (Set.Ico (0 : ℝ) 1)).prod (volume.restrict (Set.Ico (0 : ℝ) 1))

/-- Random numbers as a generator should deliver them: the pairs `U 0`, `U 1`, … are independent, and each is
uniform in the unit square. -/
structure RandomNumbers {Θ : Type} [MeasurableSpace Θ] (μ : Measure Θ) (U : Nat → Θ → ℝ × ℝ) : Prop where
  measurable : ∀ n, Measurable (U n)
  independent : iIndepFun U μ
  uniform : ∀ n, μ.map (U n) = twoUniform

/-- One step of equilibration: the proposed event is executed and the clock stands still.  (A proposal that
fails leaves the simulation as it is.) -/
noncomputable def quietStep (m : RateModel Unit ℝ EReal) (s : Sim σ φ Unit ℝ EReal) (r1 r2 : ℝ) :
    Sim σ φ Unit ℝ EReal :=
  match s.propose (realKernel Rounding.exact) r1 r2 with
  | .ok (e, _) => (s.update (realKernel Rounding.exact) m e 0).2
  | .error _ => s

/-- The simulation after `n` steps with the random numbers `draws 0`, `draws 1`, …, of which the first `equil`
steps are equilibration. -/
noncomputable def simulated (m : RateModel Unit ℝ EReal) (s0 : Sim σ φ Unit ℝ EReal) (equil : Nat)
    (draws : Nat → ℝ × ℝ) : Nat → Sim σ φ Unit ℝ EReal
  | 0 => s0
  | n + 1 =>
    if n < equil then quietStep m (simulated m s0 equil draws n) (draws n).1 (draws n).2
    else oneStep m (simulated m s0 equil draws n) (draws n).1 (draws n).2

/-- The clock of a simulation. -/
noncomputable def clock (s : Sim σ φ Unit ℝ EReal) : ℝ := s.st.time.toReal

/-- The average of `f` over the simulated time of the `n` steps that follow step `equil`, along the sequence
`sims` of simulations: each configuration counts for the time until the next step. -/
noncomputable def timeAverage (sims : Nat → Sim σ φ Unit ℝ EReal) (equil : Nat) (f : List Int → ℝ) (n : Nat) : ℝ :=
  (∑ k ∈ Finset.range n,
    f (sims (equil + k)).st.occ * (clock (sims (equil + k + 1)) - clock (sims (equil + k)))) /
    (clock (sims (equil + n)) - clock (sims equil))

end KMC.Spec
