import Verif.Spec.OneSimulation
import Verif.Spec.Path
/-
What happens in a simulation, counted per simulated time.
-/
namespace KMC.Spec
open KMC

variable {σ φ : Type}

/-- What the next step adds to a count that gives the value `v x e` to an event `e` executed in the configuration
`x`.  (A step that fails adds nothing.) -/
noncomputable def tally (v : List Int → Event → ℝ) (s : Sim σ φ Unit ℝ EReal) (r : ℝ × ℝ) : ℝ :=
  match s.propose (realKernel Rounding.exact) r.1 r.2 with
  | .ok (e, _) => v s.st.occ e
  | .error _ => 0

/-- The count of the `n` steps that follow step `equil`, over the simulated time these steps take. -/
noncomputable def perTime (m : RateModel Unit ℝ EReal) (s0 : Sim σ φ Unit ℝ EReal) (equil : Nat)
    (draws : Nat → ℝ × ℝ) (v : List Int → Event → ℝ) (n : Nat) : ℝ :=
  (∑ k ∈ Finset.range n, tally v (simulated m s0 equil draws (equil + k)) (draws (equil + k))) /
    (clock (simulated m s0 equil draws (equil + n)) - clock (simulated m s0 equil draws equil))

/-- The mean of the rates of the listed events, each multiplied with the value `v x e`, over the configurations of
`Ω` with the weights `W`. -/
noncomputable def meanRate (m : RateModel Unit ℝ EReal) (events : List Event) (Ω : Finset (List Int))
    (W : List Int → ℝ) (v : List Int → Event → ℝ) : ℝ :=
  (∑ x ∈ Ω, W x * (events.map fun e => rateIn m ⟨x, 0, 0⟩ e * v x e).sum) / ∑ x ∈ Ω, W x

/-- The runs with the given random numbers, for every number of production passes, complete, and what the tracker
holds at the end of the run of `prod` passes, taken with `f` and divided by the time simulated since `t0`, is
`D prod`. -/
def ReportedPerTime {V Row : Type} (m : RateModel Unit ℝ EReal) (g : Geometry ℝ) (lookup : Option HopStateLookup)
    (summary : Trajectory ℝ → EReal → List (String × Bool) → Row) (plan : PropertyPlan EReal V)
    (draws : Nat → ℝ × ℝ) (len equil : Nat) (s0 : Sim σ φ Unit ℝ EReal) (t0 : ℝ) (f : Trajectory ℝ → ℝ)
    (D : Nat → ℝ) : Prop :=
  ∀ prod, ∃ rs,
    (s0.run (realKernel Rounding.exact) m g lookup summary plan draws len equil prod).outcome = .ok () ∧
    (s0.run (realKernel Rounding.exact) m g lookup summary plan draws len equil prod).tracker = some rs ∧
    D prod = f rs.traj / (clock rs.sim - t0)

end KMC.Spec
