import Verif.Spec.Clock
import Verif.Spec.OneSimulation
/-
Vocabulary for comparing event selection in floating-point arithmetic with exact arithmetic.
-/
namespace KMC.Spec
open KMC

/-- The first random number `r1` selects event number `i`, in the arithmetic `R`. -/
def Picks (R : Rounding) (rates : List ℝ) (r1 : ℝ) (i : Nat) : Prop :=
  ∃ r2 dt, propose R (cumsum R rates) r1 r2 = .ok (i, dt)

/-- `x` and `y` are equal up to the factor `a` (at most one). -/
def WithinFactor (a x y : ℝ) : Prop := a * y ≤ x ∧ a * x ≤ y

/-- Everything except the clocks and the running sums of the rates agrees. -/
structure SameConfiguration {σ φ M ρ T T' : Type} (s : Sim σ φ M ρ T) (s' : Sim σ φ M ρ T') : Prop where
  lib : s.lib = s'.lib
  occ : s.st.occ = s'.st.occ
  step : s.st.step = s'.st.step
  ms : s.ms = s'.ms
  prob : s.prob = s'.prob

end KMC.Spec
