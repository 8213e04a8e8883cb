import Verif.Spec.Path
import Verif.Spec.Equilibrium
/-
What one sees of a simulation when it is filmed: the events, and how long the pictures stand.
-/
namespace KMC.Spec
open KMC

variable {σ φ : Type}

/-- The film of the simulation `s` run with the random numbers `draws` begins with this scene: the events of the
list happen one after the other, and every picture - the one before the first event, those between two events and
the one after the last - stands longer than the time given for it.  (There is one time more than there are events.
What ends the last picture is any event.) -/
def Scene (m : RateModel Unit ℝ EReal) (draws : Nat → ℝ × ℝ) (s : Sim σ φ Unit ℝ EReal) (events : List Event)
    (times : List ℝ) : Prop :=
  ∃ last, Follows m draws s ((events ++ [last]).zip times)

end KMC.Spec
