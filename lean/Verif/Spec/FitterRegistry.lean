import Verif.Model.FitterRegistry
/-
What the registry of fitters should answer.
-/
namespace KMC.Spec
variable {κ F : Type} [DecidableEq κ]

/-- The first fitter asked to be registered for the class. -/
def firstAsked (asked : List (κ × F)) (c : κ) : Option F :=
  (asked.find? fun p => p.1 = c).map (·.2)

/-- `f` belongs to the most specific class of the resolution order that has a fitter. -/
def MostSpecific (order : List κ) (has : κ → Option F) (f : F) : Prop :=
  ∃ before c after, order = before ++ c :: after ∧ has c = some f ∧ ∀ b ∈ before, has b = none

end KMC.Spec
