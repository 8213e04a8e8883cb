import Verif.Model.Cli
import Verif.Spec.FromConfig
/-
What a user expects of the command line.
-/
namespace KMC.Spec
open KMC Cli

/-- Three whole numbers. -/
def ThreeIntegers (v : PyVal) : Prop := ∃ a b c : Int, v = .tuple [.int a, .int b, .int c]

/-- `n` is `q` without the digits after the point. -/
def WithoutDecimals (q : ℚ) (n : Int) : Prop :=
  if 0 ≤ q then (n : ℚ) ≤ q ∧ q < n + 1 else q ≤ n ∧ (n : ℚ) < q + 1

/-- The text `a,b,c`. -/
def shapeText (a b c : Int) : String := intStr a ++ "," ++ intStr b ++ "," ++ intStr c

/-- Every part of the path of an entry is a directory. -/
def WellFormed (t : Tree) : Prop :=
  ∀ p q : List String, q ≠ [] → (t (p ++ q)).isSome → t p = some .dir

end KMC.Spec
