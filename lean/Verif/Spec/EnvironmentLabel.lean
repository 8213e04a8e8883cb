import Verif.Model.EnvironmentLabel
import Verif.Spec.Enumerator
/-
What the label of an environment should tell.
-/
namespace KMC.Spec
open KMC

/-- A species name without the two characters the label uses as separators. -/
def PlainName (s : String) : Prop := ':' ∉ s.toList ∧ '|' ∉ s.toList

/-- Every site has the same species in the two environments. -/
def SameEnvironment (d d' : List (Int × String)) : Prop := ∀ i s, (i, s) ∈ d ↔ (i, s) ∈ d'

/-- No site is listed twice (the keys of a dictionary). -/
def OnePerSite (d : List (Int × String)) : Prop := (d.map (·.1)).Nodup

end KMC.Spec
