import Verif.Model.Gui
import Verif.Spec.Neighbors
/-
Texts of cutoff tables.
-/
namespace KMC.Spec
open KMC

/-- One entry `species,species,distance`. -/
structure CutoffText where
  a : String
  b : String
  r : String

/-- No comma and no semicolon. -/
def Uncut (s : String) : Prop := ',' ∉ s.toList ∧ ';' ∉ s.toList

/-- The three texts contain no separators. -/
def CutoffText.Plain (e : CutoffText) : Prop := Uncut e.a ∧ Uncut e.b ∧ Uncut e.r

/-- The text of an entry. -/
def CutoffText.text (e : CutoffText) : String := e.a ++ "," ++ e.b ++ "," ++ e.r

/-- The text of a table. -/
def cutoffTable : List CutoffText → String
  | [] => ""
  | [e] => e.text
  | e :: es => e.text ++ ";" ++ cutoffTable es

/-- No pair of species is given twice, in either order. -/
def NoRepeats : List CutoffText → Prop
  | [] => True
  | e :: es => (∀ e' ∈ es, (e'.a, e'.b) ≠ (e.a, e.b) ∧ (e'.a, e'.b) ≠ (e.b, e.a)) ∧ NoRepeats es

/-- The number of the entry of a pair of species in either order. -/
def givenFor {K : Type} (es : List (CutoffText × K)) (a b : String) : Option K :=
  (es.find? fun e => (e.1.a, e.1.b) = (a, b) ∨ (e.1.a, e.1.b) = (b, a)).map (·.2)

end KMC.Spec
