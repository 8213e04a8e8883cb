import Verif.Spec.SiteEnergyFile
/-
What a user means by a mapping given as a dictionary or as a list.
-/
namespace KMC
namespace Spec
open SiteEnergyFile
variable {σ V Rt T : Type}

/-- The value a user gives for number `k`: of a list, the entry with that index; of a dictionary, the value of
the last item whose key is that number or its text. -/
def entryOf {α : Type} : MapArg α → Int → Option α
  | .seq l, k => if 0 ≤ k then l[k.toNat]? else none
  | .items l, k => ((l.filter fun p => p.1.toInt == .ok k).getLast?).map fun p => p.2

/-- The dictionary holds exactly what the user gave. -/
def HoldsEntries {α : Type} (d : List (Int × α)) (m : MapArg α) : Prop := ∀ k, dictGet d k = entryOf m k

/-- A reference as it is kept: without blanks around it, and none at all if nothing is left. -/
def KeptReference (given kept : Option String) : Prop :=
  (∀ s, kept = some s ↔ ∃ g, given = some g ∧ pyStrip g = s ∧ s ≠ "")

end Spec
end KMC
