import Verif.Model.EventFile
/-
Specification for files of single events: the last file saved under a name, and what iterating over a
value gives.
-/
namespace KMC.Spec

/-- `x` was the last to be stored under the name. -/
def LastUnder {α : Type} (history : List (String × α)) (name : String) (x : α) : Prop :=
  ∃ before after, history = before ++ (name, x) :: after ∧ ∀ p ∈ after, p.1 ≠ name

/-- Iterating over the value gives these entries; numbers, booleans and `None` have none. -/
inductive Entries : PyVal → List PyVal → Prop
  | list (l : List PyVal) : Entries (.list l) l
  | tuple (l : List PyVal) : Entries (.tuple l) l
  | text (s : String) : Entries (.str s) (s.toList.map fun c => .str (String.singleton c))
  | keys (d : List (String × PyVal)) : Entries (.dict d) (d.map fun kv => .str kv.1)

/-- What a dictionary gives for a field of an event: the entries of the value, nothing when the key is
missing. -/
def FieldEntries (d : List (String × PyVal)) (key : String) (l : List PyVal) : Prop :=
  (dictGet d key = none ∧ l = []) ∨ ∃ v, dictGet d key = some v ∧ Entries v l

end KMC.Spec
