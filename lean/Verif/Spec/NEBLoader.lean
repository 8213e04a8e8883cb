import Verif.Model.NEBLoader
/-
What it means for a fitting data set to be rectangular.
-/
namespace KMC
namespace Spec
open NEBLoader
variable {M R S V α β : Type}

/-- The object `id` is an entry whose vectors have been computed, with the given lengths. -/
def HasLengths (L : Loader M R S V α β) (id m n : Nat) : Prop :=
  ∃ e o c, L.heap id = some e ∧ e.occupation = some o ∧ e.correlation = some c ∧
    o.length = m ∧ c.length = n

/-- All stored entries have computed vectors of one occupation length and one correlation length. -/
def Rectangular (L : Loader M R S V α β) : Prop := ∃ m n, ∀ id ∈ L.entries, HasLengths L id m n

/-- Every object identity in use is below `next`. -/
def HeapOk (L : Loader M R S V α β) : Prop :=
  (∀ id e, L.heap id = some e → id < L.next) ∧ ∀ id ∈ L.entries, id < L.next

/-- One call of the interface that takes structures. -/
inductive StructureCall (M R S V : Type) where
  | one (source : Py S) (value : V) (model : Option M) (reference : Option R)
  | many (sources : List (Py S)) (values : List V) (model : Option M) (reference : Option R)

/-- The loader after a call, whatever its outcome. -/
def afterCall (featurize : M → Option R → S → Py (List α × List β)) (L : Loader M R S V α β) :
    StructureCall M R S V → Loader M R S V α β
  | .one s v m r => (addStructure featurize L s v m r).2
  | .many s v m r => (addStructures featurize L s v m r).2

/-- The loader after any sequence of calls, successful or rejected. -/
def afterCalls (featurize : M → Option R → S → Py (List α × List β)) (L : Loader M R S V α β)
    (calls : List (StructureCall M R S V)) : Loader M R S V α β :=
  calls.foldl (afterCall featurize) L

/-- The loader after any sequence of `add` calls with entry objects made by the user. -/
def afterAdds (featurize : M → Option R → S → Py (List α × List β)) (L : Loader M R S V α β)
    (calls : List (Nat × Option M × Option R)) : Loader M R S V α β :=
  calls.foldl (fun L c => (add featurize L c.1 c.2.1 c.2.2).2) L

end Spec
end KMC
