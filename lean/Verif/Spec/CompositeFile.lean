import Verif.Model.Value
/-
What a file with a composite model looks like, in terms of the JSON value in it.
-/
namespace KMC.Spec
open KMC

/-- `v` is an object in which the key holds `x`. -/
def Entry (v : PyVal) (key : String) (x : PyVal) : Prop := ∃ d, v = .dict d ∧ dictGet d key = some x

/-- An expansion with its parameters: an object `lce`, and an object `parameters` with `keci` and
`empty_cluster`. -/
def ExpansionPart (v : PyVal) : Prop :=
  (∃ l, Entry v "lce" (.dict l)) ∧
  ∃ p, Entry v "parameters" (.dict p) ∧ (∃ k, Entry (.dict p) "keci" k) ∧ ∃ e, Entry (.dict p) "empty_cluster" e

/-- Another site model: no key `lce`, and an object `model`. -/
def OtherPart (v : PyVal) : Prop := (∀ x, ¬ Entry v "lce" x) ∧ ∃ m, Entry v "model" (.dict m)

/-- The content of a file with a composite model. -/
structure CompositeContent (v : PyVal) : Prop where
  filetype : Entry v "filetype" (.str "kmcpy.model_file")
  modelType : Entry v "model_type" (.str "composite_lce")
  kra : ∃ k, Entry v "kra" k ∧ ExpansionPart k
  site : ∀ s, Entry v "site" s → s = .none ∨ ExpansionPart s ∨ OtherPart s

end KMC.Spec
