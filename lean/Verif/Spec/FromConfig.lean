import Verif.Model.FromConfig
import Verif.Spec.Config
import Verif.Spec.HopSystem
import Verif.Spec.Plan
import Verif.Spec.Progress
import Verif.Spec.Schedule
/-
What a user expects of a simulation made from a configuration.
-/
namespace KMC.Spec
open KMC FromConfig

/-- The file name ends in `.h5`. -/
def IsH5 (path : String) : Prop := ∃ stem, path.toList = stem ++ ".h5".toList

/-- The order of the active sites of a configuration's structure, mapping and supercell. -/
def OrderOf {φ M R T K V : Type} (w : World φ M R T K V) (s : Setup) (template : List (LabeledSite String))
    (order : ActiveSiteOrder String φ) : Prop :=
  ∃ mapping, s.siteMapping = some mapping ∧ w.loadStructure s.structureFile s.primitive = .ok template ∧
    ActiveSiteOrder.fromStructureAndMapping w.eqv w.fp (template.map LabeledSite.species)
      (mapping.map fun kv => (w.label kv.1, kv.2.map w.label)) (some s.shape) = .ok order

/-- Some text occurs in another. -/
def OccursIn (a b : String) : Prop := ∃ before after, b.toList = before ++ a.toList ++ after

/-- The number a value stands for (`True` counts as one). -/
inductive NumberOf : PyVal → ℚ → Prop
  | ofTrue : NumberOf (.bool true) 1
  | ofFalse : NumberOf (.bool false) 0
  | ofInt (n : Int) : NumberOf (.int n) n
  | ofFloat (q : ℚ) : NumberOf (.float (.fin q)) q

/-- `n` is the smallest natural number that is not below `q`. -/
def RoundedUp (q : ℚ) (n : Nat) : Prop := q ≤ n ∧ ∀ m : Nat, q ≤ m → n ≤ m

end KMC.Spec
