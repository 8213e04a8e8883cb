import Verif.Model.ModelChoice
/-
Specification vocabulary for C81: which class a model file or a configuration names.
-/
namespace KMC
namespace Spec
namespace ModelChoice
open KMC.ModelChoice
variable {Mod Cls M : Type}

/-- The four classes shipped with kMCpy that can be saved to a model file. -/
inductive Shipped where
  | composite
  | expansion
  | barrier
  | siteEnergy

/-- Where a shipped class lives. -/
def Shipped.path : Shipped → String × String
  | .composite => ("kmcpy.models.composite_lce_model", "CompositeLCEModel")
  | .expansion => ("kmcpy.models.local_cluster_expansion", "LocalClusterExpansion")
  | .barrier => ("kmcpy.models.local_barrier_model", "LocalBarrierModel")
  | .siteEnergy => ("kmcpy.models.site_energy", "SiteEnergyModel")

/-- The texts that name a shipped class in a configuration or an envelope. -/
def Shipped.names : Shipped → List String
  | .composite => ["composite_lce"]
  | .expansion => ["lce", "local_cluster_expansion"]
  | .barrier => ["local_barrier"]
  | .siteEnergy => ["site_energy"]

/-- kMCpy is installed: each shipped class can be imported from where it lives, and `load s` is its
`from_file`. -/
def Installed (imp : Imports Mod Cls M) (load : Shipped → String → Py M) : Prop :=
  ∀ s : Shipped, ∃ m c, imp.module (.str s.path.1) = .ok m ∧ imp.classOf m (.str s.path.2) = .ok c ∧
    imp.fromFile c = some (load s)

/-- What the classes write at the top level of a file: all of them their module and their name, the
composite model also the envelope keys, the others no `filetype`. -/
def WrittenBy (s : Shipped) (d : List (String × PyVal)) : Prop :=
  dictGet d "@module" = some (.str s.path.1) ∧ dictGet d "@class" = some (.str s.path.2) ∧
    match s with
    | .composite => dictGet d "filetype" = some (.str "kmcpy.model_file") ∧
        dictGet d "model_type" = some (.str "composite_lce")
    | _ => dictGet d "filetype" = none

/-- A file that does not say what it holds: not an object, or an object without `filetype` and without
`@module` or `@class`. -/
def Unmarked : PyVal → Prop
  | .dict d => dictGet d "filetype" = none ∧ (dictGet d "@module" = none ∨ dictGet d "@class" = none)
  | _ => True

end ModelChoice
end Spec
end KMC
