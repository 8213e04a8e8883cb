import Mathlib.Algebra.BigOperators.Group.List.Basic
import Verif.Model.OrbitFunction
/-
Vocabulary for cluster functions.
-/
namespace KMC.Spec
open KMC ModelFile

/-- The mean, over the given clusters of site numbers, of the product of the values `x` of their sites. -/
def meanProduct {K : Type} [Field K] (x : Int → Int) (clusters : List (List Int)) : K :=
  (clusters.map fun c => (c.map fun s => (x s : K)).prod).sum / clusters.length

/-- An orbit made by attaching clusters, one after the other, to a new one. -/
def attached {P D : Type} (cs : List (Cluster P D)) : Orbit P D := cs.foldl Orbit.attach Orbit.new

/-- `x` gives the occupation of every site of the clusters. -/
def Gives (occ : List Int) (clusters : List (List Int)) (x : Int → Int) : Prop :=
  ∀ c ∈ clusters, ∀ s ∈ c, pyGet occ s = .ok (x s)

end KMC.Spec
