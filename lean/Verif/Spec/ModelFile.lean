import Verif.Model.ModelFile
/-
Vocabulary for properties of saved models.
-/
namespace KMC
namespace Spec
open ModelFile
variable {P D K : Type}

/-- The distances of the cluster are those of its positions, and there is one index, position and
role per species. -/
structure FromPositions (dist : P → P → D) (c : ModelFile.Cluster P D) : Prop where
  coords : c.coords.length = c.species.length
  indices : c.siteIndices.length = c.species.length
  roles : c.roles.length = c.species.length
  matrix : c.matrix = c.coords.map fun a => c.coords.map fun b => dist a b

/-- No call tells the two expansions apart: they give the same correlation vectors and values, accept the
same parameters and give the same values with them. -/
structure Interchangeable [CommRing K] (a b : LCE K) : Prop where
  correlation : ∀ occ, a.calculateCorrelation occ = b.calculateCorrelation occ
  value : ∀ occ e, a.compute occ e = b.compute occ e
  accepts : ∀ p, (a.setParameters p).1 = (b.setParameters p).1
  valueWith : ∀ p occ e, (a.setParameters p).2.compute occ e = (b.setParameters p).2.compute occ e

end Spec
end KMC
