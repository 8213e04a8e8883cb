import Verif.Model.SiteEnergyFile
/-
Vocabulary for saved site-energy models.
-/
namespace KMC
namespace Spec
open SiteEnergyFile
variable {σ V Rt T : Type}

/-- The file keeps the element type of the initial occupation: numpy gives a list of these values the type
the array has. -/
def OccupationKept (o : Object σ V Rt T) : Prop :=
  ∀ d l, o.initialOccupation = some (d, l) → inferDtype l = d ∧ SiteEnergy.storeAll d l = .ok l

/-- Digests are texts without blanks around them. -/
def DigestText (s : String) : Prop := s ≠ "" ∧ pyStrip s = s

/-- The object without the functions and the runtime it was given as Python objects. -/
def onlyReferences (o : Object σ V Rt T) : Object σ V Rt T :=
  { o with computeFn := none, applyFn := none, runtime := none }

end Spec
end KMC
