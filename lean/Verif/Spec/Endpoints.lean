import Verif.Spec.Enumerator
/-
What an NEB endpoint pair should be.
-/
namespace KMC.Spec
open KMC Enumerator
variable {P σ φ : Type}

/-- The occupation values an environment stands for: those of the enumeration result; given values
as they are when there is one for every active site, otherwise those of the active sites among the
values for all sites. -/
def EnvironmentValues (order : ActiveSiteOrder σ φ) : Environment P → List Int → Prop
  | .enumerated r, d => d = r.fullOccupation.data
  | .values vs, d =>
    if vs.length = order.activeToOriginal.length then d = vs
    else List.Forall₂ (fun i v => vs[i]? = some v) order.activeToOriginal d

/-- The position of active site `a` in the full structure. -/
def PositionOf (order : ActiveSiteOrder σ φ) (full : List (Specie × P)) (a : Nat) (p : P) : Prop :=
  ∃ i s, order.activeToOriginal[a]? = some i ∧ full[i]? = some (s, p)

/-- The second allowed species of the site is a vacancy. -/
def SecondIsVacancy (l : Lattice P) (a : Int) : Prop :=
  ∃ s x rest, allowedOn l a = s :: x :: rest ∧ x.isVacancy = true

end KMC.Spec
