import Verif.Model.EnumeratorTransform
import Verif.Spec.Enumerator
/-
What the structures handed to and returned by a transformation should be.
-/
namespace KMC.Spec
open KMC KMC.Enumerator
variable {P : Type}

/-- The species to choose from on a variable site. -/
def placeable (l : Lattice P) (variableSpecies : Option (List Specie)) (v : Int) : List Specie :=
  (allowedOn l v).filter fun sp => decide (MayPlace variableSpecies (allowedOn l v) sp)

/-- What the disordered structure shows on site `j`: on a variable site every species to choose from
except the vacancy, each with the same share (the vacancy's share stays empty); on another site its
species in the base occupation. -/
def SiteIsDisordered (l : Lattice P) (base : Occupation) (vs : List Int)
    (variableSpecies : Option (List Specie)) (j : Nat) (entry : List (Specie × ℚ)) : Prop :=
  if (j : Int) ∈ vs then
    entry = ((placeable l variableSpecies j).filter fun sp => !sp.isVacancy).map
      fun sp => (sp, 1 / ((placeable l variableSpecies j).length : ℚ))
  else ∃ sp, SiteSpeciesIs l base.data j sp ∧ entry = if sp.isVacancy then [] else [(sp, 1)]

/-- The structure lies on the cell of the template itself. -/
def OnOwnCell (l : Lattice P) (s : Found P) : Prop :=
  s.latticeOk = true ∧ s.super = some (l.template.zipIdx.map fun x => (x.2, x.1.2))

/-- The atoms, in any order, are those of the assignment `c` of the variable sites `vs` on top of the
base occupation, at the positions of the template. -/
def Orders (l : Lattice P) (base : Occupation) (vs : List Int) (c : List Specie)
    (atoms : List (Specie × P)) : Prop :=
  ∃ sps : List Specie, sps.length = l.template.length ∧
    (∀ (k : Nat) v sp, vs[k]? = some v → c[k]? = some sp → sps[v.toNat]? = some sp) ∧
    (∀ j : Nat, j < l.template.length → (j : Int) ∉ vs →
      ∃ sp, sps[j]? = some sp ∧ SiteSpeciesIs l base.data j sp) ∧
    atoms.Perm ((sps.zip (l.template.map (·.2))).filter fun a => !a.1.isVacancy)

/-- The entry is a structure on the template's own cell that shows the assignment. -/
def EntryOrders (l : Lattice P) (base : Occupation) (vs : List Int) (e : FoundEntry P)
    (c : List Specie) : Prop :=
  ∃ s, (e = .plain s ∨ e = .ranked s) ∧ OnOwnCell l s ∧ Orders l base vs c s.atoms

/-- Handed the disordered structure `d`, the transformation returns structures that show, one after
the other, the assignments `cs`. -/
def ReturnsOrderings (l : Lattice P) (base : Occupation) (vs : List Int)
    (apply : List (List (Specie × ℚ) × P) → Ranked → Py (Transformed P)) (request : Ranked)
    (d : List (List (Specie × ℚ) × P)) (cs : List (List Specie)) : Prop :=
  (∃ s c, apply d request = .ok (.one s) ∧ cs = [c] ∧ OnOwnCell l s ∧ Orders l base vs c s.atoms) ∨
  ∃ es, apply d request = .ok (.many es) ∧ List.Forall₂ (EntryOrders l base vs) es cs

end KMC.Spec
