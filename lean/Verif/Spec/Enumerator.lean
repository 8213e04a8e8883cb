import Mathlib.Data.List.Forall2
import Verif.Model.Enumerator
import Verif.Spec.Lattice
/-
What the enumeration of local environments and the NEB endpoints should be.
-/
namespace KMC.Spec
open KMC
variable {P σ φ : Type}

/-- The species may be placed on a variable site: one of the allowed species and, if variable
species are given, one that carries the label of one of them. -/
def MayPlace (variableSpecies : Option (List Specie)) (allowed : List Specie) (sp : Specie) : Prop :=
  sp ∈ allowed ∧ ∀ ts, variableSpecies = some ts → ∃ t ∈ ts, t.label ∈ sp.tokens

instance (variableSpecies : Option (List Specie)) (allowed : List Specie) (sp : Specie) :
    Decidable (MayPlace variableSpecies allowed sp) :=
  match variableSpecies with
  | none => decidable_of_iff (sp ∈ allowed) (by simp [MayPlace])
  | some ts => decidable_of_iff (sp ∈ allowed ∧ ∃ t ∈ ts, t.label ∈ sp.tokens) (by simp [MayPlace])

/-- The allowed species of site `v`. -/
def allowedOn (l : Lattice P) (v : Int) : List Specie :=
  if 0 ≤ v then (l.allowed[v.toNat]?.join).getD [] else []

/-- The variable sites: the given ones, or the local sites with at least two species to place. -/
def variableSites (l : Lattice P) (localSites : List Int) (variableSpecies : Option (List Specie)) :
    Option (List Int) → List Int
  | some vs => vs
  | none => localSites.filter fun v =>
      decide (1 < ((allowedOn l v).filter fun sp => decide (MayPlace variableSpecies (allowedOn l v) sp)).length)

/-- The number requested for a label: the last entry for it. -/
def requested (counts : List (Specie × Int)) (label : String) : Option Int :=
  (counts.reverse.find? fun kv => kv.1.label = label).map (·.2)

/-- The labels occur exactly as often as requested, and no label is requested that does not occur. -/
def MeetsCounts (counts : Option (List (Specie × Int))) (labels : List String) : Prop :=
  ∀ c, counts = some c → ∀ lab, requested c lab =
    if lab ∈ labels then some (labels.count lab : Int) else none

/-- One species for every variable site. -/
def Assignment (l : Lattice P) (variableSpecies : Option (List Specie)) (vs : List Int)
    (c : List Specie) : Prop :=
  List.Forall₂ (fun v sp => MayPlace variableSpecies (allowedOn l v) sp) vs c

/-- The position of the chosen species in the allowed species of every variable site. -/
def ranks (l : Lattice P) (vs : List Int) (c : List Specie) : List Nat :=
  List.zipWith (fun v sp => (allowedOn l v).idxOf sp) vs c

/-- The species of active site `a`. -/
def SiteSpeciesIs (l : Lattice P) (occ : List Int) (a : Nat) (sp : Specie) : Prop :=
  ∃ (al : List Specie) (k : Nat), l.allowed[a]? = some (some al) ∧ al[k]? = some sp ∧
    occ[a]? = some (l.basis.stateValue (k : Int))

/-- The atoms of an occupation, listed along the sites of the full structure from site `i` on: fixed
sites as they are, active sites with their species unless they are vacant. -/
inductive AtomsOf (l : Lattice P) (order : ActiveSiteOrder σ φ) (occ : List Int) :
    Nat → List (Specie × P) → List (Specie × P) → Prop
  | nil (i : Nat) : AtomsOf l order occ i [] []
  | fixed (i : Nat) (s : Specie) (p : P) (rest out : List (Specie × P)) :
      (i ∉ order.activeToOriginal) → AtomsOf l order occ (i + 1) rest out →
      AtomsOf l order occ i ((s, p) :: rest) ((s, p) :: out)
  | vacant (i a : Nat) (s sp : Specie) (p : P) (rest out : List (Specie × P)) :
      order.activeToOriginal[a]? = some i → SiteSpeciesIs l occ a sp → sp.isVacancy = true →
      AtomsOf l order occ (i + 1) rest out → AtomsOf l order occ i ((s, p) :: rest) out
  | atom (i a : Nat) (s sp : Specie) (p : P) (rest out : List (Specie × P)) :
      order.activeToOriginal[a]? = some i → SiteSpeciesIs l occ a sp → sp.isVacancy = false →
      AtomsOf l order occ (i + 1) rest out → AtomsOf l order occ i ((s, p) :: rest) ((sp, p) :: out)

/-- The result `r` shows the assignment `c` of the variable sites `vs` on top of the base
occupation. -/
structure Shows (l : Lattice P) (order : ActiveSiteOrder σ φ) (full : List (Specie × P))
    (base : Occupation) (localSites vs : List Int) (c : List Specie) (r : Enumerator.Result P) : Prop where
  basis : r.fullOccupation.basis = base.basis
  length : r.fullOccupation.data.length = base.data.length
  placed : ∀ (k : Nat) v sp, vs[k]? = some v → c[k]? = some sp → ∃ i, IsState (allowedOn l v) sp i ∧
    r.fullOccupation.data[v.toNat]? = some (l.basis.stateValue (i : Int))
  others : ∀ j : Nat, (j : Int) ∉ vs → r.fullOccupation.data[j]? = base.data[j]?
  sites : r.localSites = localSites
  varying : r.variableSites = vs
  localValues : List.Forall₂ (fun i v => pyGet r.fullOccupation.data i = .ok v) localSites
    r.localOccupation.data
  bySite : r.speciesBySite = vs.zip (c.map (·.label))
  atoms : AtomsOf l order r.fullOccupation.data 0 full r.atoms

end KMC.Spec
