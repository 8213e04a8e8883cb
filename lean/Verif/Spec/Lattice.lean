import Mathlib.Data.List.Forall2
import Verif.Model.Lattice
/-
Words for the properties of species, occupation values and structures.
-/
namespace KMC.Spec
open KMC

/-- No two of the allowed species are the same to the code. -/
def Distinguishable (allowed : List Specie) : Prop :=
  allowed.Pairwise fun a b => a.equivalent b = false

/-- The basis has a value of its own for each of `n` states. -/
def TellsApart (b : Basis) (n : Nat) : Prop :=
  ∀ i j : Nat, i < n → j < n → b.stateValue (i : Int) = b.stateValue (j : Int) → i = j

/-- `i` is the state of species `sp` on a site with these allowed species: the first equivalent
one. -/
def IsState (allowed : List Specie) (sp : Specie) (i : Nat) : Prop :=
  (∃ a, allowed[i]? = some a ∧ sp.equivalent a = true) ∧
  ∀ j < i, ∀ a, allowed[j]? = some a → sp.equivalent a = false

/-- Distances between sites: zero exactly between a site and itself. -/
structure Separated {P K : Type} [Zero K] [LinearOrder K] (dist : P → P → K) (sites : List P) :
    Prop where
  self : ∀ p ∈ sites, dist p p = 0
  other : ∀ (i j : Nat) (p q : P), sites[i]? = some p → sites[j]? = some q → i ≠ j → 0 < dist p q

/-- Site `i` is the (first) site closest to position `p`, at distance `d`. -/
def Nearest {P K : Type} [LinearOrder K] (dist : P → P → K) (sites : List P) (p : P) (i : Nat)
    (d : K) : Prop :=
  (∃ q, sites[i]? = some q ∧ dist q p = d) ∧
  ∀ (j : Nat) (r : P), sites[j]? = some r → d ≤ dist r p ∧ (j < i → d < dist r p)

/-- The value a site takes when no atom is placed on it: the vacancy if it is allowed, otherwise
the second allowed species. -/
def EmptyValue (b : Basis) (allowed : Option (List Specie)) (v : Int) : Prop :=
  match allowed with
  | none => v = b.mismatchValue
  | some [] => v = b.mismatchValue
  | some (s :: ss) =>
    (∃ (i : Nat) (a : Specie), (s :: ss)[i]? = some a ∧ a.isVacancy = true ∧
      (∀ j < i, ∀ c, (s :: ss)[j]? = some c → c.isVacancy = false) ∧ v = b.stateValue (i : Int)) ∨
    ((∀ a ∈ s :: ss, a.isVacancy = false) ∧
      v = b.stateValue (if ss = [] then 0 else 1))

/-- `occ` describes atoms placed on sites: `atoms` gives species and site. -/
structure DescribesAtoms (b : Basis) (allowed : List (Option (List Specie))) (atoms : List (Specie × Nat))
    (occ : List Int) : Prop where
  length : occ.length = allowed.length
  onSite : ∀ sp (k : Nat), (sp, k) ∈ atoms →
    ∃ l i, allowed[k]? = some (some l) ∧ IsState l sp i ∧ occ[k]? = some (b.stateValue (i : Int))
  empty : ∀ (k : Nat) a, allowed[k]? = some a → (∀ sp, (sp, k) ∉ atoms) →
    ∃ v, occ[k]? = some v ∧ EmptyValue b a v

/-- The supercell sites with their species (as `get_structure_from_occ` sees them) are the sites
with their template index (as `get_occ_from_structure` sees them). -/
def SameSites {P : Type} (l : Lattice P) (super : List (Nat × P)) (sites : List (Specie × P)) : Prop :=
  sites.map (fun s => (some s.1, s.2)) = super.map fun s => (l.template[s.1]?.map (·.1), s.2)

/-- Every value of `occ` is the value of one of the states of its site. -/
def StatesOf (b : Basis) (allowed : List (Option (List Specie))) (occ : List Int) : Prop :=
  List.Forall₂ (fun a v => ∃ (l : List Specie) (i : Nat), a = some l ∧ i < l.length ∧
    v = b.stateValue (i : Int)) allowed occ

end KMC.Spec
