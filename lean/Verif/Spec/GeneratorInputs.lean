import Verif.Model.GeneratorInputs
import Verif.Spec.Supercell
import Verif.Spec.Neighbors
/-
What the arguments of `generate_events` mean.
-/
namespace KMC.Spec
open KMC Generate
variable {σ S K : Type}

/-- A charge: digits, then a sign. -/
def ChargeText (c : List Char) : Prop :=
  ∃ ds sign, c = ds ++ [sign] ∧ (∀ d ∈ ds, d.isDigit = true) ∧ (sign = '+' ∨ sign = '-')

/-- An element symbol: a capital, possibly followed by a small letter. -/
def SymbolText (s : List Char) : Prop :=
  (∃ a, s = [a] ∧ a.isUpper = true) ∨ ∃ a b, s = [a, b] ∧ a.isUpper = true ∧ b.isLower = true

/-- `v` is the token itself, or its element symbol when the token is a symbol with a charge. -/
def Stands (token v : String) : Prop :=
  v = token ∨ ∃ c, token.toList = v.toList ++ c ∧ SymbolText v.toList ∧ ChargeText c

/-- Two names mean the same species, up to charge. -/
def SameName (a b : String) : Prop := ∃ v, Stands a v ∧ Stands b v

/-- A mapping entry that allows a vacancy. -/
def allowsVacancy (allowed : List String) : Bool :=
  allowed.any fun a => a.toUpper = "X" || a.toUpper = "VACANCY"

/-- The words of an identifier: a text is one word, a list has the words of its members. -/
def IsWord (render : List Ident → String) : Ident → String → Prop
  | .text s, w => w = s
  | .other s, w => w = s
  | .group l, w => ∃ x ∈ l, w = x.str render

/-- The texts anywhere inside an identifier. -/
inductive HasText : Ident → String → Prop where
  | text (s) : HasText (.text s) s
  | other (s) : HasText (.other s) s
  | member {l x s} : x ∈ l → HasText x s → HasText (.group l) s

/-- The mobile species: what the user gives, or else the entries that allow a vacancy (there must be
one). -/
def MobileIs (given : Option Ident) (mapping : List (String × List String)) (m : Ident) : Prop :=
  match given with
  | some x => m = x
  | none => (∃ e ∈ mapping, allowsVacancy e.2 = true) ∧
      m = .group ((mapping.filter fun e => allowsVacancy e.2).map fun e => .text e.1)

/-- Origin and target identifiers: the two given ones, or the mobile species for both. -/
def EndsAre (given : Option Ident) (mobile origin target : Ident) : Prop :=
  match given with
  | some (.group l) => l = [origin, target]
  | some (.text s) => ∃ a b, s.toList = [a, b] ∧ origin = .text (String.ofList [a]) ∧
      target = .text (String.ofList [b])
  | some (.other _) => False
  | none => origin = mobile ∧ target = mobile

/-- Sites are chosen by species when no identifiers are given, or when all of them name mobile species;
otherwise by label. -/
def ChosenBySpecies (given : Option Ident) (mobile : Ident) : Prop :=
  match given with
  | none => True
  | some i => (∃ w, HasText i w) ∧ ∀ w, HasText i w → ∃ m, HasText mobile m ∧ SameName w m

/-- The identifier chooses the site. -/
def Chooses (render : List Ident → String) (tokens : σ → List String) (bySpecies : Prop) (i : Ident)
    (s : LabeledSite σ) : Prop :=
  (bySpecies ∧ ∃ w ∈ tokens s.species, IsWord render i w) ∨ (¬ bySpecies ∧ IsWord render i s.label)

/-- The site's species has an entry in the mapping that allows a vacancy. -/
def CanMove (tokens : σ → List String) (mapping : List (String × List String)) (s : LabeledSite σ) : Prop :=
  ∃ e ∈ mapping, allowsVacancy e.2 = true ∧ e.1 ∈ tokens s.species

/-- The sites of the unit cell that the mapping allows to change. -/
def activeCell (eqv : σ → σ → Bool) (mapping : List (σ × List σ)) (template : List (LabeledSite σ)) :
    List (LabeledSite σ) :=
  template.filter fun s =>
    match mapping.find? fun kv => eqv s.species kv.1 with
    | some kv => decide (1 < kv.2.length)
    | none => false

/-- The one radius: the given one; without one, or with zero, the default `four`. -/
def UniformRadius [Zero K] (four : K) (given : Option K) (r : K) : Prop :=
  ((given = none ∨ given = some 0) ∧ r = four) ∨ (given = some r ∧ r ≠ 0)

/-- The radius within which two sites see each other: from the table given, or else one radius for all
pairs with a mobile species. -/
def Radius [LinearOrder K] [Zero K] (render : List Ident → String) (name : σ → String)
    (tokens : σ → List String) (cell : List (LabeledSite σ)) (cutoffs : Option (List ((String × String) × K)))
    (mobile : Ident) (four : K) (given : Option K) (s s' : LabeledSite σ) (r : K) : Prop :=
  match cutoffs with
  | some table => pairEntry table (name s.species) (name s'.species) = some r
  | none => UniformRadius four given r ∧ ∃ x ∈ cell, (name x.species = name s.species ∨ name x.species = name s'.species) ∧
      ∃ w ∈ tokens x.species, IsWord render mobile w

/-- pymatgen's neighbour search in the given cell is exact: it lists the images of sites within the
radius, except the centre itself, with the names, labels and positions of the sites; `d p q v` is the
distance from site `p` to site `q` in cell `v`. -/
structure ExactNeighbors [LE K] [Zero K] (name : σ → String)
    (search : Nat → K → List (K × Neighbor (LocalSites.Site S K))) (cell : List (LabeledSite σ))
    (d : Nat → Nat → Cell → K) (place : Nat → Cell → LocalSites.Site S K) : Prop where
  mem : ∀ p r x, x ∈ search p r ↔ ∃ (q : Nat) (s : LabeledSite σ) (v : Cell), cell[q]? = some s ∧
    (p ≠ q ∨ v ≠ (0, 0, 0)) ∧ d p q v ≤ r ∧ x = (d p q v, ⟨v, s.localIndex, s.label, place q v⟩)
  named : ∀ (q : Nat) s v, cell[q]? = some s → (place q v).text = name s.species
  nonneg : ∀ p q v, 0 ≤ d p q v

end KMC.Spec
