import Verif.Model.Cif
/-
What a CIF file means: atoms, and the positions the symmetry of the crystal makes of them.
-/
namespace KMC.Spec
open KMC KMC.Cif

variable {El K : Type}

section
variable [Field K] [LinearOrder K] [IsStrictOrderedRing K] [FloorRing K]

/-- Two fractional coordinates are the same point of the crystal: they differ by whole numbers. -/
def SamePoint (p q : Coord K) : Prop := ∃ i j k : Int, p = (q.1 + i, q.2.1 + j, q.2.2 + k)

/-- Two points cannot be told apart: up to whole numbers each coordinate differs by less than `tol`. -/
def Close (tol : K) (p q : Coord K) : Prop :=
  ∃ i j k : Int, |p.1 - q.1 - i| < tol ∧ |p.2.1 - q.2.1 - j| < tol ∧ |p.2.2 - q.2.2 - k| < tol

/-- The operations are those of a space group: they respect the lattice, and up to lattice translations they
contain the identity, products and inverses. -/
structure SpaceGroup (ops : List (Coord K → Coord K)) : Prop where
  periodic : ∀ g ∈ ops, ∀ p q, SamePoint p q → SamePoint (g p) (g q)
  identity : ∃ g ∈ ops, ∀ p, SamePoint (g p) p
  product : ∀ g ∈ ops, ∀ h ∈ ops, ∃ f ∈ ops, ∀ p, SamePoint (f p) (g (h p))
  inverse : ∀ g ∈ ops, ∃ h ∈ ops, ∀ p, SamePoint (h (g p)) p

/-- `q` is a symmetry image of `p`. -/
def Image (ops : List (Coord K → Coord K)) (p q : Coord K) : Prop := ∃ g ∈ ops, SamePoint (g p) q

/-- An atom of the file. -/
structure Atom (El K : Type) where
  label : String
  element : El
  hydrogens : Nat
  position : Coord K
  amount : K

/-- What is kept of a written number: the text up to its first parenthesis, which starts the uncertainty; a
parenthesis with nothing after it is kept. -/
inductive NumberPart : List Char → List Char → Prop where
  | whole {text : List Char} : '(' ∉ text.dropLast → NumberPart text text
  | cut {number uncertainty : List Char} : '(' ∉ number → uncertainty ≠ [] →
      NumberPart (number ++ '(' :: uncertainty) number

/-- The text is read as this number; a single dot stands for zero. -/
def ReadsAs (float : String → Option K) (text : String) (x : K) : Prop :=
  (∃ part, NumberPart text.toList part ∧ float (String.ofList part) = some x) ∨
  ((∀ part, NumberPart text.toList part → float (String.ofList part) = none) ∧ pyStrip text = "." ∧ x = 0)

/-- The row is at this position. -/
def AtPosition (float : String → Option K) (r : Row El) (p : Coord K) : Prop :=
  ReadsAs float r.x p.1 ∧ ReadsAs float r.y p.2.1 ∧ ReadsAs float r.z p.2.2

/-- The occupancy of the row: one if it is not given or not a number. -/
def HasAmount (float : String → Option K) (r : Row El) (x : K) : Prop :=
  (∃ text, r.occupancy = some text ∧ ReadsAs float text x) ∨
  ((∀ text, r.occupancy = some text → ∀ y, ¬ ReadsAs float text y) ∧ x = 1)

/-- The row describes this atom. -/
def RowDescribes (float : String → Option K) (r : Row El) (a : Atom El K) : Prop :=
  r.label = a.label ∧ r.species = some a.element ∧ r.hydrogens = a.hydrogens ∧
    AtPosition float r a.position ∧ HasAmount float r a.amount ∧ 0 < a.amount

/-- The row describes nothing: no element, or none of it. -/
def RowDescribesNothing (float : String → Option K) (r : Row El) : Prop :=
  r.species = none ∨ ((∃ p, AtPosition float r p) ∧ ∃ x, HasAmount float r x ∧ x ≤ 0)

/-- The atoms described by the rows, in order; rows that describe nothing are passed over. -/
inductive RowsDescribe (float : String → Option K) : List (Row El) → List (Atom El K) → Prop where
  | nil : RowsDescribe float [] []
  | skip {r : Row El} {rs : List (Row El)} {as : List (Atom El K)} :
      RowDescribesNothing float r → RowsDescribe float rs as → RowsDescribe float (r :: rs) as
  | atom {r : Row El} {rs : List (Row El)} {a : Atom El K} {as : List (Atom El K)} :
      RowDescribes float r a → RowsDescribe float rs as → RowsDescribe float (r :: rs) (a :: as)

/-- Images of the atoms are the same point or can be told apart. -/
def ImagesApart (tol : K) (ops : List (Coord K → Coord K)) (atoms : List (Atom El K)) : Prop :=
  ∀ a ∈ atoms, ∀ b ∈ atoms, ∀ g ∈ ops, ∀ h ∈ ops, Close tol (g a.position) (h b.position) →
    SamePoint (g a.position) (h b.position)

open Classical in
/-- The atoms that share a point of the crystal with a symmetry image of `p`, in the order of the file. -/
noncomputable def sharing (ops : List (Coord K → Coord K)) (atoms : List (Atom El K)) (p : Coord K) :
    List (Atom El K) :=
  atoms.filter fun a => Image ops a.position p

/-- A file as a crystallographer writes it, and the atoms it describes. -/
structure Crystal (P : Parser El K) (b : Block El K) (atoms : List (Atom El K)) : Prop where
  standard : P.flavour = .standard
  tolerance : 0 < P.tol
  sorting : ∀ l, (P.sort l).Perm l
  group : SpaceGroup b.ops
  read : RowsDescribe P.float b.rows atoms
  apart : ImagesApart P.tol b.ops atoms

end

/-- The amount of an element in a composition. -/
def amountOf [DecidableEq El] [Zero K] (c : Comp El K) (e : El) : K := (dictGet c e).getD 0

end KMC.Spec
