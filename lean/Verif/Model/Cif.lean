import Mathlib.Algebra.Order.Round
import Verif.Model.Supercell
import Verif.Model.LocalBarrier
/-
Model of `kmcpy/io/cif.py` and of finding sites by their label in `kmcpy/structure/sites.py`.

A block of a CIF file is given by its rows of atoms, as text, and its symmetry operations.  Parsing the CIF
syntax, the symmetry operations and element symbols is pymatgen's business: a row already holds the species made
of its symbol and oxidation state.  Coordinates and amounts are exact numbers; `float` reads a number and never
gives NaN or an infinity.  Amounts so small that pymatgen drops them are kept.
-/
namespace KMC
namespace Cif
variable {El K : Type}

/-- Fractional coordinates. -/
abbrev Coord (K : Type) := K × K × K

/-- One row of the atom table, `cif.py:91-124`. -/
structure Row (El : Type) where
  label : String
  /-- the species; `none` if `_parse_symbol` recognises nothing -/
  species : Option El
  /-- `get_num_implicit_hydrogens`, `cif.py:49-51` -/
  hydrogens : Nat
  x : String
  y : String
  z : String
  /-- `none` without an occupancy column -/
  occupancy : Option String

/-- `re.sub(r"\(.+\)*", "", text)` on one line: everything from the first parenthesis on, unless nothing
follows it. -/
def dropUncertainty : List Char → List Char
  | [] => []
  | c :: cs => if c = '(' then (if cs.isEmpty then [c] else []) else c :: dropUncertainty cs

/-- `str2float`, `cif.py:413-429`, of a text. -/
def str2float [Zero K] (float : String → Option K) (text : String) : Py K :=
  match float (String.ofList (dropUncertainty text.toList)) with
  | some x => .ok x
  | none => if pyStrip text = "." then .ok 0 else .error .valueError

/-- The coordinates of a row, `cif.py:115-117`. -/
def Row.coord [Zero K] (float : String → Option K) (r : Row El) : Py (Coord K) :=
  match str2float float r.x with
  | .error e => .error e
  | .ok x =>
    match str2float float r.y with
    | .error e => .error e
    | .ok y =>
      match str2float float r.z with
      | .error e => .error e
      | .ok z => .ok (x, y, z)

/-- The occupancy of a row, `cif.py:120-123`: one if absent or unreadable. -/
def Row.amount [Zero K] [One K] (float : String → Option K) (r : Row El) : K :=
  match r.occupancy with
  | none => 1
  | some t =>
    match str2float float t with
    | .ok v => v
    | .error _ => 1

/-- A `Composition`: amounts of species. -/
abbrev Comp (El K : Type) := List (El × K)

/-- `a + b` of compositions. -/
def compAdd [DecidableEq El] [Zero K] [Add K] (a b : Comp El K) : Comp El K :=
  b.foldl (fun c p => dictSet c p.1 ((dictGet c p.1).getD 0 + p.2)) a

/-- The composition of a row, `cif.py:127-136`; `hydrogen` is the element H. -/
def rowComp [DecidableEq El] [NatCast K] (hydrogen el : El) (amount : K) (hydrogens : Nat) : Comp El K :=
  if 0 < hydrogens then dictSet [(el, amount)] hydrogen (hydrogens : K) else [(el, amount)]

section
variable [Field K] [LinearOrder K] [IsStrictOrderedRing K] [FloorRing K]

/-- `|d - round(d)| < tol`.  (numpy rounds halves to even; the value is the same.) -/
def closeTo (tol d : K) : Bool := decide (|d - (round d : K)| < tol)

/-- `find_in_coord_list_pbc` for one entry: all components agree up to whole numbers and the tolerance. -/
def near (tol : K) (p q : Coord K) : Bool :=
  closeTo tol (p.1 - q.1) && closeTo tol (p.2.1 - q.2.1) && closeTo tol (p.2.2 - q.2.2)

/-- `get_matching_coord`, `cif.py:76-88`. -/
def matching (tol : K) (keys : List (Coord K)) (p : Coord K) : List (Coord K → Coord K) → Option (Coord K)
  | [] => none
  | op :: ops =>
    match keys.find? fun k => near tol k (op p) with
    | some k => some k
    | none => matching tol keys p ops

/-- `coord_to_species` and `coord_to_labels`, which have the same keys. -/
abbrev Table (El K : Type) := List (Coord K × (Comp El K × String))

/-- The composition at a key grows, `cif.py:142`. -/
def addComp [DecidableEq El] (t : Table El K) (key : Coord K) (c : Comp El K) : Table El K :=
  match dictGet t key with
  | some (old, l) => dictSet t key (compAdd old c, l)
  | none => t

/-- An atom goes into the table, `cif.py:126-145`: the species is added at the matching coordinates, the label
at the coordinates of the row. -/
def addAtom [DecidableEq El] (tol : K) (ops : List (Coord K → Coord K)) (t : Table El K) (p : Coord K)
    (c : Comp El K) (label : String) : Py (Table El K) :=
  match matching tol (dictKeys t) p ops with
  | none => .ok (dictSet t p (c, label))
  | some key =>
    match dictGet (addComp t key c) p with
    | none => .error .keyError
    | some (c', l) => .ok (dictSet (addComp t key c) p (c', l ++ label))

/-- The body of the loop over atoms, `cif.py:91-145`. -/
def addRow [DecidableEq El] (float : String → Option K) (hydrogen : El) (tol : K)
    (ops : List (Coord K → Coord K)) (t : Table El K) (r : Row El) : Py (Table El K) :=
  match r.species with
  | none => .ok t
  | some el =>
    match r.coord float with
    | .error e => .error e
    | .ok p =>
      if 0 < r.amount float then
        addAtom tol ops t p (rowComp hydrogen el (r.amount float) r.hydrogens) r.label
      else .ok t

/-- The loop over atoms, `cif.py:91-145`. -/
def addRows [DecidableEq El] (float : String → Option K) (hydrogen : El) (tol : K)
    (ops : List (Coord K → Coord K)) : List (Row El) → Table El K → Py (Table El K)
  | [], t => .ok t
  | r :: rs, t =>
    match addRow float hydrogen tol ops t r with
    | .error e => .error e
    | .ok t => addRows float hydrogen tol ops rs t

/-- `np.array([i - math.floor(i) for i in coord])`, `cif.py:400`. -/
def wrap (p : Coord K) : Coord K := (Int.fract p.1, Int.fract p.2.1, Int.fract p.2.2)

/-- `_unique_coords` of one position, `cif.py:397-404`: its images, each once. -/
def uniqueCoords (tol : K) (p : Coord K) : List (Coord K → Coord K) → List (Coord K) → List (Coord K)
  | [], out => out
  | op :: ops, out =>
    if out.any fun q => near tol q (wrap (op p)) then uniqueCoords tol p ops out
    else uniqueCoords tol p ops (out ++ [wrap (op p)])

/-- A site of the loaded structure. -/
structure Site (El K : Type) where
  species : Comp El K
  position : Coord K
  label : String
  wyckoff : Nat
  localIndex : Nat
  deriving DecidableEq

/-- The species of a site without implicit hydrogens, `cif.py:229-235`. -/
def withoutHydrogens [DecidableEq El] (oxygen hydrogen : El) (c : Comp El K) : Comp El K :=
  if (∀ e ∈ dictKeys c, e = oxygen ∨ e = hydrogen) ∧ oxygen ∈ dictKeys c ∧ hydrogen ∈ dictKeys c then
    [(oxygen, (dictGet c oxygen).getD 0)]
  else c

/-- The total amount of a composition. -/
def total (c : Comp El K) : K := (c.map Prod.snd).sum

/-- `cif.py:255-258`: totals slightly above one are scaled to one. -/
def rescale (occTol : K) (c : Comp El K) : Comp El K :=
  if 1 < total c ∧ total c ≤ occTol then c.map fun p => (p.1, p.2 / total c) else c

/-- The sites of one entry of the table, `cif.py:203-258`. -/
def sitesOf [DecidableEq El] (oxygen hydrogen : El) (tol occTol : K) (ops : List (Coord K → Coord K)) (start : Nat)
    (e : Coord K × (Comp El K × String)) : List (Site El K) :=
  (uniqueCoords tol e.1 ops []).mapIdx fun k c =>
    ⟨rescale occTol (withoutHydrogens oxygen hydrogen e.2.1), c, e.2.2, k, start + k⟩

/-- The loop over the table, `cif.py:203-253`, with the running `local_index`. -/
def expand [DecidableEq El] (oxygen hydrogen : El) (tol occTol : K) (ops : List (Coord K → Coord K)) :
    Nat → Table El K → List (Site El K)
  | _, [] => []
  | start, e :: rest =>
    sitesOf oxygen hydrogen tol occTol ops start e ++
      expand oxygen hydrogen tol occTol ops (start + (sitesOf oxygen hydrogen tol occTol ops start e).length) rest

/-- Which kind of CIF file pymatgen takes it for (`feature_flags`). -/
inductive Flavour where
  | standard
  | magnetic
  | incommensurate
  deriving DecidableEq

/-- What the parser knows and what it leaves to pymatgen. -/
structure Parser (El K : Type) where
  flavour : Flavour
  float : String → Option K
  oxygen : El
  hydrogen : El
  /-- `site_tolerance` -/
  tol : K
  /-- `occupancy_tolerance` -/
  occTol : K
  /-- by how much the amounts at a site may exceed one in a `PeriodicSite` -/
  excess : K
  /-- `get_sorted_structure` -/
  sort : List (Site El K) → List (Site El K)
  /-- `get_primitive_structure` and `get_reduced_structure` -/
  primitive : List (Site El K) → List (Site El K)

/-- A data block: its rows and its symmetry operations. -/
structure Block (El K : Type) where
  rows : List (Row El)
  ops : List (Coord K → Coord K)

/-- `Structure(...)` and the steps after it, `cif.py:260-300`, not symmetrized: a site with too much on it is a
`ValueError`. -/
def finish (P : Parser El K) (primitive : Bool) (sites : List (Site El K)) : Py (Option (List (Site El K))) :=
  if sites.isEmpty then .ok none
  else if sites.any fun s => decide (1 + P.excess < total s.species) then .error .valueError
  else .ok (some (if primitive then P.primitive (P.sort sites) else P.sort sites))

/-- `_get_labeled_structure`, `cif.py:40-300`.  Of a magnetic file nothing is modelled beyond the call
`_unique_coords(..., magmoms_in=...)` (line 217), which has no such argument; a file that also mixes species is
refused before that with `NotImplementedError`. -/
def labeledStructure [DecidableEq El] (P : Parser El K) (primitive : Bool) (b : Block El K) :
    Py (Option (List (Site El K))) :=
  if P.flavour = .incommensurate then .error .notImplementedError
  else
    match addRows P.float P.hydrogen P.tol b.ops b.rows [] with
    | .error e => .error e
    | .ok t =>
      if P.flavour = .magnetic ∧ t ≠ [] then .error .typeError
      else finish P primitive (expand P.oxygen P.hydrogen P.tol P.occTol b.ops 0 t)

/-- The loop of `get_labeled_structures`, `cif.py:336-352`. -/
def collect [DecidableEq El] (P : Parser El K) (primitive : Bool) :
    List (Block El K) → Py (List (List (Site El K)))
  | [] => .ok []
  | b :: bs =>
    match labeledStructure P primitive b with
    | .ok (some s) =>
      match collect P primitive bs with
      | .error e => .error e
      | .ok ss => .ok (if s.isEmpty then ss else s :: ss)
    | .ok none => collect P primitive bs
    | .error .keyError => collect P primitive bs
    | .error .valueError => collect P primitive bs
    | .error e => .error e

/-- `get_labeled_structures(primitive)`, `cif.py:302-359`. -/
def labeledStructures [DecidableEq El] (P : Parser El K) (primitive : Bool) (bs : List (Block El K)) :
    Py (List (List (Site El K))) :=
  match collect P primitive bs with
  | .error e => .error e
  | .ok [] => .error .valueError
  | .ok ss => .ok ss

/-- `load_labeled_structure_from_cif` and `load_labeled_structure_from_string`, `cif.py:447-471`: the first
structure. -/
def load [DecidableEq El] (P : Parser El K) (primitive : Bool) (bs : List (Block El K)) : Py (List (Site El K)) :=
  match labeledStructures P primitive bs with
  | .error e => .error e
  | .ok [] => .error .indexError
  | .ok (s :: _) => .ok s

end

/-- What the site index of a supercell reads of a loaded site (`Model/Supercell`). -/
def Site.labeled (s : Site El K) : LabeledSite (Comp El K) := ⟨s.species, s.label, (s.localIndex : Int)⟩

/-- `find_site_by_wyckoff_sequence_and_label`, `sites.py:57-77`, on a loaded structure. -/
def findSite (sites : List (Site El K)) (wyckoff : Int) (label : String) : Py (Site El K) :=
  match sites.find? fun s => decide ((s.wyckoff : Int) = wyckoff) && decide (s.label = label) with
  | some s => .ok s
  | none => .error .valueError

/-- `find_site_by_wyckoff_sequence_label_and_supercell`, `sites.py:80-103`, returning the index, on a supercell
of a loaded structure. -/
def findIndex (sites : List (Site El K × Cell)) (wyckoff : Int) (label : String) (cell : Cell) : Py Nat :=
  match sites.findIdx? fun s =>
    decide ((s.1.wyckoff : Int) = wyckoff) && decide (s.1.label = label) && decide (s.2 = cell) with
  | some i => .ok i
  | none => .error .valueError

end Cif
end KMC
