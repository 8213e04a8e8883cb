import Verif.Model.Basis
/-
Model of `kmcpy/structure/species.py` and `kmcpy/structure/lattice_structure.py`.

A species-like object is known by what the code asks of it: whether it is a plain text, its
`str`, and its attributes `symbol` and `element` if it has them.  Positions are an arbitrary type
`P`; pymatgen's supercell construction, the lattice comparison and the minimum-image fractional
distance are parameters.
-/
namespace KMC

/-- What the code reads of a species-like value. -/
structure Specie where
  text : Bool
  str : String
  symbol : Option String
  element : Option String
  deriving DecidableEq, Repr

namespace Specie

/-- A pymatgen `Species` of an element with its text (which carries the oxidation state). -/
def ofElement (symbol str : String) : Specie := ⟨false, str, some symbol, some symbol⟩

/-- A plain text. -/
def ofText (s : String) : Specie := ⟨true, s, none, none⟩

/-- `VACANCY_LABELS`, `species.py:10`. -/
def vacancyLabels : List String := ["X", "Vacancy", "vacancy", "Va", "VA"]

/-- `vacancy_species`, `species.py:13-15`: `DummySpecies("X", 0)`. -/
def vacancy : Specie := ⟨false, "X0+", some "X", none⟩

/-- `is_vacancy_species`, `species.py:18-23`. -/
def isVacancy (s : Specie) : Bool :=
  if s.text then vacancyLabels.contains s.str
  else
    match s.symbol with
    | some x => vacancyLabels.contains x
    | none => false

/-- `normalize_species`, `species.py:26-32`; `parse` is pymatgen's `Species(text)`. -/
def normalize (parse : String → Py Specie) (s : Specie) : Py Specie :=
  if s.isVacancy then .ok vacancy
  else if s.text then parse s.str
  else .ok s

/-- `species_tokens`, `species.py:35-46`. -/
def tokens (s : Specie) : List String :=
  if s.isVacancy then ["X", "Vacancy"]
  else s.str :: (s.symbol.toList ++ s.element.toList)

/-- `species_label`, `species.py:49-58`. -/
def label (s : Specie) : String :=
  if s.isVacancy then "X"
  else if s.text then s.str
  else
    match s.symbol with
    | some x => x
    | none => s.str

/-- `species_equivalent`, `species.py:61-63`. -/
def equivalent (a b : Specie) : Bool := a.tokens.any fun t => b.tokens.contains t

end Specie

/-- `LatticeStructure`, `lattice_structure.py:16-72`: template sites, normalised mapping, allowed
species per site and basis. -/
structure Lattice (P : Type) where
  template : List (Specie × P)
  siteMapping : List (Specie × List Specie)
  allowed : List (Option (List Specie))
  basis : Basis

namespace Lattice
variable {P K : Type}

/-- Inner list of the comprehension `lattice_structure.py:33-39`. -/
def normalizeAll (parse : String → Py Specie) : List Specie → Py (List Specie)
  | [] => .ok []
  | s :: ss =>
    match s.normalize parse with
    | .error e => .error e
    | .ok a =>
      match normalizeAll parse ss with
      | .error e => .error e
      | .ok as => .ok (a :: as)

/-- The dict comprehension `lattice_structure.py:33-39` (values already lists). -/
def normalizeMapping (parse : String → Py Specie) : List (Specie × List Specie) →
    List (Specie × List Specie) → Py (List (Specie × List Specie))
  | [], acc => .ok acc
  | (k, v) :: rest, acc =>
    match k.normalize parse with
    | .error e => .error e
    | .ok k =>
      match normalizeAll parse v with
      | .error e => .error e
      | .ok v => normalizeMapping parse rest (dictSet acc k v)

/-- Inner loop `lattice_structure.py:45-49`: the first mapping entry for an equivalent species. -/
def allowedFor (mapping : List (Specie × List Specie)) (s : Specie) : Option (List Specie) :=
  (mapping.find? fun kv => s.equivalent kv.1).map (·.2)

/-- `max(len(species) for species in allowed_species if species)`, `lattice_structure.py:56-59`;
`none` when there is nothing to take the maximum of. -/
def maxStates : List (Option (List Specie)) → Option Nat
  | [] => none
  | a :: rest =>
    match a, maxStates rest with
    | some (_ :: xs), some m => some (max (xs.length + 1) m)
    | some (_ :: xs), none => some (xs.length + 1)
    | _, m => m

/-- `__init__`, `lattice_structure.py:19-67` with a normalised mapping (the check 52-53 never
fails; `active_site_order` is modelled in `Model/ActiveSiteOrder`). -/
def mk' (template : List (Specie × P)) (mapping : List (Specie × List Specie))
    (basisType : String) : Py (Lattice P) :=
  let allowed := template.map fun s => allowedFor mapping s.1
  match maxStates allowed with
  | none => .error .valueError
  | some m =>
    let basis := if basisType = "chebyshev" then Basis.mkChebyshev (max 2 (m : Int))
      else Basis.getBasis basisType
    match basis with
    | .error _ => .error .valueError
    | .ok b => .ok ⟨template, mapping, allowed, b⟩

/-- `__init__`, `lattice_structure.py:19-67`: the mapping is normalised first. -/
def make (parse : String → Py Specie) (template : List (Specie × P)) (mapping : List (Specie × List Specie))
    (basisType : String) : Py (Lattice P) :=
  match normalizeMapping parse mapping [] with
  | .error e => .error e
  | .ok mapping => mk' template mapping basisType

/-- Loop `lattice_structure.py:294-296`: index of the first vacancy. -/
def firstVacancy : List Specie → Option Nat
  | [] => none
  | s :: ss => if s.isVacancy then some 0 else (firstVacancy ss).map (· + 1)

/-- `_missing_occupation_value`, `lattice_structure.py:291-299`. -/
def missingValue (b : Basis) (allowed : Option (List Specie)) : Int :=
  match allowed with
  | none => b.mismatchValue
  | some [] => b.mismatchValue
  | some (s :: ss) =>
    match firstVacancy (s :: ss) with
    | some i => b.stateValue (i : Int)
    | none => b.stateValue (if 1 < (s :: ss).length then 1 else 0)

/-- Loop `lattice_structure.py:315-317`. -/
def firstEquivalent (sp : Specie) : List Specie → Option Nat
  | [] => none
  | s :: ss => if sp.equivalent s then some 0 else (firstEquivalent sp ss).map (· + 1)

/-- `occupation_value_for_species`, `lattice_structure.py:301-318`. -/
def occupationValue (b : Basis) (allowed : Option (List Specie)) (sp : Specie) : Py Int :=
  match allowed with
  | none => .error .valueError
  | some [] => .error .valueError
  | some (s :: ss) =>
    match firstEquivalent sp (s :: ss) with
    | some i => .ok (b.stateValue (i : Int))
    | none => .error .valueError

/-- Loop `lattice_structure.py:325-327` from state `i` on. -/
def findValue (b : Basis) (v : Int) : Nat → List Specie → Option Specie
  | _, [] => none
  | i, s :: ss => if v = b.stateValue (i : Int) then some s else findValue b v (i + 1) ss

/-- `species_for_occupation_value`, `lattice_structure.py:320-328`. -/
def speciesFor (b : Basis) (allowed : Option (List Specie)) (v : Int) : Py Specie :=
  match allowed with
  | none => .error .valueError
  | some [] => .error .valueError
  | some (s :: ss) =>
    match findValue b v 0 (s :: ss) with
    | some s => .ok s
    | none => .error .valueError

/-- `np.argmin`: position and value of the first smallest entry. -/
def argmin [LinearOrder K] : List K → Option (Nat × K)
  | [] => none
  | a :: l =>
    match argmin l with
    | none => some (0, a)
    | some (i, b) => if a ≤ b then some (0, a) else some (i + 1, b)

/-- Columns of `_infer_structure_site_mapping`, `lattice_structure.py:250-277`: for every atom the
closest template site; `none` when the template is empty.  The second component is the largest
distance test. -/
def inferMapping [LinearOrder K] (dist : P → P → K) (tol : K) (template : List P) :
    List P → Py (List Int)
  | [] => .ok []
  | p :: ps =>
    match argmin (template.map fun t => dist t p) with
    | none => .error .valueError
    | some (i, m) =>
      match inferMapping dist tol template ps with
      | .error e => .error e
      | .ok is => if tol < m then .error .valueError else .ok ((i : Int) :: is)

/-- Loop `lattice_structure.py:222-242`: write the value of every atom. -/
def assign (b : Basis) (allowed : List (Option (List Specie))) :
    List (Specie × Int) → List Int → Py (List Int)
  | [], occ => .ok occ
  | (sp, i) :: rest, occ =>
    match pyGet allowed i with
    | .error e => .error e
    | .ok a =>
      match occupationValue b a sp with
      | .error _ => .error .valueError
      | .ok v =>
        match pySet occ i v with
        | .error e => .error e
        | .ok occ => assign b allowed rest occ

/-- `get_occ_from_structure`, `lattice_structure.py:93-247`.  `super` lists, in pymatgen's order,
the template index and the position of every supercell site; `latticeOk` is the outcome of the
lattice comparison (182-185); the supercell matrix is taken as known. -/
def getOcc [LinearOrder K] (l : Lattice P) (dist : P → P → K) (tol : K) (super : List (Nat × P))
    (latticeOk : Bool) (structure' : List (Specie × P)) (mapping : Option (List Int)) :
    Py Occupation :=
  match pyGetAll l.allowed (super.map fun s => (s.1 : Int)) with
  | .error e => .error e
  | .ok allowed =>
    let occ := allowed.map (missingValue l.basis)
    if structure' = [] then .ok ⟨l.basis, occ⟩
    else if !latticeOk then .error .valueError
    else
      let indices : Py (List Int) :=
        match mapping with
        | none => inferMapping dist tol (super.map (·.2)) (structure'.map (·.2))
        | some is =>
          if is.length ≠ structure'.length then .error .valueError
          else if is.any (fun i => decide (i < 0 ∨ (super.length : Int) ≤ i)) then .error .valueError
          else .ok is
      match indices with
      | .error e => .error e
      | .ok is =>
        if ¬ is.Nodup then .error .valueError
        else
          match assign l.basis allowed ((structure'.map (·.1)).zip is) occ with
          | .error e => .error e
          | .ok occ => .ok ⟨l.basis, occ⟩

/-- Loop `lattice_structure.py:355-360`: the species of every site. -/
def speciesAt (b : Basis) (allowed : List (Option (List Specie))) : Nat → List Int → Py (List Specie)
  | _, [] => .ok []
  | i, v :: vs =>
    match pyGet allowed (i : Int) with
    | .error e => .error e
    | .ok a =>
      match speciesFor b a v with
      | .error e => .error e
      | .ok s =>
        match speciesAt b allowed (i + 1) vs with
        | .error e => .error e
        | .ok ss => .ok (s :: ss)

/-- Length of the allowed-species list after `make_supercell`, `lattice_structure.py:380-391`: the
loops run over the diagonal entries of the matrix. -/
def copiedLength (l : Lattice P) (diag : Int × Int × Int) : Nat :=
  diag.1.toNat * diag.2.1.toNat * diag.2.2.toNat * l.allowed.length

/-- `get_structure_from_occ`, `lattice_structure.py:330-372`.  `super` is the supercell template
made by pymatgen with a matrix of the given diagonal; `make_supercell` (380-391) checks the length.
`copy` (374-378) builds the lattice structure of the supercell afresh, with allowed species found
by species. -/
def getStructure (l : Lattice P) (super : List (Specie × P)) (diag : Int × Int × Int)
    (occ : Occupation) : Py (List (Specie × P)) :=
  if l.copiedLength diag ≠ super.length then .error .valueError
  else if occ.data.length ≠ super.length then .error .valueError
  else
    match mk' super l.siteMapping l.basis.name with
    | .error e => .error e
    | .ok l' =>
      match speciesAt l'.basis l'.allowed 0 occ.data with
      | .error e => .error e
      | .ok ss => .ok ((ss.zip (super.map (·.2))).filter fun s => !s.1.isVacancy)

end Lattice
end KMC
