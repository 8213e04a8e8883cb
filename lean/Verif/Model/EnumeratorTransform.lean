import Mathlib.Data.Rat.Defs
import Verif.Model.Enumerator
/-
Model of the enumeration of local environments through a pymatgen transformation,
`kmcpy/structure/local_environment_enumerator.py:454-576`, and of the choice between it and the
Cartesian product (49-167).

The transformation is an argument: whatever it is handed, it may return anything or raise.  A
structure it returns is known by its atoms, by the supercell of the template its lattice spans
(as pymatgen lists the sites of that supercell) and by the outcome of the lattice comparison.
The metadata of the results is not modelled.
-/
namespace KMC
namespace Enumerator
variable {P K σ φ : Type}

/-- A structure returned by the transformation.  `super` is `none` when its lattice is no supercell
of the template (`lattice_structure.py:129-147`); `latticeOk` is the comparison 182-185. -/
structure Found (P : Type) where
  super : Option (List (Nat × P))
  latticeOk : Bool
  atoms : List (Specie × P)
  deriving DecidableEq

/-- An entry of a returned list, `local_environment_enumerator.py:567-574`: a structure, a
dictionary with a structure under `"structure"`, or something else. -/
inductive FoundEntry (P : Type) where
  | plain (s : Found P)
  | ranked (s : Found P)
  | unsupported

/-- What `apply_transformation` returns, `local_environment_enumerator.py:562-576`. -/
inductive Transformed (P : Type) where
  | one (s : Found P)
  | many (es : List (FoundEntry P))
  | unsupported

/-- `return_ranked_list`: a flag or a number, `local_environment_enumerator.py:61`. -/
inductive Ranked where
  | flag (b : Bool)
  | number (n : Int)
  deriving DecidableEq

/-- `ranked_request`, `local_environment_enumerator.py:475-479`. -/
def rankedRequest (r : Ranked) (maxResults : Int) : Ranked :=
  match r with
  | .number n => .number n
  | .flag true => .number maxResults
  | .flag false => .flag false

/-- The dict comprehension `local_environment_enumerator.py:559`. -/
def fractions (share : ℚ) : List Specie → List (Specie × ℚ) → List (Specie × ℚ)
  | [], acc => acc
  | s :: ss, acc => fractions share ss (dictSet acc s share)

/-- `_partial_species_entry`, `local_environment_enumerator.py:554-559`. -/
def partialEntry (choices : List Specie) : Py (List (Specie × ℚ)) :=
  match choices.filter fun s => !s.isVacancy with
  | [] => .error .valueError
  | s :: ss => .ok (fractions (1 / (choices.length : ℚ)) (s :: ss) [])

/-- Loop of `_build_disordered_structure`, `local_environment_enumerator.py:527-545`, from site `i`
on: the species with their fractions and the position of every listed site. -/
def disorderedFrom (l : Lattice P) (base : Occupation) (variableSites : List Int)
    (variableSpecies : Option (List Specie)) :
    Nat → List (Specie × P) → Py (List (List (Specie × ℚ) × P))
  | _, [] => .ok []
  | i, (_, p) :: rest =>
    if variableSites.contains (i : Int) then
      match allowedChoices l (i : Int) variableSpecies with
      | .error e => .error e
      | .ok cs =>
        match partialEntry cs with
        | .error e => .error e
        | .ok entry =>
          match disorderedFrom l base variableSites variableSpecies (i + 1) rest with
          | .error e => .error e
          | .ok es => .ok ((entry, p) :: es)
    else
      match speciesOn l base i with
      | .error e => .error e
      | .ok sp =>
        match disorderedFrom l base variableSites variableSpecies (i + 1) rest with
        | .error e => .error e
        | .ok es => .ok (if sp.isVacancy then es else ([(sp, 1)], p) :: es)

/-- `_build_disordered_structure`, `local_environment_enumerator.py:518-551`. -/
def disordered (l : Lattice P) (base : Occupation) (variableSites : List Int)
    (variableSpecies : Option (List Specie)) : Py (List (List (Specie × ℚ) × P)) :=
  disorderedFrom l base variableSites variableSpecies 0 l.template

/-- `get_occ_from_structure` on a returned structure, `local_environment_enumerator.py:487-491`. -/
def readFound [LinearOrder K] (l : Lattice P) (dist : P → P → K) (tol : K) (s : Found P) :
    Py Occupation :=
  match s.super with
  | none => .error .valueError
  | some super => Lattice.getOcc l dist tol super s.latticeOk s.atoms none

/-- `_species_for_occupation(lattice_structure, i, occupation[i])`,
`local_environment_enumerator.py:733-735`. -/
def speciesAtIndex (l : Lattice P) (o : Occupation) (i : Int) : Py Specie :=
  match o.getItem i with
  | .error e => .error e
  | .ok v =>
    match pyGet l.allowed i with
    | .error e => .error e
    | .ok al => Lattice.speciesFor l.basis al v

/-- `_species_by_site`, `local_environment_enumerator.py:727-737`. -/
def speciesBySite (l : Lattice P) (o : Occupation) : List Int → List (Int × String) →
    Py (List (Int × String))
  | [], acc => .ok acc
  | i :: is, acc =>
    match speciesAtIndex l o i with
    | .error e => .error e
    | .ok s => speciesBySite l o is (dictSet acc i s.label)

/-- The structure of an entry; `TypeError` for anything else,
`local_environment_enumerator.py:567-574`. -/
def entryStructure : FoundEntry P → Py (Found P)
  | .plain s => .ok s
  | .ranked s => .ok s
  | .unsupported => .error .typeError

/-- Loop `local_environment_enumerator.py:486-515`; the entries are looked at one by one, so those
after the last result are not looked at. -/
def transformLoop [LinearOrder K] (l : Lattice P) (dist : P → P → K) (tol : K)
    (order : ActiveSiteOrder σ φ) (full : List (Specie × P)) (localSites variableSites : List Int)
    (counts : Option (List (String × Int))) (maxResults : Int) :
    List (FoundEntry P) → List (Result P) → Py (List (Result P))
  | [], acc => .ok acc
  | e :: es, acc =>
    match entryStructure e with
    | .error err => .error err
    | .ok s =>
      match readFound l dist tol s with
      | .error err => .error err
      | .ok o =>
        match speciesBySite l o variableSites [] with
        | .error err => .error err
        | .ok by' =>
          if !matchesCounts by' counts then
            transformLoop l dist tol order full localSites variableSites counts maxResults es acc
          else
            match build l order full o localSites variableSites by' with
            | .error err => .error err
            | .ok r =>
              if maxResults ≤ ((acc ++ [r]).length : Int) then .ok (acc ++ [r])
              else
                transformLoop l dist tol order full localSites variableSites counts maxResults es
                  (acc ++ [r])

/-- `_iter_transformed_structures`, `local_environment_enumerator.py:562-576`. -/
def foundEntries : Transformed P → Py (List (FoundEntry P))
  | .one s => .ok [.plain s]
  | .many es => .ok es
  | .unsupported => .error .typeError

/-- `_enumerate_with_transformation`, `local_environment_enumerator.py:454-515`. -/
def transformed [LinearOrder K] (l : Lattice P) (dist : P → P → K) (tol : K)
    (order : ActiveSiteOrder σ φ) (full : List (Specie × P)) (base : Occupation)
    (localSites variableSites : List Int) (variableSpecies : Option (List Specie))
    (counts : Option (List (String × Int)))
    (apply : List (List (Specie × ℚ) × P) → Ranked → Py (Transformed P)) (ranked : Ranked)
    (maxResults : Int) : Py (List (Result P)) :=
  match disordered l base variableSites variableSpecies with
  | .error e => .error e
  | .ok d =>
    match apply d (rankedRequest ranked maxResults) with
    | .error e => .error e
    | .ok t =>
      match foundEntries t with
      | .error e => .error e
      | .ok es => transformLoop l dist tol order full localSites variableSites counts maxResults es []

/-- `enumerate_local_environments`, `local_environment_enumerator.py:49-167` with a transformation
and without `exclude_species`. -/
def enumerateTransformed [LinearOrder K] (l : Lattice P) (dist : P → P → K) (tol : K)
    (order : ActiveSiteOrder σ φ) (full : List (Specie × P)) (localSites : List Int)
    (base : Option (Py Occupation)) (speciesCounts : Option (List (Specie × Int)))
    (variableSpecies : Option (List Specie)) (variableSites : Option (List Int))
    (apply : List (List (Specie × ℚ) × P) → Ranked → Py (Transformed P)) (ranked : Ranked)
    (maxResults : Int) : Py (List (Result P)) :=
  if maxResults < 1 then .error .valueError
  else
    match baseOccupation l base with
    | .error e => .error e
    | .ok base =>
      match resolveVariable l localSites variableSites variableSpecies with
      | .error e => .error e
      | .ok vs =>
        let counts := speciesCounts.map fun c => canonicalCounts c []
        if badCounts vs.length counts then .error .valueError
        else transformed l dist tol order full base localSites vs variableSpecies counts apply ranked maxResults

end Enumerator
end KMC
