import Verif.Model.ActiveSiteOrder
import Verif.Model.ClusterMatcher
import Verif.Model.Lattice
/-
Model of `kmcpy/structure/local_environment_enumerator.py`: the Cartesian-product enumeration and
the NEB endpoints.  The enumeration through a pymatgen transformation (`transformation=`) is in
`Model/EnumeratorTransform`.

`l` is the active lattice structure, `order` the active-site order, `full` the sites of the full
supercell (species and position).  The local site indices (pymatgen's sphere search and the local
site order, 296-364) and the base occupation read from a base structure (`Lattice.getOcc`) are
arguments.
-/
namespace KMC
namespace Enumerator
variable {P σ φ : Type}

/-- `LocalEnvironmentEnumeration`, `local_environment_enumerator.py:24-35`, without the label and
the metadata. -/
structure Result (P : Type) where
  atoms : List (Specie × P)
  fullOccupation : Occupation
  localOccupation : Occupation
  localSites : List Int
  variableSites : List Int
  speciesBySite : List (Int × String)
  deriving DecidableEq

/-- `_species_matches_token`, `local_environment_enumerator.py:796-797`. -/
def matchesToken (s token : Specie) : Bool := s.tokens.contains token.label

/-- The filter `local_environment_enumerator.py:442-448`. -/
def selectChoices (variableSpecies : Option (List Specie)) (allowed : List Specie) : List Specie :=
  match variableSpecies with
  | none => allowed
  | some ts => allowed.filter fun s => ts.any fun t => matchesToken s t

/-- `_allowed_choices`, `local_environment_enumerator.py:432-451`, with `_validate_site_index`
(787-789). -/
def allowedChoices (l : Lattice P) (i : Int) (variableSpecies : Option (List Specie)) :
    Py (List Specie) :=
  if i < 0 ∨ (l.template.length : Int) ≤ i then .error .indexError
  else
    match pyGet l.allowed i with
    | .error e => .error e
    | .ok none => .error .valueError
    | .ok (some []) => .error .valueError
    | .ok (some (s :: ss)) =>
      match selectChoices variableSpecies (s :: ss) with
      | [] => .error .valueError
      | c :: cs => .ok (c :: cs)

/-- Loop `local_environment_enumerator.py:412-413`. -/
def checkGiven (l : Lattice P) (variableSpecies : Option (List Specie)) : List Int → Py Unit
  | [] => .ok ()
  | i :: is =>
    match allowedChoices l i variableSpecies with
    | .error e => .error e
    | .ok _ => checkGiven l variableSpecies is

/-- Loop `local_environment_enumerator.py:416-429`.  A site with several allowed species raises
`ValueError` only when none of them is a variable species, and is then skipped. -/
def autoVariable (l : Lattice P) (variableSpecies : Option (List Specie)) : List Int → Py (List Int)
  | [] => .ok []
  | i :: is =>
    match pyGet l.allowed i with
    | .error e => .error e
    | .ok none => autoVariable l variableSpecies is
    | .ok (some al) =>
      if al.length ≤ 1 then autoVariable l variableSpecies is
      else
        match allowedChoices l i variableSpecies with
        | .error .valueError =>
          if variableSpecies.isSome then autoVariable l variableSpecies is else .error .valueError
        | .error e => .error e
        | .ok cs =>
          match autoVariable l variableSpecies is with
          | .error e => .error e
          | .ok vs => .ok (if 1 < cs.length then i :: vs else vs)

/-- `_resolve_variable_site_indices`, `local_environment_enumerator.py:398-429`. -/
def resolveVariable (l : Lattice P) (localSites : List Int) (given : Option (List Int))
    (variableSpecies : Option (List Specie)) : Py (List Int) :=
  match given with
  | some is =>
    if is.any fun i => !(localSites.contains i) then .error .valueError
    else
      match checkGiven l variableSpecies is with
      | .error e => .error e
      | .ok () => .ok is
  | none => autoVariable l variableSpecies localSites

/-- `_canonical_counts`, `local_environment_enumerator.py:772-775`. -/
def canonicalCounts : List (Specie × Int) → List (String × Int) → List (String × Int)
  | [], acc => acc
  | (k, n) :: rest, acc => canonicalCounts rest (dictSet acc k.label n)

/-- `Counter(values) == counts`, `local_environment_enumerator.py:769`: a comparison of
dictionaries (`Counter.__eq__` defers to `dict.__eq__` for a plain dictionary). -/
def counterEq (labels : List String) (counts : List (String × Int)) : Bool :=
  let c := Matcher.countLabels labels []
  decide (c.length = counts.length) && c.all fun p => decide (dictGet counts p.1 = some (p.2 : Int))

/-- `_matches_counts`, `local_environment_enumerator.py:763-769`. -/
def matchesCounts (speciesBySite : List (Int × String)) : Option (List (String × Int)) → Bool
  | none => true
  | some counts => counterEq (speciesBySite.map (·.2)) counts

/-- The dictionary `local_environment_enumerator.py:138-141`. -/
def bySite : List (Int × Specie) → List (Int × String) → List (Int × String)
  | [], acc => acc
  | (i, s) :: rest, acc => bySite rest (dictSet acc i s.label)

/-- Loop `local_environment_enumerator.py:145-151`. -/
def writeChoices (l : Lattice P) : List (Int × Specie) → Occupation → Py Occupation
  | [], o => .ok o
  | (i, s) :: rest, o =>
    match pyGet l.allowed i with
    | .error e => .error e
    | .ok al =>
      match Lattice.occupationValue l.basis al s with
      | .error e => .error e
      | .ok v =>
        match o.setItem i v with
        | (.error e, _) => .error e
        | (.ok (), o') => writeChoices l rest o'

/-- `species_for_occupation_value(site, occupation[site])`, e.g.
`local_environment_enumerator.py:671-673`. -/
def speciesOn (l : Lattice P) (o : Occupation) (a : Nat) : Py Specie :=
  match o.getItem (a : Int) with
  | .error e => .error e
  | .ok v =>
    match pyGet l.allowed (a : Int) with
    | .error e => .error e
    | .ok al => Lattice.speciesFor l.basis al v

/-- Loop of `_structure_from_active_occupation`, `local_environment_enumerator.py:666-676`, from
site `i` on. -/
def atomsFrom (l : Lattice P) (order : ActiveSiteOrder σ φ) (o : Occupation) :
    Nat → List (Specie × P) → Py (List (Specie × P))
  | _, [] => .ok []
  | i, (s, p) :: rest =>
    match dictGet order.originalToActive i with
    | none =>
      match atomsFrom l order o (i + 1) rest with
      | .error e => .error e
      | .ok as => .ok ((s, p) :: as)
    | some a =>
      match speciesOn l o a with
      | .error e => .error e
      | .ok sp =>
        match atomsFrom l order o (i + 1) rest with
        | .error e => .error e
        | .ok as => .ok (if sp.isVacancy then as else (sp, p) :: as)

/-- `_build_enumeration`, `local_environment_enumerator.py:579-601`; pymatgen's `from_sites` (676)
refuses a structure without sites. -/
def build (l : Lattice P) (order : ActiveSiteOrder σ φ) (full : List (Specie × P)) (o : Occupation)
    (localSites variableSites : List Int) (by' : List (Int × String)) : Py (Result P) :=
  match o.getItems localSites with
  | .error e => .error e
  | .ok lo =>
    match atomsFrom l order o 0 full with
    | .error e => .error e
    | .ok as => if as.isEmpty then .error .valueError else .ok ⟨as, o, lo, localSites, variableSites, by'⟩

/-- The body of the loop `local_environment_enumerator.py:145-163` for choices that match. -/
def buildChoice (l : Lattice P) (order : ActiveSiteOrder σ φ) (full : List (Specie × P))
    (base : Occupation) (localSites variableSites : List Int) (choices : List Specie) : Py (Result P) :=
  match writeChoices l (variableSites.zip choices) base with
  | .error e => .error e
  | .ok o =>
    build l order full o localSites variableSites (bySite (variableSites.zip choices) [])

/-- Loop `local_environment_enumerator.py:137-165`. -/
def enumLoop (l : Lattice P) (order : ActiveSiteOrder σ φ) (full : List (Specie × P))
    (base : Occupation) (localSites variableSites : List Int)
    (counts : Option (List (String × Int))) (maxResults : Int) :
    List (List Specie) → List (Result P) → Py (List (Result P))
  | [], acc => .ok acc
  | c :: cs, acc =>
    if !matchesCounts (bySite (variableSites.zip c) []) counts then
      enumLoop l order full base localSites variableSites counts maxResults cs acc
    else
      match buildChoice l order full base localSites variableSites c with
      | .error e => .error e
      | .ok r =>
        if maxResults ≤ ((acc ++ [r]).length : Int) then .ok (acc ++ [r])
        else enumLoop l order full base localSites variableSites counts maxResults cs (acc ++ [r])

/-- The dictionary `local_environment_enumerator.py:128-135`, as the list of its values in the
order of the variable sites. -/
def choicesBySite (l : Lattice P) (variableSpecies : Option (List Specie)) :
    List Int → Py (List (List Specie))
  | [] => .ok []
  | i :: is =>
    match allowedChoices l i variableSpecies with
    | .error e => .error e
    | .ok cs =>
      match choicesBySite l variableSpecies is with
      | .error e => .error e
      | .ok css => .ok (cs :: css)

/-- `_base_occupation`, `local_environment_enumerator.py:374-395`: `none` is the case without a base
structure. -/
def baseOccupation (l : Lattice P) : Option (Py Occupation) → Py Occupation
  | some o => o
  | none => .ok ⟨l.basis, List.replicate l.template.length l.basis.matchValue⟩

/-- The check `local_environment_enumerator.py:106-109` fails. -/
def badCounts (n : Nat) : Option (List (String × Int)) → Bool
  | some c => decide ((c.map (·.2)).sum ≠ (n : Int))
  | none => false

/-- `enumerate_local_environments`, `local_environment_enumerator.py:49-167` without a
transformation and without `exclude_species`. -/
def enumerate (l : Lattice P) (order : ActiveSiteOrder σ φ) (full : List (Specie × P))
    (localSites : List Int) (base : Option (Py Occupation))
    (speciesCounts : Option (List (Specie × Int))) (variableSpecies : Option (List Specie))
    (variableSites : Option (List Int)) (maxResults : Int) : Py (List (Result P)) :=
  if maxResults < 1 then .error .valueError
  else
    match baseOccupation l base with
    | .error e => .error e
    | .ok base =>
      match resolveVariable l localSites variableSites variableSpecies with
      | .error e => .error e
      | .ok vs =>
        let counts := speciesCounts.map fun c => canonicalCounts c []
        if badCounts vs.length counts then .error .valueError
        else
          match choicesBySite l variableSpecies vs with
          | .error e => .error e
          | .ok css =>
            enumLoop l order full base localSites vs counts maxResults (productLists css) []

/-! ### NEB endpoints -/

/-- `NEBEndpointPair`, `local_environment_enumerator.py:38-46` without the metadata. -/
structure EndpointPair (P : Type) where
  initial : List (Specie × P)
  final : List (Specie × P)
  initialOccupation : Occupation
  finalOccupation : Occupation
  mobile : Int × Int
  deriving DecidableEq

/-- What may be given as the environment: an enumeration result or plain values (an `Occupation`
is used through its data), `local_environment_enumerator.py:704-717`. -/
inductive Environment (P : Type) where
  | enumerated (r : Result P)
  | values (vs : List Int)

/-- `_occupation_from_local_environment_enumeration`, `local_environment_enumerator.py:704-717`. -/
def environmentOccupation (l : Lattice P) (order : ActiveSiteOrder σ φ) : Environment P → Py Occupation
  | .enumerated r => .ok r.fullOccupation
  | .values vs =>
    match order.selectActiveValues vs with
    | .error e => .error e
    | .ok vs => Occupation.mk' vs l.basis true

/-- `_first_allowed_species`, `local_environment_enumerator.py:756-760`. -/
def firstAllowed (l : Lattice P) (i : Int) : Py Specie :=
  match pyGet l.allowed i with
  | .error e => .error e
  | .ok none => .error .valueError
  | .ok (some []) => .error .valueError
  | .ok (some (s :: _)) => .ok s

/-- `_species_equivalent`, `local_environment_enumerator.py:792-793`. -/
def sameSpecies (a b : Specie) : Bool := b.tokens.any fun t => matchesToken a (.ofText t)

/-- The atom of the final structure for an occupied active site `a`,
`local_environment_enumerator.py:634-643`. -/
def movedAtom (l : Lattice P) (all : List (Specie × P)) (o' : Occupation)
    (fromSite toSite toOriginal a : Nat) (p : P) : Py (Specie × P) :=
  if a = fromSite then
    match pyGet all (toOriginal : Int) with
    | .error e => .error e
    | .ok site =>
      match speciesOn l o' toSite with
      | .error e => .error e
      | .ok sp' => .ok (sp', site.2)
  else
    match speciesOn l o' a with
    | .error e => .error e
    | .ok sp' => .ok (sp', p)

/-- Loop of `_ordered_endpoint_structures`, `local_environment_enumerator.py:620-650`, from site `i`
on; `all` are the sites of the full structure, `toOriginal` the original index of the target. -/
def endpointsFrom (l : Lattice P) (order : ActiveSiteOrder σ φ) (all : List (Specie × P))
    (o o' : Occupation) (fromSite toSite toOriginal : Nat) :
    Nat → List (Specie × P) → Py (List (Specie × P) × List (Specie × P))
  | _, [] => .ok ([], [])
  | i, (s, p) :: rest =>
    match dictGet order.originalToActive i with
    | none =>
      match endpointsFrom l order all o o' fromSite toSite toOriginal (i + 1) rest with
      | .error e => .error e
      | .ok (as, bs) => .ok ((s, p) :: as, (s, p) :: bs)
    | some a =>
      match speciesOn l o a with
      | .error e => .error e
      | .ok sp =>
        if sp.isVacancy then endpointsFrom l order all o o' fromSite toSite toOriginal (i + 1) rest
        else
          match movedAtom l all o' fromSite toSite toOriginal a p with
          | .error e => .error e
          | .ok (sp', p') =>
            if sp'.isVacancy then .error .valueError
            else
              match endpointsFrom l order all o o' fromSite toSite toOriginal (i + 1) rest with
              | .error e => .error e
              | .ok (as, bs) => .ok ((sp, p) :: as, (sp', p') :: bs)

/-- `_ordered_endpoint_structures`, `local_environment_enumerator.py:604-654` (the lengths compared
at 652-653 are always equal; the structures always hold the moving atom, so pymatgen's refusal of
empty structures does not arise). -/
def endpoints (l : Lattice P) (order : ActiveSiteOrder σ φ) (full : List (Specie × P))
    (o o' : Occupation) (fromSite toSite : Nat) : Py (List (Specie × P) × List (Specie × P)) :=
  match order.activeToOriginal[fromSite]?, order.activeToOriginal[toSite]? with
  | some _, some toOriginal => endpointsFrom l order full o o' fromSite toSite toOriginal 0 full
  | _, _ => .error .indexError

/-- `generate_neb_endpoint_pair`, `local_environment_enumerator.py:170-222`. -/
def endpointPair (l : Lattice P) (order : ActiveSiteOrder σ φ) (full : List (Specie × P))
    (env : Environment P) (mobile : List Int) : Py (EndpointPair P) :=
  match unpack2 mobile with
  | .error e => .error e
  | .ok (f, t) =>
    match order.validateActiveIndices [f, t] with
    | .error e => .error e
    | .ok () =>
      if f = t then .error .valueError
      else
        match environmentOccupation l order env with
        | .error e => .error e
        | .ok o =>
          if o.data.length ≠ order.activeSiteCount then .error .valueError
          else
            match firstAllowed l f, firstAllowed l t with
            | .error e, _ => .error e
            | _, .error e => .error e
            | .ok sf, .ok st =>
              if sf.isVacancy || st.isVacancy then .error .valueError
              else if !sameSpecies sf st then .error .valueError
              else
                match o.setItem f l.basis.matchValue with
                | (.error e, _) => .error e
                | (.ok (), o1) =>
                  match o1.setItem t l.basis.mismatchValue with
                  | (.error e, _) => .error e
                  | (.ok (), o2) =>
                    match o2.flip [f, t] with
                    | .error e => .error e
                    | .ok o3 =>
                      match endpoints l order full o2 o3 f.toNat t.toNat with
                      | .error e => .error e
                      | .ok (as, bs) => .ok ⟨as, bs, o2, o3, (f, t)⟩

/-- Loop `local_environment_enumerator.py:266-287`. -/
def endpointPairs (l : Lattice P) (order : ActiveSiteOrder σ φ) (full : List (Specie × P))
    (mobile : List Int) : List (Result P) → Py (List (EndpointPair P))
  | [] => .ok []
  | r :: rs =>
    match endpointPair l order full (.enumerated r) mobile with
    | .error e => .error e
    | .ok p =>
      match endpointPairs l order full mobile rs with
      | .error e => .error e
      | .ok ps => .ok (p :: ps)

/-- `enumerate_neb_endpoint_pairs`, `local_environment_enumerator.py:225-287`. -/
def enumeratePairs (l : Lattice P) (order : ActiveSiteOrder σ φ) (full : List (Specie × P))
    (mobile : List Int) (localSites : List Int) (base : Option (Py Occupation))
    (speciesCounts : Option (List (Specie × Int))) (variableSpecies : Option (List Specie))
    (variableSites : Option (List Int)) (maxResults : Int) : Py (List (EndpointPair P)) :=
  match unpack2 mobile with
  | .error e => .error e
  | .ok (f, t) =>
    match enumerate l order full localSites base speciesCounts variableSpecies variableSites maxResults with
    | .error e => .error e
    | .ok rs => endpointPairs l order full [f, t] rs

end Enumerator
end KMC
