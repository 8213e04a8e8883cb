import Verif.Model.Enumerator
/-
Model of the labels of enumerated environments and of the records attached to NEB endpoint pairs,
`kmcpy/structure/local_environment_enumerator.py`.
-/
namespace KMC
namespace Enumerator
variable {P σ φ : Type}

/-- The keys of a dictionary in ascending order, `sorted(species_by_site)`,
`local_environment_enumerator.py:783`. -/
def sortedSites (d : List (Int × String)) : List Int :=
  (d.map (·.1)).mergeSort fun a b => decide (a ≤ b)

/-- The text of one site, `local_environment_enumerator.py:782`; the key is one of the dictionary. -/
def siteText (d : List (Int × String)) (i : Int) : String :=
  toString i ++ ":" ++ (dictGet d i).getD ""

/-- `_environment_label`, `local_environment_enumerator.py:778-784`. -/
def environmentLabel (d : List (Int × String)) : String :=
  if d.isEmpty then "base"
  else String.intercalate "|" ((sortedSites d).map (siteText d))

/-- The field `label` of an enumerated environment, `local_environment_enumerator.py:599`. -/
def Result.label (r : Result P) : String := environmentLabel r.speciesBySite

/-- The metadata of an endpoint pair, `local_environment_enumerator.py:275-285`, without the nested
copy of the environment's own metadata (the name of the enumeration method). -/
structure PairRecord where
  mobile : Int × Int
  index : Nat
  label : String
  localSites : List Int
  variableSites : List Int
  speciesBySite : List (Int × String)
  deriving DecidableEq

/-- Loop `local_environment_enumerator.py:266-287` with the metadata; `k` counts the environments. -/
def recordedPairs (l : Lattice P) (order : ActiveSiteOrder σ φ) (full : List (Specie × P))
    (mobile : List Int) : Nat → List (Result P) → Py (List (EndpointPair P × PairRecord))
  | _, [] => .ok []
  | k, r :: rs =>
    match endpointPair l order full (.enumerated r) mobile with
    | .error e => .error e
    | .ok p =>
      match recordedPairs l order full mobile (k + 1) rs with
      | .error e => .error e
      | .ok ps =>
        .ok ((p, ⟨p.mobile, k, r.label, r.localSites, r.variableSites, r.speciesBySite⟩) :: ps)

/-- `enumerate_neb_endpoint_pairs`, `local_environment_enumerator.py:225-287`, with the metadata. -/
def enumerateRecorded (l : Lattice P) (order : ActiveSiteOrder σ φ) (full : List (Specie × P))
    (mobile : List Int) (localSites : List Int) (base : Option (Py Occupation))
    (speciesCounts : Option (List (Specie × Int))) (variableSpecies : Option (List Specie))
    (variableSites : Option (List Int)) (maxResults : Int) :
    Py (List (EndpointPair P × PairRecord)) :=
  match unpack2 mobile with
  | .error e => .error e
  | .ok (f, t) =>
    match enumerate l order full localSites base speciesCounts variableSpecies variableSites maxResults with
    | .error e => .error e
    | .ok rs => recordedPairs l order full [f, t] 0 rs

end Enumerator
end KMC
