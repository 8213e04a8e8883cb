import Verif.Model.Generator
import Verif.Model.Neighbors
import Verif.Model.LocalSites
/-
Model of how `EventGenerator.generate_events` turns what the user passes into origins, targets and
neighbour lists: `kmcpy/event/generators.py:46-240`, `307-319`, `360-420`.

Text is compared after `str()`.  `upper` and `\d` are taken for ASCII characters.  Reading the CIF file, guessing
oxidation states and parsing species names are parameters.
-/
namespace KMC
namespace Generate

/-- What a user may pass as an identifier: a text, another object that is not iterable (its text), or
a list or tuple. -/
inductive Ident where
  | text (s : String)
  | other (s : String)
  | group (members : List Ident)

/-- `str(value)`; `render` is the text of a list. -/
def Ident.str (render : List Ident → String) : Ident → String
  | .text s => s
  | .other s => s
  | .group l => render l

/-- `_to_identifier_list`, `generators.py:57-62`. -/
def Ident.list (render : List Ident → String) : Ident → List String
  | .text s => [s]
  | .other s => [s]
  | .group l => l.map (Ident.str render)

mutual
/-- `_flatten_identifier_tokens`, `generators.py:65-73`. -/
def Ident.flatten : Ident → List String
  | .text s => [s]
  | .other s => [s]
  | .group l => Ident.flattenAll l
/-- The loop of `_flatten_identifier_tokens`. -/
def Ident.flattenAll : List Ident → List String
  | [] => []
  | i :: is => i.flatten ++ Ident.flattenAll is
end

/-- `_mobile_species_from_site_mapping`, `generators.py:82-96`; keys and allowed species as text. -/
def mobileSpecies (mapping : List (String × List String)) : Py Ident :=
  let found := mapping.filter fun kv =>
    let upper := kv.2.map String.toUpper
    upper.contains "X" || upper.contains "VACANCY"
  if found.isEmpty then .error .valueError
  else .ok (.group (found.map fun kv => .text kv.1))

/-- `(?:\d+[+-]|[+-])` for the whole text. -/
def isCharge : List Char → Bool
  | [] => false
  | [c] => c = '+' || c = '-'
  | c :: rest => c.isDigit && isCharge rest

/-- The group of `re.fullmatch(r"([A-Z][a-z]?)(?:\d+[+-]|[+-])", token)`, `generators.py:101`. -/
def chargedSymbol (token : String) : Option String :=
  match token.toList with
  | a :: b :: rest =>
    if a.isUpper && b.isLower && isCharge rest then some (String.ofList [a, b])
    else if a.isUpper && isCharge (b :: rest) then some (String.ofList [a])
    else none
  | _ => none

/-- `_species_token_variants`, `generators.py:99-104`. -/
def variants (token : String) : List String :=
  token :: (chargedSymbol token).toList

/-- The two ways of selecting sites. -/
inductive Kind where
  | species
  | label
  deriving DecidableEq

/-- `_infer_site_selection_kind`, `generators.py:107-123`. -/
def inferKind (identifiers mobile : Ident) : Kind :=
  let known := mobile.flatten.flatMap variants
  let tokens := identifiers.flatten
  if !tokens.isEmpty && tokens.all fun t => (variants t).any known.contains then .species else .label

section
variable {σ : Type}

/-- `_site_matches_species_identifier`, `_site_matches_label_identifier` and `_is_valid_target_site`,
`generators.py:126-158`, `307-319`, also used by `find_atom_indices`, `553-600`.  `tokens` are the
names of a species: its text, symbol and element. -/
def accepts (render : List Ident → String) (tokens : σ → List String) (kind : Kind) (i : Ident)
    (s : LabeledSite σ) : Bool :=
  match kind with
  | .species => (tokens s.species).any (i.list render).contains
  | .label => (i.list render).contains s.label

/-- `sorted(set(...))`. -/
def sortedSet (l : List String) : List String := l.dedup.insertionSort (· ≤ ·)

/-- `_build_uniform_cutoff_dict`, `generators.py:161-184`; `name` is `species_string`.  The dictionary
is built in one pass over pairs, so the last entry for a pair counts; all values are equal. -/
def uniformCutoffs {K : Type} (render : List Ident → String) (name : σ → String)
    (tokens : σ → List String) (cell : List (LabeledSite σ)) (mobile : Ident) (cutoff : K) :
    Py (List ((String × String) × K)) :=
  let all := sortedSet (cell.map fun s => name s.species)
  let moving := sortedSet ((cell.filter (accepts render tokens .species mobile)).map fun s => name s.species)
  if moving.isEmpty then .error .valueError
  else .ok (moving.flatMap fun m => all.map fun n => ((m, n), cutoff))

/-- The arguments of `generate_events` that select sites; absent ones are `none`. -/
structure Args (K : Type) where
  cutoffs : Option (List ((String × String) × K))
  identifiers : Option Ident
  mobile : Option Ident
  mapping : Option (List (String × List String))
  cutoff : Option K
  shape : Option (List Int)

/-- What `_normalize_generate_events_inputs` returns. -/
structure Inputs (K : Type) where
  kind : Kind
  identifiers : Ident
  mobile : Ident
  mapping : List (String × List String)
  shape : List Int
  cutoffs : Option (List ((String × String) × K))
  cutoff : Option K

/-- `mobile_species`, inferred when absent, `generators.py:213-214`. -/
def mobileFor (given : Option Ident) (mapping : List (String × List String)) : Py Ident :=
  match given with
  | some m => .ok m
  | none => mobileSpecies mapping

/-- `_normalize_generate_events_inputs`, `generators.py:186-240`; `four` is the default cutoff.  The
tolerances are passed on unchanged. -/
def normalize {K : Type} (four : K) (a : Args K) : Py (Inputs K) :=
  match a.mapping with
  | none => .error .valueError
  | some mapping =>
    match mobileFor a.mobile mapping with
    | .error e => .error e
    | .ok mobile =>
      .ok
        { kind := match a.identifiers with
            | none => .species
            | some i => inferKind i mobile
          identifiers := a.identifiers.getD (.group [mobile, mobile])
          mobile := mobile
          mapping := mapping
          shape := a.shape.getD [2, 1, 1]
          cutoffs := a.cutoffs
          cutoff := if a.cutoff.isNone && a.cutoffs.isNone then some four else a.cutoff }

/-- `len(mobile_ion_identifiers) != 2` and the two members, `generators.py:379-382`. -/
def pair : Ident → Py (Ident × Ident)
  | .group [a, b] => .ok (a, b)
  | .group _ => .error .valueError
  | .text s =>
    match s.toList with
    | [a, b] => .ok (.text (String.ofList [a]), .text (String.ofList [b]))
    | _ => .error .valueError
  | .other _ => .error .typeError

/-- `local_env_cutoff or 4.0`, which replaces zero, `generators.py:404`. -/
def orDefault {K : Type} [Zero K] [DecidableEq K] (four : K) : Option K → K
  | some c => if c = 0 then four else c
  | none => four

/-- The cutoff table, `generators.py:400-405`. -/
def cutoffsFor {K : Type} [Zero K] [DecidableEq K] (four : K) (render : List Ident → String)
    (name : σ → String) (tokens : σ → List String) (cell : List (LabeledSite σ)) (i : Inputs K) :
    Py (List ((String × String) × K)) :=
  match i.cutoffs with
  | some d => .ok d
  | none =>
    uniformCutoffs render name tokens cell i.mobile (orDefault four i.cutoff)

end

section
variable {σ φ S K R : Type} [LinearOrder S] [Field K] [LinearOrder K] [LinearOrder R]

/-- The neighbours of site `p`, `generators.py:427-433`: `get_cutoff_neighbor_info` (the metadata are
fields of the neighbour here) and `sort_neighbor_info`, whose keys are always known.  `search cell p r`
lists neighbours of site `p` with their distances. -/
def neighborList (name : σ → String)
    (search : List (LabeledSite σ) → Nat → K → List (K × Neighbor (LocalSites.Site S K)))
    (cell : List (LabeledSite σ)) (lookup : Neighbors.Table K × K) (p : Nat) :
    List (Neighbor (LocalSites.Site S K)) :=
  match cell[p]? with
  | none => []
  | some c =>
    match LocalSites.sortBy Neighbor.payload ["species", "cartesian_x"]
        (((search cell p lookup.2).filter fun x =>
          decide (x.1 < Neighbors.tableGet lookup.1 (name c.species) x.2.payload.text 0)).map Prod.snd) with
    | .ok l => l
    | .error _ => []

/-- `Cluster.from_neighbor_info`, `cluster.py:284-303`; the site indices are not used by the
generator. -/
def clusterOf (dist : LocalSites.Point K → LocalSites.Point K → K)
    (l : List (Neighbor (LocalSites.Site S K))) : Matcher.Cluster String K where
  labels := l.map fun n => n.payload.text
  dist i j :=
    match l[i]?, l[j]? with
    | some a, some b => dist a.payload.coords b.payload.coords
    | _, _ => 0
  siteIndices := l.map fun n => n.localIndex

/-- The matcher of `_match_or_register_local_environment`, `generators.py:266-280`. -/
def matcherOf (dist : LocalSites.Point K → LocalSites.Point K → K)
    (row : Matcher.Cluster String K → Nat → R) (rtol atol : K) (nearest : Bool)
    (ref nbrs : List (Neighbor (LocalSites.Site S K))) : Py (List Nat) :=
  match Matcher.matchClusters (row (clusterOf dist ref)) rtol atol (clusterOf dist ref)
      (clusterOf dist nbrs) false nearest with
  | .error e => .error e
  | .ok m => .ok m.referenceToCandidate

/-- `_neighbor_species_signature`, `generators.py:47-54`. -/
def speciesSignature (l : List (Neighbor (LocalSites.Site S K))) : List (String × Nat) :=
  Matcher.signature (l.map fun n => n.payload.text)

/-- `generate_events`, `generators.py:321-549`, from the user's arguments: `template` are the labelled
sites of the file, `parse` turns names of the mapping into species. -/
def generate (eqv : σ → σ → Bool)
    (fp : Nat → Nat → List Nat → List Nat → List Nat → Nat × Nat × Nat → List σ →
      List (List σ) → φ)
    (render : List Ident → String) (name : σ → String) (tokens : σ → List String) (parse : String → σ)
    (dist : LocalSites.Point K → LocalSites.Point K → K) (row : Matcher.Cluster String K → Nat → R)
    (search : List (LabeledSite σ) → Nat → K → List (K × Neighbor (LocalSites.Site S K)))
    (four rtol atol : K) (nearest : Bool) (template : List (LabeledSite σ)) (a : Args K) :
    Py (EventLib σ φ) :=
  match normalize four a with
  | .error e => .error e
  | .ok i =>
    match pair i.identifiers with
    | .error e => .error e
    | .ok (origin, target) =>
      let mapping := i.mapping.map fun kv => (parse kv.1, kv.2.map parse)
      match ActiveSiteOrder.fromStructureAndMapping eqv fp (template.map LabeledSite.species) mapping
          none with
      | .error e => .error e
      | .ok prim =>
        match prim.activeStructure template with
        | .error e => .error e
        | .ok active =>
          match cutoffsFor four render name tokens (active.map Prod.fst) i with
          | .error e => .error e
          | .ok cutoffs =>
            generateEvents eqv fp speciesSignature (matcherOf dist row rtol atol nearest)
              (neighborList name search (active.map Prod.fst) (Neighbors.prepareCutoff (some cutoffs)))
              (accepts render tokens i.kind origin) (accepts render tokens i.kind target) template
              mapping (some i.shape)

end
end Generate
end KMC
