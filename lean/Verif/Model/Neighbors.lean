import Mathlib.Order.Defs.LinearOrder
import Mathlib.Algebra.Notation.Defs
import Verif.Model.Py
/-
Model of `kmcpy/structure/neighbors.py`.  Distances are of any linearly ordered type with a zero
(and, for the range tables, the constant `1e3` as `far`).  pymatgen's neighbour search is a
parameter: `sphere r` lists the neighbours of the centre site found within `r`.
-/
namespace KMC
namespace Neighbors
variable {K : Type} [LinearOrder K] [Zero K]

/-- The nested `lookup_dict`. -/
abbrev Table (α : Type) := List (String × List (String × α))

/-- `lookup_dict[a][b] = d` on a `defaultdict(dict)`. -/
def tableSet {α : Type} (t : Table α) (a b : String) (d : α) : Table α :=
  dictSet t a (dictSet ((dictGet t a).getD []) b d)

/-- `lookup_dict.get(a, {}).get(b, default)`. -/
def tableGet {α : Type} (t : Table α) (a b : String) (default : α) : α :=
  match dictGet ((dictGet t a).getD []) b with
  | some d => d
  | none => default

/-- Loop `neighbors.py:23-26`. -/
def cutoffLoop : List ((String × String) × K) → Table K → K → Table K × K
  | [], t, m => (t, m)
  | ((a, b), d) :: rest, t, m => cutoffLoop rest (tableSet (tableSet t a b d) b a d) (max d m)

/-- `prepare_cutoff_neighbor_lookup`, `neighbors.py:16-27`: `lookup_dict` and `max_dist`. -/
def prepareCutoff (cutoffs : Option (List ((String × String) × K))) : Table K × K :=
  cutoffLoop (cutoffs.getD []) [] 0

/-- Result of `prepare_range_cutoff_neighbor_lookup`. -/
structure RangeLookup (K : Type) where
  maxTable : Table K
  minTable : Table K
  maxDist : K
  minDist : K

/-- Loop `neighbors.py:87-93`. -/
def rangeLoop : List ((String × String) × (K × K)) → RangeLookup K → RangeLookup K
  | [], r => r
  | ((a, b), (lo, hi)) :: rest, r =>
    rangeLoop rest
      ⟨tableSet (tableSet r.maxTable a b hi) b a hi, tableSet (tableSet r.minTable a b lo) b a lo,
        max hi r.maxDist, min lo r.minDist⟩

/-- `prepare_range_cutoff_neighbor_lookup`, `neighbors.py:77-99`. -/
def prepareRange (far : K) (cutoffs : Option (List ((String × String) × (K × K)))) : RangeLookup K :=
  rangeLoop (cutoffs.getD []) ⟨[], [], 0, far⟩

/-- A neighbour as pymatgen returns it: its species string, distance, periodic image, index in the
structure and site properties. -/
structure Neighbor (K V : Type) where
  species : String
  distance : K
  image : Int × Int × Int
  siteIndex : Nat
  properties : List (String × V)
  deriving DecidableEq

/-- The neighbour dictionary: base information and the copied site metadata. -/
structure Info (K V : Type) where
  site : Neighbor K V
  image : Int × Int × Int
  weight : K
  siteIndex : Nat
  metadata : List (String × V)
  deriving DecidableEq

variable {V : Type}

/-- `neighbor.properties[key]` for the listed keys. -/
def copyKeys (props : List (String × V)) : List String → Py (List (String × V))
  | [] => .ok []
  | k :: ks =>
    match dictGet props k with
    | none => .error .keyError
    | some v =>
      match copyKeys props ks with
      | .error e => .error e
      | .ok m => .ok ((k, v) :: m)

/-- `_neighbor_base_info` and `_copy_kmc_site_metadata`, `neighbors.py:30-50`; `names` are the site
properties of the structure. -/
def infoOf (names : List String) (n : Neighbor K V) : Py (Info K V) :=
  if !names.contains "wyckoff_sequence" then .ok ⟨n, n.image, n.distance, n.siteIndex, []⟩
  else
    match copyKeys n.properties (["wyckoff_sequence", "local_index", "label"] ++
      if names.contains "supercell" then ["supercell"] else []) with
    | .error e => .error e
    | .ok m => .ok ⟨n, n.image, n.distance, n.siteIndex, m⟩

/-- The loop over the neighbours, `neighbors.py:63-74` and `neighbors.py:111-127`, with the
acceptance test as a parameter. -/
def collect (names : List String) (accept : Neighbor K V → Bool) : List (Neighbor K V) → Py (List (Info K V))
  | [] => .ok []
  | n :: ns =>
    if accept n then
      match infoOf names n with
      | .error e => .error e
      | .ok i =>
        match collect names accept ns with
        | .error e => .error e
        | .ok is => .ok (i :: is)
    else collect names accept ns

/-- `get_cutoff_neighbor_info`, `neighbors.py:53-74`, for a centre site of species `centre`. -/
def cutoffInfo (names : List String) (sphere : K → List (Neighbor K V)) (centre : String)
    (lookup : Table K × K) : Py (List (Info K V)) :=
  collect names (fun n => decide (n.distance < tableGet lookup.1 centre n.species 0)) (sphere lookup.2)

/-- `get_range_cutoff_neighbor_info`, `neighbors.py:102-127`. -/
def rangeInfo (names : List String) (sphere : K → List (Neighbor K V)) (centre : String)
    (lookup : RangeLookup K) : Py (List (Info K V)) :=
  collect names (fun n => decide (tableGet lookup.minTable centre n.species 0 < n.distance) &&
    decide (n.distance < tableGet lookup.maxTable centre n.species 0)) (sphere lookup.maxDist)

/-- `prepare_range_cutoff_neighbor_lookup_from_preset`, `neighbors.py:130-135`; `table` is the
content of the YAML file. -/
def preset (far : K) (table : List ((String × String) × (K × K))) (name : String) : Py (RangeLookup K) :=
  if name = "vesta_2019" then .ok (prepareRange far (some table)) else .error .valueError

end Neighbors
end KMC
