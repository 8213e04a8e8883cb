import Mathlib.Data.List.Sort
import Mathlib.Algebra.Group.Prod
import Mathlib.Data.String.Basic
import Verif.Model.ActiveSiteOrder
import Verif.Model.ClusterMatcher
/-
Model of `kmcpy/structure/local_site_order.py`, `kmcpy/structure/local_lattice_structure.py` and the
choice of local sites in `kmcpy/structure/local_environment_enumerator.py`.

Positions are triples over `K`.  `S` is the type of species objects, ordered as pymatgen orders them
(by electronegativity, then symbol).  pymatgen's search in a sphere, the distance of two points and
the conversion of fractional coordinates are parameters.
-/
namespace KMC
namespace LocalSites
variable {S K σ φ : Type}

/-- A point in Cartesian or fractional coordinates. -/
abbrev Point (K : Type) := K × K × K

/-- What the order reads of a site: `species_string`, `specie` and `coords`. -/
structure Site (S K : Type) where
  text : String
  specie : S
  coords : Point K
  deriving DecidableEq

/-- An entry returned by `get_sites_in_sphere(..., include_index=True)`: site, index in the structure
and periodic image (the distance is not used). -/
structure Hit (S K : Type) where
  site : Site S K
  index : Nat
  image : Int × Int × Int
  deriving DecidableEq

/-- `LocalSiteOrder`, `local_site_order.py:30-49`. -/
structure Order (K : Type) where
  name : String
  sortKeys : List String
  excludeCenter : Bool
  tolerance : K
  deriving DecidableEq

/-- `BUILTIN_LOCAL_SITE_ORDERS`, `local_site_order.py:19-28`. -/
def builtinOrders : List (String × (List String × Bool)) :=
  [("kmcpy_default", (["species_string"], false)),
   ("nasicon_nat_commun_2022", (["species", "cartesian_x"], true))]

/-- `from_name`, `local_site_order.py:52-65`; `tol` is the default tolerance 1e-3. -/
def Order.fromName (tol : K) (name : String) : Py (Order K) :=
  match dictGet builtinOrders name with
  | some (keys, excl) => .ok ⟨name, keys, excl, tol⟩
  | none => .error .valueError

/-- The serialised order with the entries that may be absent; `str`, `tuple`, `bool` and `float` of
the entries have been applied. -/
structure OrderDict (K : Type) where
  name : Option String
  sortKeys : Option (List String)
  excludeCenter : Option Bool
  tolerance : Option K
  deriving DecidableEq

/-- The order that supplies absent entries, `local_site_order.py:73-78`. -/
def Order.base (tol : K) (name : String) : Order K :=
  match Order.fromName tol name with
  | .ok o => o
  | .error _ => ⟨name, ["species_string"], false, tol⟩

/-- `from_dict`, `local_site_order.py:68-88`. -/
def Order.fromDict (tol : K) (d : OrderDict K) : Py (Order K) :=
  match d.name with
  | none => .error .valueError
  | some name =>
    let base := Order.base tol name
    .ok ⟨base.name, d.sortKeys.getD base.sortKeys, d.excludeCenter.getD base.excludeCenter,
      d.tolerance.getD base.tolerance⟩

/-- `as_dict`, `local_site_order.py:120-129`, without the class header. -/
def Order.asDict (o : Order K) : OrderDict K :=
  ⟨some o.name, some o.sortKeys, some o.excludeCenter, some o.tolerance⟩

/-- What a user may pass as `local_site_order`. -/
inductive OrderArg (K : Type) where
  | absent
  | object (o : Order K)
  | name (s : String)
  | dict (d : OrderDict K)
  | other

/-- `resolve`, `local_site_order.py:91-107`. -/
def Order.resolve (tol : K) : OrderArg K → Py (Order K)
  | .absent => Order.fromName tol "kmcpy_default"
  | .object o => .ok o
  | .name s => Order.fromName tol s
  | .dict d => Order.fromDict tol d
  | .other => .error .typeError

/-- `with_exclude_center_site`, `local_site_order.py:109-118`. -/
def Order.withExclude (o : Order K) (b : Bool) : Order K := { o with excludeCenter := b }

/-- One component of a sort key. -/
inductive KeyVal (S K : Type) where
  | text (s : String)
  | specie (s : S)
  | number (x : K)
  deriving DecidableEq

/-- One step of `_sort_key`, `local_site_order.py:138-149`. -/
def keyVal (s : Site S K) (key : String) : Py (KeyVal S K) :=
  if key = "species_string" then .ok (.text s.text)
  else if key = "species" then .ok (.specie s.specie)
  else if key = "cartesian_x" then .ok (.number s.coords.1)
  else if key = "cartesian_y" then .ok (.number s.coords.2.1)
  else if key = "cartesian_z" then .ok (.number s.coords.2.2)
  else .error .valueError

/-- `_sort_key`, `local_site_order.py:135-151`. -/
def sortKey (s : Site S K) : List String → Py (List (KeyVal S K))
  | [] => .ok []
  | k :: ks =>
    match keyVal s k with
    | .error e => .error e
    | .ok v =>
      match sortKey s ks with
      | .error e => .error e
      | .ok vs => .ok (v :: vs)

section order
variable [LinearOrder S] [LinearOrder K]

/-- `<` on components.  Components at the same place of two keys have the same kind; the order
between kinds is never used. -/
def KeyVal.lt : KeyVal S K → KeyVal S K → Bool
  | .text a, .text b => decide (a < b)
  | .specie a, .specie b => decide (a < b)
  | .number a, .number b => decide (a < b)
  | .text _, _ => true
  | .specie _, .number _ => true
  | _, _ => false

/-- Comparison of tuples: the first place where they differ decides; a proper prefix is smaller. -/
def keyLe : List (KeyVal S K) → List (KeyVal S K) → Bool
  | [], _ => true
  | _ :: _, [] => false
  | a :: as, b :: bs => if a = b then keyLe as bs else a.lt b

/-- The keys of all elements, computed before sorting. -/
def withKeys {α : Type} (site : α → Site S K) (keys : List String) :
    List α → Py (List (List (KeyVal S K) × α))
  | [] => .ok []
  | a :: as =>
    match sortKey (site a) keys with
    | .error e => .error e
    | .ok k =>
      match withKeys site keys as with
      | .error e => .error e
      | .ok rest => .ok ((k, a) :: rest)

/-- `sorted(items, key=lambda item: order._sort_key(...))`, a stable sort:
`local_site_order.py:131-133` and `local_lattice_structure.py:150-158`. -/
def sortBy {α : Type} (site : α → Site S K) (keys : List String) (l : List α) : Py (List α) :=
  match withKeys site keys l with
  | .error e => .error e
  | .ok ks => .ok ((ks.insertionSort fun a b => keyLe a.1 b.1 = true).map Prod.snd)

/-- `_is_center_site`, `local_lattice_structure.py:138-147` and
`local_environment_enumerator.py:347-357`. -/
def isCenter (dist : Point K → Point K → K) (order : Order K) (centerIndex : Option Int)
    (center : Point K) (h : Hit S K) : Bool :=
  (match centerIndex with
    | some i => decide ((h.index : Int) = i)
    | none => false) || decide (dist h.site.coords center ≤ order.tolerance)

/-- Removal of the centre and sorting, `local_lattice_structure.py:89-96` and
`local_environment_enumerator.py:337-343`. -/
def orderedHits (dist : Point K → Point K → K) (order : Order K) (centerIndex : Option Int)
    (center : Point K) (hits : List (Hit S K)) : Py (List (Hit S K)) :=
  sortBy Hit.site order.sortKeys
    (if order.excludeCenter then hits.filter fun h => !isCenter dist order centerIndex center h else hits)

end order

/-- A site of the given structure: its species, and its position in the home cell.  The name and the
species object are those after `remove_oxidation_states`. -/
structure TemplateSite (σ S K : Type) where
  species : σ
  site : Site S K

/-- The geometry, as pymatgen provides it. -/
structure Geometry (S K : Type) where
  dist : Point K → Point K → K
  toCartesian : Point K → Point K
  sphere : List (Site S K) → Point K → K → List (Hit S K)

/-- What a user may pass as `center`. -/
inductive Center (K : Type) where
  | index (i : Int)
  | point (c : Point K)
  | other

/-- One entry of `ordered_site_signature`, `local_site_order.py:154-167`. -/
structure SiteSignature (K : Type) where
  species : String
  coords : Point K
  deriving DecidableEq

/-- `ordered_site_signature`, `local_site_order.py:154-167`. -/
def signatureOf (round : K → K) (sites : List (Site S K)) : List (SiteSignature K) :=
  sites.map fun s => ⟨s.text, (round s.coords.1, round s.coords.2.1, round s.coords.2.2)⟩

/-- The parts of a `LocalLatticeStructure` set in `__init__`; `hash` is the digest of the
signature. -/
structure LocalEnv (S K H : Type) where
  order : Order K
  siteIndices : List Nat
  sites : List (Site S K)
  signature : List (SiteSignature K)
  hash : H
  deriving DecidableEq

/-- `primitive_to_active`, `active_site_order.py:182-187`. -/
def primitiveToActive (o : ActiveSiteOrder σ φ) : List (Nat × Nat) :=
  o.primitiveActiveIndices.zipIdx.foldl (fun d p => dictSet d p.1 p.2) []

/-- Replacing `center`, `local_lattice_structure.py:57-64`. -/
def activeCenter (o : ActiveSiteOrder σ φ) : Center K → Py (Center K)
  | .index i =>
    match (if i < 0 then none else dictGet (primitiveToActive o) i.toNat) with
    | some a => .ok (.index (a : Int))
    | none => .error .valueError
  | c => .ok c

/-- The order with an explicit treatment of the centre, `local_lattice_structure.py:67-69`. -/
def resolveOrder (tol : K) (arg : OrderArg K) (exclude : Option Bool) : Py (Order K) :=
  match Order.resolve tol arg with
  | .error e => .error e
  | .ok o =>
    match exclude with
    | some b => .ok (o.withExclude b)
    | none => .ok o

/-- The coordinates and the index of the centre, `local_lattice_structure.py:77-90` and
`local_environment_enumerator.py:310-323`; an index is looked up with Python's rules. -/
def resolveCenter (geo : Geometry S K) (sites : List (Site S K)) :
    Center K → Py (Option Int × Point K)
  | .index i =>
    match pyGet sites i with
    | .ok s => .ok (some i, s.coords)
    | .error e => .error e
  | .point c => .ok (none, geo.toCartesian c)
  | .other => .error .valueError

/-- Moving the origin to the centre, `local_lattice_structure.py:107`. -/
def recentre [AddGroup K] (center : Point K) (s : Site S K) : Site S K :=
  { s with coords := s.coords - center }

section build
variable [LinearOrder S] [LinearOrder K] [AddGroup K] {H : Type}

/-- The environment of a list of sites, `local_lattice_structure.py:100-120`;
`Molecule.from_sites` refuses an empty list. -/
def envOf (round : K → K) (digest : List (SiteSignature K) → H) (order : Order K) (center : Point K)
    (hits : List (Hit S K)) : Py (LocalEnv S K H) :=
  if hits.isEmpty then .error .valueError
  else
    let sites := hits.map fun h => recentre center h.site
    .ok ⟨order, hits.map Hit.index, sites, signatureOf round sites, digest (signatureOf round sites)⟩

/-- `LocalLatticeStructure.__init__`, `local_lattice_structure.py:37-120`.  The checks of
`LatticeStructure.__init__` and the optional output files are left out. -/
def localEnvironment (eqv : σ → σ → Bool)
    (fp : Nat → Nat → List Nat → List Nat → List Nat → Nat × Nat × Nat → List σ →
      List (List σ) → φ)
    (geo : Geometry S K) (tol : K) (round : K → K) (digest : List (SiteSignature K) → H)
    (template : List (TemplateSite σ S K)) (mapping : List (σ × List σ)) (center : Center K)
    (cutoff : K) (excludeSpecies : List String) (arg : OrderArg K) (exclude : Option Bool) :
    Py (LocalEnv S K H) :=
  if excludeSpecies ≠ [] then .error .valueError
  else
    match ActiveSiteOrder.fromStructureAndMapping eqv fp (template.map TemplateSite.species) mapping
        none with
    | .error e => .error e
    | .ok o =>
      match activeCenter o center with
      | .error e => .error e
      | .ok c =>
        match ActiveSiteOrder.pickAll (template.map TemplateSite.site) o.activeToOriginal with
        | .error e => .error e
        | .ok sites =>
          match resolveOrder tol arg exclude with
          | .error e => .error e
          | .ok order =>
            match resolveCenter geo sites c with
            | .error e => .error e
            | .ok (ci, cp) =>
              match orderedHits geo.dist order ci cp (geo.sphere sites cp cutoff) with
              | .error e => .error e
              | .ok hits => envOf round digest order cp hits

/-- `_local_site_indices`, `local_environment_enumerator.py:296-344`, for the active sites of a
lattice (its caller passes no excluded species). -/
def localSiteIndices (geo : Geometry S K) (tol : K) (sites : List (Site S K)) (center : Center K)
    (cutoff : K) (arg : OrderArg K) (exclude : Option Bool) : Py (List Nat) :=
  match resolveOrder tol arg exclude with
  | .error e => .error e
  | .ok order =>
    match resolveCenter geo sites center with
    | .error e => .error e
    | .ok (ci, cp) =>
      match orderedHits geo.dist order ci cp (geo.sphere sites cp cutoff) with
      | .error e => .error e
      | .ok hits => .ok (hits.map Hit.index)

end build

/-- `to_cluster`, `local_lattice_structure.py:175-180`: labels are the species names. -/
def LocalEnv.toCluster {H : Type} [Inhabited K] (dist : Point K → Point K → K) (e : LocalEnv S K H) :
    Matcher.Cluster String K where
  labels := e.sites.map Site.text
  dist i j :=
    match e.sites[i]?, e.sites[j]? with
    | some a, some b => dist a.coords b.coords
    | _, _ => default
  siteIndices := e.siteIndices.map fun i => (i : Int)

/-- `match_with_reference`, `local_lattice_structure.py:182-224`. -/
def LocalEnv.matchWithReference {H R : Type} [Field K] [LinearOrder K] [LinearOrder R] [Inhabited K]
    (dist : Point K → Point K → K) (row : Nat → R) (round : K → K)
    (digest : List (SiteSignature K) → H) (rtol atol : K) (e reference : LocalEnv S K H)
    (nearest : Bool) : Py (LocalEnv S K H) :=
  match Matcher.matchClusters row rtol atol (reference.toCluster dist) (e.toCluster dist) false
      nearest with
  | .error er => .error er
  | .ok m =>
    match ActiveSiteOrder.pickAll e.sites m.referenceToCandidate with
    | .error er => .error er
    | .ok sites =>
      match ActiveSiteOrder.pickAll e.siteIndices m.referenceToCandidate with
      | .error er => .error er
      | .ok indices =>
        .ok { e with siteIndices := indices, sites := sites, signature := signatureOf round sites
                     hash := digest (signatureOf round sites) }

/-- `is_equivalent_to`, `local_lattice_structure.py:238-263`. -/
def LocalEnv.isEquivalentTo {H R : Type} [Field K] [LinearOrder K] [LinearOrder R] [Inhabited K]
    (dist : Point K → Point K → K) (row : Nat → R) (rtol atol : K) (e other : LocalEnv S K H) : Py Bool :=
  match Matcher.matchClusters row rtol atol (e.toCluster dist) (other.toCluster dist) false false with
  | .ok _ => .ok true
  | .error .valueError => .ok false
  | .error er => .error er

end LocalSites
end KMC
