import Mathlib.Data.Prod.Lex
import Mathlib.Data.String.Basic
import Verif.Model.ClusterMatcher
import Verif.Model.ModelFile
/-
Model of what a cluster of local sites is compared by: `kmcpy/structure/cluster.py` with positions.  This
fills in the geometry that `Model/LCE` leaves open (largest distance, comparison, fingerprint).
-/
namespace KMC
namespace ModelFile
variable {P D R : Type}

/-- The entry `distance_matrix[i, j]`. -/
def entry [Zero D] (m : List (List D)) (i j : Nat) : D := ((m[i]?.bind fun r => r[j]?)).getD 0

/-- What `ClusterMatcher` reads of a cluster: `labels` (species and role, compared as tuples),
`cluster.py:304-307`, the distance matrix and the site indices. -/
def Cluster.view [Zero D] (c : Cluster P D) : Matcher.Cluster (String ×ₗ String) D where
  labels := (c.species.zip c.roles).map toLex
  dist := entry c.matrix
  siteIndices := c.siteIndices

/-- The list comprehension of `get_bond_distances`, `cluster.py:357-361`: the entries of the matrix at
all pairs `i < j`. -/
def pairDistances [Zero D] (m : List (List D)) : List D :=
  (combinations (List.range m.length) 2).map fun p =>
    match p with
    | [i, j] => entry m i j
    | _ => 0

/-- `get_bond_distances`, `cluster.py:353-363`: largest, smallest and sorted distances. -/
def Cluster.bondDistances [Zero D] [LinearOrder D] (c : Cluster P D) : D × D × List D :=
  if c.matrix.length ≤ 1 then (0, 0, [])
  else
    let ds := (pairDistances c.matrix).mergeSort fun a b => a ≤ b
    (ds.max?.getD 0, ds.min?.getD 0, ds)

/-- Whether `ClusterMatcher(a).match(b)` succeeds, `cluster.py:380-384`; `row` gives, from the
distance matrix of the first cluster, the sorted and rounded distances of every site (`cluster.py:550`). -/
def Cluster.matchesCluster [Field D] [LinearOrder D] [LinearOrder R] (row : List (List D) → Nat → R)
    (a b : Cluster P D) : Bool :=
  match Matcher.matchClusters (row a.matrix) (1 / 1000) (1 / 1000) a.view b.view false false with
  | .ok _ => true
  | .error _ => false

/-- One entry of `cluster_records`, `cluster.py:137-144`. -/
structure OrbitRecord (D : Type) where
  siteIndices : List Int
  labels : List (String × String)
  distances : List (List D)
  deriving DecidableEq

/-- The record of one cluster, `cluster.py:137-144`; `round` is rounding to 8 decimals. -/
def Cluster.record (round : D → D) (c : Cluster P D) : OrbitRecord D :=
  ⟨c.siteIndices, c.species.zip c.roles, c.matrix.map fun r => r.map round⟩

/-- `Orbit.fingerprint`, `cluster.py:133-154`: the digest of the records, sorted by their JSON text
(`le`), and the multiplicity. -/
def Orbit.fingerprint (round : D → D) (le : OrbitRecord D → OrbitRecord D → Bool)
    (digest : List (OrbitRecord D) → Int → String) (o : Orbit P D) : String :=
  digest ((o.clusters.map (Cluster.record round)).mergeSort le) o.multiplicity

/-- What `build` asks about clusters of local sites, with the geometry of the local environment filled
in: `local_cluster_expansion.py:458-490`. -/
def shapes [Field D] [LinearOrder D] [LinearOrder R] (dist : P → P → D)
    (sym : List (String × P) → String) (row : List (List D) → Nat → R) (h : Digests P D)
    (sites : List (String × P)) : LCE.ClusterGeometry D :=
  geometry dist sym h sites (fun c => (clusterAt dist sym sites c).bondDistances.1)
    (fun a b => (clusterAt dist sym sites a).matchesCluster row (clusterAt dist sym sites b))

end ModelFile
end KMC
