import Mathlib.Algebra.Ring.Defs
import Mathlib.Data.Int.Cast.Basic
import Mathlib.Order.Defs.LinearOrder
import Verif.Model.Event
import Verif.Model.State
/-
Model of `kmcpy/models/local_cluster_expansion.py`.

Numbers are elements of an arbitrary commutative ring `K` (exact arithmetic).  Geometry is a
parameter: what the code asks a cluster of sites is its largest distance, whether it is
equivalent to another cluster and its fingerprint text.
-/
namespace KMC

/-- Fancy indexing `array[indices]`: `IndexError` if one index is out of range. -/
def pyGetAll {α : Type} (l : List α) : List Int → Py (List α)
  | [] => .ok []
  | i :: is =>
    match pyGet l i with
    | .error e => .error e
    | .ok a =>
      match pyGetAll l is with
      | .error e => .error e
      | .ok as => .ok (a :: as)

/-- `itertools.combinations(l, k)`: sublists of length `k` in lexicographic order of
positions. -/
def combinations {α : Type} : List α → Nat → List (List α)
  | _, 0 => [[]]
  | [], _ + 1 => []
  | a :: l, k + 1 => (combinations l k).map (a :: ·) ++ combinations l (k + 1)

/-- `itertools.product(*ls)`: the last position varies fastest. -/
def productLists {α : Type} : List (List α) → List (List α)
  | [] => [[]]
  | l :: ls => l.flatMap fun a => (productLists ls).map (a :: ·)

namespace LCE

/-! ### Correlations -/

section corr
variable {K : Type} [CommRing K]

/-- Inner loop of `_calc_corr`, `local_cluster_expansion.py:843-844`: multiply the occupations
of the sites of one cluster.  The compiled loop does not check bounds; reading outside the
array is represented by `IndexError`. -/
def clusterProduct (occ : List Int) : List Int → K → Py K
  | [], acc => .ok acc
  | s :: ss, acc =>
    match pyGet occ s with
    | .error e => .error e
    | .ok v => clusterProduct occ ss (acc * (v : K))

/-- Loop over the clusters of an orbit, `local_cluster_expansion.py:841-845`. -/
def orbitSum (occ : List Int) : List (List Int) → K → Py K
  | [], acc => .ok acc
  | c :: cs, acc =>
    match clusterProduct (K := K) occ c 1 with
    | .error e => .error e
    | .ok p => orbitSum occ cs (acc + p)

/-- `_calc_corr`, `local_cluster_expansion.py:829-846`. -/
def calcCorr (occ : List Int) : List (List (List Int)) → Py (List K)
  | [] => .ok []
  | o :: os =>
    match orbitSum (K := K) occ o 0 with
    | .error e => .error e
    | .ok v =>
      match calcCorr occ os with
      | .error e => .error e
      | .ok vs => .ok (v :: vs)

/-- `site_basis_values[occ_site, state_index, basis_index]`, `local_cluster_expansion.py:873`. -/
def tableGet (table : List (List (List K))) (site state func : Int) : Py K :=
  match pyGet table site with
  | .error e => .error e
  | .ok rows =>
    match pyGet rows state with
    | .error e => .error e
    | .ok row => pyGet row func

/-- Inner loop of `_calc_corr_decorated`, `local_cluster_expansion.py:870-873`: sites of the
cluster with the basis-function index of the same position; fewer indices than sites is an
`IndexError`. -/
def clusterProductDecorated (table : List (List (List K))) (occ : List Int) :
    List Int → List Int → K → Py K
  | [], _, acc => .ok acc
  | _ :: _, [], _ => .error .indexError
  | s :: ss, b :: bs, acc =>
    match pyGet occ s with
    | .error e => .error e
    | .ok state =>
      match tableGet table s state b with
      | .error e => .error e
      | .ok v => clusterProductDecorated table occ ss bs (acc * v)

/-- Loop over the clusters of a feature, `local_cluster_expansion.py:867-874`. -/
def orbitSumDecorated (table : List (List (List K))) (occ : List Int) :
    List (List Int) → List (List Int) → K → Py K
  | [], _, acc => .ok acc
  | _ :: _, [], _ => .error .indexError
  | c :: cs, b :: bs, acc =>
    match clusterProductDecorated table occ c b 1 with
    | .error e => .error e
    | .ok p => orbitSumDecorated table occ cs bs (acc + p)

/-- `_calc_corr_decorated`, `local_cluster_expansion.py:850-875`. -/
def calcCorrDecorated (table : List (List (List K))) (occ : List Int) :
    List (List (List Int)) → List (List (List Int)) → Py (List K)
  | [], _ => .ok []
  | _ :: _, [] => .error .indexError
  | o :: os, b :: bs =>
    match orbitSumDecorated table occ o b 0 with
    | .error e => .error e
    | .ok v =>
      match calcCorrDecorated table occ os bs with
      | .error e => .error e
      | .ok vs => .ok (v :: vs)

end corr
end LCE

/-- The attributes of a `LocalClusterExpansion` used below; `none` is a missing attribute (or
the value `None`). -/
structure LCE (K : Type) where
  clusterSiteIndices : List (List (List Int))
  basisIndices : Option (List (List (List Int))) := none
  siteBasisValues : Option (List (List (List K))) := none
  /-- `correlation_fingerprints` -/
  correlationFingerprints : Option (List String) := none
  /-- `[orbit.fingerprint for orbit in self.orbits]`, if the object has orbits -/
  orbitFingerprints : Option (List String) := none
  environmentHash : Option String := none
  keci : Option (List K) := none
  emptyCluster : Option K := none
  parameterFingerprints : Option (List String) := none
  parameterHash : Option String := none
  deriving DecidableEq

/-- The argument of `set_parameters`: an `LCEModelParameters` object, a dictionary (keys may
be missing) or anything else. -/
inductive LCEParameters (K : Type) where
  | object (keci : List K) (emptyCluster : K) (fingerprints : Option (List String))
      (environmentHash : Option String)
  | dict (keci : Option (List K)) (emptyCluster : Option K) (fingerprints : Option (List String))
      (environmentHash : Option String)
  | other

namespace LCE
section model
variable {K : Type} [CommRing K]

/-- `_calculate_correlation`, `local_cluster_expansion.py:604-618`. -/
def calculateCorrelation (m : LCE K) (occ : List Int) : Py (List K) :=
  match m.basisIndices, m.siteBasisValues with
  | some b, some t => calcCorrDecorated t occ m.clusterSiteIndices b
  | _, _ => calcCorr occ m.clusterSiteIndices

omit [CommRing K] in
/-- `get_orbit_fingerprints`, `local_cluster_expansion.py:276-282`. -/
def getOrbitFingerprints (m : LCE K) : List String :=
  match m.correlationFingerprints with
  | some l => l
  | none =>
    match m.orbitFingerprints with
    | some l => l
    | none => []

/-- `_validate_parameter_orbits`, `local_cluster_expansion.py:284-340` (warnings omitted).  An
empty fingerprint list or hash counts as missing. -/
def validateParameterOrbits (m : LCE K) (keci : List K) (fps : Option (List String))
    (hash : Option String) : Py (List K) :=
  let expected := m.getOrbitFingerprints
  if expected ≠ [] ∧ keci.length ≠ expected.length then .error .valueError
  else if (m.environmentHash.getD "") ≠ "" ∧ hash ≠ none ∧ hash ≠ m.environmentHash then
    .error .valueError
  else
    match fps with
    | none => .ok keci
    | some fps =>
      if fps.length ≠ expected.length then .error .valueError
      else if fps ≠ expected then .error .valueError
      else .ok keci

/-- `np.inner` of two vectors: `ValueError` unless they have the same length. -/
def npInner (a b : List K) : Py K :=
  if a.length = b.length then .ok ((List.zipWith (· * ·) a b).sum) else .error .valueError

/-- `compute`, `local_cluster_expansion.py:620-665`, for a given state and event. -/
def compute (m : LCE K) (occ : List Int) (e : Event) : Py K :=
  match m.keci, m.emptyCluster with
  | some keci, some e0 =>
    match m.validateParameterOrbits keci m.parameterFingerprints m.parameterHash with
    | .error x => .error x
    | .ok keci =>
      match pyGetAll occ e.env with
      | .error x => .error x
      | .ok localOcc =>
        match m.calculateCorrelation localOcc with
        | .error x => .error x
        | .ok corr =>
          match npInner corr keci with
          | .error x => .error x
          | .ok v => .ok (v + e0)
  | _, _ => .error .valueError

/-- The assignments `local_cluster_expansion.py:691-708` once the coefficients have been
read. -/
def storeParameters (m : LCE K) (keci : List K) (e0 : K) (fps : Option (List String))
    (hash : Option String) : Py Unit × LCE K :=
  match m.validateParameterOrbits keci fps hash with
  | .error x => (.error x, m)
  | .ok keci =>
    (.ok (), { m with
      keci := some keci
      emptyCluster := some e0
      parameterFingerprints := some (fps.getD m.getOrbitFingerprints)
      parameterHash := hash.or m.environmentHash })

/-- `set_parameters`, `local_cluster_expansion.py:667-710`; the second component is the model
left behind. -/
def setParameters (m : LCE K) : LCEParameters K → Py Unit × LCE K
  | .object keci e0 fps hash => m.storeParameters keci e0 fps hash
  | .dict none _ _ _ => (.error .keyError, m)
  | .dict (some _) none _ _ => (.error .keyError, m)
  | .dict (some keci) (some e0) fps hash => m.storeParameters keci e0 fps hash
  | .other => (.error .typeError, m)

end model

/-! ### Building a model -/

/-- One iteration of the grouping loop, `local_cluster_expansion.py:485-490`: representatives
and groups.  `item in list` and `list.index(item)` use the same test, `representative == item`. -/
def buildOrbitsStep {α : Type} (eq : α → α → Bool) (acc : List α × List (List α)) (c : α) :
    List α × List (List α) :=
  match acc.1.findIdx? (fun r => eq r c) with
  | none => (acc.1 ++ [c], acc.2 ++ [[c]])
  | some i => (acc.1, acc.2.modify i (· ++ [c]))

/-- `build_orbits`, `local_cluster_expansion.py:474-497`: the clusters of each orbit. -/
def buildOrbits {α : Type} (eq : α → α → Bool) (clusters : List α) : List (List α) :=
  (clusters.foldl (buildOrbitsStep eq) ([], [])).2

/-- What the code asks the geometry about clusters of local sites. -/
structure ClusterGeometry (L : Type) where
  /-- `Cluster.max_length` -/
  maxLength : List Nat → L
  /-- whether `ClusterMatcher(a).match(b)` succeeds, `structure/cluster.py:380-384` -/
  matches? : List Nat → List Nat → Bool
  /-- `Orbit.fingerprint`, `structure/cluster.py:133-154` -/
  fingerprint : List (List Nat) → String
  /-- `_decorated_feature_fingerprint`, `local_cluster_expansion.py:593-602`, from the orbit's
  fingerprint, the basis indices and the site state counts -/
  decoratedFingerprint : String → List Nat → List Nat → String

/-- `Cluster.__eq__`, `structure/cluster.py:375-384`. -/
def clusterEq {L : Type} (g : ClusterGeometry L) (a b : List Nat) : Bool :=
  if a.length ≠ b.length then false else g.matches? a b

/-- What the code asks the basis (`structure/basis.py:20-126`). -/
structure SiteBasis (K : Type) where
  usesStateIndices : Bool
  numSiteBasisFunctions : Nat → Nat
  /-- rows: states; columns: basis functions -/
  siteBasisValues : Nat → List (List K)

/-- The candidate clusters of `build`, `local_cluster_expansion.py:96-103`: all combinations of
1, 2, 3 and 4 of the `n` local sites. -/
def candidateClusters (n : Nat) : List (List Nat) :=
  combinations (List.range n) 1 ++ combinations (List.range n) 2 ++
    combinations (List.range n) 3 ++ combinations (List.range n) 4

/-- Loop of `build_clusters`, `local_cluster_expansion.py:467-472`: keep a cluster when its
largest distance is below the cutoff for its number of sites (`cutoff[len - 1]`). -/
def keepClusters {L : Type} [LinearOrder L] (g : ClusterGeometry L) (cutoff : List L) :
    List (List Nat) → Py (List (List Nat))
  | [] => .ok []
  | c :: cs =>
    match pyGet cutoff ((c.length : Int) - 1) with
    | .error e => .error e
    | .ok r =>
      match keepClusters g cutoff cs with
      | .error e => .error e
      | .ok rest => .ok (if g.maxLength c < r then c :: rest else rest)

/-- `build_clusters`, `local_cluster_expansion.py:458-472`; the log message reads `cutoff[3]`
first. -/
def buildClusters {L : Type} [LinearOrder L] (g : ClusterGeometry L) (cutoff : List L)
    (candidates : List (List Nat)) : Py (List (List Nat)) :=
  if cutoff.length < 4 then .error .indexError else keepClusters g cutoff candidates

/-- One row of `_build_site_basis_values` padded with zeros to `width`. -/
def padRow {K : Type} [Zero K] (width : Nat) (row : List K) : List K :=
  row ++ List.replicate (width - row.length) 0

/-- The block of one site, padded to `height × width`, `local_cluster_expansion.py:580-590`. -/
def padBlock {K : Type} [Zero K] (height width : Nat) (block : List (List K)) : List (List K) :=
  block.map (padRow width) ++ List.replicate (height - block.length) (List.replicate width 0)

/-- `_build_site_basis_values`, `local_cluster_expansion.py:573-591`; `max()` of an empty list
of counts is a `ValueError`. -/
def buildSiteBasisValues {K : Type} [Zero K] (b : SiteBasis K) (counts : List Nat) :
    Py (List (List (List K))) :=
  match counts.max?, (counts.map b.numSiteBasisFunctions).max? with
  | some h, some w => .ok (counts.map fun n => padBlock h w (b.siteBasisValues n))
  | _, _ => .error .valueError

/-- `basis_counts` of one orbit, `local_cluster_expansion.py:531-541`: for each position of the
representative the smallest number of basis functions over the orbit's clusters. -/
def basisCounts {K : Type} (b : SiteBasis K) (counts : List Nat) (orbit : List (List Nat)) :
    Nat → List Nat
  | 0 => []
  | p + 1 => basisCounts b counts orbit p ++
      [((orbit.map fun c => b.numSiteBasisFunctions (counts[c[p]?.getD 0]?.getD 0)).min?).getD 0]

/-- One decorated feature: the clusters of the orbit, the decoration and its fingerprint,
`local_cluster_expansion.py:543-562`. -/
structure Feature where
  clusters : List (List Nat)
  decoration : List Nat
  fingerprint : String

/-- The features of one orbit, `local_cluster_expansion.py:528-562`: one for every choice of a
basis function at each position. -/
def orbitFeatures {K L : Type} (g : ClusterGeometry L) (b : SiteBasis K) (counts : List Nat)
    (orbit : List (List Nat)) : List Feature :=
  let representative := orbit.headD []
  (productLists ((basisCounts b counts orbit representative.length).map List.range)).map fun d =>
    { clusters := orbit
      decoration := d
      fingerprint := g.decoratedFingerprint (g.fingerprint orbit) d
        (representative.map fun s => counts[s]?.getD 0) }

/-- Site indices as the integers stored in the compiled lists. -/
def toIntClusters (orbits : List (List (List Nat))) : List (List (List Int)) :=
  orbits.map fun o => o.map fun c => c.map Int.ofNat

/-- `_configure_correlation_terms`, `local_cluster_expansion.py:499-571`, for orbits whose
clusters consist of valid local site numbers (as `build` makes them). -/
def configureCorrelationTerms {K L : Type} [Zero K] (g : ClusterGeometry L) (b : SiteBasis K)
    (counts : List Nat) (hash : Option String) (orbits : List (List (List Nat))) : Py (LCE K) :=
  if b.usesStateIndices then
    match buildSiteBasisValues b counts with
    | .error e => .error e
    | .ok table =>
      let features := orbits.flatMap (orbitFeatures g b counts)
      .ok
        { clusterSiteIndices := toIntClusters (features.map Feature.clusters)
          basisIndices := some (features.map fun f =>
            f.clusters.map fun _ => f.decoration.map Int.ofNat)
          siteBasisValues := some table
          correlationFingerprints := some (features.map Feature.fingerprint)
          orbitFingerprints := some (orbits.map g.fingerprint)
          environmentHash := hash }
  else
    .ok
      { clusterSiteIndices := toIntClusters orbits
        correlationFingerprints := some (orbits.map g.fingerprint)
        orbitFingerprints := some (orbits.map g.fingerprint)
        environmentHash := hash }

/-- `build`, `local_cluster_expansion.py:62-119`, from the number of states of each local site:
candidate clusters within the cutoffs (`pointCutoff` is the literal 10), grouped into orbits,
and the correlation terms.  The model has no parameters yet. -/
def build {K L : Type} [Zero K] [LinearOrder L] (g : ClusterGeometry L) (b : SiteBasis K)
    (counts : List Nat) (hash : Option String) (pointCutoff : L) (cutoffCluster : List L) :
    Py (LCE K) :=
  match buildClusters g (pointCutoff :: cutoffCluster) (candidateClusters counts.length) with
  | .error e => .error e
  | .ok clusters =>
    configureCorrelationTerms g b counts hash (buildOrbits (clusterEq g) clusters)

end LCE
end KMC
