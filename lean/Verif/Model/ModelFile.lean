import Verif.Model.Composite
import Verif.Model.Basis
import Verif.Model.LCE
/-
Model of how clusters, orbits, local cluster expansions and composite models are written to and read
from dictionaries: `kmcpy/structure/cluster.py`, `kmcpy/models/local_cluster_expansion.py`,
`kmcpy/models/composite_lce_model.py` and the choice of a class in `kmcpy/models/base.py`.

Writing a dictionary to a JSON file and reading it back is the identity on what is modelled here
(numbers, texts, lists).  pymatgen molecules keep species and coordinates.  Positions are a type `P`
and the distance of two positions is the parameter `dist`.
-/
namespace KMC
namespace ModelFile
variable {P D K : Type}

/-! ### Clusters and orbits -/

/-- `Cluster`, `cluster.py:180-263`, without metadata and derived data; `matrix` is the distance
matrix. -/
structure Cluster (P D : Type) where
  siteIndices : List Int
  species : List String
  coords : List P
  roles : List String
  matrix : List (List D)
  sym : String
  deriving DecidableEq

/-- `_build_distance_matrix` and `_build_distance_matrix_from_sites`, `cluster.py:335-351`.  Distances
between sites are taken in the cell they are in (`cluster.py:41-48`), so both are the distances of
the positions. -/
def distances (dist : P → P → D) (coords : List P) : List (List D) :=
  coords.map fun a => coords.map fun b => dist a b

/-- `Cluster.__init__`, `cluster.py:188-263`. -/
def Cluster.make (dist : P → P → D) (siteIndices : Option (List Int)) (species : List String)
    (coords : List P) (roles : Option (List String)) (matrix : Option (List (List D))) (sym : String) :
    Py (Cluster P D) :=
  if coords.length ≠ species.length then .error .valueError
  else
    let indices := siteIndices.getD ((List.range species.length).map Int.ofNat)
    let roles := roles.getD (List.replicate species.length "")
    if indices.length ≠ species.length then .error .valueError
    else if roles.length ≠ species.length then .error .valueError
    else
      match matrix with
      | none => .ok ⟨indices, species, coords, roles, distances dist coords, sym⟩
      | some m =>
        if m.length = species.length ∧ m.all (fun r => r.length == species.length) then
          .ok ⟨indices, species, coords, roles, m, sym⟩
        else .error .valueError

/-- `Cluster.as_dict`, `cluster.py:392-409`: the molecule is the species and the coordinates; the
distance matrix is not written. -/
structure ClusterPayload (P : Type) where
  siteIndices : Option (List Int)
  molecule : List (String × P)
  roles : Option (List String)
  sym : String

/-- `Cluster.as_dict`, `cluster.py:392-409`. -/
def Cluster.asDict (c : Cluster P D) : ClusterPayload P where
  siteIndices := some c.siteIndices
  molecule := c.species.zip c.coords
  roles := some c.roles
  sym := c.sym

/-- `Cluster.from_dict`, `cluster.py:411-426`. -/
def Cluster.fromDict (dist : P → P → D) (d : ClusterPayload P) : Py (Cluster P D) :=
  Cluster.make dist (some (d.siteIndices.getD [])) (d.molecule.map (·.1)) (d.molecule.map (·.2)) d.roles none
    d.sym

/-- `Orbit`, `cluster.py:77-87`. -/
structure Orbit (P D : Type) where
  clusters : List (Cluster P D)
  multiplicity : Int
  deriving DecidableEq

/-- `attach_cluster` for every cluster of a new orbit, `cluster.py:80-87`. -/
def Orbit.ofClusters (cs : List (Cluster P D)) : Orbit P D := ⟨cs, (cs.length : Int)⟩

/-- `Orbit.as_dict`, `cluster.py:156-164`, without the derived entries. -/
structure OrbitPayload (P : Type) where
  clusters : List (ClusterPayload P)
  multiplicity : Option Int

/-- `Orbit.as_dict`, `cluster.py:156-164`. -/
def Orbit.asDict (o : Orbit P D) : OrbitPayload P := ⟨o.clusters.map Cluster.asDict, some o.multiplicity⟩

/-- The comprehension `cluster.py:171-175`. -/
def clustersFromDict (dist : P → P → D) : List (ClusterPayload P) → Py (List (Cluster P D))
  | [] => .ok []
  | d :: ds =>
    match Cluster.fromDict dist d with
    | .error e => .error e
    | .ok c =>
      match clustersFromDict dist ds with
      | .error e => .error e
      | .ok cs => .ok (c :: cs)

/-- `Orbit.from_dict`, `cluster.py:166-177`. -/
def Orbit.fromDict (dist : P → P → D) (d : OrbitPayload P) : Py (Orbit P D) :=
  match clustersFromDict dist d.clusters with
  | .error e => .error e
  | .ok cs => .ok ⟨cs, d.multiplicity.getD (cs.length : Int)⟩

/-- The comprehension `local_cluster_expansion.py:154`. -/
def orbitsFromDict (dist : P → P → D) : List (OrbitPayload P) → Py (List (Orbit P D))
  | [] => .ok []
  | d :: ds =>
    match Orbit.fromDict dist d with
    | .error e => .error e
    | .ok o =>
      match orbitsFromDict dist ds with
      | .error e => .error e
      | .ok os => .ok (o :: os)

/-! ### Local cluster expansions -/

/-- One entry of `correlation_feature_metadata`, `local_cluster_expansion.py:552-556`. -/
structure FeatureMeta where
  orbitIndex : Int
  basisIndices : List Int
  siteStateCounts : List Int
  deriving DecidableEq

/-- The texts computed from orbits and environments: `Orbit.fingerprint` (`cluster.py:133-154`),
`_decorated_feature_fingerprint` (`local_cluster_expansion.py:593-602`) from the orbit's fingerprint,
and the hash of a local environment (`local_site_order.py:150-173`). -/
structure Digests (P D : Type) where
  orbit : Orbit P D → String
  decorated : String → List Int → List Int → String
  environment : List (String × P) → String

/-- A `LocalClusterExpansion` object; `none` is a missing attribute (or `None`).  `environment`
holds the species and positions of the local environment structure; the centre site goes with it. -/
structure Expansion (K P D : Type) where
  basis : Basis
  orbits : Option (List (Orbit P D))
  clusterSiteIndices : List (List (List Int))
  basisIndices : Option (List (List (List Int)))
  siteBasisValues : Option (List (List (List K)))
  featureMeta : Option (List FeatureMeta)
  correlationFingerprints : Option (List String)
  environment : Option (List (String × P))
  environmentHash : Option String
  keci : Option (List K)
  emptyCluster : Option K
  parameterFingerprints : Option (List String)
  parameterHash : Option String
  deriving DecidableEq

/-- The attributes that computations use (`Model/LCE`). -/
def Expansion.core (h : Digests P D) (m : Expansion K P D) : LCE K where
  clusterSiteIndices := m.clusterSiteIndices
  basisIndices := m.basisIndices
  siteBasisValues := m.siteBasisValues
  correlationFingerprints := m.correlationFingerprints
  orbitFingerprints := m.orbits.map fun os => os.map h.orbit
  environmentHash := m.environmentHash
  keci := m.keci
  emptyCluster := m.emptyCluster
  parameterFingerprints := m.parameterFingerprints
  parameterHash := m.parameterHash

/-- A dictionary read by `LocalClusterExpansion.from_dict`; `none` is a missing key.  The last five
keys are accepted (`local_cluster_expansion.py:181-183`) but never written. -/
structure ExpansionPayload (K P : Type) where
  basis : Option Basis
  orbits : Option (List (OrbitPayload P))
  orbitFingerprints : Option (List String)
  clusterSiteIndices : Option (List (List (List Int)))
  basisIndices : Option (List (List (List Int)))
  siteBasisValues : Option (List (List (List K)))
  featureMeta : Option (List FeatureMeta)
  environment : Option (List (String × P))
  environmentHash : Option String
  stateCounts : Option (List Int) := none
  correlationFingerprints : Option (List String) := none
  keci : Option (List K) := none
  emptyCluster : Option K := none
  parameterFingerprints : Option (List String) := none
  parameterHash : Option String := none

/-- `LocalClusterExpansion.as_dict`, `local_cluster_expansion.py:760-809`: without orbits or without
the local environment an attribute is missing.  `basis_site_state_counts` is only read when there is no
basis, so it is left out. -/
def Expansion.asDict (h : Digests P D) [CommRing K] (m : Expansion K P D) : Py (ExpansionPayload K P) :=
  match m.orbits, m.environment with
  | some os, some env =>
    .ok { basis := some m.basis
          orbits := some (os.map Orbit.asDict)
          orbitFingerprints := some (m.core h).getOrbitFingerprints
          clusterSiteIndices := some m.clusterSiteIndices
          basisIndices := m.basisIndices
          siteBasisValues := m.siteBasisValues
          featureMeta := m.featureMeta
          environment := some env
          environmentHash := m.environmentHash }
  | _, _ => .error .attributeError

/-- The features of `local_cluster_expansion.py:229-235`. -/
def featureFingerprints (h : Digests P D) (os : List (Orbit P D)) : List FeatureMeta → Py (List String)
  | [] => .ok []
  | f :: fs =>
    match pyGet os f.orbitIndex with
    | .error e => .error e
    | .ok o =>
      match featureFingerprints h os fs with
      | .error e => .error e
      | .ok ss => .ok (h.decorated (h.orbit o) f.basisIndices f.siteStateCounts :: ss)

/-- The default basis, `local_cluster_expansion.py:197-202`. -/
def defaultBasis (stateCounts : Option (List Int)) : Basis :=
  match stateCounts with
  | none => .chebyshev 2
  | some [] => .chebyshev 2
  | some (c :: cs) => .chebyshev (max 2 (cs.foldl max c))

/-- `correlation_fingerprints` after `local_cluster_expansion.py:224-245`. -/
def restoredFingerprints (h : Digests P D) (os : List (Orbit P D)) (d : ExpansionPayload K P) :
    Py (Option (List String)) :=
  match d.correlationFingerprints, d.featureMeta, d.orbitFingerprints with
  | some fps, _, _ => .ok (some fps)
  | none, some fs, _ =>
    match featureFingerprints h os fs with
    | .error e => .error e
    | .ok fps => .ok (some fps)
  | none, none, some stored => if stored.length ≠ os.length then .ok (some stored) else .ok none
  | none, none, none => .ok none

/-- The object before the orbits are checked, `local_cluster_expansion.py:146-221`.  A payload
without cluster indices leaves the attribute out; here the list is empty. -/
def restored (h : Digests P D) (d : ExpansionPayload K P) (os : Option (List (Orbit P D))) :
    Expansion K P D where
  basis := d.basis.getD (defaultBasis d.stateCounts)
  orbits := os
  clusterSiteIndices := d.clusterSiteIndices.getD []
  basisIndices := d.basisIndices
  siteBasisValues := d.siteBasisValues
  featureMeta := d.featureMeta
  correlationFingerprints := d.correlationFingerprints
  environment := d.environment
  environmentHash := d.environmentHash.or (d.environment.map h.environment)
  keci := d.keci
  emptyCluster := d.emptyCluster
  parameterFingerprints := d.parameterFingerprints
  parameterHash := d.parameterHash

/-- The check of fingerprints, `local_cluster_expansion.py:224-257`. -/
def checkOrbits (h : Digests P D) [CommRing K] (d : ExpansionPayload K P) (os : List (Orbit P D)) :
    Py (Expansion K P D) :=
  match restoredFingerprints h os d with
  | .error e => .error e
  | .ok fps =>
    let m := { restored h d (some os) with correlationFingerprints := fps }
    match d.orbitFingerprints with
    | none => .ok m
    | some stored => if stored ≠ (m.core h).getOrbitFingerprints then .error .valueError else .ok m

/-- The check `local_cluster_expansion.py:204-216` fails. -/
def lacksTables (d : ExpansionPayload K P) : Bool :=
  (d.basis.getD (defaultBasis d.stateCounts)).usesStateIndices && d.clusterSiteIndices.isSome &&
    (d.basisIndices.isNone || d.siteBasisValues.isNone)

/-- `LocalClusterExpansion.from_dict`, `local_cluster_expansion.py:134-259`. -/
def Expansion.fromDict (dist : P → P → D) (h : Digests P D) [CommRing K] (d : ExpansionPayload K P) :
    Py (Expansion K P D) :=
  match d.orbits with
  | none => if lacksTables d then .error .valueError else .ok (restored h d none)
  | some ods =>
    match orbitsFromDict dist ods with
    | .error e => .error e
    | .ok os => if lacksTables d then .error .valueError else checkOrbits h d os

/-- `LocalClusterExpansion.set_parameters` (`LCE.setParameters`) on the whole object. -/
def Expansion.setParameters (h : Digests P D) [CommRing K] (m : Expansion K P D) (p : LCEParameters K) :
    Py Unit × Expansion K P D :=
  match (m.core h).setParameters p with
  | (r, c) => (r, { m with
      keci := c.keci
      emptyCluster := c.emptyCluster
      parameterFingerprints := c.parameterFingerprints
      parameterHash := c.parameterHash })

/-- `Cluster(site_indices, sites, analyze_symmetry=True)`, `local_cluster_expansion.py:468-469`, for
site numbers of the local environment; `sym` is pymatgen's point group. -/
def clusterAt (dist : P → P → D) (sym : List (String × P) → String) (sites : List (String × P))
    (idx : List Nat) : Cluster P D :=
  let chosen := idx.filterMap fun i => sites[i]?
  ⟨idx.map Int.ofNat, chosen.map (·.1), chosen.map (·.2), List.replicate chosen.length "",
    distances dist (chosen.map (·.2)), sym chosen⟩

/-- `Orbit` of clusters given by site numbers, `local_cluster_expansion.py:491-496`. -/
def orbitAt (dist : P → P → D) (sym : List (String × P) → String) (sites : List (String × P))
    (o : List (List Nat)) : Orbit P D :=
  Orbit.ofClusters (o.map (clusterAt dist sym sites))

/-- What `build` asks about clusters of local sites (`LCE.ClusterGeometry`): largest distance and
equivalence are parameters, fingerprints those of the orbits. -/
def geometry {L : Type} (dist : P → P → D) (sym : List (String × P) → String) (h : Digests P D)
    (sites : List (String × P)) (maxLength : List Nat → L) (matches? : List Nat → List Nat → Bool) :
    LCE.ClusterGeometry L where
  maxLength := maxLength
  matches? := matches?
  fingerprint := fun o => h.orbit (orbitAt dist sym sites o)
  decoratedFingerprint := fun fp d counts => h.decorated fp (d.map Int.ofNat) (counts.map Int.ofNat)

/-- The metadata of the features of one orbit, `local_cluster_expansion.py:543-557`. -/
def orbitMeta (b : LCE.SiteBasis K) (counts : List Nat) (i : Nat) (o : List (List Nat)) : List FeatureMeta :=
  (productLists ((LCE.basisCounts b counts o (o.headD []).length).map List.range)).map fun d =>
    { orbitIndex := (i : Int)
      basisIndices := d.map Int.ofNat
      siteStateCounts := ((o.headD []).map fun s => counts[s]?.getD 0).map Int.ofNat }

/-- The metadata of all features, `local_cluster_expansion.py:528-557`, from orbit number `i` on. -/
def allMeta (b : LCE.SiteBasis K) (counts : List Nat) : Nat → List (List (List Nat)) → List FeatureMeta
  | _, [] => []
  | i, o :: os => orbitMeta b counts i o ++ allMeta b counts (i + 1) os

/-- `LocalClusterExpansion.build`, `local_cluster_expansion.py:62-119`: as in `LCE.build`, with the orbit
objects, the metadata and the local environment kept. -/
def Expansion.build {L : Type} [Field K] [LinearOrder L] (dist : P → P → D)
    (sym : List (String × P) → String) (h : Digests P D) (maxLength : List Nat → L)
    (matches? : List Nat → List Nat → Bool) (b : Basis) (sites : List (String × P)) (counts : List Nat)
    (pointCutoff : L) (cutoffCluster : List L) : Py (Expansion K P D) :=
  let g := geometry dist sym h sites maxLength matches?
  match LCE.buildClusters g (pointCutoff :: cutoffCluster) (LCE.candidateClusters sites.length) with
  | .error e => .error e
  | .ok clusters =>
    let orbits := LCE.buildOrbits (LCE.clusterEq g) clusters
    match LCE.configureCorrelationTerms g (b.siteBasis K) counts (some (h.environment sites)) orbits with
    | .error e => .error e
    | .ok c =>
      .ok { basis := b
            orbits := some (orbits.map (orbitAt dist sym sites))
            clusterSiteIndices := c.clusterSiteIndices
            basisIndices := c.basisIndices
            siteBasisValues := c.siteBasisValues
            featureMeta := if b.usesStateIndices then some (allMeta (b.siteBasis K) counts 0 orbits) else none
            correlationFingerprints := c.correlationFingerprints
            environment := some sites
            environmentHash := some (h.environment sites)
            keci := none
            emptyCluster := none
            parameterFingerprints := none
            parameterHash := none }

/-! ### Composite models -/

/-- The dictionary of one cluster expansion in a composite file,
`composite_lce_model.py:288-299`. -/
structure SubPayload (K P : Type) where
  lce : ExpansionPayload K P
  keci : Option (List K)
  emptyCluster : Option K
  fingerprints : Option (List String)
  environmentHash : Option String

/-- `_submodel_as_dict` and `_parameter_payload`, `composite_lce_model.py:269-299`; the dictionary of
the expansion is made first. -/
def subAsDict (h : Digests P D) [CommRing K] (m : Expansion K P D) : Py (SubPayload K P) :=
  match m.asDict h with
  | .error e => .error e
  | .ok lce =>
    match m.keci, m.emptyCluster with
    | some k, some e0 => .ok ⟨lce, some k, some e0, some (m.core h).getOrbitFingerprints, m.environmentHash⟩
    | _, _ => .error .valueError

/-- `LocalClusterExpansion.from_dict` and `set_parameters`, `composite_lce_model.py:388-390`, after the
check 338-345. -/
def subFromDict (dist : P → P → D) (h : Digests P D) [CommRing K] (d : SubPayload K P) :
    Py (Expansion K P D) :=
  if d.keci.isNone || d.emptyCluster.isNone then .error .valueError
  else
    match Expansion.fromDict dist h d.lce with
    | .error e => .error e
    | .ok m =>
      match m.setParameters h (.dict d.keci d.emptyCluster d.fingerprints d.environmentHash) with
      | (.error e, _) => .error e
      | (.ok (), m) => .ok m

/-- The site model of a composite model: none, a cluster expansion, or another model `S`. -/
inductive SiteModel (K P D S : Type) where
  | none
  | expansion (m : Expansion K P D)
  | other (s : S)

/-- `CompositeLCEModel`, `composite_lce_model.py:78-117`, without the fit metadata. -/
structure CompositeModel (K P D S : Type) where
  kra : Option (Expansion K P D)
  site : SiteModel K P D S

/-- The site model as a source of energy differences (`composite_lce_model.py:127-178`); `source` says
what another model does, `idle` stands for the state of a model that has none. -/
def siteSource {S M T : Type} (h : Digests P D) (source : S → SiteSource M T) (idle : M) :
    SiteModel ℝ P D S → SiteSource M T
  | .none =>
    { initializeState := fun _ _ => .ok idle
      applyEvent := fun m _ _ => (.ok (), m)
      difference := fun _ e st d => SiteSource.none.difference () e st d }
  | .expansion m =>
    { initializeState := fun _ _ => .ok idle
      applyEvent := fun m _ _ => (.ok (), m)
      difference := fun _ e st d => (SiteSource.expansion (m.core h)).difference () e st d }
  | .other s => source s

/-- The model as the simulation uses it (`Model/Composite`). -/
def CompositeModel.toComposite {S M T : Type} (h : Digests P D) (source : S → SiteSource M T) (idle : M)
    (c : CompositeModel ℝ P D S) : Composite M T :=
  ⟨c.kra.map fun m => m.core h, siteSource h source idle c.site⟩

/-- The dictionary of a site model, `composite_lce_model.py:301-325`; `F` are the dictionaries of
other models. -/
inductive SitePayload (K P F : Type) where
  | none
  | expansion (d : SubPayload K P)
  | other (d : F)

/-- The dictionary of a composite model, `composite_lce_model.py:244-268`. -/
structure CompositePayload (K P F : Type) where
  kra : SubPayload K P
  site : SitePayload K P F

/-- `_site_model_as_dict`, `composite_lce_model.py:301-325`; `save` is `as_dict` of another model. -/
def siteAsDict {S F : Type} (h : Digests P D) [CommRing K] (save : S → Py F) :
    SiteModel K P D S → Py (SitePayload K P F)
  | .none => .ok .none
  | .expansion m =>
    match subAsDict h m with
    | .error e => .error e
    | .ok d => .ok (.expansion d)
  | .other s =>
    match save s with
    | .error e => .error e
    | .ok d => .ok (.other d)

/-- `CompositeLCEModel.as_dict`, `composite_lce_model.py:244-268`; what it writes passes
`_validate_dict`. -/
def CompositeModel.asDict {S F : Type} (h : Digests P D) [CommRing K] (save : S → Py F)
    (c : CompositeModel K P D S) : Py (CompositePayload K P F) :=
  match c.kra with
  | none => .error .valueError
  | some kra =>
    match subAsDict h kra with
    | .error e => .error e
    | .ok k =>
      match siteAsDict h save c.site with
      | .error e => .error e
      | .ok s => .ok ⟨k, s⟩

/-- The site model of a file, `composite_lce_model.py:392-401`; `load` is `_site_model_from_dict`
(409-429). -/
def siteFromDict {S F : Type} (dist : P → P → D) (h : Digests P D) [CommRing K] (load : F → Py S) :
    SitePayload K P F → Py (SiteModel K P D S)
  | .none => .ok .none
  | .expansion d =>
    match subFromDict dist h d with
    | .error e => .error e
    | .ok m => .ok (.expansion m)
  | .other d =>
    match load d with
    | .error e => .error e
    | .ok s => .ok (.other s)

/-- `CompositeLCEModel.from_dict`, `composite_lce_model.py:382-407`. -/
def CompositeModel.fromDict {S F : Type} (dist : P → P → D) (h : Digests P D) [CommRing K]
    (load : F → Py S) (d : CompositePayload K P F) : Py (CompositeModel K P D S) :=
  match subFromDict dist h d.kra with
  | .error e => .error e
  | .ok kra =>
    match siteFromDict dist h load d.site with
    | .error e => .error e
    | .ok site => .ok ⟨some kra, site⟩

end ModelFile
end KMC
