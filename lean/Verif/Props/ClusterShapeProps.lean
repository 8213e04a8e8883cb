import Mathlib.Data.Countable.Basic
import Mathlib.Data.Rat.Denumerable
import Mathlib.Logic.Equiv.List
import Mathlib.Tactic.Linarith
import Verif.Lemmas.ClusterShape
import Verif.Props.LCEProps
import Verif.Props.ModelFileProps
/-
C116: a local cluster expansion sees its environment through species and distances only.
-/
namespace KMC
open Spec ModelFile LCE
variable {P D R K : Type} [Field D] [LinearOrder D] [IsStrictOrderedRing D] [LinearOrder R] [CommRing K]

theorem wanted_isCluster {g : ClusterGeometry D} {cutoff : List D} {n : Nat} {c : List Nat}
    (h : WantedCluster g cutoff n c) : IsCluster n c := ⟨h.1, h.2.1⟩

/-- The clusters a model wants: one to four different sites, all distances below the cutoff of that
size. -/
theorem wanted_shape_iff {dist : P → P → D} (hd : Metric dist) (sym : List (String × P) → String)
    (row : List (List D) → Nat → R) (h : Digests P D) (sites : List (String × P)) (cutoff : List D)
    (c : List Nat) :
    WantedCluster (shapes dist sym row h sites) cutoff sites.length c ↔
      IsCluster sites.length c ∧ 1 ≤ c.length ∧ c.length ≤ 4 ∧ ∃ r, cutoff[c.length - 1]? = some r ∧
        ∀ s ∈ c, ∀ t ∈ c, ∀ x, distanceOf dist sites s t = some x → x < r := by
  constructor
  · rintro ⟨h1, h2, h3, h4, r, h5, h6⟩
    refine ⟨⟨h1, h2⟩, h3, h4, r, h5, (maxLength_lt_iff hd sym row h sites h2 ?_ r).1 h6⟩
    rintro rfl
    simp at h3
  · rintro ⟨⟨h1, h2⟩, h3, h4, r, h5, h6⟩
    refine ⟨h1, h2, h3, h4, r, h5, (maxLength_lt_iff hd sym row h sites h2 ?_ r).2 h6⟩
    rintro rfl
    simp at h3

/-- C116.  A plain model contains a cluster of one to four local sites exactly when all distances
between its sites are below the cutoff for clusters of that size. -/
theorem C116_clusters_within_cutoff {dist : P → P → D} (hd : Metric dist)
    (sym : List (String × P) → String) (row : List (List D) → Nat → R) (h : Digests P D)
    (sites : List (String × P)) (b : SiteBasis K) (hb : b.usesStateIndices = false) (counts : List Nat)
    (hn : counts.length = sites.length) (hash : Option String) (pc : D) (cc : List D) (m : LCE K)
    (hm : build (shapes dist sym row h sites) b counts hash pc cc = .ok m) (c : List Nat)
    (hc : IsCluster sites.length c) :
    (∃ o ∈ m.clusterSiteIndices, c.map Int.ofNat ∈ o) ↔
      1 ≤ c.length ∧ c.length ≤ 4 ∧ ∃ r, (pc :: cc)[c.length - 1]? = some r ∧
        ∀ s ∈ c, ∀ t ∈ c, ∀ x, distanceOf dist sites s t = some x → x < r := by
  have h1 := (C67_terms_plain (shapes dist sym row h sites) b hb counts hash pc cc m hm).2.2.2.1 c
  rw [List.mem_flatten] at h1
  rw [h1, hn, wanted_shape_iff hd]
  simp only [hc, true_and]

/-- The rows of a built model are orbits. -/
theorem row_is_orbit {g : ClusterGeometry D} {b : SiteBasis K} {counts : List Nat} {hash : Option String}
    {pc : D} {cc : List D} {m : LCE K} (hm : build g b counts hash pc cc = .ok m)
    {o' : List (List Int)} (ho : o' ∈ m.clusterSiteIndices) :
    ∃ o ∈ buildOrbits (clusterEq g) ((candidateClusters counts.length).filter (withinCutoff g (pc :: cc))),
      o' = o.map fun c => c.map Int.ofNat := by
  obtain ⟨clusters, hcl, hconf⟩ := lceBuild_ok hm
  subst hcl
  unfold configureCorrelationTerms at hconf
  split at hconf
  · split at hconf
    · cases hconf
    · cases hconf
      simp only [toIntClusters, List.map_map, List.mem_map] at ho
      obtain ⟨f, hf, rfl⟩ := ho
      exact ⟨_, (features_mem hf).1, rfl⟩
  · cases hconf
    simp only [toIntClusters, List.mem_map] at ho
    obtain ⟨o, ho, rfl⟩ := ho
    exact ⟨o, ho, rfl⟩

/-- C116.  All clusters that share a coefficient have the shape of the first one, up to the ignored
difference. -/
theorem C116_term_has_one_shape {dist : P → P → D} (hd : Metric dist)
    (sym : List (String × P) → String) (row : List (List D) → Nat → R) (h : Digests P D)
    (sites : List (String × P)) (b : SiteBasis K) (counts : List Nat)
    (hn : counts.length = sites.length) (hash : Option String) (pc : D) (cc : List D) (m : LCE K)
    (hm : build (shapes dist sym row h sites) b counts hash pc cc = .ok m) (o : List (List Int))
    (ho : o ∈ m.clusterSiteIndices) :
    ∃ (r : List Nat) (rest : List (List Nat)), o = (r :: rest).map (fun c => c.map Int.ofNat) ∧
      ∀ c ∈ r :: rest, IsCluster sites.length c ∧ NearlyCongruent dist sites r c := by
  obtain ⟨q, hq, rfl⟩ := row_is_orbit hm ho
  obtain ⟨r, t, rfl, ht⟩ := C37_representative _ _ q hq
  have hp := C37_partition (clusterEq (shapes dist sym row h sites))
    ((candidateClusters counts.length).filter (withinCutoff (shapes dist sym row h sites) (pc :: cc)))
  have hmem : ∀ c ∈ r :: t, IsCluster sites.length c := fun c hc =>
    hn ▸ wanted_isCluster (mem_wanted.1 (hp.subset (List.mem_flatten.2 ⟨_, hq, hc⟩)))
  refine ⟨r, t, rfl, fun c hc => ⟨hmem c hc, ?_⟩⟩
  have hr := hmem r (by simp)
  rcases List.mem_cons.1 hc with rfl | hc'
  · exact congruent_nearly hr.2 (congruent_refl _ _ _)
  · exact (clusterEq_iff hd sym row h sites hr (hmem c hc)).1 (ht c hc')

/-- With separated distances the comparison of clusters is congruence. -/
theorem clusterEq_congruent {dist : P → P → D} (hd : Metric dist) (sym : List (String × P) → String)
    (row : List (List D) → Nat → R) (h : Digests P D) (sites : List (String × P))
    (hsep : SeparatedDistances dist sites) {a b : List Nat} (ha : IsCluster sites.length a)
    (hb : IsCluster sites.length b) :
    clusterEq (shapes dist sym row h sites) a b = true ↔ Congruent dist sites a b := by
  rw [clusterEq_iff hd sym row h sites ha hb]
  exact ⟨nearly_congruent hd hsep ha.2 hb, congruent_nearly ha.2⟩

theorem shapes_equivalence {dist : P → P → D} (hd : Metric dist) (sym : List (String × P) → String)
    (row : List (List D) → Nat → R) (h : Digests P D) (sites : List (String × P))
    (hsep : SeparatedDistances dist sites) (cutoff : List D) :
    ComparisonIsEquivalence (shapes dist sym row h sites) cutoff sites.length := by
  refine ⟨?_, ?_, ?_⟩
  · intro a ha
    exact (clusterEq_congruent hd sym row h sites hsep (wanted_isCluster ha) (wanted_isCluster ha)).2
      (congruent_refl _ _ _)
  · intro a b ha hb hab
    have h1 := (clusterEq_congruent hd sym row h sites hsep (wanted_isCluster ha) (wanted_isCluster hb)).1 hab
    exact (clusterEq_congruent hd sym row h sites hsep (wanted_isCluster hb) (wanted_isCluster ha)).2
      (congruent_symm (hb.1.imp fun h => Nat.ne_of_lt h) h1)
  · intro a b c ha hb hc hab hbc
    have h1 := (clusterEq_congruent hd sym row h sites hsep (wanted_isCluster ha) (wanted_isCluster hb)).1 hab
    have h2 := (clusterEq_congruent hd sym row h sites hsep (wanted_isCluster hb) (wanted_isCluster hc)).1 hbc
    exact (clusterEq_congruent hd sym row h sites hsep (wanted_isCluster ha) (wanted_isCluster hc)).2
      (congruent_trans h1 h2)

/-- C116.  With separated distances, the clusters sharing a coefficient with a given one are exactly
the clusters of the model congruent to it. -/
theorem C116_term_is_congruence_class {dist : P → P → D} (hd : Metric dist)
    (sym : List (String × P) → String) (row : List (List D) → Nat → R) (h : Digests P D)
    (sites : List (String × P)) (hsep : SeparatedDistances dist sites) (b : SiteBasis K) (counts : List Nat)
    (hn : counts.length = sites.length) (hash : Option String) (pc : D) (cc : List D) (m : LCE K)
    (hm : build (shapes dist sym row h sites) b counts hash pc cc = .ok m) (o : List (List Int))
    (ho : o ∈ m.clusterSiteIndices) (a c : List Nat) (ha : IsCluster sites.length a)
    (hc : IsCluster sites.length c) (hao : a.map Int.ofNat ∈ o) :
    c.map Int.ofNat ∈ o ↔ Congruent dist sites a c := by
  obtain ⟨q, hq, rfl⟩ := row_is_orbit hm ho
  set g := shapes dist sym row h sites with hg
  set cs := (candidateClusters counts.length).filter (withinCutoff g (pc :: cc)) with hcs
  have hw : ∀ c, c ∈ cs ↔ WantedCluster g (pc :: cc) sites.length c := fun c => hn ▸ mem_wanted
  have he := shapes_equivalence hd sym row h sites hsep (pc :: cc)
  have hE : EquivOn (clusterEq g) cs :=
    ⟨fun a ha => he.refl a ((hw a).1 ha), fun a ha b hb => he.symm a b ((hw a).1 ha) ((hw b).1 hb),
      fun a ha b hb c hc => he.trans a b c ((hw a).1 ha) ((hw b).1 hb) ((hw c).1 hc)⟩
  have hback : ∀ c : List Nat, c.map Int.ofNat ∈ (q.map fun c => c.map Int.ofNat) ↔ c ∈ q := by
    intro c
    constructor
    · intro h1
      obtain ⟨d, hd', e⟩ := List.mem_map.1 h1
      rw [← map_ofNat_injective e]
      exact hd'
    · exact fun h1 => List.mem_map.2 ⟨c, h1, rfl⟩
  rw [hback] at hao
  have hcls := C37_equivalence_classes (clusterEq g) cs hE q hq a hao
  have hacs : a ∈ cs := (C37_partition (clusterEq g) cs).subset (List.mem_flatten.2 ⟨q, hq, hao⟩)
  rw [hback, hcls.mem_iff, List.mem_filter, ← clusterEq_congruent hd sym row h sites hsep ha hc]
  refine ⟨fun h1 => h1.2, fun h1 => ⟨?_, h1⟩⟩
  rw [hw]
  have hcong := (clusterEq_congruent hd sym row h sites hsep ha hc).1 h1
  obtain ⟨-, h3, h4, r, h5, h6⟩ := (wanted_shape_iff hd sym row h sites (pc :: cc) a).1 ((hw a).1 hacs)
  obtain ⟨f, hf, -, df⟩ := hcong
  have hl : c.length = a.length := by have := hf.length_eq; simpa using this.symm
  refine (wanted_shape_iff hd sym row h sites (pc :: cc) c).2 ⟨hc, by omega, by omega, r, by rw [hl]; exact h5, ?_⟩
  intro s hs t ht x hx
  obtain ⟨u, hu, rfl⟩ := List.mem_map.1 (hf.symm.subset hs)
  obtain ⟨v, hv, rfl⟩ := List.mem_map.1 (hf.symm.subset ht)
  rw [df u hu v hv] at hx
  exact h6 u hu v hv x hx

/-- A symmetry of the environment is a relabelling the model cannot see. -/
theorem environment_symmetry {dist : P → P → D} (hd : Metric dist) (sym : List (String × P) → String)
    (row : List (List D) → Nat → R) (h : Digests P D) (sites : List (String × P)) (counts : List Nat)
    (hn : counts.length = sites.length) (cutoff : List D) (π : Nat → Nat)
    (hπ : EnvironmentSymmetry dist sites π) (hst : ∀ s, s < sites.length → counts[π s]? = counts[s]?) :
    SymmetryOperation (shapes dist sym row h sites) cutoff counts π := by
  have himg : ∀ c, WantedCluster (shapes dist sym row h sites) cutoff counts.length c →
      IsCluster sites.length (imageCluster π c) := by
    intro c hc
    rw [hn] at hc
    have hp := imageCluster_perm π c
    have hsorted : (imageCluster π c).Pairwise (· ≤ ·) := List.pairwise_insertionSort _ _
    have hnd : (imageCluster π c).Nodup := by
      rw [hp.nodup_iff]
      refine List.Nodup.map_on ?_ (hc.1.imp fun h => Nat.ne_of_lt h)
      intro x hx y hy hxy
      exact hπ.inj x y (hc.2.1 x hx) (hc.2.1 y hy) hxy
    refine ⟨(hsorted.and hnd).imp fun h => Nat.lt_of_le_of_ne h.1 h.2, ?_⟩
    intro s hs
    obtain ⟨t, ht, rfl⟩ := List.mem_map.1 (hp.subset hs)
    exact hπ.maps t (hc.2.1 t ht)
  have hcong : ∀ c, WantedCluster (shapes dist sym row h sites) cutoff counts.length c →
      Congruent dist sites c (imageCluster π c) := by
    intro c hc
    rw [hn] at hc
    exact ⟨π, (imageCluster_perm π c).symm, fun s hs => hπ.species s (hc.2.1 s hs),
      fun s hs t ht => hπ.distance s t (hc.2.1 s hs) (hc.2.1 t ht)⟩
  refine ⟨by rw [hn]; exact hπ.maps, by rw [hn]; exact hπ.inj, by rw [hn]; exact hst, ?_, ?_⟩
  · intro c hc
    have h1 := himg c hc
    have hp := imageCluster_perm π c
    have hne : c ≠ [] := by
      rintro rfl
      have := hc.2.2.1
      simp at this
    have hne' : imageCluster π c ≠ [] := by
      intro h0
      have := hp.length_eq
      rw [h0, List.length_map] at this
      exact hne (List.eq_nil_of_length_eq_zero this.symm)
    have hc2 : ∀ s ∈ c, s < sites.length := hn ▸ hc.2.1
    apply eq_of_forall_gt_iff
    intro r
    rw [maxLength_lt_iff hd sym row h sites h1.2 hne', maxLength_lt_iff hd sym row h sites hc2 hne]
    constructor
    · intro hr s hs t ht x hx
      refine hr (π s) (hp.symm.subset (List.mem_map_of_mem hs)) (π t)
        (hp.symm.subset (List.mem_map_of_mem ht)) x ?_
      rw [hπ.distance s t (hc2 s hs) (hc2 t ht)]
      exact hx
    · intro hr s hs t ht x hx
      obtain ⟨u, hu, rfl⟩ := List.mem_map.1 (hp.subset hs)
      obtain ⟨v, hv, rfl⟩ := List.mem_map.1 (hp.subset ht)
      rw [hπ.distance u v (hc2 u hu) (hc2 v hv)] at hx
      exact hr u hu v hv x hx
  · intro c hc
    exact (clusterEq_iff hd sym row h sites (hn ▸ wanted_isCluster hc) (himg c hc)).2
      (congruent_nearly (hn ▸ hc.2.1) (hcong c hc))

/-- C116.  If distances are separated, occupations related by a symmetry of the environment have the
same value, for plain models and for models with two states per site. -/
theorem C116_symmetric_occupations {dist : P → P → D} (hd : Metric dist)
    (sym : List (String × P) → String) (row : List (List D) → Nat → R) (h : Digests P D)
    (sites : List (String × P)) (hsep : SeparatedDistances dist sites) (b : SiteBasis K) (hb : BasisShape b)
    (counts : List Nat) (hn : counts.length = sites.length) (hash : Option String) (pc : D) (cc : List D)
    (m m' : LCE K) (hm : build (shapes dist sym row h sites) b counts hash pc cc = .ok m)
    (hne : m.getOrbitFingerprints ≠ []) (p : LCEParameters K) (hp : m.setParameters p = (.ok (), m'))
    (π : Nat → Nat) (hπ : EnvironmentSymmetry dist sites π)
    (hst : ∀ s, s < sites.length → counts[π s]? = counts[s]?)
    (hone : b.usesStateIndices = true → ∀ n ∈ counts, b.numSiteBasisFunctions n = 1)
    (occ occ' : List Int) (e e' : Event) (hv : ValidSurroundings counts occ e.env)
    (hv' : ValidSurroundings counts occ' e'.env) (x x' : Int → Int)
    (hx : LocalOccupations occ e.env x) (hx' : LocalOccupations occ' e'.env x')
    (hxx : ∀ s : Nat, s < sites.length → x' s = x (π s)) :
    m'.compute occ' e' = m'.compute occ e :=
  C68_equivalent_surroundings _ b hb counts hash pc cc m m' hm hne p hp
    (hn ▸ shapes_equivalence hd sym row h sites hsep (pc :: cc)) π
    (environment_symmetry hd sym row h sites counts hn (pc :: cc) π hπ hst) hone occ occ' e e' hv hv' x x'
    hx hx' (hn ▸ hxx)

/-! ### Copies of an environment -/

omit [IsStrictOrderedRing D] in
/-- Environments with the same species and distances give the same geometry, if orbit fingerprints are
the digests of the records. -/
theorem shapes_same {dist : P → P → D} (sym : List (String × P) → String) (row : List (List D) → Nat → R)
    (h : Digests P D) (round : D → D) (le : OrbitRecord D → OrbitRecord D → Bool)
    (digest : List (OrbitRecord D) → Int → String) (hfp : h.orbit = Orbit.fingerprint round le digest)
    {sites sites' : List (String × P)} (hs : SameShape dist sites sites') :
    shapes dist sym row h sites = shapes dist sym row h sites' := by
  have hsp : siteSpecies sites = siteSpecies sites' := funext hs.species
  have hdd : distanceOf dist sites = distanceOf dist sites' := funext fun s => funext fun t => hs.distance s t
  have h1 : ∀ c, (clusterAt dist sym sites c).species = (clusterAt dist sym sites' c).species := by
    intro c
    rw [clusterAt_species, clusterAt_species, hsp]
  have h2 : ∀ c, (clusterAt dist sym sites c).matrix = (clusterAt dist sym sites' c).matrix := by
    intro c
    rw [clusterAt_matrix, clusterAt_matrix, hsp, hdd]
  have h3 : ∀ c, (clusterAt dist sym sites c).roles = (clusterAt dist sym sites' c).roles := by
    intro c
    rw [clusterAt_roles, clusterAt_roles, h1]
  have hv : ∀ c, (clusterAt dist sym sites c).view = (clusterAt dist sym sites' c).view := by
    intro c
    simp only [Cluster.view, h1, h2, h3]
    rfl
  have hrec : ∀ c, (clusterAt dist sym sites c).record round = (clusterAt dist sym sites' c).record round := by
    intro c
    simp only [Cluster.record, h1, h2, h3]
    rfl
  unfold shapes geometry
  congr 1
  · funext c
    simp only [Cluster.bondDistances, h2]
  · funext a b
    simp only [Cluster.matchesCluster, h2, hv]
  · funext o
    simp only [hfp, Orbit.fingerprint, orbitAt, Orbit.ofClusters, List.map_map, Function.comp_def, hrec,
      List.length_map]

theorem fingerprint_iff {P D : Type} (round : D → D) (le : OrbitRecord D → OrbitRecord D → Bool)
    (htrans : ∀ a b c, le a b = true → le b c = true → le a c = true)
    (htotal : ∀ a b, (le a b || le b a) = true) (hanti : ∀ a b, le a b = true → le b a = true → a = b)
    (digest : List (OrbitRecord D) → Int → String)
    (hdigest : ∀ l n l' n', digest l n = digest l' n' → l = l' ∧ n = n') (o o' : Orbit P D) :
    Orbit.fingerprint round le digest o = Orbit.fingerprint round le digest o' ↔
      o.multiplicity = o'.multiplicity ∧
      (o.clusters.map fun c => (c.siteIndices, c.species.zip c.roles, c.matrix.map (List.map round))).Perm
        (o'.clusters.map fun c => (c.siteIndices, c.species.zip c.roles, c.matrix.map (List.map round))) := by
  have hrec : ∀ l : List (Cluster P D),
      (l.map (Cluster.record round)) =
        (l.map fun c => (c.siteIndices, c.species.zip c.roles, c.matrix.map (List.map round))).map
          fun t => (⟨t.1, t.2.1, t.2.2⟩ : OrbitRecord D) := by
    intro l
    rw [List.map_map]
    rfl
  have hinj : Function.Injective fun t : List Int × List (String × String) × List (List D) =>
      (⟨t.1, t.2.1, t.2.2⟩ : OrbitRecord D) := by
    rintro ⟨a, b, c⟩ ⟨a', b', c'⟩ h
    cases h
    rfl
  constructor
  · intro h
    obtain ⟨h1, h2⟩ := hdigest _ _ _ _ h
    refine ⟨h2, ?_⟩
    have hp : (o.clusters.map (Cluster.record round)).Perm (o'.clusters.map (Cluster.record round)) :=
      (List.mergeSort_perm _ le).symm.trans (h1 ▸ List.mergeSort_perm _ le)
    rw [hrec, hrec] at hp
    exact (List.map_perm_map_iff hinj).1 hp
  · rintro ⟨h1, h2⟩
    unfold Orbit.fingerprint
    rw [h1]
    congr 1
    have hp : (o.clusters.map (Cluster.record round)).Perm (o'.clusters.map (Cluster.record round)) := by
      rw [hrec, hrec]
      exact h2.map _
    refine List.Perm.eq_of_pairwise (le := fun a b => le a b = true) (fun a b _ _ h h' => hanti a b h h') ?_ ?_
      ((List.mergeSort_perm _ le).trans (hp.trans (List.mergeSort_perm _ le).symm))
    · exact List.pairwise_mergeSort (fun a b c => htrans a b c) htotal _
    · exact List.pairwise_mergeSort (fun a b c => htrans a b c) htotal _

/-- C116.  What an orbit fingerprint stands for, if different records have different texts and different payloads
different digests: two orbits have the same fingerprint exactly when they have the same multiplicity and, in any
order, the same clusters by site numbers, labels and rounded distances. -/
theorem C116_fingerprint_identifies {P D : Type} (round : D → D) (text : OrbitRecord D → String)
    (htext : ∀ a b, text a = text b → a = b) (digest : List (OrbitRecord D) → Int → String)
    (hdigest : ∀ l n l' n', digest l n = digest l' n' → l = l' ∧ n = n') (o o' : Orbit P D) :
    Orbit.fingerprint round (fun a b => decide (text a ≤ text b)) digest o =
        Orbit.fingerprint round (fun a b => decide (text a ≤ text b)) digest o' ↔
      o.multiplicity = o'.multiplicity ∧
      (o.clusters.map fun c => (c.siteIndices, c.species.zip c.roles, c.matrix.map (List.map round))).Perm
        (o'.clusters.map fun c => (c.siteIndices, c.species.zip c.roles, c.matrix.map (List.map round))) := by
  have htrans : ∀ a b c, decide (text a ≤ text b) = true → decide (text b ≤ text c) = true →
      decide (text a ≤ text c) = true := by
    intro a b c h1 h2
    exact decide_eq_true ((of_decide_eq_true h1).trans (of_decide_eq_true h2))
  have htotal : ∀ a b, (decide (text a ≤ text b) || decide (text b ≤ text a)) = true := by
    intro a b
    simpa using le_total (text a) (text b)
  have hanti : ∀ a b, decide (text a ≤ text b) = true → decide (text b ≤ text a) = true → a = b := by
    intro a b h1 h2
    exact htext a b (le_antisymm (of_decide_eq_true h1) (of_decide_eq_true h2))
  exact fingerprint_iff round _ htrans htotal hanti digest hdigest o o'

/-- Texts and digests as the fingerprint needs them, for rational distances. -/
example : ∃ (text : OrbitRecord ℚ → String) (digest : List (OrbitRecord ℚ) → Int → String),
    (∀ a b, text a = text b → a = b) ∧ ∀ l n l' n', digest l n = digest l' n' → l = l' ∧ n = n' := by
  have hi : Function.Injective fun r : OrbitRecord ℚ => (r.siteIndices, r.labels, r.distances) := by
    rintro ⟨a, b, c⟩ ⟨a', b', c'⟩ h
    cases h
    rfl
  have hch : Countable Char :=
    (show Function.Injective Char.toNat from fun a b h => Char.ext (UInt32.toNat_inj.1 h)).countable
  have hst : Countable String :=
    (show Function.Injective String.toList from fun a b h => String.toList_inj.1 h).countable
  have hc : Countable (OrbitRecord ℚ) := hi.countable
  obtain ⟨f, hf⟩ := hc.exists_injective_nat
  obtain ⟨g, hg⟩ := (inferInstance : Countable (List (OrbitRecord ℚ) × Int)).exists_injective_nat
  have hs : Function.Injective fun n : Nat => String.ofList (List.replicate n 'a') := by
    intro a b h
    have := congrArg (fun s : String => s.toList.length) h
    simpa using this
  refine ⟨fun r => String.ofList (List.replicate (f r) 'a'), fun l n => String.ofList (List.replicate (g (l, n)) 'a'),
    fun a b h => hf (hs h), fun l n l' n' h => ?_⟩
  have := hg (hs h)
  cases this
  exact ⟨rfl, rfl⟩

omit [IsStrictOrderedRing D] in
/-- C116.  A copy of an environment with the same species and distances (rotated, shifted or mirrored)
gives the same model: the same terms, tables and fingerprints. -/
theorem C116_same_shape_same_model {dist : P → P → D} (sym : List (String × P) → String)
    (row : List (List D) → Nat → R) (h : Digests P D) (round : D → D)
    (le : OrbitRecord D → OrbitRecord D → Bool) (digest : List (OrbitRecord D) → Int → String)
    (hfp : h.orbit = Orbit.fingerprint round le digest) (sites sites' : List (String × P))
    (hs : SameShape dist sites sites') (b : SiteBasis K) (counts : List Nat) (hash : Option String) (pc : D)
    (cc : List D) :
    build (shapes dist sym row h sites) b counts hash pc cc =
      build (shapes dist sym row h sites') b counts hash pc cc := by
  rw [shapes_same sym row h round le digest hfp hs]

omit [CommRing K] [LinearOrder D] [Field D] [IsStrictOrderedRing D] in
theorem build_hash [Zero K] [LinearOrder D] {g : ClusterGeometry D} {b : SiteBasis K} {counts : List Nat} {hash : Option String}
    {pc : D} {cc : List D} {m : LCE K} (hm : build g b counts hash pc cc = .ok m) :
    m.environmentHash = hash := by
  unfold build at hm
  split at hm
  · cases hm
  · unfold configureCorrelationTerms at hm
    split at hm
    · split at hm
      · cases hm
      · cases hm; rfl
    · cases hm; rfl

omit [IsStrictOrderedRing D] in
/-- C116.  All the same, parameters that carry the hash of the first environment are refused by the
model of the copy as soon as the two hashes differ. -/
theorem C116_copy_refuses_parameters {dist : P → P → D} (sym : List (String × P) → String)
    (row : List (List D) → Nat → R) (h : Digests P D)
    (sites sites' : List (String × P)) (b : SiteBasis K) (counts : List Nat)
    (pc : D) (cc : List D) (m' : LCE K)
    (hm' : build (shapes dist sym row h sites') b counts (some (h.environment sites')) pc cc = .ok m')
    (hne : h.environment sites' ≠ "") (hdiff : h.environment sites ≠ h.environment sites')
    (keci : List K) (e0 : K) (fps : Option (List String)) :
    ∃ x, m'.setParameters (.object keci e0 fps (some (h.environment sites))) = (.error x, m') := by
  cases hr : m'.setParameters (.object keci e0 fps (some (h.environment sites))) with
  | mk r m2 =>
    cases r with
    | error x => exact ⟨x, by rw [C38_rejected_unchanged _ _ _ _ hr]⟩
    | ok u =>
      obtain ⟨k, c, f, hh, hcon, -, h2, -⟩ := (C38_accepted_iff m' _).1 ⟨m2, hr⟩
      cases hcon
      exact absurd (h2 _ _ (build_hash hm') hne rfl) hdiff

/-- C116.  Three cutoffs (pairs, triplets, quadruplets) are needed and enough to build a model of an
environment with sites; with fewer there is an `IndexError`. -/
theorem C116_build_needs_three_cutoffs (g : ClusterGeometry D) (b : SiteBasis K) (counts : List Nat)
    (hn : counts ≠ []) (hash : Option String) (pc : D) (cc : List D) :
    (3 ≤ cc.length → ∃ m, build g b counts hash pc cc = .ok m) ∧
      (cc.length < 3 → build g b counts hash pc cc = .error .indexError) := by
  constructor
  · intro hcc
    obtain ⟨kept, hk⟩ := keepClusters_total (g := g) (cutoff := pc :: cc)
      (cand := candidateClusters counts.length) (by
        intro c hc
        have := mem_candidateClusters.mp hc
        simp only [List.length_cons]
        omega)
    simp only [build, buildClusters, hk, List.length_cons]
    rw [if_neg (by omega)]
    simp only [configureCorrelationTerms]
    split
    · obtain ⟨n, ns, rfl⟩ : ∃ n ns, counts = n :: ns := by
        cases counts with
        | nil => exact absurd rfl hn
        | cons n ns => exact ⟨n, ns, rfl⟩
      simp only [buildSiteBasisValues, List.map_cons, List.max?_cons']
      exact ⟨_, rfl⟩
    · exact ⟨_, rfl⟩
  · intro hcc
    simp only [build, buildClusters, List.length_cons]
    rw [if_pos (by omega)]

/-! ### Motions of space -/

omit [Field D] [LinearOrder D] [IsStrictOrderedRing D] in
/-- Moving all sites by a map that keeps distances gives an environment of the same shape. -/
theorem moved_same_shape {dist : P → P → D} (T : P → P) (hT : ∀ p q, dist (T p) (T q) = dist p q)
    (sites : List (String × P)) : SameShape dist sites (sites.map fun a => (a.1, T a.2)) := by
  refine ⟨by simp, ?_, ?_⟩
  · intro s
    unfold siteSpecies
    rw [List.getElem?_map]
    cases sites[s]? <;> rfl
  · intro s t
    unfold distanceOf
    rw [List.getElem?_map, List.getElem?_map]
    cases sites[s]? <;> cases sites[t]? <;> simp [hT]

/-- The square of the Euclidean distance. -/
def squaredDistance (p q : D × D × D) : D :=
  (p.1 - q.1) ^ 2 + (p.2.1 - q.2.1) ^ 2 + (p.2.2 - q.2.2) ^ 2

/-- The mirror image in the plane of the second and third axis. -/
def mirrored (p : D × D × D) : D × D × D := (-p.1, p.2.1, p.2.2)

omit [IsStrictOrderedRing D] in
/-- C116.  The mirror image of an environment has the same model; `root` is the square root in the
distance. -/
theorem C116_mirror_image_same_model (root : D → D) (sym : List (String × (D × D × D)) → String)
    (row : List (List D) → Nat → R) (h : Digests (D × D × D) D) (round : D → D)
    (le : OrbitRecord D → OrbitRecord D → Bool) (digest : List (OrbitRecord D) → Int → String)
    (hfp : h.orbit = Orbit.fingerprint round le digest) (sites : List (String × (D × D × D)))
    (b : SiteBasis K) (counts : List Nat) (hash : Option String) (pc : D) (cc : List D) :
    build (shapes (fun p q => root (squaredDistance p q)) sym row h
        (sites.map fun a => (a.1, mirrored a.2))) b counts hash pc cc =
      build (shapes (fun p q => root (squaredDistance p q)) sym row h sites) b counts hash pc cc := by
  refine (C116_same_shape_same_model sym row h round le digest hfp _ _
    (moved_same_shape mirrored ?_ sites) b counts hash pc cc).symm
  intro p q
  congr 1
  simp only [squaredDistance, mirrored]
  ring

/-- C116.  Two clusters of an environment that are mirror images of each other share their coefficient,
even if no rotation takes one to the other. -/
theorem C116_mirrored_clusters_share (root : D → D) (hd : Metric fun p q : D × D × D => root (squaredDistance p q))
    (sym : List (String × (D × D × D)) → String) (row : List (List D) → Nat → R)
    (h : Digests (D × D × D) D) (sites : List (String × (D × D × D)))
    (hsep : SeparatedDistances (fun p q => root (squaredDistance p q)) sites) (b : SiteBasis K) (counts : List Nat)
    (hn : counts.length = sites.length) (hash : Option String) (pc : D) (cc : List D) (m : LCE K)
    (hm : build (shapes (fun p q => root (squaredDistance p q)) sym row h sites) b counts hash pc cc = .ok m)
    (o : List (List Int)) (ho : o ∈ m.clusterSiteIndices) (a c : List Nat) (ha : IsCluster sites.length a)
    (hc : IsCluster sites.length c) (hao : a.map Int.ofNat ∈ o) (f : Nat → Nat) (v : D × D × D)
    (hf : (a.map f).Perm c)
    (hpos : ∀ s ∈ a, sites[f s]? = sites[s]?.map fun q => (q.1, mirrored q.2 + v)) :
    c.map Int.ofNat ∈ o := by
  refine (C116_term_is_congruence_class hd sym row h sites hsep b counts hn hash pc cc m hm o ho a c ha hc
    hao).2 ⟨f, hf, ?_, ?_⟩
  · intro s hs
    unfold siteSpecies
    rw [hpos s hs]
    cases sites[s]? <;> rfl
  · intro s hs t ht
    unfold distanceOf
    rw [hpos s hs, hpos t ht]
    cases sites[s]? with
    | none => rfl
    | some p =>
      cases sites[t]? with
      | none => rfl
      | some q =>
        simp only [Option.map_some, Option.some.injEq]
        congr 1
        simp only [squaredDistance, mirrored, Prod.fst_add, Prod.snd_add]
        ring

/-! ### Concrete environments -/

namespace ShapeSamples

/-- Sodium sites on a line. -/
def line (xs : List ℚ) : List (String × ℚ) := xs.map fun x => ("Na", x)

/-- Distance on the line. -/
def gap (p q : ℚ) : ℚ := |p - q|

theorem gap_metric : Metric gap :=
  ⟨fun p q => abs_sub_comm p q, fun p => by simp [gap], fun p q => abs_nonneg _⟩

def noSym (_ : List (String × ℚ)) : String := ""
def noRow (_ : List (List ℚ)) (_ : Nat) : Nat := 0
def texts : Digests ℚ ℚ where
  orbit := Orbit.fingerprint id (fun _ _ => true) fun r _ => String.ofList (r.map fun _ => 'o')
  decorated := fun s _ _ => s
  environment := fun l => if (l.map (·.2)).headD 0 = 0 then "here" else "there"

def plainBasis : SiteBasis ℚ := ⟨false, fun _ => 1, fun n => List.replicate n [1]⟩

theorem plainBasis_shape : BasisShape plainBasis := by
  refine ⟨fun n => by simp [plainBasis], ?_⟩
  intro n row h
  simp only [plainBasis, List.mem_replicate] at h
  rw [h.2]
  rfl

/-- Three sites at distance 1: the first and the last can be exchanged. -/
theorem line_separated : SeparatedDistances gap (line [0, 1, 2]) := by
  intro s t u v x y hst huv hx hy hxy
  have hval : ∀ s t x, s ≠ t → distanceOf gap (line [0, 1, 2]) s t = some x → x = 1 ∨ x = 2 := by
    intro s t x hst h
    match s, t, hst, h with
    | 0, 1, _, h => cases h; left; norm_num [gap]
    | 0, 2, _, h => cases h; right; norm_num [gap]
    | 1, 0, _, h => cases h; left; norm_num [gap]
    | 1, 2, _, h => cases h; left; norm_num [gap]
    | 2, 0, _, h => cases h; right; norm_num [gap]
    | 2, 1, _, h => cases h; left; norm_num [gap]
    | 0, 0, hst, _ => exact absurd rfl hst
    | 1, 1, hst, _ => exact absurd rfl hst
    | 2, 2, hst, _ => exact absurd rfl hst
    | _ + 3, 0, _, h => cases h
    | _ + 3, 1, _, h => cases h
    | _ + 3, 2, _, h => cases h
    | 0, _ + 3, _, h => cases h
    | 1, _ + 3, _, h => cases h
    | 2, _ + 3, _, h => cases h
    | _ + 3, _ + 3, _, h => cases h
  unfold PassesFor at hxy
  rcases hval s t x hst hx with rfl | rfl <;> rcases hval u v y huv hy with rfl | rfl <;>
    first | rfl | (exfalso; norm_num at hxy)

theorem line_symmetry : EnvironmentSymmetry gap (line [0, 1, 2]) (fun s => 2 - s) := by
  have h3 : ∀ s, s < (line [0, 1, 2]).length → s = 0 ∨ s = 1 ∨ s = 2 := by
    intro s hs
    simp only [line, List.length_map, List.length_cons, List.length_nil] at hs
    omega
  refine ⟨?_, ?_, ?_, ?_⟩
  · intro s hs
    simp only [line, List.length_map, List.length_cons, List.length_nil] at hs ⊢
    omega
  · intro s t hs ht h
    simp only [line, List.length_map, List.length_cons, List.length_nil] at hs ht
    omega
  · intro s hs
    rcases h3 s hs with rfl | rfl | rfl <;> rfl
  · intro s t hs ht
    rcases h3 s hs with rfl | rfl | rfl <;> rcases h3 t ht with rfl | rfl | rfl <;>
      simp only [distanceOf, line, gap, List.map_cons, List.map_nil, List.getElem?_cons_zero,
        List.getElem?_cons_succ, Nat.sub_self, Nat.sub_zero, Nat.reduceSub, Option.some.injEq] <;> norm_num

/-- The three sites 0, 1, `z`: which clusters are kept with pair cutoff 3/2 and no larger clusters. -/
theorem line_kept (z : ℚ) (h1 : 1 < z) (h2 : z < 5 / 2) (h3 : 3 / 2 ≤ z) :
    (candidateClusters 3).filter (withinCutoff (shapes gap noSym noRow texts (line [0, 1, z])) [10, 3 / 2, 0, 0]) =
      [[0], [1], [2], [0, 1], [1, 2]] := by
  have hlt : ∀ (c : List Nat) (r : ℚ), (∀ s ∈ c, s < 3) → c ≠ [] →
      ([10, 3 / 2, 0, 0] : List ℚ)[c.length - 1]? = some r →
      (withinCutoff (shapes gap noSym noRow texts (line [0, 1, z])) [10, 3 / 2, 0, 0] c = true ↔
        ∀ s ∈ c, ∀ t ∈ c, ∀ x, distanceOf gap (line [0, 1, z]) s t = some x → x < r) := by
    intro c r hc hne hr
    simp only [withinCutoff, hr, decide_eq_true_eq]
    exact maxLength_lt_iff gap_metric noSym noRow texts (line [0, 1, z]) hc hne r
  have p0 : withinCutoff (shapes gap noSym noRow texts (line [0, 1, z])) [10, 3 / 2, 0, 0] [0] = true := by
    rw [hlt _ _ (by decide) (by decide) rfl]
    simp [distanceOf, line, gap]
  have p1 : withinCutoff (shapes gap noSym noRow texts (line [0, 1, z])) [10, 3 / 2, 0, 0] [1] = true := by
    rw [hlt _ _ (by decide) (by decide) rfl]
    simp [distanceOf, line, gap]
  have p2 : withinCutoff (shapes gap noSym noRow texts (line [0, 1, z])) [10, 3 / 2, 0, 0] [2] = true := by
    rw [hlt _ _ (by decide) (by decide) rfl]
    simp [distanceOf, line, gap]
  have q01 : withinCutoff (shapes gap noSym noRow texts (line [0, 1, z])) [10, 3 / 2, 0, 0] [0, 1] = true := by
    rw [hlt _ _ (by decide) (by decide) rfl]
    simp [distanceOf, line, gap]; norm_num
  have q12 : withinCutoff (shapes gap noSym noRow texts (line [0, 1, z])) [10, 3 / 2, 0, 0] [1, 2] = true := by
    rw [hlt _ _ (by decide) (by decide) rfl]
    simp [distanceOf, line, gap]
    rw [abs_lt, abs_lt]
    refine ⟨⟨by linarith, by linarith⟩, by linarith, by linarith⟩
  have q02 : withinCutoff (shapes gap noSym noRow texts (line [0, 1, z])) [10, 3 / 2, 0, 0] [0, 2] = false := by
    rw [← Bool.not_eq_true, hlt _ _ (by decide) (by decide) rfl]
    intro h
    have h' := h 0 (by simp) 2 (by simp) _ rfl
    simp only [gap] at h'
    rw [zero_sub, abs_neg, abs_of_pos (by linarith)] at h'
    linarith
  have t012 : withinCutoff (shapes gap noSym noRow texts (line [0, 1, z])) [10, 3 / 2, 0, 0] [0, 1, 2] = false := by
    rw [← Bool.not_eq_true, hlt _ _ (by decide) (by decide) rfl]
    intro h
    have h' := h 0 (by simp) 0 (by simp) _ rfl
    simp [gap] at h'
  have hcand : candidateClusters 3 = [[0], [1], [2], [0, 1], [0, 2], [1, 2], [0, 1, 2]] := by decide
  rw [hcand]
  simp only [List.filter, p0, p1, p2, q01, q12, q02, t012]

/-- The orbits of the three sites 0, 1, `z` if `z - 1` passes for 1. -/
theorem line_orbits (z : ℚ) (h1 : 1 < z) (h2 : z < 5 / 2) (h3 : 3 / 2 ≤ z) (hz : PassesFor 1 (z - 1)) :
    buildOrbits (clusterEq (shapes gap noSym noRow texts (line [0, 1, z])))
      ((candidateClusters 3).filter (withinCutoff (shapes gap noSym noRow texts (line [0, 1, z]))
        [10, 3 / 2, 0, 0])) = [[[0], [1], [2]], [[0, 1], [1, 2]]] := by
  rw [line_kept z h1 h2 h3]
  have hcl : ∀ c : List Nat, c.Pairwise (· < ·) → (∀ s ∈ c, s < 3) → IsCluster (line [0, 1, z]).length c :=
    fun c h h' => ⟨h, h'⟩
  have hE : ∀ a b : List Nat, IsCluster (line [0, 1, z]).length a → IsCluster (line [0, 1, z]).length b →
      (clusterEq (shapes gap noSym noRow texts (line [0, 1, z])) a b = true ↔
        NearlyCongruent gap (line [0, 1, z]) a b) :=
    fun a b ha hb => clusterEq_iff gap_metric noSym noRow texts _ ha hb
  have e01 : clusterEq (shapes gap noSym noRow texts (line [0, 1, z])) [0] [1] = true := by
    rw [hE _ _ (hcl _ (by decide) (by decide)) (hcl _ (by decide) (by decide))]
    refine ⟨fun _ => 1, by decide, ?_, ?_⟩
    · intro s hs
      simp only [List.mem_singleton] at hs
      subst hs; rfl
    · intro s hs t ht hst
      simp only [List.mem_singleton] at hs ht
      exact absurd (hs.trans ht.symm) hst
  have e02 : clusterEq (shapes gap noSym noRow texts (line [0, 1, z])) [0] [2] = true := by
    rw [hE _ _ (hcl _ (by decide) (by decide)) (hcl _ (by decide) (by decide))]
    refine ⟨fun _ => 2, by decide, ?_, ?_⟩
    · intro s hs
      simp only [List.mem_singleton] at hs
      subst hs; rfl
    · intro s hs t ht hst
      simp only [List.mem_singleton] at hs ht
      exact absurd (hs.trans ht.symm) hst
  have e12 : clusterEq (shapes gap noSym noRow texts (line [0, 1, z])) [0, 1] [1, 2] = true := by
    rw [hE _ _ (hcl _ (by decide) (by decide)) (hcl _ (by decide) (by decide))]
    refine ⟨fun s => s + 1, by decide, ?_, ?_⟩
    · intro s hs
      simp only [List.mem_cons, List.not_mem_nil, or_false] at hs
      rcases hs with rfl | rfl <;> rfl
    · intro s hs t ht hst
      simp only [List.mem_cons, List.not_mem_nil, or_false] at hs ht
      have hz' : |z - 1| = z - 1 := abs_of_pos (by linarith)
      rcases hs with rfl | rfl <;> rcases ht with rfl | rfl
      · exact absurd rfl hst
      · refine ⟨1, z - 1, ?_, ?_, hz⟩
        · simp [distanceOf, line, gap]
        · simp [distanceOf, line, gap]; rw [abs_sub_comm]; exact hz'
      · refine ⟨1, z - 1, ?_, ?_, hz⟩
        · simp [distanceOf, line, gap]
        · simp [distanceOf, line, gap]; exact le_of_lt h1
      · exact absurd rfl hst
  have f1 : clusterEq (shapes gap noSym noRow texts (line [0, 1, z])) [0] [0, 1] = false := rfl
  have f2 : clusterEq (shapes gap noSym noRow texts (line [0, 1, z])) [0] [1, 2] = false := rfl
  simp [buildOrbits, buildOrbitsStep, List.findIdx?_cons, e01, e02, e12, f1, f2]

/-- The model of the three sites 0, 1, `z`. -/
def lineModel (z : ℚ) : LCE ℚ where
  clusterSiteIndices := [[[0], [1], [2]], [[0, 1], [1, 2]]]
  correlationFingerprints := some ([[[0], [1], [2]], [[0, 1], [1, 2]]].map
    (shapes gap noSym noRow texts (line [0, 1, z])).fingerprint)
  orbitFingerprints := some ([[[0], [1], [2]], [[0, 1], [1, 2]]].map
    (shapes gap noSym noRow texts (line [0, 1, z])).fingerprint)
  environmentHash := some "here"

theorem line_build (z : ℚ) (h1 : 1 < z) (h2 : z < 5 / 2) (h3 : 3 / 2 ≤ z) (hz : PassesFor 1 (z - 1)) :
    build (shapes gap noSym noRow texts (line [0, 1, z])) plainBasis [2, 2, 2] (some "here") 10 [3 / 2, 0, 0] =
      .ok (lineModel z) := by
  obtain ⟨kept, hk⟩ : ∃ kept, keepClusters (shapes gap noSym noRow texts (line [0, 1, z])) [10, 3 / 2, 0, 0]
      (candidateClusters 3) = .ok kept := ⟨_, rfl⟩
  have hk2 := keepClusters_ok (by decide) hk
  have ho := line_orbits z h1 h2 h3 hz
  rw [← hk2] at ho
  unfold build buildClusters
  simp only [List.length_cons, List.length_nil]
  rw [if_neg (by decide), hk]
  simp only [ho]
  rfl

end ShapeSamples

open ShapeSamples

/-- C116.  Shapes need not be equal to share a coefficient: with distances 1 and 1.0015 the two pairs of
neighbours are merged. -/
theorem C116_tolerance_merges_shapes : ∃ (sites : List (String × ℚ)) (m : LCE ℚ) (o : List (List Int)),
    build (shapes gap noSym noRow texts sites) plainBasis [2, 2, 2] (some "here") 10 [3 / 2, 0, 0] = .ok m ∧
    o ∈ m.clusterSiteIndices ∧ [0, 1] ∈ o ∧ [1, 2] ∈ o ∧ ¬ Congruent gap sites [0, 1] [1, 2] := by
  refine ⟨line [0, 1, 4003 / 2000], lineModel _, [[0, 1], [1, 2]], line_build _ (by norm_num) (by norm_num)
    (by norm_num) (by unfold PassesFor; norm_num [abs_le]), by simp [lineModel], by simp, by simp, ?_⟩
  rintro ⟨f, hf, -, hd⟩
  have h := hd 0 (by simp) 1 (by simp)
  have hm0 : f 0 ∈ [1, 2] := hf.subset (by simp)
  have hm1 : f 1 ∈ [1, 2] := hf.subset (by simp)
  simp only [List.mem_cons, List.not_mem_nil, or_false] at hm0 hm1
  rcases hm0 with e0 | e0 <;> rcases hm1 with e1 | e1 <;> rw [e0, e1] at h <;>
    simp [distanceOf, line, gap] at h <;> norm_num [abs_of_pos, abs_of_neg] at h

/-- The model of three equidistant sites exists, has fingerprints and takes coefficients. -/
example : build (shapes gap noSym noRow texts (line [0, 1, 2])) plainBasis [2, 2, 2] (some "here") 10 [3 / 2, 0, 0] =
      .ok (lineModel 2) ∧ (lineModel 2).getOrbitFingerprints ≠ [] ∧
    ∃ m', (lineModel 2).setParameters (.dict (some [3, 5]) (some 7) none none) = (.ok (), m') :=
  ⟨line_build 2 (by norm_num) (by norm_num) (by norm_num) (by unfold PassesFor; norm_num),
    by simp [lineModel, LCE.getOrbitFingerprints], _, by rfl⟩

/-- Exchanging the first and the last of three equidistant sites does not change the value: the theorem
applies to the surroundings 1, 0, 0 and 0, 0, 1. -/
example (m' : LCE ℚ) (h : (lineModel 2).setParameters (.dict (some [3, 5]) (some 7) none none) = (.ok (), m')) :
    m'.compute [0, 0, 1, 0, 1] lineEvent = m'.compute [1, 0, 0, 0, 1] lineEvent := by
  have hv : ∀ a b c : Int, a ∈ [0, 1] → b ∈ [0, 1] → c ∈ [0, 1] →
      ValidSurroundings [2, 2, 2] [a, b, c, 0, 1] lineEvent.env := by
    intro a b c ha hb hc
    simp only [List.mem_cons, List.not_mem_nil, or_false] at ha hb hc
    refine ⟨rfl, ?_⟩
    intro s i n h1 h2
    match s, h1, h2 with
    | 0, h1, h2 => cases h1; cases h2; exact ⟨_, rfl, by omega, by omega⟩
    | 1, h1, h2 => cases h1; cases h2; exact ⟨_, rfl, by omega, by omega⟩
    | 2, h1, h2 => cases h1; cases h2; exact ⟨_, rfl, by omega, by omega⟩
    | _ + 3, h1, h2 => cases h1
  have bound : ∀ s i, pyGet lineEvent.env s = .ok i →
      s = 0 ∨ s = 1 ∨ s = 2 ∨ s = -1 ∨ s = -2 ∨ s = -3 := by
    intro s i hs
    obtain ⟨k, hk, -⟩ := pyGet_ok_iff.1 hs
    rw [show lineEvent.env.length = 3 from rfl] at hk
    unfold pyIdx at hk
    split at hk
    · split at hk
      · omega
      · cases hk
    · split at hk
      · omega
      · cases hk
  refine C116_symmetric_occupations gap_metric noSym noRow texts (line [0, 1, 2]) line_separated plainBasis
    plainBasis_shape
    [2, 2, 2] rfl (some "here") 10 [3 / 2, 0, 0] (lineModel 2) m'
    (line_build 2 (by norm_num) (by norm_num) (by norm_num) (by unfold PassesFor; norm_num))
    (by simp [lineModel, LCE.getOrbitFingerprints]) _ h _ line_symmetry ?_ (by intro h; cases h)
    [1, 0, 0, 0, 1] [0, 0, 1, 0, 1] lineEvent lineEvent (hv 1 0 0 (by simp) (by simp) (by simp))
    (hv 0 0 1 (by simp) (by simp) (by simp)) (fun s => if s % 3 = 0 then 1 else 0) (fun s => if s % 3 = 2 then 1 else 0)
    ?_ ?_ ?_
  · intro s hs
    have : s = 0 ∨ s = 1 ∨ s = 2 := by
      simp only [line, List.length_map, List.length_cons, List.length_nil] at hs; omega
    rcases this with rfl | rfl | rfl <;> rfl
  · intro s i hs
    have : s = 0 ∨ s = 1 ∨ s = 2 ∨ s = -1 ∨ s = -2 ∨ s = -3 := bound s i hs
    rcases this with rfl | rfl | rfl | rfl | rfl | rfl <;> cases hs <;> rfl
  · intro s i hs
    have : s = 0 ∨ s = 1 ∨ s = 2 ∨ s = -1 ∨ s = -2 ∨ s = -3 := bound s i hs
    rcases this with rfl | rfl | rfl | rfl | rfl | rfl <;> cases hs <;> rfl
  · intro s hs
    have : s = 0 ∨ s = 1 ∨ s = 2 := by
      simp only [line, List.length_map, List.length_cons, List.length_nil] at hs; omega
    rcases this with rfl | rfl | rfl <;> rfl

/-- A shifted copy has the same shape and another hash. -/
example : SameShape gap (line [0, 1, 2]) (line [5, 6, 7]) ∧
    texts.environment (line [0, 1, 2]) ≠ texts.environment (line [5, 6, 7]) ∧
    texts.environment (line [5, 6, 7]) ≠ "" := by
  refine ⟨?_, by decide +kernel, by decide +kernel⟩
  have := moved_same_shape (dist := gap) (fun x => x + 5) (by intro p q; simp [gap]) (line [0, 1, 2])
  have e : (line [0, 1, 2]).map (fun a => (a.1, a.2 + 5)) = line [5, 6, 7] := by
    simp [line]; norm_num
  rw [e] at this
  exact this

/-- Four sites in space: the second pair is the mirror image of the first, and both share the
coefficient of a model with pair cutoff 2 (distances are squared here). -/
example (row : List (List ℚ) → Nat → Nat) (h : Digests (ℚ × ℚ × ℚ) ℚ) :
    let sites : List (String × (ℚ × ℚ × ℚ)) := [("Na", 1, 0, 0), ("Na", 2, 0, 0), ("Na", -1, 0, 0), ("Na", -2, 0, 0)]
    ∃ m o, build (shapes (fun p q => id (squaredDistance p q)) (fun _ => "") row h sites) plainBasis
        [2, 2, 2, 2] none 10 [2, 0, 0] = .ok m ∧ o ∈ m.clusterSiteIndices ∧ [0, 1] ∈ o ∧ [2, 3] ∈ o := by
  intro sites
  have hd : Metric fun p q : ℚ × ℚ × ℚ => id (squaredDistance p q) := by
    refine ⟨?_, ?_, ?_⟩
    · intro p q
      simp only [squaredDistance, id]
      ring
    · intro p
      simp [squaredDistance]
    · intro p q
      simp only [squaredDistance, id]
      positivity
  have hn : ([2, 2, 2, 2] : List Nat).length = sites.length := rfl
  obtain ⟨m, hm⟩ := (C116_build_needs_three_cutoffs (shapes (fun p q => id (squaredDistance p q))
    (fun _ => "") row h sites) plainBasis [2, 2, 2, 2] (by simp) none 10 [2, 0, 0]).1 (by decide)
  have hsep : SeparatedDistances (fun p q => id (squaredDistance p q)) sites := by
    have hval : ∀ s t x, s ≠ t → distanceOf (fun p q => id (squaredDistance p q)) sites s t = some x →
        x = 1 ∨ x = 4 ∨ x = 9 ∨ x = 16 := by
      intro s t x hst hx
      have hs : s < 4 := by
        by_contra hc
        have : sites[s]? = none := List.getElem?_eq_none (by simp [sites]; omega)
        simp only [distanceOf, this] at hx
        cases hx
      have ht : t < 4 := by
        by_contra hc
        have : sites[t]? = none := List.getElem?_eq_none (by simp [sites]; omega)
        simp only [distanceOf, this] at hx
        split at hx <;> simp_all
      have : (s = 0 ∨ s = 1 ∨ s = 2 ∨ s = 3) ∧ (t = 0 ∨ t = 1 ∨ t = 2 ∨ t = 3) := by omega
      rcases this with ⟨rfl | rfl | rfl | rfl, rfl | rfl | rfl | rfl⟩ <;>
        first | exact absurd rfl hst | (cases hx; norm_num [squaredDistance])
    intro s t u v x y hst huv hx hy hxy
    unfold PassesFor at hxy
    rcases hval s t x hst hx with rfl | rfl | rfl | rfl <;> rcases hval u v y huv hy with rfl | rfl | rfl | rfl <;>
      first | rfl | (exfalso; norm_num at hxy)
  obtain ⟨o, ho, h01⟩ := (C116_clusters_within_cutoff hd (fun _ => "") row h sites plainBasis rfl [2, 2, 2, 2]
    hn none 10 [2, 0, 0] m hm [0, 1] ⟨by decide, by decide⟩).2 ⟨by decide, by decide, 2, rfl, by
      intro s hs t ht x hx
      simp only [List.mem_cons, List.not_mem_nil, or_false] at hs ht
      rcases hs with rfl | rfl <;> rcases ht with rfl | rfl <;> cases hx <;> norm_num [squaredDistance]⟩
  refine ⟨m, o, hm, ho, h01, ?_⟩
  refine C116_mirrored_clusters_share id hd (fun _ => "") row h sites hsep plainBasis [2, 2, 2, 2] hn none 10
    [2, 0, 0] m hm o ho [0, 1] [2, 3] ⟨by decide, by decide⟩ ⟨by decide, by decide⟩ h01 (fun s => s + 2) 0
    (by decide) ?_
  intro s hs
  simp only [List.mem_cons, List.not_mem_nil, or_false] at hs
  rcases hs with rfl | rfl <;> simp [sites, mirrored]

end KMC
