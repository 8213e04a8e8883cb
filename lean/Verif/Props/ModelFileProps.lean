import Verif.Lemmas.ModelFile
import Verif.Props.LCEBuildProps
/-
C78: clusters and orbits survive being saved; C79: so do models.
-/
namespace KMC
namespace ModelFile
open Spec
variable {P D K : Type}

/-! ### C78: clusters and orbits -/

/-- C78.  A cluster made from sites or from species and coordinates is read back as it was saved. -/
theorem C78_cluster (dist : P → P → D) (indices : Option (List Int)) (species : List String)
    (coords : List P) (roles : Option (List String)) (sym : String) (c : Cluster P D)
    (h : Cluster.make dist indices species coords roles none sym = .ok c) :
    Cluster.fromDict dist c.asDict = .ok c := by
  refine cluster_round ?_
  simp only [Cluster.make] at h
  split at h
  · cases h
  · split at h
    · cases h
    · split at h
      · cases h
      · cases h
        rename_i h1 h2 h3
        exact ⟨not_not.mp h1, not_not.mp h2, not_not.mp h3, rfl⟩

/-- C78.  An orbit of such clusters is read back as it was saved, with its multiplicity. -/
theorem C78_orbit (dist : P → P → D) (o : Orbit P D) (h : ∀ c ∈ o.clusters, FromPositions dist c) :
    Orbit.fromDict dist o.asDict = .ok o := orbit_round h

/-- C78.  The distances of a cluster made with its own distance matrix are not saved: whatever the
matrix was, the cluster read back has the distances of its positions. -/
theorem C78_own_distances_lost (dist : P → P → D) (indices : Option (List Int)) (species : List String)
    (coords : List P) (roles : Option (List String)) (matrix : List (List D)) (sym : String)
    (c : Cluster P D) (h : Cluster.make dist indices species coords roles (some matrix) sym = .ok c) :
    c.matrix = matrix ∧ ∃ c', Cluster.fromDict dist c.asDict = .ok c' ∧
      c'.matrix = coords.map (fun a => coords.map fun b => dist a b) ∧
      (c' = c ↔ matrix = coords.map (fun a => coords.map fun b => dist a b)) := by
  simp only [Cluster.make] at h
  split at h
  · cases h
  · split at h
    · cases h
    · split at h
      · cases h
      · split at h
        · cases h
          rename_i h1 h2 h3 _
          refine ⟨rfl, ⟨_, _, _, _, distances dist coords, _⟩, cluster_round
            (c := ⟨_, _, _, _, distances dist coords, _⟩)
            ⟨not_not.mp h1, not_not.mp h2, not_not.mp h3, rfl⟩, rfl, ?_⟩
          simp [distances, eq_comm]
        · cases h

/-- Two sites on a line, made with their own distance (for instance that of periodic images). -/
example : ∃ c : Cluster Int Int, Cluster.make (fun a b => (a - b).natAbs) none ["Na", "Na"] [0, 9] none
    (some [[0, 1], [1, 0]]) "" = .ok c ∧
    Cluster.fromDict (fun a b => ((a - b).natAbs : Int)) c.asDict ≠ .ok c := ⟨_, rfl, by decide⟩

/-! ### C79: models -/

section lce
variable [CommRing K]

omit [CommRing K] in
theorem validate_congr {a b : LCE K} (h4 : a.getOrbitFingerprints = b.getOrbitFingerprints)
    (h5 : a.environmentHash = b.environmentHash) (k : List K) (f : Option (List String))
    (s s' : Option String) (hs : a.environmentHash.getD "" = "" ∨ s = s') :
    a.validateParameterOrbits k f s = b.validateParameterOrbits k f s' := by
  rcases hs with hs | rfl
  · have hs' : b.environmentHash.getD "" = "" := by rw [← h5]; exact hs
    simp only [LCE.validateParameterOrbits, h4, hs, hs', ne_eq, not_true_eq_false, false_and, if_false]
  · simp only [LCE.validateParameterOrbits, h4, h5]

theorem correlation_congr {a b : LCE K} (h1 : a.clusterSiteIndices = b.clusterSiteIndices)
    (h2 : a.basisIndices = b.basisIndices) (h3 : a.siteBasisValues = b.siteBasisValues) (occ : List Int) :
    a.calculateCorrelation occ = b.calculateCorrelation occ := by
  simp only [LCE.calculateCorrelation, h1, h2, h3]

theorem compute_congr {a b : LCE K} (h1 : a.clusterSiteIndices = b.clusterSiteIndices)
    (h2 : a.basisIndices = b.basisIndices) (h3 : a.siteBasisValues = b.siteBasisValues)
    (h4 : a.getOrbitFingerprints = b.getOrbitFingerprints) (h5 : a.environmentHash = b.environmentHash)
    (h6 : a.keci = b.keci) (h7 : a.emptyCluster = b.emptyCluster)
    (h8 : a.parameterFingerprints = b.parameterFingerprints)
    (h9 : a.environmentHash.getD "" = "" ∨ a.parameterHash = b.parameterHash) (occ : List Int) (e : Event) :
    a.compute occ e = b.compute occ e := by
  have hv : ∀ k, a.validateParameterOrbits k a.parameterFingerprints a.parameterHash =
      b.validateParameterOrbits k b.parameterFingerprints b.parameterHash := by
    intro k
    rw [h8]
    exact validate_congr h4 h5 k _ _ _ h9
  simp only [LCE.compute, h6, h7, hv, correlation_congr h1 h2 h3]

theorem interchangeable_of {a b : LCE K} (h1 : a.clusterSiteIndices = b.clusterSiteIndices)
    (h2 : a.basisIndices = b.basisIndices) (h3 : a.siteBasisValues = b.siteBasisValues)
    (h4 : a.getOrbitFingerprints = b.getOrbitFingerprints) (h5 : a.environmentHash = b.environmentHash)
    (h6 : a.keci = b.keci) (h7 : a.emptyCluster = b.emptyCluster)
    (h8 : a.parameterFingerprints = b.parameterFingerprints)
    (h9 : a.environmentHash.getD "" = "" ∨ a.parameterHash = b.parameterHash) : Interchangeable a b := by
  have hcomp := compute_congr h1 h2 h3 h4 h5 h6 h7 h8 h9
  have hs : ∀ k e0 f s, (a.storeParameters k e0 f s).1 = (b.storeParameters k e0 f s).1 := by
    intro k e0 f s
    simp only [LCE.storeParameters, validate_congr h4 h5 k f s s (.inr rfl)]
    cases b.validateParameterOrbits k f s <;> rfl
  have hs2 : ∀ k e0 f s occ e, (a.storeParameters k e0 f s).2.compute occ e =
      (b.storeParameters k e0 f s).2.compute occ e := by
    intro k e0 f s occ e
    simp only [LCE.storeParameters, validate_congr h4 h5 k f s s (.inr rfl)]
    cases hb : b.validateParameterOrbits k f s with
    | error x => exact hcomp occ e
    | ok k' =>
      have hk : ∀ (x y : LCE K), x = { a with
            keci := some k', emptyCluster := some e0
            parameterFingerprints := some (f.getD a.getOrbitFingerprints)
            parameterHash := s.or a.environmentHash } →
          y = { b with
            keci := some k', emptyCluster := some e0
            parameterFingerprints := some (f.getD b.getOrbitFingerprints)
            parameterHash := s.or b.environmentHash } → x.compute occ e = y.compute occ e := by
        intro x y hx hy
        subst hx hy
        apply compute_congr
        · exact h1
        · exact h2
        · exact h3
        · exact h4
        · exact h5
        · rfl
        · rfl
        · simp only [h4]
        · simp only [h5, or_true]
      exact hk _ _ rfl rfl
  refine ⟨correlation_congr h1 h2 h3, hcomp, ?_, ?_⟩
  · intro p
    cases p with
    | object k e0 f s => exact hs k e0 f s
    | dict k e0 f s =>
      cases k with
      | none => rfl
      | some k => cases e0 with
        | none => rfl
        | some e0 => exact hs k e0 f s
    | other => rfl
  · intro p occ e
    cases p with
    | object k e0 f s => exact hs2 k e0 f s occ e
    | dict k e0 f s =>
      cases k with
      | none => exact hcomp occ e
      | some k => cases e0 with
        | none => exact hcomp occ e
        | some e0 => exact hs2 k e0 f s occ e
    | other => exact hcomp occ e

/-- What holds of every built expansion. -/
structure Storable (dist : P → P → D) (h : Digests P D) (m : Expansion K P D) (os : List (Orbit P D))
    (env : List (String × P)) : Prop where
  orbits : m.orbits = some os
  environment : m.environment = some env
  positions : ∀ o ∈ os, ∀ c ∈ o.clusters, FromPositions dist c
  hash : m.environmentHash = some (h.environment env)
  tables : m.basis.usesStateIndices = true → m.basisIndices.isSome ∧ m.siteBasisValues.isSome
  fps : (∃ fs l, m.featureMeta = some fs ∧ featureFingerprints h os fs = .ok l ∧
      m.correlationFingerprints = some l) ∨
    (m.featureMeta = none ∧ m.correlationFingerprints = some (os.map h.orbit))

/-- What the dictionary of an expansion is read back as. -/
def reread (m : Expansion K P D) : Expansion K P D :=
  { m with
    correlationFingerprints := if m.featureMeta.isSome then m.correlationFingerprints else none
    keci := none
    emptyCluster := none
    parameterFingerprints := none
    parameterHash := none }

omit [CommRing K] in
theorem reread_fps {dist : P → P → D} {h : Digests P D} {m : Expansion K P D} {os : List (Orbit P D)}
    {env : List (String × P)} (hm : Storable dist h m os env) :
    ((reread m).core h).getOrbitFingerprints = (m.core h).getOrbitFingerprints := by
  rcases hm.fps with ⟨fs, l, h1, _, h3⟩ | ⟨h1, h2⟩
  · simp [LCE.getOrbitFingerprints, Expansion.core, reread, h1, h3]
  · simp [LCE.getOrbitFingerprints, Expansion.core, reread, h1, h2, hm.orbits]

theorem storable_round {dist : P → P → D} {h : Digests P D} {m : Expansion K P D} {os : List (Orbit P D)}
    {env : List (String × P)} (hm : Storable dist h m os env) :
    ∃ d, m.asDict h = .ok d ∧ Expansion.fromDict dist h d = .ok (reread m) := by
  have hfp := reread_fps hm
  simp only [Expansion.asDict, hm.orbits, hm.environment]
  refine ⟨_, rfl, ?_⟩
  have hl : ∀ (d : ExpansionPayload K P), d.basis = some m.basis → d.basisIndices = m.basisIndices →
      d.siteBasisValues = m.siteBasisValues → lacksTables d = false := by
    intro d h1 h2 h3
    simp only [lacksTables, h1, h2, h3, Option.getD_some]
    cases hu : m.basis.usesStateIndices with
    | false => simp
    | true =>
      obtain ⟨h4, h5⟩ := hm.tables hu
      rw [← Option.not_isSome, ← Option.not_isSome, h4, h5]
      simp
  simp only [Expansion.fromDict, orbits_round hm.positions]
  rw [hl _ rfl rfl rfl]
  simp only [Bool.false_eq_true, if_false, checkOrbits]
  rcases hm.fps with ⟨fs, l, h1, h2, h3⟩ | ⟨h1, h2⟩
  · have h5 : (m.core h).getOrbitFingerprints = l := by simp [LCE.getOrbitFingerprints, Expansion.core, h3]
    simp only [restoredFingerprints, h1, h2]
    rw [if_neg (by simp [LCE.getOrbitFingerprints, Expansion.core, h3])]
    obtain ⟨h6, h7, _, h8, _, _⟩ := hm
    cases m
    simp_all [restored, reread]
  · have h5 : (m.core h).getOrbitFingerprints = os.map h.orbit := by
      simp [LCE.getOrbitFingerprints, Expansion.core, h2]
    simp only [restoredFingerprints, h1, h5, List.length_map, ne_eq, not_true_eq_false, if_false]
    rw [if_neg (by simp [LCE.getOrbitFingerprints, Expansion.core, restored])]
    obtain ⟨h6, h7, _, h8, _, _⟩ := hm
    cases m
    simp_all [restored, reread]

end lce

section built
variable [Field K] {L : Type} [LinearOrder L]

theorem build_storable {dist : P → P → D} {sym : List (String × P) → String} {h : Digests P D}
    {ml : List Nat → L} {mt : List Nat → List Nat → Bool} {b : Basis} {sites : List (String × P)}
    {counts : List Nat} {pc : L} {cc : List L} {m : Expansion K P D}
    (hb : Expansion.build dist sym h ml mt b sites counts pc cc = .ok m) :
    ∃ os, Storable dist h m os sites := by
  simp only [Expansion.build] at hb
  split at hb
  · cases hb
  · rename_i clusters hc
    split at hb
    · cases hb
    · rename_i c hcfg
      injection hb with hb
      subst hb
      refine ⟨_, rfl, rfl, ?_, rfl, ?_, ?_⟩
      · intro o ho c hc'
        simp only [List.mem_map] at ho
        obtain ⟨o', ho', rfl⟩ := ho
        simp only [orbitAt, Orbit.ofClusters, List.mem_map] at hc'
        obtain ⟨idx, hidx, rfl⟩ := hc'
        refine clusterAt_positions dist sym sites idx ?_
        have h1 : idx ∈ clusters :=
          (C37_partition _ clusters).mem_iff.mp (List.mem_flatten.mpr ⟨o', ho', hidx⟩)
        have h2 : clusters = (LCE.candidateClusters sites.length).filter
            (LCE.withinCutoff (geometry dist sym h sites ml mt) (pc :: cc)) := by
          simp only [LCE.buildClusters] at hc
          split at hc
          · cases hc
          · refine LCE.keepClusters_ok ?_ hc
            intro c hc' hne
            subst hne
            have := LCE.mem_candidateClusters.mp hc'
            simp at this
        rw [h2] at h1
        exact (LCE.mem_candidateClusters.mp (List.mem_filter.mp h1).1).2.1
      · intro hu
        have hu : (b.siteBasis K).usesStateIndices = true := hu
        simp only [LCE.configureCorrelationTerms, hu, if_true] at hcfg
        split at hcfg
        · cases hcfg
        · cases hcfg
          exact ⟨rfl, rfl⟩
      · cases hu : b.usesStateIndices with
        | false =>
          right
          have hu' : (b.siteBasis K).usesStateIndices = false := hu
          simp only [LCE.configureCorrelationTerms, hu', Bool.false_eq_true, if_false] at hcfg
          cases hcfg
          refine ⟨by simp, ?_⟩
          simp [geometry, List.map_map, Function.comp_def]
        | true =>
          left
          have hf := all_features dist sym h sites ml mt (b.siteBasis K) counts []
            (LCE.buildOrbits (LCE.clusterEq (geometry dist sym h sites ml mt)) clusters)
          have hu' : (b.siteBasis K).usesStateIndices = true := hu
          simp only [LCE.configureCorrelationTerms, hu', if_true] at hcfg
          split at hcfg
          · cases hcfg
          · cases hcfg
            exact ⟨_, _, by simp, hf, rfl⟩

/-- The whole object computes as `LCE.build` says: `Props/LCEBuildProps` is about the same expansions. -/
theorem build_core {dist : P → P → D} {sym : List (String × P) → String} {h : Digests P D}
    {ml : List Nat → L} {mt : List Nat → List Nat → Bool} {b : Basis} {sites : List (String × P)}
    {counts : List Nat} (hn : counts.length = sites.length) (pc : L) (cc : List L) :
    (match Expansion.build (K := K) dist sym h ml mt b sites counts pc cc with
      | .error e => .error e
      | .ok m => .ok (m.core h)) =
    LCE.build (geometry dist sym h sites ml mt) (b.siteBasis K) counts (some (h.environment sites)) pc cc := by
  simp only [Expansion.build, LCE.build, hn]
  cases LCE.buildClusters (geometry dist sym h sites ml mt) (pc :: cc)
    (LCE.candidateClusters sites.length) with
  | error e => rfl
  | ok clusters =>
    simp only
    cases hc : LCE.configureCorrelationTerms (geometry dist sym h sites ml mt) (b.siteBasis K) counts
      (some (h.environment sites)) (LCE.buildOrbits (LCE.clusterEq (geometry dist sym h sites ml mt))
        clusters) with
    | error e => rfl
    | ok c =>
      simp only [Except.ok.injEq]
      simp only [LCE.configureCorrelationTerms] at hc
      split at hc
      · split at hc
        · cases hc
        · cases hc
          simp [Expansion.core, geometry, Function.comp_def]
      · cases hc
        simp [Expansion.core, geometry, Function.comp_def]

theorem storable_setParameters {dist : P → P → D} {h : Digests P D} {m : Expansion K P D}
    {os : List (Orbit P D)} {env : List (String × P)} (hm : Storable dist h m os env)
    (p : LCEParameters K) : Storable dist h (m.setParameters h p).2 os env :=
  ⟨hm.orbits, hm.environment, hm.positions, hm.hash, hm.tables, hm.fps⟩

/-- C79.  Saving a built expansion, with or without fitted parameters, and loading the file gives
an expansion with the same correlation vectors, which accepts the same parameters and then gives the same
values.  (The same expansion: give both the same parameters.) -/
theorem C79_expansion {dist : P → P → D} {sym : List (String × P) → String} {h : Digests P D}
    {ml : List Nat → L} {mt : List Nat → List Nat → Bool} {b : Basis} {sites : List (String × P)}
    {counts : List Nat} {pc : L} {cc : List L} {m : Expansion K P D}
    (hb : Expansion.build dist sym h ml mt b sites counts pc cc = .ok m) (p : LCEParameters K) :
    ∃ d m', (m.setParameters h p).2.asDict h = .ok d ∧ Expansion.fromDict dist h d = .ok m' ∧
      Interchangeable (m'.core h) (m.core h) := by
  obtain ⟨os, hs⟩ := build_storable hb
  have hs' := storable_setParameters hs p
  obtain ⟨d, h1, h2⟩ := storable_round hs'
  refine ⟨d, _, h1, h2, interchangeable_of rfl rfl rfl ?_ rfl ?_ ?_ ?_ (.inr ?_)⟩
  · exact (reread_fps hs').trans rfl
  all_goals
    simp only [Expansion.build] at hb
    split at hb
    · cases hb
    · split at hb
      · cases hb
      · cases hb
        rfl

/-- C79.  The file of an expansion does not hold its fitted parameters: after loading it, no value can
be computed, whatever the parameters were when it was saved. -/
theorem C79_expansion_parameters_lost {dist : P → P → D} {sym : List (String × P) → String}
    {h : Digests P D} {ml : List Nat → L} {mt : List Nat → List Nat → Bool} {b : Basis}
    {sites : List (String × P)} {counts : List Nat} {pc : L} {cc : List L} {m : Expansion K P D}
    (hb : Expansion.build dist sym h ml mt b sites counts pc cc = .ok m) (p : LCEParameters K) :
    ∃ d m', (m.setParameters h p).2.asDict h = .ok d ∧ Expansion.fromDict dist h d = .ok m' ∧
      ∀ occ e, (m'.core h).compute occ e = .error .valueError := by
  obtain ⟨os, hs⟩ := build_storable hb
  obtain ⟨d, h1, h2⟩ := storable_round (storable_setParameters hs p)
  exact ⟨d, _, h1, h2, fun _ _ => rfl⟩

/-- What a successful `set_parameters` leaves. -/
theorem setParameters_fields {h : Digests P D} {m : Expansion K P D} {p : LCEParameters K}
    (hp : (m.setParameters h p).1 = .ok ()) :
    ∃ k e0 s, (m.setParameters h p).2.keci = some k ∧ (m.setParameters h p).2.emptyCluster = some e0 ∧
      (m.setParameters h p).2.parameterFingerprints = some (m.core h).getOrbitFingerprints ∧
      (m.setParameters h p).2.parameterHash = s ∧
      ((m.core h).getOrbitFingerprints ≠ [] → k.length = (m.core h).getOrbitFingerprints.length) ∧
      (m.environmentHash.getD "" = "" ∨ s = m.environmentHash) := by
  have key : ∀ k e0 f s, ((m.core h).storeParameters k e0 f s).1 = .ok () →
      ((m.core h).storeParameters k e0 f s).2 = { m.core h with
        keci := some k, emptyCluster := some e0
        parameterFingerprints := some (m.core h).getOrbitFingerprints
        parameterHash := s.or m.environmentHash } ∧
      ((m.core h).getOrbitFingerprints ≠ [] → k.length = (m.core h).getOrbitFingerprints.length) ∧
      (m.environmentHash.getD "" = "" ∨ s.or m.environmentHash = m.environmentHash) := by
    intro k e0 f s hk
    simp only [LCE.storeParameters] at hk ⊢
    cases hv : (m.core h).validateParameterOrbits k f s with
    | error e => simp [hv] at hk
    | ok r =>
      obtain ⟨rfl, h1, h2, h3⟩ := LCE.validate_ok_iff.mp hv
      refine ⟨?_, h1, ?_⟩
      · have : f.getD (m.core h).getOrbitFingerprints = (m.core h).getOrbitFingerprints := by
          cases f with
          | none => rfl
          | some f => exact h3 f rfl
        simp only [this]
        rfl
      · by_cases he : m.environmentHash.getD "" = ""
        · exact .inl he
        · right
          cases s with
          | none => rfl
          | some s =>
            cases hm : m.environmentHash with
            | none => simp [hm] at he
            | some x =>
              have := h2 x s hm (by simpa [hm] using he) rfl
              simp [this]
  cases p with
  | object k e0 f s =>
    obtain ⟨h1, h2, h3⟩ := key k e0 f s hp
    simp only [Expansion.setParameters, LCE.setParameters, h1]
    exact ⟨k, e0, s.or m.environmentHash, by trivial, by trivial, by trivial, by trivial, h2, h3⟩
  | dict k e0 f s =>
    cases k with
    | none => cases hp
    | some k =>
      cases e0 with
      | none => cases hp
      | some e0 =>
        obtain ⟨h1, h2, h3⟩ := key k e0 f s hp
        simp only [Expansion.setParameters, LCE.setParameters, h1]
        exact ⟨k, e0, s.or m.environmentHash, by trivial, by trivial, by trivial, by trivial, h2, h3⟩
  | other => cases hp

end built

section composite
variable {L : Type} [LinearOrder L]

/-- An expansion that was built and then given parameters it accepted. -/
def Fitted (dist : P → P → D) (h : Digests P D) (m : Expansion ℝ P D) : Prop :=
  ∃ (L : Type) (_ : LinearOrder L) (sym : List (String × P) → String) (ml : List Nat → L)
    (mt : List Nat → List Nat → Bool) (b : Basis) (sites : List (String × P)) (counts : List Nat) (pc : L)
    (cc : List L) (m0 : Expansion ℝ P D) (p : LCEParameters ℝ),
    Expansion.build dist sym h ml mt b sites counts pc cc = .ok m0 ∧
    m0.setParameters h p = (.ok (), m)

theorem fitted_round {dist : P → P → D} {h : Digests P D} {m : Expansion ℝ P D} (hm : Fitted dist h m) :
    ∃ d m', subAsDict h m = .ok d ∧ subFromDict dist h d = .ok m' ∧
      Interchangeable (m'.core h) (m.core h) := by
  obtain ⟨L, _, sym, ml, mt, b, sites, counts, pc, cc, m0, p, hb, hp⟩ := hm
  obtain ⟨os, hs0⟩ := build_storable hb
  have hs := storable_setParameters hs0 p
  obtain ⟨k, e0, s, h1, h2, h3, h4, h5, h6⟩ := setParameters_fields (by rw [hp] : (m0.setParameters h p).1 = .ok ())
  simp only [hp] at hs h1 h2 h3 h4
  have hf0 : (m.core h).getOrbitFingerprints = (m0.core h).getOrbitFingerprints := by
    have : m = (m0.setParameters h p).2 := by rw [hp]
    rw [this]
    rfl
  have he0 : m.environmentHash = m0.environmentHash := by
    have : m = (m0.setParameters h p).2 := by rw [hp]
    rw [this]
    rfl
  obtain ⟨d, hd, hr⟩ := storable_round hs
  have hfr := reread_fps hs
  have hv : ((reread m).core h).validateParameterOrbits k (some (m.core h).getOrbitFingerprints)
      m.environmentHash = .ok k := by
    rw [LCE.validate_ok_iff]
    refine ⟨rfl, ?_, ?_, ?_⟩
    · rw [hfr, hf0]
      exact h5
    · intro x x' hx _ hx'
      have hx : m.environmentHash = some x := hx
      rw [hx] at hx'
      cases hx'
      rfl
    · intro f hf
      cases hf
      exact hfr.symm
  simp only [subAsDict, hd, h1, h2]
  refine ⟨_, ((reread m).setParameters h (.dict (some k) (some e0) (some (m.core h).getOrbitFingerprints)
      m.environmentHash)).2, rfl, ?_, ?_⟩
  · simp [subFromDict, hr, Expansion.setParameters, LCE.setParameters, LCE.storeParameters, hv]
  · simp only [Expansion.setParameters, LCE.setParameters, LCE.storeParameters, hv]
    refine interchangeable_of rfl rfl rfl hfr rfl h1.symm h2.symm ?_ ?_
    · simp only [Expansion.core, Option.getD_some, h3]
      exact congrArg some hf0
    · rcases h6 with h6 | h6
      · left
        have : m.environmentHash.getD "" = "" := by rw [he0]; exact h6
        exact this
      · right
        simp only [Expansion.core, reread, h4, h6, he0, Option.or_self]

theorem keepClusters_total {g : LCE.ClusterGeometry L} {cutoff : List L} {cand : List (List Nat)}
    (hc : ∀ c ∈ cand, 1 ≤ c.length ∧ c.length ≤ cutoff.length) :
    ∃ kept, LCE.keepClusters g cutoff cand = .ok kept := by
  induction cand with
  | nil => exact ⟨_, rfl⟩
  | cons c cand ih =>
    obtain ⟨kept, hk⟩ := ih fun c hc' => hc c (by simp [hc'])
    obtain ⟨h1, h2⟩ := hc c (by simp)
    have h3 : ((c.length : Int) - 1) = ((c.length - 1 : Nat) : Int) := by omega
    have h4 : c.length - 1 < cutoff.length := by omega
    simp only [LCE.keepClusters, h3, pyGet_nat cutoff _ _ (List.getElem?_eq_getElem h4), hk]
    exact ⟨_, rfl⟩

/-- The hypotheses of the theorems on files can be met: with cutoffs for pairs, triplets and
quadruplets every surrounding with at least one site gives an expansion, and it accepts a coefficient list
of the right length. -/
theorem fitted_exists (dist : P → P → D) (h : Digests P D) (sym : List (String × P) → String)
    (ml : List Nat → L) (mt : List Nat → List Nat → Bool) (b : Basis) (sites : List (String × P))
    (counts : List Nat) (hn : counts ≠ []) (pc : L) (cc : List L) (hcc : 3 ≤ cc.length) :
    ∃ m0, Expansion.build dist sym h ml mt b sites counts pc cc = .ok m0 ∧
      ∃ m, m0.setParameters h (.object (List.replicate (m0.core h).getOrbitFingerprints.length (1 : ℝ)) 0
        none none) = (.ok (), m) ∧ Fitted dist h m := by
  obtain ⟨kept, hk⟩ := keepClusters_total (g := geometry dist sym h sites ml mt) (cutoff := pc :: cc)
    (cand := LCE.candidateClusters sites.length) (by
      intro c hc
      have := LCE.mem_candidateClusters.mp hc
      simp only [List.length_cons]
      omega)
  have hb : ∃ m0, Expansion.build (K := ℝ) dist sym h ml mt b sites counts pc cc = .ok m0 := by
    obtain ⟨n, ns, rfl⟩ : ∃ n ns, counts = n :: ns := by
      cases counts with
      | nil => exact absurd rfl hn
      | cons n ns => exact ⟨n, ns, rfl⟩
    simp only [Expansion.build, LCE.buildClusters, hk, List.length_cons]
    rw [if_neg (by omega)]
    simp only [LCE.configureCorrelationTerms]
    split
    · rename_i e he
      split at he
      · simp [LCE.buildSiteBasisValues] at he
      · cases he
    · exact ⟨_, rfl⟩
  obtain ⟨m0, hm0⟩ := hb
  have hp : m0.setParameters h (.object (List.replicate (m0.core h).getOrbitFingerprints.length (1 : ℝ)) 0
      none none) = (.ok (), (m0.setParameters h (.object (List.replicate
        (m0.core h).getOrbitFingerprints.length (1 : ℝ)) 0 none none)).2) := by
    simp [Expansion.setParameters, LCE.setParameters, LCE.storeParameters, LCE.validateParameterOrbits]
  exact ⟨m0, hm0, _, hp, L, inferInstance, sym, ml, mt, b, sites, counts, pc, cc, m0, _, hm0, hp⟩

/-- A site model that can be saved: none, a fitted expansion, or another model that is read back
from its file as it was. -/
def SiteOk {S F : Type} (dist : P → P → D) (h : Digests P D) (save : S → Py F) (load : F → Py S) :
    SiteModel ℝ P D S → Prop
  | .none => True
  | .expansion m => Fitted dist h m
  | .other s => ∃ f, save s = .ok f ∧ load f = .ok s

/-- C79.  Saving a composite model whose expansions were built and fitted, and loading the file gives
a model with the same transition rates, for every temperature, attempt frequency, state and event. -/
theorem C79_composite {S F M T : Type} (dist : P → P → D) (h : Digests P D) (save : S → Py F)
    (load : F → Py S) (kra : Expansion ℝ P D) (site : SiteModel ℝ P D S) (hk : Fitted dist h kra)
    (hs : SiteOk dist h save load site) (source : S → SiteSource M T) (idle : M) :
    ∃ d c', (CompositeModel.mk (some kra) site).asDict h save = .ok d ∧
      CompositeModel.fromDict dist h load d = .ok c' ∧
      ∀ kB temperature frequency : ℝ,
        (c'.toComposite h source idle).rateModel kB temperature frequency =
          ((CompositeModel.mk (some kra) site).toComposite h source idle).rateModel kB temperature frequency := by
  obtain ⟨dk, k', h1, h2, h3⟩ := fitted_round hk
  have hsite : ∃ ds s', siteAsDict h save site = .ok ds ∧ siteFromDict dist h load ds = .ok s' ∧
      siteSource h source idle s' = siteSource h source idle site := by
    cases site with
    | none => exact ⟨.none, .none, rfl, rfl, rfl⟩
    | expansion m =>
      obtain ⟨d, m', h4, h5, h6⟩ := fitted_round hs
      refine ⟨.expansion d, .expansion m', by simp [siteAsDict, h4], by simp [siteFromDict, h5], ?_⟩
      simp only [siteSource, SiteSource.expansion, h6.value]
    | other s =>
      obtain ⟨f, h4, h5⟩ := hs
      exact ⟨.other f, .other s, by simp [siteAsDict, h4], by simp [siteFromDict, h5], rfl⟩
  obtain ⟨ds, s', h4, h5, h6⟩ := hsite
  refine ⟨⟨dk, ds⟩, ⟨some k', s'⟩, by simp [CompositeModel.asDict, h1, h4],
    by simp [CompositeModel.fromDict, h2, h5], ?_⟩
  intro kB temperature frequency
  simp only [Composite.rateModel, CompositeModel.toComposite, h6, RateModel.mk.injEq, true_and, Option.map_some]
  funext ms e st
  simp only [Composite.computeProbability, h3.value]

/-- C79.  A composite model whose barrier expansion has no fitted parameters cannot be saved. -/
theorem C79_composite_unfitted {S F : Type} (h : Digests P D) (save : S → Py F) (c : CompositeModel ℝ P D S)
    (hc : ∀ k, c.kra = some k → k.keci = none ∨ k.emptyCluster = none) :
    ∃ e, c.asDict h save = .error e := by
  simp only [CompositeModel.asDict]
  cases hk : c.kra with
  | none => exact ⟨_, rfl⟩
  | some k =>
    simp only [subAsDict]
    cases k.asDict h with
    | error e => exact ⟨_, rfl⟩
    | ok d =>
      rcases hc k hk with h1 | h1
      · simp [h1]
      · cases k.keci <;> simp [h1]

end composite


end ModelFile
end KMC
