import Verif.Lemmas.Orbits
import Verif.Props.LCEProps
/-
C37: orbits; C67: models as built evaluate everywhere; C68: equivalent surroundings.
-/
namespace KMC
open Spec LCE

/-! ### C37: orbits partition the clusters -/

/-- C37.  Every cluster is in exactly one orbit, exactly as often as it was listed. -/
theorem C37_partition {α : Type} (eq : α → α → Bool) (cs : List α) :
    (buildOrbits eq cs).flatten.Perm cs := (grouped_foldl cs).perm

/-- C37.  Every orbit has a representative, to which all its other clusters are equivalent. -/
theorem C37_representative {α : Type} (eq : α → α → Bool) (cs : List α) (g : List α)
    (hg : g ∈ buildOrbits eq cs) : ∃ r t, g = r :: t ∧ ∀ c ∈ t, eq r c = true := by
  obtain ⟨i, hi, rfl⟩ := List.mem_iff_getElem.1 hg
  have h := grouped_foldl (eq := eq) cs
  have hi1 : i < (cs.foldl (buildOrbitsStep eq) ([], [])).1.length := by rw [h.len]; exact hi
  obtain ⟨t, h1, h2⟩ := h.heads i _ _ (List.getElem?_eq_getElem hi1) (List.getElem?_eq_getElem hi)
  exact ⟨_, t, h1, h2⟩

/-- C37.  No cluster is equivalent to the representative of an earlier orbit. -/
theorem C37_orbits_differ {α : Type} (eq : α → α → Bool) (cs : List α) :
    (buildOrbits eq cs).Pairwise fun g g' => ∀ r ∈ g.head?, ∀ c ∈ g', eq r c = false := by
  have h := grouped_foldl (eq := eq) cs
  rw [List.pairwise_iff_getElem]
  intro i j hi hj hij r hr c hc
  have hi1 : i < (cs.foldl (buildOrbitsStep eq) ([], [])).1.length := by rw [h.len]; exact hi
  obtain ⟨t, h1, h2⟩ := h.heads i _ _ (List.getElem?_eq_getElem hi1) (List.getElem?_eq_getElem hi)
  have h1' : (buildOrbits eq cs)[i] = (cs.foldl (buildOrbitsStep eq) ([], [])).1[i] :: t := h1
  rw [h1'] at hr
  simp only [List.head?_cons, Option.mem_def, Option.some.injEq] at hr
  subst hr
  exact h.first j i _ _ hij (List.getElem?_eq_getElem hi1) (List.getElem?_eq_getElem hj) c hc

/-- The test behaves like an equivalence on the given clusters. -/
structure EquivOn {α : Type} (eq : α → α → Bool) (cs : List α) : Prop where
  refl : ∀ a ∈ cs, eq a a = true
  symm : ∀ a ∈ cs, ∀ b ∈ cs, eq a b = true → eq b a = true
  trans : ∀ a ∈ cs, ∀ b ∈ cs, ∀ c ∈ cs, eq a b = true → eq b c = true → eq a c = true

/-- C37.  If the test is an equivalence, the orbits are the equivalence classes: the orbit of a
cluster lists exactly the clusters equivalent to it. -/
theorem C37_equivalence_classes {α : Type} (eq : α → α → Bool) (cs : List α) (he : EquivOn eq cs)
    (g : List α) (hg : g ∈ buildOrbits eq cs) (a : α) (ha : a ∈ g) :
    g.Perm (cs.filter (eq a)) := by
  have hp := C37_partition eq cs
  have hmem : ∀ g ∈ buildOrbits eq cs, ∀ c ∈ g, c ∈ cs := fun g hg c hc =>
    hp.subset (List.mem_flatten.2 ⟨g, hg, hc⟩)
  -- all members of an orbit are equivalent
  have hin : ∀ g ∈ buildOrbits eq cs, ∀ a ∈ g, ∀ c ∈ g, eq a c = true := by
    intro g hg a ha c hc
    obtain ⟨r, t, rfl, ht⟩ := C37_representative eq cs g hg
    have hr : r ∈ cs := hmem _ hg r List.mem_cons_self
    have h1 : ∀ d ∈ r :: t, eq r d = true := by
      intro d hd
      rcases List.mem_cons.1 hd with rfl | hd
      · exact he.refl _ hr
      · exact ht d hd
    exact he.trans _ (hmem _ hg a ha) _ hr _ (hmem _ hg c hc)
      (he.symm _ hr _ (hmem _ hg a ha) (h1 a ha)) (h1 c hc)
  -- members of different orbits are not
  have hout : (buildOrbits eq cs).Pairwise fun g g' => ∀ a ∈ g, ∀ c ∈ g', eq a c = false := by
    rw [List.pairwise_iff_getElem]
    intro i j hi hj hij a ha c hc
    have h1 := List.pairwise_iff_getElem.1 (C37_orbits_differ eq cs) i j hi hj hij
    have hgi : (buildOrbits eq cs)[i] ∈ buildOrbits eq cs := List.getElem_mem hi
    have hgj : (buildOrbits eq cs)[j] ∈ buildOrbits eq cs := List.getElem_mem hj
    obtain ⟨r, t, hrt, ht⟩ := C37_representative eq cs _ hgi
    have hr : r ∈ (buildOrbits eq cs)[i] := by rw [hrt]; exact List.mem_cons_self
    have h2 := h1 r (by rw [hrt]; rfl) c hc
    by_contra hcon
    have h3 : eq a c = true := by simpa using hcon
    have h4 := he.trans _ (hmem _ hgi r hr) _ (hmem _ hgi a ha) _ (hmem _ hgj c hc)
      (hin _ hgi r hr a ha) h3
    rw [h4] at h2
    cases h2
  obtain ⟨pre, post, hsplit⟩ := List.append_of_mem hg
  refine List.Perm.trans ?_ (hp.filter (eq a))
  rw [hsplit] at hout
  rw [hsplit, List.flatten_append, List.flatten_cons, List.filter_append, List.filter_append]
  have hacs : a ∈ cs := hmem g hg a ha
  have h1 : pre.flatten.filter (eq a) = [] := by
    rw [List.filter_eq_nil_iff]
    intro c hc
    obtain ⟨g', hg', hc'⟩ := List.mem_flatten.1 hc
    have h2 := (List.pairwise_append.1 hout).2.2 g' hg' g List.mem_cons_self c hc' a ha
    intro h3
    have hccs : c ∈ cs := hmem g' (by rw [hsplit]; exact List.mem_append_left _ hg') c hc'
    rw [he.symm _ hacs _ hccs h3] at h2
    cases h2
  have h2 : post.flatten.filter (eq a) = [] := by
    rw [List.filter_eq_nil_iff]
    intro c hc
    obtain ⟨g', hg', hc'⟩ := List.mem_flatten.1 hc
    have h3 := (List.pairwise_cons.1 (List.pairwise_append.1 hout).2.1).1 g' hg' a ha c hc'
    rw [h3]
    simp
  have h3 : g.filter (eq a) = g := by
    rw [List.filter_eq_self]
    exact fun c hc => hin g hg a ha c hc
  rw [h1, h2, h3]
  simp

/-- C37.  In that case the orbits do not depend on the order of the clusters. -/
theorem C37_order_independent {α : Type} (eq : α → α → Bool) (cs cs' : List α)
    (he : EquivOn eq cs) (hp : cs.Perm cs') (g : List α) (hg : g ∈ buildOrbits eq cs) :
    ∃ g' ∈ buildOrbits eq cs', g.Perm g' := by
  obtain ⟨r, t, hrt, -⟩ := C37_representative eq cs g hg
  have hr : r ∈ g := by rw [hrt]; exact List.mem_cons_self
  have hrcs : r ∈ cs := (C37_partition eq cs).subset (List.mem_flatten.2 ⟨g, hg, hr⟩)
  have hr' : r ∈ (buildOrbits eq cs').flatten :=
    (C37_partition eq cs').symm.subset (hp.subset hrcs)
  obtain ⟨g', hg', hrg'⟩ := List.mem_flatten.1 hr'
  have he' : EquivOn eq cs' := by
    refine ⟨fun a ha => he.refl a (hp.symm.subset ha), fun a ha b hb =>
      he.symm a (hp.symm.subset ha) b (hp.symm.subset hb), fun a ha b hb c hc =>
      he.trans a (hp.symm.subset ha) b (hp.symm.subset hb) c (hp.symm.subset hc)⟩
  exact ⟨g', hg', (C37_equivalence_classes eq cs he g hg r hr).trans
    ((hp.filter _).trans (C37_equivalence_classes eq cs' he' g' hg' r hrg').symm)⟩

/-- C37 does not extend to tests with a tolerance (numbers at most 1 apart): there even the
number of orbits depends on the order in which the clusters are listed. -/
theorem C37_tolerance_depends_on_order :
    buildOrbits (fun a b : Int => decide ((a - b).natAbs ≤ 1)) [0, 1, 2] = [[0, 1], [2]] ∧
    buildOrbits (fun a b : Int => decide ((a - b).natAbs ≤ 1)) [1, 0, 2] = [[1, 0, 2]] := by
  decide

/-- Orbits of numbers modulo 3. -/
example : EquivOn (fun a b : Nat => a % 3 == b % 3) [1, 4, 2, 7, 5] ∧
    buildOrbits (fun a b : Nat => a % 3 == b % 3) [1, 4, 2, 7, 5] = [[1, 4, 7], [2, 5]] := by
  refine ⟨⟨by decide, by decide, by decide⟩, by decide⟩

/-! ### C67: models as built -/

section build
variable {K L : Type} [CommRing K] [LinearOrder L]

/-- The clusters and orbits of a model as built. -/
theorem lceBuild_ok {g : ClusterGeometry L} {b : SiteBasis K} {counts : List Nat}
    {hash : Option String} {pc : L} {cc : List L} {m : LCE K}
    (h : build g b counts hash pc cc = .ok m) :
    ∃ clusters, clusters = (candidateClusters counts.length).filter (withinCutoff g (pc :: cc)) ∧
      configureCorrelationTerms g b counts hash (buildOrbits (clusterEq g) clusters) = .ok m := by
  unfold build at h
  split at h
  · cases h
  · rename_i clusters hc
    unfold buildClusters at hc
    split at hc
    · cases hc
    · refine ⟨clusters, keepClusters_ok ?_ hc, h⟩
      intro c hc' hne
      subst hne
      have := (mem_candidateClusters.1 hc').2.2.1
      simp at this

omit [CommRing K] in
theorem basisCounts_length {b : SiteBasis K} {counts : List Nat} {o : List (List Nat)} (p : Nat) :
    (basisCounts b counts o p).length = p := by
  induction p with
  | zero => rfl
  | succ p ih => simp [basisCounts, ih]

omit [CommRing K] in
theorem basisCounts_le {b : SiteBasis K} {counts : List Nat} {o : List (List Nat)} {p i : Nat}
    {n : Nat} (h : (basisCounts b counts o p)[i]? = some n) :
    ∀ c ∈ o, n ≤ b.numSiteBasisFunctions (counts[c[i]?.getD 0]?.getD 0) := by
  induction p with
  | zero => simp [basisCounts] at h
  | succ p ih =>
    simp only [basisCounts] at h
    by_cases hi : i < p
    · rw [List.getElem?_append_left (by rw [basisCounts_length]; exact hi)] at h
      exact ih h
    · rw [List.getElem?_append_right (by rw [basisCounts_length]; omega), basisCounts_length] at h
      have hip : i = p := by
        by_contra hne
        rw [List.getElem?_eq_none (by simp; omega)] at h
        cases h
      subst hip
      simp only [Nat.sub_self, List.getElem?_cons_zero, Option.some.injEq] at h
      intro c hc
      have hne : (o.map fun c => b.numSiteBasisFunctions (counts[c[i]?.getD 0]?.getD 0)) ≠ [] := by
        intro hnil
        rw [List.map_eq_nil_iff] at hnil
        subst hnil
        cases hc
      cases hm : (o.map fun c => b.numSiteBasisFunctions (counts[c[i]?.getD 0]?.getD 0)).min? with
      | none => rw [List.min?_eq_none_iff] at hm; exact absurd hm hne
      | some v =>
        rw [hm] at h
        simp only [Option.getD_some] at h
        subst h
        rw [List.min?_eq_some_iff] at hm
        exact hm.2 _ (List.mem_map.2 ⟨c, hc, rfl⟩)

omit [CommRing K] in
theorem le_basisCounts {b : SiteBasis K} {counts : List Nat} {o : List (List Nat)} {p i : Nat}
    {n k : Nat} (h : (basisCounts b counts o p)[i]? = some n) (hne : o ≠ [])
    (hk : ∀ c ∈ o, k ≤ b.numSiteBasisFunctions (counts[c[i]?.getD 0]?.getD 0)) : k ≤ n := by
  induction p with
  | zero => simp [basisCounts] at h
  | succ p ih =>
    simp only [basisCounts] at h
    by_cases hi : i < p
    · rw [List.getElem?_append_left (by rw [basisCounts_length]; exact hi)] at h
      exact ih h
    · rw [List.getElem?_append_right (by rw [basisCounts_length]; omega), basisCounts_length] at h
      have hip : i = p := by
        by_contra hne
        rw [List.getElem?_eq_none (by simp; omega)] at h
        cases h
      subst hip
      simp only [Nat.sub_self, List.getElem?_cons_zero, Option.some.injEq] at h
      cases hm : (o.map fun c => b.numSiteBasisFunctions (counts[c[i]?.getD 0]?.getD 0)).min? with
      | none =>
        rw [List.min?_eq_none_iff, List.map_eq_nil_iff] at hm
        exact absurd hm hne
      | some v =>
        rw [hm] at h
        simp only [Option.getD_some] at h
        subst h
        rw [List.min?_eq_some_iff] at hm
        obtain ⟨c, hc, hcv⟩ := List.mem_map.1 hm.1
        rw [← hcv]
        exact hk c hc

theorem tableGet_built {b : SiteBasis K} (hb : BasisShape b) {counts : List Nat}
    {t : List (List (List K))} (ht : buildSiteBasisValues b counts = .ok t) {s n : Nat} {a f : Int}
    (hs : counts[s]? = some n) (ha0 : 0 ≤ a) (ha : a < n) (hf0 : 0 ≤ f)
    (hf : f < b.numSiteBasisFunctions n) :
    tableGet t (s : Int) a f = .ok (siteFunction b counts s a f) := by
  unfold buildSiteBasisValues at ht
  split at ht
  · rename_i h w _ _
    cases ht
    obtain ⟨a, rfl⟩ := Int.eq_ofNat_of_zero_le ha0
    obtain ⟨f, rfl⟩ := Int.eq_ofNat_of_zero_le hf0
    have ha' : a < n := by omega
    have hf' : f < b.numSiteBasisFunctions n := by omega
    have hrow : a < (b.siteBasisValues n).length := by rw [hb.rows]; exact ha'
    have hcol : f < (b.siteBasisValues n)[a].length := by
      rw [hb.columns n _ (List.getElem_mem hrow)]; exact hf'
    have h1 : pyGet (counts.map fun n => padBlock h w (b.siteBasisValues n)) (s : Int) =
        .ok (padBlock h w (b.siteBasisValues n)) := pyGet_natCast (by simp [hs])
    have h2 : pyGet (padBlock h w (b.siteBasisValues n)) (a : Int) =
        .ok (padRow w (b.siteBasisValues n)[a]) := by
      apply pyGet_natCast
      unfold padBlock
      rw [List.getElem?_append_left (by simpa using hrow)]
      simp [hrow]
    have h3 : pyGet (padRow w (b.siteBasisValues n)[a]) (f : Int) =
        .ok ((b.siteBasisValues n)[a][f]) := by
      apply pyGet_natCast
      unfold padRow
      rw [List.getElem?_append_left hcol]
      simp [hcol]
    simp only [tableGet, h1, h2, h3]
    simp [siteFunction, hs, hrow, hcol]
  · cases ht

omit [CommRing K] [LinearOrder L] in
/-- The terms of a decorated model as built, one by one. -/
theorem features_mem {g : ClusterGeometry L} {b : SiteBasis K} {counts : List Nat}
    {clusters : List (List Nat)} {f : Feature}
    (hf : f ∈ (buildOrbits (clusterEq g) clusters).flatMap (orbitFeatures g b counts)) :
    f.clusters ∈ buildOrbits (clusterEq g) clusters ∧
      (∀ c ∈ f.clusters, c ∈ clusters ∧ c.length = f.decoration.length) ∧
      (∀ c ∈ f.clusters, ∀ (i s : Nat) d, c[i]? = some s → f.decoration[i]? = some d →
        d < b.numSiteBasisFunctions (counts[s]?.getD 0)) := by
  obtain ⟨o, ho, hfo⟩ := List.mem_flatMap.1 hf
  unfold orbitFeatures at hfo
  simp only [List.mem_map] at hfo
  obtain ⟨d, hd, rfl⟩ := hfo
  simp only
  have hlen : ∀ c ∈ o, c.length = (o.headD []).length := by
    obtain ⟨r, t, rfl, ht⟩ := C37_representative _ _ o ho
    intro c hc
    simp only [List.headD_cons]
    rcases List.mem_cons.1 hc with rfl | hc
    · rfl
    · have := ht c hc
      unfold clusterEq at this
      split at this
      · cases this
      · rename_i h; simp only [ne_eq, not_not] at h; exact h.symm
  rw [mem_productLists] at hd
  have hdl : d.length = (o.headD []).length := by
    rw [hd.length_eq, List.length_map, basisCounts_length]
  refine ⟨ho, ?_, ?_⟩
  · intro c hc
    exact ⟨(C37_partition _ clusters).subset (List.mem_flatten.2 ⟨o, ho, hc⟩), by rw [hlen c hc, hdl]⟩
  · intro c hc i s x hs hx
    rw [List.forall₂_map_right_iff] at hd
    have hi : i < d.length := (List.getElem?_eq_some_iff.1 hx).1
    have hi2 : i < (basisCounts b counts o (o.headD []).length).length := by
      rw [← hd.length_eq]; exact hi
    have h2 := (List.forall₂_iff_get.1 hd).2 i hi hi2
    simp only [List.get_eq_getElem, List.mem_range] at h2
    have h3 := basisCounts_le (List.getElem?_eq_getElem hi2) c hc
    have hx' : d[i] = x := (List.getElem?_eq_some_iff.1 hx).2
    rw [hx'] at h2
    simp only [hs, Option.getD_some] at h3
    omega

/-- The local sites of an event can be read, and every occupation is a state of its site. -/
def ValidSurroundings (counts : List Nat) (occ env : List Int) : Prop :=
  env.length = counts.length ∧ ∀ (s : Nat) (i : Int) (n : Nat), env[s]? = some i →
    counts[s]? = some n → ∃ v, pyGet occ i = .ok v ∧ 0 ≤ v ∧ v < n

/-- C67.  A model as built, with accepted parameters, evaluates without error on every valid
surroundings.  The value is the expansion over the model's terms; a decorated model uses the
values of the basis itself (the zero padding of its table is never read). -/
theorem C67_built_model_evaluates (g : ClusterGeometry L) (b : SiteBasis K) (hb : BasisShape b)
    (counts : List Nat) (hash : Option String) (pc : L) (cc : List L) (m m' : LCE K)
    (hm : build g b counts hash pc cc = .ok m) (hne : m.getOrbitFingerprints ≠ [])
    (p : LCEParameters K) (hp : m.setParameters p = (.ok (), m'))
    (occ : List Int) (e : Event) (hv : ValidSurroundings counts occ e.env)
    (x : Int → Int) (hx : LocalOccupations occ e.env x) :
    ∃ keci e0 f h, p.contents = some (keci, e0, f, h) ∧
      keci.length = m.clusterSiteIndices.length ∧
      m'.compute occ e = .ok (expansion e0 keci
        (match m.basisIndices with
        | none => m.clusterSiteIndices.map (plainTerm x)
        | some ds => (m.clusterSiteIndices.zip ds).map fun od =>
            decoratedTerm (siteFunction b counts) x od.1 od.2)) := by
  obtain ⟨keci, e0, f, hh, hc, h1, h2, h3, h4, h5, h6, h7, h8⟩ := C38_accepted_used m m' p hp
  refine ⟨keci, e0, f, hh, hc, ?_⟩
  obtain ⟨clusters, hcl, hconf⟩ := lceBuild_ok hm
  have hkl : keci.length = m.getOrbitFingerprints.length := by
    rw [← h6]
    exact (validate_ok_iff.1 h8).2.1 (by rw [h6]; exact hne)
  -- the local occupations
  have hread : ∃ lo, pyGetAll occ e.env = .ok lo := by
    suffices H : ∀ env : List Int, (∀ i ∈ env, ∃ v, pyGet occ i = .ok v) →
        ∃ lo, pyGetAll occ env = .ok lo by
      apply H
      intro i hi
      obtain ⟨s, hs⟩ := List.mem_iff_getElem?.1 hi
      have hsl : s < e.env.length := (List.getElem?_eq_some_iff.1 hs).1
      obtain ⟨v, hv', -⟩ := hv.2 s i _ hs (List.getElem?_eq_getElem (by rw [← hv.1]; exact hsl))
      exact ⟨v, hv'⟩
    intro env
    induction env with
    | nil => intro _; exact ⟨[], rfl⟩
    | cons i env ih =>
      intro h
      obtain ⟨v, hv'⟩ := h i List.mem_cons_self
      obtain ⟨lo, hlo⟩ := ih fun j hj => h j (List.mem_cons_of_mem _ hj)
      exact ⟨v :: lo, by simp [pyGetAll, hv', hlo]⟩
  obtain ⟨lo, hlo⟩ := hread
  have hx' := localOccupations_read hx hlo
  have hsite : ∀ s n : Nat, counts[s]? = some n →
      pyGet lo (s : Int) = .ok (x s) ∧ 0 ≤ x s ∧ x s < n := by
    intro s n hs
    have hsl : s < counts.length := (List.getElem?_eq_some_iff.1 hs).1
    have hse : s < e.env.length := by rw [hv.1]; exact hsl
    have hslo : s < lo.length := by rw [pyGetAll_length hlo]; exact hse
    have h9 : pyGet lo (s : Int) = .ok lo[s] := pyGet_natCast (List.getElem?_eq_getElem hslo)
    have h10 := hx' _ _ h9
    obtain ⟨v, hv1, hv2, hv3⟩ := hv.2 s _ n (List.getElem?_eq_getElem hse) hs
    have h11 := hx (s : Int) _ (pyGet_natCast (List.getElem?_eq_getElem hse))
    rw [hv1] at h11
    cases h11
    exact ⟨by rw [h9, h10], hv2, hv3⟩
  have hcm : ∀ c ∈ clusters, ∀ s ∈ c, s < counts.length := by
    intro c hc s hs
    rw [hcl] at hc
    exact (mem_candidateClusters.1 (List.mem_of_mem_filter hc)).2.1 s hs
  unfold configureCorrelationTerms at hconf
  split at hconf
  · -- decorated
    split at hconf
    · cases hconf
    · rename_i table htable
      cases hconf
      have hlen : keci.length = (toIntClusters (((buildOrbits (clusterEq g) clusters).flatMap
          (orbitFeatures g b counts)).map Feature.clusters)).length := by
        rw [hkl]; simp [getOrbitFingerprints, toIntClusters]
      refine ⟨hlen, ?_⟩
      refine compute_of h1 h2 h8 hlo ?_ ?_
      · simp only [calculateCorrelation, h4, h5, h3]
        refine calcCorrDecorated_eq _ _ (by simp [toIntClusters]) ?_
        intro od hod
        simp only [toIntClusters, List.map_map] at hod
        rw [List.zip_map'] at hod
        obtain ⟨ft, hft, rfl⟩ := List.mem_map.1 hod
        obtain ⟨-, hf1, hf2⟩ := features_mem hft
        simp only [Function.comp_apply]
        refine ⟨by simp, ?_⟩
        intro cd hcd
        rw [List.zip_map'] at hcd
        obtain ⟨c, hcc, rfl⟩ := List.mem_map.1 hcd
        simp only
        refine ⟨by simp [(hf1 c hcc).2], ?_⟩
        intro sb hsb
        rw [List.zip_map] at hsb
        obtain ⟨⟨s, d⟩, hsd, rfl⟩ := List.mem_map.1 hsb
        simp only [Prod.map_fst, Prod.map_snd]
        obtain ⟨i, hi⟩ := List.mem_iff_getElem?.1 hsd
        rw [List.getElem?_zip_eq_some] at hi
        obtain ⟨hi1, hi2⟩ := hi
        have hscount : s < counts.length := hcm c (hf1 c hcc).1 s (List.mem_of_getElem? hi1)
        have hs := List.getElem?_eq_getElem hscount
        obtain ⟨hr1, hr2, hr3⟩ := hsite s _ hs
        have hd := hf2 c hcc i s d hi1 hi2
        rw [hs, Option.getD_some] at hd
        exact ⟨hr1, tableGet_built hb htable hs hr2 hr3 (by simp) (by simpa using hd)⟩
      · simp [toIntClusters, hkl, getOrbitFingerprints]
  · -- plain
    cases hconf
    have hlen : keci.length =
        (toIntClusters (buildOrbits (clusterEq g) clusters)).length := by
      rw [hkl]; simp [getOrbitFingerprints, toIntClusters]
    refine ⟨hlen, ?_⟩
    refine compute_of h1 h2 h8 hlo ?_ ?_
    · simp only [calculateCorrelation, h4, h3]
      refine calcCorr_eq _ ?_
      intro o ho c hc s hs
      obtain ⟨o', ho', rfl⟩ := List.mem_map.1 ho
      obtain ⟨c', hc', rfl⟩ := List.mem_map.1 hc
      obtain ⟨s', hs', rfl⟩ := List.mem_map.1 hs
      have hscount : s' < counts.length := hcm c'
        ((C37_partition _ clusters).subset (List.mem_flatten.2 ⟨o', ho', hc'⟩)) s' hs'
      exact (hsite s' _ (List.getElem?_eq_getElem hscount)).1
    · simp [hlen]

/-- A cluster the model must contain: one to four different local sites in increasing order,
the largest distance below the cutoff for clusters of that size. -/
def WantedCluster (g : ClusterGeometry L) (cutoff : List L) (n : Nat) (c : List Nat) : Prop :=
  c.Pairwise (· < ·) ∧ (∀ s ∈ c, s < n) ∧ 1 ≤ c.length ∧ c.length ≤ 4 ∧
    ∃ r, cutoff[c.length - 1]? = some r ∧ g.maxLength c < r

theorem mem_wanted {g : ClusterGeometry L} {cutoff : List L} {n : Nat} {c : List Nat} :
    c ∈ (candidateClusters n).filter (withinCutoff g cutoff) ↔ WantedCluster g cutoff n c := by
  rw [List.mem_filter, mem_candidateClusters]
  unfold WantedCluster withinCutoff
  cases cutoff[c.length - 1]? with
  | none => simp
  | some r => simp [and_assoc]

theorem map_ofNat_injective : Function.Injective (List.map Int.ofNat) :=
  List.map_injective_iff.2 fun _ _ h => Int.ofNat.inj h

/-- C67.  A plain model as built contains every wanted cluster exactly once and nothing else,
and has one fingerprint per term. -/
theorem C67_terms_plain (g : ClusterGeometry L) (b : SiteBasis K)
    (hb : b.usesStateIndices = false) (counts : List Nat) (hash : Option String) (pc : L)
    (cc : List L) (m : LCE K) (hm : build g b counts hash pc cc = .ok m) :
    m.basisIndices = none ∧ m.clusterSiteIndices.flatten.Nodup ∧
      (∀ c' ∈ m.clusterSiteIndices.flatten, ∃ c : List Nat, c' = c.map Int.ofNat) ∧
      (∀ c : List Nat, c.map Int.ofNat ∈ m.clusterSiteIndices.flatten ↔
        WantedCluster g (pc :: cc) counts.length c) ∧
      m.getOrbitFingerprints.length = m.clusterSiteIndices.length := by
  obtain ⟨clusters, hcl, hconf⟩ := lceBuild_ok hm
  simp only [configureCorrelationTerms, hb, Bool.false_eq_true, if_false, Except.ok.injEq] at hconf
  subst hconf
  simp only [getOrbitFingerprints, List.length_map, toIntClusters, true_and, and_true]
  have hflat : ((buildOrbits (clusterEq g) clusters).map fun o => o.map fun c =>
      c.map Int.ofNat).flatten =
      (buildOrbits (clusterEq g) clusters).flatten.map (List.map Int.ofNat) := by
    rw [List.map_flatten]
  rw [hflat]
  have hp := C37_partition (clusterEq g) clusters
  have hnd : clusters.Nodup := by
    rw [hcl]; exact (nodup_candidateClusters _).filter _
  refine ⟨((hp.nodup_iff).2 hnd).map map_ofNat_injective, ?_, ?_⟩
  · intro c' hc'
    obtain ⟨c, -, rfl⟩ := List.mem_map.1 hc'
    exact ⟨c, rfl⟩
  · intro c
    rw [List.mem_map_of_injective map_ofNat_injective, hp.mem_iff, hcl, mem_wanted]

/-- C67.  A decorated model as built: no (cluster, basis functions) pair occurs twice; every
pair is a wanted cluster with one basis function of each of its sites; and if all local sites
have the same number of states, every such pair occurs. -/
theorem C67_terms_decorated (g : ClusterGeometry L) (b : SiteBasis K)
    (hb : b.usesStateIndices = true) (counts : List Nat) (hash : Option String) (pc : L)
    (cc : List L) (m : LCE K) (hm : build g b counts hash pc cc = .ok m) :
    ∃ ds, m.basisIndices = some ds ∧ ds.length = m.clusterSiteIndices.length ∧
      m.getOrbitFingerprints.length = m.clusterSiteIndices.length ∧
      ((m.clusterSiteIndices.zip ds).flatMap fun od => od.1.zip od.2).Nodup ∧
      (∀ cd ∈ (m.clusterSiteIndices.zip ds).flatMap fun od => od.1.zip od.2, ∃ c d : List Nat,
        cd = (c.map Int.ofNat, d.map Int.ofNat) ∧ WantedCluster g (pc :: cc) counts.length c ∧
        List.Forall₂ (fun s f => f < b.numSiteBasisFunctions (counts[s]?.getD 0)) c d) ∧
      ∀ q, (∀ n ∈ counts, n = q) → ∀ c d : List Nat, WantedCluster g (pc :: cc) counts.length c →
        List.Forall₂ (fun _ f => f < b.numSiteBasisFunctions q) c d →
        (c.map Int.ofNat, d.map Int.ofNat) ∈
          (m.clusterSiteIndices.zip ds).flatMap fun od => od.1.zip od.2 := by
  obtain ⟨clusters, hcl, hconf⟩ := lceBuild_ok hm
  simp only [configureCorrelationTerms, hb, if_true] at hconf
  split at hconf
  · cases hconf
  · rename_i table htable
    cases hconf
    have hp := C37_partition (clusterEq g) clusters
    have hnd : clusters.Nodup := by
      rw [hcl]; exact (nodup_candidateClusters _).filter _
    have hwant : ∀ c, c ∈ clusters ↔ WantedCluster g (pc :: cc) counts.length c := by
      intro c; rw [hcl, mem_wanted]
    set orbits := buildOrbits (clusterEq g) clusters with horb
    set features := orbits.flatMap (orbitFeatures g b counts) with hfeat
    refine ⟨_, rfl, by simp [toIntClusters], by simp [getOrbitFingerprints, toIntClusters], ?_⟩
    have hpairs : ((toIntClusters (features.map Feature.clusters)).zip (features.map fun f =>
        f.clusters.map fun _ => f.decoration.map Int.ofNat)).flatMap (fun od => od.1.zip od.2) =
        (orbits.flatMap fun o => ((orbitFeatures g b counts o).flatMap fun f =>
          o.map fun c => (c, f.decoration))).map
            (fun cd => (cd.1.map Int.ofNat, cd.2.map Int.ofNat)) := by
      simp only [toIntClusters, List.map_map]
      rw [List.zip_map', List.flatMap_map, hfeat, List.flatMap_assoc, List.map_flatMap]
      apply List.flatMap_congr
      intro o ho
      rw [List.map_flatMap]
      apply List.flatMap_congr
      intro f hf
      have hfc : f.clusters = o := by
        unfold orbitFeatures at hf
        simp only [List.mem_map] at hf
        obtain ⟨d, -, rfl⟩ := hf
        rfl
      simp only [Function.comp_apply, hfc]
      rw [List.zip_map', List.map_map]
      rfl
    simp only [hpairs]
    have hinj : Function.Injective (fun cd : List Nat × List Nat =>
        (cd.1.map Int.ofNat, cd.2.map Int.ofNat)) := by
      intro x y hxy
      simp only [Prod.mk.injEq] at hxy
      exact Prod.ext (map_ofNat_injective hxy.1) (map_ofNat_injective hxy.2)
    have hflat : orbits.flatten.Nodup := (hp.nodup_iff).2 hnd
    refine ⟨?_, ?_, ?_⟩
    · refine List.Nodup.map hinj ?_
      rw [List.nodup_flatMap]
      constructor
      · intro o ho
        rw [List.nodup_flatMap]
        have hod : o.Nodup := (List.nodup_flatten.1 hflat).1 o ho
        refine ⟨fun f _ => hod.map fun x y hxy => by simpa using hxy, ?_⟩
        unfold orbitFeatures
        simp only
        rw [List.pairwise_map]
        refine (nodup_productLists ?_).imp ?_
        · intro l hl
          obtain ⟨n, -, rfl⟩ := List.mem_map.1 hl
          exact List.nodup_range
        · intro d d' hdd x hx hx'
          obtain ⟨c, -, rfl⟩ := List.mem_map.1 hx
          obtain ⟨c', -, hc'⟩ := List.mem_map.1 hx'
          simp only [Prod.mk.injEq] at hc'
          exact hdd hc'.2.symm
      · refine (List.nodup_flatten.1 hflat).2.imp ?_
        intro o o' hoo x hx hx'
        obtain ⟨f, -, hf⟩ := List.mem_flatMap.1 hx
        obtain ⟨f', -, hf'⟩ := List.mem_flatMap.1 hx'
        obtain ⟨c, hc, rfl⟩ := List.mem_map.1 hf
        obtain ⟨c', hc', he⟩ := List.mem_map.1 hf'
        simp only [Prod.mk.injEq] at he
        exact hoo hc (he.1 ▸ hc')
    · intro cd hcd
      obtain ⟨⟨c, d⟩, hx, rfl⟩ := List.mem_map.1 hcd
      obtain ⟨o, ho, hx⟩ := List.mem_flatMap.1 hx
      obtain ⟨f, hf, hx⟩ := List.mem_flatMap.1 hx
      obtain ⟨c', hc', he⟩ := List.mem_map.1 hx
      simp only [Prod.mk.injEq] at he
      obtain ⟨rfl, rfl⟩ := he
      obtain ⟨h1, h2, h3⟩ := features_mem (g := g) (b := b) (counts := counts)
        (List.mem_flatMap.2 ⟨o, ho, hf⟩)
      have hfc : f.clusters = o := by
        unfold orbitFeatures at hf
        simp only [List.mem_map] at hf
        obtain ⟨d, -, rfl⟩ := hf
        rfl
      rw [← hfc] at hc'
      refine ⟨c', f.decoration, rfl, (hwant _).1 (h2 _ hc').1, ?_⟩
      rw [List.forall₂_iff_get]
      refine ⟨(h2 _ hc').2, ?_⟩
      intro i hi hi'
      exact h3 c' hc' i _ _ (List.getElem?_eq_getElem hi) (List.getElem?_eq_getElem hi')
    · intro q hq c d hc hd
      refine List.mem_map.2 ⟨(c, d), ?_, rfl⟩
      have hcc := (hwant c).2 hc
      obtain ⟨o, ho, hco⟩ := List.mem_flatten.1 (hp.symm.subset hcc)
      refine List.mem_flatMap.2 ⟨o, ho, List.mem_flatMap.2 ?_⟩
      obtain ⟨r, t, hrt, ht⟩ := C37_representative _ _ o ho
      have hlen : ∀ c ∈ o, c.length = r.length := by
        intro c hc
        rw [hrt] at hc
        rcases List.mem_cons.1 hc with rfl | hc
        · rfl
        · have := ht c hc
          unfold clusterEq at this
          split at this
          · cases this
          · rename_i h; simp only [ne_eq, not_not] at h; exact h.symm
      refine ⟨⟨o, d, g.decoratedFingerprint (g.fingerprint o) d
        ((o.headD []).map fun s => counts[s]?.getD 0)⟩, ?_, List.mem_map.2 ⟨c, hco, rfl⟩⟩
      unfold orbitFeatures
      simp only [List.mem_map]
      refine ⟨d, ?_, rfl⟩
      rw [mem_productLists, List.forall₂_map_right_iff, List.forall₂_iff_get]
      have hrl : (o.headD []).length = r.length := by rw [hrt]; rfl
      refine ⟨by rw [basisCounts_length, hrl, ← hlen c hco, hd.length_eq], ?_⟩
      intro i hi hi'
      simp only [List.get_eq_getElem, List.mem_range]
      have hi2 : i < c.length := by rw [hd.length_eq]; exact hi
      have h1 := (List.forall₂_iff_get.1 hd).2 i hi2 hi
      simp only [List.get_eq_getElem] at h1
      refine lt_of_lt_of_le h1 ?_
      apply le_basisCounts (List.getElem?_eq_getElem hi') (by rw [hrt]; simp)
      intro c' hc'
      have hcl' : i < c'.length := by rw [hlen c' hc', ← hlen c hco]; exact hi2
      have hs : c'[i] < counts.length := ((hwant c').1
        (hp.subset (List.mem_flatten.2 ⟨o, ho, hc'⟩))).2.1 _ (List.getElem_mem hcl')
      rw [List.getElem?_eq_getElem hcl', Option.getD_some, List.getElem?_eq_getElem hs,
        Option.getD_some, hq _ (List.getElem_mem hs)]

end build
end KMC
