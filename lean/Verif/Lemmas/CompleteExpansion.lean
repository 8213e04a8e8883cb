import Verif.Lemmas.TermCoefficients
import Verif.Spec.CompleteExpansion
import Verif.Props.LCEBuildProps
import Verif.Props.ChebyshevProps
/-
Terms of a model as built, read as products of functions of single sites.
-/
namespace KMC
open Spec LCE

/-! ### Groups of sites as products -/

/-- The function a decorated cluster puts on site `i`: 0 for none, `f + 1` for function `f`. -/
def exponent (p : List Nat × List Nat) (i : Nat) : Nat :=
  match (p.1.zip p.2).lookup i with
  | some f => f + 1
  | none => 0

theorem lookup_none_of {l : List (Nat × Nat)} {i : Nat} (h : i ∉ l.map Prod.fst) : l.lookup i = none := by
  rw [List.lookup_eq_none_iff]
  intro p hp
  rw [bne_iff_ne]
  exact fun he => h (List.mem_map.2 ⟨p, hp, he.symm⟩)

theorem lookup_mem_iff {l : List (Nat × Nat)} (hnd : (l.map Prod.fst).Nodup) {i f : Nat} :
    l.lookup i = some f ↔ (i, f) ∈ l := by
  induction l with
  | nil => simp
  | cons a l ih =>
    obtain ⟨s, t⟩ := a
    rw [List.map_cons, List.nodup_cons] at hnd
    rw [List.lookup_cons, List.mem_cons]
    by_cases his : i = s
    · subst his
      simp only [beq_self_eq_true, Option.some.injEq, Prod.mk.injEq, true_and]
      constructor
      · exact fun h => Or.inl h.symm
      · rintro (h | h)
        · exact h.symm
        · exact absurd (List.mem_map.2 ⟨_, h, rfl⟩) hnd.1
    · rw [beq_eq_false_iff_ne.2 his]
      simp only [Prod.mk.injEq, his, false_and, false_or]
      exact ih hnd.2

theorem lookup_prod {K : Type} [CommRing K] (n : Nat) (g : Nat → Nat → K) :
    ∀ l : List (Nat × Nat), (l.map Prod.fst).Nodup → (∀ sf ∈ l, sf.1 < n) →
      ∏ i ∈ Finset.range n, (l.lookup i).elim 1 (g i) = (l.map fun sf => g sf.1 sf.2).prod := by
  intro l
  induction l with
  | nil => simp
  | cons a l ih =>
    intro hnd hlt
    obtain ⟨s, t⟩ := a
    rw [List.map_cons, List.nodup_cons] at hnd
    have hs : s ∈ Finset.range n := Finset.mem_range.2 (hlt _ List.mem_cons_self)
    have h1 : (fun i => (((s, t) :: l).lookup i).elim 1 (g i)) =
        Function.update (fun i => (l.lookup i).elim 1 (g i)) s (g s t) := by
      funext i
      rw [Function.update_apply, List.lookup_cons]
      by_cases his : i = s
      · subst his; simp
      · simp [his, beq_eq_false_iff_ne.2 his]
    rw [h1, Finset.prod_update_of_mem hs, List.map_cons, List.prod_cons,
      ← ih hnd.2 fun sf h => hlt sf (List.mem_cons_of_mem _ h)]
    congr 1
    rw [← Finset.mul_prod_erase _ _ hs, Finset.sdiff_singleton_eq_erase, lookup_none_of hnd.1]
    simp

theorem zip_fst_of {c d : List Nat} (h : c.length = d.length) : (c.zip d).map Prod.fst = c :=
  List.map_fst_zip h.le

theorem exponent_prod {K : Type} [CommRing K] {n : Nat} {p : List Nat × List Nat} (u : Nat → Nat → K)
    (h0 : ∀ i, u i 0 = 1) (hlen : p.1.length = p.2.length) (hnd : p.1.Nodup) (hlt : ∀ s ∈ p.1, s < n) :
    ∏ i : Fin n, u i (exponent p i) = ((p.1.zip p.2).map fun sf => u sf.1 (sf.2 + 1)).prod := by
  rw [Fin.prod_univ_eq_prod_range (fun i => u i (exponent p i)),
    ← lookup_prod n (fun i f => u i (f + 1)) _ (by rw [zip_fst_of hlen]; exact hnd)
      fun sf h => hlt _ (List.of_mem_zip h).1]
  refine Finset.prod_congr rfl fun i _ => ?_
  unfold exponent
  cases (p.1.zip p.2).lookup i with
  | none => simp [h0]
  | some f => rfl

theorem exponent_pos {p : List Nat × List Nat} (hlen : p.1.length = p.2.length) (hnd : p.1.Nodup) (i f : Nat) :
    exponent p i = f + 1 ↔ (i, f) ∈ p.1.zip p.2 := by
  rw [← lookup_mem_iff (by rw [zip_fst_of hlen]; exact hnd)]
  unfold exponent
  cases (p.1.zip p.2).lookup i <;> simp

/-- A decorated cluster is determined by the functions it puts on the sites. -/
theorem exponent_inj {p p' : List Nat × List Nat} (hlen : p.1.length = p.2.length)
    (hlen' : p'.1.length = p'.2.length) (hs : p.1.Pairwise (· < ·)) (hs' : p'.1.Pairwise (· < ·))
    (h : ∀ i, (i ∈ p.1 ∨ i ∈ p'.1) → exponent p i = exponent p' i) : p = p' := by
  have hnd : p.1.Nodup := hs.imp fun h => Nat.ne_of_lt h
  have hnd' : p'.1.Nodup := hs'.imp fun h => Nat.ne_of_lt h
  have hz : p.1.zip p.2 = p'.1.zip p'.2 := by
    have sorted : ∀ {p : List Nat × List Nat}, p.1.length = p.2.length → p.1.Pairwise (· < ·) →
        (p.1.zip p.2).Pairwise fun a b => a.1 < b.1 := by
      intro p hl hp
      rw [← zip_fst_of hl, List.pairwise_map] at hp
      exact hp
    refine List.Perm.eq_of_pairwise (le := fun a b : Nat × Nat => a.1 < b.1)
      (fun a b _ _ h h' => absurd (Nat.lt_trans h h') (Nat.lt_irrefl _)) (sorted hlen hs) (sorted hlen' hs') ?_
    refine (List.perm_ext_iff_of_nodup ?_ ?_).2 ?_
    · exact ((sorted hlen hs).imp fun {a b} h he => by subst he; exact Nat.lt_irrefl _ h)
    · exact ((sorted hlen' hs').imp fun {a b} h he => by subst he; exact Nat.lt_irrefl _ h)
    · rintro ⟨i, f⟩
      constructor
      · intro hm
        rw [← exponent_pos hlen' hnd', ← h i (Or.inl (List.of_mem_zip hm).1), exponent_pos hlen hnd]
        exact hm
      · intro hm
        rw [← exponent_pos hlen hnd, h i (Or.inr (List.of_mem_zip hm).1), exponent_pos hlen' hnd']
        exact hm
  refine Prod.ext ?_ ?_
  · rw [← zip_fst_of hlen, hz, zip_fst_of hlen']
  · have h2 : ∀ {p : List Nat × List Nat}, p.1.length = p.2.length → (p.1.zip p.2).map Prod.snd = p.2 :=
      fun hl => List.map_snd_zip hl.ge
    rw [← h2 hlen, hz, h2 hlen']

/-! ### The functions of one site -/

/-- The value of function `f` of local site `s` in state `a`, as a model of either kind reads it. -/
noncomputable def siteValue (b : Basis) (counts : List Nat) (s a f : Int) : ℝ :=
  match b with
  | .occupation => (a : ℝ)
  | .chebyshev k => siteFunction ((Basis.chebyshev k).siteBasis ℝ) counts s a f

/-- The functions of a site: 0 is the constant 1. -/
noncomputable def siteMonomial (b : Basis) (counts : List Nat) (s k a : Nat) : ℝ :=
  if k = 0 then 1 else siteValue b counts s a (k - 1 : Nat)

theorem site_complete (b : Basis) (counts : List Nat) (s n : Nat) (hs : counts[s]? = some n) (hn : 2 ≤ n)
    (f : Fin (stateCount b n) → ℝ) :
    ∃! c : Fin (stateCount b n) → ℝ, ∀ a, f a = ∑ k, c k * siteMonomial b counts s k a := by
  cases b with
  | occupation =>
    show ∃! c : Fin 2 → ℝ, ∀ a : Fin 2, f a = ∑ k : Fin 2, c k * siteMonomial _ counts s k a
    refine ⟨![f (0 : Fin 2), f (1 : Fin 2) - f (0 : Fin 2)], ?_, ?_⟩
    · intro a
      match a with
      | 0 => simp [siteMonomial, siteValue, Fin.sum_univ_two]
      | 1 => simp [siteMonomial, siteValue, Fin.sum_univ_two]
    · intro c hc
      have h0 := hc 0
      have h1 := hc 1
      simp [siteMonomial, siteValue, Fin.sum_univ_two] at h0 h1
      funext k
      match k with
      | 0 => simp [h0]
      | 1 => simp [h0, h1]
  | chebyshev m =>
    change Fin n → ℝ at f
    show ∃! c : Fin n → ℝ, ∀ a : Fin n, f a = ∑ k : Fin n, c k * siteMonomial _ counts s k a
    obtain ⟨c, h1, h2⟩ := C47_complete n hn f
    have he : ∀ (k a : Fin n), siteMonomial (.chebyshev m) counts s k a =
        if k.val = 0 then 1 else chebValue n a (k.val - 1) := by
      intro k a
      unfold siteMonomial
      split
      · rfl
      · simp only [siteValue, siteFunction, chebValue, Int.toNat_natCast, hs, Option.getD_some]
        rfl
    refine ⟨c, fun a => ?_, fun d hd => h2 d fun a => ?_⟩
    · rw [h1 a]
      exact Finset.sum_congr rfl fun k _ => by rw [he]
    · rw [hd a]
      exact Finset.sum_congr rfl fun k _ => by rw [he]

theorem function_lt {b : Basis} {n f : Nat} (hn : 2 ≤ n) (h : f < b.numSiteBasisFunctions n) :
    f + 1 < stateCount b n := by
  cases b with
  | occupation => simp only [Basis.numSiteBasisFunctions] at h; simp only [stateCount]; omega
  | chebyshev m =>
    simp only [Basis.numSiteBasisFunctions] at h
    rw [if_neg (by omega)] at h
    simp only [stateCount]
    omega

theorem lt_function {b : Basis} {n f : Nat} (h : f + 1 < stateCount b n) : f < b.numSiteBasisFunctions n := by
  cases b with
  | occupation => simp only [stateCount] at h; simp only [Basis.numSiteBasisFunctions]; omega
  | chebyshev m =>
    simp only [stateCount] at h
    simp only [Basis.numSiteBasisFunctions]
    rw [if_neg (by omega)]
    omega

/-! ### The terms of a model as built -/

section
variable {L : Type} [LinearOrder L]

/-- What one term of a model adds up, for the states `x` of the local sites. -/
noncomputable def termValue (b : Basis) (counts : List Nat) (x : Int → Int) (o : List (List Nat × List Nat)) : ℝ :=
  (o.map fun p => ((p.1.zip p.2).map fun sf => siteValue b counts sf.1 (x sf.1) sf.2).prod).sum

/-- The terms as the evaluation of a model reads them. -/
noncomputable def readTerms (b : Basis) (counts : List Nat) (m : LCE ℝ) (x : Int → Int) : List ℝ :=
  match m.basisIndices with
  | none => m.clusterSiteIndices.map (plainTerm x)
  | some ds => (m.clusterSiteIndices.zip ds).map fun od =>
      decoratedTerm (siteFunction (b.siteBasis ℝ) counts) x od.1 od.2

/-- The terms of a model as built: lists of decorated clusters. -/
structure BuiltTerms (g : ClusterGeometry L) (b : Basis) (counts : List Nat) (cutoff : List L) (m : LCE ℝ)
    (F : List (List (List Nat × List Nat))) : Prop where
  nonempty : ∀ o ∈ F, o ≠ []
  nodup : F.flatten.Nodup
  wanted : ∀ p ∈ F.flatten, WantedCluster g cutoff counts.length p.1 ∧
    List.Forall₂ (fun s f => f < b.numSiteBasisFunctions (counts[s]?.getD 0)) p.1 p.2
  fingerprints : m.getOrbitFingerprints.length = F.length
  value : ∀ x, readTerms b counts m x = F.map (termValue b counts x)
  separate : (∀ c c', WantedCluster g cutoff counts.length c → WantedCluster g cutoff counts.length c' →
      clusterEq g c c' = true → c = c') →
    (∀ o ∈ F, ∃ p, o = [p]) ∧
      ∀ p : List Nat × List Nat, WantedCluster g cutoff counts.length p.1 →
        List.Forall₂ (fun s f => f < b.numSiteBasisFunctions (counts[s]?.getD 0)) p.1 p.2 → p ∈ F.flatten
  together : ∀ o ∈ F, ∃ r t, o = r :: t ∧ ∀ p ∈ t, clusterEq g r.1 p.1 = true
  uniform : (∀ n ∈ counts, n = 2) → ∀ c, WantedCluster g cutoff counts.length c →
    (c, List.replicate c.length 0) ∈ F.flatten

theorem orbit_singleton {g : ClusterGeometry L} {cutoff : List L} {n : Nat}
    (hsep : ∀ c c', WantedCluster g cutoff n c → WantedCluster g cutoff n c' → clusterEq g c c' = true → c = c')
    {clusters : List (List Nat)} (hnd : clusters.Nodup)
    (hw : ∀ c, c ∈ clusters ↔ WantedCluster g cutoff n c) {o : List (List Nat)}
    (ho : o ∈ buildOrbits (clusterEq g) clusters) : ∃ c, o = [c] := by
  have hp := C37_partition (clusterEq g) clusters
  have hod : o.Nodup := (List.nodup_flatten.1 ((hp.nodup_iff).2 hnd)).1 o ho
  have hmem : ∀ c ∈ o, WantedCluster g cutoff n c := fun c hc =>
    (hw c).1 (hp.subset (List.mem_flatten.2 ⟨o, ho, hc⟩))
  obtain ⟨r, t, rfl, ht⟩ := C37_representative _ _ o ho
  cases t with
  | nil => exact ⟨r, rfl⟩
  | cons c t =>
    have := hsep r c (hmem r List.mem_cons_self) (hmem c (by simp)) (ht c List.mem_cons_self)
    subst this
    simp at hod

theorem built_terms {g : ClusterGeometry L} {b : Basis} {counts : List Nat} {hash : Option String} {pc : L}
    {cc : List L} {m : LCE ℝ} (hm : build g (b.siteBasis ℝ) counts hash pc cc = .ok m) :
    ∃ F, BuiltTerms g b counts (pc :: cc) m F := by
  obtain ⟨clusters, hcl, hconf⟩ := lceBuild_ok hm
  have hp := C37_partition (clusterEq g) clusters
  have hnd : clusters.Nodup := by
    rw [hcl]; exact (nodup_candidateClusters _).filter _
  have hw : ∀ c, c ∈ clusters ↔ WantedCluster g (pc :: cc) counts.length c := by
    intro c; rw [hcl, mem_wanted]
  have hflat : (buildOrbits (clusterEq g) clusters).flatten.Nodup := (hp.nodup_iff).2 hnd
  have hone : ∀ o ∈ buildOrbits (clusterEq g) clusters, o ≠ [] := by
    intro o ho
    obtain ⟨r, t, rfl, -⟩ := C37_representative _ _ o ho
    simp
  cases b with
  | occupation =>
    have husi : ((Basis.occupation).siteBasis ℝ).usesStateIndices = false := rfl
    simp only [configureCorrelationTerms, husi, Bool.false_eq_true, if_false, Except.ok.injEq] at hconf
    subst hconf
    have hfl : ((buildOrbits (clusterEq g) clusters).map fun o => o.map fun c =>
        (c, List.replicate c.length 0)).flatten =
        (buildOrbits (clusterEq g) clusters).flatten.map fun c => (c, List.replicate c.length 0) := by
      rw [List.map_flatten]
    refine ⟨(buildOrbits (clusterEq g) clusters).map fun o => o.map fun c => (c, List.replicate c.length 0),
      ?_, ?_, ?_, ?_, ?_, ?_, ?_, ?_⟩
    · intro o ho
      obtain ⟨o', ho', rfl⟩ := List.mem_map.1 ho
      simpa using hone o' ho'
    · rw [hfl]
      exact hflat.map fun c c' h => (Prod.mk.inj h).1
    · rw [hfl]
      intro p hpm
      obtain ⟨c, hc, rfl⟩ := List.mem_map.1 hpm
      refine ⟨(hw c).1 (hp.subset hc), ?_⟩
      simp only [Basis.numSiteBasisFunctions]
      rw [List.forall₂_iff_get]
      refine ⟨by simp, fun i h1 h2 => by simp⟩
    · simp [getOrbitFingerprints]
    · intro x
      simp only [readTerms, toIntClusters, List.map_map]
      apply List.map_congr_left
      intro o ho
      simp only [Function.comp_apply, plainTerm, termValue, List.map_map]
      congr 1
      apply List.map_congr_left
      intro c hc
      simp only [Function.comp_apply, List.map_map, siteValue]
      rw [show (c.zip (List.replicate c.length 0)).map (fun sf : Nat × Nat => ((x (sf.1 : Int) : Int) : ℝ)) =
        ((c.zip (List.replicate c.length 0)).map Prod.fst).map fun s : Nat => ((x (s : Int) : Int) : ℝ) by
          rw [List.map_map]; rfl, zip_fst_of (by simp)]
      rfl
    · intro hsep
      refine ⟨?_, ?_⟩
      · intro o ho
        obtain ⟨o', ho', rfl⟩ := List.mem_map.1 ho
        obtain ⟨c, rfl⟩ := orbit_singleton hsep hnd hw ho'
        exact ⟨_, rfl⟩
      · rintro ⟨c, d⟩ hc hd
        rw [hfl]
        refine List.mem_map.2 ⟨c, hp.symm.subset ((hw c).2 hc), ?_⟩
        simp only [Prod.mk.injEq, true_and]
        simp only [Basis.numSiteBasisFunctions] at hd
        symm
        rw [List.eq_replicate_iff]
        refine ⟨hd.length_eq.symm, fun f hf => ?_⟩
        obtain ⟨i, hi, rfl⟩ := List.mem_iff_getElem.1 hf
        have := (List.forall₂_iff_get.1 hd).2 i (by rw [hd.length_eq]; exact hi) hi
        simp only [List.get_eq_getElem] at this
        omega
    · intro o ho
      obtain ⟨o', ho', rfl⟩ := List.mem_map.1 ho
      obtain ⟨r, t, rfl, ht⟩ := C37_representative _ _ o' ho'
      refine ⟨_, _, rfl, fun p hpm => ?_⟩
      obtain ⟨c, hc, rfl⟩ := List.mem_map.1 hpm
      exact ht c hc
    · intro _ c hc
      rw [hfl]
      exact List.mem_map.2 ⟨c, hp.symm.subset ((hw c).2 hc), rfl⟩
  | chebyshev k =>
    have husi : ((Basis.chebyshev k).siteBasis ℝ).usesStateIndices = true := rfl
    obtain ⟨ds, hds, -, hfpl, hnod, hval, huni⟩ := C67_terms_decorated g _ husi counts hash pc cc m hm
    simp only [configureCorrelationTerms, husi, if_true] at hconf
    split at hconf
    · cases hconf
    · rename_i table htable
      cases hconf
      simp only [Option.some.injEq] at hds
      subst hds
      set features := (buildOrbits (clusterEq g) clusters).flatMap
        (orbitFeatures g ((Basis.chebyshev k).siteBasis ℝ) counts) with hfeat
      have hmemf : ∀ f ∈ features, _ := fun f hf => features_mem hf
      have hfl : (features.map fun f => f.clusters.map fun c => (c, f.decoration)).flatten.map
          (fun p : List Nat × List Nat => (p.1.map Int.ofNat, p.2.map Int.ofNat)) =
          ((toIntClusters (features.map Feature.clusters)).zip (features.map fun f =>
            f.clusters.map fun _ => f.decoration.map Int.ofNat)).flatMap fun od => od.1.zip od.2 := by
        simp only [toIntClusters, List.map_map]
        rw [List.zip_map', List.flatMap_map, List.map_flatten, List.map_map, List.flatMap_def]
        congr 1
        apply List.map_congr_left
        intro f _
        simp only [Function.comp_apply, List.map_map]
        rw [List.zip_map']
        rfl
      refine ⟨features.map fun f => f.clusters.map fun c => (c, f.decoration), ?_, ?_, ?_, ?_, ?_, ?_, ?_, ?_⟩
      · intro o ho
        obtain ⟨f, hf, rfl⟩ := List.mem_map.1 ho
        simpa using hone _ (hmemf f hf).1
      · rw [← hfl] at hnod
        exact hnod.of_map
      · intro p hpm
        obtain ⟨o, ho, hpo⟩ := List.mem_flatten.1 hpm
        obtain ⟨f, hf, rfl⟩ := List.mem_map.1 ho
        obtain ⟨c, hc, rfl⟩ := List.mem_map.1 hpo
        obtain ⟨h1, h2, h3⟩ := hmemf f hf
        refine ⟨(hw c).1 (h2 c hc).1, ?_⟩
        rw [List.forall₂_iff_get]
        refine ⟨(h2 c hc).2, fun i hi hi' => ?_⟩
        exact h3 c hc i _ _ (List.getElem?_eq_getElem hi) (List.getElem?_eq_getElem hi')
      · rw [hfpl]
        simp [toIntClusters]
      · intro x
        simp only [readTerms, toIntClusters, List.map_map]
        rw [List.zip_map', List.map_map]
        apply List.map_congr_left
        intro f _
        simp only [Function.comp_apply, decoratedTerm, termValue, List.map_map]
        rw [List.zip_map', List.map_map]
        congr 1
        apply List.map_congr_left
        intro c _
        simp only [Function.comp_apply]
        rw [List.zip_map, List.map_map]
        rfl
      · intro hsep
        refine ⟨?_, ?_⟩
        · intro o ho
          obtain ⟨f, hf, rfl⟩ := List.mem_map.1 ho
          obtain ⟨c, hc⟩ := orbit_singleton hsep hnd hw (hmemf f hf).1
          rw [hc]
          exact ⟨_, rfl⟩
        · rintro ⟨c, d⟩ hc hd
          obtain ⟨o, ho, hco⟩ := List.mem_flatten.1 (hp.symm.subset ((hw c).2 hc))
          obtain ⟨c', rfl⟩ := orbit_singleton hsep hnd hw ho
          rw [List.mem_singleton] at hco
          subst hco
          refine List.mem_flatten.2 ⟨[(c, d)], List.mem_map.2 ⟨⟨[c], d, g.decoratedFingerprint (g.fingerprint [c]) d
            (c.map fun s => counts[s]?.getD 0)⟩, List.mem_flatMap.2 ⟨[c], ho, ?_⟩, rfl⟩, List.mem_singleton_self _⟩
          unfold orbitFeatures
          simp only [List.mem_map]
          refine ⟨d, ?_, rfl⟩
          rw [mem_productLists, List.forall₂_map_right_iff, List.forall₂_iff_get]
          refine ⟨by rw [basisCounts_length]; exact hd.length_eq.symm, ?_⟩
          intro i hi hi'
          simp only [List.get_eq_getElem, List.mem_range]
          have hi2 : i < c.length := by rw [hd.length_eq]; exact hi
          have h1 := (List.forall₂_iff_get.1 hd).2 i hi2 hi
          simp only [List.get_eq_getElem] at h1
          refine lt_of_lt_of_le h1 ?_
          apply le_basisCounts (List.getElem?_eq_getElem hi') (by simp)
          intro c' hc'
          rw [List.mem_singleton] at hc'
          subst hc'
          rw [List.getElem?_eq_getElem hi2, Option.getD_some]
          exact le_refl _
      · intro o ho
        obtain ⟨f, hf, rfl⟩ := List.mem_map.1 ho
        obtain ⟨r, t, hrt, ht⟩ := C37_representative _ _ _ (hmemf f hf).1
        rw [hrt]
        refine ⟨_, _, rfl, fun p hpm => ?_⟩
        obtain ⟨c, hc, rfl⟩ := List.mem_map.1 hpm
        exact ht c hc
      · intro h2 c hc
        have hmem := huni 2 h2 c (List.replicate c.length 0) hc (by
          rw [List.forall₂_iff_get]
          refine ⟨by simp, fun i h1 h2 => ?_⟩
          simp only [List.get_eq_getElem, List.getElem_replicate]
          exact Nat.zero_lt_one)
        simp only at hmem
        rw [← hfl] at hmem
        obtain ⟨p, hpm, he⟩ := List.mem_map.1 hmem
        have h1 : p.1 = c := map_ofNat_injective (Prod.mk.inj he).1
        have h3 : p.2 = List.replicate c.length 0 := map_ofNat_injective (Prod.mk.inj he).2
        have h4 : p = (c, List.replicate c.length 0) := Prod.ext h1 h3
        rw [← h4]
        exact hpm

end
end KMC
