import Mathlib.Algebra.BigOperators.Group.List.Lemmas
import Verif.Props.LCEBuildProps
import Verif.Props.ChebyshevProps
/-
C68: symmetry-equivalent surroundings have the same value.
-/
namespace KMC
open Spec LCE

section
variable {K L : Type} [CommRing K] [LinearOrder L]

/-- A relabelling of the local sites that the geometry cannot see: it permutes the sites, keeps
the number of states of each site and the size of every wanted cluster, and maps every wanted
cluster to an equivalent one. -/
structure SymmetryOperation (g : ClusterGeometry L) (cutoff : List L) (counts : List Nat)
    (π : Nat → Nat) : Prop where
  maps : ∀ s, s < counts.length → π s < counts.length
  inj : ∀ s t, s < counts.length → t < counts.length → π s = π t → s = t
  states : ∀ s, s < counts.length → counts[π s]? = counts[s]?
  size : ∀ c, WantedCluster g cutoff counts.length c → g.maxLength (imageCluster π c) = g.maxLength c
  equivalent : ∀ c, WantedCluster g cutoff counts.length c →
    clusterEq g c (imageCluster π c) = true

/-- The cluster comparison is an equivalence on the wanted clusters. -/
structure ComparisonIsEquivalence (g : ClusterGeometry L) (cutoff : List L) (n : Nat) : Prop where
  refl : ∀ a, WantedCluster g cutoff n a → clusterEq g a a = true
  symm : ∀ a b, WantedCluster g cutoff n a → WantedCluster g cutoff n b →
    clusterEq g a b = true → clusterEq g b a = true
  trans : ∀ a b c, WantedCluster g cutoff n a → WantedCluster g cutoff n b →
    WantedCluster g cutoff n c → clusterEq g a b = true → clusterEq g b c = true →
    clusterEq g a c = true

theorem imageCluster_perm (π : Nat → Nat) (c : List Nat) : (imageCluster π c).Perm (c.map π) :=
  List.perm_insertionSort _ _

theorem image_wanted {g : ClusterGeometry L} {cutoff : List L} {counts : List Nat} {π : Nat → Nat}
    (hs : SymmetryOperation g cutoff counts π) {c : List Nat}
    (hc : WantedCluster g cutoff counts.length c) :
    WantedCluster g cutoff counts.length (imageCluster π c) := by
  obtain ⟨h1, h2, h3, h4, r, h5, h6⟩ := hc
  have hp := imageCluster_perm π c
  have hl : (imageCluster π c).length = c.length := by rw [hp.length_eq, List.length_map]
  refine ⟨?_, ?_, by rw [hl]; exact h3, by rw [hl]; exact h4, r, by rw [hl]; exact h5, ?_⟩
  · have hsorted : (imageCluster π c).Pairwise (· ≤ ·) := List.pairwise_insertionSort _ _
    have hnd : (imageCluster π c).Nodup := by
      rw [hp.nodup_iff]
      refine List.Nodup.map_on ?_ (h1.imp fun h => Nat.ne_of_lt h)
      intro x hx y hy hxy
      exact hs.inj x y (h2 x hx) (h2 y hy) hxy
    exact (hsorted.and hnd).imp fun h => Nat.lt_of_le_of_ne h.1 h.2
  · intro s hs'
    obtain ⟨t, ht, rfl⟩ := List.mem_map.1 (hp.subset hs')
    exact hs.maps t (h2 t ht)
  · rw [hs.size c ⟨h1, h2, h3, h4, r, h5, h6⟩]; exact h6

theorem image_inj {g : ClusterGeometry L} {cutoff : List L} {counts : List Nat} {π : Nat → Nat}
    (hs : SymmetryOperation g cutoff counts π) {c d : List Nat}
    (hc : WantedCluster g cutoff counts.length c) (hd : WantedCluster g cutoff counts.length d)
    (h : imageCluster π c = imageCluster π d) : c = d := by
  have hp : (c.map π).Perm (d.map π) :=
    (imageCluster_perm π c).symm.trans (h ▸ imageCluster_perm π d)
  have hsub : ∀ c d : List Nat, WantedCluster g cutoff counts.length c →
      WantedCluster g cutoff counts.length d → (c.map π).Perm (d.map π) → c ⊆ d := by
    intro c d hc hd hp s hsc
    obtain ⟨t, ht, hts⟩ := List.mem_map.1 (hp.subset (List.mem_map.2 ⟨s, hsc, rfl⟩))
    rw [hs.inj s t (hc.2.1 s hsc) (hd.2.1 t ht) hts.symm]
    exact ht
  have hcd : c.Perm d := by
    rw [List.perm_ext_iff_of_nodup (hc.1.imp fun h => Nat.ne_of_lt h)
      (hd.1.imp fun h => Nat.ne_of_lt h)]
    exact fun s => ⟨fun h => hsub c d hc hd hp h, fun h => hsub d c hd hc hp.symm h⟩
  exact hcd.eq_of_pairwise (fun a b _ _ h1 h2 => absurd h1 (Nat.lt_asymm h2)) hc.1 hd.1

/-- The images of the clusters of an orbit are the clusters of the orbit. -/
theorem orbit_image {g : ClusterGeometry L} {cutoff : List L} {counts : List Nat} {π : Nat → Nat}
    (hs : SymmetryOperation g cutoff counts π)
    (he : ComparisonIsEquivalence g cutoff counts.length) {o : List (List Nat)}
    (ho : o ∈ buildOrbits (clusterEq g) ((candidateClusters counts.length).filter
      (withinCutoff g cutoff))) :
    (o.map (imageCluster π)).Perm o ∧ ∀ c ∈ o, WantedCluster g cutoff counts.length c := by
  set cs := (candidateClusters counts.length).filter (withinCutoff g cutoff) with hcs
  have hw : ∀ c, c ∈ cs ↔ WantedCluster g cutoff counts.length c := fun c => mem_wanted
  have hE : EquivOn (clusterEq g) cs := by
    refine ⟨fun a ha => he.refl a ((hw a).1 ha), fun a ha b hb => he.symm a b ((hw a).1 ha)
      ((hw b).1 hb), fun a ha b hb c hc => he.trans a b c ((hw a).1 ha) ((hw b).1 hb) ((hw c).1 hc)⟩
  have hp := C37_partition (clusterEq g) cs
  have hmem : ∀ c ∈ o, WantedCluster g cutoff counts.length c := fun c hc =>
    (hw c).1 (hp.subset (List.mem_flatten.2 ⟨o, ho, hc⟩))
  have hnd : o.Nodup := by
    have h1 : cs.Nodup := (nodup_candidateClusters _).filter _
    exact (List.nodup_flatten.1 ((hp.nodup_iff).2 h1)).1 o ho
  refine ⟨?_, hmem⟩
  have hnd' : (o.map (imageCluster π)).Nodup :=
    List.Nodup.map_on (fun c hc d hd h => image_inj hs (hmem c hc) (hmem d hd) h) hnd
  refine (List.subperm_of_subset hnd' ?_).perm_of_length_le (by simp)
  intro d hd
  obtain ⟨c, hc, rfl⟩ := List.mem_map.1 hd
  have h1 := C37_equivalence_classes (clusterEq g) cs hE o ho c hc
  rw [h1.mem_iff, List.mem_filter]
  exact ⟨(hw _).2 (image_wanted hs (hmem c hc)), hs.equivalent c (hmem c hc)⟩

/-- The sum over an orbit of products over sites does not see the relabelling. -/
theorem orbit_sum_image {g : ClusterGeometry L} {cutoff : List L} {counts : List Nat}
    {π : Nat → Nat} (hs : SymmetryOperation g cutoff counts π)
    (he : ComparisonIsEquivalence g cutoff counts.length) {o : List (List Nat)}
    (ho : o ∈ buildOrbits (clusterEq g) ((candidateClusters counts.length).filter
      (withinCutoff g cutoff))) (f f' : Nat → K)
    (hf : ∀ s, s < counts.length → f' s = f (π s)) :
    (o.map fun c => (c.map f').prod).sum = (o.map fun c => (c.map f).prod).sum := by
  obtain ⟨h1, h2⟩ := orbit_image hs he ho
  have h3 := (h1.map fun c => (c.map f).prod).sum_eq
  rw [← h3, List.map_map]
  congr 1
  apply List.map_congr_left
  intro c hc
  simp only [Function.comp_apply]
  rw [((imageCluster_perm π c).map f).prod_eq, List.map_map]
  congr 1
  apply List.map_congr_left
  intro s hsc
  exact hf s ((h2 c hc).2.1 s hsc)

/-- C68.  Surroundings related by a symmetry operation have the same value, for plain models and
for models in which every site has one basis function (two states). -/
theorem C68_equivalent_surroundings (g : ClusterGeometry L) (b : SiteBasis K) (hb : BasisShape b)
    (counts : List Nat) (hash : Option String) (pc : L) (cc : List L) (m m' : LCE K)
    (hm : build g b counts hash pc cc = .ok m) (hne : m.getOrbitFingerprints ≠ [])
    (p : LCEParameters K) (hp : m.setParameters p = (.ok (), m'))
    (he : ComparisonIsEquivalence g (pc :: cc) counts.length) (π : Nat → Nat)
    (hs : SymmetryOperation g (pc :: cc) counts π)
    (hone : b.usesStateIndices = true → ∀ n ∈ counts, b.numSiteBasisFunctions n = 1)
    (occ occ' : List Int) (e e' : Event) (hv : ValidSurroundings counts occ e.env)
    (hv' : ValidSurroundings counts occ' e'.env) (x x' : Int → Int)
    (hx : LocalOccupations occ e.env x) (hx' : LocalOccupations occ' e'.env x')
    (hπ : ∀ s : Nat, s < counts.length → x' s = x (π s)) :
    m'.compute occ' e' = m'.compute occ e := by
  obtain ⟨keci, e0, f, h, hc1, hc2, hc3⟩ := C67_built_model_evaluates g b hb counts hash pc cc m m' hm
    hne p hp occ e hv x hx
  obtain ⟨keci', e0', f', h', hd1, hd2, hd3⟩ := C67_built_model_evaluates g b hb counts hash pc cc m m'
    hm hne p hp occ' e' hv' x' hx'
  rw [hc1] at hd1
  cases hd1
  rw [hc3, hd3]
  congr 2
  clear hc3 hd3
  obtain ⟨clusters, hcl, hconf⟩ := lceBuild_ok hm
  unfold configureCorrelationTerms at hconf
  split at hconf
  · rename_i husi
    split at hconf
    · cases hconf
    · cases hconf
      simp only [toIntClusters, List.map_map, List.zip_map']
      apply List.map_congr_left
      intro ft hft
      obtain ⟨hf1, hf2, hf3⟩ := features_mem hft
      rw [hcl] at hf1
      -- the only decoration is all zeros
      have hwant := (orbit_image hs he hf1).2
      have hterm : ∀ y : Int → Int, decoratedTerm (siteFunction b counts) y
          (ft.clusters.map fun c => c.map Int.ofNat)
          (ft.clusters.map fun _ => ft.decoration.map Int.ofNat) =
          (ft.clusters.map fun c => (c.map fun s : Nat =>
            siteFunction b counts s (y s) 0).prod).sum := by
        intro y
        unfold decoratedTerm
        rw [List.zip_map', List.map_map]
        congr 1
        apply List.map_congr_left
        intro c hc
        simp only [Function.comp_apply]
        congr 1
        have hlen := (hf2 c hc).2
        apply List.ext_getElem
        · simp [hlen]
        · intro i hi hi'
          have hic : i < c.length := by simpa using hi'
          have hid : i < ft.decoration.length := by rw [← hlen]; exact hic
          have hlt := hf3 c hc i _ _ (List.getElem?_eq_getElem hic) (List.getElem?_eq_getElem hid)
          have hsc : c[i] < counts.length := (hwant c hc).2.1 _ (List.getElem_mem hic)
          rw [List.getElem?_eq_getElem hsc, Option.getD_some, hone husi _ (List.getElem_mem hsc)] at hlt
          have hzero : ft.decoration[i] = 0 := by omega
          simp [hzero]
      simp only [Function.comp_apply]
      rw [hterm x', hterm x]
      refine orbit_sum_image hs he hf1 _ _ ?_
      intro s hsl
      rw [hπ s hsl]
      unfold siteFunction
      simp only [Int.toNat_natCast]
      rw [hs.states s hsl]
  · cases hconf
    simp only [toIntClusters]
    rw [List.map_map, List.map_map]
    apply List.map_congr_left
    intro o ho
    rw [hcl] at ho
    have hterm : ∀ y : Int → Int, plainTerm (K := K) y (o.map fun c => c.map Int.ofNat) =
        (o.map fun c => (c.map fun s : Nat => ((y s : Int) : K)).prod).sum := by
      intro y
      simp only [plainTerm, List.map_map]
      congr 1
      apply List.map_congr_left
      intro c _
      simp only [Function.comp_apply, List.map_map]
      rfl
    simp only [Function.comp_apply]
    rw [hterm x', hterm x]
    refine orbit_sum_image hs he ho _ _ ?_
    intro s hsl
    rw [hπ s hsl]

end

/-! ### Concrete models -/

/-- Three local sites on a line at 0, 1, 2; clusters are compared by their extent. -/
def lineGeometry : ClusterGeometry Nat where
  maxLength c := (c.max?.getD 0) - (c.min?.getD 0)
  matches? a b := ((a.max?.getD 0) - (a.min?.getD 0)) == ((b.max?.getD 0) - (b.min?.getD 0))
  fingerprint o := String.ofList (List.replicate (o.headD []).length 'o')
  decoratedFingerprint s d _ := s ++ String.ofList (d.map fun k => if k = 0 then 'a' else 'b')

/-- The mirror image of the line. -/
def mirror (s : Nat) : Nat := 2 - s

/-- The event all examples use: local sites 0, 1, 2 of the occupation vector. -/
def lineEvent : Event := ⟨[3, 4], [0, 1, 2], none⟩

theorem lineWanted {c : List Nat} (h : WantedCluster lineGeometry [10, 2, 0, 0] 3 c) :
    c ∈ [[0], [1], [2], [0, 1], [1, 2]] := by
  have h1 := (mem_wanted (g := lineGeometry)).2 h
  have h2 : (candidateClusters 3).filter (withinCutoff lineGeometry [10, 2, 0, 0]) =
      [[0], [1], [2], [0, 1], [1, 2]] := by decide
  rw [h2] at h1
  exact h1

theorem line_equivalence : ComparisonIsEquivalence lineGeometry [10, 2, 0, 0] 3 := by
  have key1 : ∀ a ∈ [[0], [1], [2], [0, 1], [1, 2]], clusterEq lineGeometry a a = true := by decide
  have key2 : ∀ a ∈ [[0], [1], [2], [0, 1], [1, 2]], ∀ b ∈ [[0], [1], [2], [0, 1], [1, 2]],
      clusterEq lineGeometry a b = true → clusterEq lineGeometry b a = true := by decide
  have key3 : ∀ a ∈ [[0], [1], [2], [0, 1], [1, 2]], ∀ b ∈ [[0], [1], [2], [0, 1], [1, 2]],
      ∀ c ∈ [[0], [1], [2], [0, 1], [1, 2]], clusterEq lineGeometry a b = true →
        clusterEq lineGeometry b c = true → clusterEq lineGeometry a c = true := by decide
  exact ⟨fun a ha => key1 a (lineWanted ha),
    fun a b ha hb => key2 a (lineWanted ha) b (lineWanted hb),
    fun a b c ha hb hc => key3 a (lineWanted ha) b (lineWanted hb) c (lineWanted hc)⟩

theorem line_mirror (q : Nat) : SymmetryOperation lineGeometry [10, 2, 0, 0] [q, q, q] mirror := by
  have key1 : ∀ a ∈ [[0], [1], [2], [0, 1], [1, 2]],
      lineGeometry.maxLength (imageCluster mirror a) = lineGeometry.maxLength a := by decide
  have key2 : ∀ a ∈ [[0], [1], [2], [0, 1], [1, 2]],
      clusterEq lineGeometry a (imageCluster mirror a) = true := by decide
  refine ⟨?_, ?_, ?_, fun c hc => key1 c (lineWanted hc), fun c hc => key2 c (lineWanted hc)⟩
  · intro s hs
    simp only [List.length_cons, List.length_nil, mirror] at *
    omega
  · intro s t hs ht h
    simp only [List.length_cons, List.length_nil, mirror] at *
    omega
  · intro s hs
    simp only [List.length_cons, List.length_nil, mirror] at *
    have : s = 0 ∨ s = 1 ∨ s = 2 := by omega
    rcases this with rfl | rfl | rfl <;> rfl

/-- The coefficients of the two-state example: points 3, pairs 5, constant 7. -/
def lineParameters : LCEParameters ℚ := .dict (some [3, 5]) (some 7) none none

/-- The two-state line: what `build` makes, and its values in two mirrored surroundings
(states 0, 1, 1 and 1, 1, 0): points -1+1+1, pairs -1+1. -/
example : ∃ m m' : LCE ℚ,
    build lineGeometry ((Basis.chebyshev 2).siteBasis ℚ) [2, 2, 2] none 10 [2, 0, 0] = .ok m ∧
    m.getOrbitFingerprints ≠ [] ∧ m.setParameters lineParameters = (.ok (), m') ∧
    (∀ n ∈ [2, 2, 2], ((Basis.chebyshev 2).siteBasis ℚ).numSiteBasisFunctions n = 1) ∧
    ValidSurroundings [2, 2, 2] [0, 1, 1, 0, 1] lineEvent.env ∧
    ValidSurroundings [2, 2, 2] [1, 1, 0, 0, 1] lineEvent.env ∧
    m'.compute [0, 1, 1, 0, 1] lineEvent = .ok 10 ∧
    m'.compute [1, 1, 0, 0, 1] lineEvent = .ok 10 := by
  refine ⟨_, _, rfl, by decide +kernel, rfl, by decide, ?_, ?_, by decide +kernel, by decide +kernel⟩
  all_goals
    refine ⟨rfl, ?_⟩
    intro s i n h1 h2
    match s, h1, h2 with
    | 0, h1, h2 => cases h1; cases h2; exact ⟨_, rfl, by decide, by decide⟩
    | 1, h1, h2 => cases h1; cases h2; exact ⟨_, rfl, by decide, by decide⟩
    | 2, h1, h2 => cases h1; cases h2; exact ⟨_, rfl, by decide, by decide⟩
    | _ + 3, h1, h2 => cases h1

/-- C68 does not extend to three states: basis functions are assigned to the sites of a cluster
by position, so a fitted model gives different values to the mirrored surroundings 0, 1, 1 and
1, 1, 0 although the mirror image is a symmetry operation. -/
theorem C68_three_states_differ : ∃ (m m' : LCE ℚ) (p : LCEParameters ℚ),
    build lineGeometry ((Basis.chebyshev 3).siteBasis ℚ) [3, 3, 3] none 10 [2, 0, 0] = .ok m ∧
    m.setParameters p = (.ok (), m') ∧
    ComparisonIsEquivalence lineGeometry [10, 2, 0, 0] 3 ∧
    SymmetryOperation lineGeometry [10, 2, 0, 0] [3, 3, 3] mirror ∧
    m'.compute [0, 1, 1, 0, 1] lineEvent = .ok 1 ∧
    m'.compute [1, 1, 0, 0, 1] lineEvent = .ok 0 := by
  refine ⟨_, _, .dict (some [0, 0, 0, 1, 0, 0]) (some 0) none none, rfl, rfl, line_equivalence,
    line_mirror 3, by decide +kernel, by decide +kernel⟩

/-- C38 stops at models without fingerprints: any number of coefficients is accepted and the
mismatch only shows when the model is evaluated. -/
theorem C38_no_fingerprints_accepts_any_length :
    ∃ m m' : LCE ℚ, m.setParameters (.object [1, 2] 0 none none) = (.ok (), m') ∧
      m.clusterSiteIndices.length = 1 ∧
      m'.compute [0, 1, 1, 0, 1] lineEvent = .error .valueError := by
  refine ⟨{ clusterSiteIndices := [[[0], [1]]] }, _, rfl, rfl, by decide +kernel⟩

/-- Rejected and accepted parameters of the two-state line. -/
example : ∃ m : LCE ℚ,
    build lineGeometry ((Basis.chebyshev 2).siteBasis ℚ) [2, 2, 2] (some "h") 10 [2, 0, 0] = .ok m ∧
    m.getOrbitFingerprints = ["oa", "ooaa"] ∧
    (m.setParameters (.object [1] 0 none none)).1 = .error .valueError ∧
    (m.setParameters (.object [1, 2] 0 none (some "g"))).1 = .error .valueError ∧
    (m.setParameters (.object [1, 2] 0 (some ["ooaa", "oa"]) none)).1 = .error .valueError ∧
    (m.setParameters (.object [1, 2] 0 (some ["oa", "ooaa"]) (some "h"))).1 = .ok () := by
  refine ⟨_, rfl, by decide +kernel, by decide +kernel, by decide +kernel, by decide +kernel,
    by decide +kernel⟩

end KMC
