import Verif.Spec.ClusterShape
import Verif.Spec.ClusterMatcher
import Verif.Props.ClusterMatcherProps
import Verif.Props.LCESymmetryProps
/-
Reading the data of a cluster of local sites.
-/
namespace KMC
open Spec ModelFile Matcher
variable {P D R : Type}

theorem chosen_get? (sites : List (String × P)) : ∀ (c : List Nat) (_ : ∀ s ∈ c, s < sites.length) (i : Nat),
    (c.filterMap fun s => sites[s]?)[i]? = c[i]?.bind fun s => sites[s]?
  | [], _, i => by simp
  | a :: c, h, i => by
    have ha : a < sites.length := h a (by simp)
    rw [List.filterMap_cons_some (List.getElem?_eq_getElem ha)]
    cases i with
    | zero => simp [List.getElem?_eq_getElem ha]
    | succ i => simpa using chosen_get? sites c (fun s hs => h s (by simp [hs])) i

theorem chosenSites_length (sites : List (String × P)) : ∀ (c : List Nat) (_ : ∀ s ∈ c, s < sites.length),
    (c.filterMap fun s => sites[s]?).length = c.length
  | [], _ => rfl
  | a :: c, h => by
    have ha : a < sites.length := h a (by simp)
    rw [List.filterMap_cons_some (List.getElem?_eq_getElem ha), List.length_cons, List.length_cons,
      chosenSites_length sites c fun s hs => h s (by simp [hs])]

theorem clusterAt_species (dist : P → P → D) (sym : List (String × P) → String) (sites : List (String × P))
    (c : List Nat) : (clusterAt dist sym sites c).species = c.filterMap (siteSpecies sites) := by
  unfold clusterAt siteSpecies
  simp only [List.map_filterMap]

theorem clusterAt_roles (dist : P → P → D) (sym : List (String × P) → String) (sites : List (String × P))
    (c : List Nat) : (clusterAt dist sym sites c).roles =
      List.replicate (clusterAt dist sym sites c).species.length "" := by
  simp only [clusterAt, List.length_map]

theorem clusterAt_matrix (dist : P → P → D) (sym : List (String × P) → String) (sites : List (String × P))
    (c : List Nat) : (clusterAt dist sym sites c).matrix =
      c.filterMap fun s => if (siteSpecies sites s).isSome then some (c.filterMap (distanceOf dist sites s))
        else none := by
  unfold clusterAt ModelFile.distances
  simp only [List.map_filterMap]
  apply List.filterMap_congr
  intro s _
  unfold siteSpecies distanceOf
  cases hs : sites[s]? with
  | none => simp
  | some a =>
    simp only [Option.map_some, Option.isSome_some, if_true, Option.some.injEq]
    apply List.filterMap_congr
    intro t _
    cases sites[t]? <;> rfl

theorem clusterAt_matrix_length (dist : P → P → D) (sym : List (String × P) → String)
    (sites : List (String × P)) (c : List Nat) (h : ∀ s ∈ c, s < sites.length) :
    (clusterAt dist sym sites c).matrix.length = c.length := by
  simp only [clusterAt, ModelFile.distances, List.length_map]
  exact chosenSites_length sites c h

theorem zip_replicate_length {α β : Type} (b : β) : ∀ l : List α,
    l.zip (List.replicate l.length b) = l.map fun a => (a, b)
  | [] => rfl
  | a :: l => by
    simp only [List.length_cons, List.replicate_succ, List.zip_cons_cons, List.map_cons,
      zip_replicate_length b l]

theorem clusterAt_view_labels [Zero D] (dist : P → P → D) (sym : List (String × P) → String)
    (sites : List (String × P)) (c : List Nat) (h : ∀ s ∈ c, s < sites.length) (i : Nat) :
    (clusterAt dist sym sites c).view.labels[i]? =
      (c[i]?.bind (siteSpecies sites)).map fun x => toLex (x, "") := by
  have h1 := chosen_get? sites c h i
  simp only [Cluster.view]
  rw [clusterAt_roles, zip_replicate_length]
  simp only [clusterAt, List.map_map, List.getElem?_map]
  rw [h1]
  cases c[i]? with
  | none => rfl
  | some s =>
    simp only [Option.bind_some, siteSpecies]
    cases sites[s]? <;> rfl

theorem clusterAt_view_length [Zero D] (dist : P → P → D) (sym : List (String × P) → String)
    (sites : List (String × P)) (c : List Nat) (h : ∀ s ∈ c, s < sites.length) :
    (clusterAt dist sym sites c).view.labels.length = c.length := by
  simp only [Cluster.view]
  rw [clusterAt_roles, zip_replicate_length]
  simp only [clusterAt, List.length_map]
  exact chosenSites_length sites c h

theorem clusterAt_entry [Zero D] (dist : P → P → D) (sym : List (String × P) → String)
    (sites : List (String × P)) (c : List Nat) (h : ∀ s ∈ c, s < sites.length) (i j : Nat) :
    entry (clusterAt dist sym sites c).matrix i j =
      (c[i]?.bind fun s => c[j]?.bind fun t => distanceOf dist sites s t).getD 0 := by
  have hi := chosen_get? sites c h i
  have hj := chosen_get? sites c h j
  simp only [entry, clusterAt, ModelFile.distances, List.getElem?_map]
  rw [hi]
  cases hci : c[i]? with
  | none => rfl
  | some s =>
    simp only [Option.bind_some, distanceOf]
    cases hs : sites[s]? with
    | none =>
      simp only [Option.map_none, Option.bind_none]
      cases c[j]? <;> rfl
    | some a =>
      simp only [Option.map_some, Option.bind_some, List.getElem?_map]
      rw [hj]
      cases hcj : c[j]? with
      | none => rfl
      | some t =>
        simp only [Option.bind_some]
        cases sites[t]? <;> rfl

theorem distanceOf_symm [Zero D] [LE D] {dist : P → P → D} (hd : Metric dist) (sites : List (String × P))
    (s t : Nat) : distanceOf dist sites s t = distanceOf dist sites t s := by
  unfold distanceOf
  cases sites[s]? <;> cases sites[t]? <;> simp [hd.symm]

theorem distanceOf_some {dist : P → P → D} {sites : List (String × P)} {s t : Nat}
    (hs : s < sites.length) (ht : t < sites.length) : ∃ x, distanceOf dist sites s t = some x := by
  unfold distanceOf
  rw [List.getElem?_eq_getElem hs, List.getElem?_eq_getElem ht]
  exact ⟨_, rfl⟩

theorem clusterAt_symmetric [Zero D] [LE D] {dist : P → P → D} (hd : Metric dist)
    (sym : List (String × P) → String) (sites : List (String × P)) (c : List Nat)
    (h : ∀ s ∈ c, s < sites.length) : SymmetricDistances (clusterAt dist sym sites c).view := by
  intro i j
  simp only [Cluster.view]
  rw [clusterAt_entry dist sym sites c h, clusterAt_entry dist sym sites c h]
  cases c[i]? with
  | none => cases c[j]? <;> rfl
  | some s =>
    cases c[j]? with
    | none => rfl
    | some t => simp only [Option.bind_some, distanceOf_symm hd sites s t]

/-- The entry of the matrix for two sites of the cluster. -/
theorem clusterAt_entry_some [Zero D] (dist : P → P → D) (sym : List (String × P) → String)
    (sites : List (String × P)) (c : List Nat) (h : ∀ s ∈ c, s < sites.length) {i j s t : Nat}
    (hi : c[i]? = some s) (hj : c[j]? = some t) :
    distanceOf dist sites s t = some (entry (clusterAt dist sym sites c).matrix i j) := by
  obtain ⟨x, hx⟩ := distanceOf_some (dist := dist) (h s (List.mem_of_getElem? hi)) (h t (List.mem_of_getElem? hj))
  rw [clusterAt_entry dist sym sites c h, hi, hj]
  simp only [Option.bind_some, hx, Option.getD_some]

section
variable [Field D] [LinearOrder D] [LinearOrder R]

/-- The comparison of clusters succeeds exactly when one passes for the other. -/
theorem clusterEq_iff {dist : P → P → D} (hd : Metric dist) (sym : List (String × P) → String)
    (row : List (List D) → Nat → R) (h : Digests P D) (sites : List (String × P)) {a b : List Nat}
    (ha : IsCluster sites.length a) (hb : IsCluster sites.length b) :
    LCE.clusterEq (shapes dist sym row h sites) a b = true ↔ NearlyCongruent dist sites a b := by
  have hand : a.Nodup := ha.1.imp fun h => Nat.ne_of_lt h
  have hbnd : b.Nodup := hb.1.imp fun h => Nat.ne_of_lt h
  have hfound := (C49_found_iff (row (clusterAt dist sym sites a).matrix) (1 / 1000) (1 / 1000)
    (clusterAt dist sym sites a).view (clusterAt dist sym sites b).view
    (clusterAt_symmetric hd sym sites a ha.2) (clusterAt_symmetric hd sym sites b hb.2)).1
  rw [clusterAt_view_length dist sym sites a ha.2, clusterAt_view_length dist sym sites b hb.2] at hfound
  have hmatch : (shapes dist sym row h sites).matches? a b = true ↔ ∃ m, matchClusters
      (row (clusterAt dist sym sites a).matrix) (1 / 1000) (1 / 1000)
      (clusterAt dist sym sites a).view (clusterAt dist sym sites b).view false false = .ok m := by
    simp only [shapes, geometry, Cluster.matchesCluster]
    cases matchClusters (row (clusterAt dist sym sites a).matrix) (1 / 1000) (1 / 1000)
      (clusterAt dist sym sites a).view (clusterAt dist sym sites b).view false false with
    | ok m => exact ⟨fun _ => ⟨m, rfl⟩, fun _ => rfl⟩
    | error e =>
      constructor
      · intro h; cases h
      · rintro ⟨m, h⟩; cases h
  have heq : LCE.clusterEq (shapes dist sym row h sites) a b = true ↔
      a.length = b.length ∧ ∃ π, IsMatch (isclose (1 / 1000) (1 / 1000))
        (clusterAt dist sym sites a).view (clusterAt dist sym sites b).view π := by
    rw [← hfound, ← hmatch]
    unfold LCE.clusterEq
    by_cases hl : a.length = b.length
    · simp [hl]
    · rw [if_pos hl]
      constructor
      · intro h; cases h
      · intro h
        exact absurd (hfound.1 (hmatch.1 h)).1 hl
  rw [heq]
  constructor
  · rintro ⟨hl, π, hr, hk⟩
    have hπl : π.length = a.length := by rw [hr.length, clusterAt_view_length dist sym sites a ha.2]
    have hπb : ∀ c ∈ π, c < b.length := by
      intro c hc
      obtain ⟨i, hi, rfl⟩ := List.getElem_of_mem hc
      have := (hr.label i _ (List.getElem?_eq_getElem hi)).1
      rwa [clusterAt_view_length dist sym sites b hb.2] at this
    have hfa : ∀ (i : Nat) (hi : i < a.length), ∃ (hi' : i < π.length) (hb' : π[i] < b.length),
        b[π[a.idxOf a[i]]?.getD 0]?.getD 0 = b[π[i]] := by
      intro i hi
      have hi' : i < π.length := by rw [hπl]; exact hi
      have hb' := hπb _ (List.getElem_mem hi')
      refine ⟨hi', hb', ?_⟩
      rw [hand.idxOf_getElem i hi, List.getElem?_eq_getElem hi', Option.getD_some,
        List.getElem?_eq_getElem hb', Option.getD_some]
    refine ⟨fun s => (b[(π[a.idxOf s]?).getD 0]?).getD 0, ?_, ?_, ?_⟩
    · have hmap : a.map (fun s => (b[(π[a.idxOf s]?).getD 0]?).getD 0) = π.map fun c => (b[c]?).getD 0 := by
        apply List.ext_getElem (by simp [hπl])
        intro i h1 h2
        simp only [List.length_map] at h1 h2
        obtain ⟨hi', hb', e⟩ := hfa i h1
        simp only [List.getElem_map]
        rw [e, List.getElem?_eq_getElem hb', Option.getD_some]
      rw [hmap]
      have hperm : π.Perm (List.range b.length) := by
        refine (List.subperm_of_subset hr.nodup ?_).perm_of_length_le (by simp [hπl, hl])
        intro c hc
        exact List.mem_range.2 (hπb c hc)
      refine (hperm.map _).trans ?_
      have : (List.range b.length).map (fun c => (b[c]?).getD 0) = b := by
        apply List.ext_getElem (by simp)
        intro i h1 h2
        simp [h2]
      rw [this]
    · intro s hs
      obtain ⟨i, hi, rfl⟩ := List.getElem_of_mem hs
      obtain ⟨hi', hb', e⟩ := hfa i hi
      have hlab := (hr.label i _ (List.getElem?_eq_getElem hi')).2
      rw [clusterAt_view_labels dist sym sites a ha.2, clusterAt_view_labels dist sym sites b hb.2,
        List.getElem?_eq_getElem hi, List.getElem?_eq_getElem hb'] at hlab
      simp only [Option.bind_some] at hlab
      show siteSpecies sites (b[π[a.idxOf a[i]]?.getD 0]?.getD 0) = _
      rw [e]
      refine Option.map_injective ?_ hlab
      intro x y hxy
      exact congrArg (fun z => (ofLex z).1) hxy
    · intro s hs t ht hst
      obtain ⟨i, hi, rfl⟩ := List.getElem_of_mem hs
      obtain ⟨j, hj, rfl⟩ := List.getElem_of_mem ht
      have hij : i ≠ j := fun h => hst (by subst h; rfl)
      obtain ⟨hi', hbi, ei⟩ := hfa i hi
      obtain ⟨hj', hbj, ej⟩ := hfa j hj
      have := hk i j _ _ hij (List.getElem?_eq_getElem hi') (List.getElem?_eq_getElem hj')
      simp only [isclose, decide_eq_true_eq] at this
      refine ⟨_, _, clusterAt_entry_some dist sym sites a ha.2 (List.getElem?_eq_getElem hi)
        (List.getElem?_eq_getElem hj), ?_, this⟩
      simp only [ei, ej]
      exact clusterAt_entry_some dist sym sites b hb.2 (List.getElem?_eq_getElem hbi)
        (List.getElem?_eq_getElem hbj)
  · rintro ⟨f, hp, hsp, hdist⟩
    have hl : a.length = b.length := by have := hp.length_eq; simpa using this
    refine ⟨hl, a.map fun s => b.idxOf (f s), ⟨?_, ?_, ?_⟩, ?_⟩
    · rw [clusterAt_view_length dist sym sites a ha.2, List.length_map]
    · have hnd : (a.map f).Nodup := hp.nodup_iff.2 hbnd
      rw [show (a.map fun s => b.idxOf (f s)) = (a.map f).map b.idxOf by rw [List.map_map]; rfl]
      refine List.Nodup.map_on ?_ hnd
      intro x hx y hy hxy
      have hxb := hp.subset hx
      exact (List.idxOf_inj hxb).1 hxy
    · intro i c hc
      rw [List.getElem?_map] at hc
      obtain ⟨s, hs, rfl⟩ := Option.map_eq_some_iff.1 hc
      have hsa := List.mem_of_getElem? hs
      have hfb : f s ∈ b := hp.subset (List.mem_map_of_mem hsa)
      have hlt := List.idxOf_lt_length_of_mem hfb
      refine ⟨by rw [clusterAt_view_length dist sym sites b hb.2]; exact hlt, ?_⟩
      rw [clusterAt_view_labels dist sym sites a ha.2, clusterAt_view_labels dist sym sites b hb.2, hs,
        List.getElem?_eq_getElem hlt, List.getElem_idxOf hlt]
      simp only [Option.bind_some, hsp s hsa]
    · intro i j c d hij hc hd'
      rw [List.getElem?_map] at hc hd'
      obtain ⟨s, hs, rfl⟩ := Option.map_eq_some_iff.1 hc
      obtain ⟨t, ht, rfl⟩ := Option.map_eq_some_iff.1 hd'
      have hsa := List.mem_of_getElem? hs
      have hta := List.mem_of_getElem? ht
      have hst : s ≠ t := by
        rintro rfl
        obtain ⟨hi, e1⟩ := List.getElem?_eq_some_iff.1 hs
        obtain ⟨hj, e2⟩ := List.getElem?_eq_some_iff.1 ht
        exact hij ((hand.getElem_inj_iff).1 (e1.trans e2.symm))
      obtain ⟨x, y, hx, hy, hxy⟩ := hdist s hsa t hta hst
      have hs2 := List.idxOf_lt_length_of_mem (hp.subset (List.mem_map_of_mem hsa))
      have ht2 := List.idxOf_lt_length_of_mem (hp.subset (List.mem_map_of_mem hta))
      have e1 := clusterAt_entry_some dist sym sites a ha.2 hs ht
      have e2 := clusterAt_entry_some dist sym sites b hb.2
        ((List.getElem?_eq_getElem hs2).trans (congrArg some (List.getElem_idxOf hs2)))
        ((List.getElem?_eq_getElem ht2).trans (congrArg some (List.getElem_idxOf ht2)))
      rw [hx] at e1
      rw [hy] at e2
      have ex := Option.some.inj e1
      have ey := Option.some.inj e2
      subst ex ey
      exact decide_eq_true hxy

/-! ### The largest distance -/

omit [LinearOrder R] [Field D] in
theorem max?_getD_lt (l : List D) (hl : l ≠ []) (z r : D) : l.max?.getD z < r ↔ ∀ x ∈ l, x < r := by
  cases h : l.max? with
  | none => rw [List.max?_eq_none_iff] at h; exact absurd h hl
  | some v =>
    rw [List.max?_eq_some_iff] at h
    rw [Option.getD_some]
    exact ⟨fun hv x hx => lt_of_le_of_lt (h.2 x hx) hv, fun hv => hv v h.1⟩

omit [LinearOrder R] [LinearOrder D] in
theorem mem_pairDistances (m : List (List D)) (x : D) :
    x ∈ pairDistances m ↔ ∃ i j, i < j ∧ j < m.length ∧ x = entry m i j := by
  unfold pairDistances
  rw [List.mem_map]
  constructor
  · rintro ⟨p, hp, rfl⟩
    obtain ⟨hs, hl⟩ := LCE.mem_combinations.1 hp
    obtain ⟨i, j, rfl⟩ := List.length_eq_two.1 hl
    have hpw := List.Pairwise.sublist hs (List.pairwise_lt_range (n := m.length))
    have hj : j ∈ List.range m.length := hs.subset (by simp)
    exact ⟨i, j, by simpa using hpw, List.mem_range.1 hj, rfl⟩
  · rintro ⟨i, j, hij, hj, rfl⟩
    refine ⟨[i, j], LCE.mem_combinations.2 ⟨?_, rfl⟩, rfl⟩
    refine List.sublist_of_subperm_of_pairwise (r := (· ≤ ·)) ?_ ?_ ?_
    · refine List.subperm_of_subset (by simp; omega) ?_
      intro k hk
      simp only [List.mem_cons, List.not_mem_nil, or_false] at hk
      rcases hk with rfl | rfl <;> rw [List.mem_range] <;> omega
    · simp; omega
    · exact (List.pairwise_lt_range (n := m.length)).imp fun h => Nat.le_of_lt h

/-- The largest distance of a cluster is below `r` exactly when all distances are. -/
theorem maxLength_lt_iff [IsStrictOrderedRing D] {dist : P → P → D} (hd : Metric dist)
    (sym : List (String × P) → String)
    (row : List (List D) → Nat → R) (h : Digests P D) (sites : List (String × P)) {c : List Nat}
    (hc : ∀ s ∈ c, s < sites.length) (hne : c ≠ []) (r : D) :
    (shapes dist sym row h sites).maxLength c < r ↔
      ∀ s ∈ c, ∀ t ∈ c, ∀ x, distanceOf dist sites s t = some x → x < r := by
  have hself : ∀ s x, distanceOf dist sites s s = some x → x = 0 := by
    intro s x hx
    unfold distanceOf at hx
    cases hs : sites[s]? with
    | none => rw [hs] at hx; cases hx
    | some a => rw [hs] at hx; cases hx; exact hd.self _
  have hnn : ∀ s t x, distanceOf dist sites s t = some x → 0 ≤ x := by
    intro s t x hx
    unfold distanceOf at hx
    cases hs : sites[s]? with
    | none => rw [hs] at hx; cases hx
    | some a =>
      cases ht : sites[t]? with
      | none => rw [hs, ht] at hx; cases hx
      | some b => rw [hs, ht] at hx; cases hx; exact hd.nonneg _ _
  have hlen := clusterAt_matrix_length dist sym sites c hc
  show (clusterAt dist sym sites c).bondDistances.1 < r ↔ _
  unfold Cluster.bondDistances
  rw [hlen]
  by_cases h1 : c.length ≤ 1
  · rw [if_pos h1]
    obtain ⟨a, ha⟩ : ∃ a, c = [a] := by
      rcases c with _ | ⟨a, _ | ⟨b, c⟩⟩
      · exact absurd rfl hne
      · exact ⟨a, rfl⟩
      · simp at h1
    subst ha
    have hal := hc a (by simp)
    obtain ⟨x, hx⟩ := distanceOf_some (dist := dist) hal hal
    constructor
    · intro hr s hs t ht y hy
      simp only [List.mem_singleton] at hs ht
      subst hs ht
      rw [hself _ _ hy]
      exact hr
    · intro hr
      have := hr a (by simp) a (by simp) x hx
      rwa [hself _ _ hx] at this
  · rw [if_neg h1]
    have hperm := List.mergeSort_perm (pairDistances (clusterAt dist sym sites c).matrix) fun a b => a ≤ b
    have hex : ∃ x, x ∈ pairDistances (clusterAt dist sym sites c).matrix :=
      ⟨_, (mem_pairDistances _ _).2 ⟨0, 1, by omega, by rw [hlen]; omega, rfl⟩⟩
    have hpne : (pairDistances (clusterAt dist sym sites c).matrix).mergeSort (fun a b => a ≤ b) ≠ [] := by
      obtain ⟨x, hx⟩ := hex
      intro h0
      have := hperm.symm.subset hx
      rw [h0] at this
      cases this
    show ((pairDistances (clusterAt dist sym sites c).matrix).mergeSort fun a b => a ≤ b).max?.getD 0 < r ↔ _
    rw [max?_getD_lt _ hpne]
    constructor
    · intro hr
      have hpos : 0 < r := by
        have hlt := hr _ (hperm.symm.subset ((mem_pairDistances _ _).2 ⟨0, 1, by omega, by rw [hlen]; omega, rfl⟩))
        have he := clusterAt_entry_some dist sym sites c hc (i := 0) (j := 1)
          (List.getElem?_eq_getElem (by omega)) (List.getElem?_eq_getElem (by omega))
        exact lt_of_le_of_lt (hnn _ _ _ he) hlt
      intro s hs t ht x hx
      obtain ⟨i, hi, rfl⟩ := List.getElem_of_mem hs
      obtain ⟨j, hj, rfl⟩ := List.getElem_of_mem ht
      have key : ∀ (i j : Nat) (hi : i < c.length) (hj : j < c.length), i < j → ∀ x,
          distanceOf dist sites c[i] c[j] = some x → x < r := by
        intro i j hi hj hij x hx
        rw [clusterAt_entry_some dist sym sites c hc (List.getElem?_eq_getElem hi)
          (List.getElem?_eq_getElem hj)] at hx
        cases hx
        exact hr _ (hperm.symm.subset ((mem_pairDistances _ _).2 ⟨i, j, hij, by rw [hlen]; exact hj, rfl⟩))
      rcases Nat.lt_trichotomy i j with hij | hij | hij
      · exact key i j hi hj hij x hx
      · subst hij
        rw [hself _ _ hx]
        exact hpos
      · rw [distanceOf_symm hd] at hx
        exact key j i hj hi hij x hx
    · intro hr x hx
      obtain ⟨i, j, hij, hj, rfl⟩ := (mem_pairDistances _ _).1 (hperm.subset hx)
      rw [hlen] at hj
      have he := clusterAt_entry_some dist sym sites c hc (i := i) (j := j)
        (List.getElem?_eq_getElem (by omega)) (List.getElem?_eq_getElem hj)
      exact hr _ (List.getElem_mem (by omega)) _ (List.getElem_mem hj) _ he

/-! ### Congruence -/

omit [Field D] [LinearOrder D] [LinearOrder R] in
theorem congruent_refl (dist : P → P → D) (sites : List (String × P)) (a : List Nat) :
    Congruent dist sites a a := ⟨id, by simp, fun _ _ => rfl, fun _ _ _ _ => rfl⟩

omit [Field D] [LinearOrder D] [LinearOrder R] in
theorem congruent_trans {dist : P → P → D} {sites : List (String × P)} {a b c : List Nat}
    (h1 : Congruent dist sites a b) (h2 : Congruent dist sites b c) : Congruent dist sites a c := by
  obtain ⟨f, hf, sf, df⟩ := h1
  obtain ⟨g, hg, sg, dg⟩ := h2
  have hm : ∀ s ∈ a, f s ∈ b := fun s hs => hf.subset (List.mem_map_of_mem hs)
  refine ⟨g ∘ f, ?_, ?_, ?_⟩
  · rw [← List.map_map]
    exact (hf.map g).trans hg
  · intro s hs
    exact (sg _ (hm s hs)).trans (sf s hs)
  · intro s hs t ht
    exact (dg _ (hm s hs) _ (hm t ht)).trans (df s hs t ht)

omit [Field D] [LinearOrder D] [LinearOrder R] in
theorem congruent_symm {dist : P → P → D} {sites : List (String × P)} {a b : List Nat} (hb : b.Nodup)
    (h1 : Congruent dist sites a b) : Congruent dist sites b a := by
  obtain ⟨f, hf, sf, df⟩ := h1
  have hnd : (a.map f).Nodup := hf.nodup_iff.2 hb
  have hinj : ∀ s ∈ a, ∀ t ∈ a, f s = f t → s = t := fun s hs t ht h =>
    List.inj_on_of_nodup_map hnd hs ht h
  let g := Function.invFunOn f {s | s ∈ a}
  have hg : ∀ s ∈ a, g (f s) = s := by
    intro s hs
    have h1 : ∃ u ∈ {s | s ∈ a}, f u = f s := ⟨s, hs, rfl⟩
    exact hinj _ (Function.invFunOn_mem h1) _ hs (Function.invFunOn_eq h1)
  have hb' : ∀ t ∈ b, ∃ s ∈ a, f s = t := fun t ht => List.mem_map.1 (hf.symm.subset ht)
  refine ⟨g, ?_, ?_, ?_⟩
  · refine (hf.symm.map g).trans ?_
    rw [List.map_map]
    have : a.map (g ∘ f) = a := by
      conv_rhs => rw [← List.map_id a]
      exact List.map_congr_left fun s hs => hg s hs
    rw [this]
  · intro t ht
    obtain ⟨s, hs, rfl⟩ := hb' t ht
    rw [hg s hs]
    exact (sf s hs).symm
  · intro t ht u hu
    obtain ⟨s, hs, rfl⟩ := hb' t ht
    obtain ⟨v, hv, rfl⟩ := hb' u hu
    rw [hg s hs, hg v hv]
    exact (df s hs v hv).symm

omit [LinearOrder R] in
theorem congruent_nearly [IsStrictOrderedRing D] {dist : P → P → D} {sites : List (String × P)}
    {a b : List Nat} (ha : ∀ s ∈ a, s < sites.length) (h : Congruent dist sites a b) :
    NearlyCongruent dist sites a b := by
  obtain ⟨f, hf, sf, df⟩ := h
  refine ⟨f, hf, sf, ?_⟩
  intro s hs t ht _
  obtain ⟨x, hx⟩ := distanceOf_some (dist := dist) (ha s hs) (ha t ht)
  refine ⟨x, x, hx, (df s hs t ht).trans hx, ?_⟩
  unfold PassesFor
  rw [sub_self, abs_zero]
  have := abs_nonneg x
  positivity

omit [LinearOrder R] in
theorem nearly_congruent {dist : P → P → D} (hd : Metric dist) {sites : List (String × P)}
    (hsep : SeparatedDistances dist sites) {a b : List Nat} (ha : ∀ s ∈ a, s < sites.length)
    (hb : IsCluster sites.length b) (h : NearlyCongruent dist sites a b) :
    Congruent dist sites a b := by
  obtain ⟨f, hf, sf, df⟩ := h
  have hbnd : b.Nodup := hb.1.imp fun h => Nat.ne_of_lt h
  have hnd : (a.map f).Nodup := hf.nodup_iff.2 hbnd
  refine ⟨f, hf, sf, ?_⟩
  intro s hs t ht
  by_cases hst : s = t
  · subst hst
    have h1 : ∀ u, u < sites.length → distanceOf dist sites u u = some 0 := by
      intro u hu
      unfold distanceOf
      rw [List.getElem?_eq_getElem hu]
      simp only [hd.self]
    rw [h1 s (ha s hs), h1 (f s) (hb.2 _ (hf.subset (List.mem_map_of_mem hs)))]
  · obtain ⟨x, y, hx, hy, hxy⟩ := df s hs t ht hst
    have hne : f s ≠ f t := fun h => hst (List.inj_on_of_nodup_map hnd hs ht h)
    rw [hx, hy, hsep s t (f s) (f t) x y hst hne hx hy hxy]

end

end KMC
