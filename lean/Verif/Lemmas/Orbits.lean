import Verif.Model.LCE
import Verif.Lemmas.Py
import Mathlib.Data.List.Perm.Basic
import Mathlib.Data.List.Forall2
import Mathlib.Data.List.Range
import Mathlib.Data.List.Nodup
import Mathlib.Data.List.Sort
import Mathlib.Tactic.Ring
/-
Lemmas about grouping clusters into orbits and about the enumeration of clusters.
-/
namespace KMC.LCE

/-! ### Grouping -/

theorem findIdx?_split {α : Type} {p : α → Bool} {l : List α} {i : Nat}
    (h : l.findIdx? p = some i) :
    ∃ a, l[i]? = some a ∧ p a = true ∧ ∀ (j : Nat) b, j < i → l[j]? = some b → p b = false := by
  rw [List.findIdx?_eq_some_iff_getElem] at h
  obtain ⟨hi, h1, h2⟩ := h
  refine ⟨l[i], by simp [hi], h1, ?_⟩
  intro j b hj hb
  have hjl : j < l.length := by omega
  rw [List.getElem?_eq_getElem hjl, Option.some.injEq] at hb
  have := h2 j hj
  rw [hb] at this
  simpa using this

/-- State of the grouping loop after the clusters `cs`. -/
structure Grouped {α : Type} (eq : α → α → Bool) (cs : List α) (acc : List α × List (List α)) :
    Prop where
  len : acc.1.length = acc.2.length
  heads : ∀ (i : Nat) r g, acc.1[i]? = some r → acc.2[i]? = some g →
    ∃ t, g = r :: t ∧ ∀ c ∈ t, eq r c = true
  first : ∀ (i j : Nat) r g, j < i → acc.1[j]? = some r → acc.2[i]? = some g →
    ∀ c ∈ g, eq r c = false
  perm : acc.2.flatten.Perm cs

theorem flatten_modify_perm {α : Type} (l : List (List α)) (i : Nat) (c : α) (hi : i < l.length) :
    (l.modify i (· ++ [c])).flatten.Perm (l.flatten ++ [c]) := by
  induction l generalizing i with
  | nil => simp at hi
  | cons a l ih =>
    cases i with
    | zero =>
      simp only [List.modify_zero_cons, List.flatten_cons, List.append_assoc]
      exact List.perm_append_comm.append_left a
    | succ i =>
      simp only [List.modify_succ_cons, List.flatten_cons, List.append_assoc]
      exact (ih i (by simpa using hi)).append_left a

theorem grouped_step {α : Type} {eq : α → α → Bool} {cs : List α} {acc : List α × List (List α)}
    (h : Grouped eq cs acc) (c : α) : Grouped eq (cs ++ [c]) (buildOrbitsStep eq acc c) := by
  unfold buildOrbitsStep
  cases hf : acc.1.findIdx? (fun r => eq r c) with
  | none =>
    rw [List.findIdx?_eq_none_iff] at hf
    simp only
    refine ⟨by simp [h.len], ?_, ?_, ?_⟩
    · intro i r g hr hg
      rcases Nat.lt_trichotomy i acc.1.length with hi | hi | hi
      · rw [List.getElem?_append_left hi] at hr
        rw [List.getElem?_append_left (by rw [← h.len]; exact hi)] at hg
        exact h.heads i r g hr hg
      · subst hi
        rw [List.getElem?_append_right (le_refl _)] at hr
        rw [List.getElem?_append_right (by rw [h.len])] at hg
        simp only [Nat.sub_self, List.getElem?_cons_zero, Option.some.injEq] at hr
        rw [h.len] at hg
        simp only [Nat.sub_self, List.getElem?_cons_zero, Option.some.injEq] at hg
        subst hr hg
        exact ⟨[], rfl, by simp⟩
      · rw [List.getElem?_eq_none (by simp; omega)] at hr
        cases hr
    · intro i j r g hj hr hg d hd
      rcases Nat.lt_trichotomy i acc.1.length with hi | hi | hi
      · rw [List.getElem?_append_left (by omega)] at hr
        rw [List.getElem?_append_left (by rw [← h.len]; exact hi)] at hg
        exact h.first i j r g hj hr hg d hd
      · subst hi
        rw [List.getElem?_append_left hj] at hr
        rw [List.getElem?_append_right (by rw [h.len]), h.len] at hg
        simp only [Nat.sub_self, List.getElem?_cons_zero, Option.some.injEq] at hg
        subst hg
        rw [List.mem_singleton] at hd
        subst hd
        have := hf r (List.mem_of_getElem? hr)
        simpa using this
      · rw [List.getElem?_eq_none (by simp [← h.len]; omega)] at hg
        cases hg
    · simpa using h.perm.append_right [c]
  | some i =>
    obtain ⟨r0, hr0, he, hlt⟩ := findIdx?_split hf
    simp only
    have hi : i < acc.2.length := by
      rw [← h.len]
      by_contra hc
      rw [List.getElem?_eq_none (by omega)] at hr0
      cases hr0
    refine ⟨by simp [h.len], ?_, ?_, ?_⟩
    · intro j r g hr hg
      rw [List.getElem?_modify] at hg
      obtain ⟨g0, hg0, rfl⟩ := Option.map_eq_some_iff.1 hg
      obtain ⟨t, rfl, ht⟩ := h.heads j r g0 hr hg0
      by_cases hji : i = j
      · subst hji
        rw [hr0] at hr
        cases hr
        simp only [if_true]
        refine ⟨t ++ [c], rfl, ?_⟩
        intro d hd
        rcases List.mem_append.1 hd with hd | hd
        · exact ht d hd
        · rw [List.mem_singleton] at hd; rw [hd]; exact he
      · simp only [hji, if_false]
        exact ⟨t, rfl, ht⟩
    · intro k j r g hj hr hg d hd
      rw [List.getElem?_modify] at hg
      obtain ⟨g0, hg0, rfl⟩ := Option.map_eq_some_iff.1 hg
      by_cases hki : i = k
      · subst hki
        simp only [if_true] at hd
        rcases List.mem_append.1 hd with hd | hd
        · exact h.first _ _ _ _ hj hr hg0 d hd
        · rw [List.mem_singleton] at hd; rw [hd]; exact hlt j r hj hr
      · simp only [hki, if_false] at hd
        exact h.first _ _ _ _ hj hr hg0 d hd
    · exact (flatten_modify_perm _ _ _ hi).trans (h.perm.append_right [c])

theorem grouped_foldl {α : Type} {eq : α → α → Bool} (cs : List α) :
    Grouped eq cs (cs.foldl (buildOrbitsStep eq) ([], [])) := by
  have key : ∀ (cs pre : List α) (acc : List α × List (List α)), Grouped eq pre acc →
      Grouped eq (pre ++ cs) (cs.foldl (buildOrbitsStep eq) acc) := by
    intro cs
    induction cs with
    | nil => intro pre acc h; simpa using h
    | cons c cs ih =>
      intro pre acc h
      rw [List.foldl_cons]
      have := ih _ _ (grouped_step h c)
      simpa using this
  have h0 : Grouped eq [] (([], []) : List α × List (List α)) :=
    ⟨rfl, by simp, by simp, by simp⟩
  simpa using key cs [] _ h0

/-! ### Combinations and products -/

theorem mem_combinations {α : Type} {l : List α} {k : Nat} {c : List α} :
    c ∈ combinations l k ↔ c.Sublist l ∧ c.length = k := by
  induction l generalizing k c with
  | nil =>
    cases k with
    | zero => simp [combinations]
    | succ k =>
      simp only [combinations, List.not_mem_nil, List.sublist_nil, false_iff, not_and]
      rintro rfl h; cases h
  | cons a l ih =>
    cases k with
    | zero =>
      simp only [combinations, List.mem_singleton]
      constructor
      · rintro rfl; simp
      · rintro ⟨-, h⟩; exact List.length_eq_zero_iff.1 h
    | succ k =>
      simp only [combinations, List.mem_append, List.mem_map, ih]
      constructor
      · rintro (⟨d, ⟨h1, h2⟩, rfl⟩ | ⟨h1, h2⟩)
        · exact ⟨h1.cons_cons a, by simp [h2]⟩
        · exact ⟨h1.cons a, h2⟩
      · rintro ⟨h1, h2⟩
        cases h1 with
        | cons _ h3 => exact .inr ⟨h3, h2⟩
        | cons_cons _ h3 =>
          rename_i d
          exact .inl ⟨d, ⟨h3, by simpa using h2⟩, rfl⟩

theorem nodup_combinations {α : Type} {l : List α} (h : l.Nodup) (k : Nat) :
    (combinations l k).Nodup := by
  induction l generalizing k with
  | nil => cases k <;> simp [combinations]
  | cons a l ih =>
    cases k with
    | zero => simp [combinations]
    | succ k =>
      simp only [combinations]
      rw [List.nodup_append]
      rw [List.nodup_cons] at h
      refine ⟨(ih h.2 k).map (fun x y hxy => by simpa using hxy), ih h.2 _, ?_⟩
      intro c hc d hd hcd
      subst hcd
      obtain ⟨c', -, rfl⟩ := List.mem_map.1 hc
      exact h.1 ((mem_combinations.1 hd).1.subset List.mem_cons_self)

theorem mem_productLists {α : Type} {ls : List (List α)} {d : List α} :
    d ∈ productLists ls ↔ List.Forall₂ (fun a l => a ∈ l) d ls := by
  induction ls generalizing d with
  | nil => simp [productLists, List.forall₂_nil_right_iff]
  | cons l ls ih =>
    simp only [productLists, List.mem_flatMap, List.mem_map, ih]
    constructor
    · rintro ⟨a, ha, d', hd', rfl⟩
      exact .cons ha hd'
    · intro h
      cases h with
      | cons h1 h2 => exact ⟨_, h1, _, h2, rfl⟩

theorem nodup_productLists {α : Type} {ls : List (List α)} (h : ∀ l ∈ ls, l.Nodup) :
    (productLists ls).Nodup := by
  induction ls with
  | nil => simp [productLists]
  | cons l ls ih =>
    simp only [productLists]
    rw [List.nodup_flatMap]
    refine ⟨fun a _ => (ih fun m hm => h m (List.mem_cons_of_mem _ hm)).map
      (fun x y hxy => by simpa using hxy), ?_⟩
    refine (h l List.mem_cons_self).imp ?_
    intro a b hab c hc hc'
    obtain ⟨x, -, rfl⟩ := List.mem_map.1 hc
    obtain ⟨y, -, hy⟩ := List.mem_map.1 hc'
    simp only [List.cons.injEq] at hy
    exact hab hy.1.symm

/-- The candidates are the strictly increasing lists of one to four local site numbers. -/
theorem mem_candidateClusters {n : Nat} {c : List Nat} :
    c ∈ candidateClusters n ↔ c.Pairwise (· < ·) ∧ (∀ s ∈ c, s < n) ∧ 1 ≤ c.length ∧ c.length ≤ 4 := by
  have key : c.Sublist (List.range n) ↔ c.Pairwise (· < ·) ∧ ∀ s ∈ c, s < n := by
    constructor
    · intro h
      exact ⟨(List.pairwise_lt_range).sublist h, fun s hs => List.mem_range.1 (h.subset hs)⟩
    · rintro ⟨h1, h2⟩
      apply List.sublist_of_subperm_of_pairwise (r := (· < ·)) _ h1 List.pairwise_lt_range
      refine (List.subperm_of_subset (h1.imp fun hab => ne_of_lt hab) ?_)
      intro s hs
      exact List.mem_range.2 (h2 s hs)
  simp only [candidateClusters, List.mem_append, mem_combinations, key]
  constructor
  · rintro (((⟨h, h'⟩ | ⟨h, h'⟩) | ⟨h, h'⟩) | ⟨h, h'⟩) <;> exact ⟨h.1, h.2, by omega, by omega⟩
  · rintro ⟨h1, h2, h3, h4⟩
    have : c.length = 1 ∨ c.length = 2 ∨ c.length = 3 ∨ c.length = 4 := by omega
    rcases this with h | h | h | h
    · exact .inl (.inl (.inl ⟨⟨h1, h2⟩, h⟩))
    · exact .inl (.inl (.inr ⟨⟨h1, h2⟩, h⟩))
    · exact .inl (.inr ⟨⟨h1, h2⟩, h⟩)
    · exact .inr ⟨⟨h1, h2⟩, h⟩

theorem nodup_candidateClusters (n : Nat) : (candidateClusters n).Nodup := by
  have hn : ∀ k, (combinations (List.range n) k).Nodup := nodup_combinations List.nodup_range
  unfold candidateClusters
  rw [List.nodup_append, List.nodup_append, List.nodup_append]
  refine ⟨⟨⟨hn 1, hn 2, ?_⟩, hn 3, ?_⟩, hn 4, ?_⟩ <;> intro a ha b hb hab <;> subst hab <;>
    simp only [List.mem_append, mem_combinations] at ha hb <;> omega

/-- The largest distance in the cluster is below the cutoff for clusters of its size (the first
entry of `cutoff` is for single sites). -/
def withinCutoff {L : Type} [LinearOrder L] (g : ClusterGeometry L) (cutoff : List L)
    (c : List Nat) : Bool :=
  match cutoff[c.length - 1]? with
  | some r => decide (g.maxLength c < r)
  | none => false

theorem keepClusters_ok {L : Type} [LinearOrder L] {g : ClusterGeometry L} {cutoff : List L}
    {cand kept : List (List Nat)} (hc : ∀ c ∈ cand, c ≠ [])
    (h : keepClusters g cutoff cand = .ok kept) : kept = cand.filter (withinCutoff g cutoff) := by
  induction cand generalizing kept with
  | nil => cases h; rfl
  | cons c cand ih =>
    have hne := hc c List.mem_cons_self
    have hlen : ((c.length : Int) - 1) = ((c.length - 1 : Nat) : Int) := by
      have : 0 < c.length := List.length_pos_iff.2 hne
      omega
    simp only [keepClusters] at h
    cases hr : pyGet cutoff ((c.length : Int) - 1) with
    | error e => rw [hr] at h; cases h
    | ok r =>
      rw [hr] at h
      simp only at h
      cases hk : keepClusters g cutoff cand with
      | error e => rw [hk] at h; cases h
      | ok rest =>
        rw [hk] at h
        simp only [Except.ok.injEq] at h
        rw [hlen] at hr
        obtain ⟨k, hk1, hk2⟩ := pyGet_ok_iff.1 hr
        have := pyIdx_some_nonneg hk1 (by omega)
        have hk' : k = c.length - 1 := by omega
        subst hk'
        have hw : withinCutoff g cutoff c = decide (g.maxLength c < r) := by
          simp only [withinCutoff, hk2]
        rw [List.filter_cons, hw, ← ih (fun d hd => hc d (List.mem_cons_of_mem _ hd)) hk, ← h]
        simp

end KMC.LCE
