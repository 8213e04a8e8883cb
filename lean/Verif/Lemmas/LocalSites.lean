import Verif.Spec.LocalSites
/-
Sorting by keys.
-/
namespace KMC
namespace LocalSites
open Spec
variable {S K : Type} [LinearOrder S] [LinearOrder K]

theorem KeyVal.lt_irrefl (a : KeyVal S K) : a.lt a = false := by
  cases a <;> simp [KeyVal.lt]

theorem KeyVal.lt_total {a b : KeyVal S K} (h : a ≠ b) : a.lt b = true ∨ b.lt a = true := by
  cases a <;> cases b <;> simp only [KeyVal.lt, decide_eq_true_eq, true_or, or_true]
  all_goals
    apply lt_or_gt_of_ne
    rintro rfl
    exact h rfl

theorem KeyVal.lt_trans {a b c : KeyVal S K} (h : a.lt b = true) (h' : b.lt c = true) : a.lt c = true := by
  cases a <;> cases b <;> cases c <;>
    simp only [KeyVal.lt, decide_eq_true_eq, Bool.false_eq_true] at h h' ⊢
  all_goals exact _root_.lt_trans h h'

theorem KeyVal.lt_asymm {a b : KeyVal S K} (h : a.lt b = true) : b.lt a = false := by
  rw [← Bool.not_eq_true]
  intro h'
  have := KeyVal.lt_trans h h'
  rw [KeyVal.lt_irrefl] at this
  cases this

theorem KeyVal.lt_ne {a b : KeyVal S K} (h : a.lt b = true) : a ≠ b := by
  rintro rfl
  rw [KeyVal.lt_irrefl] at h
  cases h

theorem keyLe_total (a b : List (KeyVal S K)) : keyLe a b = true ∨ keyLe b a = true := by
  induction a generalizing b with
  | nil => exact .inl (by simp [keyLe])
  | cons x xs ih =>
    cases b with
    | nil => exact .inr (by simp [keyLe])
    | cons y ys =>
      unfold keyLe
      by_cases h : x = y
      · subst h; simpa using ih ys
      · rw [if_neg h, if_neg (Ne.symm h)]
        exact KeyVal.lt_total h

theorem keyLe_trans (a b c : List (KeyVal S K)) (h : keyLe a b = true) (h' : keyLe b c = true) :
    keyLe a c = true := by
  induction a generalizing b c with
  | nil => simp [keyLe]
  | cons x xs ih =>
    cases b with
    | nil => simp [keyLe] at h
    | cons y ys =>
      cases c with
      | nil => simp [keyLe] at h'
      | cons z zs =>
        unfold keyLe at h h' ⊢
        by_cases e1 : x = y
        · subst e1
          rw [if_pos rfl] at h
          by_cases e2 : x = z
          · subst e2
            rw [if_pos rfl] at h' ⊢
            exact ih _ _ h h'
          · rw [if_neg e2] at h' ⊢
            exact h'
        · rw [if_neg e1] at h
          by_cases e2 : y = z
          · subst e2
            rw [if_neg e1]
            exact h
          · rw [if_neg e2] at h'
            have := KeyVal.lt_trans h h'
            rw [if_neg (KeyVal.lt_ne this)]
            exact this

theorem keyLe_antisymm (a b : List (KeyVal S K)) (h : keyLe a b = true) (h' : keyLe b a = true) : a = b := by
  induction a generalizing b with
  | nil => cases b with
    | nil => rfl
    | cons => simp [keyLe] at h'
  | cons x xs ih =>
    cases b with
    | nil => simp [keyLe] at h
    | cons y ys =>
      unfold keyLe at h h'
      by_cases e : x = y
      · subst e
        rw [if_pos rfl] at h h'
        rw [ih _ h h']
      · rw [if_neg e] at h
        rw [if_neg (Ne.symm e)] at h'
        rw [KeyVal.lt_asymm h] at h'
        cases h'

/-! ### Keys of sites -/

omit [LinearOrder S] [LinearOrder K] in
theorem keyVal_ok_iff (s : Site S K) (k : String) : (∃ v, keyVal s k = .ok v) ↔ k ∈ sortKeyNames := by
  unfold keyVal sortKeyNames
  simp only [List.mem_cons, List.not_mem_nil, or_false]
  split
  · simp_all
  · split
    · simp_all
    · split
      · simp_all
      · split
        · simp_all
        · split
          · simp_all
          · simp_all

theorem keyVal_lt {a b : Site S K} {k : String} {va vb : KeyVal S K} (ha : keyVal a k = .ok va)
    (hb : keyVal b k = .ok vb) : va.lt vb = true ↔ Less k a b := by
  have hk := (keyVal_ok_iff a k).1 ⟨_, ha⟩
  unfold sortKeyNames at hk
  simp only [List.mem_cons, List.not_mem_nil, or_false] at hk
  rcases hk with rfl | rfl | rfl | rfl | rfl <;>
    · simp only [keyVal, String.reduceEq, if_true, if_false, Except.ok.injEq] at ha hb
      subst ha; subst hb
      simp [KeyVal.lt, Less]

theorem keyVal_eq {a b : Site S K} {k : String} {va vb : KeyVal S K} (ha : keyVal a k = .ok va)
    (hb : keyVal b k = .ok vb) : va = vb ↔ ¬ Less k a b ∧ ¬ Less k b a := by
  rw [← keyVal_lt ha hb, ← keyVal_lt hb ha]
  constructor
  · rintro rfl
    rw [KeyVal.lt_irrefl]; simp
  · rintro ⟨h1, h2⟩
    by_contra h
    rcases KeyVal.lt_total h with h | h
    · exact h1 h
    · exact h2 h

theorem precedes_cons (k : String) (ks : List String) (a b : Site S K) :
    Precedes (k :: ks) a b ↔ Less k a b ∨ ((¬ Less k a b ∧ ¬ Less k b a) ∧ Precedes ks a b) := by
  constructor
  · rintro ⟨before, key, after, h1, h2, h3⟩
    cases before with
    | nil =>
      simp only [List.nil_append, List.cons.injEq] at h1
      obtain ⟨rfl, rfl⟩ := h1
      exact .inl h2
    | cons x xs =>
      simp only [List.cons_append, List.cons.injEq] at h1
      obtain ⟨rfl, rfl⟩ := h1
      exact .inr ⟨h3 _ (by simp), xs, key, after, rfl, h2, fun k' hk' => h3 _ (by simp [hk'])⟩
  · rintro (h | ⟨h1, before, key, after, rfl, h2, h3⟩)
    · exact ⟨[], k, ks, rfl, h, by simp⟩
    · refine ⟨k :: before, key, after, rfl, h2, ?_⟩
      intro k' hk'
      rcases List.mem_cons.1 hk' with rfl | hk'
      · exact h1
      · exact h3 _ hk'

theorem tied_cons (k : String) (ks : List String) (a b : Site S K) :
    Tied (k :: ks) a b ↔ (¬ Less k a b ∧ ¬ Less k b a) ∧ Tied ks a b := by
  simp [Tied]

omit [LinearOrder S] [LinearOrder K] in
theorem sortKey_cons {s : Site S K} {k : String} {ks : List String} {v : List (KeyVal S K)}
    (h : sortKey s (k :: ks) = .ok v) :
    ∃ x xs, keyVal s k = .ok x ∧ sortKey s ks = .ok xs ∧ v = x :: xs := by
  unfold sortKey at h
  split at h
  · cases h
  · rename_i x hx
    split at h
    · cases h
    · rename_i xs hxs
      cases h
      exact ⟨x, xs, hx, hxs, rfl⟩

omit [LinearOrder S] [LinearOrder K] in
theorem sortKey_of {s : Site S K} {ks : List String} (h : ∀ k ∈ ks, k ∈ sortKeyNames) :
    ∃ v, sortKey s ks = .ok v := by
  induction ks with
  | nil => exact ⟨_, rfl⟩
  | cons k ks ih =>
    obtain ⟨v, hv⟩ := ih fun k hk => h k (by simp [hk])
    obtain ⟨x, hx⟩ := (keyVal_ok_iff s k).2 (h k (by simp))
    exact ⟨x :: v, by simp [sortKey, hx, hv]⟩

omit [LinearOrder S] [LinearOrder K] in
theorem sortKey_bad {s : Site S K} {ks : List String} {k : String} (hk : k ∈ ks)
    (h : k ∉ sortKeyNames) : sortKey s ks = .error .valueError := by
  have hbad : ∀ k, k ∉ sortKeyNames → keyVal s k = .error .valueError := by
    intro k h
    unfold sortKeyNames at h
    simp only [List.mem_cons, List.not_mem_nil, or_false, not_or] at h
    unfold keyVal
    rw [if_neg h.1, if_neg h.2.1, if_neg h.2.2.1, if_neg h.2.2.2.1, if_neg h.2.2.2.2]
  induction ks with
  | nil => cases hk
  | cons x xs ih =>
    unfold sortKey
    by_cases hx : x ∈ sortKeyNames
    · obtain ⟨v, hv⟩ := (keyVal_ok_iff s x).2 hx
      rw [hv]
      rcases List.mem_cons.1 hk with rfl | hk
      · exact absurd hx h
      · rw [ih hk]
    · rw [hbad x hx]

theorem keyLe_iff {a b : Site S K} {ks : List String} {va vb : List (KeyVal S K)}
    (ha : sortKey a ks = .ok va) (hb : sortKey b ks = .ok vb) :
    keyLe va vb = true ↔ ¬ Precedes ks b a := by
  induction ks generalizing va vb with
  | nil =>
    unfold sortKey at ha hb
    cases ha; cases hb
    simp [keyLe, Precedes]
  | cons k ks ih =>
    obtain ⟨x, xs, hx, hxs, rfl⟩ := sortKey_cons ha
    obtain ⟨y, ys, hy, hys, rfl⟩ := sortKey_cons hb
    unfold keyLe
    rw [precedes_cons, ← keyVal_lt hy hx]
    have heq := keyVal_eq hy hx
    by_cases h : x = y
    · subst h
      rw [if_pos rfl, ih hxs hys, KeyVal.lt_irrefl]
      have := heq.1 rfl
      simp [this]
    · rw [if_neg h]
      have h1 : ¬ (¬ y.lt x = true ∧ ¬ Less k a b) := by
        rw [keyVal_lt hy hx]
        exact fun hc => h (heq.2 hc).symm
      simp only [h1, false_and, or_false]
      rcases KeyVal.lt_total h with h2 | h2
      · simp [h2, KeyVal.lt_asymm h2]
      · simp [h2, KeyVal.lt_asymm h2]

theorem sortKey_eq_iff {a b : Site S K} {ks : List String} {va vb : List (KeyVal S K)}
    (ha : sortKey a ks = .ok va) (hb : sortKey b ks = .ok vb) : va = vb ↔ Tied ks a b := by
  induction ks generalizing va vb with
  | nil =>
    unfold sortKey at ha hb
    cases ha; cases hb
    simp [Tied]
  | cons k ks ih =>
    obtain ⟨x, xs, hx, hxs, rfl⟩ := sortKey_cons ha
    obtain ⟨y, ys, hy, hys, rfl⟩ := sortKey_cons hb
    rw [tied_cons, ← ih hxs hys, ← keyVal_eq hx hy, List.cons.injEq]

/-! ### Sorting -/

variable {α : Type}

omit [LinearOrder S] [LinearOrder K] in
theorem withKeys_ok {site : α → Site S K} {keys : List String} {l : List α}
    {ks : List (List (KeyVal S K) × α)} (h : withKeys site keys l = .ok ks) :
    ks.map Prod.snd = l ∧ ∀ q ∈ ks, sortKey (site q.2) keys = .ok q.1 := by
  induction l generalizing ks with
  | nil => unfold withKeys at h; cases h; simp
  | cons a as ih =>
    unfold withKeys at h
    split at h
    · cases h
    · rename_i k hk
      split at h
      · cases h
      · rename_i rest hr
        cases h
        obtain ⟨h1, h2⟩ := ih hr
        refine ⟨by simp [h1], ?_⟩
        intro q hq
        rcases List.mem_cons.1 hq with rfl | hq
        · exact hk
        · exact h2 q hq

omit [LinearOrder S] [LinearOrder K] in
theorem withKeys_of {site : α → Site S K} {keys : List String} (l : List α)
    (h : ∀ k ∈ keys, k ∈ sortKeyNames) : ∃ ks, withKeys site keys l = .ok ks := by
  induction l with
  | nil => exact ⟨_, rfl⟩
  | cons a as ih =>
    obtain ⟨ks, hks⟩ := ih
    obtain ⟨v, hv⟩ := sortKey_of (s := site a) h
    exact ⟨(v, a) :: ks, by simp only [withKeys, hv, hks]⟩

/-- A stable sort keeps the order of entries that may stand either way round. -/
theorem filter_insertionSort {β : Type} (r : β → β → Prop) [DecidableRel r] [Std.Total r] [IsTrans β r]
    (l : List β) (q : β → Bool) (h : ∀ a ∈ l, ∀ b ∈ l, q a = true → q b = true → r a b) :
    (l.insertionSort r).filter q = l.filter q := by
  have hs : (l.filter q).Pairwise r := by
    have := List.pairwise_of_forall_mem_list (l := l.filter q) (r := r) (by
      intro a ha b hb
      rw [List.mem_filter] at ha hb
      exact h a ha.1 b hb.1 ha.2 hb.2)
    exact this
  have h1 := (List.sublist_insertionSort hs List.filter_sublist).filter q
  rw [List.filter_filter] at h1
  simp only [Bool.and_self] at h1
  refine (h1.eq_of_length ?_).symm
  exact ((List.perm_insertionSort r l).filter q).length_eq.symm

theorem sortBy_ok {site : α → Site S K} {keys : List String} {l out : List α}
    (h : sortBy site keys l = .ok out) : SortedAs site keys l out := by
  unfold sortBy at h
  split at h
  · cases h
  · rename_i ks hks
    cases h
    obtain ⟨h1, h2⟩ := withKeys_ok hks
    let r : List (KeyVal S K) × α → List (KeyVal S K) × α → Prop := fun a b => keyLe a.1 b.1 = true
    have : Std.Total r := ⟨fun a b => keyLe_total a.1 b.1⟩
    have : IsTrans _ r := ⟨fun a b c => keyLe_trans a.1 b.1 c.1⟩
    have hmem : ∀ q ∈ ks.insertionSort r, sortKey (site q.2) keys = .ok q.1 := fun q hq =>
      h2 q ((List.perm_insertionSort r ks).mem_iff.1 hq)
    refine ⟨?_, ?_, ?_⟩
    · rw [← h1]
      exact (List.perm_insertionSort r ks).map _
    · rw [List.pairwise_map]
      refine (List.pairwise_insertionSort r ks).imp_of_mem ?_
      intro a b ha hb hab
      exact (keyLe_iff (hmem a ha) (hmem b hb)).1 hab
    · intro a p hp
      rw [List.filter_map]
      have hf := filter_insertionSort r ks (p ∘ Prod.snd) (by
        intro x hx y hy hpx hpy
        have hx' := (hp x.2).1 hpx
        have hy' := (hp y.2).1 hpy
        refine (keyLe_iff (h2 x hx) (h2 y hy)).2 ?_
        rintro ⟨before, key, after, rfl, hl, -⟩
        have t1 := hx' key (by simp)
        have t2 := hy' key (by simp)
        have hk : key ∈ sortKeyNames := by
          by_contra hc
          have := sortKey_bad (s := site x.2) (ks := before ++ key :: after) (k := key) (by simp) hc
          rw [h2 x hx] at this
          cases this
        obtain ⟨vx, ex⟩ := (keyVal_ok_iff (site x.2) key).2 hk
        obtain ⟨vy, ey⟩ := (keyVal_ok_iff (site y.2) key).2 hk
        obtain ⟨va, ea⟩ := (keyVal_ok_iff (site a) key).2 hk
        have e1 := (keyVal_eq ex ea).2 t1
        have e2 := (keyVal_eq ey ea).2 t2
        rw [← keyVal_lt ey ex, e1, e2, KeyVal.lt_irrefl] at hl
        cases hl)
      rw [hf, ← List.filter_map, h1]

/-- Two results of sorting the same entries agree if no two entries are tied. -/
theorem sortedAs_unique {site : α → Site S K} {keys : List String} {l l' out out' : List α}
    (hp : l.Perm l') (h : SortedAs site keys l out) (h' : SortedAs site keys l' out')
    (hn : ∀ a b, a ∈ l → b ∈ l → a ≠ b → Precedes keys (site a) (site b) ∨ Precedes keys (site b) (site a)) :
    out = out' := by
  have hperm : out.Perm out' := h.same.trans (hp.trans h'.same.symm)
  refine List.Perm.eq_of_pairwise (le := fun a b => ¬ Precedes keys (site b) (site a)) ?_ h.sorted h'.sorted hperm
  intro a b ha hb h1 h2
  by_contra hne
  rcases hn a b (h.same.mem_iff.1 ha) (hp.mem_iff.2 (h'.same.mem_iff.1 hb)) hne with h3 | h3
  · exact h2 h3
  · exact h1 h3

end LocalSites
end KMC
