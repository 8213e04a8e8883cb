import Verif.Spec.ClusterMatcher
import Verif.Lemmas.Py
import Mathlib.Data.List.Nodup
import Mathlib.Data.List.Pairwise
import Mathlib.Data.List.Perm.Basic
/-
Lemmas about the backtracking search.
-/
namespace KMC
open Spec
namespace Matcher
variable {L K R : Type}

/-! ### Counting labels -/

theorem countLabels_get [DecidableEq L] (ls : List L) (d : List (L × Nat)) (l : L) :
    (dictGet (countLabels ls d) l).getD 0 = (dictGet d l).getD 0 + ls.count l := by
  induction ls generalizing d with
  | nil => simp [countLabels]
  | cons x ls ih =>
    rw [countLabels, ih, dictGet_dictSet]
    split
    · rename_i h; subst h; simp; omega
    · rename_i h
      rw [List.count_cons_of_ne (Ne.symm h)]

theorem countLabels_keys [DecidableEq L] (ls : List L) (d : List (L × Nat)) (l : L) :
    l ∈ dictKeys (countLabels ls d) ↔ l ∈ dictKeys d ∨ l ∈ ls := by
  induction ls generalizing d with
  | nil => simp [countLabels]
  | cons x ls ih =>
    rw [countLabels, ih, dictSet_keys_mem, List.mem_cons]
    tauto

theorem countLabels_nodup [DecidableEq L] (ls : List L) (d : List (L × Nat)) (h : (dictKeys d).Nodup) :
    (dictKeys (countLabels ls d)).Nodup := by
  induction ls generalizing d with
  | nil => exact h
  | cons x ls ih => exact ih _ (dictKeys_dictSet_nodup d x _ h)

/-- Two clusters have the same signature exactly when their labels agree up to order. -/
theorem signature_eq_iff [LinearOrder L] (a b : List L) : signature a = signature b ↔ a.Perm b := by
  have hnd : ∀ l : List L, (dictKeys (countLabels l [])).Nodup := fun l =>
    countLabels_nodup l [] (by simp [dictKeys])
  have hget : ∀ (l : List L) x, (dictGet (countLabels l []) x).getD 0 = l.count x := by
    intro l x; rw [countLabels_get]; simp [dictGet]
  constructor
  · intro h
    unfold signature at h
    have hp : (countLabels a []).Perm (countLabels b []) :=
      by
        have := (List.mergeSort_perm (countLabels a []) fun a b => decide (a.1 ≤ b.1)).symm
        rw [h] at this
        exact this.trans (List.mergeSort_perm _ _)
    rw [List.perm_iff_count]
    intro x
    rw [← hget a, ← hget b]
    congr 1
    cases hx : dictGet (countLabels a []) x with
    | some v =>
      exact (dictGet_of_mem (hnd b) (hp.mem_iff.1 (mem_of_dictGet hx))).symm
    | none =>
      cases hy : dictGet (countLabels b []) x with
      | none => rfl
      | some v => rw [dictGet_of_mem (hnd a) (hp.mem_iff.2 (mem_of_dictGet hy))] at hx; cases hx
  · intro h
    have hmem : ∀ (a b : List L), a.Perm b → ∀ x v, (x, v) ∈ countLabels a [] → (x, v) ∈ countLabels b [] := by
      intro a b h x v hx
      have h1 := dictGet_of_mem (hnd a) hx
      have h2 := hget a x
      rw [h1, h.count_eq, ← hget b] at h2
      have hk : x ∈ dictKeys (countLabels b []) := by
        rw [countLabels_keys]
        have : x ∈ dictKeys (countLabels a []) := by
          unfold dictKeys; exact List.mem_map.2 ⟨(x, v), hx, rfl⟩
        rw [countLabels_keys] at this
        rcases this with h | h'
        · exact .inl h
        · exact .inr (h.mem_iff.1 h')
      cases hb : dictGet (countLabels b []) x with
      | none => rw [dictGet_eq_none_iff] at hb; exact absurd hk hb
      | some w =>
        rw [hb] at h2
        simp at h2
        subst h2
        exact mem_of_dictGet hb
    have nodup_of : ∀ l : List L, (countLabels l []).Nodup := fun l => by
      have := hnd l; unfold dictKeys at this; exact List.Nodup.of_map _ this
    have hp : (countLabels a []).Perm (countLabels b []) := by
      rw [List.perm_ext_iff_of_nodup (nodup_of a) (nodup_of b)]
      rintro ⟨x, v⟩
      exact ⟨hmem a b h x v, hmem b a h.symm x v⟩
    unfold signature
    have hsort : ∀ l : List L, ((countLabels l []).mergeSort fun a b => decide (a.1 ≤ b.1)).Pairwise
        (fun a b => a.1 ≤ b.1) := by
      intro l
      have := List.pairwise_mergeSort (le := fun (a b : L × Nat) => decide (a.1 ≤ b.1))
        (by intro a b c; simp; exact le_trans) (by intro a b; simp; exact le_total _ _) (countLabels l [])
      exact this.imp fun h => by simpa using h
    refine List.Perm.eq_of_pairwise ?_ (hsort a) (hsort b)
      ((List.mergeSort_perm _ _).trans (hp.trans (List.mergeSort_perm _ _).symm))
    rintro ⟨x, v⟩ ⟨y, w⟩ hx hy h1 h2
    have hxy : x = y := le_antisymm h1 h2
    subst hxy
    have hx' := (List.mergeSort_perm _ _).mem_iff.1 hx
    have hy' := hp.mem_iff.2 ((List.mergeSort_perm _ _).mem_iff.1 hy)
    have h1 := dictGet_of_mem (hnd a) hx'
    rw [dictGet_of_mem (hnd a) hy'] at h1
    cases h1
    rfl

theorem mem_withLabel [DecidableEq L] {labels : List L} {l : L} {i : Nat} :
    i ∈ withLabel labels l ↔ labels[i]? = some l := by
  unfold withLabel
  rw [List.mem_filter, List.mem_range, decide_eq_true_eq]
  constructor
  · exact fun h => h.2
  · intro h
    refine ⟨?_, h⟩
    by_contra hc; rw [List.getElem?_eq_none (by omega)] at h; cases h

theorem withLabel_nodup [DecidableEq L] (labels : List L) (l : L) : (withLabel labels l).Nodup :=
  List.nodup_range.filter _

theorem assignmentOrder_perm [LinearOrder R] [DecidableEq L] (row : Nat → R) (a b : Cluster L K) :
    (assignmentOrder row a b).Perm (List.range a.labels.length) := List.mergeSort_perm _ _

/-! ### The search without a limit -/

/-- All completions of a partial assignment, in the order the search finds them. -/
def completions [DecidableEq L] (close : K → K → Bool) (reference candidate : Cluster L K) :
    List Nat → List (Option Nat) → List Nat → List (List Nat)
  | [], r2c, _ => [r2c.map (·.getD 0)]
  | r :: rest, r2c, used =>
    (candidatesFor reference candidate r).flatMap fun c =>
      if used.contains c then []
      else if !partialMatchFrom close reference candidate r c 0 r2c then []
      else completions close reference candidate rest (r2c.set r (some c)) (c :: used)

theorem take_append_take {α : Type} (k : Nat) (a b : List α) (h : a.length ≤ k) :
    (a ++ b).take k = a ++ b.take (k - a.length) := by
  rw [List.take_append, List.take_of_length_le h]

/-- The search with a limit finds the first completions. -/
theorem backtrack_eq [DecidableEq L] (close : K → K → Bool) (reference candidate : Cluster L K)
    (k : Nat) (order : List Nat) (r2c : List (Option Nat)) (used : List Nat) (found : List (List Nat))
    (hf : found.length ≤ k) :
    backtrack close reference candidate (some k) order r2c used found =
      (found ++ completions close reference candidate order r2c used).take k := by
  induction order generalizing r2c used found with
  | nil =>
    unfold backtrack completions
    simp only [decide_eq_true_eq]
    split
    · rw [List.take_append_of_le_length (by omega), List.take_of_length_le (by omega)]
    · rw [List.take_of_length_le (by simp; omega)]
  | cons r rest ih =>
    unfold backtrack completions
    simp only [decide_eq_true_eq]
    split
    · rw [List.take_append_of_le_length (by omega), List.take_of_length_le (by omega)]
    · rename_i hlt
      clear hlt
      generalize candidatesFor reference candidate r = cs
      induction cs generalizing found with
      | nil => simp [List.take_of_length_le hf]
      | cons c cs ih2 =>
        rw [List.foldl_cons, List.flatMap_cons]
        split
        · simp only [List.nil_append]; exact ih2 found hf
        · split
          · simp only [List.nil_append]; exact ih2 found hf
          · rw [ih _ _ found hf]
            rw [ih2 _ (by rw [List.length_take]; omega)]
            rw [← List.append_assoc]
            generalize found ++ completions close reference candidate rest (r2c.set r (some c)) (c :: used) = A
            generalize cs.flatMap _ = B
            rw [List.take_append, List.take_append, List.take_take, Nat.min_self, List.length_take]
            by_cases hA : A.length ≤ k
            · rw [Nat.min_eq_right hA]
            · rw [Nat.min_eq_left (by omega)]
              simp
              omega

theorem partialMatchFrom_iff (close : K → K → Bool) (reference candidate : Cluster L K) (r c j : Nat)
    (r2c : List (Option Nat)) :
    partialMatchFrom close reference candidate r c j r2c = true ↔
      ∀ (i d : Nat), r2c[i]? = some (some d) → close (reference.dist r (j + i)) (candidate.dist c d) = true := by
  induction r2c generalizing j with
  | nil => simp [partialMatchFrom]
  | cons x rest ih =>
    have step : (∀ (i d : Nat), (x :: rest)[i]? = some (some d) →
          close (reference.dist r (j + i)) (candidate.dist c d) = true) ↔
        ((∀ d, x = some d → close (reference.dist r j) (candidate.dist c d) = true) ∧
          ∀ (i d : Nat), rest[i]? = some (some d) →
            close (reference.dist r (j + 1 + i)) (candidate.dist c d) = true) := by
      constructor
      · intro h
        refine ⟨fun d hd => h 0 d (by simp [hd]), ?_⟩
        intro i d hi
        have := h (i + 1) d (by simpa using hi)
        rwa [show j + (i + 1) = j + 1 + i by omega] at this
      · rintro ⟨h1, h2⟩ i d hi
        cases i with
        | zero => exact h1 d (by simpa using hi)
        | succ i =>
          rw [show j + (i + 1) = j + 1 + i by omega]
          exact h2 i d (by simpa using hi)
    rw [step]
    cases x with
    | none =>
      rw [partialMatchFrom, ih]
      simp
    | some d =>
      rw [partialMatchFrom]
      by_cases h : close (reference.dist r j) (candidate.dist c d) = true
      · rw [if_pos h, ih]
        constructor
        · intro h'; exact ⟨fun e he => by cases he; exact h, h'⟩
        · exact fun h' => h'.2
      · rw [if_neg h]
        constructor
        · intro h'; cases h'
        · intro h'; exact absurd (h'.1 d rfl) h

/-- The conditions the search imposes, site by site: `before` lists the reference sites already
assigned, `used` their candidates. -/
def Admissible [DecidableEq L] (close : K → K → Bool) (reference candidate : Cluster L K) (f : Nat → Nat) :
    List Nat → (Nat → Prop) → List Nat → Prop
  | [], _, _ => True
  | r :: rest, before, used =>
    f r ∈ candidatesFor reference candidate r ∧ f r ∉ used ∧
    (∀ j, before j → close (reference.dist r j) (candidate.dist (f r) (f j)) = true) ∧
    Admissible close reference candidate f rest (fun j => before j ∨ j = r) (f r :: used)

/-- The completions of a partial assignment are exactly the admissible total assignments that
extend it. -/
theorem mem_completions [DecidableEq L] (close : K → K → Bool) (reference candidate : Cluster L K)
    (order : List Nat) (r2c : List (Option Nat)) (used : List Nat) (hn : order.Nodup)
    (ho : ∀ j : Nat, r2c[j]? = some none ↔ j ∈ order) (π : List Nat) :
    π ∈ completions close reference candidate order r2c used ↔
      π.length = r2c.length ∧ (∀ (j c : Nat), r2c[j]? = some (some c) → π[j]? = some c) ∧
      Admissible close reference candidate (fun i => π[i]?.getD 0) order
        (fun j => ∃ c, r2c[j]? = some (some c)) used := by
  induction order generalizing r2c used with
  | nil =>
    unfold completions Admissible
    rw [List.mem_singleton]
    constructor
    · rintro rfl
      refine ⟨by simp, ?_, trivial⟩
      intro j c h
      rw [List.getElem?_map, h]; rfl
    · rintro ⟨h1, h2, -⟩
      apply List.ext_getElem?
      intro j
      rw [List.getElem?_map]
      cases hj : r2c[j]? with
      | none =>
        rw [List.getElem?_eq_none]
        · rfl
        · rw [h1]; rwa [List.getElem?_eq_none_iff] at hj
      | some o =>
        cases o with
        | none => exact absurd ((ho j).1 hj) (by simp)
        | some c => rw [h2 j c hj]; rfl
  | cons r rest ih =>
    obtain ⟨hr, hn'⟩ := List.nodup_cons.1 hn
    have hrn : r2c[r]? = some none := (ho r).2 List.mem_cons_self
    have hrl : r < r2c.length := by
      by_contra hc; rw [List.getElem?_eq_none (by omega)] at hrn; cases hrn
    unfold completions Admissible
    rw [List.mem_flatMap]
    have ho' : ∀ c j : Nat, (r2c.set r (some c))[j]? = some none ↔ j ∈ rest := by
      intro c j
      by_cases hj : j = r
      · subst hj
        rw [List.getElem?_set_self hrl]
        simp [hr]
      · rw [List.getElem?_set_ne (Ne.symm hj), ho j, List.mem_cons]
        simp [hj]
    have hset : ∀ (c j d : Nat), (r2c.set r (some c))[j]? = some (some d) ↔
        (j = r ∧ d = c) ∨ r2c[j]? = some (some d) := by
      intro c j d
      by_cases hj : j = r
      · subst hj
        rw [List.getElem?_set_self hrl, hrn]
        simp [eq_comm]
      · rw [List.getElem?_set_ne (Ne.symm hj)]
        simp [hj]
    constructor
    · rintro ⟨c, hc, hm⟩
      split at hm
      · cases hm
      · rename_i hu
        split at hm
        · cases hm
        · rename_i hp
          rw [ih _ _ hn' (ho' c)] at hm
          obtain ⟨h1, h2, h3⟩ := hm
          have hπr : π[r]? = some c := h2 r c ((hset c r c).2 (.inl ⟨rfl, rfl⟩))
          have hpm : partialMatchFrom close reference candidate r c 0 r2c = true := by
            simpa using hp
          rw [partialMatchFrom_iff] at hpm
          have h2' : ∀ (j d : Nat), r2c[j]? = some (some d) → π[j]? = some d :=
            fun j d h => h2 j d ((hset c j d).2 (.inr h))
          refine ⟨by simpa using h1, h2', ?_, ?_, ?_, ?_⟩
          · simpa [hπr] using hc
          · simpa [hπr] using hu
          · rintro j ⟨d, hd⟩
            have := hpm j d hd
            simp only [hπr, h2' j d hd, Option.getD_some]
            simpa using this
          · simp only [hπr, Option.getD_some]
            refine cast ?_ h3
            congr 1
            funext j
            simp only [hset]
            apply propext
            constructor
            · rintro ⟨d, ⟨rfl, -⟩ | h⟩
              · exact .inr rfl
              · exact .inl ⟨d, h⟩
            · rintro (⟨d, h⟩ | rfl)
              · exact ⟨d, .inr h⟩
              · exact ⟨c, .inl ⟨rfl, rfl⟩⟩
    · rintro ⟨h1, h2, h3, h4, h5, h6⟩
      have hπl : r < π.length := by omega
      have hπr : π[r]? = some π[r] := List.getElem?_eq_getElem hπl
      simp only [hπr, Option.getD_some] at h3 h4 h5 h6
      refine ⟨π[r], h3, ?_⟩
      rw [if_neg (by simpa using h4), if_neg]
      · rw [ih _ _ hn' (ho' _)]
        refine ⟨by simpa using h1, ?_, ?_⟩
        · intro j d hd
          rcases (hset _ j d).1 hd with ⟨rfl, rfl⟩ | hd
          · exact hπr
          · exact h2 j d hd
        · refine cast ?_ h6
          congr 1
          funext j
          simp only [hset]
          apply propext
          constructor
          · rintro (⟨d, h⟩ | rfl)
            · exact ⟨d, .inr h⟩
            · exact ⟨_, .inl ⟨rfl, rfl⟩⟩
          · rintro ⟨d, ⟨rfl, -⟩ | h⟩
            · exact .inr rfl
            · exact .inl ⟨d, h⟩
      · simp only [Bool.not_eq_true', Bool.not_eq_false]
        rw [partialMatchFrom_iff]
        intro j d hd
        have := h5 j ⟨d, hd⟩
        rw [h2 j d hd] at this
        simpa using this

theorem completions_nodup [DecidableEq L] (close : K → K → Bool) (reference candidate : Cluster L K)
    (order : List Nat) (r2c : List (Option Nat)) (used : List Nat) (hn : order.Nodup)
    (ho : ∀ j : Nat, r2c[j]? = some none ↔ j ∈ order) :
    (completions close reference candidate order r2c used).Nodup := by
  induction order generalizing r2c used with
  | nil => simp [completions]
  | cons r rest ih =>
    obtain ⟨hr, hn'⟩ := List.nodup_cons.1 hn
    have hrn : r2c[r]? = some none := (ho r).2 List.mem_cons_self
    have hrl : r < r2c.length := by
      by_contra hc; rw [List.getElem?_eq_none (by omega)] at hrn; cases hrn
    have ho' : ∀ c j : Nat, (r2c.set r (some c))[j]? = some none ↔ j ∈ rest := by
      intro c j
      by_cases hj : j = r
      · subst hj
        rw [List.getElem?_set_self hrl]
        simp [hr]
      · rw [List.getElem?_set_ne (Ne.symm hj), ho j, List.mem_cons]
        simp [hj]
    unfold completions
    rw [List.nodup_flatMap]
    constructor
    · intro c _
      split
      · exact List.nodup_nil
      · split
        · exact List.nodup_nil
        · exact ih _ _ hn' (ho' c)
    · have hcs : (candidatesFor reference candidate r).Nodup := by
        unfold candidatesFor
        split
        · exact withLabel_nodup _ _
        · exact List.nodup_nil
      refine hcs.imp ?_
      intro c d hcd
      simp only [Function.onFun]
      intro π h1 h2
      have value : ∀ c, π ∈ (if used.contains c then []
          else if !partialMatchFrom close reference candidate r c 0 r2c then []
          else completions close reference candidate rest (r2c.set r (some c)) (c :: used)) →
          π[r]? = some c := by
        intro c h
        split at h
        · cases h
        · split at h
          · cases h
          · rw [mem_completions _ _ _ _ _ _ hn' (ho' c)] at h
            exact h.2.1 r c (List.getElem?_set_self hrl)
      have := value c h1
      rw [value d h2] at this
      cases this
      exact hcd rfl

/-- Admissibility of a total assignment says: candidates have the right labels, no candidate is
used twice, and later sites are at the right distance from earlier ones. -/
theorem admissible_iff [DecidableEq L] (close : K → K → Bool) (reference candidate : Cluster L K)
    (f : Nat → Nat) (order : List Nat) (before : Nat → Prop) (used : List Nat) :
    Admissible close reference candidate f order before used ↔
      (∀ r ∈ order, f r ∈ candidatesFor reference candidate r ∧ f r ∉ used ∧
        ∀ j, before j → close (reference.dist r j) (candidate.dist (f r) (f j)) = true) ∧
      order.Pairwise fun r s => f r ≠ f s ∧
        close (reference.dist s r) (candidate.dist (f s) (f r)) = true := by
  induction order generalizing before used with
  | nil => simp [Admissible]
  | cons r rest ih =>
    rw [Admissible, ih, List.pairwise_cons]
    constructor
    · rintro ⟨h1, h2, h3, h4, h5⟩
      refine ⟨?_, ?_, h5⟩
      · intro s hs
        rcases List.mem_cons.1 hs with rfl | hs
        · exact ⟨h1, h2, h3⟩
        · obtain ⟨h6, h7, h8⟩ := h4 s hs
          exact ⟨h6, fun hc => h7 (List.mem_cons_of_mem _ hc), fun j hj => h8 j (.inl hj)⟩
      · intro s hs
        obtain ⟨-, h7, h8⟩ := h4 s hs
        exact ⟨fun hc => h7 (by rw [← hc]; exact List.mem_cons_self), h8 r (.inr rfl)⟩
    · rintro ⟨h1, h2, h3⟩
      obtain ⟨h4, h5, h6⟩ := h1 r List.mem_cons_self
      refine ⟨h4, h5, h6, ?_, h3⟩
      intro s hs
      obtain ⟨h7, h8, h9⟩ := h1 s (List.mem_cons_of_mem _ hs)
      obtain ⟨h10, h11⟩ := h2 s hs
      refine ⟨h7, ?_, ?_⟩
      · intro hc
        rcases List.mem_cons.1 hc with hc | hc
        · exact h10 hc.symm
        · exact h8 hc
      · rintro j (hj | rfl)
        · exact h9 j hj
        · exact h11

/-- The whole search: with symmetric distances, the completions of the empty assignment are
exactly the matches. -/
theorem mem_allMatches [LinearOrder R] [DecidableEq L] (row : Nat → R) (close : K → K → Bool)
    (reference candidate : Cluster L K) (hr : SymmetricDistances reference)
    (hc : SymmetricDistances candidate) (π : List Nat) :
    π ∈ completions close reference candidate (assignmentOrder row reference candidate)
        (List.replicate reference.labels.length none) [] ↔ IsMatch close reference candidate π := by
  have hperm := assignmentOrder_perm row reference candidate
  have hnd : (assignmentOrder row reference candidate).Nodup := hperm.nodup_iff.2 List.nodup_range
  have hmem : ∀ j, j ∈ assignmentOrder row reference candidate ↔ j < reference.labels.length := by
    intro j; rw [hperm.mem_iff, List.mem_range]
  rw [mem_completions _ _ _ _ _ _ hnd (by
    intro j
    rw [hmem]
    rw [List.getElem?_replicate]
    simp)]
  rw [admissible_iff]
  have hnone : ∀ j c : Nat, (List.replicate reference.labels.length (none : Option Nat))[j]? ≠ some (some c) := by
    intro j c h
    rw [List.getElem?_replicate] at h
    split at h <;> cases h
  have cand_iff : ∀ (r c : Nat), r < reference.labels.length → (c ∈ candidatesFor reference candidate r ↔
      c < candidate.labels.length ∧ candidate.labels[c]? = reference.labels[r]?) := by
    intro r c hr
    unfold candidatesFor
    rw [List.getElem?_eq_getElem hr]
    simp only
    rw [mem_withLabel]
    constructor
    · intro h
      refine ⟨?_, h⟩
      by_contra hcon; rw [List.getElem?_eq_none (by omega)] at h; cases h
    · exact fun h => h.2
  constructor
  · rintro ⟨h1, -, h2, h3⟩
    rw [List.length_replicate] at h1
    have hget : ∀ i c : Nat, π[i]? = some c → i < reference.labels.length ∧ π[i]?.getD 0 = c := by
      intro i c h
      refine ⟨?_, by rw [h]; rfl⟩
      by_contra hcon; rw [List.getElem?_eq_none (by omega)] at h; cases h
    have hpair : ∀ i j, i < reference.labels.length → j < reference.labels.length → i ≠ j →
        π[i]?.getD 0 ≠ π[j]?.getD 0 ∧
        close (reference.dist i j) (candidate.dist (π[i]?.getD 0) (π[j]?.getD 0)) = true := by
      intro i j hi hj hij
      haveI : Std.Symm (fun r s : Nat => π[r]?.getD 0 ≠ π[s]?.getD 0 ∧
          close (reference.dist s r) (candidate.dist (π[s]?.getD 0) (π[r]?.getD 0)) = true) := ⟨by
        intro r s h
        obtain ⟨h4, h5⟩ := h
        refine ⟨Ne.symm h4, ?_⟩
        rw [hr r s, hc (π[r]?.getD 0) _]; exact h5⟩
      have := h3.forall ((hmem j).2 hj) ((hmem i).2 hi) (Ne.symm hij)
      exact ⟨Ne.symm this.1, this.2⟩
    refine ⟨⟨h1, ?_, ?_⟩, ?_⟩
    · rw [List.nodup_iff_injective_getElem]
      rintro ⟨i, hi⟩ ⟨j, hj⟩ hij
      by_contra hne
      have hne' : i ≠ j := fun h => hne (by simp [h])
      have := (hpair i j (by omega) (by omega) hne').1
      rw [List.getElem?_eq_getElem hi, List.getElem?_eq_getElem hj] at this
      exact this hij
    · intro i c h
      obtain ⟨hi, hg⟩ := hget i c h
      have := (h2 i ((hmem i).2 hi)).1
      rw [hg] at this
      exact (cand_iff i c hi).1 this
    · intro i j c d hij h4 h5
      obtain ⟨hi, hgi⟩ := hget i c h4
      obtain ⟨hj, hgj⟩ := hget j d h5
      have := (hpair i j hi hj hij).2
      rwa [hgi, hgj] at this
  · rintro ⟨⟨h1, h2, h3⟩, h4⟩
    have hsome : ∀ i, i < reference.labels.length → ∃ c, π[i]? = some c ∧ π[i]?.getD 0 = c := by
      intro i hi
      have : i < π.length := by omega
      exact ⟨π[i], List.getElem?_eq_getElem this, by rw [List.getElem?_eq_getElem this]; rfl⟩
    refine ⟨by simpa using h1, fun j c h => absurd h (hnone j c), ?_, ?_⟩
    · intro r hr'
      obtain ⟨c, h5, h6⟩ := hsome r ((hmem r).1 hr')
      rw [h6]
      exact ⟨(cand_iff r c ((hmem r).1 hr')).2 (h3 r c h5), List.not_mem_nil,
        fun j ⟨d, hd⟩ => absurd hd (hnone j d)⟩
    · refine hnd.imp_of_mem ?_
      intro r s hr' hs' hrs
      obtain ⟨c, h5, h6⟩ := hsome r ((hmem r).1 hr')
      obtain ⟨d, h7, h8⟩ := hsome s ((hmem s).1 hs')
      rw [h6, h8]
      refine ⟨?_, h4 s r d c (Ne.symm hrs) h7 h5⟩
      rintro rfl
      have hr1 : r < π.length := by rw [h1]; exact (hmem r).1 hr'
      have hs1 : s < π.length := by rw [h1]; exact (hmem s).1 hs'
      rw [List.getElem?_eq_getElem hr1] at h5
      rw [List.getElem?_eq_getElem hs1] at h7
      exact hrs ((h2.getElem_inj_iff).1 ((Option.some.inj h5).trans (Option.some.inj h7).symm))

end Matcher
end KMC
