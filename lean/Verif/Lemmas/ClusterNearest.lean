import Verif.Lemmas.ClusterMatcher
import Verif.Lemmas.Orbits
/-
Lemmas about the fallback that tries every label-preserving assignment.
-/
namespace KMC
open Spec
namespace Matcher
variable {L K R : Type}

theorem mem_permutationsN {α : Type} (n : Nat) (l l' : List α) (h : l.length = n) :
    l' ∈ permutationsN n l ↔ l'.Perm l := by
  induction n generalizing l l' with
  | zero =>
    have : l = [] := List.length_eq_zero_iff.1 h
    subst this
    simp [permutationsN]
  | succ n ih =>
    rw [permutationsN, List.mem_flatMap]
    constructor
    · rintro ⟨i, hi, hm⟩
      have hi' := List.mem_range.1 hi
      rw [List.getElem?_eq_getElem hi'] at hm
      simp only at hm
      obtain ⟨t, ht, rfl⟩ := List.mem_map.1 hm
      rw [ih _ _ (by rw [List.length_eraseIdx_of_lt hi']; omega)] at ht
      exact (ht.cons _).trans (List.getElem_cons_eraseIdx_perm hi')
    · intro hp
      cases l' with
      | nil => have := hp.length_eq; simp at this; omega
      | cons a t =>
        have ha : a ∈ l := hp.mem_iff.1 List.mem_cons_self
        obtain ⟨i, hi, hia⟩ := List.mem_iff_getElem.1 ha
        refine ⟨i, List.mem_range.2 hi, ?_⟩
        rw [List.getElem?_eq_getElem hi]
        simp only
        refine List.mem_map.2 ⟨t, ?_, by rw [hia]⟩
        rw [ih _ _ (by rw [List.length_eraseIdx_of_lt hi]; omega)]
        have h2 := hp.trans (List.getElem_cons_eraseIdx_perm hi).symm
        rw [hia] at h2
        exact h2.cons_inv

theorem zipSet_length (ps : List (Nat × Nat)) (r : List Nat) :
    (ps.foldl (fun r p => r.set p.1 p.2) r).length = r.length := by
  induction ps generalizing r with
  | nil => rfl
  | cons p ps ih => rw [List.foldl_cons, ih, List.length_set]

theorem zipSet_not_mem (ps : List (Nat × Nat)) (r : List Nat) (i : Nat) (h : i ∉ ps.map (·.1)) :
    (ps.foldl (fun r p => r.set p.1 p.2) r)[i]? = r[i]? := by
  induction ps generalizing r with
  | nil => rfl
  | cons p ps ih =>
    simp only [List.map_cons, List.mem_cons, not_or] at h
    rw [List.foldl_cons, ih _ h.2, List.getElem?_set_ne (Ne.symm h.1)]

theorem zipSet_mem (ps : List (Nat × Nat)) (hn : (ps.map (·.1)).Nodup) (r : List Nat) {i c : Nat}
    (h : (i, c) ∈ ps) (hi : i < r.length) :
    (ps.foldl (fun r p => r.set p.1 p.2) r)[i]? = some c := by
  induction ps generalizing r with
  | nil => cases h
  | cons p ps ih =>
    rw [List.map_cons, List.nodup_cons] at hn
    rw [List.foldl_cons]
    rcases List.mem_cons.1 h with rfl | h
    · rw [zipSet_not_mem _ _ _ hn.1, List.getElem?_set_self hi]
    · exact ih hn.2 _ h (by simpa using hi)

theorem writeGroups_length (gs : List (List Nat × List Nat)) (r : List Nat) :
    (writeGroups gs r).length = r.length := by
  induction gs generalizing r with
  | nil => rfl
  | cons g gs ih =>
    obtain ⟨a, b⟩ := g
    rw [writeGroups, ih, zipSet_length]

theorem writeGroups_not_mem (gs : List (List Nat × List Nat)) (r : List Nat) (i : Nat)
    (h : ∀ g ∈ gs, i ∉ g.1) : (writeGroups gs r)[i]? = r[i]? := by
  induction gs generalizing r with
  | nil => rfl
  | cons g gs ih =>
    obtain ⟨a, b⟩ := g
    rw [writeGroups, ih _ fun g hg => h g (List.mem_cons_of_mem _ hg), zipSet_not_mem]
    intro hc
    obtain ⟨p, hp, rfl⟩ := List.mem_map.1 hc
    exact h (a, b) List.mem_cons_self (List.of_mem_zip hp).1

theorem zip_fst_sublist {α β : Type} (a : List α) (b : List β) : ((a.zip b).map (·.1)).Sublist a := by
  induction a generalizing b with
  | nil => simp
  | cons x a ih =>
    cases b with
    | nil => simp
    | cons y b => exact (ih b).cons_cons x

/-- Every site of every group receives its candidate. -/
theorem writeGroups_mem (gs : List (List Nat × List Nat)) (r : List Nat)
    (hn : ∀ g ∈ gs, g.1.Nodup) (hd : gs.Pairwise fun g h => ∀ i ∈ g.1, i ∉ h.1)
    {g : List Nat × List Nat} (hg : g ∈ gs) {i c : Nat} (h : (i, c) ∈ g.1.zip g.2) (hi : i < r.length) :
    (writeGroups gs r)[i]? = some c := by
  induction gs generalizing r with
  | nil => cases hg
  | cons x gs ih =>
    obtain ⟨a, b⟩ := x
    rw [List.pairwise_cons] at hd
    rw [writeGroups]
    rcases List.mem_cons.1 hg with rfl | hg
    · rw [writeGroups_not_mem _ _ _ fun g hg => hd.1 g hg i (List.of_mem_zip h).1]
      refine zipSet_mem _ ?_ _ h hi
      have := hn (a, b) List.mem_cons_self
      exact this.sublist (zip_fst_sublist a b)
    · exact ih _ (fun g hg => hn g (List.mem_cons_of_mem _ hg)) hd.2 hg (by rw [zipSet_length]; exact hi)

theorem withLabel_length [DecidableEq L] (labels : List L) (l : L) :
    (withLabel labels l).length = labels.count l := by
  induction labels using List.reverseRecOn with
  | nil => rfl
  | append_singleton xs x ih =>
    unfold withLabel at ih ⊢
    rw [List.length_append, List.length_singleton, List.range_succ, List.filter_append, List.length_append,
      List.count_append, ← ih]
    congr 1
    · congr 1
      apply List.filter_congr
      intro i hi
      rw [List.getElem?_append_left (List.mem_range.1 hi)]
    · simp only [List.filter_cons, List.getElem?_append_right (Nat.le_refl _), Nat.sub_self,
        List.getElem?_cons_zero, List.filter_nil, Option.some.injEq, decide_eq_true_eq]
      by_cases h : x = l
      · simp [h]
      · simp [h]

theorem mem_sortedLabels [LinearOrder L] (labels : List L) (l : L) : l ∈ sortedLabels labels ↔ l ∈ labels := by
  unfold sortedLabels
  rw [(List.mergeSort_perm _ _).mem_iff, countLabels_keys]
  simp [dictKeys]

theorem sortedLabels_nodup [LinearOrder L] (labels : List L) : (sortedLabels labels).Nodup :=
  (List.mergeSort_perm _ _).nodup_iff.2 (countLabels_nodup labels [] (by simp [dictKeys]))

/-- The assignments tried by the fallback. -/
def assignments [LinearOrder L] (reference candidate : Cluster L K) : List (List Nat) :=
  (productLists ((sortedLabels candidate.labels).map fun l =>
    permutationsN (withLabel candidate.labels l).length (withLabel candidate.labels l))).map fun choice =>
      writeGroups (((sortedLabels candidate.labels).map fun l => withLabel reference.labels l).zip choice)
        (List.replicate reference.labels.length 0)

/-- The assignments tried are exactly the label-preserving bijections. -/
theorem mem_assignments [LinearOrder L] (reference candidate : Cluster L K)
    (hp : reference.labels.Perm candidate.labels) (π : List Nat) :
    π ∈ assignments reference candidate ↔ Relabels reference candidate π := by
  have hlen : ∀ l, (withLabel reference.labels l).length = (withLabel candidate.labels l).length := by
    intro l; rw [withLabel_length, withLabel_length, hp.count_eq]
  have hdisj : ∀ {l m : L}, l ≠ m → ∀ i ∈ withLabel reference.labels l, i ∉ withLabel reference.labels m := by
    intro l m hlm i hi hj
    rw [mem_withLabel] at hi hj
    rw [hi] at hj
    exact hlm (Option.some.inj hj)
  -- a choice as a function of the label
  have choose : ∀ (ls : List L) (choice : List (List Nat)),
      List.Forall₂ (fun a l => a ∈ l) choice (ls.map fun l =>
        permutationsN (withLabel candidate.labels l).length (withLabel candidate.labels l)) → ls.Nodup →
      ∃ f : L → List Nat, choice = ls.map f ∧ ∀ l ∈ ls, (f l).Perm (withLabel candidate.labels l) := by
    intro ls
    induction ls with
    | nil => intro choice h _; cases h; exact ⟨fun _ => [], rfl, by simp⟩
    | cons l ls ih =>
      intro choice h hn
      rw [List.map_cons] at h
      cases h with
      | cons h1 h2 =>
        rw [List.nodup_cons] at hn
        obtain ⟨f, rfl, hf⟩ := ih _ h2 hn.2
        rename_i a
        refine ⟨fun m => if m = l then a else f m, ?_, ?_⟩
        · simp only [List.map_cons, if_true, List.cons.injEq, true_and]
          apply List.map_congr_left
          intro m hm
          rw [if_neg (fun h : m = l => hn.1 (h ▸ hm))]
        · intro m hm
          rcases List.mem_cons.1 hm with rfl | hm
          · simp only [if_true]; exact (mem_permutationsN _ _ _ rfl).1 h1
          · simp only [if_neg (fun h : m = l => hn.1 (h ▸ hm))]; exact hf m hm
  -- what the written list holds
  have hwrite : ∀ f : L → List Nat, (∀ l ∈ sortedLabels candidate.labels, (f l).Perm (withLabel candidate.labels l)) →
      ∀ (i : Nat) l, reference.labels[i]? = some l → ∀ c, (i, c) ∈ (withLabel reference.labels l).zip (f l) →
      (writeGroups (((sortedLabels candidate.labels).map fun l => withLabel reference.labels l).zip
        ((sortedLabels candidate.labels).map f)) (List.replicate reference.labels.length 0))[i]? = some c := by
    intro f hf i l hi c hc
    have hl : l ∈ sortedLabels candidate.labels := by
      rw [mem_sortedLabels]; exact hp.mem_iff.1 (List.mem_of_getElem? hi)
    have hzip : ((sortedLabels candidate.labels).map fun l => withLabel reference.labels l).zip
        ((sortedLabels candidate.labels).map f) =
        (sortedLabels candidate.labels).map fun l => (withLabel reference.labels l, f l) := by
      rw [List.zip_map', ]
    rw [hzip]
    refine writeGroups_mem _ _ ?_ ?_ (List.mem_map.2 ⟨l, hl, rfl⟩) hc ?_
    · intro g hg
      obtain ⟨m, -, rfl⟩ := List.mem_map.1 hg
      exact withLabel_nodup _ _
    · rw [List.pairwise_map]
      exact (sortedLabels_nodup candidate.labels).imp fun h => hdisj h
    · rw [List.length_replicate]
      by_contra hc; rw [List.getElem?_eq_none (by omega)] at hi; cases hi
  have hall : ∀ f : L → List Nat, (∀ l ∈ sortedLabels candidate.labels, (f l).Perm (withLabel candidate.labels l)) →
      ∀ (i : Nat) l, reference.labels[i]? = some l → ∃ c, (i, c) ∈ (withLabel reference.labels l).zip (f l) := by
    intro f hf i l hi
    have hl : l ∈ sortedLabels candidate.labels := by
      rw [mem_sortedLabels]; exact hp.mem_iff.1 (List.mem_of_getElem? hi)
    have him : i ∈ withLabel reference.labels l := mem_withLabel.2 hi
    obtain ⟨k, hk, hki⟩ := List.mem_iff_getElem.1 him
    have hk2 : k < (f l).length := by rw [(hf l hl).length_eq, ← hlen]; exact hk
    refine ⟨(f l)[k], List.mem_iff_getElem.2 ⟨k, by simp; omega, by simp [hki]⟩⟩
  constructor
  · intro hm
    obtain ⟨choice, hch, rfl⟩ := List.mem_map.1 hm
    rw [LCE.mem_productLists] at hch
    obtain ⟨f, rfl, hf⟩ := choose _ _ hch (sortedLabels_nodup _)
    have hmemval : ∀ (i c : Nat), (writeGroups (((sortedLabels candidate.labels).map fun l =>
        withLabel reference.labels l).zip ((sortedLabels candidate.labels).map f))
        (List.replicate reference.labels.length 0))[i]? = some c →
        ∃ l, reference.labels[i]? = some l ∧ (i, c) ∈ (withLabel reference.labels l).zip (f l) := by
      intro i c hic
      have hi : i < reference.labels.length := by
        by_contra hcon
        rw [List.getElem?_eq_none (by rw [writeGroups_length, List.length_replicate]; omega)] at hic
        cases hic
      have hl := List.getElem?_eq_getElem hi
      obtain ⟨d, hd⟩ := hall f hf i _ hl
      rw [hwrite f hf i _ hl d hd] at hic
      cases hic
      exact ⟨_, hl, hd⟩
    have hcandlab : ∀ (i c : Nat) l, reference.labels[i]? = some l →
        (i, c) ∈ (withLabel reference.labels l).zip (f l) → candidate.labels[c]? = some l := by
      intro i c l hl hz
      have h1 := (List.of_mem_zip hz).2
      have hl' : l ∈ sortedLabels candidate.labels := by
        rw [mem_sortedLabels]; exact hp.mem_iff.1 (List.mem_of_getElem? hl)
      exact mem_withLabel.1 ((hf l hl').mem_iff.1 h1)
    refine ⟨by rw [writeGroups_length, List.length_replicate], ?_, ?_⟩
    · rw [List.nodup_iff_injective_getElem]
      rintro ⟨i, hi⟩ ⟨j, hj⟩ hij
      obtain ⟨l, h1, h2⟩ := hmemval i _ (List.getElem?_eq_getElem hi)
      obtain ⟨m, h3, h4⟩ := hmemval j _ (List.getElem?_eq_getElem hj)
      simp only at hij
      rw [← hij] at h4
      have h5 := hcandlab _ _ _ h1 h2
      rw [hcandlab _ _ _ h3 h4] at h5
      cases h5
      have hl' : l ∈ sortedLabels candidate.labels := by
        rw [mem_sortedLabels]; exact hp.mem_iff.1 (List.mem_of_getElem? h1)
      have hnd : (f l).Nodup := (hf l hl').nodup_iff.2 (withLabel_nodup _ _)
      obtain ⟨a, ha, hae⟩ := List.mem_iff_getElem.1 h2
      obtain ⟨b, hb, hbe⟩ := List.mem_iff_getElem.1 h4
      rw [List.getElem_zip, Prod.mk.injEq] at hae hbe
      have hab : a = b := (hnd.getElem_inj_iff).1 (hae.2.trans hbe.2.symm)
      subst hab
      apply Fin.ext
      exact hae.1.symm.trans hbe.1
    · intro i c hic
      obtain ⟨l, h1, h2⟩ := hmemval i c hic
      have h3 := hcandlab i c l h1 h2
      refine ⟨?_, by rw [h3, h1]⟩
      by_contra hcon; rw [List.getElem?_eq_none (by omega)] at h3; cases h3
  · intro hr
    have hπ : ∀ i, i < reference.labels.length → ∃ c, π[i]? = some c := by
      intro i hi
      exact ⟨π[i]'(by rw [hr.length]; exact hi), List.getElem?_eq_getElem _⟩
    let f : L → List Nat := fun l => (withLabel reference.labels l).map fun i => π[i]?.getD 0
    have hf : ∀ l, (f l).Perm (withLabel candidate.labels l) := by
      intro l
      have hnd : (f l).Nodup := by
        refine List.Nodup.map_on ?_ (withLabel_nodup _ _)
        intro i hi j hj hij
        have hi' : i < π.length := by
          rw [hr.length]; exact (List.mem_range.1 (List.mem_filter.1 hi).1)
        have hj' : j < π.length := by
          rw [hr.length]; exact (List.mem_range.1 (List.mem_filter.1 hj).1)
        rw [List.getElem?_eq_getElem hi', List.getElem?_eq_getElem hj'] at hij
        exact (hr.nodup.getElem_inj_iff).1 hij
      have hsub : f l ⊆ withLabel candidate.labels l := by
        intro c hc
        obtain ⟨i, hi, rfl⟩ := List.mem_map.1 hc
        have hi' : i < π.length := by
          rw [hr.length]; exact (List.mem_range.1 (List.mem_filter.1 hi).1)
        rw [mem_withLabel] at hi ⊢
        rw [← hi, List.getElem?_eq_getElem hi']
        exact (hr.label i _ (List.getElem?_eq_getElem hi')).2
      exact (List.subperm_of_subset hnd hsub).perm_of_length_le (by
        show _ ≤ ((withLabel reference.labels l).map _).length
        rw [List.length_map, hlen])
    refine List.mem_map.2 ⟨(sortedLabels candidate.labels).map f, ?_, ?_⟩
    · rw [LCE.mem_productLists, List.forall₂_map_left_iff, List.forall₂_map_right_iff, List.forall₂_same]
      intro l _
      exact (mem_permutationsN _ _ _ rfl).2 (hf l)
    · apply List.ext_getElem?
      intro i
      by_cases hi : i < reference.labels.length
      · obtain ⟨c, hc⟩ := hπ i hi
        rw [hc]
        refine hwrite f (fun l _ => hf l) i _ (List.getElem?_eq_getElem hi) c ?_
        have him : i ∈ withLabel reference.labels reference.labels[i] :=
          mem_withLabel.2 (List.getElem?_eq_getElem hi)
        obtain ⟨k, hk, hki⟩ := List.mem_iff_getElem.1 him
        refine List.mem_iff_getElem.2 ⟨k, by simp [f]; omega, ?_⟩
        simp [f, hki, hc]
      · rw [List.getElem?_eq_none (by rw [writeGroups_length, List.length_replicate]; omega),
          List.getElem?_eq_none (by rw [hr.length]; omega)]

theorem bestOf_spec [LinearOrder K] (f : List Nat → K) (rs : List (List Nat)) (best : Option (List Nat × K))
    (hb : ∀ r s, best = some (r, s) → s = f r) :
    match bestOf f rs best with
    | none => rs = [] ∧ best = none
    | some (r, s) => s = f r ∧ (r ∈ rs ∨ best = some (r, s)) ∧ (∀ q ∈ rs, s ≤ f q) ∧
        ∀ q t, best = some (q, t) → s ≤ t := by
  induction rs generalizing best with
  | nil =>
    unfold bestOf
    cases best with
    | none => simp
    | some p =>
      obtain ⟨r, s⟩ := p
      exact ⟨hb r s rfl, .inr rfl, by simp, fun q t h => by cases h; exact le_refl _⟩
  | cons x rs ih =>
    unfold bestOf
    cases best with
    | none =>
      simp only
      have := ih (some (x, f x)) (by intro r s h; cases h; rfl)
      split at this
      · exact absurd this.2 (by simp)
      · obtain ⟨h1, h2, h3, h4⟩ := this
        refine ⟨h1, ?_, ?_, by simp⟩
        · rcases h2 with h2 | h2
          · exact .inl (List.mem_cons_of_mem _ h2)
          · cases h2; exact .inl List.mem_cons_self
        · intro q hq
          rcases List.mem_cons.1 hq with rfl | hq
          · exact h4 q _ rfl
          · exact h3 q hq
    | some p =>
      obtain ⟨b, t⟩ := p
      simp only
      by_cases hlt : f x < t
      · rw [if_pos hlt]
        have := ih (some (x, f x)) (by intro r s h; cases h; rfl)
        split at this
        · exact absurd this.2 (by simp)
        · obtain ⟨h1, h2, h3, h4⟩ := this
          refine ⟨h1, ?_, ?_, ?_⟩
          · rcases h2 with h2 | h2
            · exact .inl (List.mem_cons_of_mem _ h2)
            · cases h2; exact .inl List.mem_cons_self
          · intro q hq
            rcases List.mem_cons.1 hq with rfl | hq
            · exact h4 q _ rfl
            · exact h3 q hq
          · intro q u h
            cases h
            exact le_trans (h4 x _ rfl) (le_of_lt hlt)
      · rw [if_neg hlt]
        have := ih (some (b, t)) hb
        split at this
        · exact absurd this.2 (by simp)
        · obtain ⟨h1, h2, h3, h4⟩ := this
          refine ⟨h1, ?_, ?_, h4⟩
          · rcases h2 with h2 | h2
            · exact .inl (List.mem_cons_of_mem _ h2)
            · exact .inr h2
          · intro q hq
            rcases List.mem_cons.1 hq with rfl | hq
            · exact le_trans (h4 b t rfl) (not_lt.1 hlt)
            · exact h3 q hq

end Matcher
end KMC
