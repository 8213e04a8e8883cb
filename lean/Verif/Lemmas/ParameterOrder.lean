import Verif.Lemmas.Parameters
/-
The textual order of the group names of an HDF5 history.
-/
namespace KMC
namespace Parameters
open Spec

theorem digitChar_lt {a b : Nat} (h : a < b) (hb : b < 10) : digitChar a < digitChar b := by
  have ha := digitChar_toNat (show a < 10 by omega)
  have hb := digitChar_toNat hb
  show (digitChar a).val < (digitChar b).val
  rw [UInt32.lt_iff_toNat_lt]
  change (digitChar a).toNat < (digitChar b).toNat
  omega

theorem natDigits_small {n : Nat} (h : n < 10) : natDigits n = [digitChar n] := by
  rw [natDigits, if_pos h]

theorem natDigits_big {n : Nat} (h : ¬ n < 10) :
    natDigits n = natDigits (n / 10) ++ [digitChar (n % 10)] := by
  rw [natDigits, if_neg h]

theorem lt_append_of_lt {a b c : List Char} (h : a < b) : a < b ++ c :=
  lt_of_lt_of_le h (not_lt.mp (show ¬ (b ++ c < b) from List.le_append_left (l₁ := b) (l₂ := c)))

theorem natDigits_ten : natDigits 10 = ['1', '0'] := by
  rw [natDigits_big (by omega), natDigits_small (by omega)]; rfl

/-- Every number from two on, other than ten itself, is written after "10". -/
theorem ten_lt (k : Nat) (h2 : 2 ≤ k) (h10 : k ≠ 10) : ['1', '0'] < natDigits k := by
  induction k using Nat.strong_induction_on with
  | _ k ih =>
    by_cases hk : k < 10
    · rw [natDigits_small hk]
      exact List.Lex.rel (digitChar_lt (a := 1) (by omega) hk)
    · rw [natDigits_big hk]
      by_cases h1 : k / 10 = 1
      · rw [h1, natDigits_small (by omega)]
        exact List.Lex.cons (List.Lex.rel (digitChar_lt (a := 0) (by omega) (by omega)))
      · by_cases hten : k / 10 = 10
        · rw [hten, natDigits_ten]
          exact List.Lex.cons (List.Lex.cons List.Lex.nil)
        · exact lt_append_of_lt (ih (k / 10) (by omega) (by omega) hten)

theorem groupName_toList (i : Nat) : (groupName i).toList = "parameter_set_".toList ++ natDigits i := by
  unfold groupName
  rw [String.toList_append]
  congr 1
  show (String.ofList (natDigits i)).toList = _
  rw [String.toList_ofList]

theorem groupName_lt {i j : Nat} (h : natDigits i < natDigits j) : groupName i < groupName j := by
  rw [String.lt_iff_toList_lt, groupName_toList, groupName_toList]
  exact List.append_left_lt h

theorem groupName_injective {i j : Nat} (h : groupName i = groupName j) : i = j := by
  have h' : intStr (i : Int) = intStr (j : Int) := by
    have := congrArg String.toList h
    unfold groupName at this
    rw [String.toList_append, String.toList_append] at this
    exact String.toList_injective (List.append_cancel_left this)
  have := intStr_injective h'
  omega

/-- Up to ten records the textual order is the numeric one. -/
theorem groupName_lt_small {i j : Nat} (h : i < j) (hj : j < 10) : groupName i < groupName j := by
  apply groupName_lt
  rw [natDigits_small hj, natDigits_small (by omega)]
  exact List.Lex.rel (digitChar_lt h hj)

theorem groupName_ten_lt {k : Nat} (h2 : 2 ≤ k) (h10 : k ≠ 10) : groupName 10 < groupName k := by
  apply groupName_lt
  rw [natDigits_ten]
  exact ten_lt k h2 h10

theorem groupName_one_lt_ten : groupName 1 < groupName 10 := by
  apply groupName_lt
  rw [natDigits_ten, natDigits_small (by omega)]
  exact List.Lex.cons List.Lex.nil

theorem groupName_zero_lt_one : groupName 0 < groupName 1 := groupName_lt_small (by omega) (by omega)

/-- The groups of a history written in order. -/
def groupsOf (h : List Params) : List (String × List (String × PyVal)) :=
  h.zipIdx.map fun q => (groupName q.2, groupOf q.1)

theorem groupsOf_mem {h : List Params} {g : String × List (String × PyVal)} (hg : g ∈ groupsOf h) :
    ∃ (i : Nat) (p : Params), h[i]? = some p ∧ g = (groupName i, groupOf p) := by
  unfold groupsOf at hg
  rw [List.mem_map] at hg
  obtain ⟨⟨p, i⟩, hm, rfl⟩ := hg
  exact ⟨i, p, List.mem_zipIdx_iff_getElem?.mp hm, rfl⟩

theorem groupsOf_key {h : List Params} {g g' : String × List (String × PyVal)} (hg : g ∈ groupsOf h)
    (hg' : g' ∈ groupsOf h) (hk : g.1 = g'.1) : g = g' := by
  obtain ⟨i, p, hp, rfl⟩ := groupsOf_mem hg
  obtain ⟨j, q, hq, rfl⟩ := groupsOf_mem hg'
  have := groupName_injective hk
  subst this
  rw [hp] at hq
  cases hq
  rfl

theorem sortedGroups_perm (g : List (String × List (String × PyVal))) : (sortedGroups g).Perm g :=
  List.mergeSort_perm ..

theorem sortedGroups_pairwise (g : List (String × List (String × PyVal))) :
    (sortedGroups g).Pairwise fun a b => a.1 ≤ b.1 := by
  have := List.pairwise_mergeSort (le := fun a b : String × List (String × PyVal) => decide (a.1 ≤ b.1))
    (by intro a b c; simp only [decide_eq_true_eq]; exact le_trans)
    (by intro a b; simp only [Bool.or_eq_true, decide_eq_true_eq]; exact le_total _ _) g
  exact this.imp (by intro a b h; simpa using h)

/-- A list with the same groups in textual order is the sorted list. -/
theorem sortedGroups_eq {h : List Params} {l : List (String × List (String × PyVal))}
    (hp : l.Perm (groupsOf h)) (hs : l.Pairwise fun a b => a.1 ≤ b.1) :
    sortedGroups (groupsOf h) = l := by
  refine List.Perm.eq_of_pairwise ?_ (sortedGroups_pairwise _) hs ((sortedGroups_perm _).trans hp.symm)
  intro a b ha hb hab hba
  exact groupsOf_key ((sortedGroups_perm _).mem_iff.mp ha) (hp.mem_iff.mp hb) (le_antisymm hab hba)

theorem pairwise_groups {h : List Params} {k : Nat} (hk : ∀ i j, i < j → j < k + h.length → k ≤ i →
    groupName i < groupName j) :
    ((h.zipIdx k).map fun q => (groupName q.2, groupOf q.1)).Pairwise fun a b => a.1 ≤ b.1 := by
  rw [List.pairwise_map]
  induction h generalizing k with
  | nil => exact List.Pairwise.nil
  | cons p h ih =>
    rw [List.zipIdx_cons, List.pairwise_cons]
    refine ⟨?_, ih fun i j hij hj hi => hk i j hij (by simp only [List.length_cons]; omega) (by omega)⟩
    intro q hq
    have := List.mem_zipIdx hq
    exact le_of_lt (hk k q.2 (by omega) (by simp only [List.length_cons]; omega) le_rfl)

theorem sortedGroups_short {h : List Params} (hl : h.length ≤ 10) : sortedGroups (groupsOf h) = groupsOf h := by
  refine sortedGroups_eq (List.Perm.refl _) (pairwise_groups fun i j hij hj _ => ?_)
  exact groupName_lt_small hij (by omega)

theorem groupsOf_getElem? (h : List Params) (i : Nat) :
    (groupsOf h)[i]? = h[i]?.map fun p => (groupName i, groupOf p) := by
  simp only [groupsOf, List.getElem?_map, List.getElem?_zipIdx, Option.map_map, Nat.zero_add]
  rfl

/-- With eleven records or more, the third group in textual order is that of the eleventh record. -/
theorem sortedGroups_long {h : List Params} (hl : 11 ≤ h.length) :
    (sortedGroups (groupsOf h))[2]? = (groupsOf h)[10]? := by
  obtain ⟨p0, p1, rest, rfl⟩ : ∃ p0 p1 rest, h = p0 :: p1 :: rest := by
    match h, hl with
    | p0 :: p1 :: rest, _ => exact ⟨p0, p1, rest, rfl⟩
  have hr : 9 ≤ rest.length := by simp only [List.length_cons] at hl; omega
  have hlt : 8 < rest.length := by omega
  have hsplit : rest = rest.take 8 ++ rest[8] :: rest.drop 9 := by
    rw [List.getElem_cons_drop, List.take_append_drop]
  generalize hA : rest.take 8 = A at hsplit
  generalize hB : rest.drop 9 = B at hsplit
  generalize hx : rest[8] = x at hsplit
  have hAl : A.length = 8 := by rw [← hA, List.length_take]; omega
  subst hsplit
  set F : Params × Nat → String × List (String × PyVal) := fun q => (groupName q.2, groupOf q.1) with hF
  have hg : groupsOf (p0 :: p1 :: (A ++ x :: B)) =
      F (p0, 0) :: F (p1, 1) :: ((A.zipIdx 2).map F ++ F (x, 10) :: (B.zipIdx 11).map F) := by
    simp only [groupsOf, List.zipIdx_cons, List.zipIdx_append, List.map_cons, List.map_append, hAl]
    rfl
  set R := (A.zipIdx 2).map F ++ (B.zipIdx 11).map F with hR
  have hRk : ∀ g ∈ R, ∃ k, 2 ≤ k ∧ k ≠ 10 ∧ g.1 = groupName k := by
    intro g hg
    rw [hR, List.mem_append, List.mem_map, List.mem_map] at hg
    rcases hg with ⟨q, hq, rfl⟩ | ⟨q, hq, rfl⟩
    · have := List.mem_zipIdx hq
      exact ⟨q.2, by omega, by omega, rfl⟩
    · have := List.mem_zipIdx hq
      exact ⟨q.2, by omega, by omega, rfl⟩
  have hs : sortedGroups (groupsOf (p0 :: p1 :: (A ++ x :: B)))
      = F (p0, 0) :: F (p1, 1) :: F (x, 10) :: sortedGroups R := by
    refine sortedGroups_eq ?_ ?_
    · rw [hg]
      refine List.Perm.cons _ (List.Perm.cons _ ?_)
      exact ((sortedGroups_perm R).cons _).trans List.perm_middle.symm
    · have hmem : ∀ g ∈ sortedGroups R, groupName 10 ≤ g.1 := by
        intro g hg
        obtain ⟨k, h2, h10, hk⟩ := hRk g ((sortedGroups_perm R).mem_iff.mp hg)
        rw [hk]
        exact le_of_lt (groupName_ten_lt h2 h10)
      have h01 : groupName 0 ≤ groupName 1 := le_of_lt groupName_zero_lt_one
      have h1t : groupName 1 ≤ groupName 10 := le_of_lt groupName_one_lt_ten
      rw [List.pairwise_cons, List.pairwise_cons, List.pairwise_cons]
      refine ⟨?_, ?_, hmem, sortedGroups_pairwise R⟩
      · intro g hg
        rw [List.mem_cons, List.mem_cons] at hg
        rcases hg with rfl | rfl | hg
        · exact h01
        · exact h01.trans h1t
        · exact (h01.trans h1t).trans (hmem g hg)
      · intro g hg
        rw [List.mem_cons] at hg
        rcases hg with rfl | hg
        · exact h1t
        · exact h1t.trans (hmem g hg)
  rw [hs, hg]
  have : ∀ (a b : String × List (String × PyVal)) (l m : List (String × List (String × PyVal))),
      l.length = 8 → (a :: b :: (l ++ F (x, 10) :: m))[10]? = some (F (x, 10)) := by
    intro a b l m hl
    rw [List.getElem?_cons_succ, List.getElem?_cons_succ, List.getElem?_append_right (by omega), hl]
    rfl
  rw [this _ _ _ _ (by rw [List.length_map, List.length_zipIdx, hAl])]
  rfl

end Parameters
end KMC
