import Mathlib.Tactic.Linarith
import Mathlib.Tactic.NormNum
import Verif.Lemmas.Py
import Verif.Lemmas.Plan
import Verif.Lemmas.LCE
import Verif.Spec.UserBasis
namespace KMC
namespace UserBasis
open Spec

theorem towardsZero_int (z : ℤ) : towardsZero (z : ℚ) = z := by
  unfold towardsZero; split <;> simp

theorem towardsZero_part (q : ℚ) : IntegerPart q (towardsZero q) := by
  unfold towardsZero
  constructor
  · intro h
    rw [if_pos h]
    exact ⟨Int.floor_le q, Int.lt_floor_add_one q⟩
  · intro h
    rw [if_neg (by linarith)]
    exact ⟨by have := Int.ceil_lt_add_one q; linarith, Int.le_ceil q⟩

theorem stored_int (o : Obj) (z : ℤ) : o.stored (z : ℚ) = z := by
  unfold Obj.stored; split
  · rw [towardsZero_int]
  · rfl

theorem stored_stored (o : Obj) (q : ℚ) : o.stored (o.stored q) = o.stored q := by
  by_cases h : o.body.matchValue.isInt = true
  · simp only [Obj.stored, h, if_true, towardsZero_int]
  · simp only [Obj.stored, h]
    rfl

theorem stored_match {o : Obj} (h : HoldsItsValues o) : o.stored o.body.matchValue.val = o.body.matchValue.val := by
  by_cases hi : o.body.matchValue.isInt = true
  · obtain ⟨⟨z, hz⟩, -⟩ := h hi
    rw [hz]; exact stored_int o z
  · simp only [Obj.stored, hi]; rfl

theorem stored_mismatch {o : Obj} (h : HoldsItsValues o) :
    o.stored o.body.mismatchValue.val = o.body.mismatchValue.val := by
  by_cases hi : o.body.matchValue.isInt = true
  · obtain ⟨-, z, hz⟩ := h hi
    rw [hz]; exact stored_int o z
  · simp only [Obj.stored, hi]; rfl

theorem map_stored_of_twoValued {o : Obj} (h : HoldsItsValues o) {d : List ℚ} (hd : TwoValued o d) :
    d.map o.stored = d := by
  refine (List.map_congr_left ?_).trans (List.map_id d)
  intro v hv
  rcases hd v hv with rfl | rfl
  · exact stored_match h
  · exact stored_mismatch h

theorem map_stored_stored (o : Obj) (d : List ℚ) : (d.map o.stored).map o.stored = d.map o.stored := by
  rw [List.map_map]
  exact List.map_congr_left fun v _ => stored_stored o v

theorem map_stored_ints (o : Obj) (d : List Int) :
    (d.map fun (z : Int) => (z : ℚ)).map o.stored = d.map fun (z : Int) => (z : ℚ) := by
  rw [List.map_map]
  exact List.map_congr_left fun z _ => stored_int o z

theorem make_data {b : Obj} {n : String} {d : List ℚ} {v : Bool} {o : Occ} (h : make b n d v = .ok o) :
    o = ⟨b, n, d.map b.stored⟩ := by
  unfold make at h
  split at h
  · cases h
  · exact (Except.ok.inj h).symm

theorem dictGet_dictSet' {α : Type} (d : List (String × α)) (k k' : String) (v : α) :
    dictGet (dictSet d k v) k' = if k = k' then some v else dictGet d k' := by
  induction d with
  | nil => simp only [dictSet, dictGet]
  | cons e d ih =>
    obtain ⟨a, x⟩ := e
    simp only [dictSet]
    by_cases h : a = k
    · subst h
      simp only [if_true, dictGet]
      by_cases h2 : a = k' <;> simp [h2]
    · simp only [if_neg h, dictGet, ih]
      by_cases h2 : a = k'
      · subst h2
        simp [Ne.symm h]
      · simp [h2]

theorem dictGet_registerAll (regs : List (String × Cls)) (reg : Registry) (name : String) :
    dictGet (registerAll reg regs) name = (latest regs name).or (dictGet reg name) := by
  induction regs generalizing reg with
  | nil => simp [registerAll, latest]
  | cons e rest ih =>
    obtain ⟨n, c⟩ := e
    rw [registerAll, ih, register, dictGet_dictSet']
    simp only [latest, List.reverse_cons, List.find?_append]
    cases h : rest.reverse.find? fun e => e.1 == name with
    | some x => simp
    | none =>
      by_cases hn : n = name
      · simp [hn]
      · simp [hn]

theorem flipLoop_one {o : Obj} {i : Int} {d d' : List ℚ} (h : flipLoop o [i] d = .ok d') :
    ∃ (k : Nat) (v : ℚ), pyIdx d.length i = some k ∧ d[k]? = some v ∧ d' = d.set k (o.stored (o.flip v)) := by
  simp only [flipLoop] at h
  cases hg : pyGet d i with
  | error e => rw [hg] at h; cases h
  | ok v =>
    rw [hg] at h
    simp only at h
    obtain ⟨k, hk, hv⟩ := pyGet_ok_iff.1 hg
    rw [pySet_of_idx hk] at h
    exact ⟨k, v, hk, hv, (Except.ok.inj h).symm⟩

theorem twoValued_set {b : Obj} {d : List ℚ} (hd : TwoValued b d) (k : Nat) {w : ℚ}
    (hw : w = b.body.matchValue.val ∨ w = b.body.mismatchValue.val) : TwoValued b (d.set k w) := by
  intro v hv
  rcases List.mem_or_eq_of_mem_set hv with h | h
  · exact hd v h
  · subst h; exact hw

end UserBasis
end KMC
