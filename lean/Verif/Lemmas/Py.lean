import Verif.Model.Py
import Mathlib.Data.List.Basic
import Mathlib.Data.List.Perm.Basic
import Mathlib.Tactic.Ring
/-
Facts about the Python conventions of `Model/Py.lean`.
-/
namespace KMC

theorem pyIdx_lt {n : Nat} {i : Int} {k : Nat} (h : pyIdx n i = some k) : k < n := by
  unfold pyIdx at h
  split at h
  · split at h
    · cases h; omega
    · cases h
  · split at h
    · cases h; omega
    · cases h

theorem pyIdx_nonneg {n : Nat} {i : Int} (h0 : 0 ≤ i) (h1 : i < n) :
    pyIdx n i = some i.toNat := by
  simp [pyIdx, h0, h1]

@[simp] theorem pyIdx_natCast {n k : Nat} (h : k < n) : pyIdx n (k : Int) = some k := by
  rw [pyIdx_nonneg (by omega) (by omega)]; simp

theorem pyIdx_some_nonneg {n : Nat} {i : Int} {k : Nat} (h : pyIdx n i = some k) (h0 : 0 ≤ i) :
    i = k := by
  unfold pyIdx at h
  rw [if_pos h0] at h
  split at h
  · cases h; omega
  · cases h

theorem pyGet_of_idx {α : Type u} {l : List α} {i : Int} {k : Nat}
    (h : pyIdx l.length i = some k) : pyGet l i = .ok (l[k]'(pyIdx_lt h)) := by
  have hk := pyIdx_lt h
  simp [pyGet, h, hk]

theorem pyGet_ok_iff {α : Type u} {l : List α} {i : Int} {v : α} :
    pyGet l i = .ok v ↔ ∃ k, pyIdx l.length i = some k ∧ l[k]? = some v := by
  constructor
  · intro h
    unfold pyGet at h
    split at h
    · cases h
    · rename_i k hk
      refine ⟨k, hk, ?_⟩
      split at h
      · rename_i a ha; cases h; exact ha
      · cases h
  · rintro ⟨k, hk, hv⟩
    simp [pyGet, hk, hv]

theorem pyGet_natCast {α : Type u} {l : List α} {k : Nat} {v : α} (h : l[k]? = some v) :
    pyGet l (k : Int) = .ok v := by
  have hk : k < l.length := by
    by_contra hc
    rw [List.getElem?_eq_none (by omega)] at h; cases h
  exact pyGet_ok_iff.2 ⟨k, pyIdx_natCast hk, h⟩

theorem pySet_of_idx {α : Type u} {l : List α} {i : Int} {k : Nat} {v : α}
    (h : pyIdx l.length i = some k) : pySet l i v = .ok (l.set k v) := by
  simp [pySet, h]

theorem pySet_ok_iff {α : Type u} {l l' : List α} {i : Int} {v : α} :
    pySet l i v = .ok l' ↔ ∃ k, pyIdx l.length i = some k ∧ l' = l.set k v := by
  unfold pySet
  split
  · simp_all
  · rename_i k hk
    simp only [Except.ok.injEq, hk, Option.some.injEq, exists_eq_left']
    exact eq_comm

theorem pyGet_error {α : Type u} {l : List α} {i : Int} {e : PyErr}
    (h : pyGet l i = .error e) : pyIdx l.length i = none ∧ e = .indexError := by
  unfold pyGet at h
  split at h
  · rename_i hn; cases h; exact ⟨hn, rfl⟩
  · rename_i k hk
    have hlt := pyIdx_lt hk
    simp [hlt] at h

theorem unpack2_ok_iff {α : Type u} {l : List α} {a b : α} :
    unpack2 l = .ok (a, b) ↔ l = [a, b] := by
  constructor
  · intro h
    match l, h with
    | [x, y], h => simp [unpack2] at h; simp [h]
    | [], h => simp [unpack2] at h
    | [_], h => simp [unpack2] at h
    | _ :: _ :: _ :: _, h => simp [unpack2] at h
  · rintro rfl; rfl

section dict
variable {κ : Type u} {α : Type v} [DecidableEq κ]

@[simp] theorem dictGet_dictSet_self (d : List (κ × α)) (k : κ) (v : α) :
    dictGet (dictSet d k v) k = some v := by
  induction d with
  | nil => simp [dictSet, dictGet]
  | cons hd tl ih =>
    obtain ⟨k', v'⟩ := hd
    by_cases h : k' = k <;> simp [dictSet, dictGet, h, ih]

theorem dictGet_dictSet_ne (d : List (κ × α)) {k k' : κ} (v : α) (h : k' ≠ k) :
    dictGet (dictSet d k v) k' = dictGet d k' := by
  induction d with
  | nil => simp [dictSet, dictGet, h.symm]
  | cons hd tl ih =>
    obtain ⟨k1, v1⟩ := hd
    by_cases h1 : k1 = k
    · subst h1; simp [dictSet, dictGet, h.symm]
    · by_cases h2 : k1 = k'
      · subst h2; simp [dictSet, dictGet, h1]
      · simp [dictSet, dictGet, h1, h2, ih]

theorem dictGet_dictSet (d : List (κ × α)) (k k' : κ) (v : α) :
    dictGet (dictSet d k v) k' = if k' = k then some v else dictGet d k' := by
  by_cases h : k' = k
  · subst h; simp
  · simp [h, dictGet_dictSet_ne]

theorem dictKeys_dictSet_of_mem (d : List (κ × α)) {k : κ} (v : α) (h : k ∈ dictKeys d) :
    dictKeys (dictSet d k v) = dictKeys d := by
  induction d with
  | nil => simp [dictKeys] at h
  | cons hd tl ih =>
    obtain ⟨k1, v1⟩ := hd
    by_cases h1 : k1 = k
    · simp [dictSet, dictKeys, h1]
    · have : k ∈ dictKeys tl := by
        simp only [dictKeys, List.map_cons, List.mem_cons] at h ⊢
        rcases h with h | h
        · exact absurd h.symm h1
        · exact h
      have := ih this
      simp only [dictKeys] at this
      simp [dictSet, dictKeys, h1, this]

theorem dictKeys_dictSet_of_not_mem (d : List (κ × α)) {k : κ} (v : α) (h : k ∉ dictKeys d) :
    dictSet d k v = d ++ [(k, v)] := by
  induction d with
  | nil => simp [dictSet]
  | cons hd tl ih =>
    obtain ⟨k1, v1⟩ := hd
    simp only [dictKeys, List.map_cons, List.mem_cons, not_or] at h
    have := ih (by simpa [dictKeys] using h.2)
    simp [dictSet, Ne.symm h.1, this]

theorem dictGet_eq_none_iff (d : List (κ × α)) (k : κ) :
    dictGet d k = none ↔ k ∉ dictKeys d := by
  induction d with
  | nil => simp [dictGet, dictKeys]
  | cons hd tl ih =>
    obtain ⟨k1, v1⟩ := hd
    simp only [dictKeys] at ih
    by_cases h1 : k1 = k
    · simp [dictGet, dictKeys, h1]
    · simp [dictGet, dictKeys, h1, ih, Ne.symm h1]

theorem dictGet_isSome_iff (d : List (κ × α)) (k : κ) :
    (∃ v, dictGet d k = some v) ↔ k ∈ dictKeys d := by
  rw [← not_iff_not, ← dictGet_eq_none_iff]
  cases dictGet d k <;> simp

theorem dictSet_keys_mem (d : List (κ × α)) (k k' : κ) (v : α) :
    k' ∈ dictKeys (dictSet d k v) ↔ k' = k ∨ k' ∈ dictKeys d := by
  rw [← dictGet_isSome_iff, ← dictGet_isSome_iff, dictGet_dictSet]
  by_cases h : k' = k <;> simp [h]

theorem dictKeys_dictSet_nodup (d : List (κ × α)) (k : κ) (v : α) (h : (dictKeys d).Nodup) :
    (dictKeys (dictSet d k v)).Nodup := by
  by_cases hk : k ∈ dictKeys d
  · rw [dictKeys_dictSet_of_mem d v hk]; exact h
  · rw [dictKeys_dictSet_of_not_mem d v hk]
    simp only [dictKeys] at *
    rw [List.map_append, List.nodup_append]
    refine ⟨h, by simp, ?_⟩
    intro a ha b hb
    simp only [List.map_cons, List.map_nil, List.mem_singleton] at hb
    subst hb
    rintro rfl
    exact hk ha

theorem dictKeys_dictDel (d : List (κ × α)) (k : κ) :
    dictKeys (dictDel d k) = (dictKeys d).erase k := by
  induction d with
  | nil => simp [dictDel, dictKeys]
  | cons hd tl ih =>
    obtain ⟨k1, v1⟩ := hd
    simp only [dictKeys] at ih
    by_cases h1 : k1 = k
    · simp [dictDel, dictKeys, h1]
    · simp [dictDel, dictKeys, h1, ih]

theorem mem_of_dictGet {d : List (κ × α)} {k : κ} {v : α} (h : dictGet d k = some v) :
    (k, v) ∈ d := by
  induction d with
  | nil => simp [dictGet] at h
  | cons hd tl ih =>
    obtain ⟨k1, v1⟩ := hd
    by_cases h1 : k1 = k
    · subst h1; simp [dictGet] at h; simp [h]
    · simp [dictGet, h1] at h; simp [ih h]

theorem dictGet_of_mem {d : List (κ × α)} {k : κ} {v : α} (hn : (dictKeys d).Nodup)
    (h : (k, v) ∈ d) : dictGet d k = some v := by
  induction d with
  | nil => simp at h
  | cons hd tl ih =>
    obtain ⟨k1, v1⟩ := hd
    simp only [dictKeys, List.map_cons, List.nodup_cons] at hn
    rcases List.mem_cons.1 h with h | h
    · cases h; simp [dictGet]
    · by_cases h1 : k1 = k
      · subst h1
        exact absurd (List.mem_map.2 ⟨_, h, rfl⟩) hn.1
      · simp only [dictGet, h1, if_false]; exact ih hn.2 h

theorem dictGet_dictDel_ne (d : List (κ × α)) {k k' : κ} (h : k' ≠ k) :
    dictGet (dictDel d k) k' = dictGet d k' := by
  induction d with
  | nil => simp [dictDel]
  | cons hd tl ih =>
    obtain ⟨k1, v1⟩ := hd
    by_cases h1 : k1 = k
    · subst h1; simp [dictDel, dictGet, h.symm]
    · by_cases h2 : k1 = k'
      · subst h2; simp [dictDel, dictGet, h1]
      · simp [dictDel, dictGet, h1, h2, ih]

end dict
end KMC
