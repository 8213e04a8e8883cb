import Verif.Model.State
import Verif.Lemmas.Py
import Verif.Spec.Basic
/-
Facts about `State.applyEvent`.
-/
namespace KMC
open Spec

theorem denotes_iff {n : Nat} {i : Int} {k : Nat} : Denotes n i k ↔ pyIdx n i = some k := by
  unfold Denotes pyIdx
  constructor
  · rintro ⟨h1, h2 | h2⟩
    · rw [if_pos h2.1, if_pos (by omega)]; congr 1; omega
    · rw [if_neg (by omega), if_pos (by omega)]; congr 1; omega
  · intro h
    split at h
    · split at h
      · cases h; omega
      · cases h
    · split at h
      · cases h; omega
      · cases h

theorem set_set_exchanged {α : Type} {l : List α} {i j : Nat} (hi : i < l.length)
    (hj : j < l.length) : Exchanged i j l ((l.set i l[j]).set j l[i]) := by
  refine ⟨by simp, ?_, ?_, ?_⟩
  · by_cases h : i = j
    · subst h; simp
    · simp [Ne.symm h, hi, hj]
  · simp [hi, hj]
  · intro k h1 h2
    simp [Ne.symm h1, Ne.symm h2]

theorem exchanged_unique {α : Type} {i j : Nat} {a b c : List α} (h1 : Exchanged i j a b)
    (h2 : Exchanged i j a c) : b = c := by
  apply List.ext_getElem?
  intro k
  by_cases hi : k = i
  · subst hi; rw [h1.2.1, h2.2.1]
  · by_cases hj : k = j
    · subst hj; rw [h1.2.2.1, h2.2.2.1]
    · rw [h1.2.2.2 k hi hj, h2.2.2.2 k hi hj]

theorem exchanged_symm {α : Type} {i j : Nat} {a b : List α} (h : Exchanged i j a b) :
    Exchanged i j b a :=
  ⟨h.1.symm, h.2.2.1.symm, h.2.1.symm, fun k h1 h2 => (h.2.2.2 k h1 h2).symm⟩

theorem set_set_perm {α : Type} [DecidableEq α] {l : List α} {i j : Nat} (hi : i < l.length) (hj : j < l.length) :
    ((l.set i l[j]).set j l[i]).Perm l := by
  rw [List.perm_iff_count]
  intro v
  by_cases h : i = j
  · subst h; simp
  · have e1 : (l.set i l[j])[j]'(by simpa using hj) = l[j] := by
      rw [List.getElem_set]; simp [h]
    have c1 : (l.set i l[j]).count v = l.count v - (if l[i] = v then 1 else 0)
        + (if l[j] = v then 1 else 0) := by
      rw [List.count_set (by simpa using hi)]; simp
    have c2 : ((l.set i l[j]).set j l[i]).count v =
        (l.set i l[j]).count v - (if l[j] = v then 1 else 0) + (if l[i] = v then 1 else 0) := by
      rw [List.count_set (by simpa using hj), e1]; simp
    rw [c2, c1]
    have p1 : (if l[i] = v then 1 else 0) ≤ l.count v := by
      split
      · rename_i hv; exact List.one_le_count_iff.2 (hv ▸ List.getElem_mem hi)
      · omega
    omega

section
variable {T : Type} [Add T]

/-- Everything `applyEvent` can do: fail without a trace, or exchange two entries and
advance the counters. -/
theorem applyEvent_cases (s : State T) (e : Event) (dt : T) :
    (∃ x, s.applyEvent e dt = (.error x, s)) ∨
    (∃ f t i j, ∃ hi : i < s.occ.length, ∃ hj : j < s.occ.length, e.mobile = [f, t] ∧
      pyIdx s.occ.length f = some i ∧ pyIdx s.occ.length t = some j ∧
      s.applyEvent e dt = (.ok (), ⟨(s.occ.set i s.occ[j]).set j s.occ[i], s.time + dt,
        s.step + 1⟩)) := by
  unfold State.applyEvent
  cases hu : unpack2 e.mobile with
  | error x => exact .inl ⟨x, rfl⟩
  | ok p =>
    obtain ⟨f, t⟩ := p
    rw [unpack2_ok_iff] at hu
    simp only
    cases hj : pyIdx s.occ.length t with
    | none => left; simp [pyGet, hj]
    | some j =>
      cases hi : pyIdx s.occ.length f with
      | none => left; simp [pyGet, hi, hj, pyIdx_lt hj]
      | some i =>
        right
        refine ⟨f, t, i, j, pyIdx_lt hi, pyIdx_lt hj, hu, hi, hj, ?_⟩
        rw [pyGet_of_idx hj, pyGet_of_idx hi]
        simp [pySet, hi, hj]

theorem applyEvent_ok {s s' : State T} {e : Event} {dt : T}
    (h : s.applyEvent e dt = (.ok (), s')) :
    ∃ f t i j, ∃ hi : i < s.occ.length, ∃ hj : j < s.occ.length, e.mobile = [f, t] ∧
      pyIdx s.occ.length f = some i ∧ pyIdx s.occ.length t = some j ∧
      s' = ⟨(s.occ.set i s.occ[j]).set j s.occ[i], s.time + dt, s.step + 1⟩ := by
  rcases applyEvent_cases s e dt with ⟨x, hx⟩ | ⟨f, t, i, j, hi, hj, he, h1, h2, h3⟩
  · rw [hx] at h; cases h
  · rw [h3] at h; cases h; exact ⟨f, t, i, j, hi, hj, he, h1, h2, rfl⟩

theorem applyEvent_perm (s : State T) (e : Event) (dt : T) :
    (s.applyEvent e dt).2.occ.Perm s.occ := by
  rcases applyEvent_cases s e dt with ⟨x, hx⟩ | ⟨f, t, i, j, hi, hj, he, h1, h2, h3⟩
  · rw [hx]
  · rw [h3]; exact set_set_perm hi hj

theorem applyEvent_length (s : State T) (e : Event) (dt : T) :
    (s.applyEvent e dt).2.occ.length = s.occ.length := (applyEvent_perm s e dt).length_eq

end

theorem exchanged_perm {α : Type} [DecidableEq α] {i j : Nat} {a b : List α} (hi : i < a.length)
    (hj : j < a.length) (h : Exchanged i j a b) : b.Perm a := by
  rw [exchanged_unique h (set_set_exchanged hi hj)]
  exact set_set_perm hi hj

theorem sameComposition_iff_perm {a b : List Int} : SameComposition a b ↔ a.Perm b :=
  ⟨fun h => List.perm_iff_count.2 h.2, fun h => ⟨h.length_eq, fun v => h.count_eq v⟩⟩

end KMC
