import Mathlib.Data.List.Basic
import Mathlib.Tactic.Ring
import Verif.Model.LocalBarrier
/-
Printing and parsing of integers (`Model/LocalBarrier.lean`).
-/
namespace KMC

theorem digitChar_toNat {n : Nat} (h : n < 10) : (digitChar n).toNat = 48 + n := by
  have : n = 0 ∨ n = 1 ∨ n = 2 ∨ n = 3 ∨ n = 4 ∨ n = 5 ∨ n = 6 ∨ n = 7 ∨ n = 8 ∨ n = 9 := by omega
  rcases this with rfl | rfl | rfl | rfl | rfl | rfl | rfl | rfl | rfl | rfl <;> rfl

/-- A character of a printed natural number. -/
def IsDigit (c : Char) : Prop := ∃ n, n < 10 ∧ c = digitChar n

theorem IsDigit.range {c : Char} (h : IsDigit c) : 48 ≤ c.toNat ∧ c.toNat ≤ 57 := by
  obtain ⟨n, hn, rfl⟩ := h
  rw [digitChar_toNat hn]; omega

theorem IsDigit.not_white {c : Char} (h : IsDigit c) : c.isWhitespace = false := by
  obtain ⟨n, hn, rfl⟩ := h
  have : n = 0 ∨ n = 1 ∨ n = 2 ∨ n = 3 ∨ n = 4 ∨ n = 5 ∨ n = 6 ∨ n = 7 ∨ n = 8 ∨ n = 9 := by omega
  rcases this with rfl | rfl | rfl | rfl | rfl | rfl | rfl | rfl | rfl | rfl <;> rfl

theorem IsDigit.lower {c : Char} (h : IsDigit c) : c.toLower = c := by
  obtain ⟨n, hn, rfl⟩ := h
  have : n = 0 ∨ n = 1 ∨ n = 2 ∨ n = 3 ∨ n = 4 ∨ n = 5 ∨ n = 6 ∨ n = 7 ∨ n = 8 ∨ n = 9 := by omega
  rcases this with rfl | rfl | rfl | rfl | rfl | rfl | rfl | rfl | rfl | rfl <;> rfl

theorem natDigits_digit (n : Nat) : ∀ c ∈ natDigits n, IsDigit c := by
  induction n using Nat.strongRecOn with
  | _ n ih =>
    rw [natDigits]
    split
    · rename_i h
      intro c hc
      rw [List.mem_singleton] at hc
      exact ⟨n, h, hc⟩
    · rename_i h
      intro c hc
      rcases List.mem_append.1 hc with hc | hc
      · exact ih (n / 10) (by omega) c hc
      · rw [List.mem_singleton] at hc
        exact ⟨n % 10, by omega, hc⟩

theorem natDigits_ne_nil (n : Nat) : natDigits n ≠ [] := by
  rw [natDigits]
  split <;> simp

theorem parseDigits_append (a b : List Char) (acc : Nat) :
    parseDigits (a ++ b) acc = (parseDigits a acc).bind (parseDigits b) := by
  induction a generalizing acc with
  | nil => rfl
  | cons c cs ih =>
    simp only [List.cons_append, parseDigits]
    split
    · exact ih _
    · rfl

theorem parseDigits_natDigits (n : Nat) : parseDigits (natDigits n) 0 = some n := by
  induction n using Nat.strongRecOn with
  | _ n ih =>
    rw [natDigits]
    split
    · rename_i h
      simp only [parseDigits, digitChar_toNat h]
      rw [if_pos (by omega)]
      simp
    · rename_i h
      rw [parseDigits_append, ih (n / 10) (by omega)]
      simp only [Option.bind_some, parseDigits, digitChar_toNat (Nat.mod_lt n (by omega : 0 < 10))]
      rw [if_pos (by omega)]
      congr 1
      omega

theorem dropWhile_none {l : List Char} {p : Char → Bool} (h : ∀ c ∈ l, p c = false) :
    l.dropWhile p = l := by
  cases l with
  | nil => rfl
  | cons c cs => rw [List.dropWhile_cons, h c (by simp)]; rfl

theorem pyStrip_ofList {l : List Char} (h : ∀ c ∈ l, c.isWhitespace = false) :
    pyStrip (String.ofList l) = String.ofList l := by
  unfold pyStrip
  rw [String.toList_ofList, dropWhile_none h, dropWhile_none, List.reverse_reverse]
  intro c hc
  exact h c (List.mem_reverse.1 hc)

theorem parseInt_intStr (n : Int) : parseInt (intStr n) = some n := by
  unfold intStr
  cases n with
  | ofNat k =>
    simp only
    unfold parseInt
    rw [pyStrip_ofList fun c hc => (natDigits_digit k c hc).not_white, String.toList_ofList]
    have hp := parseDigits_natDigits k
    have hd := natDigits_digit k
    cases hl : natDigits k with
    | nil => exact absurd hl (natDigits_ne_nil k)
    | cons c cs =>
      rw [hl] at hp hd
      have hc := (hd c (by simp)).range
      have h1 : c ≠ '-' := by rintro rfl; exact absurd hc.1 (by decide)
      have h2 : c ≠ '+' := by rintro rfl; exact absurd hc.1 (by decide)
      split
      · rename_i heq; cases heq
      · rename_i heq; cases heq; exact absurd rfl h1
      · rename_i heq; cases heq; exact absurd rfl h2
      · rename_i heq; cases heq; rw [hp]; rfl
  | negSucc k =>
    simp only
    unfold parseInt
    rw [pyStrip_ofList, String.toList_ofList]
    · have hp := parseDigits_natDigits (k + 1)
      cases hl : natDigits (k + 1) with
      | nil => exact absurd hl (natDigits_ne_nil _)
      | cons c cs =>
        rw [hl] at hp
        simp only [hp]
        rfl
    · intro c hc
      rcases List.mem_cons.1 hc with rfl | hc
      · decide
      · exact (natDigits_digit _ c hc).not_white

theorem intStr_injective {m n : Int} (h : intStr m = intStr n) : m = n := by
  have := parseInt_intStr m
  rw [h, parseInt_intStr] at this
  exact (Option.some.inj this).symm

theorem intStr_token (k : Nat) : pyLower (pyStrip (intStr (k : Int))) = intStr (k : Int) := by
  show pyLower (pyStrip (String.ofList (natDigits k))) = String.ofList (natDigits k)
  rw [pyStrip_ofList fun c hc => (natDigits_digit k c hc).not_white]
  unfold pyLower
  rw [String.toList_ofList]
  congr 1
  conv_rhs => rw [← List.map_id (natDigits k)]
  exact List.map_congr_left fun c hc => (natDigits_digit k c hc).lower

theorem notBlank_of_ne {s : String} (h : notBlank s = true) : s ≠ "" := by
  rintro rfl
  exact absurd h (by decide)

namespace LocalBarrier

theorem normalizeState_nonneg {v : PyVal} {n : Int} (h : normalizeState v = .ok n) : 0 ≤ n := by
  cases v with
  | int k =>
    simp only [normalizeState] at h
    split at h
    · cases h
    · cases h; omega
  | str s =>
    simp only [normalizeState] at h
    split at h
    · rename_i k hk
      cases h
      revert hk
      simp only [stateAliases, dictGet]
      repeat' split
      all_goals (intro hk; first | cases hk)
      all_goals omega
    · split at h
      · cases h
      · split at h
        · cases h
        · cases h; omega
  | _ => simp [normalizeState] at h

theorem normalizeState_intStr {n : Int} (h : 0 ≤ n) : normalizeState (.str (intStr n)) = .ok n := by
  obtain ⟨k, rfl⟩ : ∃ k : Nat, n = (k : Int) := ⟨n.toNat, by omega⟩
  unfold normalizeState
  simp only [intStr_token]
  have hnone : dictGet stateAliases (intStr (k : Int)) = none := by
    have hp := parseInt_intStr (k : Int)
    generalize intStr (k : Int) = t at hp
    simp only [stateAliases, dictGet]
    repeat' split
    all_goals first | rfl | skip
    all_goals (rename_i ht; subst ht; rw [show parseInt _ = none by decide] at hp; cases hp)
  rw [hnone]
  simp only [parseInt_intStr]
  rw [if_neg (by omega)]

end LocalBarrier
end KMC
