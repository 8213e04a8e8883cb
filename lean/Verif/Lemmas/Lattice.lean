import Verif.Spec.Lattice
import Verif.Lemmas.Py
/-
Lemmas about `Model/Lattice`.
-/
namespace KMC
open Spec

namespace Specie

theorem tokens_ne_nil (s : Specie) : s.tokens ≠ [] := by
  unfold tokens
  split <;> simp

theorem equivalent_refl (s : Specie) : s.equivalent s = true := by
  unfold equivalent
  obtain ⟨t, ht⟩ := List.exists_mem_of_ne_nil _ s.tokens_ne_nil
  rw [List.any_eq_true]
  exact ⟨t, ht, by simpa using ht⟩

theorem equivalent_symm (a b : Specie) : a.equivalent b = b.equivalent a := by
  unfold equivalent
  rw [Bool.eq_iff_iff, List.any_eq_true, List.any_eq_true]
  constructor
  · rintro ⟨t, h1, h2⟩; exact ⟨t, by simpa using h2, by simpa using h1⟩
  · rintro ⟨t, h1, h2⟩; exact ⟨t, by simpa using h2, by simpa using h1⟩

theorem equivalent_of_vacancy {a b : Specie} (ha : a.isVacancy = true) (hb : b.isVacancy = true) :
    a.equivalent b = true := by
  simp [equivalent, tokens, ha, hb]

end Specie

namespace Lattice
variable {P K : Type}

theorem firstEquivalent_iff (sp : Specie) (al : List Specie) (i : Nat) :
    firstEquivalent sp al = some i ↔ IsState al sp i := by
  induction al generalizing i with
  | nil => simp [firstEquivalent, IsState]
  | cons s ss ih =>
    unfold firstEquivalent
    by_cases h : sp.equivalent s = true
    · rw [if_pos h]
      constructor
      · intro hi
        cases hi
        exact ⟨⟨s, rfl, h⟩, fun j hj => absurd hj (by omega)⟩
      · rintro ⟨-, h2⟩
        cases i with
        | zero => rfl
        | succ i => rw [h2 0 (by omega) s rfl] at h; cases h
    · rw [if_neg h]
      constructor
      · intro hi
        cases hf : firstEquivalent sp ss with
        | none => rw [hf] at hi; cases hi
        | some k =>
          rw [hf] at hi
          cases hi
          obtain ⟨⟨a, h1, h2⟩, h3⟩ := (ih k).1 hf
          refine ⟨⟨a, by simpa using h1, h2⟩, ?_⟩
          intro j hj b hb
          cases j with
          | zero => simp at hb; subst hb; simpa using h
          | succ j => exact h3 j (Nat.lt_of_succ_lt_succ hj) b (by simpa using hb)
      · rintro ⟨⟨a, h1, h2⟩, h3⟩
        cases i with
        | zero => simp at h1; subst h1; exact absurd h2 h
        | succ i =>
          rw [(ih i).2 ⟨⟨a, by simpa using h1, h2⟩, fun j hj b hb =>
            h3 (j + 1) (by omega) b (by simpa using hb)⟩]
          rfl

theorem firstEquivalent_none (sp : Specie) (al : List Specie) :
    firstEquivalent sp al = none ↔ ∀ a ∈ al, sp.equivalent a = false := by
  induction al with
  | nil => simp [firstEquivalent]
  | cons s ss ih =>
    unfold firstEquivalent
    by_cases h : sp.equivalent s = true
    · rw [if_pos h]; simp [h]
    · rw [if_neg h]
      simp only [Option.map_eq_none_iff, ih, List.mem_cons, forall_eq_or_imp]
      simp [h]

theorem occupationValue_iff (b : Basis) (al : Option (List Specie)) (sp : Specie) (v : Int) :
    occupationValue b al sp = .ok v ↔ ∃ (l : List Specie) (i : Nat), al = some l ∧ IsState l sp i ∧ v = b.stateValue (i : Int) := by
  unfold occupationValue
  split
  · simp
  · constructor
    · intro h; cases h
    · rintro ⟨l, i, h, ⟨⟨a, h1, -⟩, -⟩, -⟩; cases h; simp at h1
  · rename_i s ss
    constructor
    · intro h
      split at h
      · rename_i i hi
        cases h
        exact ⟨_, i, rfl, (firstEquivalent_iff _ _ _).1 hi, rfl⟩
      · cases h
    · rintro ⟨l, i, h, h1, rfl⟩
      cases h
      rw [(firstEquivalent_iff _ _ _).2 h1]

theorem findValue_of {b : Basis} {l : List Specie} {c i : Nat} (hb : TellsApart b (c + l.length))
    {a : Specie} (h : l[i]? = some a) : findValue b (b.stateValue ((c + i : Nat) : Int)) c l = some a := by
  induction l generalizing c i with
  | nil => simp at h
  | cons s ss ih =>
    unfold findValue
    have hil : i < (s :: ss).length := by
      by_contra hc; rw [List.getElem?_eq_none (by omega)] at h; cases h
    cases i with
    | zero => simp at h; subst h; simp
    | succ i =>
      rw [if_neg]
      · have := ih (c := c + 1) (i := i) (by
          simp only [List.length_cons] at hb
          rw [show c + 1 + ss.length = c + (ss.length + 1) by omega]; exact hb) (by simpa using h)
        rw [show c + 1 + i = c + (i + 1) by omega] at this
        exact this
      · intro heq
        have := hb (c + (i + 1)) c (by omega) (by simp only [List.length_cons]; omega) heq
        omega

theorem findValue_some {b : Basis} {l : List Specie} {c : Nat} {v : Int} {a : Specie}
    (h : findValue b v c l = some a) : ∃ i, l[i]? = some a ∧ v = b.stateValue ((c + i : Nat) : Int) := by
  induction l generalizing c with
  | nil => cases h
  | cons s ss ih =>
    unfold findValue at h
    split at h
    · rename_i hv; cases h; exact ⟨0, rfl, hv⟩
    · obtain ⟨i, h1, h2⟩ := ih h
      exact ⟨i + 1, by simpa using h1, by rw [h2]; congr 2; omega⟩

theorem speciesFor_of {b : Basis} {l : List Specie} {i : Nat} (hb : TellsApart b l.length) {a : Specie}
    (h : l[i]? = some a) : speciesFor b (some l) (b.stateValue (i : Int)) = .ok a := by
  cases l with
  | nil => simp at h
  | cons s ss =>
    unfold speciesFor
    have := findValue_of (c := 0) (i := i) (b := b) (by simpa using hb) h
    rw [Nat.zero_add] at this
    simp only [this]

theorem speciesFor_ok {b : Basis} {al : Option (List Specie)} {v : Int} {a : Specie}
    (h : speciesFor b al v = .ok a) :
    ∃ (l : List Specie) (i : Nat), al = some l ∧ l[i]? = some a ∧ v = b.stateValue (i : Int) := by
  unfold speciesFor at h
  split at h
  · cases h
  · cases h
  · split at h
    · rename_i s' hs
      cases h
      obtain ⟨i, h1, h2⟩ := findValue_some hs
      exact ⟨_, i, rfl, h1, by rw [Nat.zero_add] at h2; exact h2⟩
    · cases h

/-- Among distinguishable species, the state of a listed species is its own position. -/
theorem isState_self {al : List Specie} (hd : Distinguishable al) {i : Nat} {a : Specie}
    (h : al[i]? = some a) : IsState al a i := by
  refine ⟨⟨a, h, a.equivalent_refl⟩, ?_⟩
  intro j hj b hb
  have hil : i < al.length := by
    by_contra hc; rw [List.getElem?_eq_none (by omega)] at h; cases h
  have := List.pairwise_iff_getElem.1 hd j i (by omega) hil hj
  rw [List.getElem?_eq_getElem (by omega)] at hb
  rw [List.getElem?_eq_getElem hil] at h
  cases hb; cases h
  rw [Specie.equivalent_symm]
  exact this

theorem isState_unique {al : List Specie} {sp : Specie} {i j : Nat} (hi : IsState al sp i)
    (hj : IsState al sp j) : i = j := by
  have := (firstEquivalent_iff _ _ _).2 hi
  rw [(firstEquivalent_iff _ _ _).2 hj] at this
  cases this
  rfl

theorem firstVacancy_some {al : List Specie} {i : Nat} (h : firstVacancy al = some i) :
    (∃ a, al[i]? = some a ∧ a.isVacancy = true) ∧
    ∀ j < i, ∀ a, al[j]? = some a → a.isVacancy = false := by
  induction al generalizing i with
  | nil => cases h
  | cons s ss ih =>
    unfold firstVacancy at h
    split at h
    · rename_i hs; cases h; exact ⟨⟨s, rfl, hs⟩, fun j hj => absurd hj (by omega)⟩
    · rename_i hs
      cases hf : firstVacancy ss with
      | none => rw [hf] at h; cases h
      | some k =>
        rw [hf] at h; cases h
        obtain ⟨⟨a, h1, h2⟩, h3⟩ := ih hf
        refine ⟨⟨a, by simpa using h1, h2⟩, ?_⟩
        intro j hj b hb
        cases j with
        | zero => simp at hb; subst hb; simpa using hs
        | succ j => exact h3 j (Nat.lt_of_succ_lt_succ hj) b (by simpa using hb)

theorem firstVacancy_none {al : List Specie} : firstVacancy al = none ↔ ∀ a ∈ al, a.isVacancy = false := by
  induction al with
  | nil => simp [firstVacancy]
  | cons s ss ih =>
    unfold firstVacancy
    by_cases h : s.isVacancy = true
    · rw [if_pos h]; simp [h]
    · rw [if_neg h]; simp [ih, h]

/-! ### Largest number of states -/

theorem maxStates_some {al : List (Option (List Specie))} {m : Nat} (h : maxStates al = some m) :
    ∀ l, some l ∈ al → l.length ≤ m := by
  induction al generalizing m with
  | nil => intro l hl; cases hl
  | cons a rest ih =>
    intro l hl
    unfold maxStates at h
    split at h
    · rename_i x xs m' hm
      cases h
      rcases List.mem_cons.1 hl with hl | hl
      · cases hl; simp
      · have := ih hm l hl; omega
    · rename_i x xs hm
      cases h
      rcases List.mem_cons.1 hl with hl | hl
      · cases hl; simp
      · -- the rest has no non-empty list
        have : ∀ r : List (Option (List Specie)), maxStates r = none → ∀ l, some l ∈ r → l = [] := by
          intro r
          induction r with
          | nil => intro _ l hl; cases hl
          | cons a r ihr =>
            intro hr l hl
            unfold maxStates at hr
            split at hr
            · cases hr
            · cases hr
            · rename_i h1 h2
              rcases List.mem_cons.1 hl with hl | hl
              · subst hl
                cases l with
                | nil => rfl
                | cons y ys =>
                  cases hm' : maxStates r with
                  | none => exact absurd hm' (h2 y ys rfl)
                  | some q => exact absurd hm' (h1 y ys q rfl)
              · exact ihr hr l hl
        rw [this rest hm l hl]
        simp
    · rename_i h1 h2
      rcases List.mem_cons.1 hl with hl | hl
      · subst hl
        cases l with
        | nil => simp
        | cons y ys =>
          cases hm' : maxStates rest with
          | none => exact absurd hm' (h2 y ys rfl)
          | some q => exact absurd hm' (h1 y ys q rfl)
      · exact ih h l hl

theorem mk'_ok {template : List (Specie × P)} {mapping : List (Specie × List Specie)}
    {bt : String} {l : Lattice P} (h : mk' template mapping bt = .ok l) :
    l.template = template ∧ l.siteMapping = mapping ∧
    l.allowed = template.map (fun s => allowedFor mapping s.1) ∧ l.basis.name = bt ∧
    ∀ m, l.basis = .chebyshev m → ∀ a, some a ∈ l.allowed → (a.length : Int) ≤ m := by
  unfold mk' at h
  simp only at h
  split at h
  · cases h
  · rename_i m hm
    split at h
    · cases h
    · rename_i b hb
      cases h
      refine ⟨rfl, rfl, rfl, ?_, ?_⟩
      · simp only
        split at hb
        · rename_i hbt
          unfold Basis.mkChebyshev at hb
          split at hb
          · cases hb
          · cases hb; simp [Basis.name, hbt]
        · rename_i hbt
          unfold Basis.getBasis at hb
          split at hb
          · rename_i h1; cases hb; simp [Basis.name, h1]
          · cases hb
      · intro M hM a ha
        simp only at hM ha
        split at hb
        · unfold Basis.mkChebyshev at hb
          split at hb
          · cases hb
          · cases hb
            cases hM
            have := maxStates_some hm a ha
            omega
        · rename_i hbt
          unfold Basis.getBasis at hb
          split at hb
          · cases hb; cases hM
          · cases hb

end Lattice
end KMC
