import Verif.Spec.FitterRegistry
import Verif.Lemmas.Py
/-
C108: which fitter a model class gets.
-/
namespace KMC
open Spec FitterRegistry
variable {κ F : Type} [DecidableEq κ] [DecidableEq F]

theorem register_get (reg : List (κ × F)) (c c' : κ) (f : F) :
    dictGet (register reg c f).2 c' = if c' = c then some ((dictGet reg c).getD f) else dictGet reg c' := by
  unfold register
  cases h : dictGet reg c with
  | none =>
    simp only [Option.getD_none]
    rw [dictGet_dictSet]
  | some g =>
    simp only [Option.getD_some]
    by_cases hg : g = f
    · subst hg
      rw [if_pos rfl]
      simp only
      rw [dictGet_dictSet]
    · rw [if_neg hg]
      by_cases hc : c' = c
      · subst hc; simp [h]
      · simp [hc]

theorem registerAll_get (asked : List (κ × F)) : ∀ (reg : List (κ × F)) (c : κ),
    dictGet (registerAll reg asked).2 c = (dictGet reg c).or (firstAsked asked c) := by
  induction asked with
  | nil => intro reg c; simp [registerAll, firstAsked]
  | cons p rest ih =>
    obtain ⟨c', f⟩ := p
    intro reg c
    simp only [registerAll]
    rw [ih, register_get]
    by_cases hc : c = c'
    · subst hc
      cases h : dictGet reg c <;> simp [firstAsked]
    · rw [if_neg hc]
      have : firstAsked ((c', f) :: rest) c = firstAsked rest c := by
        unfold firstAsked
        rw [List.find?_cons_of_neg (by simpa using Ne.symm hc)]
      rw [this]

/-- C108.  After any sequence of registrations, starting without any, a class has the fitter that was
first asked for it; a registration is refused exactly if it asks for another one, and is then without
effect. -/
theorem C108_registrations (asked : List (κ × F)) (c : κ) :
    dictGet (registerAll [] asked).2 c = firstAsked asked c ∧
    ∀ f, (register (registerAll [] asked).2 c f).1 =
        (if firstAsked asked c = none ∨ firstAsked asked c = some f then .ok () else .error .valueError) ∧
      ((register (registerAll [] asked).2 c f).1 ≠ .ok () →
        (register (registerAll [] asked).2 c f).2 = (registerAll [] asked).2) := by
  have h : dictGet (registerAll [] asked).2 c = firstAsked asked c := by
    rw [registerAll_get]; simp [dictGet]
  refine ⟨h, ?_⟩
  intro f
  unfold register
  rw [h]
  cases firstAsked asked c with
  | none => simp
  | some g =>
    by_cases hg : g = f
    · simp [hg]
    · simp [hg]

omit [DecidableEq F] in
theorem find_mem {asked : List (κ × F)} {c : κ} {f : F} (h : firstAsked asked c = some f) :
    (c, f) ∈ asked := by
  unfold firstAsked at h
  obtain ⟨⟨c', f'⟩, hp, hf⟩ := Option.map_eq_some_iff.1 h
  have h1 := List.find?_some hp
  have h2 := List.mem_of_find?_eq_some hp
  simp only [decide_eq_true_eq] at h1
  simp only at hf
  subst h1 hf
  exact h2

/-- When no two registrations disagree all are accepted, and their order does not matter. -/
theorem C108_order_irrelevant (asked asked' : List (κ × F)) (hp : ∀ p, p ∈ asked ↔ p ∈ asked')
    (hc : ∀ c f f', (c, f) ∈ asked → (c, f') ∈ asked → f = f') (c : κ) :
    dictGet (registerAll [] asked).2 c = dictGet (registerAll [] asked').2 c ∧
    ∀ f, (c, f) ∈ asked → dictGet (registerAll [] asked).2 c = some f := by
  have hsome : ∀ {asked : List (κ × F)} {f}, (c, f) ∈ asked → ∃ g, firstAsked asked c = some g := by
    intro asked f hm
    unfold firstAsked
    cases hf : asked.find? fun p => p.1 = c with
    | none =>
      rw [List.find?_eq_none] at hf
      exact absurd (by simp) (hf _ hm)
    | some p => exact ⟨p.2, rfl⟩
  have hin : ∀ f, (c, f) ∈ asked → firstAsked asked c = some f := by
    intro f hm
    obtain ⟨g, hg⟩ := hsome hm
    rw [hg, hc c g f (find_mem hg) hm]
  have h1 := (C108_registrations asked c).1
  have h2 := (C108_registrations asked' c).1
  refine ⟨?_, fun f hf => by rw [h1, hin f hf]⟩
  rw [h1, h2]
  cases ha : firstAsked asked' c with
  | none =>
    cases hb : firstAsked asked c with
    | none => rfl
    | some f =>
      obtain ⟨g, hg⟩ := hsome ((hp _).1 (find_mem hb))
      rw [ha] at hg; cases hg
  | some f => exact hin f ((hp _).2 (find_mem ha))

theorem firstRegistered_iff (reg : List (κ × F)) : ∀ (order : List κ) (f : F),
    firstRegistered reg order = some f ↔ MostSpecific order (dictGet reg) f
  | [], f => by
    simp only [firstRegistered, reduceCtorEq, false_iff]
    rintro ⟨b, c, a, h, -⟩
    simp at h
  | c :: cs, f => by
    unfold firstRegistered
    cases h : dictGet reg c with
    | some g =>
      simp only [Option.some.injEq]
      constructor
      · rintro rfl
        exact ⟨[], c, cs, rfl, h, by simp⟩
      · rintro ⟨b, x, a, he, hx, hb⟩
        cases b with
        | nil => simp at he; rw [← he.1, h] at hx; exact Option.some.inj hx
        | cons y ys =>
          simp at he
          have := hb y (by simp)
          rw [← he.1, h] at this
          cases this
    | none =>
      simp only
      rw [firstRegistered_iff reg cs f]
      constructor
      · rintro ⟨b, x, a, rfl, hx, hb⟩
        refine ⟨c :: b, x, a, rfl, hx, ?_⟩
        intro y hy
        rcases List.mem_cons.1 hy with rfl | hy
        · exact h
        · exact hb y hy
      · rintro ⟨b, x, a, he, hx, hb⟩
        cases b with
        | nil => simp at he; rw [← he.1, h] at hx; cases hx
        | cons y ys =>
          simp at he
          exact ⟨ys, x, a, he.2, hx, fun z hz => hb z (by simp [hz])⟩

theorem firstRegistered_none (reg : List (κ × F)) (order : List κ) :
    firstRegistered reg order = none ↔ ∀ c ∈ order, dictGet reg c = none := by
  induction order with
  | nil => simp [firstRegistered]
  | cons c cs ih =>
    unfold firstRegistered
    cases h : dictGet reg c with
    | some g => simp [h]
    | none => simp [h, ih]

/-- A model class gets the fitter registered for its most specific registered ancestor (itself
included), whatever it declares itself; only without any does its own or inherited declaration
count, and without that `NotImplementedError` is raised. -/
theorem C108_choice (mro : κ → List κ) (own : κ → Option (Option F)) (asked : List (κ × F)) (c : κ) :
    (∀ f, MostSpecific (mro c) (firstAsked asked) f →
      fitterClass mro own (registerAll [] asked).2 c = .ok f) ∧
    ((∀ a ∈ mro c, firstAsked asked a = none) →
      (∀ f, MostSpecific (mro c) own (some f) → fitterClass mro own (registerAll [] asked).2 c = .ok f) ∧
      ((∀ a ∈ mro c, own a = none ∨ own a = some none) →
        fitterClass mro own (registerAll [] asked).2 c = .error .notImplementedError)) := by
  have hreg : dictGet (registerAll [] asked).2 = firstAsked asked := by
    funext a; exact (C108_registrations asked a).1
  constructor
  · intro f hf
    unfold fitterClass fitterFor
    rw [(firstRegistered_iff _ _ f).2 (by rw [hreg]; exact hf)]
  · intro hno
    have hn : firstRegistered (registerAll [] asked).2 (mro c) = none :=
      (firstRegistered_none _ _).2 (by rw [hreg]; exact hno)
    unfold fitterClass fitterFor
    rw [hn]
    simp only
    constructor
    · rintro f ⟨b, x, a, he, hx, hb⟩
      rw [he]
      have : ∀ b : List κ, (∀ y ∈ b, own y = none) → classAttribute own (b ++ x :: a) = some f := by
        intro b
        induction b with
        | nil => intro _; simp [classAttribute, hx]
        | cons y ys ih =>
          intro hb
          simp only [List.cons_append, classAttribute, hb y (by simp)]
          exact ih fun z hz => hb z (by simp [hz])
      rw [this b hb]
    · intro hall
      have : ∀ l : List κ, (∀ y ∈ l, own y = none ∨ own y = some none) → classAttribute own l = none := by
        intro l
        induction l with
        | nil => intro _; rfl
        | cons y ys ih =>
          intro hl
          rcases hl y (by simp) with h | h
          · simp only [classAttribute, h]; exact ih fun z hz => hl z (by simp [hz])
          · simp only [classAttribute, h]
      rw [this _ hall]

/-- A subclass that declares its own fitter does not get it when a base class has a registered one:
here class 1 derives from 0, which has fitter 10 registered, and declares fitter 20. -/
theorem C108_declared_fitter_ignored :
    ∃ (mro : Nat → List Nat) (own : Nat → Option (Option Nat)) (asked : List (Nat × Nat)),
      own 1 = some (some 20) ∧ mro 1 = [1, 0] ∧
      fitterClass mro own (registerAll [] asked).2 1 = .ok 10 ∧
      (∀ a ∈ mro 1, a ≠ 1 → own a = none ∨ own a = some none) :=
  ⟨fun c => if c = 1 then [1, 0] else [c], fun c => if c = 1 then some (some 20) else some none, [(0, 10)],
    rfl, rfl, rfl, by decide⟩

/-- Registrations for two classes, one repeated and one refused; the subclass uses its base's. -/
example : (registerAll [] [(0, 10), (2, 30), (0, 10), (0, 11)]).1 =
      [.ok (), .ok (), .ok (), .error .valueError] ∧
    MostSpecific [1, 0] (firstAsked [(0, 10), (2, 30), (0, 10), (0, 11)]) 10 ∧
    fitterClass (fun c => if c = 1 then [1, 0] else [c]) (fun _ => none)
      (registerAll [] [(0, 10), (2, 30), (0, 10), (0, 11)]).2 1 = .ok 10 ∧
    fitterClass (fun c => if c = 1 then [1, 0] else [c]) (fun _ => none)
      (registerAll [] [(0, 10), (2, 30), (0, 10), (0, 11)]).2 3 = .error .notImplementedError :=
  ⟨rfl, ⟨[1], 0, [], rfl, rfl, by decide⟩, rfl, rfl⟩

end KMC
