import Verif.Lemmas.State
/-
C07, and the single-step part of C05.
-/
namespace KMC
open Spec

section
variable {T : Type} [Add T]

/-- C07.  Applying an event whose two endpoint indices denote the sites `i` and `j`
succeeds, exchanges the entries of exactly those two sites, adds `dt` to the time and
one to the step count. -/
theorem C07_event_exchanges_endpoints (s : State T) (f t : Int) (env : List Int)
    (codes : Option HopCodes) (dt : T) (i j : Nat)
    (hf : Denotes s.occ.length f i) (ht : Denotes s.occ.length t j) :
    ∃ s', s.applyEvent ⟨[f, t], env, codes⟩ dt = (.ok (), s') ∧
      Exchanged i j s.occ s'.occ ∧ s'.time = s.time + dt ∧ s'.step = s.step + 1 := by
  rw [denotes_iff] at hf ht
  rcases applyEvent_cases s ⟨[f, t], env, codes⟩ dt with
    ⟨x, hx⟩ | ⟨f', t', i', j', hi, hj, he, h1, h2, h3⟩
  · exfalso
    rw [State.applyEvent] at hx
    simp [unpack2, pyGet_of_idx hf, pyGet_of_idx ht, pySet, hf, ht] at hx
  · simp only [List.cons.injEq, and_true] at he
    obtain ⟨rfl, rfl⟩ := he
    rw [hf] at h1; rw [ht] at h2; cases h1; cases h2
    exact ⟨_, h3, set_set_exchanged hi hj, rfl, rfl⟩

/-- C07.  When an event cannot be applied (not two endpoints, or an endpoint outside
the occupation vector), the state is left exactly as it was: no half-made hop. -/
theorem C07_failed_event_leaves_state (s : State T) (e : Event) (dt : T) (x : PyErr) (s' : State T)
    (h : s.applyEvent e dt = (.error x, s')) : s' = s := by
  rcases applyEvent_cases s e dt with ⟨y, hy⟩ | ⟨f', t', i', j', hi, hj, he, h1, h2, h3⟩
  · rw [hy] at h; cases h; rfl
  · rw [h3] at h; cases h

/-- C07.  An event is rejected exactly when it does not name two sites of the vector. -/
theorem C07_event_rejected_iff (s : State T) (e : Event) (dt : T) :
    (∃ x s', s.applyEvent e dt = (.error x, s')) ↔
      ¬ ∃ f t i j, e.mobile = [f, t] ∧ Denotes s.occ.length f i ∧ Denotes s.occ.length t j := by
  constructor
  · rintro ⟨x, s', h⟩ ⟨f, t, i, j, he, h1, h2⟩
    obtain ⟨s'', hs, -⟩ := C07_event_exchanges_endpoints s f t e.env e.codes dt i j h1 h2
    have : e = ⟨[f, t], e.env, e.codes⟩ := by cases e; simp_all
    rw [this] at h
    rw [h] at hs; cases hs
  · intro hn
    rcases applyEvent_cases s e dt with ⟨y, hy⟩ | ⟨f', t', i', j', hi, hj, he, h1, h2, h3⟩
    · exact ⟨y, s, hy⟩
    · exact absurd ⟨f', t', i', j', he, denotes_iff.2 h1, denotes_iff.2 h2⟩ hn

/-- C07.  Applying the same event a second time restores the occupation vector. -/
theorem C07_event_twice_restores (s s1 : State T) (e : Event) (dt dt' : T)
    (h : s.applyEvent e dt = (.ok (), s1)) :
    ∃ s2, s1.applyEvent e dt' = (.ok (), s2) ∧ s2.occ = s.occ := by
  obtain ⟨f, t, i, j, hi, hj, he, h1, h2, rfl⟩ := applyEvent_ok h
  have hlen : ((s.occ.set i s.occ[j]).set j s.occ[i]).length = s.occ.length := by simp
  have := C07_event_exchanges_endpoints
    (⟨(s.occ.set i s.occ[j]).set j s.occ[i], s.time + dt, s.step + 1⟩ : State T) f t e.env e.codes
    dt' i j (denotes_iff.2 (by rw [hlen]; exact h1)) (denotes_iff.2 (by rw [hlen]; exact h2))
  obtain ⟨s2, hs2, hex, -, -⟩ := this
  have hee : e = ⟨[f, t], e.env, e.codes⟩ := by cases e; simp_all
  rw [← hee] at hs2
  exact ⟨s2, hs2, exchanged_unique hex (exchanged_symm (set_set_exchanged hi hj))⟩

/-- C05, one step.  Whatever `applyEvent` does, every occupation value occurs as often
afterwards as before. -/
theorem C05_apply_event_conserves (s : State T) (e : Event) (dt : T) :
    SameComposition (s.applyEvent e dt).2.occ s.occ :=
  sameComposition_iff_perm.2 (applyEvent_perm s e dt)

end

/-- Non-vacuity: a four-site state and a hop with a negative (wrapping) index. -/
example : (⟨[0, 1, 1, 0], 3, 7⟩ : State Nat).applyEvent ⟨[0, -2], [1], none⟩ 5 =
    (.ok (), ⟨[1, 1, 0, 0], 8, 8⟩) := by decide
example : Denotes ([0, 1, 1, 0] : List Int).length 0 0 ∧
    Denotes ([0, 1, 1, 0] : List Int).length (-2) 2 := by simp [Denotes]
/-- Non-vacuity of the failure theorem. -/
example : (⟨[0, 1, 1, 0], 3, 7⟩ : State Nat).applyEvent ⟨[0, 4], [1], none⟩ 5 =
    (.error .indexError, ⟨[0, 1, 1, 0], 3, 7⟩) := by decide

end KMC
