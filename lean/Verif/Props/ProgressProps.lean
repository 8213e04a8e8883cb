import Verif.Lemmas.Progress
/-
C85: an ordinary simulation can always be constructed and never crashes: a run either completes, or stops
because no hop is left (every rate is zero), or because a user callback failed.  On a connected network of
sites that holds an ion and a vacancy the second case cannot occur.
-/
namespace KMC
open Spec

section
variable {σ φ ψ K V Row : Type} [Field K] [LinearOrder K] [FloorRing K]
variable {o : ActiveSiteOrder String ψ} {mobile : String} {h : HopStateLookup} {R : Rounding}
  {m : RateModel Unit ℝ EReal} {g : Geometry K} {lib : EventLib σ φ} {st : State EReal}
  {s0 : Sim σ φ Unit ℝ EReal}

/-- C85.  An ordinary hopping simulation can be constructed. -/
theorem C85_can_be_constructed (hs : HopSystem o mobile h R m g lib st)
    (ha : Answers o mobile m lib.events st.occ) :
    ∃ s0 : Sim σ φ Unit ℝ EReal,
      Sim.init (realKernel R) m lib.generateEventDependencies (some h) (some st) = .ok s0 :=
  init_total hs ha

/-- The composition alone is kept by every hop. -/
theorem kept_perm (o : ActiveSiteOrder String ψ) (events : List Event) (occ : List Int)
    (hfit : IndicesFit occ.length events) : Kept o events occ fun l => l.Perm occ := by
  refine ⟨List.Perm.refl _, fun _ h => h, ?_⟩
  intro a b f t hl _ hx hp
  have : f < a.length ∧ t < a.length := by
    rw [hp.length_eq]
    obtain ⟨e, he, hm | hm⟩ := hl
    · have h1 := hfit e he f (by simp [hm])
      have h2 := hfit e he t (by simp [hm])
      omega
    · have h1 := hfit e he f (by simp [hm])
      have h2 := hfit e he t (by simp [hm])
      omega
  exact (exchanged_perm this.1 this.2 hx).trans hp

/-- C85.  A run of an ordinary simulation, of any length, with any random numbers and any registered
properties, ends in one of three ways: it completes; every event has rate zero in the state it has reached
(and the error is a division by zero, unless the library is empty); or a user callback failed. -/
theorem C85_never_crashes (hs : HopSystem o mobile h R m g lib st) (ha : Answers o mobile m lib.events st.occ)
    (hi : Sim.init (realKernel R) m lib.generateEventDependencies (some h) (some st) = .ok s0)
    (summary : Trajectory K → EReal → List (String × Bool) → Row) (ops : List (PlanOp EReal V))
    (rng : Nat → ℝ × ℝ) (hr : ∀ c, 0 ≤ (rng c).1 ∧ (rng c).1 < 1) (len equil prod : Nat) :
    let r := s0.run (realKernel R) m g (some h) summary (planAfter ops) rng len equil prod
    r.outcome = .ok () ∨
    (Stuck m r.sim ∧ ∃ x, r.outcome = .error x ∧ (lib.events ≠ [] → x = .zeroDivisionError)) ∨
    r.outcome = .error .callbackError := by
  intro r
  have hne : s0.lib.events ≠ [] ↔ lib.events ≠ [] := by
    obtain ⟨-, -, a1, -⟩ := init_ok hi
    have := congrArg List.length a1
    simp only [List.length_map] at this
    rw [← List.length_pos_iff, ← List.length_pos_iff, this]
    rfl
  rcases run_outcome (summary := summary) hs ha hi (P := SamplerWF) (bad := fun x => x = .callbackError)
    (fun s f st' step t hw => by
      rcases sampleProperties_outcome (summary := f) (st := st') (step := step) (t := t) hw with
        ⟨s', h1, h2⟩ | ⟨s', h1⟩
      · exact .inl ⟨s', h1, h2⟩
      · exact .inr ⟨_, s', h1, rfl⟩)
    (kept_perm o lib.events st.occ hs.fit) hr len equil prod (applyPlan_ok (planWF_after ops) len)
    (applyPlan_wf (planWF_after ops) _ _) with h1 | ⟨x, h1, -, -, h2, h3⟩ | ⟨x, h1, h2⟩
  · exact .inl h1
  · exact .inr (.inl ⟨h2, x, h1, fun hh => h3 (hne.2 hh)⟩)
  · subst h2; exact .inr (.inr h1)

/-- C85.  When the registered callbacks cannot stop a run, a run completes unless the system gets stuck. -/
theorem C85_completes_or_stuck (hs : HopSystem o mobile h R m g lib st)
    (ha : Answers o mobile m lib.events st.occ)
    (hi : Sim.init (realKernel R) m lib.generateEventDependencies (some h) (some st) = .ok s0)
    (summary : Trajectory K → EReal → List (String × Bool) → Row) (ops : List (PlanOp EReal V))
    (ht : ∀ n spec, dictGet (planAfter ops).attached n = some spec → Tolerant spec)
    (rng : Nat → ℝ × ℝ) (hr : ∀ c, 0 ≤ (rng c).1 ∧ (rng c).1 < 1) (len equil prod : Nat) :
    let r := s0.run (realKernel R) m g (some h) summary (planAfter ops) rng len equil prod
    r.outcome = .ok () ∨ Stuck m r.sim := by
  intro r
  rcases run_outcome (summary := summary) hs ha hi (P := fun s => SamplerWF s ∧ AllTolerant s)
    (bad := fun _ => False)
    (fun s f st' step t hw => by
      obtain ⟨s', h1, h2⟩ := sampleProperties_tolerant (summary := f) (st := st') (step := step) (t := t)
        hw.1 hw.2
      exact .inl ⟨s', h1, h2⟩)
    (kept_perm o lib.events st.occ hs.fit) hr len equil prod (applyPlan_ok (planWF_after ops) len)
    ⟨applyPlan_wf (planWF_after ops) _ _, freshSampler_tolerant ht _ _⟩ with
    h1 | ⟨x, h1, -, -, h2, h3⟩ | ⟨x, h1, h2⟩
  · exact .inl h1
  · exact .inr h2
  · exact h2.elim

/-- C85.  On a connected network of sites that holds at least one mobile ion and one vacancy, with a model
that gives possible hops a positive rate and callbacks that cannot stop a run, every run completes, however
long it is and whatever the random numbers are. -/
theorem C85_connected_completes (hs : HopSystem o mobile h R m g lib st)
    (ha : Answers o mobile m lib.events st.occ) (hw : Willing m) {S : Nat → Prop}
    (hn : Network o mobile lib.events st.occ S)
    (hi : Sim.init (realKernel R) m lib.generateEventDependencies (some h) (some st) = .ok s0)
    (summary : Trajectory K → EReal → List (String × Bool) → Row) (ops : List (PlanOp EReal V))
    (ht : ∀ n spec, dictGet (planAfter ops).attached n = some spec → Tolerant spec)
    (rng : Nat → ℝ × ℝ) (hr : ∀ c, 0 ≤ (rng c).1 ∧ (rng c).1 < 1) (len equil prod : Nat) :
    (s0.run (realKernel R) m g (some h) summary (planAfter ops) rng len equil prod).outcome = .ok () := by
  have hk := kept_perm o lib.events st.occ hs.fit
  have hQ : Kept o lib.events st.occ fun l => l.Perm st.occ ∧ Network o mobile lib.events l S :=
    ⟨⟨hk.start, hn⟩, fun _ h => h.1, fun a b f t hl hall hx hq =>
      ⟨hk.step a b f t hl hall hx hq.1, network_step hq.2 hl hall hx⟩⟩
  rcases run_outcome (summary := summary) hs ha hi (P := fun s => SamplerWF s ∧ AllTolerant s)
    (bad := fun _ => False)
    (fun s f st' step t hw => by
      obtain ⟨s', h1, h2⟩ := sampleProperties_tolerant (summary := f) (st := st') (step := step) (t := t)
        hw.1 hw.2
      exact .inl ⟨s', h1, h2⟩)
    hQ hr len equil prod (applyPlan_ok (planWF_after ops) len)
    ⟨applyPlan_wf (planWF_after ops) _ _, freshSampler_tolerant ht _ _⟩ with
    h1 | ⟨x, h1, h2, h3, h4, -⟩ | ⟨x, h1, h2⟩
  · exact h1
  · exact absurd h4 (network_not_stuck hs ha hi hw h2 h3.1 h3.2)
  · exact h2.elim

end

/-! ### Non-vacuity -/

/-- Hops along a chain of five sites. -/
def chainLib : EventLib Unit Unit :=
  ({} : EventLib Unit Unit).addAll
    [⟨[0, 1], [4, 3], none⟩, ⟨[2, 1], [4, 3], none⟩, ⟨[2, 3], [0, 1], none⟩, ⟨[3, 4], [0, 1], none⟩]

theorem chain_events {e : Event} (he : e ∈ chainLib.events) : e = ⟨[0, 1], [4, 3], none⟩ ∨
    e = ⟨[2, 1], [4, 3], none⟩ ∨ e = ⟨[2, 3], [0, 1], none⟩ ∨ e = ⟨[3, 4], [0, 1], none⟩ := by
  simpa [chainLib, EventLib.addAll_events] using he

theorem chain_hopSystem : HopSystem exampleOrder "Na" ⟨[0, 0, 0, 0, 0], [1, 1, 1, 1, 1]⟩
    Rounding.exact hopModel hopGeometry chainLib ⟨[0, 1, 0, 1, 1], 0, 0⟩ := by
  have h0 := hopSystem_example
  refine ⟨h0.lookup, h0.labelled, ?_, ?_, rfl, h0.loc, h0.rates, h0.forbidden⟩
  · intro e he i hi
    rcases chain_events he with rfl | rfl | rfl | rfl <;> simp at hi
    all_goals rcases hi with rfl | rfl | rfl | rfl <;> simp
  · intro e he
    rcases chain_events he with rfl | rfl | rfl | rfl
    · exact ⟨0, 1, rfl, by decide⟩
    · exact ⟨2, 1, rfl, by decide⟩
    · exact ⟨2, 3, rfl, by decide⟩
    · exact ⟨3, 4, rfl, by decide⟩

theorem chain_answers : Answers exampleOrder "Na" hopModel chainLib.events [0, 1, 0, 1, 1] := by
  refine ⟨fun _ _ => rfl, fun _ _ => rfl, ?_⟩
  rintro e st ⟨x, hx, hm, -⟩ hc -
  have hl : st.occ.length = 5 := hc.1
  have : ∃ d, eventDirection st.occ e = .ok d := by
    have key : ∀ f t : Nat, f < 5 → t < 5 → e.mobile = [(f : Int), (t : Int)] →
        ∃ d, eventDirection st.occ e = .ok d := fun f t hf ht he =>
      ⟨_, eventDirection_of he (pyIdx_natCast (by omega)) (pyIdx_natCast (by omega))
        (List.getElem?_eq_getElem (by omega)) (List.getElem?_eq_getElem (by omega))⟩
    rcases chain_events hx with rfl | rfl | rfl | rfl
    · exact key 0 1 (by omega) (by omega) hm
    · exact key 2 1 (by omega) (by omega) hm
    · exact key 2 3 (by omega) (by omega) hm
    · exact key 3 4 (by omega) (by omega) hm
  obtain ⟨d, hd⟩ := this
  simp only [hopModel, hd]
  exact ⟨_, rfl⟩

theorem hopModel_willing : Willing hopModel := by
  intro e st d p hd h0 hp
  simp only [hopModel, hd, if_neg h0] at hp
  cases hp
  norm_num

theorem chain_network : Network exampleOrder "Na" chainLib.events [0, 1, 0, 1, 1] (fun i => i < 5) := by
  have hmem : ∀ e, (e = ⟨[0, 1], [4, 3], none⟩ ∨ e = ⟨[2, 1], [4, 3], none⟩ ∨ e = ⟨[2, 3], [0, 1], none⟩ ∨
      e = ⟨[3, 4], [0, 1], none⟩) → e ∈ chainLib.events := by
    intro e he
    simpa [chainLib, EventLib.addAll_events] using he
  have hsym : ∀ i j, Linked chainLib.events i j → Linked chainLib.events j i := by
    rintro i j ⟨e, he, h1 | h1⟩
    · exact ⟨e, he, .inr h1⟩
    · exact ⟨e, he, .inl h1⟩
  have l01 : Linked chainLib.events 0 1 := ⟨⟨[0, 1], [4, 3], none⟩, hmem _ (by simp), .inl rfl⟩
  have l12 : Linked chainLib.events 1 2 := ⟨⟨[2, 1], [4, 3], none⟩, hmem _ (by simp), .inr rfl⟩
  have l23 : Linked chainLib.events 2 3 := ⟨⟨[2, 3], [0, 1], none⟩, hmem _ (by simp), .inl rfl⟩
  have l34 : Linked chainLib.events 3 4 := ⟨⟨[3, 4], [0, 1], none⟩, hmem _ (by simp), .inl rfl⟩
  have up : ∀ j, j < 5 → Relation.ReflTransGen (Linked chainLib.events) 0 j := by
    intro j hj
    have r1 := Relation.ReflTransGen.single l01
    have r2 := r1.tail l12
    have r3 := r2.tail l23
    have r4 := r3.tail l34
    interval_cases j
    · exact .refl
    · exact r1
    · exact r2
    · exact r3
    · exact r4
  refine ⟨?_, ?_, ?_, ⟨0, by decide, by decide⟩, ⟨1, by decide, "X", .inl rfl, by decide⟩⟩
  · intro e he f t hm
    rcases chain_events he with rfl | rfl | rfl | rfl <;> simp at hm <;> omega
  · intro i j hi hj
    refine Relation.ReflTransGen.trans ?_ (up j hj)
    have := (up i hi)
    clear hi
    induction this with
    | refl => exact .refl
    | tail _ hl ih => exact .head (hsym _ _ hl) ih
  · intro i hi
    interval_cases i
    · exact .inl (by decide)
    · exact .inr ⟨"X", .inl rfl, by decide⟩
    · exact .inl (by decide)
    · exact .inr ⟨"X", .inl rfl, by decide⟩
    · exact .inr ⟨"X", .inl rfl, by decide⟩

/-- Non-vacuity of C85: two ions and three vacancies on a chain of five sites; the simulation can be
constructed and a run of a million passes with no registered property completes. -/
example : ∃ s0 : Sim Unit Unit Unit ℝ EReal,
    Sim.init (realKernel Rounding.exact) hopModel chainLib.generateEventDependencies
      (some ⟨[0, 0, 0, 0, 0], [1, 1, 1, 1, 1]⟩) (some ⟨[0, 1, 0, 1, 1], 0, 0⟩) = .ok s0 ∧
    (s0.run (V := Unit) (realKernel Rounding.exact) hopModel hopGeometry
      (some ⟨[0, 0, 0, 0, 0], [1, 1, 1, 1, 1]⟩) (fun _ _ _ => ()) (planAfter [])
      (fun n => (1 / (n + 2), 1 / 2)) 2 1000 1000000).outcome = .ok () := by
  obtain ⟨s0, hi⟩ := C85_can_be_constructed chain_hopSystem chain_answers
  refine ⟨s0, hi, C85_connected_completes chain_hopSystem chain_answers hopModel_willing chain_network hi
    _ [] ?_ _ ?_ 2 1000 1000000⟩
  · intro n spec hs
    cases hs
  · intro c
    have : (0 : ℝ) ≤ c := Nat.cast_nonneg c
    constructor
    · positivity
    · show (1 : ℝ) / (c + 2) < 1
      rw [div_lt_one (by linarith)]
      linarith

end KMC
