import Verif.Lemmas.Table
import Mathlib.Data.Rat.Floor
/-
C05, C06, C08, C09, C19 (trajectory part) and C55.
-/
set_option linter.unusedSectionVars false

namespace KMC
open Spec

section
variable {σ φ M R T U : Type}

/-- C05.  Any history of events, chosen by anyone and including failed ones, conserves the
composition of the occupation vector. -/
theorem C05_update_history_conserves [Add T] (k : Kernel R T U) (m : RateModel M R T)
    (s : Sim σ φ M R T) (history : List (Event × T)) :
    SameComposition (history.foldl (fun s p => (s.update k m p.1 p.2).2) s).st.occ s.st.occ := by
  rw [sameComposition_iff_perm]
  induction history generalizing s with
  | nil => simp
  | cons p ps ih => exact (ih _).trans (update_perm k m s p.1 p.2)

variable {K V Row : Type} [Field K] [LinearOrder K] [FloorRing K]
variable [Add T] [Sub T] [LE T] [DecidableLE T]

/-- C05.  A whole `run`, with any rate model, random stream, pass counts and properties,
finished or stopped by an exception, conserves the composition. -/
theorem C05_run_conserves [Zero T] (k : Kernel R T U) (m : RateModel M R T) (g : Geometry K)
    (lookup : Option HopStateLookup) (summary : Trajectory K → T → List (String × Bool) → Row)
    (plan : PropertyPlan T V) (rng : Nat → U × U) (len equil prod : Nat) (s : Sim σ φ M R T) :
    SameComposition (s.run k m g lookup summary plan rng len equil prod).sim.st.occ s.st.occ := by
  rw [sameComposition_iff_perm]
  unfold Sim.run
  have hp := equilSteps_perm k m rng (equil * len) 0 s
  rcases h1 : s.equilSteps k m rng (equil * len) 0 with ⟨r, s1⟩
  rw [h1] at hp
  cases r with
  | error x => exact hp
  | ok u =>
    simp only
    cases h2 : Trajectory.init g lookup s1.st.occ with
    | error x => exact hp
    | ok traj =>
      simp only
      rcases h3 : ({} : Sampler T V Row).applyPropertyPlan plan (some (max len 1 : Nat)) with ⟨r3, sm⟩
      cases r3 with
      | error x => exact hp
      | ok u3 => exact (passes_perm k m g summary rng len prod 0 (equil * len) _).trans hp

omit [Sub T] [LE T] [DecidableLE T] in
theorem steps_accounting [Zero T] (hz : ∀ t : T, t + 0 = t) {k : Kernel R T U} {m : RateModel M R T}
    {rng : Nat → U × U} {a : Bool} {c : Nat} {s s' : Sim σ φ M R T} {h : List (Event × T)}
    (hs : Steps k m rng a c s h s') :
    s'.st.step = s.st.step + h.length ∧
    s'.st.time = if a then h.foldl (fun t p => t + p.2) s.st.time else s.st.time := by
  induction hs with
  | nil => simp
  | @cons c s s1 s2 e dt h hp hu hs ih =>
    obtain ⟨st, ms, i, prob, h1, -, -, -, rfl⟩ := update_ok hu
    obtain ⟨f, t, i, j, hi, hj, he, -, -, rfl⟩ := applyEvent_ok h1
    obtain ⟨ih1, ih2⟩ := ih
    refine ⟨?_, ?_⟩
    · rw [ih1]; simp only [List.length_cons]; push_cast; ring
    · rw [ih2]
      cases a with
      | true => simp
      | false => simp [hz]

/-- C06.  A run that finishes executed exactly `equil * len` equilibration proposals
followed by exactly `prod * len` production proposals, drawn in order from the random
stream; the step counter grew by `(equil + prod) * len`; and the time grew by the waiting
times of the production proposals, added one by one, and by nothing else.
(`t + 0 = t` holds for real numbers and for floats.) -/
theorem C06_run_accounting [Zero T] (hz : ∀ t : T, t + 0 = t) (k : Kernel R T U)
    (m : RateModel M R T) (g : Geometry K) (lookup : Option HopStateLookup)
    (summary : Trajectory K → T → List (String × Bool) → Row) (plan : PropertyPlan T V)
    (rng : Nat → U × U) (len equil prod : Nat) (s : Sim σ φ M R T)
    (h : (s.run k m g lookup summary plan rng len equil prod).outcome = .ok ()) :
    ∃ (mid : Sim σ φ M R T) (eq pr : List (Event × T)),
      eq.length = equil * len ∧ pr.length = prod * len ∧
      Steps k m rng false 0 s eq mid ∧
      Steps k m rng true (equil * len) mid pr
        (s.run k m g lookup summary plan rng len equil prod).sim ∧
      (s.run k m g lookup summary plan rng len equil prod).sim.st.step =
        s.st.step + ((equil + prod) * len : Nat) ∧
      (s.run k m g lookup summary plan rng len equil prod).sim.st.time =
        pr.foldl (fun t p => t + p.2) s.st.time := by
  obtain ⟨s1, traj, sampler, rs, h1, -, -, h4, h5⟩ := run_ok h
  rw [h5]
  obtain ⟨eq, hel, hes⟩ := equilSteps_steps h1
  obtain ⟨pr, hpl, hps⟩ := passes_steps h4
  obtain ⟨a1, a2⟩ := steps_accounting hz hes
  obtain ⟨b1, b2⟩ := steps_accounting hz hps
  simp only at hps
  refine ⟨s1, eq, pr, hel, hpl, hes, hps, ?_, ?_⟩
  · rw [b1, a1, hel, hpl]; push_cast; ring
  · rw [b2]; simp only [if_true]; rw [a2]; simp

/-- The reflexive and transitive order on times used to say that time never decreases. -/
theorem update_time_le [Zero T] (hrefl : ∀ t : T, t ≤ t) (hadd : ∀ t dt : T, 0 ≤ dt → t ≤ t + dt)
    (k : Kernel R T U) (m : RateModel M R T) (s : Sim σ φ M R T) (e : Event) (dt : T)
    (hdt : 0 ≤ dt) : s.st.time ≤ (s.update k m e dt).2.st.time := by
  rw [update_st]
  rcases applyEvent_cases s.st e dt with ⟨x, hx⟩ | ⟨f, t, i, j, hi, hj, he, h1, h2, h3⟩
  · rw [hx]; exact hrefl _
  · rw [h3]; exact hadd _ _ hdt

/-- If every simulation reached keeps `Inv` and no waiting time proposed from such a
simulation is negative, then time never decreases over a run, whether the run finishes or
is stopped by an exception. -/
theorem time_never_decreases [Zero T] (hrefl : ∀ t : T, t ≤ t)
    (htrans : ∀ a b c : T, a ≤ b → b ≤ c → a ≤ c) (hadd : ∀ t dt : T, 0 ≤ dt → t ≤ t + dt)
    (k : Kernel R T U) (m : RateModel M R T) (Inv : Sim σ φ M R T → Prop)
    (hinv : ∀ s e dt s', Inv s → s.update k m e dt = (.ok (), s') → Inv s')
    (g : Geometry K) (lookup : Option HopStateLookup)
    (summary : Trajectory K → T → List (String × Bool) → Row) (plan : PropertyPlan T V)
    (rng : Nat → U × U)
    (hk : ∀ s c e dt, Inv s → s.propose k (rng c).1 (rng c).2 = .ok (e, dt) → 0 ≤ dt)
    (len equil prod : Nat) (s : Sim σ φ M R T) (hs : Inv s) :
    s.st.time ≤ (s.run k m g lookup summary plan rng len equil prod).sim.st.time := by
  have heq : ∀ n c (s : Sim σ φ M R T), Inv s →
      s.st.time ≤ (s.equilSteps k m rng n c).2.st.time ∧
      ((s.equilSteps k m rng n c).1 = .ok () → Inv (s.equilSteps k m rng n c).2) := by
    intro n
    induction n with
    | zero => intro c s hs; exact ⟨hrefl _, fun _ => hs⟩
    | succ n ih =>
      intro c s hs
      have h0 : s.st.time ≤ (s.equilStep k m (rng c).1 (rng c).2).2.st.time := by
        unfold Sim.equilStep
        split
        · exact hrefl _
        · rename_i e dt hp
          exact update_time_le hrefl hadd k m s _ 0 (hrefl 0)
      have hi : (s.equilStep k m (rng c).1 (rng c).2).1 = .ok () →
          Inv (s.equilStep k m (rng c).1 (rng c).2).2 := by
        unfold Sim.equilStep
        split
        · intro h; cases h
        · rename_i e dt hp
          intro h
          exact hinv s e 0 _ hs (Prod.ext h rfl)
      unfold Sim.equilSteps
      rcases h : s.equilStep k m (rng c).1 (rng c).2 with ⟨r, s'⟩
      rw [h] at h0 hi
      cases r with
      | error x => exact ⟨h0, fun h => by cases h⟩
      | ok u => exact ⟨htrans _ _ _ h0 (ih (c + 1) s' (hi rfl)).1, (ih (c + 1) s' (hi rfl)).2⟩
  have hpr : ∀ n c (s : RunState σ φ M R T K V Row), Inv s.sim →
      s.sim.st.time ≤ (s.prodSteps k m g summary rng n c).2.sim.st.time ∧
      ((s.prodSteps k m g summary rng n c).1 = .ok () →
        Inv (s.prodSteps k m g summary rng n c).2.sim) := by
    intro n
    induction n with
    | zero => intro c s hs; exact ⟨hrefl _, fun _ => hs⟩
    | succ n ih =>
      intro c s hs
      have h0 : s.sim.st.time ≤ (s.prodStep k m g summary (rng c).1 (rng c).2).2.sim.st.time := by
        rcases prodStep_sim k m g summary s (rng c).1 (rng c).2 with h | ⟨e, dt, hp, h⟩
        · rw [h]; exact hrefl _
        · rw [h]; exact update_time_le hrefl hadd k m s.sim e dt (hk _ _ _ _ hs hp)
      unfold RunState.prodSteps
      rcases h : s.prodStep k m g summary (rng c).1 (rng c).2 with ⟨r, s'⟩
      rw [h] at h0
      cases r with
      | error x => exact ⟨h0, fun h => by cases h⟩
      | ok u =>
        obtain ⟨e, dt, -, -, h3, -, -⟩ := prodStep_ok h
        have hi := hinv _ _ _ _ hs h3
        exact ⟨htrans _ _ _ h0 (ih (c + 1) s' hi).1, (ih (c + 1) s' hi).2⟩
  have hpa : ∀ n p c (s : RunState σ φ M R T K V Row), Inv s.sim →
      s.sim.st.time ≤ (s.passes k m g summary rng len n p c).2.sim.st.time := by
    intro n
    induction n with
    | zero => intro p c s hs; exact hrefl _
    | succ n ih =>
      intro p c s hs
      have h0 := hpr len c s hs
      unfold RunState.passes
      rcases h : s.prodSteps k m g summary rng len c with ⟨r, s'⟩
      rw [h] at h0
      cases r with
      | error x => exact h0.1
      | ok u => exact htrans _ _ _ h0.1 (ih (p + 1) (c + len) { s' with currentPass := p } (h0.2 rfl))
  unfold Sim.run
  have hp := heq (equil * len) 0 s hs
  rcases h1 : s.equilSteps k m rng (equil * len) 0 with ⟨r, s1⟩
  rw [h1] at hp
  cases r with
  | error x => exact hp.1
  | ok u =>
    simp only
    cases h2 : Trajectory.init g lookup s1.st.occ with
    | error x => exact hp.1
    | ok traj =>
      simp only
      rcases h3 : ({} : Sampler T V Row).applyPropertyPlan plan (some (max len 1 : Nat)) with ⟨r3, sm⟩
      cases r3 with
      | error x => exact hp.1
      | ok u3 =>
        exact htrans _ _ _ hp.1
          (hpa prod 0 (equil * len) { sim := s1, traj := traj, sampler := sm } (hp.2 rfl))

end

section table
variable {σ φ M R T U : Type} [Add T]

/-- C08.  For a library with generated dependencies and indices that fit the structure
(duplicated events allowed), a rate model that only reads the sites an event lists, and a
simulation constructed from them: after any history of executed events the rate table is
the one computed from scratch for the current occupations, and the cumulative table is its
running sum. -/
theorem C08_table_always_fresh (k : Kernel R T U) (m : RateModel Unit R T) (hm : LocalModel m)
    (lib : EventLib σ φ) (lookup : Option HopStateLookup) (st : State T) (s0 s : Sim σ φ Unit R T)
    (hfit : IndicesFit st.occ.length lib.events)
    (hinit : Sim.init k m lib.generateEventDependencies lookup (some st) = .ok s0)
    (history : List (Event × T)) (hrun : Executed k m s0 history s) : TableFresh k m s := by
  obtain ⟨h1, h2, h3, h4, -, -, -, hf⟩ := init_ok hinit
  simp only [Option.some.injEq] at h1
  subst h1
  have hfit' : IndicesFit s0.st.occ.length s0.lib.events :=
    init_indicesFit hinit (by simpa [EventLib.generateEventDependencies] using hfit)
  refine executed_fresh (localUpdates_of_local m hm _ _ hfit') ?_ hf hrun
  rw [h2, sites_map_eq h3 h4]
  rfl

/-- C08 for models with a cache of their own (such as a site-energy model): the same
conclusion whenever executing an event leaves unchanged the rate of every event that lists
neither of its endpoints. -/
theorem C08_table_always_fresh_cached (k : Kernel R T U) (m : RateModel M R T)
    (lib : EventLib σ φ) (lookup : Option HopStateLookup) (st : State T) (s0 s : Sim σ φ M R T)
    (hinit : Sim.init k m lib.generateEventDependencies lookup (some st) = .ok s0)
    (hm : ∀ (e : Event) (st1 st2 : State T) (dt : T) (ms1 ms2 : M) (e2 : Event),
      e2 ∈ s0.lib.events → (∃ x ∈ s0.lib.events, x.mobile = e.mobile) →
      st1.occ.length = st.occ.length →
      st1.applyEvent e dt = (.ok (), st2) → m.applyEvent ms1 e st2 = (.ok (), ms2) →
      (∀ i ∈ e.mobile, i ∉ e2.mobile ++ e2.env) →
      m.computeProbability ms2 e2 st2 = m.computeProbability ms1 e2 st1)
    (history : List (Event × T)) (hrun : Executed k m s0 history s) : TableFresh k m s := by
  obtain ⟨h1, h2, h3, h4, -, -, -, hf⟩ := init_ok hinit
  simp only [Option.some.injEq] at h1
  subst h1
  refine executed_fresh hm ?_ hf hrun
  rw [h2, sites_map_eq h3 h4]
  rfl

end table

section table_run
variable {σ φ M R T U : Type} {K V Row : Type} [Field K] [LinearOrder K] [FloorRing K]
variable [Add T] [Zero T] [Sub T] [LE T] [DecidableLE T]

/-- C08.  The table is fresh at the end of every finished run as well. -/
theorem C08_run_table_fresh (k : Kernel R T U) (m : RateModel Unit R T) (hm : LocalModel m)
    (lib : EventLib σ φ) (lookup : Option HopStateLookup) (st : State T) (s0 : Sim σ φ Unit R T)
    (hfit : IndicesFit st.occ.length lib.events)
    (hinit : Sim.init k m lib.generateEventDependencies lookup (some st) = .ok s0)
    (g : Geometry K) (summary : Trajectory K → T → List (String × Bool) → Row)
    (plan : PropertyPlan T V) (rng : Nat → U × U) (len equil prod : Nat)
    (h : (s0.run k m g lookup summary plan rng len equil prod).outcome = .ok ()) :
    TableFresh k m (s0.run k m g lookup summary plan rng len equil prod).sim := by
  obtain ⟨s1, traj, sampler, rs, h1, -, -, h4, h5⟩ := run_ok h
  rw [h5]
  obtain ⟨eq, -, hes⟩ := equilSteps_steps h1
  obtain ⟨pr, -, hps⟩ := passes_steps h4
  have happ : ∀ {a b c : Sim σ φ Unit R T} {h1 h2 : List (Event × T)}, Executed k m a h1 b →
      Executed k m b h2 c → Executed k m a (h1 ++ h2) c := by
    intro a b c h1 h2 p q
    induction p with
    | nil => exact q
    | cons hu _ ih => exact .cons hu (ih q)
  exact C08_table_always_fresh k m hm lib lookup st s0 rs.sim hfit hinit _
    (happ (Steps.executed hes) (Steps.executed hps))

end table_run

/-! ### C09: the preconditions are necessary -/

/-- Arithmetic of the examples: integer rates, running sums, always event 0, no time. -/
def toyKernel : Kernel Int Nat Unit :=
  { cumsum := fun l => (l.foldl (fun (acc : Int × List Int) p => (acc.1 + p, acc.2 ++ [acc.1 + p])) (0, [])).2
    propose := fun _ _ _ => .ok (0, 1) }

/-- A local model of the examples: the rate is the occupation of the from-site. -/
def toyLocal : RateModel Unit Int Nat :=
  { initializeState := fun _ _ => .ok ()
    applyEvent := fun _ _ _ => (.ok (), ())
    computeProbability := fun _ e st =>
      match e.mobile with
      | f :: _ => pyGet st.occ f
      | [] => .error .valueError }

/-- A model of the examples that reads site 0 for every event. -/
def toyNonLocal : RateModel Unit Int Nat :=
  { toyLocal with computeProbability := fun _ _ st => pyGet st.occ 0 }

theorem toyLocal_local : LocalModel toyLocal := by
  constructor
  intro e s s' hl h
  simp only [toyLocal]
  cases hm : e.mobile with
  | nil => rfl
  | cons f fs => exact h f (by simp [hm])

/-- Two hops on three sites: sites 0,1 and sites 1,2. -/
def toyEvents : List Event := [⟨[0, 1], [], none⟩, ⟨[1, 2], [], none⟩]

/-- C09.  Without generated dependencies, a local model and a single executed event leave a
stale rate table and no error is raised. -/
theorem C09_missing_dependencies_stale :
    ∃ (lib : EventLib Unit Unit) (st : State Nat) (s0 s : Sim Unit Unit Unit Int Nat) (e : Event),
      lib.deps = none ∧ LocalModel toyLocal ∧ IndicesFit st.occ.length lib.events ∧
      Sim.init toyKernel toyLocal lib none (some st) = .ok s0 ∧
      s0.update toyKernel toyLocal e 1 = (.ok (), s) ∧ ¬ TableFresh toyKernel toyLocal s := by
  let lib : EventLib Unit Unit := ({} : EventLib Unit Unit).addAll toyEvents
  refine ⟨lib, ⟨[1, 0, 0], 0, 0⟩, ⟨lib, ⟨[1, 0, 0], 0, 0⟩, (), [1, 0], [1, 1]⟩,
    ⟨lib, ⟨[0, 1, 0], 1, 1⟩, (), [1, 0], [1, 1]⟩, ⟨[0, 1], [], none⟩, rfl, toyLocal_local, ?_, rfl, rfl, ?_⟩
  · intro e he i hi
    have : e = ⟨[0, 1], [], none⟩ ∨ e = ⟨[1, 2], [], none⟩ := by
      simpa [lib, EventLib.addAll_events, toyEvents] using he
    rcases this with rfl | rfl <;> simp at hi <;> rcases hi with rfl | rfl <;> simp
  · intro hf
    obtain ⟨p, hp, hc⟩ := hf.fresh 0 ⟨[0, 1], [], none⟩ rfl
    simp at hp; subst hp
    exact absurd hc (by decide)

/-- C09.  Dependencies generated before another event was added leave the table stale
although every dependency was once generated. -/
theorem C09_outdated_dependencies_stale :
    ∃ (lib0 : EventLib Unit Unit) (added : Event) (st : State Nat)
      (s0 s : Sim Unit Unit Unit Int Nat) (e : Event),
      LocalModel toyLocal ∧
      IndicesFit st.occ.length (lib0.generateEventDependencies.addEvent added).events ∧
      Sim.init toyKernel toyLocal (lib0.generateEventDependencies.addEvent added) none (some st)
        = .ok s0 ∧
      s0.update toyKernel toyLocal e 1 = (.ok (), s) ∧ ¬ TableFresh toyKernel toyLocal s := by
  let lib0 : EventLib Unit Unit := ({} : EventLib Unit Unit).addAll [⟨[0, 1], [], none⟩]
  let lib : EventLib Unit Unit := lib0.generateEventDependencies.addEvent ⟨[1, 2], [], none⟩
  have hdeps : lib0.generateEventDependencies = { lib0 with deps := some [[0]] } := by
    simp [EventLib.generateEventDependencies, generateEventDependencyMatrix, lib0, EventLib.addAll,
      EventLib.addEvent, Event.sites, npSort, List.mergeSort, List.MergeSort.Internal.splitInTwo,
      arraysIntersect, List.zipIdx]
  refine ⟨lib0, ⟨[1, 2], [], none⟩, ⟨[1, 0, 0], 0, 0⟩, ⟨lib, ⟨[1, 0, 0], 0, 0⟩, (), [1, 0], [1, 1]⟩,
    ⟨lib, ⟨[0, 1, 0], 1, 1⟩, (), [0, 0], [0, 0]⟩, ⟨[0, 1], [], none⟩, toyLocal_local, ?_, rfl, ?_, ?_⟩
  · intro e he i hi
    have : e = ⟨[0, 1], [], none⟩ ∨ e = ⟨[1, 2], [], none⟩ := by
      simpa [lib0, EventLib.addAll_events, EventLib.addEvent,
        EventLib.generateEventDependencies] using he
    rcases this with rfl | rfl <;> simp at hi <;> rcases hi with rfl | rfl <;> simp
  · show (Sim.update toyKernel toyLocal ⟨lib, ⟨[1, 0, 0], 0, 0⟩, (), [1, 0], [1, 1]⟩
      ⟨[0, 1], [], none⟩ 1) = _
    simp only [lib, hdeps]
    rfl
  · intro hf
    obtain ⟨p, hp, hc⟩ := hf.fresh 1 ⟨[1, 2], [], none⟩ rfl
    simp at hp; subst hp
    exact absurd hc (by decide)

/-- C09.  A model that reads a site its events do not list leaves the table stale even
with freshly generated dependencies. -/
theorem C09_nonlocal_model_stale :
    ∃ (lib : EventLib Unit Unit) (st : State Nat) (s0 s : Sim Unit Unit Unit Int Nat) (e : Event),
      IndicesFit st.occ.length lib.events ∧
      Sim.init toyKernel toyNonLocal lib.generateEventDependencies none (some st) = .ok s0 ∧
      s0.update toyKernel toyNonLocal e 1 = (.ok (), s) ∧ ¬ TableFresh toyKernel toyNonLocal s := by
  let lib : EventLib Unit Unit := ({} : EventLib Unit Unit).addAll
    [⟨[0, 1], [], none⟩, ⟨[2, 3], [], none⟩]
  have hdeps : lib.generateEventDependencies = { lib with deps := some [[0], [1]] } := by
    simp [EventLib.generateEventDependencies, generateEventDependencyMatrix, lib, EventLib.addAll,
      EventLib.addEvent, Event.sites, npSort, List.mergeSort, List.MergeSort.Internal.splitInTwo,
      arraysIntersect, List.zipIdx]
  refine ⟨lib, ⟨[1, 0, 0, 0], 0, 0⟩,
    ⟨lib.generateEventDependencies, ⟨[1, 0, 0, 0], 0, 0⟩, (), [1, 1], [1, 2]⟩,
    ⟨lib.generateEventDependencies, ⟨[0, 1, 0, 0], 1, 1⟩, (), [0, 1], [0, 1]⟩,
    ⟨[0, 1], [], none⟩, ?_, rfl, ?_, ?_⟩
  · intro e he i hi
    have : e = ⟨[0, 1], [], none⟩ ∨ e = ⟨[2, 3], [], none⟩ := by
      simpa [lib, EventLib.addAll_events] using he
    rcases this with rfl | rfl <;> simp at hi <;> rcases hi with rfl | rfl <;> simp
  · simp only [hdeps]; rfl
  · intro hf
    obtain ⟨p, hp, hc⟩ := hf.fresh 1 ⟨[2, 3], [], none⟩ rfl
    simp at hp; subst hp
    exact absurd hc (by decide)

/-- Non-vacuity of C08: with generated dependencies the same two hops can be executed one
after the other, and the constructed simulation starts from the given state. -/
example : ∃ (s0 s : Sim Unit Unit Unit Int Nat),
    Sim.init toyKernel toyLocal (({} : EventLib Unit Unit).addAll toyEvents).generateEventDependencies
      none (some ⟨[1, 0, 0], 0, 0⟩) = .ok s0 ∧
    Executed toyKernel toyLocal s0 [(⟨[0, 1], [], none⟩, 1), (⟨[1, 2], [], none⟩, 2)] s ∧
    s.prob = [0, 0] ∧ s.st = ⟨[0, 0, 1], 3, 2⟩ := by
  let lib : EventLib Unit Unit := ({} : EventLib Unit Unit).addAll toyEvents
  have hdeps : lib.generateEventDependencies = { lib with deps := some [[0, 1], [0, 1]] } := by
    simp [EventLib.generateEventDependencies, generateEventDependencyMatrix, lib, EventLib.addAll,
      EventLib.addEvent, Event.sites, npSort, List.mergeSort, List.MergeSort.Internal.splitInTwo,
      arraysIntersect, List.zipIdx, toyEvents]
  refine ⟨⟨lib.generateEventDependencies, ⟨[1, 0, 0], 0, 0⟩, (), [1, 0], [1, 1]⟩,
    ⟨lib.generateEventDependencies, ⟨[0, 0, 1], 3, 2⟩, (), [0, 0], [0, 0]⟩, rfl, ?_, rfl, rfl⟩
  refine .cons (s1 := ⟨lib.generateEventDependencies, ⟨[0, 1, 0], 1, 1⟩, (), [0, 1], [0, 1]⟩) ?_
    (.cons ?_ (.nil _))
  · simp only [hdeps]; rfl
  · simp only [hdeps]; rfl

section compose
variable {σ φ M R T U : Type} {K V Row : Type} [Field K] [LinearOrder K] [FloorRing K]
variable [Add T] [Sub T] [LE T] [DecidableLE T]

/-- C55.  Running `a` production steps and then `b` more from the state reached (going on
with the random stream) is the same as running `a + b` steps: same outcome, same state,
same tracker, same records.  An exception in the first part is the outcome of the whole. -/
theorem C55_steps_compose (k : Kernel R T U) (m : RateModel M R T) (g : Geometry K)
    (summary : Trajectory K → T → List (String × Bool) → Row) (rng : Nat → U × U)
    (a b c : Nat) (s s1 : RunState σ φ M R T K V Row) (r : Py Unit)
    (h : s.prodSteps k m g summary rng a c = (r, s1)) :
    s.prodSteps k m g summary rng (a + b) c =
      match (generalizing := false) r with
      | .error x => (.error x, s1)
      | .ok _ => s1.prodSteps k m g summary rng b (c + a) := by
  rw [prodSteps_add, h]
  cases r <;> rfl

theorem equilSteps_congr [Zero T] (k : Kernel R T U) (m : RateModel M R T) (rng rng' : Nat → U × U)
    (n c : Nat) (s : Sim σ φ M R T) (h : ∀ i, c ≤ i → i < c + n → rng i = rng' i) :
    s.equilSteps k m rng n c = s.equilSteps k m rng' n c := by
  induction n generalizing c s with
  | zero => rfl
  | succ n ih =>
    simp only [Sim.equilSteps]
    rw [h c (by omega) (by omega)]
    rcases s.equilStep k m (rng' c).1 (rng' c).2 with ⟨r, s'⟩
    cases r with
    | error x => rfl
    | ok u => exact ih (c + 1) s' fun i h1 h2 => h i (by omega) (by omega)

theorem prodSteps_congr (k : Kernel R T U) (m : RateModel M R T) (g : Geometry K)
    (summary : Trajectory K → T → List (String × Bool) → Row) (rng rng' : Nat → U × U)
    (n c : Nat) (s : RunState σ φ M R T K V Row) (h : ∀ i, c ≤ i → i < c + n → rng i = rng' i) :
    s.prodSteps k m g summary rng n c = s.prodSteps k m g summary rng' n c := by
  induction n generalizing c s with
  | zero => rfl
  | succ n ih =>
    simp only [RunState.prodSteps]
    rw [h c (by omega) (by omega)]
    rcases s.prodStep k m g summary (rng' c).1 (rng' c).2 with ⟨r, s'⟩
    cases r with
    | error x => rfl
    | ok u => exact ih (c + 1) s' fun i h1 h2 => h i (by omega) (by omega)

theorem passes_congr (k : Kernel R T U) (m : RateModel M R T) (g : Geometry K)
    (summary : Trajectory K → T → List (String × Bool) → Row) (rng rng' : Nat → U × U)
    (len n p c : Nat) (s : RunState σ φ M R T K V Row)
    (h : ∀ i, c ≤ i → i < c + n * len → rng i = rng' i) :
    s.passes k m g summary rng len n p c = s.passes k m g summary rng' len n p c := by
  induction n generalizing p c s with
  | zero => rfl
  | succ n ih =>
    simp only [RunState.passes]
    have hm : (n + 1) * len = len + n * len := by ring
    rw [hm] at h
    rw [prodSteps_congr k m g summary rng rng' len c s fun i h1 h2 => h i h1 (by omega)]
    rcases s.prodSteps k m g summary rng' len c with ⟨r, s'⟩
    cases r with
    | error x => rfl
    | ok u => exact ih (p + 1) (c + len) _ fun i h1 h2 => h i (by omega) (by omega)

/-- C55.  A run is a function of its inputs and of the first `(equil + prod) * len` pairs
of random numbers only: two streams that agree there give the same run in every respect. -/
theorem C55_run_deterministic [Zero T] (k : Kernel R T U) (m : RateModel M R T) (g : Geometry K)
    (lookup : Option HopStateLookup) (summary : Trajectory K → T → List (String × Bool) → Row)
    (plan : PropertyPlan T V) (rng rng' : Nat → U × U) (len equil prod : Nat) (s : Sim σ φ M R T)
    (h : ∀ i < (equil + prod) * len, rng i = rng' i) :
    s.run k m g lookup summary plan rng len equil prod =
      s.run k m g lookup summary plan rng' len equil prod := by
  have hm : (equil + prod) * len = equil * len + prod * len := by ring
  rw [hm] at h
  simp only [Sim.run]
  rw [equilSteps_congr k m rng rng' (equil * len) 0 s fun i _ h2 => h i (by omega)]
  rcases s.equilSteps k m rng' (equil * len) 0 with ⟨r, s1⟩
  cases r with
  | error x => rfl
  | ok u =>
    simp only
    cases Trajectory.init g lookup s1.st.occ with
    | error x => rfl
    | ok traj =>
      simp only
      rcases ({} : Sampler T V Row).applyPropertyPlan plan (some (max len 1 : Nat)) with ⟨r3, sm⟩
      cases r3 with
      | error x => rfl
      | ok u3 =>
        simp only
        rw [passes_congr k m g summary rng rng' len prod 0 (equil * len) _
          fun i h1 h2 => h i (by omega)]

/-- C19.  Two finished runs from the same simulation with the same random stream but
different property plans (even with different record and value types) end in the same
simulation state and the same tracker trajectory. -/
theorem C19_sampling_does_not_interfere [Zero T] {V' Row' : Type} (k : Kernel R T U)
    (m : RateModel M R T) (g : Geometry K) (lookup : Option HopStateLookup)
    (summary : Trajectory K → T → List (String × Bool) → Row)
    (summary' : Trajectory K → T → List (String × Bool) → Row')
    (plan : PropertyPlan T V) (plan' : PropertyPlan T V') (rng : Nat → U × U)
    (len equil prod : Nat) (s : Sim σ φ M R T)
    (h : (s.run k m g lookup summary plan rng len equil prod).outcome = .ok ())
    (h' : (s.run k m g lookup summary' plan' rng len equil prod).outcome = .ok ()) :
    (s.run k m g lookup summary plan rng len equil prod).sim =
      (s.run k m g lookup summary' plan' rng len equil prod).sim ∧
    (s.run k m g lookup summary plan rng len equil prod).tracker.map RunState.traj =
      (s.run k m g lookup summary' plan' rng len equil prod).tracker.map RunState.traj := by
  have hsteps : ∀ n c (a a1 : RunState σ φ M R T K V Row) (b b1 : RunState σ φ M R T K V' Row'),
      a.sim = b.sim → a.traj = b.traj →
      a.prodSteps k m g summary rng n c = (.ok (), a1) →
      b.prodSteps k m g summary' rng n c = (.ok (), b1) → a1.sim = b1.sim ∧ a1.traj = b1.traj := by
    intro n
    induction n with
    | zero =>
      intro c a a1 b b1 h1 h2 h3 h4
      simp only [RunState.prodSteps, Prod.mk.injEq, true_and] at h3 h4
      subst h3; subst h4; exact ⟨h1, h2⟩
    | succ n ih =>
      intro c a a1 b b1 h1 h2 h3 h4
      simp only [RunState.prodSteps] at h3 h4
      rcases e1 : a.prodStep k m g summary (rng c).1 (rng c).2 with ⟨r1, a'⟩
      rcases e2 : b.prodStep k m g summary' (rng c).1 (rng c).2 with ⟨r2, b'⟩
      rw [e1] at h3; rw [e2] at h4
      cases r1 with
      | error x => cases h3
      | ok u1 =>
        cases r2 with
        | error x => cases h4
        | ok u2 =>
          obtain ⟨ea, da, p1, p2, p3, -, -⟩ := prodStep_ok e1
          obtain ⟨eb, db, q1, q2, q3, -, -⟩ := prodStep_ok e2
          rw [h1] at p1 p2 p3; rw [h2] at p2
          rw [p1] at q1; cases q1
          rw [p2] at q2; rw [p3] at q3
          exact ih (c + 1) a' a1 b' b1 (by simpa using q3) (by simpa using q2) h3 h4
  have hpass : ∀ n p c (a a1 : RunState σ φ M R T K V Row) (b b1 : RunState σ φ M R T K V' Row'),
      a.sim = b.sim → a.traj = b.traj →
      a.passes k m g summary rng len n p c = (.ok (), a1) →
      b.passes k m g summary' rng len n p c = (.ok (), b1) → a1.sim = b1.sim ∧ a1.traj = b1.traj := by
    intro n
    induction n with
    | zero =>
      intro p c a a1 b b1 h1 h2 h3 h4
      simp only [RunState.passes, Prod.mk.injEq, true_and] at h3 h4
      subst h3; subst h4; exact ⟨h1, h2⟩
    | succ n ih =>
      intro p c a a1 b b1 h1 h2 h3 h4
      simp only [RunState.passes] at h3 h4
      rcases e1 : a.prodSteps k m g summary rng len c with ⟨r1, a'⟩
      rcases e2 : b.prodSteps k m g summary' rng len c with ⟨r2, b'⟩
      rw [e1] at h3; rw [e2] at h4
      cases r1 with
      | error x => cases h3
      | ok u1 =>
        cases r2 with
        | error x => cases h4
        | ok u2 =>
          obtain ⟨q1, q2⟩ := hsteps len c a a' b b' h1 h2 e1 e2
          exact ih (p + 1) (c + len) { a' with currentPass := p } a1 { b' with currentPass := p } b1
            q1 q2 h3 h4
  obtain ⟨s1, traj, sm, rs, a1, a2, -, a4, a5⟩ := run_ok h
  obtain ⟨s1', traj', sm', rs', b1, b2, -, b4, b5⟩ := run_ok h'
  rw [a1] at b1; cases b1
  rw [a2] at b2; cases b2
  rw [a5, b5]
  obtain ⟨q1, q2⟩ := hpass prod 0 (equil * len) _ rs _ rs' rfl rfl a4 b4
  exact ⟨q1, by simp [q2]⟩

end compose

/-- Non-vacuity of C05, C06, C19 and C55: a two-site system whose only event hops back and
forth; two equilibration and three production steps with a callback sampled every second
step.  The run finishes, the step counter is 5, the time 3. -/
def toyLib : EventLib Unit Unit :=
  { events := [⟨[0, 1], [], none⟩], deps := some [[0]], siteToEvents := [], meta? := none }

/-- Initial simulation of the example. -/
def toySim : Sim Unit Unit Unit Int Nat :=
  { lib := toyLib, st := ⟨[0, 1], 0, 0⟩, ms := (), prob := [0], cum := [0] }

/-- Geometry of the example: two sites at fractional coordinates 0 and 1/2. -/
def toyGeometry : Geometry ℚ :=
  { fracCoords := [fun _ => 0, fun _ => 1 / 2], lattice := 1, nMobileSymbolSites := 1 }

/-- A plan with one callback sampled every second step. -/
def toyPlan : PropertyPlan Nat Nat :=
  (({} : PropertyPlan Nat Nat).attach
    { callback := fun st _ _ => .value st.occ.length, funcName := "n_sites", interval := some 2 }).2

example : (toySim.run toyKernel toyLocal toyGeometry none (fun _ _ _ => ()) toyPlan
    (fun _ => ((), ())) 1 2 3).outcome = .ok () := by decide
example : (toySim.run toyKernel toyLocal toyGeometry none (fun _ _ _ => ()) toyPlan
    (fun _ => ((), ())) 1 2 3).sim.st = ⟨[1, 0], 3, 5⟩ := by decide
example : (toySim.run toyKernel toyLocal toyGeometry none (fun _ _ _ => ()) ({} : PropertyPlan Nat Nat)
    (fun _ => ((), ())) 1 2 3).outcome = .ok () := by decide

end KMC
