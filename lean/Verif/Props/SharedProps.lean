import Verif.Lemmas.Shared
import Verif.Props.RunProps
/-
C102: simulations in one Python process disturb each other only through a shared state, a shared model that remembers
something, or shared events read with another hop lookup.
-/
set_option linter.unusedSectionVars false
namespace KMC
open Spec Shared

section
variable {σ φ M R T U K V Row : Type} [Field K] [LinearOrder K] [FloorRing K]
variable [Add T] [Zero T] [Sub T] [LE T] [DecidableLE T]

/-- C102.  In any program, with any number of other simulations and in any order of actions, a simulation that is kept
apart from the others returns and raises what it returns and raises alone, and ends up with the same state, library,
model cache, rate tables and tracker. -/
theorem C102_undisturbed (p : Nat → Given σ φ M R T U K V Row) (i : Nat)
    (hap : ∀ j, j ≠ i → KeptApart (p i) (p j)) (prog : List (Nat × Action T U)) (w : Process M R T K V Row)
    (hw : w.own i = none) :
    ownOutcomes i (perform p prog w).1 = (perform p (ownActions i prog) w).1 ∧
    observed (p i) i (perform p prog w).2 = observed (p i) i (perform p (ownActions i prog) w).2 ∧
    observedTracker i (perform p prog w).2 = observedTracker i (perform p (ownActions i prog) w).2 ∧
    (perform p prog w).2.mem.states (p i).stateAt = (perform p (ownActions i prog) w).2.mem.states (p i).stateAt := by
  obtain ⟨h1, h2⟩ := perform_same p i hap prog w w (looksSame_start hw)
  obtain ⟨h3, h4⟩ := looksSame_observed h2
  exact ⟨h1, h3, h4, h2.state⟩

/-- C102.  Simulations of a parameter sweep may share the library and a model without memory: separate states suffice. -/
theorem C102_sweep (p : Nat → Given σ φ Unit R T U K V Row) (lookup : Option HopStateLookup)
    (hl : ∀ i, (p i).lookup = lookup) (hs : ∀ i j, i ≠ j → (p i).stateAt ≠ (p j).stateAt)
    (prog : List (Nat × Action T U)) (w : Process Unit R T K V Row) (hw : ∀ i, w.own i = none) (i : Nat) :
    ownOutcomes i (perform p prog w).1 = (perform p (ownActions i prog) w).1 ∧
    observed (p i) i (perform p prog w).2 = observed (p i) i (perform p (ownActions i prog) w).2 ∧
    observedTracker i (perform p prog w).2 = observedTracker i (perform p (ownActions i prog) w).2 := by
  obtain ⟨h1, h2, h3, -⟩ := C102_undisturbed p i (fun j hj =>
    { state := hs i j (Ne.symm hj)
      model := fun _ => ⟨(), ⟨fun _ _ _ _ => rfl, fun _ _ => rfl⟩, ⟨fun _ _ _ _ => rfl, fun _ _ => rfl⟩⟩
      events := fun _ _ _ => (hl i).trans (hl j).symm }) prog w (hw i)
  exact ⟨h1, h2, h3⟩

theorem perform_append (p : Nat → Given σ φ M R T U K V Row) (xs ys : List (Nat × Action T U))
    (w : Process M R T K V Row) :
    perform p (xs ++ ys) w =
      ((perform p xs w).1 ++ (perform p ys (perform p xs w).2).1, (perform p ys (perform p xs w).2).2) := by
  induction xs generalizing w with
  | nil => rfl
  | cons x xs ih =>
    obtain ⟨i, x⟩ := x
    simp only [List.cons_append, perform, ih]

theorem observed_some {g : Given σ φ M R T U K V Row} {i : Nat} {w : Process M R T K V Row} {s : Sim σ φ M R T}
    (h : observed g i w = some s) : ∃ o, w.own i = some o := by
  simp only [observed, Option.map_eq_some_iff] at h
  obtain ⟨o, ho, -⟩ := h
  exact ⟨o, ho⟩

theorem perform_equil (p : Nat → Given σ φ M R T U K V Row) (i : Nat) (rng : Nat → U × U) (n c : Nat)
    (w : Process M R T K V Row) (s s1 : Sim σ φ M R T) (hs : observed (p i) i w = some s)
    (he : s.equilSteps (p i).kernel (p i).model rng n c = (.ok (), s1)) :
    (∀ r ∈ (perform p (equilActions i rng n c) w).1, r = (i, .ok ())) ∧
      observed (p i) i (perform p (equilActions i rng n c) w).2 = some s1 := by
  induction n generalizing c w s with
  | zero =>
    simp only [Sim.equilSteps, Prod.mk.injEq, true_and] at he
    subst he
    exact ⟨fun r hr => by simp [equilActions, perform] at hr, hs⟩
  | succ n ih =>
    obtain ⟨o, ho⟩ := observed_some hs
    simp only [Sim.equilSteps] at he
    obtain ⟨h1, h2, -⟩ := equil_read (p i) i w o s ho hs (rng c).1 (rng c).2
    rcases hst : s.equilStep (p i).kernel (p i).model (rng c).1 (rng c).2 with ⟨r, s'⟩
    rw [hst] at he h1 h2
    cases r with
    | error x => simp only at he; cases he
    | ok u =>
      simp only at he
      obtain ⟨k1, k2⟩ := ih (c + 1) (equilObject (p i) i o (rng c).1 (rng c).2 w).2 s' h2 he
      simp only [equilActions, perform, act, ho]
      refine ⟨?_, k2⟩
      intro r hr
      rcases List.mem_cons.1 hr with rfl | hr
      · rw [h1]
      · exact k1 r hr

theorem perform_prod (p : Nat → Given σ φ M R T U K V Row) (i : Nat) (rng : Nat → U × U) (n c : Nat)
    (w : Process M R T K V Row) (s s1 : Sim σ φ M R T) (t t1 : Trajectory K × Sampler T V Row × Nat)
    (hs : observed (p i) i w = some s) (ht : observedTracker i w = some t)
    (he : (runOf s t).prodSteps (p i).kernel (p i).model (p i).geometry (p i).summary rng n c = (.ok (), runOf s1 t1)) :
    (∀ r ∈ (perform p (prodActions i rng n c) w).1, r = (i, .ok ())) ∧
      observed (p i) i (perform p (prodActions i rng n c) w).2 = some s1 ∧
      observedTracker i (perform p (prodActions i rng n c) w).2 = some t1 := by
  induction n generalizing c w s t with
  | zero =>
    simp only [RunState.prodSteps, Prod.mk.injEq, true_and] at he
    obtain ⟨rfl, rfl⟩ := runOf_inj he
    exact ⟨fun r hr => by simp [prodActions, perform] at hr, hs, ht⟩
  | succ n ih =>
    obtain ⟨o, ho⟩ := observed_some hs
    have hto : o.tracker = some t := by simpa only [observedTracker, ho, Option.bind_some] using ht
    simp only [RunState.prodSteps] at he
    obtain ⟨h1, s', t', e1, h2, h3⟩ := prod_read (p i) i w o s t ho hs hto (rng c).1 (rng c).2
    rcases hst : (runOf s t).prodStep (p i).kernel (p i).model (p i).geometry (p i).summary (rng c).1 (rng c).2 with ⟨r, q⟩
    rw [hst] at he h1 e1
    simp only at e1
    subst e1
    cases r with
    | error x => simp only at he; cases he
    | ok u =>
      simp only at he
      obtain ⟨k1, k2⟩ := ih (c + 1) (prodObject (p i) i o t.1 t.2.1 t.2.2 (rng c).1 (rng c).2 w).2 s' t' h2 h3 he
      simp only [prodActions, perform, act, ho, hto]
      refine ⟨?_, k2⟩
      intro r hr
      rcases List.mem_cons.1 hr with rfl | hr
      · rw [h1]
      · exact k1 r hr

theorem runOf_all (q : RunState σ φ M R T K V Row) : q = runOf q.sim (q.traj, q.sampler, q.currentPass) := rfl

theorem perform_passes (p : Nat → Given σ φ M R T U K V Row) (i : Nat) (rng : Nat → U × U) (len n pass c : Nat)
    (w : Process M R T K V Row) (s s1 : Sim σ φ M R T) (t t1 : Trajectory K × Sampler T V Row × Nat)
    (hs : observed (p i) i w = some s) (ht : observedTracker i w = some t)
    (he : (runOf s t).passes (p i).kernel (p i).model (p i).geometry (p i).summary rng len n pass c =
      (.ok (), runOf s1 t1)) :
    (∀ r ∈ (perform p (passActions i rng len n pass c) w).1, r = (i, .ok ())) ∧
      observed (p i) i (perform p (passActions i rng len n pass c) w).2 = some s1 ∧
      observedTracker i (perform p (passActions i rng len n pass c) w).2 = some t1 := by
  induction n generalizing pass c w s t with
  | zero =>
    simp only [RunState.passes, Prod.mk.injEq, true_and] at he
    obtain ⟨rfl, rfl⟩ := runOf_inj he
    exact ⟨fun r hr => by simp [passActions, perform] at hr, hs, ht⟩
  | succ n ih =>
    simp only [RunState.passes] at he
    rcases hst : (runOf s t).prodSteps (p i).kernel (p i).model (p i).geometry (p i).summary rng len c with ⟨r, q⟩
    rw [hst] at he
    cases r with
    | error x => simp only at he; cases he
    | ok u =>
      simp only at he
      obtain ⟨k1, k2, k3⟩ := perform_prod p i rng len c w s q.sim t (q.traj, q.sampler, q.currentPass) hs ht hst
      simp only [passActions, perform_append, perform]
      generalize hw' : (perform p (prodActions i rng len c) w).2 = w' at k2 k3
      obtain ⟨o, ho⟩ := observed_some k2
      have hto : o.tracker = some (q.traj, q.sampler, q.currentPass) := by
        simpa only [observedTracker, ho, Option.bind_some] using k3
      simp only [act, ho, hto]
      obtain ⟨l1, l2⟩ := ih (pass + 1) (c + len) (w'.setOwn i { o with tracker := some (q.traj, q.sampler, pass) })
        q.sim (q.traj, q.sampler, pass)
        (by rw [← k2]; simp only [observed, setOwn_same, setOwn_mem, ho, Option.map_some])
        (by simp only [observedTracker, setOwn_same, Option.bind_some]) he
      refine ⟨?_, l2⟩
      intro r hr
      rcases List.mem_append.1 hr with hr | hr
      · exact k1 r hr
      · rcases List.mem_cons.1 hr with rfl | hr
        · rfl
        · exact l1 r hr

/-- C102.  A simulation that is constructed and run among others, kept apart from them and with its steps in between
theirs in any way, does exactly what the run of that simulation as a whole does. -/
theorem C102_run (p : Nat → Given σ φ M R T U K V Row) (i : Nat) (hap : ∀ j, j ≠ i → KeptApart (p i) (p j))
    (prog : List (Nat × Action T U)) (w : Process M R T K V Row) (hw : w.own i = none) (rng : Nat → U × U)
    (equil prod : Nat) (hprog : ownActions i prog = runActions i rng (p i).len equil prod)
    {s0 : Sim σ φ M R T} {rs : RunState σ φ M R T K V Row} {s1 : Sim σ φ M R T}
    (hinit : Sim.init (p i).kernel (p i).model ((p i).library w.mem) (p i).lookup
      (some (w.mem.states (p i).stateAt)) = .ok s0)
    (hrun : s0.run (p i).kernel (p i).model (p i).geometry (p i).lookup (p i).summary (p i).plan rng (p i).len equil prod =
      ⟨.ok (), s1, some rs⟩) :
    (∀ r ∈ (perform p prog w).1, r.1 = i → r.2 = .ok ()) ∧
    observed (p i) i (perform p prog w).2 = some s1 ∧
    observedTracker i (perform p prog w).2 = some (rs.traj, rs.sampler, rs.currentPass) := by
  obtain ⟨h1, h2, h3, -⟩ := C102_undisturbed p i hap prog w hw
  rw [h2, h3, hprog]
  have hc := construct_read (p i) i w
  rw [hinit] at hc
  obtain ⟨c1, c2, c3⟩ := hc
  simp only [Sim.run] at hrun
  rcases he : s0.equilSteps (p i).kernel (p i).model rng (equil * (p i).len) 0 with ⟨r, se⟩
  rw [he] at hrun
  cases r with
  | error x => simp only at hrun; cases hrun
  | ok u =>
    simp only at hrun
    cases htr : Trajectory.init (p i).geometry (p i).lookup se.st.occ with
    | error x => rw [htr] at hrun; simp only at hrun; cases hrun
    | ok traj =>
      rw [htr] at hrun
      simp only at hrun
      rcases hsp : ({} : Sampler T V Row).applyPropertyPlan (p i).plan (some (max (p i).len 1 : Nat)) with ⟨r, sampler⟩
      rw [hsp] at hrun
      cases r with
      | error x => simp only at hrun; cases hrun
      | ok u =>
        simp only [RunResult.mk.injEq] at hrun
        obtain ⟨g1, g2, g3⟩ := hrun
        obtain ⟨e1, e2⟩ := perform_equil p i rng (equil * (p i).len) 0 (construct (p i) i w).2 s0 se c2 he
        have hpass : (runOf se (traj, sampler, 0)).passes (p i).kernel (p i).model (p i).geometry (p i).summary rng
            (p i).len prod 0 (equil * (p i).len) = (.ok (), runOf s1 (rs.traj, rs.sampler, rs.currentPass)) := by
          have hrs := Option.some.inj g3
          refine Prod.ext g1 ?_
          rw [← g2, ← hrs]
          rfl
        generalize hwe : (perform p (equilActions i rng (equil * (p i).len) 0) (construct (p i) i w).2).2 = we at e2
        obtain ⟨o, ho⟩ := observed_some e2
        have htk : trackObject (p i) i o we = (.ok (), we.setOwn i { o with tracker := some (traj, sampler, 0) }) := by
          have hst : se.st = we.mem.states (p i).stateAt := by
            simp only [observed, ho, Option.map_some, Option.some.injEq] at e2
            subst e2
            rfl
          simp only [trackObject, ← hst, htr, hsp]
        obtain ⟨q1, q2, q3⟩ := perform_passes p i rng (p i).len prod 0 (equil * (p i).len)
          (we.setOwn i { o with tracker := some (traj, sampler, 0) }) se s1 (traj, sampler, 0) _
          (by rw [← e2]; simp only [observed, setOwn_same, setOwn_mem, ho, Option.map_some])
          (by simp only [observedTracker, setOwn_same, Option.bind_some]) hpass
        have hall : (perform p (runActions i rng (p i).len equil prod) w).2 =
            (perform p (passActions i rng (p i).len prod 0 (equil * (p i).len))
              (we.setOwn i { o with tracker := some (traj, sampler, 0) })).2 ∧
            ∀ r ∈ (perform p (runActions i rng (p i).len equil prod) w).1, r = (i, .ok ()) := by
          simp only [runActions, perform, perform_append, act, hwe, ho, htk]
          refine ⟨trivial, ?_⟩
          intro r hr
          rcases List.mem_cons.1 hr with rfl | hr
          · rw [c1]
          · rcases List.mem_append.1 hr with hr | hr
            · exact e1 r hr
            · rcases List.mem_cons.1 hr with rfl | hr
              · rfl
              · exact q1 r hr
        refine ⟨?_, by rw [hall.1]; exact q2, by rw [hall.1]; exact q3⟩
        intro r hr hri
        have hmem : r ∈ ownOutcomes i (perform p prog w).1 := by
          simp only [ownOutcomes, List.mem_filter]
          exact ⟨hr, by simpa using hri⟩
        rw [h1, hprog] at hmem
        rw [hall.2 r hmem]

/-- C102.  A state object is changed only by simulations that were given it; a copy is another object. -/
theorem C102_only_own_state (p : Nat → Given σ φ M R T U K V Row) (prog : List (Nat × Action T U)) (a : Nat)
    (ha : ∀ x ∈ prog, (p x.1).stateAt ≠ a) (w : Process M R T K V Row) :
    (perform p prog w).2.mem.states a = w.mem.states a := by
  induction prog generalizing w with
  | nil => rfl
  | cons x rest ih =>
    obtain ⟨i, x⟩ := x
    simp only [perform]
    rw [ih (fun y hy => ha y (List.mem_cons_of_mem _ hy)),
      (act_leftAlone (p i) i x w).state a (Ne.symm (ha (i, x) List.mem_cons_self))]

theorem C102_copy (p : Nat → Given σ φ M R T U K V Row) (prog : List (Nat × Action T U)) (a b : Nat) (hab : a ≠ b)
    (ha : ∀ x ∈ prog, (p x.1).stateAt = b) (w : Process M R T K V Row) :
    ({ w with mem := w.mem.copyState a b } : Process M R T K V Row).mem.states b = w.mem.states a ∧
    (perform p prog { w with mem := w.mem.copyState a b }).2.mem.states a = w.mem.states a := by
  refine ⟨by simp only [Memory.copyState, setState_same], ?_⟩
  rw [C102_only_own_state p prog a (fun x hx => by rw [ha x hx]; exact Ne.symm hab)]
  simp only [Memory.copyState, Memory.setState, if_neg hab]

/-- C102: the tracker that a run has returned keeps a reference to the state, so its clock goes on when the simulation
is used again, while its displacements stay. -/
theorem C102_old_tracker_clock (g : Given σ φ M R T U K V Row) (i : Nat) (w : Process M R T K V Row) (e : Event) (dt : T)
    (h : (act g i (.update e dt) w).1 = .ok ()) :
    trackerTime g (act g i (.update e dt) w).2 = trackerTime g w + dt ∧
    observedTracker i (act g i (.update e dt) w).2 = observedTracker i w := by
  simp only [act] at h ⊢
  cases ho : w.own i with
  | none => rw [ho] at h; simp only at h; cases h
  | some o =>
    rw [ho] at h
    simp only at h ⊢
    obtain ⟨s, hs⟩ : ∃ s, observed g i w = some s := by
      simp only [observed, ho, Option.map_some]
      exact ⟨_, rfl⟩
    obtain ⟨h1, h2, h3⟩ := update_read g i w o s ho hs e dt
    rw [h1] at h
    have hst : s.st = w.mem.states g.stateAt := by
      simp only [observed, ho, Option.map_some, Option.some.injEq] at hs
      subst hs
      rfl
    obtain ⟨o', ho'⟩ := observed_some h2
    have hst' : (s.update g.kernel g.model e dt).2.st = (updateObject g i o e dt w).2.mem.states g.stateAt := by
      simp only [observed, ho', Option.map_some, Option.some.injEq] at h2
      rw [← h2]
    refine ⟨?_, by rw [h3]; simp only [observedTracker, ho, Option.bind_some]⟩
    simp only [trackerTime, ← hst', ← hst]
    have hu : s.update g.kernel g.model e dt = (.ok (), (s.update g.kernel g.model e dt).2) := Prod.ext h rfl
    obtain ⟨st1, ms, i1, prob, b1, -, -, -, he⟩ := update_ok hu
    obtain ⟨_, _, _, _, _, _, _, _, _, h5⟩ := applyEvent_ok b1
    rw [he, h5]

/-- C102.  What a shared model object remembers is what the simulation constructed last made it remember. -/
theorem C102_shared_model_memory (g h : Given σ φ M R T U K V Row) (i j : Nat) (w : Process M R T K V Row)
    (hm : g.modelAt = h.modelAt) (hok : (act h j .construct w).1 = .ok ()) {s : Sim σ φ M R T}
    (hs : observed g i (act h j .construct w).2 = some s) :
    ∃ es, h.model.initializeState (w.mem.states h.stateAt) es = .ok s.ms := by
  simp only [act] at hok hs
  have hc := construct_read h j w
  cases hi : Sim.init h.kernel h.model (h.library w.mem) h.lookup (some (w.mem.states h.stateAt)) with
  | error x =>
    rw [hi] at hc
    obtain ⟨c1, -⟩ := hc
    rw [c1] at hok
    cases hok
  | ok s' =>
    rw [hi] at hc
    obtain ⟨-, c2, -⟩ := hc
    obtain ⟨i1, -, -, -, -, -, i7, -⟩ := init_ok hi
    have hst := Option.some.inj i1
    rw [hst]
    refine ⟨s'.lib.events, ?_⟩
    rw [i7]
    simp only [observed, Option.map_eq_some_iff] at hs c2
    obtain ⟨o, -, rfl⟩ := hs
    obtain ⟨o', -, rfl⟩ := c2
    simp only [hm]

end

/-! ### Witnesses: each of the three conditions is needed -/

/-- Simulations of the examples: three sites in a row and the two hops between them. -/
def toyGiven (stateAt : Nat) (lookup : Option HopStateLookup) : Given Unit Unit Unit Int Nat Unit ℚ Unit Unit :=
  { stateAt := stateAt, modelAt := 0, eventsAt := [0, 1], deps := some [[0, 1], [0, 1]], siteToEvents := [], meta? := none
    lookup := lookup, kernel := toyKernel, model := toyLocal
    geometry := ⟨[0, 0, 0], 0, 3⟩, summary := fun _ _ _ => (), plan := {}, len := 3 }

/-- Memory of the examples: the two events, and a state at every address. -/
def toyMemory {M : Type} (c : M) (states : Nat → List Int) : Memory M Nat :=
  { states := fun a => ⟨states a, 0, 0⟩
    events := fun a => if a = 0 then ⟨[0, 1], [], none⟩ else ⟨[1, 2], [], none⟩
    caches := fun _ => c }

/-- C102: two simulations that are given the same state object.  After one of them hops, the rate table of the other is
stale, and nothing is raised. -/
theorem C102_shared_state_stale :
    ∃ (p : Nat → Given Unit Unit Unit Int Nat Unit ℚ Unit Unit) (w : Process Unit Int Nat ℚ Unit Unit)
      (prog : List (Nat × Action Nat Unit)) (s : Sim Unit Unit Unit Int Nat),
      LocalModel (p 0).model ∧ (∀ r ∈ (perform p prog w).1, r.2 = .ok ()) ∧
      observed (p 0) 0 (perform p prog w).2 = some s ∧ ¬ TableFresh (p 0).kernel (p 0).model s := by
  refine ⟨fun _ => toyGiven 0 none, ⟨toyMemory () fun _ => [1, 0, 0], fun _ => none⟩,
    [(0, .construct), (1, .construct), (1, .update ⟨[0, 1], [], none⟩ 1)],
    ⟨(toyGiven 0 none).library (toyMemory () fun _ => [1, 0, 0]), ⟨[0, 1, 0], 1, 1⟩, (), [1, 0], [1, 1]⟩,
    toyLocal_local, ?_, rfl, ?_⟩
  · have : (perform (fun _ => toyGiven 0 none) [(0, .construct), (1, .construct), (1, .update ⟨[0, 1], [], none⟩ 1)]
        (⟨toyMemory () fun _ => [1, 0, 0], fun _ => none⟩ : Process Unit Int Nat ℚ Unit Unit)).1 =
        [(0, .ok ()), (1, .ok ()), (1, .ok ())] := rfl
    rw [this]
    simp
  · intro hf
    obtain ⟨p, hp, hc⟩ := hf.fresh 0 ⟨[0, 1], [], none⟩ rfl
    have : p = 1 := by simpa using hp.symm
    subst this
    exact absurd hc (by decide)

/-- C102: two simulations with their own states share the events and read them with different hop lookups.  Constructing
the second one makes the first one fail at its next step; alone it goes on. -/
theorem C102_shared_events_fail :
    ∃ (p : Nat → Given Unit Unit Unit Int Nat Unit ℚ Unit Unit) (w : Process Unit Int Nat ℚ Unit Unit)
      (prog : List (Nat × Action Nat Unit)),
      (p 0).stateAt ≠ (p 1).stateAt ∧
      (perform p (ownActions 0 prog) w).1 = [(0, .ok ()), (0, .ok ()), (0, .ok ())] ∧
      ownOutcomes 0 (perform p prog w).1 = [(0, .ok ()), (0, .ok ()), (0, .error .runtimeError)] := by
  refine ⟨fun i => if i = 0 then toyGiven 0 (some ⟨[0, 0, 0], [1, 1, 1]⟩) else toyGiven 1 (some ⟨[1, 1, 1], [0, 0, 0]⟩),
    ⟨toyMemory () fun a => if a = 0 then [0, 1, 1] else [1, 0, 0], fun _ => none⟩,
    [(0, .construct), (0, .track), (1, .construct), (0, .prod () ())], by decide, ?_, ?_⟩
  · rfl
  · rfl

/-- A model of the examples that remembers the occupations, and updates its picture like an external calculator does. -/
def toyRemembering : RateModel (List Int) Int Nat :=
  { initializeState := fun st _ => .ok st.occ
    applyEvent := fun c e _ => (.ok (), (State.applyEvent (⟨c, 0, 0⟩ : State Nat) e 0).2.occ)
    computeProbability := fun c e _ =>
      match e.mobile with
      | f :: _ => pyGet c f
      | [] => .error .valueError }

/-- A simulation of the examples with that model. -/
def toyRememberingGiven (stateAt modelAt : Nat) : Given Unit Unit (List Int) Int Nat Unit ℚ Unit Unit :=
  { stateAt := stateAt, modelAt := modelAt, eventsAt := [0, 1], deps := some [[0, 1], [0, 1]], siteToEvents := [], meta? := none
    lookup := none, kernel := toyKernel, model := toyRemembering
    geometry := ⟨[0, 0, 0], 0, 3⟩, summary := fun _ _ _ => (), plan := {}, len := 3 }

/-- C102: two simulations with their own states share a model object that remembers the occupations.  After the second
one is constructed, the first one computes its rates from the second one's occupations. -/
theorem C102_shared_model_wrong_rates :
    ∃ (p : Nat → Given Unit Unit (List Int) Int Nat Unit ℚ Unit Unit) (w : Process (List Int) Int Nat ℚ Unit Unit)
      (prog : List (Nat × Action Nat Unit)) (s s' : Sim Unit Unit (List Int) Int Nat),
      (p 0).stateAt ≠ (p 1).stateAt ∧ (∀ r ∈ (perform p prog w).1, r.2 = .ok ()) ∧
      observed (p 0) 0 (perform p prog w).2 = some s ∧ observed (p 0) 0 (perform p (ownActions 0 prog) w).2 = some s' ∧
      s.st = s'.st ∧ s.prob ≠ s'.prob := by
  refine ⟨fun i => toyRememberingGiven i 0,
    ⟨toyMemory [] fun a => if a = 0 then [1, 0, 0] else [0, 0, 1], fun _ => none⟩,
    [(0, .construct), (1, .construct), (0, .update ⟨[0, 1], [], none⟩ 1)],
    ⟨(toyRememberingGiven 0 0).library (toyMemory [] fun _ => []), ⟨[0, 1, 0], 1, 1⟩, [0, 0, 1], [0, 0], [0, 0]⟩,
    ⟨(toyRememberingGiven 0 0).library (toyMemory [] fun _ => []), ⟨[0, 1, 0], 1, 1⟩, [0, 1, 0], [0, 1], [0, 1]⟩,
    by decide, ?_, rfl, rfl, rfl, by decide⟩
  have : (perform (fun i => toyRememberingGiven i 0) [(0, .construct), (1, .construct), (0, .update ⟨[0, 1], [], none⟩ 1)]
      (⟨toyMemory [] fun a => if a = 0 then [1, 0, 0] else [0, 0, 1], fun _ => none⟩ :
        Process (List Int) Int Nat ℚ Unit Unit)).1 = [(0, .ok ()), (1, .ok ()), (0, .ok ())] := rfl
  rw [this]
  simp

/-! ### The hypotheses are met -/

/-- A sweep of any number of simulations with one library and one model: two of them take turns. -/
example (prog : List (Nat × Action Nat Unit)) (occ : Nat → List Int) (i : Nat) :
    observed (toyGiven i (some ⟨[0, 0, 0], [1, 1, 1]⟩)) i
      (perform (fun i => toyGiven i (some ⟨[0, 0, 0], [1, 1, 1]⟩)) prog ⟨toyMemory () occ, fun _ => none⟩).2 =
    observed (toyGiven i (some ⟨[0, 0, 0], [1, 1, 1]⟩)) i
      (perform (fun i => toyGiven i (some ⟨[0, 0, 0], [1, 1, 1]⟩)) (ownActions i prog)
        ⟨toyMemory () occ, fun _ => none⟩).2 :=
  (C102_sweep (fun i => toyGiven i (some ⟨[0, 0, 0], [1, 1, 1]⟩)) (some ⟨[0, 0, 0], [1, 1, 1]⟩) (fun _ => rfl)
    (fun _ _ h => h) prog ⟨toyMemory () occ, fun _ => none⟩ (fun _ => rfl) i).2.1

/-- Models that remember are kept apart by giving every simulation its own model object. -/
example (i j : Nat) (hij : i ≠ j) : KeptApart (toyRememberingGiven i i) (toyRememberingGiven j j) :=
  ⟨hij, fun h => absurd h hij, fun _ _ _ => rfl⟩

/-- A run whose steps alternate with those of another simulation: it ends as the run of `Sim.run` ends. -/
example :
    ownActions 0 ([(0, .construct), (1, .construct), (0, .equil () ()), (1, .track), (0, .equil () ()), (0, .equil () ()),
      (0, .track), (0, .prod () ()), (1, .prod () ()), (0, .prod () ()), (0, .prod () ()), (0, .endPass 0)] :
        List (Nat × Action Nat Unit)) = runActions 0 (fun _ => ((), ())) (toyGiven 0 none).len 1 1 ∧
    ∃ s0 s1 rs, Sim.init toyKernel toyLocal ((toyGiven 0 (some ⟨[0, 0, 0], [1, 1, 1]⟩)).library (toyMemory () fun _ => [0, 1, 1]))
        (some ⟨[0, 0, 0], [1, 1, 1]⟩) (some ⟨[0, 1, 1], 0, 0⟩) = .ok s0 ∧
      s0.run (K := ℚ) (V := Unit) (Row := Unit) toyKernel toyLocal ⟨[0, 0, 0], 0, 3⟩ (some ⟨[0, 0, 0], [1, 1, 1]⟩)
        (fun _ _ _ => ()) {} (fun _ => ((), ())) 3 1 1 = ⟨.ok (), s1, some rs⟩ := by
  refine ⟨rfl, _, _, _, rfl, rfl⟩

end KMC
