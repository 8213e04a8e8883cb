import Verif.Lemmas.LiveCallbacks
import Verif.Props.SamplerProps
/-
C109: attached callbacks may keep memory; as long as they only look at the state they are handed,
a run with them is a run with functions without memory.  Callbacks that alter the state are not
caught.
-/
set_option linter.unusedSectionVars false

namespace KMC
open Spec

variable {W T V Row : Type}

/-- The sampler a new tracker gets from a plan. -/
def planSampler (p : PropertyPlan T V) (len : Nat) : Sampler T V Row :=
  { globalInterval := p.trackerInterval (some (max len 1 : Nat))
    globalTimeInterval := p.globalTimeInterval
    builtin := p.builtin
    properties := p.attached.map fun kv => (kv.1, freshSpec kv.2)
    records := p.attached.map fun kv => (kv.1, []) }

section
variable {σ φ M R U K : Type} [Field K] [LinearOrder K] [FloorRing K]
variable [Zero T] [Add T] [Sub T] [LE T] [DecidableLE T]

/-- C109.  Whatever the attached callbacks and error handlers remember from call to call, if
they never alter the state they are handed, then there are functions without memory that,
registered by the same calls, give a run that cannot be told apart: same end, same final
simulation, same trajectory, same records, same summary rows.  Everything proved about runs with
such functions therefore holds for callbacks with memory. -/
theorem C109_memory_makes_no_difference (b : LiveBehaviour W T V) (hb : OnlyLooks b) (w : W)
    (k : Kernel R T U) (m : RateModel M R T) (g : Geometry K) (lookup : Option HopStateLookup)
    (summary : Trajectory K → T → List (String × Bool) → Row) (ops : List (PlanOp T V))
    (rng : Nat → U × U) (len equil prod : Nat) (s : Sim σ φ M R T) :
    ∃ (cb : String → State T → Int → T → CallResult V)
      (hd : String → Option (State T → Int → T → Option Bool)),
      (∀ name, (hd name).isSome = (b.handle name).isSome) ∧
      seen (s.run k m g lookup summary (planAfter (ops.map (PlanOp.withFunctions cb hd))) rng len
        equil prod) =
      seen (s.liveRun b w k m g lookup summary (planAfter ops) rng len equil prod).result := by
  have hsome : ∀ (tab : Int → String → CallResult V × Option Bool),
      ∃ (cb : String → State T → Int → T → CallResult V)
        (hd : String → Option (State T → Int → T → Option Bool)),
        (∀ name, (hd name).isSome = (b.handle name).isSome) ∧
        ∀ st step t n, AnswersAs b cb hd st step t n (tab step n) := by
    intro tab
    refine ⟨fun n _ step _ => (tab step n).1,
      fun n => (b.handle n).map fun _ _ step _ => (tab step n).2, ?_, ?_⟩
    · intro name; simp
    · exact fun _ _ _ n => ⟨rfl, by simp only; cases b.handle n <;> rfl⟩
  have hp := planWF_after ops
  unfold Sim.run Sim.liveRun
  rcases h1 : s.equilSteps k m rng (equil * len) 0 with ⟨r, s1⟩
  cases r with
  | error x =>
    obtain ⟨cb, hd, h, -⟩ := hsome fun _ _ => (.raised, none)
    exact ⟨cb, hd, h, rfl⟩
  | ok u =>
    simp only
    cases h2 : Trajectory.init g lookup s1.st.occ with
    | error x =>
      obtain ⟨cb, hd, h, -⟩ := hsome fun _ _ => (.raised, none)
      exact ⟨cb, hd, h, rfl⟩
    | ok traj =>
      simp only
      rw [applyPlan_ok hp]
      simp only
      obtain ⟨tab, ht⟩ := livePasses_pure hb k m g summary rng len prod 0 (equil * len)
        (⟨{ sim := s1, traj := traj, sampler := planSampler (planAfter ops) len }, w⟩ :
          LiveState W σ φ M R T K V Row) (applyPlan_wf hp _ _)
      obtain ⟨cb, hd, hs, ha⟩ := hsome tab
      refine ⟨cb, hd, hs, ?_⟩
      have hp' := planWF_after (ops.map (PlanOp.withFunctions cb hd))
      rw [applyPlan_ok hp']
      have hq := ht cb hd fun st step t n _ _ => ha st step t n
      have he : planSampler (Row := Row) (planAfter (ops.map (PlanOp.withFunctions cb hd))) len =
          (planSampler (planAfter ops) len).withFunctions cb hd := by
        rw [planAfter_with]
        simp [planSampler, PropertyPlan.withFunctions, Sampler.withFunctions, List.map_map,
          Function.comp_def, PropertyPlan.trackerInterval, freshSpec, PropertySpec.withFunctions]
      simp only
      have hq' := hq
      simp only [RunState.withFunctions, ← he] at hq'
      unfold planSampler at hq'
      rw [hq']
      rfl

/-- C109.  If a run whose callbacks only look at the state finishes, and no time interval is
used, then its callbacks have been called like this: after each production step, in the order
of attachment, every enabled one whose step interval (its own, else the global one, else the
pass length) divides the step number, once, with the state after that step; its error handler
after it if it raised; nothing else was called.  So a callback that counts, averages or writes
a file has seen exactly those states. -/
theorem C109_calls (b : LiveBehaviour W T V) (hb : OnlyLooks b) (w : W)
    (k : Kernel R T U) (m : RateModel M R T) (g : Geometry K) (lookup : Option HopStateLookup)
    (summary : Trajectory K → T → List (String × Bool) → Row) (ops : List (PlanOp T V))
    (rng : Nat → U × U) (len equil prod : Nat) (s : Sim σ φ M R T)
    (hg : (planAfter ops).globalTimeInterval = none)
    (ht : ∀ name spec, (name, spec) ∈ (planAfter ops).attached → spec.timeInterval = none)
    (h : (s.liveRun b w k m g lookup summary (planAfter ops) rng len equil prod).result.outcome =
      .ok ()) :
    ∃ s1 states,
      s.equilSteps k m rng (equil * len) 0 = (.ok (), s1) ∧
      Visited k m rng (equil * len) s1 states
        (s.liveRun b w k m g lookup summary (planAfter ops) rng len equil prod).result.sim ∧
      states.length = prod * len ∧
      (s.liveRun b w k m g lookup summary (planAfter ops) rng len equil prod).world =
        states.foldl (stepCalls b (planAfter ops) len) w := by
  have hp := planWF_after ops
  unfold Sim.liveRun at h ⊢
  rcases h1 : s.equilSteps k m rng (equil * len) 0 with ⟨r, s1⟩
  rw [h1] at h
  cases r with
  | error x => cases h
  | ok u =>
    simp only at h ⊢
    cases h2 : Trajectory.init g lookup s1.st.occ with
    | error x => rw [h2] at h; cases h
    | ok traj =>
      rw [h2] at h
      simp only at h ⊢
      rw [applyPlan_ok hp] at h ⊢
      simp only at h ⊢
      rcases e : livePasses b k m g summary rng len prod 0 (equil * len)
        (⟨{ sim := s1, traj := traj, sampler := planSampler (planAfter ops) len }, w⟩ :
          LiveState W σ φ M R T K V Row) with ⟨r, l⟩
      have e' := e
      unfold planSampler at e'
      rw [e'] at h ⊢
      simp only at h ⊢
      subst h
      have hf : Follows (planAfter ops) len (planSampler (Row := Row) (planAfter ops) len) :=
        ⟨applyPlan_wf hp _ _, rfl, hg, by
          simp [planSampler, List.map_map, Function.comp_def, schedOf, freshSpec]⟩
      obtain ⟨states, hl, hv, hw⟩ := livePasses_world hb hg (fun kv hm => ht kv.1 kv.2 hm)
        (l := ⟨{ sim := s1, traj := traj, sampler := planSampler (planAfter ops) len }, w⟩) hf e
      exact ⟨s1, states, rfl, hv, hl, hw⟩

end

/-! Witnesses. -/

/-- A callback that counts its calls and returns the count; with a handler that ignores errors. -/
def counting : LiveBehaviour Nat Nat Nat :=
  { call := fun _ w st _ _ => (.value (w + 1), st, w + 1)
    handle := fun _ => some fun w st _ _ => (some true, st, w) }

/- The hypotheses of the two theorems are met by a counting callback called every second step of
seven; it has been called three times and its last two values are on record. -/
example : OnlyLooks counting := fun _ _ _ _ _ => ⟨rfl, fun h hh => by
  simp only [counting, Option.some.injEq] at hh; rw [← hh]⟩
example : (planAfter [everySecond]).globalTimeInterval = none ∧
    (∀ name spec, (name, spec) ∈ (planAfter [everySecond]).attached → spec.timeInterval = none) := by
  refine ⟨rfl, ?_⟩
  intro name spec h
  have e : (planAfter [everySecond]).attached.map (fun kv => kv.2.timeInterval) = [none] := rfl
  have := List.mem_map_of_mem (f := fun kv : String × PropertySpec Nat Nat => kv.2.timeInterval) h
  rw [e] at this
  simpa using this

/-- A run of the example system with live callbacks. -/
def toyLive {W : Type} (b : LiveBehaviour W Nat Nat) (w : W) (ops : List (PlanOp Nat Nat))
    (len equil prod : Nat) : LiveResult W Unit Unit Unit Int Nat ℚ Nat Nat :=
  toySim.liveRun b w toyKernel toyLocal toyGeometry none (fun _ t _ => t) (planAfter ops)
    (fun _ => ((), ())) len equil prod

example : (toyLive counting 0 [everySecond] 1 0 7).result.outcome = .ok () ∧
    (toyLive counting 0 [everySecond] 1 0 7).world = 3 ∧
    ((toyLive counting 0 [everySecond] 1 0 7).result.tracker.bind fun rs =>
      dictGet rs.sampler.records "q") = some [⟨"q", 4, 4, 2⟩, ⟨"q", 6, 6, 3⟩] := by decide

/-- A callback that takes the ion out of the state it is handed: both sites become vacant. -/
def taking : LiveBehaviour Unit Nat Nat :=
  { call := fun _ _ st _ _ => (.value 0, { st with occ := st.occ.map fun _ => 1 }, ())
    handle := fun _ => none }

/-- C109, the limit of the claim.  A callback that alters the state is not noticed: the run goes
on from the tables computed before the callback, executes hops between two vacant sites, advances
clock and step counter with them, ends without error, and loses the ion; the hop counters miss
those steps. -/
theorem C109_altered_state_goes_unnoticed :
    (toyLive taking () [everySecond] 1 0 7).result.outcome = .ok () ∧
    (toyLive taking () [everySecond] 1 0 7).result.sim.st = ⟨[1, 1], 7, 7⟩ ∧
    (toyRun [everySecond] 1 0 7).sim.st = ⟨[1, 0], 7, 7⟩ ∧
    ((toyLive taking () [everySecond] 1 0 7).result.tracker.map fun rs => rs.traj.hopCounter) =
      some [2] ∧
    ((toyRun [everySecond] 1 0 7).tracker.map fun rs => rs.traj.hopCounter) = some [7] := by
  decide

end KMC
