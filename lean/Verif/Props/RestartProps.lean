import Verif.Props.CheckpointProps
import Verif.Props.TransportProps
import Verif.Props.SiteEnergyRunProps
import Verif.Props.ProgressProps
/-
Simulations continued from a saved state (C92).
-/
namespace KMC
open Spec

section construct
variable {σ φ M R T U : Type}

/-- A construction from the state of an existing simulation of the same library gives that
simulation exactly when its tables are up to date and the model would set up the same state. -/
theorem initialProbs_fresh {m : RateModel M R T} {ms : M} {st : State T} :
    ∀ {events : List Event} {prob : List R}, prob.length = events.length →
      (∀ (i : Nat) e, events[i]? = some e →
        ∃ p, prob[i]? = some p ∧ m.computeProbability ms e st = .ok p) →
      initialProbs m ms st events = .ok prob := by
  intro events
  induction events with
  | nil =>
    intro prob hl _
    cases prob with
    | nil => rfl
    | cons p ps => simp at hl
  | cons e es ih =>
    intro prob hl hf
    cases prob with
    | nil => simp at hl
    | cons p ps =>
      obtain ⟨q, hq, hc⟩ := hf 0 e rfl
      have hqp : p = q := by simpa using hq
      subst hqp
      unfold initialProbs
      rw [hc, ih (by simpa using hl) (fun i e' hi => by simpa using hf (i + 1) e' (by simpa using hi))]

/-- The library a construction works with does not depend on the state. -/
theorem init_again {k : Kernel R T U} {m : RateModel M R T} {lib : EventLib σ φ}
    {lookup : Option HopStateLookup} {st0 : State T} {s0 s : Sim σ φ M R T}
    (h0 : Sim.init k m lib lookup (some st0) = .ok s0) (hlib : s.lib = s0.lib)
    (hms : m.initializeState s.st s.lib.events = .ok s.ms) (hf : TableFresh k m s) :
    Sim.init k m lib lookup (some s.st) = .ok s := by
  obtain ⟨-, h2, -, -, h5, h6, -, -⟩ := init_ok h0
  have hp : initialProbs m s.ms s.st s.lib.events = .ok s.prob := initialProbs_fresh hf.length hf.fresh
  have hcum := hf.cum
  obtain ⟨slib, sst, sms, sprob, scum⟩ := s
  simp only at hlib hms hp hcum
  subst hcum
  cases lookup with
  | none =>
    have hs : slib = lib := hlib.trans (h5 rfl)
    subst hs
    unfold Sim.init
    simp only [hms, hp]
  | some l =>
    have ha := h6 l rfl
    have hs : slib = { lib with events := slib.events } := by
      have hd : ({ lib with events := s0.lib.events } : EventLib σ φ) = s0.lib := by
        simp only [Sim.init, ha] at h0
        split at h0
        · cases h0
        · split at h0
          · cases h0
          · exact congrArg Sim.lib (Except.ok.inj h0)
      rw [hlib]; exact hd.symm
    rw [← hlib] at ha
    simp only [Sim.init, ha]
    rw [← hs]
    simp only [hms, hp]

end construct

section history
variable {σ φ M R T U : Type} [Add T]

theorem executed_lib {k : Kernel R T U} {m : RateModel M R T} {s s' : Sim σ φ M R T}
    {h : List (Event × T)} (hs : Executed k m s h s') : s'.lib = s.lib := by
  induction hs with
  | nil => rfl
  | @cons s s1 s2 e dt h hu _ ih => rw [ih, ← update_lib k m s e _, hu]

/-! ### C92: a restarted simulation is the simulation that was saved -/

/-- C92.  When restarting works, for any rate model, with a cache of its own or not.  A simulation
was constructed and any history of events executed.  Its state is saved and read back, and a
simulation is constructed with the same model and the same arguments.  The result is the old
simulation, in all its parts, exactly when the rate table was up to date and the model sets up,
for the loaded state, the cache it had. -/
theorem C92_restart_iff [Zero T] (k : Kernel R T U) (m : RateModel M R T) (lib : EventLib σ φ)
    (lookup : Option HopStateLookup) (st0 : State T) (s0 s : Sim σ φ M R T)
    (hinit : Sim.init k m lib lookup (some st0) = .ok s0)
    (history : List (Event × T)) (hrun : Executed k m s0 history s)
    (fs fs' : FileSystem T) (path : String) (hsave : s.st.saveCheckpoint fs path = .ok fs')
    (hname : ¬ BareName path ".json") :
    ∃ st, State.loadCheckpoint fs' path = .ok st ∧
      (Sim.init k m lib lookup (some st) = .ok s ↔
        m.initializeState s.st s.lib.events = .ok s.ms ∧ TableFresh k m s) := by
  refine ⟨s.st, (C30_checkpoint_round_trip (fs := fs) hsave hname).1, ?_, ?_⟩
  · intro h
    obtain ⟨-, -, -, -, -, -, h7, h8⟩ := init_ok h
    exact ⟨h7, h8⟩
  · rintro ⟨h1, h2⟩
    exact init_again hinit (executed_lib hrun) h1 h2

/-- C92.  With generated dependencies and a model that computes the rate of an event from the
occupations of the sites the event lists, restarting always works: after any history the
simulation constructed from the saved state is the simulation that saved it: same state, same
events with the same hop codes, same rate table and same cumulative table. -/
theorem C92_same_simulation [Zero T] (k : Kernel R T U) (m : RateModel Unit R T) (hm : LocalModel m)
    (hready : ∀ st events, m.initializeState st events = .ok ())
    (lib : EventLib σ φ) (lookup : Option HopStateLookup) (st0 : State T) (s0 s : Sim σ φ Unit R T)
    (hfit : IndicesFit st0.occ.length lib.events)
    (hinit : Sim.init k m lib.generateEventDependencies lookup (some st0) = .ok s0)
    (history : List (Event × T)) (hrun : Executed k m s0 history s)
    (fs fs' : FileSystem T) (path : String) (hsave : s.st.saveCheckpoint fs path = .ok fs')
    (hname : ¬ BareName path ".json") :
    ∃ st, State.loadCheckpoint fs' path = .ok st ∧
      Sim.init k m lib.generateEventDependencies lookup (some st) = .ok s := by
  obtain ⟨st, h1, h2⟩ := C92_restart_iff k m lib.generateEventDependencies lookup st0 s0 s hinit
    history hrun fs fs' path hsave hname
  exact ⟨st, h1, h2.2 ⟨hready _ _, C08_table_always_fresh k m hm lib lookup st0 s0 s hfit hinit
    history hrun⟩⟩

end history

section steps
variable {σ φ M R T U : Type} [Add T] [Zero T]

/-- The steps of a simulation are determined by its start, the random numbers and their number. -/
theorem steps_unique {k : Kernel R T U} {m : RateModel M R T} {rng : Nat → U × U} {b : Bool}
    {c : Nat} {s s1 s2 : Sim σ φ M R T} {h1 h2 : List (Event × T)}
    (a : Steps k m rng b c s h1 s1) (a' : Steps k m rng b c s h2 s2) (hl : h1.length = h2.length) :
    h1 = h2 ∧ s1 = s2 := by
  induction a generalizing h2 s2 with
  | nil =>
    cases a' with
    | nil => exact ⟨rfl, rfl⟩
    | cons => simp at hl
  | @cons c s x y e dt h hp hu _ ih =>
    cases a' with
    | nil => simp at hl
    | @cons _ _ x' _ e' dt' h' hp' hu' hr' =>
      rw [hp] at hp'
      obtain ⟨rfl, rfl⟩ := Prod.mk.inj (Except.ok.inj hp')
      rw [hu] at hu'
      obtain ⟨-, rfl⟩ := Prod.mk.inj hu'
      obtain ⟨rfl, rfl⟩ := ih hr' (by simpa using hl)
      exact ⟨rfl, rfl⟩

theorem steps_split {k : Kernel R T U} {m : RateModel M R T} {rng : Nat → U × U} {b : Bool}
    {c : Nat} {s s' : Sim σ φ M R T} (h1 h2 : List (Event × T)) :
    Steps k m rng b c s (h1 ++ h2) s' ↔
      ∃ s1, Steps k m rng b c s h1 s1 ∧ Steps k m rng b (c + h1.length) s1 h2 s' := by
  induction h1 generalizing c s with
  | nil =>
    constructor
    · intro h; exact ⟨s, .nil _ _, by simpa using h⟩
    · rintro ⟨s1, a, b⟩; cases a; simpa using b
  | cons x h1 ih =>
    constructor
    · intro h
      cases h with
      | @cons _ _ _ _ e dt _ hp hu hr =>
        obtain ⟨s1, a, b⟩ := ih.1 hr
        refine ⟨s1, .cons hp hu a, ?_⟩
        rwa [show c + 1 + h1.length = c + ((e, dt) :: h1).length by simp; omega] at b
    · rintro ⟨s1, a, b⟩
      cases a with
      | @cons _ _ _ _ e dt _ hp hu hr =>
        refine .cons hp hu (ih.2 ⟨s1, hr, ?_⟩)
        rwa [show c + 1 + h1.length = c + ((e, dt) :: h1).length by simp; omega]

theorem steps_shift {k : Kernel R T U} {m : RateModel M R T} {rng : Nat → U × U} {b : Bool}
    {n c : Nat} {s s' : Sim σ φ M R T} {h : List (Event × T)} :
    Steps k m (fun i => rng (n + i)) b c s h s' → Steps k m rng b (n + c) s h s' := by
  intro a
  induction a with
  | nil => exact .nil _ _
  | cons hp hu _ ih => exact .cons hp hu ih

theorem executed_of_steps {k : Kernel R T U} {m : RateModel M R T} {rng : Nat → U × U} {b : Bool}
    {c : Nat} {s s' : Sim σ φ M R T} {h : List (Event × T)} (a : Steps k m rng b c s h s') :
    ∃ h', Executed k m s h' s' := by
  induction a with
  | nil => exact ⟨[], .nil _⟩
  | cons hp hu _ ih =>
    obtain ⟨h', ih⟩ := ih
    exact ⟨_, .cons hu ih⟩

omit [Zero T] in
theorem executed_append {k : Kernel R T U} {m : RateModel M R T} {a b c : Sim σ φ M R T}
    {h1 h2 : List (Event × T)} (p : Executed k m a h1 b) (q : Executed k m b h2 c) :
    Executed k m a (h1 ++ h2) c := by
  induction p with
  | nil => exact q
  | cons hu _ ih => exact .cons hu (ih q)

end steps

section run
variable {σ φ R T U : Type} {K V V' Row Row' : Type} [Field K] [LinearOrder K] [FloorRing K]
variable [Add T] [Zero T] [Sub T] [LE T] [DecidableLE T]

/-- C92.  Splitting a run.  A run of `prod1` production passes is finished and the state is saved.
A simulation constructed from the loaded state then runs `prod2` further passes, without
equilibration, on the random numbers that follow those already used.  Its final simulation is that
of one uninterrupted run of `prod1 + prod2` passes.  What is recorded, and how often, may be
different in the three runs. -/
theorem C92_split_run (k : Kernel R T U) (m : RateModel Unit R T) (hm : LocalModel m)
    (hready : ∀ st events, m.initializeState st events = .ok ())
    (lib : EventLib σ φ) (lookup : Option HopStateLookup) (st0 : State T) (s0 : Sim σ φ Unit R T)
    (hfit : IndicesFit st0.occ.length lib.events)
    (hinit : Sim.init k m lib.generateEventDependencies lookup (some st0) = .ok s0)
    (g : Geometry K) (summary : Trajectory K → T → List (String × Bool) → Row)
    (summary' : Trajectory K → T → List (String × Bool) → Row')
    (plan plan2 : PropertyPlan T V) (plan' : PropertyPlan T V') (rng : Nat → U × U)
    (len equil prod1 prod2 : Nat)
    (h1 : (s0.run k m g lookup summary plan rng len equil prod1).outcome = .ok ())
    (fs fs' : FileSystem T) (path : String)
    (hsave : (s0.run k m g lookup summary plan rng len equil prod1).sim.st.saveCheckpoint fs path =
      .ok fs') (hname : ¬ BareName path ".json")
    (hall : (s0.run k m g lookup summary' plan' rng len equil (prod1 + prod2)).outcome = .ok ()) :
    ∃ st s1, State.loadCheckpoint fs' path = .ok st ∧
      Sim.init k m lib.generateEventDependencies lookup (some st) = .ok s1 ∧
      ((s1.run k m g lookup summary plan2 (fun i => rng ((equil + prod1) * len + i)) len 0
          prod2).outcome = .ok () →
        (s1.run k m g lookup summary plan2 (fun i => rng ((equil + prod1) * len + i)) len 0
          prod2).sim =
        (s0.run k m g lookup summary' plan' rng len equil (prod1 + prod2)).sim) := by
  obtain ⟨a1, t1, p1, r1, e1, -, -, g1, w1⟩ := run_ok h1
  obtain ⟨a2, t2, p2, r2, e2, -, -, g2, w2⟩ := run_ok hall
  rw [e1] at e2
  obtain ⟨-, rfl⟩ := Prod.mk.inj e2
  obtain ⟨hq, -, he⟩ := equilSteps_steps e1
  obtain ⟨hp, hpl, hps⟩ := passes_steps g1
  obtain ⟨ha, hal, has⟩ := passes_steps g2
  rw [w1] at hsave
  obtain ⟨h1', x1⟩ := executed_of_steps he
  obtain ⟨h2', x2⟩ := executed_of_steps hps
  obtain ⟨st, hl, hi⟩ := C92_same_simulation k m hm hready lib lookup st0 s0 r1.sim hfit hinit _
    (executed_append x1 x2) fs fs' path hsave hname
  refine ⟨st, r1.sim, hl, hi, ?_⟩
  intro h3
  obtain ⟨a3, t3, p3, r3, e3, -, -, g3, w3⟩ := run_ok h3
  simp only [Nat.zero_mul, Sim.equilSteps, Prod.mk.injEq, true_and] at e3 g3
  subst e3
  obtain ⟨hb, hbl, hbs⟩ := passes_steps g3
  rw [w3, w2]
  simp only
  have hcat : Steps k m rng true (equil * len) a1 (hp ++ hb) r3.sim := by
    refine (steps_split hp hb).2 ⟨r1.sim, hps, ?_⟩
    have := steps_shift (n := (equil + prod1) * len) hbs
    rw [hpl]
    have hc : equil * len + prod1 * len = (equil + prod1) * len + 0 := by ring
    rw [hc]
    exact this
  exact (steps_unique hcat has (by rw [List.length_append, hpl, hbl, hal]; ring)).2

end run

section ordinary
variable {σ φ ψ K V V' Row Row' : Type} [Field K] [LinearOrder K] [FloorRing K]
variable {o : ActiveSiteOrder String ψ} {mobile : String} {h : HopStateLookup} {R : Rounding}
  {m : RateModel Unit ℝ EReal} {g : Geometry K} {lib : EventLib σ φ} {st : State EReal}
  {s0 : Sim σ φ Unit ℝ EReal}

/-- Along the steps of an ordinary simulation every condition kept by hops holds. -/
theorem steps_kept (hs : HopSystem o mobile h R m g lib st)
    (hi : Sim.init (realKernel R) m lib.generateEventDependencies (some h) (some st) = .ok s0)
    {rng : Nat → ℝ × ℝ} (hr : ∀ c, 0 ≤ (rng c).1 ∧ (rng c).1 < 1) {a : Bool} {c : Nat}
    {s s' : Sim σ φ Unit ℝ EReal} {hist : List (Event × EReal)} {Q : List Int → Prop}
    (hQ : Kept o lib.events st.occ Q)
    (hst : Steps (realKernel R) m rng a c s hist s') (inv : SimInv o mobile R m s0 s)
    (hq : Q s.st.occ) : SimInv o mobile R m s0 s' ∧ Q s'.st.occ := by
  induction hst with
  | nil => exact ⟨inv, hq⟩
  | @cons c s s1 s2 e dt hh hp hu _ ih =>
    have he := (proposed_possible hs inv (hr _).1 (hr _).2 hp).1
    obtain ⟨inv', f, t, hm, hx⟩ := sim_inv_update hs hi inv he hu
    obtain ⟨i1, i2, i3, i4, -⟩ := init_ok hi
    obtain ⟨f', t', -, -, hm', hall, -⟩ := event_facts hs hi he
    rw [hm] at hm'
    simp only [List.cons.injEq, Nat.cast_inj, and_true] at hm'
    obtain ⟨rfl, rfl⟩ := hm'
    have hl : Linked lib.events f t := by
      have : e.mobile ∈ lib.generateEventDependencies.events.map Event.mobile := by
        rw [← i3]; exact List.mem_map_of_mem he
      obtain ⟨x, hx, hxm⟩ := List.mem_map.1 this
      exact ⟨x, hx, .inl (hxm.trans hm)⟩
    exact ih inv' (hQ.step _ _ f t hl hall hx hq)

/-- C92.  Ordinary simulations on a connected network of sites: run, save, load and run on.  Nothing
in this sequence can fail, whatever the lengths of the two runs, the random numbers and the way the
floating-point numbers are rounded, and it ends in the simulation in which one uninterrupted run
ends. -/
theorem C92_ordinary_split_run (hs : HopSystem o mobile h R m g lib st)
    (ha : Answers o mobile m lib.events st.occ) (hw : Willing m) {S : Nat → Prop}
    (hn : Network o mobile lib.events st.occ S)
    (hi : Sim.init (realKernel R) m lib.generateEventDependencies (some h) (some st) = .ok s0)
    (summary : Trajectory K → EReal → List (String × Bool) → Row)
    (summary' : Trajectory K → EReal → List (String × Bool) → Row')
    (ops ops2 : List (PlanOp EReal V)) (ops' : List (PlanOp EReal V'))
    (ht : ∀ n spec, dictGet (planAfter ops).attached n = some spec → Tolerant spec)
    (ht2 : ∀ n spec, dictGet (planAfter ops2).attached n = some spec → Tolerant spec)
    (ht' : ∀ n spec, dictGet (planAfter ops').attached n = some spec → Tolerant spec)
    (rng : Nat → ℝ × ℝ) (hr : ∀ c, 0 ≤ (rng c).1 ∧ (rng c).1 < 1) (len equil prod1 prod2 : Nat)
    (fs : FileSystem EReal) (path : String) (pre : List Char)
    (hpath : path.toList = pre ++ ".json".toList ∨ path.toList = pre ++ ".h5".toList)
    (hname : ¬ BareName path ".json") :
    let first := s0.run (realKernel R) m g (some h) summary (planAfter ops) rng len equil prod1
    let whole := s0.run (realKernel R) m g (some h) summary' (planAfter ops') rng len equil
      (prod1 + prod2)
    ∃ fs' st' s1, first.outcome = .ok () ∧ first.sim.st.saveCheckpoint fs path = .ok fs' ∧
      State.loadCheckpoint fs' path = .ok st' ∧
      Sim.init (realKernel R) m lib.generateEventDependencies (some h) (some st') = .ok s1 ∧
      whole.outcome = .ok () ∧
      let second := s1.run (realKernel R) m g (some h) summary (planAfter ops2)
        (fun i => rng ((equil + prod1) * len + i)) len 0 prod2
      second.outcome = .ok () ∧ second.sim = whole.sim := by
  intro first whole
  have h1 := C85_connected_completes hs ha hw hn hi summary ops ht rng hr len equil prod1
  have h2 := C85_connected_completes hs ha hw hn hi summary' ops' ht' rng hr len equil
    (prod1 + prod2)
  obtain ⟨fs', hsave⟩ := (C30_save_succeeds_iff fs path first.sim.st).2 ⟨pre, hpath⟩
  obtain ⟨st', s1, e1, e2, e3⟩ := C92_split_run (realKernel R) m hs.loc ha.start lib (some h) st s0
    hs.fit hi g summary summary' (planAfter ops) (planAfter ops2) (planAfter ops') rng len equil prod1
    prod2 h1 fs fs' path hsave hname h2
  refine ⟨fs', st', s1, h1, hsave, e1, e2, h2, ?_⟩
  -- the loaded state is again the start of an ordinary simulation
  have hload := (C30_checkpoint_round_trip (fs := fs) hsave hname).1
  rw [hload] at e1
  have hst' : first.sim.st = st' := Except.ok.inj e1
  obtain ⟨a1, t1, p1, r1, f1, -, -, g1, w1⟩ := run_ok h1
  obtain ⟨hq, -, he⟩ := equilSteps_steps f1
  obtain ⟨hp, -, hps⟩ := passes_steps g1
  have hk := kept_perm o lib.events st.occ hs.fit
  have hQ : Kept o lib.events st.occ fun l => l.Perm st.occ ∧ Network o mobile lib.events l S :=
    ⟨⟨hk.start, hn⟩, fun _ h => h.1, fun a b f t hl hall hx hq =>
      ⟨hk.step a b f t hl hall hx hq.1, network_step hq.2 hl hall hx⟩⟩
  have hst0 : st = s0.st := by
    obtain ⟨i1, -⟩ := init_ok hi
    simpa using i1
  have q0 : s0.st.occ.Perm st.occ ∧ Network o mobile lib.events s0.st.occ S := by
    rw [← hst0]; exact ⟨List.Perm.refl _, hn⟩
  obtain ⟨v1, q1⟩ := steps_kept hs hi hr hQ he (sim_init_inv hs hi) q0
  obtain ⟨v2, q2, n2⟩ := steps_kept hs hi hr hQ hps v1 q1
  have hfs : first.sim = r1.sim := by show (s0.run _ _ _ _ _ _ _ _ _ _).sim = _; rw [w1]
  rw [← hfs, hst'] at q2 n2
  have hlab : WellLabelled o mobile st'.occ := by
    have := v2.labelled
    rw [← hfs, hst'] at this
    exact this
  have hs' : HopSystem o mobile h R m g lib st' :=
    { hs with
      labelled := hlab
      fit := by rw [q2.length_eq]; exact hs.fit
      coords := by rw [q2.length_eq]; exact hs.coords }
  have ha' : Answers o mobile m lib.events st'.occ :=
    { ha with
      rate := fun e x he hc hl => ha.rate e x he
        ⟨hc.1.trans q2.length_eq, fun v => (hc.2 v).trans (q2.count_eq v)⟩ hl }
  have h3 := C85_connected_completes hs' ha' hw n2 e2 summary ops2 ht2
    (fun i => rng ((equil + prod1) * len + i)) (fun c => hr _) len 0 prod2
  exact ⟨h3, e3 h3⟩

/-- Non-vacuity of C92: two ions and three vacancies on a chain of five sites, a run of ten thousand
passes saved to `run/ck.json` and continued for another million. -/
example : ∃ (s0 s1 : Sim Unit Unit Unit ℝ EReal) (fs' : FileSystem EReal) (st' : State EReal),
    Sim.init (realKernel Rounding.exact) hopModel chainLib.generateEventDependencies
      (some ⟨[0, 0, 0, 0, 0], [1, 1, 1, 1, 1]⟩) (some ⟨[0, 1, 0, 1, 1], 0, 0⟩) = .ok s0 ∧
    (s0.run (V := Unit) (realKernel Rounding.exact) hopModel hopGeometry
      (some ⟨[0, 0, 0, 0, 0], [1, 1, 1, 1, 1]⟩) (fun _ _ _ => ()) (planAfter [])
      (fun n => (1 / (n + 2), 1 / 2)) 2 1000 10000).sim.st.saveCheckpoint (fun _ => none) "run/ck.json" =
      .ok fs' ∧
    State.loadCheckpoint fs' "run/ck.json" = .ok st' ∧
    Sim.init (realKernel Rounding.exact) hopModel chainLib.generateEventDependencies
      (some ⟨[0, 0, 0, 0, 0], [1, 1, 1, 1, 1]⟩) (some st') = .ok s1 ∧
    (s1.run (V := Unit) (realKernel Rounding.exact) hopModel hopGeometry
      (some ⟨[0, 0, 0, 0, 0], [1, 1, 1, 1, 1]⟩) (fun _ _ _ => ()) (planAfter [])
      (fun i => (1 / ((((1000 + 10000) * 2 + i : Nat) : ℝ) + 2), 1 / 2)) 2 0 1000000).outcome = .ok () := by
  obtain ⟨s0, hi⟩ := C85_can_be_constructed chain_hopSystem chain_answers
  obtain ⟨fs', st', s1, -, h2, h3, h4, -, h6, -⟩ := C92_ordinary_split_run chain_hopSystem chain_answers
    hopModel_willing chain_network hi (Row := Unit) (Row' := Unit) (V := Unit) (V' := Unit)
    (fun _ _ _ => ()) (fun _ _ _ => ()) [] [] []
    (fun n spec hs => by cases hs) (fun n spec hs => by cases hs) (fun n spec hs => by cases hs)
    (fun n => (1 / (n + 2), 1 / 2)) (fun c => by
      have : (0 : ℝ) ≤ c := Nat.cast_nonneg c
      constructor
      · positivity
      · show (1 : ℝ) / (c + 2) < 1
        rw [div_lt_one (by linarith)]
        linarith) 2 1000 10000 1000000 (fun _ => none) "run/ck.json" "run/ck".toList (.inl rfl)
    (by
      rintro (h | ⟨dir, h⟩)
      · exact absurd h (by decide)
      · have := congrArg (fun l => l.reverse[5]?) h
        simp only [List.reverse_append, List.reverse_cons] at this
        revert this
        simp)
  exact ⟨s0, s1, fs', st', hi, h2, h3, h4, h6⟩

end ordinary

/-! ### C92 with an external energy calculator -/

section external
variable {Rt T σ φ U : Type} [Add T]

/-- The calculator's answer depends on the values of the external occupation, not on the number
type they are stored in nor on what its runtime object has been through. -/
def ReadsValues (m : SiteEnergy Rt T) : Prop :=
  ∀ fn rt rt' ext ext' changes e (st : State T), m.computeFn = some fn → SameArray ext ext' →
    fn rt ext changes e st = fn rt' ext' changes e st

omit [Add T] in
theorem changesPre_ready {m : SiteEnergy Rt T} {n : Nat} {s s' : SiteEnergyState Rt}
    (h : SiteEnergy.Ready m n s) (h' : SiteEnergy.Ready m n s') (e : Event) (occ : List Int) :
    SiteEnergy.changesPre s e occ = SiteEnergy.changesPre s' e occ := by
  obtain ⟨l, hl, hb⟩ := h.site
  obtain ⟨l', hl', hb'⟩ := h'.site
  rw [hb] at hb'
  cases hb'
  have hm : ∀ cs, SiteEnergy.mappedChanges s cs = SiteEnergy.mappedChanges s' cs := by
    intro cs
    induction cs with
    | nil => rfl
    | cons c cs ih =>
      obtain ⟨a, b, c⟩ := c
      have e1 : SiteEnergy.externalSite s a = SiteEnergy.externalSite s' a := by
        simp only [SiteEnergy.externalSite, hl, hl']
      have e2 : ∀ x, SiteEnergy.externalValue s a x = SiteEnergy.externalValue s' a x := by
        intro x
        simp only [SiteEnergy.externalValue, h.state, h'.state, h.bySite, h'.bySite]
      simp only [SiteEnergy.mappedChanges, ih, e1, e2]
  simp only [SiteEnergy.changesPre, hm]

/-- C92.  With an external site-energy calculator that is local and reads values only: whatever
happened before the state was saved, a simulation constructed from the loaded state with the same
model has the same state, events and rate tables, and shows its calculator the same external
occupation. -/
theorem C92_site_energy_restart [Zero T] (k : Kernel ℝ T U) (kra : Option (LCE ℝ)) (m : SiteEnergy Rt T)
    (hd : MappingsAreDicts m) (i0 : SiteEnergyState Rt) (order : Option OrderRef) (kB temp ν : ℝ)
    (lib : EventLib σ φ) (lookup : Option HopStateLookup) (st0 : State T)
    (s0 s s1 : Sim σ φ (SiteEnergyState Rt) ℝ T) (history : List (Event × T)) (hn : st0.occ ≠ [])
    (hind : IndicesFit st0.occ.length lib.events)
    (hdist : SitesDistinct m st0.occ.length) (hloc : LocalCalculator m st0.occ.length)
    (hval : ReadsValues m)
    (hinit : Sim.init k ((⟨kra, m.source i0 order⟩ : Composite _ T).rateModel kB temp ν)
      lib.generateEventDependencies lookup (some st0) = .ok s0)
    (hrun : Executed k ((⟨kra, m.source i0 order⟩ : Composite _ T).rateModel kB temp ν) s0 history s)
    (fs fs' : FileSystem T) (path : String) (hsave : s.st.saveCheckpoint fs path = .ok fs')
    (hname : ¬ BareName path ".json") (st : State T) (hload : State.loadCheckpoint fs' path = .ok st)
    (hagain : Sim.init k ((⟨kra, m.source i0 order⟩ : Composite _ T).rateModel kB temp ν)
      lib.generateEventDependencies lookup (some st) = .ok s1)
    (hfit : ∀ x d ext, x = s0.ms ∨ x = s1.ms → x.external = some (d, ext) →
      ValuesFit m d st0.occ ∧ BackgroundFits m d) :
    s1.st = s.st ∧ s1.lib = s.lib ∧ s1.prob = s.prob ∧ s1.cum = s.cum ∧
      ∃ d ext d' ext', s.ms.external = some (d, ext) ∧ s1.ms.external = some (d', ext') ∧
        SameArray ext ext' := by
  rw [(C30_checkpoint_round_trip (fs := fs) hsave hname).1] at hload
  cases hload
  obtain ⟨j1, j2, -, -, j5, j6, j7, j8⟩ := init_ok hinit
  obtain ⟨k1, k2, -, -, k5, k6, k7, k8⟩ := init_ok hagain
  have hst : s.st = s1.st := by simpa using k1
  have hst0 : st0 = s0.st := by simpa using j1
  have hlib : s1.lib = s.lib := by
    rw [executed_lib hrun]
    cases lookup with
    | none => rw [j5 rfl, k5 rfl]
    | some l =>
      have ha := j6 l rfl
      have hb := k6 l rfl
      rw [ha] at hb
      have hd1 : ({ lib.generateEventDependencies with events := s0.lib.events } : EventLib σ φ) =
          s0.lib := by
        simp only [Sim.init, ha] at hinit
        split at hinit
        · cases hinit
        · split at hinit
          · cases hinit
          · exact congrArg Sim.lib (Except.ok.inj hinit)
      have hd2 : ({ lib.generateEventDependencies with events := s0.lib.events } : EventLib σ φ) =
          s1.lib := by
        simp only [Sim.init, ha] at hagain
        split at hagain
        · cases hagain
        · split at hagain
          · cases hagain
          · exact congrArg Sim.lib (Except.ok.inj hagain)
      rw [← hd1, ← hd2]
  have hfresh := C70_local_calculator_fresh k kra m hd i0 order kB temp ν lib lookup st0 s0 s history
    hind hdist hloc hinit (fun d ext hx => (hfit _ d ext (.inl rfl) hx).1) hrun
  have harr := C40_same_as_fresh k kra m i0 i0 order order kB temp ν hd lib.generateEventDependencies
    lookup st0 s0 s history s1.ms (some s1.lib.events) hn hdist hinit hrun
    (by rw [hst]; exact source_init k7) hfit
  -- both model states are faithful pictures of the state
  obtain ⟨d0, ext0, bg0, x1, x2, hF0⟩ := faithful_init hd (by rw [← hst0]; exact hdist) (source_init j7)
    (fun d ext hx => by rw [← hst0]; exact (hfit _ d ext (.inl rfl) hx).1)
  obtain ⟨hF, -⟩ := faithful_run (c := ⟨kra, m.source i0 order⟩) rfl hd hF0 hrun
  have hlen : s.st.occ.length = st0.occ.length := by
    have : ∀ {a b : Sim σ φ (SiteEnergyState Rt) ℝ T} {h : List (Event × T)},
        Executed k ((⟨kra, m.source i0 order⟩ : Composite _ T).rateModel kB temp ν) a h b →
        b.st.occ.length = a.st.occ.length := by
      intro a b h hx
      induction hx with
      | nil => rfl
      | @cons a b c e dt h hu _ ih =>
        rw [ih]
        have := (update_perm k ((⟨kra, m.source i0 order⟩ : Composite _ T).rateModel kB temp ν)
          a e dt).length_eq
        rw [hu] at this
        exact this
    rw [this hrun, hst0]
  have hready1 : SiteEnergy.Ready m s.st.occ.length s1.ms ∧ ∃ rt, s1.ms.runtime = some rt := by
    obtain ⟨lk, _, _, _, _, rt, -, hr, -, -, -, -, -, hrt⟩ := SiteEnergy.initializeState_ok (source_init k7)
    rw [hst]; exact ⟨hr, rt, hrt⟩
  obtain ⟨hr1, rt1, hrt1⟩ := hready1
  obtain ⟨d, ext, d', ext', y1, y2, y3⟩ := harr
  obtain ⟨rt, hrt⟩ := hF.runtime
  have hrate : ∀ e, ((⟨kra, m.source i0 order⟩ : Composite _ T).rateModel kB temp ν).computeProbability
      s1.ms e s1.st = ((⟨kra, m.source i0 order⟩ : Composite _ T).rateModel kB temp
        ν).computeProbability s.ms e s.st := by
    intro e
    have hcomp : (m.compute s1.ms e s.st).1 = (m.compute s.ms e s.st).1 := by
      rw [SiteEnergy.compute_ready hF.ready y1 hrt, SiteEnergy.compute_ready hr1 y2 hrt1]
      simp only [changesPre_ready hr1 hF.ready]
      cases SiteEnergy.changesPre s.ms e s.st.occ with
      | error x => rfl
      | ok changes =>
        simp only
        split
        · rfl
        · cases hfn : m.computeFn with
          | none => rfl
          | some fn => simp only [hval fn rt rt1 ext ext' changes e s.st hfn y3]
    rw [← hst]
    simp only [Composite.rateModel, Composite.computeProbability, SiteEnergy.source, SiteSource.model,
      hcomp]
  have hprob : s1.prob = s.prob := by
    apply List.ext_getElem?
    intro i
    cases he : s.lib.events[i]? with
    | none =>
      have hl : s.lib.events.length ≤ i := by simpa using he
      rw [List.getElem?_eq_none (by rw [k8.length, hlib]; exact hl),
        List.getElem?_eq_none (by rw [hfresh.length]; exact hl)]
    | some e =>
      obtain ⟨p, hp, hpc⟩ := hfresh.fresh i e he
      obtain ⟨q, hq, hqc⟩ := k8.fresh i e (by rw [hlib]; exact he)
      rw [hrate, hpc] at hqc
      cases hqc
      rw [hp, hq]
  exact ⟨hst.symm, hlib, hprob, by rw [k8.cum, hfresh.cum, hprob], d, ext, d', ext', y1, y2, y3⟩

/-- A calculator that answers from the changes alone. -/
noncomputable def changesModel : SiteEnergy Unit EReal where
  units := .meV
  makeRuntime := .ok ()
  computeFn := some fun _ _ cs _ _ => .ok (.number cs.length)

/-- Non-vacuity of C92_site_energy_restart: such a calculator, one executed hop, and a simulation
constructed from the state after it. -/
example (k : Kernel ℝ EReal Unit) : ∃ (lib : EventLib Unit Unit)
    (s0 s s1 : Sim Unit Unit (SiteEnergyState Unit) ℝ EReal) (fs' : FileSystem EReal),
    IndicesFit 2 lib.events ∧ SitesDistinct changesModel 2 ∧ LocalCalculator changesModel 2 ∧
    ReadsValues changesModel ∧ MappingsAreDicts changesModel ∧
    Sim.init k ((⟨some (constantExpansion 0), changesModel.source {} none⟩ :
      Composite _ EReal).rateModel 1 1 1) lib.generateEventDependencies none (some ⟨[0, 1], 0, 0⟩) =
      .ok s0 ∧
    Executed k ((⟨some (constantExpansion 0), changesModel.source {} none⟩ :
      Composite _ EReal).rateModel 1 1 1) s0 [(plainEvent 0 1 [], 1)] s ∧
    s.st.saveCheckpoint (fun _ => none) "run/ck.json" = .ok fs' ∧
    State.loadCheckpoint fs' "run/ck.json" = .ok s.st ∧
    Sim.init k ((⟨some (constantExpansion 0), changesModel.source {} none⟩ :
      Composite _ EReal).rateModel 1 1 1) lib.generateEventDependencies none (some s.st) = .ok s1 ∧
    ∀ x d ext, x = s0.ms ∨ x = s1.ms → x.external = some (d, ext) →
      ValuesFit changesModel d [0, 1] ∧ BackgroundFits changesModel d := by
  let lib : EventLib Unit Unit := ({} : EventLib Unit Unit).addAll [plainEvent 0 1 []]
  have hdeps : lib.generateEventDependencies = { lib with deps := some [[0]] } := by
    simp [EventLib.generateEventDependencies, generateEventDependencyMatrix, lib, EventLib.addAll,
      EventLib.addEvent, Event.sites, npSort, List.mergeSort, List.MergeSort.Internal.splitInTwo,
      arraysIntersect, List.zipIdx, plainEvent]
  let r : ℝ := 1 * Real.exp (-((0 + 0) + ((2 : Nat) * 1) / 2) / (1 * 1))
  let ms0 : SiteEnergyState Unit := (changesModel.initializeState {} [0, 1] none none).2
  let ms1 : SiteEnergyState Unit := { ms0 with external := some (.int64, [.int 1, .int 0]) }
  let ms2 : SiteEnergyState Unit := (changesModel.initializeState {} [1, 0] none none).2
  refine ⟨lib, ⟨lib.generateEventDependencies, ⟨[0, 1], 0, 0⟩, ms0, [r], k.cumsum [r]⟩,
    ⟨lib.generateEventDependencies, ⟨[1, 0], 0 + 1, 1⟩, ms1, [r], k.cumsum [r]⟩,
    ⟨lib.generateEventDependencies, ⟨[1, 0], 0 + 1, 1⟩, ms2, [r], k.cumsum [r]⟩, _,
    ?_, ?_, ?_, ?_, ?_, rfl, ?_, rfl, ?_, rfl, ?_⟩
  · intro e he i hi
    have : e = plainEvent 0 1 [] := by simpa [lib, EventLib.addAll_events] using he
    subst this
    simp [plainEvent] at hi
    rcases hi with rfl | rfl <;> simp
  · intro i j _ _ h
    simpa [extSite, changesModel] using h
  · intro fn rt rt' ext ext' changes e st st' hfn _ _ _
    simp only [changesModel, Option.some.injEq] at hfn
    subst hfn
    rfl
  · intro fn rt rt' ext ext' changes e st hfn _
    simp only [changesModel, Option.some.injEq] at hfn
    subst hfn
    rfl
  · constructor
    · intro d hd
      cases hd
    · intro ds hds
      cases hds
  · refine .cons ?_ (.nil _)
    simp only [hdeps]; rfl
  · rfl
  · intro x d ext hx he
    have hd : d = .int64 := by
      rcases hx with rfl | rfl <;> (cases he; rfl)
    subst hd
    exact ⟨C40_int_fits changesModel _ fun i st x _ _ hx => by
      simp only [extValue, changesModel] at hx
      cases hx
      exact ⟨_, rfl⟩, ⟨_, rfl, rfl⟩⟩

end external

/-- C92, the other way round.  With a calculator that looks further than the sites an event lists,
the simulation constructed from the saved state is not the one that was saved, for every file
name and arithmetic: the old table is out of date, the new one is not. -/
theorem C92_far_calculator_differs (k : Kernel ℝ EReal Unit) :
    ∃ (lib : EventLib Unit Unit) (st : State EReal)
      (s0 s : Sim Unit Unit (SiteEnergyState Unit) ℝ EReal) (e : Event),
      IndicesFit st.occ.length lib.events ∧ SitesDistinct farModel st.occ.length ∧
      Sim.init k ((⟨some (constantExpansion 0), farModel.source {} none⟩ :
        Composite _ EReal).rateModel 1 1 1) lib.generateEventDependencies none (some st) = .ok s0 ∧
      s0.update k ((⟨some (constantExpansion 0), farModel.source {} none⟩ :
        Composite _ EReal).rateModel 1 1 1) e 1 = (.ok (), s) ∧
      ∀ (fs fs' : FileSystem EReal) (path : String), s.st.saveCheckpoint fs path = .ok fs' →
        ¬ BareName path ".json" →
        ∃ st1, State.loadCheckpoint fs' path = .ok st1 ∧
          Sim.init k ((⟨some (constantExpansion 0), farModel.source {} none⟩ :
            Composite _ EReal).rateModel 1 1 1) lib.generateEventDependencies none (some st1) ≠
            .ok s := by
  obtain ⟨lib, st, s0, s, e, h1, h2, h3, h4, h5⟩ := C70_far_calculator_stale k
  refine ⟨lib, st, s0, s, e, h1, h2, h3, h4, ?_⟩
  intro fs fs' path hs hn
  obtain ⟨st1, h6, h7⟩ := C92_restart_iff k _ _ none st s0 s h3 [(e, 1)] (.cons h4 (.nil _)) fs fs'
    path hs hn
  exact ⟨st1, h6, fun h => h5 (h7.1 h).2⟩

/-- Arithmetic of the next example: the first random number is the number of the event. -/
def drawKernel : Kernel Int Nat Nat :=
  { cumsum := fun l => l
    propose := fun _ u _ => .ok (u, 1) }

/-- C92, the limit of it.  `run` makes its random numbers anew from the configured seed
(`kmc.py:488-492`), so a continued run with the same seed uses the numbers of the first run again,
not those that follow, and then it does not end where the uninterrupted run ends. -/
theorem C92_same_seed_differs :
    ∃ (lib : EventLib Unit Unit) (rng : Nat → Nat × Nat) (s0 s1 whole again : Sim Unit Unit Unit Int Nat)
      (a b : Event × Nat) (c : Event × Nat),
      LocalModel toyLocal ∧
      Sim.init drawKernel toyLocal lib.generateEventDependencies none (some ⟨[1, 0, 0], 0, 0⟩) = .ok s0 ∧
      Steps drawKernel toyLocal rng true 0 s0 [a] s1 ∧
      Steps drawKernel toyLocal rng true 0 s0 [a, b] whole ∧
      Sim.init drawKernel toyLocal lib.generateEventDependencies none (some s1.st) = .ok s1 ∧
      Steps drawKernel toyLocal rng true 0 s1 [c] again ∧ again.st.occ ≠ whole.st.occ := by
  let lib : EventLib Unit Unit := ({} : EventLib Unit Unit).addAll toyEvents
  have hdeps : lib.generateEventDependencies = { lib with deps := some [[0, 1], [0, 1]] } := by
    simp [EventLib.generateEventDependencies, generateEventDependencyMatrix, lib, EventLib.addAll,
      EventLib.addEvent, Event.sites, npSort, List.mergeSort, List.MergeSort.Internal.splitInTwo,
      arraysIntersect, List.zipIdx, toyEvents]
  let lib' : EventLib Unit Unit := { lib with deps := some [[0, 1], [0, 1]] }
  refine ⟨lib, fun n => (n, 0), ⟨lib', ⟨[1, 0, 0], 0, 0⟩, (), [1, 0], [1, 0]⟩,
    ⟨lib', ⟨[0, 1, 0], 1, 1⟩, (), [0, 1], [0, 1]⟩, ⟨lib', ⟨[0, 0, 1], 2, 2⟩, (), [0, 0], [0, 0]⟩,
    ⟨lib', ⟨[1, 0, 0], 2, 2⟩, (), [1, 0], [1, 0]⟩, (⟨[0, 1], [], none⟩, 1), (⟨[1, 2], [], none⟩, 1),
    (⟨[0, 1], [], none⟩, 1), toyLocal_local, ?_, ?_, ?_, ?_, ?_, by decide⟩
  · rw [hdeps]; rfl
  · exact .cons rfl rfl (.nil _ _)
  · exact .cons rfl rfl (.cons rfl rfl (.nil _ _))
  · rw [hdeps]; rfl
  · exact .cons rfl rfl (.nil _ _)

end KMC
