import Verif.Lemmas.SamplerRun
import Verif.Lemmas.Registration
import Verif.Props.RunProps
/-
C20, C21, C22, C24 (callbacks), C57 and the sampling part of C19.
-/
set_option linter.unusedSectionVars false

namespace KMC
open Spec

section
variable {T V Row : Type}

theorem firedTicks_step [Sub T] [LE T] [DecidableLE T] (k : Int) (last : Option T)
    (ticks : List (Tick T)) :
    firedTicks (some k) none last ticks = ticks.filter (fun tk => decide (OnMultiple k tk)) := by
  induction ticks generalizing last with
  | nil => rfl
  | cons tk tks ih =>
    have : shouldTrigger tk.step tk.time (some k) (none : Option T) last =
        decide (OnMultiple k tk) := by
      rw [Bool.eq_iff_iff]
      simp [shouldTrigger, OnMultiple, Int.dvd_iff_emod_eq_zero]
    rw [firedTicks, List.filter_cons, this]
    split <;> simp [ih]

theorem firedTicks_greedy [Sub T] [LE T] [DecidableLE T] (τ : T) (last : Option T)
    (ticks : List (Tick T)) : Greedy τ last ticks (firedTicks none (some τ) last ticks) := by
  induction ticks generalizing last with
  | nil => exact .nil _
  | cons tk tks ih =>
    have : shouldTrigger tk.step tk.time none (some τ) last = true ↔ Elapsed τ last tk.time := by
      cases last <;> simp [shouldTrigger, Elapsed]
    rw [firedTicks]
    split
    · rename_i h; exact .take (this.1 h) (ih _)
    · rename_i h; exact .skip (fun hc => h (this.2 hc)) (ih _)

/-- A greedy selection never takes two samples less than `τ` apart, takes none before `τ`
(since time zero, or since the last sample), and takes opportunities in order. -/
theorem Greedy.spaced [Sub T] [LE T] {τ : T} {last : Option T} {ticks fired : List (Tick T)}
    (h : Greedy τ last ticks fired) :
    fired.IsChain (fun a b => τ ≤ b.time - a.time) ∧ fired.Sublist ticks ∧
    (∀ tk, fired.head? = some tk → Elapsed τ last tk.time) := by
  induction h with
  | nil => simp
  | @take last tk ticks fired he _ ih =>
    obtain ⟨i1, i2, i3⟩ := ih
    refine ⟨?_, i2.cons_cons _, by simp [he]⟩
    cases fired with
    | nil => simp
    | cons a as =>
      refine List.IsChain.cons_cons ?_ i1
      exact i3 a rfl
  | skip _ _ ih =>
    obtain ⟨i1, i2, i3⟩ := ih
    exact ⟨i1, i2.cons _, i3⟩

/-- A greedy selection misses nothing: when an opportunity comes at which `τ` has elapsed since
the last sample taken before it (or since time zero), it is taken. -/
theorem Greedy.no_miss [Sub T] [LE T] {τ : T} {last : Option T} {ticks fired : List (Tick T)}
    (h : Greedy τ last ticks fired) (pre post : List (Tick T)) (tk : Tick T)
    (hsplit : ticks = pre ++ tk :: post) :
    ∃ before after, Greedy τ last pre before ∧
      (Elapsed τ ((before.getLast?.map Tick.time).or last) tk.time ∧ fired = before ++ tk :: after ∨
       ¬ Elapsed τ ((before.getLast?.map Tick.time).or last) tk.time ∧ fired = before ++ after) := by
  induction h generalizing pre with
  | nil => simp at hsplit
  | @take last t0 ticks fired he hg ih =>
    cases pre with
    | nil =>
      simp only [List.nil_append, List.cons.injEq] at hsplit
      obtain ⟨rfl, rfl⟩ := hsplit
      exact ⟨[], fired, .nil _, Or.inl ⟨by simpa using he, rfl⟩⟩
    | cons p0 pre =>
      simp only [List.cons_append, List.cons.injEq] at hsplit
      obtain ⟨rfl, hsplit⟩ := hsplit
      obtain ⟨b, a, hb, hor⟩ := ih pre hsplit
      refine ⟨t0 :: b, a, .take he hb, ?_⟩
      have e : ((t0 :: b).getLast?.map Tick.time).or last =
          (b.getLast?.map Tick.time).or (some t0.time) := by
        cases hbl : b.getLast? with
        | none =>
          rw [List.getLast?_eq_none_iff] at hbl
          subst hbl; simp
        | some x => rw [List.getLast?_cons, hbl]; simp
      rw [e]
      rcases hor with ⟨h1, h2⟩ | ⟨h1, h2⟩
      · exact Or.inl ⟨h1, by rw [h2]; rfl⟩
      · exact Or.inr ⟨h1, by rw [h2]; rfl⟩
  | @skip last t0 ticks fired he hg ih =>
    cases pre with
    | nil =>
      simp only [List.nil_append, List.cons.injEq] at hsplit
      obtain ⟨rfl, rfl⟩ := hsplit
      exact ⟨[], fired, .nil _, Or.inr ⟨by simpa using he, rfl⟩⟩
    | cons p0 pre =>
      simp only [List.cons_append, List.cons.injEq] at hsplit
      obtain ⟨rfl, hsplit⟩ := hsplit
      obtain ⟨b, a, hb, hor⟩ := ih pre hsplit
      exact ⟨b, a, .skip he hb, hor⟩

/-- C22.  Keeping the last items: a suffix of the whole list with `min m n` entries, all of
them without a limit. -/
theorem C22_keepLast_meaning {α : Type} (l : List α) (m : Option Int) :
    keepLast m l <:+ l ∧
    (m = none → keepLast m l = l) ∧
    (∀ k : Nat, m = some (k : Int) → (keepLast m l).length = min k l.length) := by
  cases m with
  | none => simp [keepLast]
  | some k =>
    refine ⟨List.drop_suffix _ _, by simp, ?_⟩
    intro j hj
    cases hj
    simp only [keepLast, Int.toNat_natCast, List.length_drop]
    omega

/-- C22.  Whatever values a property returns, after any number of samples the stored list is
the last `m` records in order of sampling (all of them without a limit). -/
theorem C22_records_are_the_most_recent (spec : PropertySpec T V)
    (hm : ∀ k, spec.maxRecords = some k → 0 < k) (samples : List (Int × T × V)) :
    samples.foldl (fun recs p => appendRecord recs spec p.1 p.2.1 p.2.2) [] =
      keepLast spec.maxRecords
        (samples.map fun p => (⟨spec.name, p.1, p.2.1, p.2.2⟩ : PropertyRecord T V)) := by
  have : ∀ (samples : List (Int × T × V)) (all : List (PropertyRecord T V)),
      samples.foldl (fun recs p => appendRecord recs spec p.1 p.2.1 p.2.2)
        (keepLast spec.maxRecords all) =
      keepLast spec.maxRecords (all ++
        samples.map fun p => (⟨spec.name, p.1, p.2.1, p.2.2⟩ : PropertyRecord T V)) := by
    intro samples
    induction samples with
    | nil => simp
    | cons p ps ih =>
      intro all
      simp only [List.foldl_cons, List.map_cons]
      rw [appendRecord_keepLast spec.maxRecords hm _ spec rfl, keepLast_append, ih]
      simp
  have h := this samples []
  have e : keepLast spec.maxRecords ([] : List (PropertyRecord T V)) = [] := by
    cases spec.maxRecords <;> simp [keepLast]
  rw [e] at h
  simpa using h

/-- Non-vacuity of C22: five samples, a limit of three. -/
example : ([(1, 10, 7), (2, 11, 8), (3, 12, 9), (4, 13, 10), (5, 14, 11)] : List (Int × Nat × Nat)).foldl
    (fun recs p => appendRecord recs
      { name := "f", callback := fun _ _ _ => .value 0, maxRecords := some 3 } p.1 p.2.1 p.2.2) [] =
    [⟨"f", 3, 12, 9⟩, ⟨"f", 4, 13, 10⟩, ⟨"f", 5, 14, 11⟩] := by decide

end

section runs
variable {σ φ M R T U K V Row : Type} [Field K] [LinearOrder K] [FloorRing K]
variable [Add T] [Zero T] [Sub T] [LE T] [DecidableLE T]

/-- C20.  In every finished run, an enabled stored property with step interval `i` and no time
interval has exactly the records of the visited production states whose step number is a
positive multiple of `i`, in order, each holding the callback's value for that state (limited
to the last `max_records`; a call that raised and was tolerated leaves no record). -/
theorem C20_records_exactly_on_multiples (k : Kernel R T U) (m : RateModel M R T)
    (g : Geometry K) (lookup : Option HopStateLookup)
    (summary : Trajectory K → T → List (String × Bool) → Row) (ops : List (PlanOp T V))
    (rng : Nat → U × U) (len equil prod : Nat) (s : Sim σ φ M R T)
    (name : String) (spec : PropertySpec T V) (i : Int)
    (hspec : dictGet (planAfter ops).attached name = some spec)
    (hen : spec.enabled = true) (hst : spec.store = true) (hi : spec.interval = some i)
    (ht : spec.timeInterval = none) (hg : (planAfter ops).globalTimeInterval = none)
    (h : (s.run k m g lookup summary (planAfter ops) rng len equil prod).outcome = .ok ()) :
    ∃ s1 states rs,
      s.equilSteps k m rng (equil * len) 0 = (.ok (), s1) ∧
      (s.run k m g lookup summary (planAfter ops) rng len equil prod).tracker = some rs ∧
      Visited k m rng (equil * len) s1 states rs.sim ∧ states.length = prod * len ∧
      dictGet rs.sampler.records name = some (keepLast spec.maxRecords
        (((states.map tickOf).filter fun tk => decide (OnMultiple i tk)).filterMap
          (recordAt name spec.callback))) := by
  obtain ⟨s1, states, rs, h1, h2, -, h4, h5, -, h7⟩ := run_records (planWF_after ops) h
  refine ⟨s1, states, rs, h1, h2, h4, h5, ?_⟩
  rw [h7 name spec hspec hen hst, hi, ht, hg]
  simp only [Option.orElse_some, Option.orElse_none]
  rw [firedTicks_step]

/-- C20.  One sample, whatever happened before (registration calls, runs, failed samples): an
enabled stored property with step interval `i` and no time interval gets a new record exactly
when the step number is a positive multiple of `i` and its callback returned a value. -/
theorem C20_sample_fires_iff_multiple (ops : List (RegOp T V Row)) (s s' : Sampler T V Row)
    (hs : (registryAfter ops).active = some s) (name : String) (spec : PropertySpec T V)
    (recs : List (PropertyRecord T V)) (i : Int)
    (hspec : dictGet s.properties name = some spec) (hr : dictGet s.records name = some recs)
    (hen : spec.enabled = true) (hst : spec.store = true) (hi : spec.interval = some i)
    (ht : spec.timeInterval = none) (hg : s.globalTimeInterval = none)
    (summary : List (String × Bool) → Row) (st : State T) (step : Int) (t : T)
    (h : s.sampleProperties summary st step t = (.ok (), s')) :
    (¬ (0 < step ∧ i ∣ step) → dictGet s'.records name = some recs) ∧
    (0 < step ∧ i ∣ step → ∀ v, spec.callback st step t = .value v →
      dictGet s'.records name = some (keepLast spec.maxRecords (recs ++ [⟨name, step, t, v⟩]))) := by
  have hrw := regWF_after ops
  have hin := hrw.active s hs
  have hw := hin.wf
  have hsam : Sampled s [⟨st, step, t⟩] s' := .cons summary h (.nil _)
  have hmax : ∀ j, spec.maxRecords = some j → 0 < j := by
    intro j hj
    have hk : name ∈ dictKeys (registryAfter ops).plan.attached := by
      rw [← hin.keys]; exact (dictGet_isSome_iff _ _).1 ⟨_, hspec⟩
    obtain ⟨a, ha⟩ := (dictGet_isSome_iff _ _).2 hk
    obtain ⟨b, hb, x, y, rfl⟩ := hin.specs name a ha
    rw [hspec] at hb; cases hb
    have hv := (hrw.plan.sched name a (mem_of_dictGet ha)).2
    have hj' : a.maxRecords = some j := hj
    rw [hj'] at hv
    unfold validateMaxRecords at hv
    by_contra hc
    simp only at hv
    rw [if_pos (by omega)] at hv
    cases hv
  obtain ⟨-, -, -, -, -, hall⟩ := sampled_get hsam hw
  obtain ⟨-, hrec⟩ := hall name spec recs hspec hr hmax hen
  rw [hi, ht, hg, if_pos hst] at hrec
  simp only [Option.orElse_some, Option.orElse_none, firedTicks_step] at hrec
  constructor
  · intro hn
    have : decide (OnMultiple i (⟨st, step, t⟩ : Tick T)) = false := decide_eq_false hn
    simpa [this] using hrec
  · intro hp v hv
    have : decide (OnMultiple i (⟨st, step, t⟩ : Tick T)) = true := decide_eq_true hp
    simpa [this, recordAt, hv] using hrec

/-- C21 (partial).  In every finished run, an enabled stored property whose only schedule is
the time interval `τ` has exactly the records of a greedy selection of the visited production
states: the first at the first time at least `τ`, each later one at the first time at least
`τ` after the previous one.

Missing for the full statement: the plan must set a global time interval and no global step
interval.  Otherwise a property that gives only a time interval also inherits a step interval
(by default the pass length) and fires on its multiples as well, see
`C21_inherited_step_interval_fires_early`. -/
theorem C21_time_interval_greedy_partial (k : Kernel R T U) (m : RateModel M R T)
    (g : Geometry K) (lookup : Option HopStateLookup)
    (summary : Trajectory K → T → List (String × Bool) → Row) (ops : List (PlanOp T V))
    (rng : Nat → U × U) (len equil prod : Nat) (s : Sim σ φ M R T)
    (name : String) (spec : PropertySpec T V) (τ : T)
    (hspec : dictGet (planAfter ops).attached name = some spec)
    (hen : spec.enabled = true) (hst : spec.store = true) (hi : spec.interval = none)
    (ht : spec.timeInterval = some τ) (hg : (planAfter ops).globalInterval = none)
    (hgt : (planAfter ops).globalTimeInterval.isSome)
    (h : (s.run k m g lookup summary (planAfter ops) rng len equil prod).outcome = .ok ()) :
    ∃ s1 states rs fired,
      s.equilSteps k m rng (equil * len) 0 = (.ok (), s1) ∧
      (s.run k m g lookup summary (planAfter ops) rng len equil prod).tracker = some rs ∧
      Visited k m rng (equil * len) s1 states rs.sim ∧ states.length = prod * len ∧
      Greedy τ none (states.map tickOf) fired ∧
      dictGet rs.sampler.records name = some (keepLast spec.maxRecords
        (fired.filterMap (recordAt name spec.callback))) := by
  obtain ⟨s1, states, rs, h1, h2, -, h4, h5, -, h7⟩ := run_records (planWF_after ops) h
  refine ⟨s1, states, rs, firedTicks none (some τ) none (states.map tickOf), h1, h2, h4, h5,
    firedTicks_greedy _ _ _, ?_⟩
  rw [h7 name spec hspec hen hst, hi, ht]
  have : (planAfter ops).trackerInterval (some ((max len 1 : Nat) : Int)) = none := by
    unfold PropertyPlan.trackerInterval
    rw [hg]
    cases hq : (planAfter ops).globalTimeInterval with
    | none => rw [hq] at hgt; cases hgt
    | some x => rfl
  rw [this]
  rfl

theorem shouldTrigger_due (iv : Option Int) (tiv last : Option T) (tk : Tick T) :
    shouldTrigger tk.step tk.time iv tiv last = true ↔ Due iv tiv last tk := by
  cases iv <;> cases tiv <;> cases last <;>
    simp [shouldTrigger, Due, Elapsed, Int.dvd_iff_emod_eq_zero]

theorem firedTicks_scheduled (iv : Option Int) (tiv last : Option T) (ticks : List (Tick T)) :
    Scheduled iv tiv last ticks (firedTicks iv tiv last ticks) := by
  induction ticks generalizing last with
  | nil => exact .nil _
  | cons tk tks ih =>
    rw [firedTicks]
    split
    · rename_i h; exact .take ((shouldTrigger_due _ _ _ _).1 h) (ih _)
    · rename_i h; exact .skip (fun hc => h ((shouldTrigger_due _ _ _ _).2 hc)) (ih _)

/-- C58.  The complete sampling law.  In every finished run, for every plan and every enabled
stored property, the records are those of the visited production states that were due for the
property's effective intervals: its own ones where given, else the plan's; a plan with neither
frequency stands for the pass length. -/
theorem C58_effective_schedule (k : Kernel R T U) (m : RateModel M R T)
    (g : Geometry K) (lookup : Option HopStateLookup)
    (summary : Trajectory K → T → List (String × Bool) → Row) (ops : List (PlanOp T V))
    (rng : Nat → U × U) (len equil prod : Nat) (s : Sim σ φ M R T)
    (name : String) (spec : PropertySpec T V)
    (hspec : dictGet (planAfter ops).attached name = some spec)
    (hen : spec.enabled = true) (hst : spec.store = true)
    (h : (s.run k m g lookup summary (planAfter ops) rng len equil prod).outcome = .ok ()) :
    ∃ s1 states rs fired,
      s.equilSteps k m rng (equil * len) 0 = (.ok (), s1) ∧
      (s.run k m g lookup summary (planAfter ops) rng len equil prod).tracker = some rs ∧
      Visited k m rng (equil * len) s1 states rs.sim ∧ states.length = prod * len ∧
      Scheduled
        (firstGiven [spec.interval, (planAfter ops).globalInterval,
          if (planAfter ops).globalTimeInterval.isNone then some ((max len 1 : Nat) : Int) else none])
        (firstGiven [spec.timeInterval, (planAfter ops).globalTimeInterval])
        none (states.map tickOf) fired ∧
      dictGet rs.sampler.records name = some (keepLast spec.maxRecords
        (fired.filterMap (recordAt name spec.callback))) := by
  obtain ⟨s1, states, rs, h1, h2, -, h4, h5, -, h7⟩ := run_records (planWF_after ops) h
  refine ⟨s1, states, rs, _, h1, h2, h4, h5, firedTicks_scheduled _ _ _ _, ?_⟩
  rw [h7 name spec hspec hen hst]
  unfold PropertyPlan.trackerInterval
  cases spec.interval <;> cases spec.timeInterval <;> cases (planAfter ops).globalInterval <;>
    cases (planAfter ops).globalTimeInterval <;> simp [firstGiven]

theorem firedObs_step (j : Int) (last : Option T) (obs : List (State T × Trajectory K)) :
    firedObs (some j) none last obs =
      obs.filter (fun p => decide (OnMultiple j (tickOf p.1))) := by
  induction obs generalizing last with
  | nil => rfl
  | cons p ps ih =>
    have : shouldTrigger p.1.step p.1.time (some j) (none : Option T) last =
        decide (OnMultiple j (tickOf p.1)) := by
      rw [Bool.eq_iff_iff]
      simp [shouldTrigger, OnMultiple, tickOf, Int.dvd_iff_emod_eq_zero]
    rw [firedObs, List.filter_cons, this]
    split <;> simp [ih]

theorem firedObs_scheduled (iv : Option Int) (tiv last : Option T)
    (obs : List (State T × Trajectory K)) :
    (firedObs iv tiv last obs).Sublist obs ∧
    Scheduled iv tiv last (obs.map fun p => tickOf p.1)
      ((firedObs iv tiv last obs).map fun p => tickOf p.1) := by
  induction obs generalizing last with
  | nil => exact ⟨List.Sublist.refl _, .nil _⟩
  | cons p ps ih =>
    rw [firedObs]
    split
    · rename_i h
      exact ⟨(ih _).1.cons_cons _, .take ((shouldTrigger_due _ _ _ (tickOf p.1)).1 h) (ih _).2⟩
    · rename_i h
      exact ⟨(ih _).1.cons _, .skip (fun hc => h ((shouldTrigger_due _ _ _ (tickOf p.1)).2 hc)) (ih _).2⟩

/-- C58.  The built-in summary follows the plan-wide frequency in the same way: its rows are
those of the visited production states that were due for the plan's intervals, each with the
time of the state and the summary of the trajectory at that moment. -/
theorem C58_summary_schedule (k : Kernel R T U) (m : RateModel M R T)
    (g : Geometry K) (lookup : Option HopStateLookup)
    (summary : Trajectory K → T → List (String × Bool) → Row) (ops : List (PlanOp T V))
    (rng : Nat → U × U) (len equil prod : Nat) (s : Sim σ φ M R T)
    (h : (s.run k m g lookup summary (planAfter ops) rng len equil prod).outcome = .ok ()) :
    ∃ s1 traj obs rs, ∃ fired : List (State T × Trajectory K),
      s.equilSteps k m rng (equil * len) 0 = (.ok (), s1) ∧
      Trajectory.init g lookup s1.st.occ = .ok traj ∧
      (s.run k m g lookup summary (planAfter ops) rng len equil prod).tracker = some rs ∧
      Observed k m g rng (equil * len) s1 traj obs rs.sim rs.traj ∧ obs.length = prod * len ∧
      fired.Sublist obs ∧
      Scheduled
        (firstGiven [(planAfter ops).globalInterval,
          if (planAfter ops).globalTimeInterval.isNone then some ((max len 1 : Nat) : Int) else none])
        (planAfter ops).globalTimeInterval
        none (obs.map fun p => tickOf p.1) (fired.map fun p => tickOf p.1) ∧
      rs.sampler.results =
        fired.map fun p => (p.1.time, summary p.2 p.1.time (planAfter ops).builtin) := by
  obtain ⟨s1, traj, sm, rs, h1, h2, h3, h4, h5⟩ := run_ok h
  have hp := planWF_after ops
  rw [applyPlan_ok hp] at h3
  simp only [Prod.mk.injEq, true_and] at h3
  obtain ⟨obs, hl, hv, hr⟩ := passes_observed (by rw [← h3]; exact applyPlan_wf hp _ _) h4
  have hf := firedObs_scheduled
    (firstGiven [(planAfter ops).globalInterval,
      if (planAfter ops).globalTimeInterval.isNone then some ((max len 1 : Nat) : Int) else none])
    (planAfter ops).globalTimeInterval none obs
  refine ⟨s1, traj, obs, rs, _, h1, h2, by rw [h5], hv, hl, hf.1, hf.2, ?_⟩
  rw [hr, ← h3]
  simp only [List.nil_append]
  congr 2
  unfold PropertyPlan.trackerInterval
  cases (planAfter ops).globalInterval <;>
    cases (planAfter ops).globalTimeInterval <;> simp [firstGiven]

theorem observed_steps {k : Kernel R T U} {m : RateModel M R T} {g : Geometry K}
    {rng : Nat → U × U} {c : Nat} {s s' : Sim σ φ M R T} {t t' : Trajectory K}
    {obs : List (State T × Trajectory K)} (h : Observed k m g rng c s t obs s' t') :
    ∀ (i : Nat) p, obs[i]? = some p → p.1.step = s.st.step + (i + 1 : Nat) := by
  induction h with
  | nil => simp
  | @cons c s s1 s2 t t1 t2 e dt obs hp ht hu _ ih =>
    have h1 : s1.st.step = s.st.step + 1 := by
      obtain ⟨st, ms, i, prob, h1, -, -, -, rfl⟩ := update_ok hu
      obtain ⟨f, t, i, j, hi, hj, he, -, -, rfl⟩ := applyEvent_ok h1
      rfl
    intro i p hst
    cases i with
    | zero => simp at hst; subst hst; rw [h1]; simp
    | succ i =>
      simp only [List.getElem?_cons_succ] at hst
      rw [ih i p hst, h1]
      push_cast; ring

/-- C57.  In every finished run of a plan without global frequency, the built-in summary table
has exactly one row for each visited production state whose step number is a positive
multiple of the pass length, in order; the row holds the time of that state and the summary
computed from the trajectory at that moment with the plan's built-in switches. -/
theorem C57_default_summary_rows (k : Kernel R T U) (m : RateModel M R T)
    (g : Geometry K) (lookup : Option HopStateLookup)
    (summary : Trajectory K → T → List (String × Bool) → Row) (ops : List (PlanOp T V))
    (rng : Nat → U × U) (len equil prod : Nat) (s : Sim σ φ M R T)
    (hg : (planAfter ops).globalInterval = none) (hgt : (planAfter ops).globalTimeInterval = none)
    (h : (s.run k m g lookup summary (planAfter ops) rng len equil prod).outcome = .ok ()) :
    ∃ s1 traj obs rs,
      s.equilSteps k m rng (equil * len) 0 = (.ok (), s1) ∧
      Trajectory.init g lookup s1.st.occ = .ok traj ∧
      (s.run k m g lookup summary (planAfter ops) rng len equil prod).tracker = some rs ∧
      Observed k m g rng (equil * len) s1 traj obs rs.sim rs.traj ∧ obs.length = prod * len ∧
      rs.sampler.results =
        (obs.filter fun p => decide (OnMultiple (max len 1 : Nat) (tickOf p.1))).map
          fun p => (p.1.time, summary p.2 p.1.time (planAfter ops).builtin) := by
  obtain ⟨s1, traj, sm, rs, h1, h2, h3, h4, h5⟩ := run_ok h
  have hp := planWF_after ops
  rw [applyPlan_ok hp] at h3
  simp only [Prod.mk.injEq, true_and] at h3
  obtain ⟨obs, hl, hv, hr⟩ := passes_observed (by rw [← h3]; exact applyPlan_wf hp _ _) h4
  refine ⟨s1, traj, obs, rs, h1, h2, by rw [h5], hv, hl, ?_⟩
  rw [hr, ← h3]
  simp only [List.nil_append]
  have : (planAfter ops).trackerInterval (some ((max len 1 : Nat) : Int)) =
      some ((max len 1 : Nat) : Int) := by
    unfold PropertyPlan.trackerInterval; rw [hg, hgt]
  rw [this, hgt, firedObs_step]

theorem count_multiples {α : Type} (f : α → Int) (len : Nat) (hlen : 0 < len) :
    ∀ (n : Nat) (a : Int) (l : List α), 0 ≤ a → (len : Int) ∣ a → l.length = n * len →
      (∀ (i : Nat) x, l[i]? = some x → f x = a + (i + 1 : Nat)) →
      (l.filter fun x => decide (0 < f x ∧ (len : Int) ∣ f x)).length = n := by
  intro n
  induction n with
  | zero =>
    intro a l _ _ hl _
    have : l = [] := List.eq_nil_of_length_eq_zero (by simpa using hl)
    subst this; rfl
  | succ n ih =>
    intro a l ha hd hl hf
    have hll : len ≤ l.length := by rw [hl]; nlinarith [Nat.zero_le n]
    obtain ⟨b, rfl⟩ : ∃ b, len = b + 1 := ⟨len - 1, by omega⟩
    -- the first b entries are not multiples, entry b is
    have hb : b < l.length := by omega
    have hsplit : l = l.take b ++ l[b] :: l.drop (b + 1) := by
      rw [List.getElem_cons_drop]; exact (List.take_append_drop b l).symm
    have h1 : (l.take b).filter (fun x => decide (0 < f x ∧ ((b + 1 : Nat) : Int) ∣ f x)) = [] := by
      rw [List.filter_eq_nil_iff]
      intro x hx
      obtain ⟨i, hi, rfl⟩ := List.mem_iff_getElem.1 hx
      have hib : i < b := by simp at hi; omega
      have := hf i l[i] (by simp)
      rw [List.getElem_take, this]
      intro hc
      simp only [decide_eq_true_eq] at hc
      have h3 : ((b + 1 : Nat) : Int) ∣ ((i + 1 : Nat) : Int) := (Int.dvd_add_right hd).1 hc.2
      have := Int.le_of_dvd (by omega) h3
      omega
    have h2 : f l[b] = a + ((b + 1 : Nat) : Int) := hf b l[b] (by simp)
    have hnew : ((b + 1 : Nat) : Int) ∣ f l[b] := by
      rw [h2]; exact Int.dvd_add hd (dvd_refl _)
    rw [hsplit, List.filter_append, h1, List.nil_append, List.filter_cons]
    rw [if_pos (decide_eq_true ⟨by rw [h2]; omega, hnew⟩), List.length_cons]
    congr 1
    refine ih (f l[b]) (l.drop (b + 1)) (by rw [h2]; omega) hnew ?_ ?_
    · rw [List.length_drop, hl]
      rw [Nat.add_mul]; omega
    · intro i x hx
      rw [List.getElem?_drop] at hx
      rw [hf _ x hx, h2]
      push_cast; ring

/-- C57.  A default run that starts at a step that is a multiple of the (positive) pass
length, in particular from step zero, reports exactly one summary row per production pass. -/
theorem C57_one_row_per_pass (k : Kernel R T U) (m : RateModel M R T)
    (g : Geometry K) (lookup : Option HopStateLookup)
    (summary : Trajectory K → T → List (String × Bool) → Row) (ops : List (PlanOp T V))
    (rng : Nat → U × U) (len equil prod : Nat) (s : Sim σ φ M R T)
    (hg : (planAfter ops).globalInterval = none) (hgt : (planAfter ops).globalTimeInterval = none)
    (hlen : 0 < len) (h0 : 0 ≤ s.st.step) (hstep : (len : Int) ∣ s.st.step)
    (hz : ∀ t : T, t + 0 = t)
    (h : (s.run k m g lookup summary (planAfter ops) rng len equil prod).outcome = .ok ()) :
    ∃ rs, (s.run k m g lookup summary (planAfter ops) rng len equil prod).tracker = some rs ∧
      rs.sampler.results.length = prod := by
  obtain ⟨s1, traj, obs, rs, h1, h2, h3, h4, h5, h6⟩ :=
    C57_default_summary_rows k m g lookup summary ops rng len equil prod s hg hgt h
  refine ⟨rs, h3, ?_⟩
  rw [h6, List.length_map]
  obtain ⟨eq, hel, hes⟩ := equilSteps_steps h1
  obtain ⟨a1, -⟩ := steps_accounting hz hes
  have hmax : max len 1 = len := by omega
  rw [hmax]
  refine count_multiples (fun p : State T × Trajectory K => p.1.step) len hlen prod s1.st.step obs
    (by rw [a1]; omega) ?_ h5 (observed_steps h4)
  rw [a1, hel]
  exact Int.dvd_add hstep ⟨equil, by push_cast; ring⟩

/-! C24: disabled callbacks. -/

/-- Everything but the property table. -/
structure SameOutput (a b : Sampler T V Row) : Prop where
  gi : a.globalInterval = b.globalInterval
  gt : a.globalTimeInterval = b.globalTimeInterval
  builtin : a.builtin = b.builtin
  records : a.records = b.records
  results : a.results = b.results
  last : a.lastSummaryTriggerTime = b.lastSummaryTriggerTime

theorem sampleOne_output {st : State T} {step : Int} {t : T} {spec : PropertySpec T V}
    {a b : Sampler T V Row} (h : SameOutput a b) :
    (Sampler.sampleOne st step t spec a).1 = (Sampler.sampleOne st step t spec b).1 ∧
    SameOutput (Sampler.sampleOne st step t spec a).2 (Sampler.sampleOne st step t spec b).2 := by
  have hd : a.due spec step t = b.due spec step t := by
    rw [due_eq, due_eq, h.gi, h.gt]
  unfold Sampler.sampleOne
  rw [hd, h.records]
  split
  · split
    · split
      · exact ⟨rfl, h⟩
      · exact ⟨rfl, ⟨h.gi, h.gt, h.builtin, h.records, h.results, h.last⟩⟩
    · split
      · split
        · exact ⟨rfl, h⟩
        · exact ⟨rfl, ⟨h.gi, h.gt, h.builtin, rfl, h.results, h.last⟩⟩
      · exact ⟨rfl, ⟨h.gi, h.gt, h.builtin, h.records, h.results, h.last⟩⟩
  · exact ⟨rfl, h⟩

theorem sampleLoop_output {st : State T} {step : Int} {t : T} :
    ∀ (l1 l2 : List (PropertySpec T V)) (a b : Sampler T V Row),
      List.Forall₂ (fun x y => x = y ∨ x.enabled = false ∧ y.enabled = false) l1 l2 →
      SameOutput a b →
      (Sampler.sampleLoop st step t l1 a).1 = (Sampler.sampleLoop st step t l2 b).1 ∧
      SameOutput (Sampler.sampleLoop st step t l1 a).2 (Sampler.sampleLoop st step t l2 b).2 := by
  intro l1 l2 a b hf
  induction hf generalizing a b with
  | nil => intro h; exact ⟨rfl, h⟩
  | @cons x y l1 l2 hxy _ ih =>
    intro h
    simp only [Sampler.sampleLoop]
    rcases hxy with rfl | ⟨hx, hy⟩
    · obtain ⟨h1, h2⟩ := sampleOne_output (st := st) (step := step) (t := t) (spec := x) h
      rcases e1 : Sampler.sampleOne st step t x a with ⟨r1, a1⟩
      rcases e2 : Sampler.sampleOne st step t x b with ⟨r2, b1⟩
      rw [e1, e2] at h1 h2
      simp only at h1 h2
      subst h1
      cases r1 with
      | error e => exact ⟨rfl, h2⟩
      | ok u => exact ih a1 b1 h2
    · have e1 : Sampler.sampleOne st step t x a = (.ok (), a) := by
        simp [Sampler.sampleOne, Sampler.due, hx]
      have e2 : Sampler.sampleOne st step t y b = (.ok (), b) := by
        simp [Sampler.sampleOne, Sampler.due, hy]
      rw [e1, e2]
      exact ih a b h

/-- C24.  A disabled callback is never called and stores nothing: over one sample, its record
list and its own entry are unchanged, and replacing it by any other callback changes neither
whether the sample succeeds, nor any record, nor any summary row. -/
theorem C24_disabled_callback_is_inert (ops : List (RegOp T V Row)) (s : Sampler T V Row)
    (hs : (registryAfter ops).active = some s) (name : String) (spec : PropertySpec T V)
    (hspec : dictGet s.properties name = some spec) (hen : spec.enabled = false)
    (other : State T → Int → T → CallResult V)
    (summary : List (String × Bool) → Row) (st : State T) (step : Int) (t : T) :
    let s2 : Sampler T V Row :=
      { s with properties := dictSet s.properties name { spec with callback := other } }
    ((s.sampleProperties summary st step t).1 = .ok () →
      dictGet (s.sampleProperties summary st step t).2.records name = dictGet s.records name ∧
      dictGet (s.sampleProperties summary st step t).2.properties name = some spec) ∧
    (s2.sampleProperties summary st step t).1 = (s.sampleProperties summary st step t).1 ∧
    (s2.sampleProperties summary st step t).2.records =
      (s.sampleProperties summary st step t).2.records ∧
    (s2.sampleProperties summary st step t).2.results =
      (s.sampleProperties summary st step t).2.results := by
  intro s2
  have hw := ((regWF_after ops).active s hs).wf
  have hdue : ∀ gi (gt : Option T), dueAt gi gt spec step t = false := by
    intro gi gt; simp [dueAt, hen]
  refine ⟨?_, ?_⟩
  · intro hok
    rcases e : s.sampleProperties summary st step t with ⟨r, s'⟩
    rw [e] at hok
    simp only at hok
    subst hok
    obtain ⟨-, -, -, -, -, -, -, hall⟩ := sampleProperties_get hw e
    obtain ⟨h1, h2⟩ := hall name spec hspec
    simp only
    rw [h1, h2]
    refine ⟨?_, by simp [specAfter, hdue]⟩
    cases dictGet s.records name with
    | none => rfl
    | some r => simp [recsAfter, hdue]
  · have hf : List.Forall₂ (fun x y : PropertySpec T V => x = y ∨ x.enabled = false ∧ y.enabled = false)
        ((s2.sampleSummary summary step t).properties.map Prod.snd)
        ((s.sampleSummary summary step t).properties.map Prod.snd) := by
      rw [(sampleSummary_fields summary s2 step t).1, (sampleSummary_fields summary s step t).1]
      simp only [s2]
      clear * - hspec hen
      revert hspec
      generalize s.properties = d
      induction d with
      | nil => intro h; simp [dictGet] at h
      | cons hd tl ih =>
        obtain ⟨k1, v1⟩ := hd
        intro h
        by_cases h1 : k1 = name
        · simp only [dictGet, h1, if_true, Option.some.injEq] at h
          subst h
          simp only [dictSet, h1, if_true, List.map_cons]
          exact List.Forall₂.cons (Or.inr ⟨hen, hen⟩) (List.forall₂_same.2 fun x _ => Or.inl rfl)
        · simp only [dictGet, h1, if_false] at h
          simp only [dictSet, h1, if_false, List.map_cons]
          exact List.Forall₂.cons (Or.inl rfl) (ih h)
    have hso : SameOutput (s2.sampleSummary summary step t) (s.sampleSummary summary step t) := by
      unfold Sampler.sampleSummary
      simp only [s2]
      split <;> exact ⟨rfl, rfl, rfl, rfl, rfl, rfl⟩
    obtain ⟨o1, o2⟩ := sampleLoop_output (st := st) (step := step) (t := t) _ _ _ _ hf hso
    exact ⟨o1, o2.records, o2.results⟩

/-! C19: sampling cannot stop a run unless a callback raises. -/

theorem sampleOne_tolerant {st : State T} {step : Int} {t : T} {spec : PropertySpec T V}
    {s : Sampler T V Row} (hw : SamplerWF s) (hm : dictGet s.properties spec.name = some spec)
    (ht : Tolerant spec) : (Sampler.sampleOne st step t spec s).1 = .ok () := by
  unfold Sampler.sampleOne
  split
  · rcases ht st step t with ⟨v, hv⟩ | ⟨h, h1, h2⟩
    · rw [hv]
      simp only
      split
      · obtain ⟨recs, hr⟩ := (dictGet_isSome_iff _ _).2
          (hw.recs spec.name ((dictGet_isSome_iff _ _).1 ⟨_, hm⟩))
        rw [hr]
      · rfl
    · split
      · simp [Sampler.handleCallbackError, h1, h2]
      · split
        · obtain ⟨recs, hr⟩ := (dictGet_isSome_iff _ _).2
            (hw.recs spec.name ((dictGet_isSome_iff _ _).1 ⟨_, hm⟩))
          rw [hr]
        · rfl
  · rfl

theorem sampleLoop_tolerant {st : State T} {step : Int} {t : T} :
    ∀ (specs : List (PropertySpec T V)) (s : Sampler T V Row), SamplerWF s →
      (specs.map PropertySpec.name).Nodup →
      (∀ spec ∈ specs, dictGet s.properties spec.name = some spec) → (∀ spec ∈ specs, Tolerant spec) →
      (Sampler.sampleLoop st step t specs s).1 = .ok () := by
  intro specs
  induction specs with
  | nil => intro s _ _ _ _; rfl
  | cons sp rest ih =>
    intro s hw hn hm ht
    simp only [Sampler.sampleLoop]
    have h1 := sampleOne_tolerant (st := st) (step := step) (t := t) hw (hm sp List.mem_cons_self)
      (ht sp List.mem_cons_self)
    rcases e1 : Sampler.sampleOne st step t sp s with ⟨r1, s1⟩
    rw [e1] at h1
    simp only at h1
    subst h1
    simp only
    obtain ⟨w1, k1, o1, -, -⟩ := sampleOne_get hw (hm sp List.mem_cons_self) e1
    simp only [List.map_cons, List.nodup_cons] at hn
    refine ih s1 w1 hn.2 ?_ (fun spec hs => ht spec (List.mem_cons_of_mem _ hs))
    intro spec hs
    have hne : spec.name ≠ sp.name := fun he => hn.1 (List.mem_map.2 ⟨spec, hs, he⟩)
    rw [(o1 _ hne).1]
    exact hm spec (List.mem_cons_of_mem _ hs)

/-- All callbacks of the sampler are tolerant. -/
def AllTolerant (s : Sampler T V Row) : Prop := ∀ n spec, dictGet s.properties n = some spec → Tolerant spec

theorem sampleProperties_tolerant {summary : List (String × Bool) → Row} {s : Sampler T V Row}
    {st : State T} {step : Int} {t : T} (hw : SamplerWF s) (ht : AllTolerant s) :
    ∃ s', s.sampleProperties summary st step t = (.ok (), s') ∧ SamplerWF s' ∧ AllTolerant s' := by
  have hw1 := sampleSummary_wf hw summary step t
  obtain ⟨n1, n2⟩ := wf_specs hw1
  have f1 := (sampleSummary_fields summary s step t).1
  have h := sampleLoop_tolerant (st := st) (step := step) (t := t) _ _ hw1 n1 n2
    (fun spec hs => ht spec.name spec (by rw [← f1]; exact n2 spec hs))
  rcases e : s.sampleProperties summary st step t with ⟨r, s'⟩
  have e' := e
  unfold Sampler.sampleProperties at e
  rw [e] at h
  simp only at h
  subst h
  obtain ⟨w, -, -, -, -, -, hk, hall⟩ := sampleProperties_get hw e'
  refine ⟨s', rfl, w, ?_⟩
  intro n spec hs
  have : n ∈ dictKeys s.properties := by rw [← hk]; exact (dictGet_isSome_iff _ _).1 ⟨_, hs⟩
  obtain ⟨a, ha⟩ := (dictGet_isSome_iff _ _).2 this
  rw [(hall n a ha).1] at hs
  cases hs
  have hta := ht n a ha
  unfold specAfter
  split
  · exact hta
  · exact hta

/-- C19.  Two runs from the same simulation with the same random stream whose plans hold only
callbacks that cannot stop a run (whatever their number, schedules, switches, values and
record limits) have the same outcome, the same final simulation and the same trajectory; in
particular sampling never makes a run fail. -/
theorem C19_tolerant_plans_do_not_interfere {V' Row' : Type} (k : Kernel R T U)
    (m : RateModel M R T) (g : Geometry K) (lookup : Option HopStateLookup)
    (summary : Trajectory K → T → List (String × Bool) → Row)
    (summary' : Trajectory K → T → List (String × Bool) → Row')
    (ops : List (PlanOp T V)) (ops' : List (PlanOp T V')) (rng : Nat → U × U)
    (len equil prod : Nat) (s : Sim σ φ M R T)
    (ht : ∀ n spec, dictGet (planAfter ops).attached n = some spec → Tolerant spec)
    (ht' : ∀ n spec, dictGet (planAfter ops').attached n = some spec → Tolerant spec) :
    let a := s.run k m g lookup summary (planAfter ops) rng len equil prod
    let b := s.run k m g lookup summary' (planAfter ops') rng len equil prod
    a.outcome = b.outcome ∧ a.sim = b.sim ∧
      a.tracker.map RunState.traj = b.tracker.map RunState.traj := by
  have hstep : ∀ (a : RunState σ φ M R T K V Row) (b : RunState σ φ M R T K V' Row') r1 r2,
      a.sim = b.sim → a.traj = b.traj → SamplerWF a.sampler → SamplerWF b.sampler →
      AllTolerant a.sampler → AllTolerant b.sampler →
      (a.prodStep k m g summary r1 r2).1 = (b.prodStep k m g summary' r1 r2).1 ∧
      (a.prodStep k m g summary r1 r2).2.sim = (b.prodStep k m g summary' r1 r2).2.sim ∧
      (a.prodStep k m g summary r1 r2).2.traj = (b.prodStep k m g summary' r1 r2).2.traj ∧
      SamplerWF (a.prodStep k m g summary r1 r2).2.sampler ∧
      SamplerWF (b.prodStep k m g summary' r1 r2).2.sampler ∧
      AllTolerant (a.prodStep k m g summary r1 r2).2.sampler ∧
      AllTolerant (b.prodStep k m g summary' r1 r2).2.sampler := by
    intro a b r1 r2 h1 h2 w1 w2 t1 t2
    unfold RunState.prodStep
    rw [h1, h2]
    cases hp : b.sim.propose k r1 r2 with
    | error x => exact ⟨rfl, h1, h2, w1, w2, t1, t2⟩
    | ok p =>
      obtain ⟨e, dt⟩ := p
      simp only
      rcases hq : b.traj.update g b.sim.st.occ e with ⟨rt, traj⟩
      cases rt with
      | error x => exact ⟨rfl, rfl, rfl, w1, w2, t1, t2⟩
      | ok u =>
        simp only
        rcases hu : b.sim.update k m e dt with ⟨ru, sim⟩
        cases ru with
        | error x => exact ⟨rfl, rfl, rfl, w1, w2, t1, t2⟩
        | ok u =>
          simp only
          obtain ⟨sa, ea, wa, ta⟩ := sampleProperties_tolerant
            (summary := summary traj sim.st.time) (st := sim.st) (step := sim.st.step)
            (t := sim.st.time) w1 t1
          obtain ⟨sb, eb, wb, tb⟩ := sampleProperties_tolerant
            (summary := summary' traj sim.st.time) (st := sim.st) (step := sim.st.step)
            (t := sim.st.time) w2 t2
          rw [ea, eb]
          refine ⟨by trivial, by trivial, by trivial, wa, wb, ta, tb⟩
  have hsteps : ∀ n c (a : RunState σ φ M R T K V Row) (b : RunState σ φ M R T K V' Row'),
      a.sim = b.sim → a.traj = b.traj → SamplerWF a.sampler → SamplerWF b.sampler →
      AllTolerant a.sampler → AllTolerant b.sampler →
      (a.prodSteps k m g summary rng n c).1 = (b.prodSteps k m g summary' rng n c).1 ∧
      (a.prodSteps k m g summary rng n c).2.sim = (b.prodSteps k m g summary' rng n c).2.sim ∧
      (a.prodSteps k m g summary rng n c).2.traj = (b.prodSteps k m g summary' rng n c).2.traj ∧
      SamplerWF (a.prodSteps k m g summary rng n c).2.sampler ∧
      SamplerWF (b.prodSteps k m g summary' rng n c).2.sampler ∧
      AllTolerant (a.prodSteps k m g summary rng n c).2.sampler ∧
      AllTolerant (b.prodSteps k m g summary' rng n c).2.sampler := by
    intro n
    induction n with
    | zero => intro c a b h1 h2 w1 w2 t1 t2; exact ⟨rfl, h1, h2, w1, w2, t1, t2⟩
    | succ n ih =>
      intro c a b h1 h2 w1 w2 t1 t2
      obtain ⟨q1, q2, q3, q4, q5, q6, q7⟩ := hstep a b (rng c).1 (rng c).2 h1 h2 w1 w2 t1 t2
      simp only [RunState.prodSteps]
      rcases e1 : a.prodStep k m g summary (rng c).1 (rng c).2 with ⟨r1, a'⟩
      rcases e2 : b.prodStep k m g summary' (rng c).1 (rng c).2 with ⟨r2, b'⟩
      rw [e1, e2] at q1 q2 q3
      rw [e1] at q4 q6
      rw [e2] at q5 q7
      simp only at q1 q2 q3 q4 q5 q6 q7
      subst q1
      cases r1 with
      | error x => exact ⟨rfl, q2, q3, q4, q5, q6, q7⟩
      | ok u => exact ih (c + 1) a' b' q2 q3 q4 q5 q6 q7
  have hpass : ∀ n p c (a : RunState σ φ M R T K V Row) (b : RunState σ φ M R T K V' Row'),
      a.sim = b.sim → a.traj = b.traj → SamplerWF a.sampler → SamplerWF b.sampler →
      AllTolerant a.sampler → AllTolerant b.sampler →
      (a.passes k m g summary rng len n p c).1 = (b.passes k m g summary' rng len n p c).1 ∧
      (a.passes k m g summary rng len n p c).2.sim = (b.passes k m g summary' rng len n p c).2.sim ∧
      (a.passes k m g summary rng len n p c).2.traj =
        (b.passes k m g summary' rng len n p c).2.traj := by
    intro n
    induction n with
    | zero => intro p c a b h1 h2 _ _ _ _; exact ⟨rfl, h1, h2⟩
    | succ n ih =>
      intro p c a b h1 h2 w1 w2 t1 t2
      obtain ⟨q1, q2, q3, q4, q5, q6, q7⟩ := hsteps len c a b h1 h2 w1 w2 t1 t2
      simp only [RunState.passes]
      rcases e1 : a.prodSteps k m g summary rng len c with ⟨r1, a'⟩
      rcases e2 : b.prodSteps k m g summary' rng len c with ⟨r2, b'⟩
      rw [e1, e2] at q1 q2 q3
      rw [e1] at q4 q6
      rw [e2] at q5 q7
      simp only at q1 q2 q3 q4 q5 q6 q7
      subst q1
      cases r1 with
      | error x => exact ⟨rfl, q2, q3⟩
      | ok u =>
        have := ih (p + 1) (c + len) { a' with currentPass := p } { b' with currentPass := p }
          q2 q3 q4 q5 q6 q7
        simpa only using this
  have hfresh : ∀ {W Rw : Type} (os : List (PlanOp T W)) (gi : Option Int) (gt : Option T),
      (∀ n spec, dictGet (planAfter os).attached n = some spec → Tolerant spec) →
      AllTolerant (Row := Rw)
        { globalInterval := gi
          globalTimeInterval := gt
          builtin := (planAfter os).builtin
          properties := (planAfter os).attached.map fun kv => (kv.1, freshSpec kv.2)
          records := (planAfter os).attached.map fun kv => (kv.1, []) } := by
    intro W Rw os gi gt htol n spec hs
    simp only at hs
    rw [dictGet_map] at hs
    cases ha : dictGet (planAfter os).attached n with
    | none => rw [ha] at hs; cases hs
    | some x =>
      rw [ha] at hs; cases hs
      exact htol n x ha
  intro a b
  simp only [a, b, Sim.run]
  rcases s.equilSteps k m rng (equil * len) 0 with ⟨r, s1⟩
  cases r with
  | error x => exact ⟨rfl, rfl, rfl⟩
  | ok u =>
    simp only
    cases Trajectory.init g lookup s1.st.occ with
    | error x => exact ⟨rfl, rfl, rfl⟩
    | ok traj =>
      simp only [applyPlan_ok (planWF_after ops), applyPlan_ok (planWF_after ops')]
      have := hpass prod 0 (equil * len)
        { sim := s1
          traj := traj
          sampler :=
            { globalInterval := (planAfter ops).trackerInterval (some (max len 1 : Nat))
              globalTimeInterval := (planAfter ops).globalTimeInterval
              builtin := (planAfter ops).builtin
              properties := (planAfter ops).attached.map fun kv => (kv.1, freshSpec kv.2)
              records := (planAfter ops).attached.map fun kv => (kv.1, []) } }
        { sim := s1
          traj := traj
          sampler :=
            { globalInterval := (planAfter ops').trackerInterval (some (max len 1 : Nat))
              globalTimeInterval := (planAfter ops').globalTimeInterval
              builtin := (planAfter ops').builtin
              properties := (planAfter ops').attached.map fun kv => (kv.1, freshSpec kv.2)
              records := (planAfter ops').attached.map fun kv => (kv.1, []) } }
        rfl rfl (applyPlan_wf (planWF_after ops) _ _) (applyPlan_wf (planWF_after ops') _ _)
        (hfresh ops _ _ ht) (hfresh ops' _ _ ht')
      obtain ⟨h1, h2, h3⟩ := this
      exact ⟨h1, h2, congrArg some h3⟩

end runs

/-- The run of the examples: the particle of `toySim` oscillates, each step takes one time
unit, passes of length `len`, `prod` production passes. -/
def toyRun (ops : List (PlanOp Nat Nat)) (len equil prod : Nat) :
    RunResult Unit Unit Unit Int Nat ℚ Nat Nat :=
  toySim.run toyKernel toyLocal toyGeometry none (fun _ t _ => t) (planAfter ops)
    (fun _ => ((), ())) len equil prod

/-- A property that gives only a time interval of three time units. -/
def everyThree : PlanOp Nat Nat :=
  .attach { callback := fun _ step _ => .value step.toNat, funcName := "p", timeInterval := some 3 }

/-- A property that gives only a step interval of two steps and keeps two records. -/
def everySecond : PlanOp Nat Nat :=
  .attach { callback := fun _ step _ => .value step.toNat, funcName := "q", interval := some 2,
            maxRecords := some 2 }

/-- C21, negation of the full statement.  In a run with a plan without global frequency, a
property that gives only a time interval of three time units is recorded at every step, one
time unit apart: it inherits the default step interval. -/
theorem C21_inherited_step_interval_fires_early :
    ∃ spec, dictGet (planAfter [everyThree]).attached "p" = some spec ∧
      spec.timeInterval = some 3 ∧ spec.interval = none ∧ spec.enabled = true ∧
      (toyRun [everyThree] 1 0 4).outcome = .ok () ∧
      ((toyRun [everyThree] 1 0 4).tracker.bind fun rs => dictGet rs.sampler.records "p") =
        some [⟨"p", 1, 1, 1⟩, ⟨"p", 2, 2, 2⟩, ⟨"p", 3, 3, 3⟩, ⟨"p", 4, 4, 4⟩] := by
  refine ⟨⟨"p", fun _ step _ => .value step.toNat, none, some 3, true, none, true, none, 0, none⟩,
    rfl, rfl, rfl, rfl, by decide, by decide⟩

/- The hypotheses of `C21_time_interval_greedy_partial` are met by a run with a global time
interval; its records are three time units apart. -/
example : (planAfter [everyThree, .setFrequency none (some 2)]).globalInterval = none ∧
    (planAfter [everyThree, .setFrequency none (some 2)]).globalTimeInterval.isSome ∧
    (toyRun [everyThree, .setFrequency none (some 2)] 1 0 7).outcome = .ok () ∧
    ((toyRun [everyThree, .setFrequency none (some 2)] 1 0 7).tracker.bind
      fun rs => dictGet rs.sampler.records "p") = some [⟨"p", 3, 3, 3⟩, ⟨"p", 6, 6, 6⟩] := by
  decide

/- The hypotheses of the C20 and C22 run theorems: seven steps, records at 2, 4 and 6, the
last two kept. -/
example : (toyRun [everySecond] 1 0 7).outcome = .ok () ∧
    ((toyRun [everySecond] 1 0 7).tracker.bind fun rs => dictGet rs.sampler.records "q") =
      some [⟨"q", 4, 4, 4⟩, ⟨"q", 6, 6, 6⟩] := by
  decide

/- The hypotheses of the C57 theorems: two production passes of length three after two
equilibration passes. -/
example : (planAfter [everySecond]).globalInterval = none ∧
    (planAfter [everySecond]).globalTimeInterval = none ∧
    (toyRun [everySecond] 3 2 2).outcome = .ok () ∧
    (toyRun [everySecond] 3 2 2).tracker.map (fun rs => rs.sampler.results) =
      some [(3, 3), (6, 6)] := by
  decide

/- Tolerant plans for C19. -/
example : ∀ n spec, dictGet (planAfter [everySecond]).attached n = some spec → Tolerant spec := by
  intro n spec h
  have : (planAfter [everySecond]).attached = [("q",
      ⟨"q", fun _ step _ => .value step.toNat, some 2, none, true, some 2, true, none, 0, none⟩)] := rfl
  rw [this] at h
  simp only [dictGet] at h
  split at h
  · cases h
    exact fun st step t => Or.inl ⟨_, rfl⟩
  · cases h

/- A disabled callback for C24. -/
example : ((registryAfter (Row := Unit)
    [.plan everySecond, .plan (.setEnabled "q" false), .startRun 1]).active.bind fun s =>
      (dictGet s.properties "q").map PropertySpec.enabled) = some false := by
  decide

end KMC
