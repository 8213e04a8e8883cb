import Verif.Lemmas.TrackerRun
import Verif.Lemmas.Plan
import Verif.Props.SamplerProps
import Verif.Props.TrackerRunProps
import Verif.Spec.Progress
/-
Lemmas for the progress of runs.
-/
set_option linter.unusedSectionVars false

namespace KMC
open Spec

section sampling
variable {T V Row : Type} [Sub T] [LE T] [DecidableLE T]

theorem sampleOne_outcome {st : State T} {step : Int} {t : T} {spec : PropertySpec T V}
    {s : Sampler T V Row} (hw : SamplerWF s) (hm : dictGet s.properties spec.name = some spec) :
    (Sampler.sampleOne st step t spec s).1 = .ok () ∨
      (Sampler.sampleOne st step t spec s).1 = .error .callbackError := by
  unfold Sampler.sampleOne
  split
  · cases spec.callback st step t with
    | raised =>
      simp only [Sampler.handleCallbackError]
      cases spec.onError with
      | none => exact .inr rfl
      | some h =>
        simp only
        cases h st step t with
        | none => exact .inr rfl
        | some b => cases b <;> simp
    | value v =>
      simp only
      split
      · obtain ⟨recs, hr⟩ := (dictGet_isSome_iff _ _).2
          (hw.recs spec.name ((dictGet_isSome_iff _ _).1 ⟨_, hm⟩))
        rw [hr]; exact .inl rfl
      · exact .inl rfl
  · exact .inl rfl

theorem sampleLoop_outcome {st : State T} {step : Int} {t : T} :
    ∀ (specs : List (PropertySpec T V)) (s : Sampler T V Row), SamplerWF s →
      (specs.map PropertySpec.name).Nodup →
      (∀ spec ∈ specs, dictGet s.properties spec.name = some spec) →
      (Sampler.sampleLoop st step t specs s).1 = .ok () ∨
        (Sampler.sampleLoop st step t specs s).1 = .error .callbackError := by
  intro specs
  induction specs with
  | nil => intro s _ _ _; exact .inl rfl
  | cons sp rest ih =>
    intro s hw hn hm
    simp only [Sampler.sampleLoop]
    have h1 := sampleOne_outcome (st := st) (step := step) (t := t) hw (hm sp List.mem_cons_self)
    rcases e1 : Sampler.sampleOne st step t sp s with ⟨r1, s1⟩
    rw [e1] at h1
    simp only at h1
    rcases h1 with rfl | rfl
    · simp only
      obtain ⟨w1, k1, o1, -, -⟩ := sampleOne_get hw (hm sp List.mem_cons_self) e1
      simp only [List.map_cons, List.nodup_cons] at hn
      refine ih s1 w1 hn.2 ?_
      intro spec hs
      have hne : spec.name ≠ sp.name := fun he => hn.1 (List.mem_map.2 ⟨spec, hs, he⟩)
      rw [(o1 _ hne).1]
      exact hm spec (List.mem_cons_of_mem _ hs)
    · exact .inr rfl

/-- Sampling goes well or a callback fails. -/
theorem sampleProperties_outcome {summary : List (String × Bool) → Row} {s : Sampler T V Row}
    {st : State T} {step : Int} {t : T} (hw : SamplerWF s) :
    (∃ s', s.sampleProperties summary st step t = (.ok (), s') ∧ SamplerWF s') ∨
      ∃ s', s.sampleProperties summary st step t = (.error .callbackError, s') := by
  have hw1 := sampleSummary_wf hw summary step t
  obtain ⟨n1, n2⟩ := wf_specs hw1
  have h := sampleLoop_outcome (st := st) (step := step) (t := t) _ _ hw1 n1 n2
  rcases e : s.sampleProperties summary st step t with ⟨r, s'⟩
  have e' := e
  unfold Sampler.sampleProperties at e
  rw [e] at h
  simp only at h
  rcases h with rfl | rfl
  · exact .inl ⟨s', rfl, (sampleProperties_get hw e').1⟩
  · exact .inr ⟨s', rfl⟩

theorem freshSampler_tolerant [Zero T] {ops : List (PlanOp T V)}
    (ht : ∀ n spec, dictGet (planAfter ops).attached n = some spec → Tolerant spec) (gi : Option Int)
    (gt : Option T) : AllTolerant (Row := Row)
      { globalInterval := gi
        globalTimeInterval := gt
        builtin := (planAfter ops).builtin
        properties := (planAfter ops).attached.map fun kv => (kv.1, freshSpec kv.2)
        records := (planAfter ops).attached.map fun kv => (kv.1, []) } := by
  intro n spec hs
  simp only at hs
  rw [dictGet_map] at hs
  cases ha : dictGet (planAfter ops).attached n with
  | none => rw [ha] at hs; cases hs
  | some x =>
    rw [ha] at hs; cases hs
    exact ht n x ha

end sampling

section
variable {σ φ M R T U : Type}

theorem recompute_total (m : RateModel M R T) (events : List Event) (ms : M) (st : State T)
    (hr : ∀ e ∈ events, ∃ p, m.computeProbability ms e st = .ok p) :
    ∀ (is : List Int) (prob : List R), prob.length = events.length →
      (∀ i ∈ is, ∃ k : Nat, i = (k : Int) ∧ k < events.length) →
      ∃ prob', recompute m events ms st is prob = (.ok (), prob') := by
  intro is
  induction is with
  | nil => intro prob _ _; exact ⟨prob, rfl⟩
  | cons i is ih =>
    intro prob hl hi
    obtain ⟨k, rfl, hk⟩ := hi i (by simp)
    obtain ⟨p, hp⟩ := hr events[k] (List.getElem_mem hk)
    have h3 : pySet prob (k : Int) p = .ok (prob.set k p) :=
      pySet_ok_iff.2 ⟨k, pyIdx_natCast (by omega), rfl⟩
    obtain ⟨prob', h4⟩ := ih (prob.set k p) (by simpa using hl) fun i hi' => hi i (by simp [hi'])
    refine ⟨prob', ?_⟩
    simp only [recompute]
    rw [pyGet_natCast (v := events[k]) (by simp [hk])]
    simp only [hp, h3, h4]

theorem initialProbs_total (m : RateModel M R T) (ms : M) (st : State T) :
    ∀ events : List Event, (∀ e ∈ events, ∃ p, m.computeProbability ms e st = .ok p) →
      ∃ ps, initialProbs m ms st events = .ok ps := by
  intro events
  induction events with
  | nil => intro _; exact ⟨[], rfl⟩
  | cons e es ih =>
    intro h
    obtain ⟨p, hp⟩ := h e (by simp)
    obtain ⟨ps, hps⟩ := ih fun e he => h e (by simp [he])
    exact ⟨p :: ps, by simp only [initialProbs, hp, hps]⟩

theorem annotateEvents_total (h : HopStateLookup) :
    ∀ events : List Event, (∀ e ∈ events, ∃ e', h.annotateEvent e = .ok e') →
      ∃ es, h.annotateEvents events = .ok es := by
  intro events
  induction events with
  | nil => intro _; exact ⟨[], rfl⟩
  | cons e es ih =>
    intro hh
    obtain ⟨p, hp⟩ := hh e (by simp)
    obtain ⟨ps, hps⟩ := ih fun e he => hh e (by simp [he])
    exact ⟨p :: ps, by simp only [HopStateLookup.annotateEvents, hp, hps]⟩

end

section
variable {σ φ ψ K V Row : Type} [Field K] [LinearOrder K] [FloorRing K]
variable {o : ActiveSiteOrder String ψ} {mobile : String} {h : HopStateLookup} {R : Rounding}
  {m : RateModel Unit ℝ EReal} {g : Geometry K} {lib : EventLib σ φ} {st : State EReal}
  {s0 : Sim σ φ Unit ℝ EReal}

/-- An ordinary hopping simulation can be constructed. -/
theorem init_total (hs : HopSystem o mobile h R m g lib st) (ha : Answers o mobile m lib.events st.occ) :
    ∃ s0 : Sim σ φ Unit ℝ EReal,
      Sim.init (realKernel R) m lib.generateEventDependencies (some h) (some st) = .ok s0 := by
  obtain ⟨l1, l2, l3⟩ := lookup_spec hs.lookup
  obtain ⟨es, hes⟩ := annotateEvents_total h lib.events (by
    intro e he
    obtain ⟨f, t, hm, -⟩ := hs.endpoints e he
    have hf := hs.fit e he f (by simp [hm])
    have ht := hs.fit e he t (by simp [hm])
    have hf' : f < o.activeToPrimitive.length := by rw [← hs.labelled.length]; omega
    have ht' : t < o.activeToPrimitive.length := by rw [← hs.labelled.length]; omega
    obtain ⟨a, -, -, e1, e2⟩ := l3 f hf'
    obtain ⟨b, -, -, e3, e4⟩ := l3 t ht'
    unfold HopStateLookup.annotateEvent
    rw [hm]
    simp only [unpack2, pyGet_natCast e1, pyGet_natCast e2, pyGet_natCast e3, pyGet_natCast e4]
    exact ⟨_, rfl⟩)
  obtain ⟨a1, a2⟩ := annotateEvents_ok hes
  have hmem : ∀ e ∈ es, ∃ x ∈ lib.events, e.mobile = x.mobile ∧ e.env = x.env := by
    intro e he
    obtain ⟨x, hx, hxe⟩ := annotateEvents_mem hes e he
    obtain ⟨f', t', mf, vt, vf, mt, -, -, -, -, -, rfl⟩ := annotateEvent_ok hxe
    exact ⟨x, hx, rfl, rfl⟩
  obtain ⟨ps, hps⟩ := initialProbs_total m () st es fun e he =>
    ha.rate e st (hmem e he) (sameComposition_iff_perm.2 (List.Perm.refl _)) hs.labelled
  refine ⟨⟨{ lib.generateEventDependencies with events := es }, st, (), ps, cumsum R ps⟩, ?_⟩
  have hes' : h.annotateEvents lib.generateEventDependencies.events = .ok es := hes
  simp only [Sim.init, hes', ha.start, hps, realKernel]

/-- A condition on the occupations that holds at the start, fixes the composition and is kept by the
exchange of two linked sites. -/
structure Kept (o : ActiveSiteOrder String ψ) (events : List Event) (occ0 : List Int)
    (Q : List Int → Prop) : Prop where
  start : Q occ0
  perm : ∀ occ, Q occ → occ.Perm occ0
  step : ∀ (occ occ' : List Int) (f t : Nat), Linked events f t → allowedAt o f = allowedAt o t →
    Exchanged f t occ occ' → Q occ → Q occ'

/-- Executing an event of the library always succeeds. -/
theorem update_total (hs : HopSystem o mobile h R m g lib st) (ha : Answers o mobile m lib.events st.occ)
    (hi : Sim.init (realKernel R) m lib.generateEventDependencies (some h) (some st) = .ok s0)
    {s : Sim σ φ Unit ℝ EReal} (inv : SimInv o mobile R m s0 s) {Q : List Int → Prop}
    (hQ : Kept o lib.events st.occ Q) (hq : Q s.st.occ) {e : Event} {dt : EReal} (he : e ∈ s0.lib.events) :
    ∃ s', s.update (realKernel R) m e dt = (.ok (), s') ∧ SimInv o mobile R m s0 s' ∧ Q s'.st.occ := by
  have hp := hQ.perm _ hq
  have hst : st = s0.st := by
    obtain ⟨i1, -⟩ := init_ok hi
    simpa using i1
  obtain ⟨i1, i2, i3, i4, -, hann, -, -⟩ := init_ok hi
  obtain ⟨f, t, hf, ht, hm, hall, -⟩ := event_facts hs hi he
  rw [← hp.length_eq] at hf ht
  have h1 : ∃ st', s.st.applyEvent e dt = (.ok (), st') := by
    rw [State.applyEvent, hm]
    simp only [unpack2]
    rw [pyGet_natCast (v := s.st.occ[t]) (by simp [ht]), pyGet_natCast (v := s.st.occ[f]) (by simp [hf])]
    simp only
    rw [pySet_ok_iff.2 ⟨f, pyIdx_natCast hf, rfl⟩]
    simp only
    rw [pySet_ok_iff.2 ⟨t, pyIdx_natCast (by simpa using ht), rfl⟩]
    exact ⟨_, rfl⟩
  obtain ⟨st', h1⟩ := h1
  have hp' : st'.occ.Perm st.occ := by
    have := applyEvent_perm s.st e dt
    rw [h1] at this
    exact this.trans hp
  have hw' : WellLabelled o mobile st'.occ := by
    obtain ⟨f', t', a, b, ha', hb', hm', x1, x2, rfl⟩ := applyEvent_ok h1
    rw [hm] at hm'; cases hm'
    rw [pyIdx_natCast hf] at x1; rw [pyIdx_natCast ht] at x2
    cases x1; cases x2
    exact wellLabelled_exchange inv.labelled hf ht hall (set_set_exchanged hf ht)
  have h2 : m.applyEvent s.ms e st' = (.ok (), ()) := by
    have := ha.commit e st'
    exact Prod.ext this rfl
  have hidx : ∃ i, indexOfEvent s.lib.events e = .ok i := by
    rw [inv.lib]
    unfold indexOfEvent
    cases hx : s0.lib.events.findIdx? (fun x => x.pyEq e) with
    | some i => exact ⟨i, rfl⟩
    | none =>
      rw [List.findIdx?_eq_none_iff] at hx
      have := hx e he
      simp [Event.pyEq] at this
  obtain ⟨i, h3⟩ := hidx
  obtain ⟨x, hx, -, -⟩ := indexOfEvent_ok h3
  have hdeps : s.lib.deps = some (generateEventDependencyMatrix (s.lib.events.map Event.sites)) := by
    rw [inv.lib, i2, sites_map_eq i3 i4]
    rfl
  have hrow : s.lib.getDependentEvents i = depRow (s.lib.events.map Event.sites) x.sites := by
    simp [EventLib.getDependentEvents, hdeps, generate_getElem?, hx]
  obtain ⟨prob', h4⟩ := recompute_total m s.lib.events () st' (by
      intro e' he'
      rw [inv.lib] at he'
      obtain ⟨y, hy, hye⟩ := annotateEvents_mem (hann h rfl) e' he'
      obtain ⟨f', t', mf, vt, vf, mt, -, -, -, -, -, rfl⟩ := annotateEvent_ok hye
      exact ha.rate _ _ ⟨y, hy, rfl, rfl⟩ (sameComposition_iff_perm.2 hp') hw')
    (s.lib.getDependentEvents i) s.prob inv.table.length (by
      intro j hj
      rw [hrow] at hj
      obtain ⟨k, b, rfl, hk, -⟩ := mem_depRow.1 hj
      refine ⟨k, rfl, ?_⟩
      have := (List.getElem?_eq_some_iff.1 hk).1
      simpa using this)
  have hu : s.update (realKernel R) m e dt =
      (.ok (), { s with st := st', ms := (), prob := prob', cum := (realKernel R).cumsum prob' }) := by
    simp only [Sim.update, h1, h2, h3, h4]
  obtain ⟨inv', f', t', hm', hx'⟩ := sim_inv_update hs hi inv he hu
  refine ⟨_, hu, inv', ?_⟩
  rw [hm] at hm'; cases hm'
  obtain ⟨y, hy, hye⟩ := annotateEvents_mem (hann h rfl) e he
  obtain ⟨f', t', mf, vt, vf, mt, -, -, -, -, -, rfl⟩ := annotateEvent_ok hye
  exact hQ.step _ _ f t ⟨y, hy, .inl hm⟩ hall hx' hq

/-- Either the system is stuck, and proposing fails, or an event of the library is proposed. -/
theorem propose_total (hs : HopSystem o mobile h R m g lib st)
    {s : Sim σ φ Unit ℝ EReal} (inv : SimInv o mobile R m s0 s) {r1 r2 : ℝ} (h0 : 0 ≤ r1)
    (h1 : r1 < 1) :
    (Stuck m s ∧ ∃ x, s.propose (realKernel R) r1 r2 = .error x ∧
      (s.lib.events ≠ [] → x = .zeroDivisionError)) ∨
    ∃ e dt, s.propose (realKernel R) r1 r2 = .ok (e, dt) ∧ e ∈ s0.lib.events := by
  by_cases hpos : ∃ e ∈ s.lib.events, ∃ p, m.computeProbability s.ms e s.st = .ok p ∧ 0 < p
  · obtain ⟨e', dt', p, hp', he', -, -⟩ := C01_proposed_rate_positive R m s inv.table
      (fun e p hp => hs.rates e s.st p hp) hpos r1 r2 h0 h1
    rw [inv.lib] at he'
    exact .inr ⟨e', dt', hp', he'⟩
  · push Not at hpos
    have hstuck : Stuck m s := fun e he p hp => le_antisymm (hpos e he p hp) (hs.rates _ _ _ hp).1
    have hz : ∀ p ∈ s.prob, p = 0 := by
      intro p hp
      obtain ⟨i, hi, rfl⟩ := List.getElem_of_mem hp
      have hi' : i < s.lib.events.length := by rw [← inv.table.length]; exact hi
      obtain ⟨q, hq, hq'⟩ := inv.table.fresh i s.lib.events[i] (by simp [hi'])
      simp only [List.getElem?_eq_getElem hi, Option.some.injEq] at hq
      rw [hq]
      exact hstuck _ (List.getElem_mem hi') q hq'
    refine .inl ⟨hstuck, ?_⟩
    unfold Sim.propose
    rw [inv.table.cum]
    simp only [realKernel, propose]
    cases ht : (cumsum R s.prob).getLast? with
    | none =>
      refine ⟨_, rfl, fun hne => absurd ?_ hne⟩
      rw [List.getLast?_eq_none_iff] at ht
      have := cumsum_length R s.prob
      rw [ht, inv.table.length] at this
      exact List.length_eq_zero_iff.1 this.symm
    | some tot =>
      have : tot = 0 := cumsum_all_zero R s.prob hz tot (List.mem_of_getLast? ht)
      simp only
      rw [if_pos this]
      exact ⟨_, rfl, fun _ => rfl⟩

/-- How a loop over events can end: it went through, or the system got stuck. -/
theorem equilSteps_outcome (hs : HopSystem o mobile h R m g lib st) (ha : Answers o mobile m lib.events st.occ)
    (hi : Sim.init (realKernel R) m lib.generateEventDependencies (some h) (some st) = .ok s0)
    {Q : List Int → Prop} (hQ : Kept o lib.events st.occ Q) {rng : Nat → ℝ × ℝ} (hr : ∀ c, 0 ≤ (rng c).1 ∧ (rng c).1 < 1) :
    ∀ (n c : Nat) (s : Sim σ φ Unit ℝ EReal), SimInv o mobile R m s0 s → Q s.st.occ →
      (∃ s', s.equilSteps (realKernel R) m rng n c = (.ok (), s') ∧ SimInv o mobile R m s0 s' ∧
        Q s'.st.occ) ∨
      ∃ x s', s.equilSteps (realKernel R) m rng n c = (.error x, s') ∧ SimInv o mobile R m s0 s' ∧
        Q s'.st.occ ∧ Stuck m s' ∧ (s0.lib.events ≠ [] → x = .zeroDivisionError) := by
  intro n
  induction n with
  | zero => intro c s inv hp; exact .inl ⟨s, rfl, inv, hp⟩
  | succ n ih =>
    intro c s inv hp
    simp only [Sim.equilSteps, Sim.equilStep]
    rcases propose_total hs inv (r2 := (rng c).2) (hr c).1 (hr c).2 with
      ⟨hst, x, hx, hz⟩ | ⟨e, dt, hx, he⟩
    · rw [hx]
      exact .inr ⟨x, s, rfl, inv, hp, hst, by rw [← inv.lib]; exact hz⟩
    · rw [hx]
      obtain ⟨s', hu, inv', hp'⟩ := update_total hs ha hi inv hQ hp (dt := 0) he
      simp only [hu]
      exact ih (c + 1) s' inv' hp'

/-- What is true of the objects of a production run between steps. -/
structure ProdInv (o : ActiveSiteOrder String ψ) (mobile : String) (h : HopStateLookup) (R : Rounding)
    (m : RateModel Unit ℝ EReal) (Q : List Int → Prop) (s0 : Sim σ φ Unit ℝ EReal)
    (P : Sampler EReal V Row → Prop) (s : RunState σ φ Unit ℝ EReal K V Row) : Prop where
  sim : SimInv o mobile R m s0 s.sim
  kept : Q s.sim.st.occ
  tracks : Tracks h s.traj s.sim.st.occ
  sampler : P s.sampler

/-- How a production loop can end: it went through, the system got stuck, or sampling failed with one of
the errors `bad`. -/
def ProdOutcome (o : ActiveSiteOrder String ψ) (mobile : String) (h : HopStateLookup) (R : Rounding)
    (m : RateModel Unit ℝ EReal) (Q : List Int → Prop) (s0 : Sim σ φ Unit ℝ EReal)
    (P : Sampler EReal V Row → Prop) (bad : PyErr → Prop)
    (r : Py Unit × RunState σ φ Unit ℝ EReal K V Row) : Prop :=
  (r.1 = .ok () ∧ ProdInv o mobile h R m Q s0 P r.2) ∨
  (∃ x, r.1 = .error x ∧ SimInv o mobile R m s0 r.2.sim ∧ Q r.2.sim.st.occ ∧ Stuck m r.2.sim ∧
    (s0.lib.events ≠ [] → x = .zeroDivisionError)) ∨
  ∃ x, r.1 = .error x ∧ bad x

theorem prodStep_outcome (hs : HopSystem o mobile h R m g lib st) (ha : Answers o mobile m lib.events st.occ)
    (hi : Sim.init (realKernel R) m lib.generateEventDependencies (some h) (some st) = .ok s0)
    {summary : Trajectory K → EReal → List (String × Bool) → Row}
    {P : Sampler EReal V Row → Prop} {bad : PyErr → Prop}
    (hP : ∀ (s : Sampler EReal V Row) f st' step t, P s →
      (∃ s', s.sampleProperties f st' step t = (.ok (), s') ∧ P s') ∨
      ∃ x s', s.sampleProperties f st' step t = (.error x, s') ∧ bad x)
    {Q : List Int → Prop} (hQ : Kept o lib.events st.occ Q) {r1 r2 : ℝ} (h0 : 0 ≤ r1) (h1 : r1 < 1)
    {s : RunState σ φ Unit ℝ EReal K V Row}
    (inv : ProdInv o mobile h R m Q s0 P s) :
    ProdOutcome o mobile h R m Q s0 P bad (s.prodStep (realKernel R) m g summary r1 r2) := by
  unfold RunState.prodStep
  rcases propose_total hs inv.sim (r2 := r2) h0 h1 with ⟨hst, x, hx, hz⟩ | ⟨e, dt, hx, he⟩
  · rw [hx]
    exact .inr (.inl ⟨x, rfl, inv.sim, inv.kept, hst, by rw [← inv.sim.lib]; exact hz⟩)
  · rw [hx]
    obtain ⟨-, t', ht, htr⟩ := tracked_step hs hi inv.sim inv.tracks h0 h1 hx
    obtain ⟨s', hu, inv', hp'⟩ := update_total hs ha hi inv.sim hQ inv.kept (dt := dt) he
    simp only [ht, hu]
    rcases hP s.sampler (summary t' s'.st.time) s'.st s'.st.step s'.st.time inv.sampler with
      ⟨sm, e1, e2⟩ | ⟨x, sm, e1, e2⟩
    · rw [e1]
      exact .inl ⟨rfl, inv', hp', htr s' hu, e2⟩
    · rw [e1]
      exact .inr (.inr ⟨x, rfl, e2⟩)

theorem prodSteps_outcome (hs : HopSystem o mobile h R m g lib st) (ha : Answers o mobile m lib.events st.occ)
    (hi : Sim.init (realKernel R) m lib.generateEventDependencies (some h) (some st) = .ok s0)
    {summary : Trajectory K → EReal → List (String × Bool) → Row}
    {P : Sampler EReal V Row → Prop} {bad : PyErr → Prop}
    (hP : ∀ (s : Sampler EReal V Row) f st' step t, P s →
      (∃ s', s.sampleProperties f st' step t = (.ok (), s') ∧ P s') ∨
      ∃ x s', s.sampleProperties f st' step t = (.error x, s') ∧ bad x)
    {Q : List Int → Prop} (hQ : Kept o lib.events st.occ Q) {rng : Nat → ℝ × ℝ} (hr : ∀ c, 0 ≤ (rng c).1 ∧ (rng c).1 < 1) :
    ∀ (n c : Nat) (s : RunState σ φ Unit ℝ EReal K V Row), ProdInv o mobile h R m Q s0 P s →
    ProdOutcome o mobile h R m Q s0 P bad (s.prodSteps (realKernel R) m g summary rng n c) := by
  intro n
  induction n with
  | zero => intro c s inv; exact .inl ⟨rfl, inv⟩
  | succ n ih =>
    intro c s inv
    simp only [RunState.prodSteps]
    have := prodStep_outcome (summary := summary) hs ha hi hP hQ (r2 := (rng c).2) (hr c).1 (hr c).2 inv
    rcases e : s.prodStep (realKernel R) m g summary (rng c).1 (rng c).2 with ⟨r, s'⟩
    rw [e] at this
    rcases this with ⟨h1, h2⟩ | ⟨x, h1, h2⟩ | ⟨x, h1, h2⟩
    · simp only at h1; subst h1
      exact ih (c + 1) s' h2
    · simp only at h1; subst h1
      exact .inr (.inl ⟨x, rfl, h2⟩)
    · simp only at h1; subst h1
      exact .inr (.inr ⟨x, rfl, h2⟩)

theorem passes_outcome (hs : HopSystem o mobile h R m g lib st) (ha : Answers o mobile m lib.events st.occ)
    (hi : Sim.init (realKernel R) m lib.generateEventDependencies (some h) (some st) = .ok s0)
    {summary : Trajectory K → EReal → List (String × Bool) → Row}
    {P : Sampler EReal V Row → Prop} {bad : PyErr → Prop}
    (hP : ∀ (s : Sampler EReal V Row) f st' step t, P s →
      (∃ s', s.sampleProperties f st' step t = (.ok (), s') ∧ P s') ∨
      ∃ x s', s.sampleProperties f st' step t = (.error x, s') ∧ bad x)
    {Q : List Int → Prop} (hQ : Kept o lib.events st.occ Q) {rng : Nat → ℝ × ℝ} (hr : ∀ c, 0 ≤ (rng c).1 ∧ (rng c).1 < 1) (len : Nat) :
    ∀ (n p c : Nat) (s : RunState σ φ Unit ℝ EReal K V Row), ProdInv o mobile h R m Q s0 P s →
    ProdOutcome o mobile h R m Q s0 P bad (s.passes (realKernel R) m g summary rng len n p c) := by
  intro n
  induction n with
  | zero => intro p c s inv; exact .inl ⟨rfl, inv⟩
  | succ n ih =>
    intro p c s inv
    simp only [RunState.passes]
    have := prodSteps_outcome (summary := summary) hs ha hi hP hQ hr len c s inv
    rcases e : s.prodSteps (realKernel R) m g summary rng len c with ⟨r, s'⟩
    rw [e] at this
    rcases this with ⟨h1, h2⟩ | ⟨x, h1, h2⟩ | ⟨x, h1, h2⟩
    · simp only at h1; subst h1
      exact ih (p + 1) (c + len) { s' with currentPass := p } ⟨h2.sim, h2.kept, h2.tracks, h2.sampler⟩
    · simp only at h1; subst h1
      exact .inr (.inl ⟨x, rfl, h2⟩)
    · simp only at h1; subst h1
      exact .inr (.inr ⟨x, rfl, h2⟩)

/-- How a run can end. -/
theorem run_outcome (hs : HopSystem o mobile h R m g lib st) (ha : Answers o mobile m lib.events st.occ)
    (hi : Sim.init (realKernel R) m lib.generateEventDependencies (some h) (some st) = .ok s0)
    {summary : Trajectory K → EReal → List (String × Bool) → Row}
    {P : Sampler EReal V Row → Prop} {bad : PyErr → Prop}
    (hP : ∀ (s : Sampler EReal V Row) f st' step t, P s →
      (∃ s', s.sampleProperties f st' step t = (.ok (), s') ∧ P s') ∨
      ∃ x s', s.sampleProperties f st' step t = (.error x, s') ∧ bad x)
    {Q : List Int → Prop} (hQ : Kept o lib.events st.occ Q) {rng : Nat → ℝ × ℝ} (hr : ∀ c, 0 ≤ (rng c).1 ∧ (rng c).1 < 1) (len equil prod : Nat)
    {plan : PropertyPlan EReal V} {sm : Sampler EReal V Row}
    (hplan : ({} : Sampler EReal V Row).applyPropertyPlan plan (some (max len 1 : Nat)) = (.ok (), sm))
    (hsm : P sm) :
    let r := s0.run (realKernel R) m g (some h) summary plan rng len equil prod
    r.outcome = .ok () ∨
    (∃ x, r.outcome = .error x ∧ SimInv o mobile R m s0 r.sim ∧ Q r.sim.st.occ ∧
      Stuck m r.sim ∧ (s0.lib.events ≠ [] → x = .zeroDivisionError)) ∨
    ∃ x, r.outcome = .error x ∧ bad x := by
  intro r
  have hst : st = s0.st := by
    obtain ⟨i1, -⟩ := init_ok hi
    simpa using i1
  simp only [r, Sim.run]
  rcases equilSteps_outcome hs ha hi hQ hr (equil * len) 0 s0 (sim_init_inv hs hi) (by rw [← hst]; exact hQ.start) with
    ⟨s1, e1, inv1, hp1⟩ | ⟨x, s1, e1, e2⟩
  · obtain ⟨eq, -, heq⟩ := equilSteps_steps e1
    obtain ⟨t, ht⟩ := C15_tracker_starts hs hi rng hr 0 s1 eq heq
    simp only [e1, ht, hplan]
    have := passes_outcome (summary := summary) hs ha hi hP hQ hr len prod 0 (equil * len)
      { sim := s1, traj := t, sampler := sm } ⟨inv1, hp1, traj_init_tracks ht, hsm⟩
    rcases this with ⟨h1, h2⟩ | ⟨x, h1, h2⟩ | ⟨x, h1, h2⟩
    · exact .inl h1
    · exact .inr (.inl ⟨x, h1, h2⟩)
    · exact .inr (.inr ⟨x, h1, h2⟩)
  · simp only [e1]
    exact .inr (.inl ⟨x, rfl, e2⟩)

theorem speciesAt_exchange {occ occ' : List Int} {i j : Nat} (hall : allowedAt o i = allowedAt o j)
    (hx : Exchanged i j occ occ') :
    speciesAt o occ' i = speciesAt o occ j ∧ speciesAt o occ' j = speciesAt o occ i ∧
      ∀ k, k ≠ i → k ≠ j → speciesAt o occ' k = speciesAt o occ k := by
  refine ⟨?_, ?_, ?_⟩
  · simp only [speciesAt, speciesOf, hx.2.1, hall]
  · simp only [speciesAt, speciesOf, hx.2.2.1, hall]
  · intro k h1 h2
    simp only [speciesAt, hx.2.2.2 k h1 h2]

theorem linked_ends {events : List Event} {occ : List Int} {S : Nat → Prop}
    (n : Network o mobile events occ S) {i j : Nat} (hl : Linked events i j) : S i ∧ S j := by
  obtain ⟨e, he, hm | hm⟩ := hl
  · exact n.ends e he _ _ hm
  · exact (n.ends e he _ _ hm).symm

/-- A hop keeps the network: its sites still hold only ions and vacancies, and at least one of each. -/
theorem network_step {events : List Event} {occ occ' : List Int} {S : Nat → Prop} {f t : Nat}
    (n : Network o mobile events occ S) (hl : Linked events f t) (hall : allowedAt o f = allowedAt o t)
    (hx : Exchanged f t occ occ') : Network o mobile events occ' S := by
  obtain ⟨sf, stt⟩ := linked_ends n hl
  obtain ⟨x1, x2, x3⟩ := speciesAt_exchange hall hx
  -- where the content of a site has gone
  have go : ∀ i, S i → ∃ j, S j ∧ speciesAt o occ' j = speciesAt o occ i := by
    intro i hi
    by_cases h1 : i = f
    · subst h1; exact ⟨t, stt, x2⟩
    · by_cases h2 : i = t
      · subst h2; exact ⟨f, sf, x1⟩
      · exact ⟨i, hi, x3 i h1 h2⟩
  refine ⟨n.ends, n.connected, ?_, ?_, ?_⟩
  · intro i hi
    have : ∃ j, S j ∧ speciesAt o occ' i = speciesAt o occ j := by
      by_cases h1 : i = f
      · subst h1; exact ⟨t, stt, x1⟩
      · by_cases h2 : i = t
        · subst h2; exact ⟨f, sf, x2⟩
        · exact ⟨i, hi, x3 i h1 h2⟩
    obtain ⟨j, hj, he⟩ := this
    unfold Vacant
    rw [he]
    exact n.filled j hj
  · obtain ⟨i, hi, h1⟩ := n.ion
    obtain ⟨j, hj, h2⟩ := go i hi
    exact ⟨j, hj, h2.trans h1⟩
  · obtain ⟨i, hi, v, h1, h1'⟩ := n.vacancy
    obtain ⟨j, hj, h2⟩ := go i hi
    exact ⟨j, hj, v, h1, h2.trans h1'⟩

/-- In a network some ion has a vacancy next to it. -/
theorem network_hop {events : List Event} {occ : List Int} {S : Nat → Prop}
    (hnv : ¬ IsVacancyLabel mobile) (n : Network o mobile events occ S) :
    ∃ i j, Linked events i j ∧ speciesAt o occ i = some mobile ∧ Vacant o occ j := by
  obtain ⟨a, ha, hion⟩ := n.ion
  obtain ⟨b, hb, hvac⟩ := n.vacancy
  by_contra hno
  push Not at hno
  have : ∀ j, Relation.ReflTransGen (Linked events) a j → S j ∧ speciesAt o occ j = some mobile := by
    intro j hj
    induction hj with
    | refl => exact ⟨ha, hion⟩
    | tail _ hl ih =>
      have hs := (linked_ends n hl).2
      refine ⟨hs, ?_⟩
      rcases n.filled _ hs with h1 | h1
      · exact h1
      · exact absurd h1 (hno _ _ hl ih.2)
  obtain ⟨-, hm⟩ := this b (n.connected a b ha hb)
  obtain ⟨v, hv, hsv⟩ := hvac
  rw [hm, Option.some.injEq] at hsv
  rw [← hsv] at hv
  exact hnv hv

/-- A simulation on a network whose model gives possible hops a positive rate is never stuck. -/
theorem network_not_stuck (hs : HopSystem o mobile h R m g lib st) (ha : Answers o mobile m lib.events st.occ)
    (hi : Sim.init (realKernel R) m lib.generateEventDependencies (some h) (some st) = .ok s0)
    (hw : Willing m) {s : Sim σ φ Unit ℝ EReal} (inv : SimInv o mobile R m s0 s)
    (hp : s.st.occ.Perm st.occ) {S : Nat → Prop} (n : Network o mobile lib.events s.st.occ S) :
    ¬ Stuck m s := by
  intro hstuck
  obtain ⟨i, j, ⟨x, hx, hm⟩, hion, v, hv, hvac⟩ := network_hop inv.labelled.mobileNotVacancy n
  obtain ⟨-, -, a1, a2, -, -, -, -⟩ := init_ok hi
  -- the annotated event
  obtain ⟨k, hk, rfl⟩ := List.getElem_of_mem hx
  have : ∃ e ∈ s0.lib.events, e.mobile = lib.events[k].mobile ∧ e.env = lib.events[k].env := by
    have h1 := congrArg (fun l => l[k]?) a1
    have h2 := congrArg (fun l => l[k]?) a2
    have hk' : lib.generateEventDependencies.events[k]? = some lib.events[k] := by
      show lib.events[k]? = _
      simp [hk]
    simp only [List.getElem?_map, hk', Option.map_some, Option.map_eq_some_iff] at h1 h2
    obtain ⟨e, h1, h1'⟩ := h1
    obtain ⟨e2, h2, h2'⟩ := h2
    rw [h1, Option.some.injEq] at h2
    subst h2
    exact ⟨e, List.mem_of_getElem? h1, h1', h2'⟩
  obtain ⟨e, he, hem, hee⟩ := this
  obtain ⟨f, t, hf, ht, hm', hall, a, b, c1, c2, c3, c4, hc⟩ := event_facts hs hi he
  rw [← hp.length_eq] at hf ht
  have hvf : s.st.occ[f]? = some s.st.occ[f] := by simp [hf]
  have hvt : s.st.occ[t]? = some s.st.occ[t] := by simp [ht]
  have hd := eventDirection_of hm' (pyIdx_natCast hf) (pyIdx_natCast ht) hvf hvt
  obtain ⟨m1, v1, d1, d2, d3, d4, -⟩ := site_codes inv.labelled hs.lookup hvf
  obtain ⟨m2, v2, d1', d2', d3', d4', -⟩ := site_codes inv.labelled hs.lookup hvt
  rw [c1] at d1; rw [c3] at d2; rw [c2] at d1'; rw [c4] at d2'
  cases d1; cases d2; cases d1'; cases d2'
  obtain ⟨p, hpr⟩ := ha.rate e s.st ⟨_, List.getElem_mem hk, hem, hee⟩ (sameComposition_iff_perm.2 hp)
    inv.labelled
  have hpos := hw e s.st _ p hd ?_ hpr
  · have := hstuck e (by rw [inv.lib]; exact he) p hpr
    rw [this] at hpos
    exact lt_irrefl _ hpos
  · rw [hc]
    rw [← hem, hm'] at hm
    rcases hm with hm | hm
    · cases hm
      have e1 := d3.2 hion
      have e2 := d4'.2 ⟨v, hvac, hv⟩
      simp [endpointDirectionFromCodes, e1, e2]
    · cases hm
      have e1 := d3'.2 hion
      have e2 := d4.2 ⟨v, hvac, hv⟩
      simp only [endpointDirectionFromCodes, e1, e2, Option.getD_some]
      split <;> simp

end
end KMC
