import Verif.Spec.LiveCallbacks
import Verif.Lemmas.Registration
import Verif.Lemmas.SamplerRun
/-
Helper facts about sampling with callbacks that keep memory.
-/
set_option linter.unusedSectionVars false

namespace KMC
open Spec

variable {W T V Row : Type}

/-- Exchange the functions of a spec. -/
def PropertySpec.withFunctions (cb : String → State T → Int → T → CallResult V)
    (hd : String → Option (State T → Int → T → Option Bool)) (sp : PropertySpec T V) :
    PropertySpec T V :=
  { sp with callback := cb sp.name, onError := hd sp.name }

/-- Exchange the functions of a sampler. -/
def Sampler.withFunctions (cb : String → State T → Int → T → CallResult V)
    (hd : String → Option (State T → Int → T → Option Bool)) (s : Sampler T V Row) :
    Sampler T V Row :=
  { s with properties := s.properties.map fun kv => (kv.1, kv.2.withFunctions cb hd) }

/-- Exchange the functions of a plan. -/
def PropertyPlan.withFunctions (cb : String → State T → Int → T → CallResult V)
    (hd : String → Option (State T → Int → T → Option Bool)) (p : PropertyPlan T V) :
    PropertyPlan T V :=
  { p with attached := p.attached.map fun kv => (kv.1, kv.2.withFunctions cb hd) }

theorem dictSet_map {α β : Type} (f : α → β) (d : List (String × α)) (k : String) (v : α) :
    dictSet (d.map fun kv => (kv.1, f kv.2)) k (f v) =
      (dictSet d k v).map fun kv => (kv.1, f kv.2) := by
  induction d with
  | nil => rfl
  | cons hd tl ih =>
    obtain ⟨k1, v1⟩ := hd
    by_cases h : k1 = k <;> simp [dictSet, h, ih]

theorem dictDel_map {α β : Type} (f : α → β) (d : List (String × α)) (k : String) :
    dictDel (d.map fun kv => (kv.1, f kv.2)) k = (dictDel d k).map fun kv => (kv.1, f kv.2) := by
  induction d with
  | nil => rfl
  | cons hd tl ih =>
    obtain ⟨k1, v1⟩ := hd
    simp only [dictDel, List.map_cons, List.filter_cons] at ih ⊢
    split <;> simp [ih]

theorem dictKeys_map {α β : Type} (f : α → β) (d : List (String × α)) :
    dictKeys (d.map fun kv => (kv.1, f kv.2)) = dictKeys d := by
  simp [dictKeys, Function.comp_def]

section
variable [Sub T] [LE T] [DecidableLE T]
variable {cb : String → State T → Int → T → CallResult V}
  {hd : String → Option (State T → Int → T → Option Bool)}

theorem due_with (s : Sampler T V Row) (sp : PropertySpec T V) (step : Int) (t : T) :
    (s.withFunctions cb hd).due (sp.withFunctions cb hd) step t = s.due sp step t := rfl

theorem mark_with (s : Sampler T V Row) (sp : PropertySpec T V) (step : Int) (t : T) :
    (s.withFunctions cb hd).markTriggered (sp.withFunctions cb hd) step t =
      (s.markTriggered sp step t).withFunctions cb hd := by
  simp only [Sampler.markTriggered, Sampler.withFunctions, Sampler.mk.injEq, true_and, and_true]
  exact dictSet_map (PropertySpec.withFunctions cb hd) s.properties sp.name
    { sp with lastTriggerStep := step, lastTriggerTime := some t }

/-- The functions answer at one opportunity as the table says. -/
def AnswersAs (b : LiveBehaviour W T V) (cb : String → State T → Int → T → CallResult V)
    (hd : String → Option (State T → Int → T → Option Bool)) (st : State T) (step : Int) (t : T)
    (name : String) (v : CallResult V × Option Bool) : Prop :=
  cb name st step t = v.1 ∧
    (hd name).map (fun h => h st step t) = (b.handle name).map fun _ => v.2

theorem liveOne_pure {b : LiveBehaviour W T V} (hb : OnlyLooks b) (st : State T) (step : Int)
    (t : T) (sp : PropertySpec T V) (w : W) (s : Sampler T V Row) :
    (liveOne b step t sp ⟨w, st, s⟩).2.st = st ∧
    ∃ v : CallResult V × Option Bool, ∀ cb hd, AnswersAs b cb hd st step t sp.name v →
      Sampler.sampleOne st step t (sp.withFunctions cb hd) (s.withFunctions cb hd) =
        ((liveOne b step t sp ⟨w, st, s⟩).1,
          (liveOne b step t sp ⟨w, st, s⟩).2.sampler.withFunctions cb hd) := by
  unfold liveOne Sampler.sampleOne
  by_cases hdue : s.due sp step t = true
  · simp only [hdue, if_true, due_with]
    obtain ⟨hc, hh⟩ := hb sp.name w st step t
    rcases e : b.call sp.name w st step t with ⟨r, st1, w1⟩
    rw [e] at hc
    simp only at hc
    subst hc
    cases r with
    | value v =>
      refine ⟨?_, (.value v, none), ?_⟩
      · simp only
        split
        · split <;> rfl
        · rfl
      · rintro cb hd ⟨h1, -⟩
        simp only at h1
        have e1 : (sp.withFunctions cb hd).callback = cb sp.name := rfl
        have e2 : (sp.withFunctions cb hd).store = sp.store := rfl
        have e3 : (sp.withFunctions cb hd).name = sp.name := rfl
        have e4 : (s.withFunctions cb hd).records = s.records := rfl
        simp only [e1, h1, e2, e3, e4]
        by_cases hs : sp.store = true
        · simp only [hs, if_true]
          cases dictGet s.records sp.name with
          | none => rfl
          | some recs =>
            simp only [Prod.mk.injEq, true_and]
            exact mark_with (cb := cb) (hd := hd)
              { s with records := dictSet s.records sp.name (appendRecord recs sp step t v) } sp step t
        · simp only [hs]
          simp only [Bool.false_eq_true, if_false, Prod.mk.injEq, true_and]
          exact mark_with s sp step t
    | raised =>
      simp only
      unfold liveHandle
      cases hq : b.handle sp.name with
      | none =>
        refine ⟨rfl, (.raised, none), ?_⟩
        rintro cb hd ⟨h1, h2⟩
        simp only [hq, Option.map_none, Option.map_eq_none_iff] at h1 h2
        have e1 : (sp.withFunctions cb hd).callback = cb sp.name := rfl
        have e2 : (sp.withFunctions cb hd).onError = hd sp.name := rfl
        simp only [e1, h1, Sampler.handleCallbackError, e2, h2]
      | some h =>
        simp only
        have hst := (hb sp.name w1 st1 step t).2 h hq
        rcases eh : h w1 st1 step t with ⟨rh, st2, w2⟩
        rw [eh] at hst
        simp only at hst
        subst hst
        refine ⟨?_, (.raised, rh), ?_⟩
        · rcases rh with _ | _ | _ <;> rfl
        · rintro cb hd ⟨h1, h2⟩
          simp only [hq, Option.map_some, Option.map_eq_some_iff] at h1 h2
          obtain ⟨h', h3, h4⟩ := h2
          have e1 : (sp.withFunctions cb hd).callback = cb sp.name := rfl
          have e2 : (sp.withFunctions cb hd).onError = hd sp.name := rfl
          simp only [e1, h1, Sampler.handleCallbackError, e2, h3, h4]
          rcases rh with _ | _ | _
          · rfl
          · rfl
          · simp only [Prod.mk.injEq, true_and]
            exact mark_with s sp step t
  · simp only [hdue]
    refine ⟨rfl, (.raised, none), ?_⟩
    rintro cb hd -
    simp only [due_with, hdue, Bool.false_eq_true, if_false]

theorem liveLoop_pure {b : LiveBehaviour W T V} (hb : OnlyLooks b) (st : State T) (step : Int)
    (t : T) : ∀ (specs : List (PropertySpec T V)) (w : W) (s : Sampler T V Row),
      (specs.map PropertySpec.name).Nodup →
      (liveLoop b step t specs ⟨w, st, s⟩).2.st = st ∧
      ∃ tab : String → CallResult V × Option Bool, ∀ cb hd,
        (∀ n, AnswersAs b cb hd st step t n (tab n)) →
        Sampler.sampleLoop st step t (specs.map (PropertySpec.withFunctions cb hd))
            (s.withFunctions cb hd) =
          ((liveLoop b step t specs ⟨w, st, s⟩).1,
            (liveLoop b step t specs ⟨w, st, s⟩).2.sampler.withFunctions cb hd) := by
  suffices H : ∀ (specs : List (PropertySpec T V)) (w : W) (s : Sampler T V Row),
      (specs.map PropertySpec.name).Nodup →
      (liveLoop b step t specs ⟨w, st, s⟩).2.st = st ∧
      ∃ tab : String → CallResult V × Option Bool, ∀ cb hd,
        (∀ sp ∈ specs, AnswersAs b cb hd st step t sp.name (tab sp.name)) →
        Sampler.sampleLoop st step t (specs.map (PropertySpec.withFunctions cb hd))
            (s.withFunctions cb hd) =
          ((liveLoop b step t specs ⟨w, st, s⟩).1,
            (liveLoop b step t specs ⟨w, st, s⟩).2.sampler.withFunctions cb hd) by
    intro specs w s hn
    obtain ⟨h1, tab, h2⟩ := H specs w s hn
    exact ⟨h1, tab, fun cb hd h => h2 cb hd fun sp _ => h sp.name⟩
  intro specs
  induction specs with
  | nil => intro w s _; exact ⟨rfl, fun _ => (.raised, none), fun _ _ _ => rfl⟩
  | cons sp rest ih =>
    intro w s hn
    simp only [List.map_cons, List.nodup_cons] at hn
    obtain ⟨o1, v, o2⟩ := liveOne_pure hb st step t sp w s
    simp only [liveLoop]
    rcases e : liveOne b step t sp ⟨w, st, s⟩ with ⟨r, l⟩
    rw [e] at o1 o2
    obtain ⟨w1, st1, s1⟩ := l
    simp only at o1 o2
    subst o1
    cases r with
    | error x =>
      refine ⟨rfl, fun _ => v, ?_⟩
      intro cb hd h
      simp only [List.map_cons, Sampler.sampleLoop, o2 cb hd (h sp List.mem_cons_self)]
    | ok u =>
      obtain ⟨i1, tab, i2⟩ := ih w1 s1 hn.2
      refine ⟨i1, fun n => if n = sp.name then v else tab n, ?_⟩
      intro cb hd h
      have h0 := h sp List.mem_cons_self
      simp only [if_true] at h0
      simp only [List.map_cons, Sampler.sampleLoop, o2 cb hd h0]
      apply i2
      intro sp' hs
      have hne : sp'.name ≠ sp.name := fun he => hn.1 (List.mem_map.2 ⟨sp', hs, he⟩)
      have := h sp' (List.mem_cons_of_mem _ hs)
      simp only [if_neg hne] at this
      exact this

theorem samplerWF_with {s : Sampler T V Row} (cb : String → State T → Int → T → CallResult V)
    (hd : String → Option (State T → Int → T → Option Bool)) :
    SamplerWF (s.withFunctions cb hd) ↔ SamplerWF s := by
  have hk : dictKeys (s.withFunctions cb hd).properties = dictKeys s.properties := dictKeys_map _ _
  constructor
  · intro h
    refine ⟨hk ▸ h.nodup, ?_, fun k hk' => h.recs k (hk ▸ hk'), h.recNodup⟩
    intro k sp hm
    exact h.named k (sp.withFunctions cb hd) (List.mem_map.2 ⟨(k, sp), hm, rfl⟩)
  · intro h
    refine ⟨hk.symm ▸ h.nodup, ?_, fun k hk' => h.recs k (hk ▸ hk'), h.recNodup⟩
    intro k sp hm
    obtain ⟨⟨k0, sp0⟩, hm0, he⟩ := List.mem_map.1 hm
    simp only [Prod.mk.injEq] at he
    obtain ⟨rfl, rfl⟩ := he
    have := h.named _ _ hm0
    exact this

theorem summary_with (summary : List (String × Bool) → Row) (s : Sampler T V Row) (step : Int)
    (t : T) : (s.withFunctions cb hd).sampleSummary summary step t =
      (s.sampleSummary summary step t).withFunctions cb hd := by
  unfold Sampler.sampleSummary
  have e : (s.withFunctions cb hd).globalInterval = s.globalInterval := rfl
  have e2 : (s.withFunctions cb hd).globalTimeInterval = s.globalTimeInterval := rfl
  have e3 : (s.withFunctions cb hd).lastSummaryTriggerTime = s.lastSummaryTriggerTime := rfl
  have e4 : (s.withFunctions cb hd).builtin = s.builtin := rfl
  simp only [e, e2, e3, e4]
  split <;> rfl

theorem memoryless_exists (b : LiveBehaviour W T V)
    (tab : Int → String → CallResult V × Option Bool) :
    ∃ (cb : String → State T → Int → T → CallResult V)
      (hd : String → Option (State T → Int → T → Option Bool)),
      ∀ st step t n, AnswersAs b cb hd st step t n (tab step n) :=
  ⟨fun n _ step _ => (tab step n).1, fun n => (b.handle n).map fun _ _ step _ => (tab step n).2,
    fun _ _ _ n => ⟨rfl, by simp only; cases b.handle n <;> rfl⟩⟩

theorem liveSample_pure {b : LiveBehaviour W T V} (hb : OnlyLooks b)
    (summary : List (String × Bool) → Row) (st : State T) (step : Int) (t : T) (w : W)
    {s : Sampler T V Row} (hw : SamplerWF s) :
    (liveSample b summary step t ⟨w, st, s⟩).2.st = st ∧
    SamplerWF (liveSample b summary step t ⟨w, st, s⟩).2.sampler ∧
    ∃ tab : String → CallResult V × Option Bool, ∀ cb hd,
      (∀ n, AnswersAs b cb hd st step t n (tab n)) →
      (s.withFunctions cb hd).sampleProperties summary st step t =
        ((liveSample b summary step t ⟨w, st, s⟩).1,
          (liveSample b summary step t ⟨w, st, s⟩).2.sampler.withFunctions cb hd) := by
  obtain ⟨n1, n2⟩ := wf_specs (sampleSummary_wf hw summary step t)
  obtain ⟨h1, tab, h2⟩ := liveLoop_pure hb st step t _ w (s.sampleSummary summary step t) n1
  have key : ∀ cb hd, (∀ n, AnswersAs b cb hd st step t n (tab n)) →
      (s.withFunctions cb hd).sampleProperties summary st step t =
        ((liveSample b summary step t ⟨w, st, s⟩).1,
          (liveSample b summary step t ⟨w, st, s⟩).2.sampler.withFunctions cb hd) := by
    intro cb hd h
    unfold Sampler.sampleProperties
    rw [summary_with]
    have := h2 cb hd h
    unfold liveSample
    simp only
    rw [← this]
    congr 1
    simp [Sampler.withFunctions, List.map_map, Function.comp_def]
  refine ⟨h1, ?_, tab, key⟩
  obtain ⟨cb, hd, ha⟩ := memoryless_exists b fun _ => tab
  have hk := key cb hd (ha st step t)
  have hw' := (samplerWF_with cb hd).2 hw
  exact (samplerWF_with cb hd).1 (hw'.of_same (sampleProperties_same hw' hk))

end

/-- Exchange the functions of a run in progress. -/
def RunState.withFunctions {σ φ M R K : Type} (cb : String → State T → Int → T → CallResult V)
    (hd : String → Option (State T → Int → T → Option Bool)) (s : RunState σ φ M R T K V Row) :
    RunState σ φ M R T K V Row :=
  { s with sampler := s.sampler.withFunctions cb hd }

section
variable {σ φ M R U K : Type} [Field K] [LinearOrder K] [FloorRing K]
variable [Add T] [Sub T] [LE T] [DecidableLE T]

theorem update_ok_step {k : Kernel R T U} {m : RateModel M R T} {s s' : Sim σ φ M R T} {e : Event}
    {dt : T} (h : s.update k m e dt = (.ok (), s')) : s'.st.step = s.st.step + 1 := by
  obtain ⟨st, ms, i, prob, h1, -, -, -, rfl⟩ := update_ok h
  obtain ⟨f, t, i, j, hi, hj, he, -, -, rfl⟩ := applyEvent_ok h1
  rfl

theorem liveStep_pure {b : LiveBehaviour W T V} (hb : OnlyLooks b) (k : Kernel R T U)
    (m : RateModel M R T) (g : Geometry K)
    (summary : Trajectory K → T → List (String × Bool) → Row)
    (l : LiveState W σ φ M R T K V Row) (hw : SamplerWF l.run.sampler) (r1 r2 : U) :
    SamplerWF (liveStep b k m g summary l r1 r2).2.run.sampler ∧
    ∃ tab : String → CallResult V × Option Bool, ∀ cb hd,
      (∀ st step t n, step = l.run.sim.st.step + 1 → AnswersAs b cb hd st step t n (tab n)) →
      (l.run.withFunctions cb hd).prodStep k m g summary r1 r2 =
        ((liveStep b k m g summary l r1 r2).1,
          (liveStep b k m g summary l r1 r2).2.run.withFunctions cb hd) := by
  unfold liveStep RunState.prodStep
  simp only [RunState.withFunctions]
  cases hp : l.run.sim.propose k r1 r2 with
  | error x => exact ⟨hw, fun _ => (.raised, none), fun _ _ _ => rfl⟩
  | ok p =>
    obtain ⟨e, dt⟩ := p
    simp only
    rcases hq : l.run.traj.update g l.run.sim.st.occ e with ⟨rt, traj⟩
    cases rt with
    | error x => exact ⟨hw, fun _ => (.raised, none), fun _ _ _ => rfl⟩
    | ok u =>
      simp only
      rcases hu : l.run.sim.update k m e dt with ⟨ru, sim⟩
      cases ru with
      | error x => exact ⟨hw, fun _ => (.raised, none), fun _ _ _ => rfl⟩
      | ok u =>
        simp only
        have hstep : sim.st.step = l.run.sim.st.step + 1 := update_ok_step hu
        obtain ⟨h1, h2, tab, h3⟩ := liveSample_pure hb (summary traj sim.st.time) sim.st
          sim.st.step sim.st.time l.world hw
        refine ⟨h2, tab, ?_⟩
        intro cb hd h
        rw [h3 cb hd fun n => h _ _ _ n hstep]
        simp only [h1]

theorem prodStep_count {k : Kernel R T U} {m : RateModel M R T} {g : Geometry K}
    {summary : Trajectory K → T → List (String × Bool) → Row} {s s' : RunState σ φ M R T K V Row}
    {r1 r2 : U} (h : s.prodStep k m g summary r1 r2 = (.ok (), s')) :
    s'.sim.st.step = s.sim.st.step + 1 := by
  obtain ⟨e, dt, -, -, hu, -, -⟩ := prodStep_ok h
  exact update_ok_step hu

theorem prodSteps_count {k : Kernel R T U} {m : RateModel M R T} {g : Geometry K}
    {summary : Trajectory K → T → List (String × Bool) → Row} {rng : Nat → U × U} :
    ∀ {n c : Nat} {s s' : RunState σ φ M R T K V Row},
      s.prodSteps k m g summary rng n c = (.ok (), s') →
      s'.sim.st.step = s.sim.st.step + (n : Int) := by
  intro n
  induction n with
  | zero =>
    intro c s s' h
    simp only [RunState.prodSteps, Prod.mk.injEq, true_and] at h
    subst h; simp
  | succ n ih =>
    intro c s s' h
    unfold RunState.prodSteps at h
    rcases h1 : s.prodStep k m g summary (rng c).1 (rng c).2 with ⟨r, s1⟩
    rw [h1] at h
    cases r with
    | error x => cases h
    | ok u =>
      rw [ih h, prodStep_count h1]
      push_cast; ring

/-- Functions without memory stand in for the real ones for steps `lo < step ≤ hi`. -/
def StandIn (b : LiveBehaviour W T V) (cb : String → State T → Int → T → CallResult V)
    (hd : String → Option (State T → Int → T → Option Bool)) (lo hi : Int)
    (tab : Int → String → CallResult V × Option Bool) : Prop :=
  ∀ st step t n, lo < step → step ≤ hi → AnswersAs b cb hd st step t n (tab step n)

theorem liveSteps_pure {b : LiveBehaviour W T V} (hb : OnlyLooks b) (k : Kernel R T U)
    (m : RateModel M R T) (g : Geometry K)
    (summary : Trajectory K → T → List (String × Bool) → Row) (rng : Nat → U × U) :
    ∀ (n c : Nat) (l : LiveState W σ φ M R T K V Row), SamplerWF l.run.sampler →
      SamplerWF (liveSteps b k m g summary rng n c l).2.run.sampler ∧
      ∃ tab : Int → String → CallResult V × Option Bool, ∀ cb hd,
        StandIn b cb hd l.run.sim.st.step (l.run.sim.st.step + n) tab →
        (l.run.withFunctions cb hd).prodSteps k m g summary rng n c =
          ((liveSteps b k m g summary rng n c l).1,
            (liveSteps b k m g summary rng n c l).2.run.withFunctions cb hd) := by
  intro n
  induction n with
  | zero => intro c l hw; exact ⟨hw, fun _ _ => (.raised, none), fun _ _ _ => rfl⟩
  | succ n ih =>
    intro c l hw
    obtain ⟨h1, tab1, h2⟩ := liveStep_pure hb k m g summary l hw (rng c).1 (rng c).2
    simp only [liveSteps, RunState.prodSteps]
    rcases e : liveStep b k m g summary l (rng c).1 (rng c).2 with ⟨r, l1⟩
    rw [e] at h1 h2
    simp only at h1 h2
    cases r with
    | error x =>
      refine ⟨h1, fun _ => tab1, ?_⟩
      intro cb hd h
      rw [h2 cb hd fun st step t n hs => h st step t n (by omega) (by push_cast; omega)]
    | ok u =>
      obtain ⟨i1, tab2, i2⟩ := ih (c + 1) l1 h1
      refine ⟨i1, fun step => if step = l.run.sim.st.step + 1 then tab1 else tab2 step, ?_⟩
      intro cb hd h
      have hq := h2 cb hd fun st step t n hs => by
        have := h st step t n (by omega) (by push_cast; omega)
        simp only [if_pos hs] at this
        exact this
      have hst : l1.run.sim.st.step = l.run.sim.st.step + 1 := by
        have := prodStep_count hq; exact this
      rw [hq]
      simp only
      apply i2
      intro st step t n' hlo hhi
      have := h st step t n' (by omega) (by push_cast; omega)
      simp only [if_neg (show ¬ step = l.run.sim.st.step + 1 by omega)] at this
      exact this

theorem livePasses_pure {b : LiveBehaviour W T V} (hb : OnlyLooks b) (k : Kernel R T U)
    (m : RateModel M R T) (g : Geometry K)
    (summary : Trajectory K → T → List (String × Bool) → Row) (rng : Nat → U × U) (len : Nat) :
    ∀ (n p c : Nat) (l : LiveState W σ φ M R T K V Row), SamplerWF l.run.sampler →
      ∃ tab : Int → String → CallResult V × Option Bool, ∀ cb hd,
        StandIn b cb hd l.run.sim.st.step (l.run.sim.st.step + (n * len : Nat)) tab →
        (l.run.withFunctions cb hd).passes k m g summary rng len n p c =
          ((livePasses b k m g summary rng len n p c l).1,
            (livePasses b k m g summary rng len n p c l).2.run.withFunctions cb hd) := by
  intro n
  induction n with
  | zero => intro p c l hw; exact ⟨fun _ _ => (.raised, none), fun _ _ _ => rfl⟩
  | succ n ih =>
    intro p c l hw
    obtain ⟨h1, tab1, h2⟩ := liveSteps_pure hb k m g summary rng len c l hw
    simp only [livePasses, RunState.passes]
    have hmul : ((n + 1) * len : Nat) = n * len + len := by ring
    rcases e : liveSteps b k m g summary rng len c l with ⟨r, l1⟩
    rw [e] at h1 h2
    simp only at h1 h2
    cases r with
    | error x =>
      refine ⟨tab1, ?_⟩
      intro cb hd h
      rw [h2 cb hd fun st step t n' hlo hhi => h st step t n' hlo (by rw [hmul]; push_cast; push_cast at hhi; nlinarith)]
    | ok u =>
      obtain ⟨tab2, i2⟩ := ih (p + 1) (c + len)
        { l1 with run := { l1.run with currentPass := p } } h1
      refine ⟨fun step => if step ≤ l.run.sim.st.step + len then tab1 step else tab2 step, ?_⟩
      intro cb hd h
      have hq := h2 cb hd fun st step t n' hlo hhi => by
        have := h st step t n' hlo (by rw [hmul]; push_cast; nlinarith)
        simp only [if_pos hhi] at this
        exact this
      have hst : l1.run.sim.st.step = l.run.sim.st.step + len := by
        have := prodSteps_count hq; exact this
      rw [hq]
      simp only
      apply i2
      intro st step t n' hlo hhi
      simp only at hlo hhi
      have := h st step t n' (by omega) (by rw [hmul]; push_cast; push_cast at hhi; omega)
      simp only [if_neg (show ¬ step ≤ l.run.sim.st.step + len by omega)] at this
      exact this

end

/-! Plans. -/

section
variable [Zero T] [LE T] [DecidableLE T]
variable (cb : String → State T → Int → T → CallResult V)
  (hd : String → Option (State T → Int → T → Option Bool))

theorem call_with (p : PropertyPlan T V) (op : PlanOp T V) :
    ((op.withFunctions cb hd).call (p.withFunctions cb hd)).2 =
      (op.call p).2.withFunctions cb hd := by
  have hk : dictKeys (p.withFunctions cb hd).attached = dictKeys p.attached := dictKeys_map _ _
  cases op with
  | attach a =>
    simp only [PlanOp.withFunctions, PlanOp.call, PropertyPlan.attach, hk, makePropertySpec]
    cases validateSchedule a.interval a.timeInterval with
    | error e => rfl
    | ok u =>
      simp only
      cases validateMaxRecords a.maxRecords with
      | error e => rfl
      | ok u =>
        simp only
        have hr : ∀ (c : State T → Int → T → CallResult V) o, AttachArgs.resolvedName { a with callback := c, onError := o } =
            a.resolvedName := fun _ _ => rfl
        rw [hr]
        split
        · rename_i x y z
          split at z
          · rename_i h1; simp [h1]
          · split at z
            · rename_i h1 h2; simp [h1, h2]
            · cases z
        · rename_i x y z
          split at z
          · cases z
          · split at z
            · cases z
            · rename_i h1 h2
              simp only [if_neg h1, if_neg h2]
              cases z
              simp only [PropertyPlan.withFunctions, PropertyPlan.mk.injEq, true_and]
              exact dictSet_map (PropertySpec.withFunctions cb hd) p.attached a.resolvedName
                { name := a.resolvedName, callback := a.callback, interval := a.interval,
                  timeInterval := a.timeInterval, store := a.store, maxRecords := a.maxRecords,
                  enabled := a.enabled, onError := a.onError }
  | detach n =>
    simp only [PlanOp.withFunctions, PlanOp.call, PropertyPlan.detach, hk]
    split
    · simp only [PropertyPlan.withFunctions, PropertyPlan.mk.injEq, true_and]
      exact dictDel_map _ _ _
    · rfl
  | clear => rfl
  | setEnabled n e =>
    simp only [PlanOp.withFunctions, PlanOp.call, PropertyPlan.setPropertyEnabled,
      setPropertyEnabledFlag]
    have h1 : (p.withFunctions cb hd).builtin = p.builtin := rfl
    rw [h1]
    cases dictGet p.builtin n with
    | some v => rfl
    | none =>
      simp only
      have h2 : dictGet (p.withFunctions cb hd).attached n =
          (dictGet p.attached n).map (PropertySpec.withFunctions cb hd) := dictGet_map _ _ _
      rw [h2]
      cases dictGet p.attached n with
      | none => rfl
      | some sp =>
        simp only [Option.map_some, PropertyPlan.withFunctions, PropertyPlan.mk.injEq, true_and]
        exact dictSet_map (PropertySpec.withFunctions cb hd) p.attached n { sp with enabled := e }
  | setFrequency i t =>
    simp only [PlanOp.withFunctions, PlanOp.call, PropertyPlan.setFrequency]
    cases validateSchedule i t <;> rfl

theorem planAfter_with (ops : List (PlanOp T V)) :
    planAfter (ops.map (PlanOp.withFunctions cb hd)) = (planAfter ops).withFunctions cb hd := by
  suffices H : ∀ (ops : List (PlanOp T V)) (p : PropertyPlan T V),
      (ops.map (PlanOp.withFunctions cb hd)).foldl (fun p op => (op.call p).2)
          (p.withFunctions cb hd) =
        (ops.foldl (fun p op => (op.call p).2) p).withFunctions cb hd by
    exact H ops {}
  intro ops
  induction ops with
  | nil => intro p; rfl
  | cons op ops ih =>
    intro p
    simp only [List.map_cons, List.foldl_cons]
    rw [call_with, ih]

end
/-! The memory of the callbacks. -/

section
variable [Sub T] [LE T] [DecidableLE T]

theorem liveOne_globals (b : LiveBehaviour W T V) (step : Int) (t : T) (sp : PropertySpec T V)
    (l : LiveEnv W T V Row) :
    (liveOne b step t sp l).2.sampler.globalInterval = l.sampler.globalInterval ∧
    (liveOne b step t sp l).2.sampler.globalTimeInterval = l.sampler.globalTimeInterval := by
  unfold liveOne
  split
  · split
    · split <;> exact ⟨rfl, rfl⟩
    · split
      · split <;> exact ⟨rfl, rfl⟩
      · exact ⟨rfl, rfl⟩
  · exact ⟨rfl, rfl⟩

theorem liveOne_world {b : LiveBehaviour W T V} (hb : OnlyLooks b) {st : State T}
    {sp : PropertySpec T V} {w : W} {s : Sampler T V Row} {l : LiveEnv W T V Row}
    (h : liveOne b st.step st.time sp ⟨w, st, s⟩ = (.ok (), l)) :
    l.world = if dueAt s.globalInterval s.globalTimeInterval sp st.step st.time then
      oneCall b sp.name w st else w := by
  rw [← due_eq]
  unfold liveOne at h
  unfold oneCall
  by_cases hdue : s.due sp st.step st.time = true
  · simp only [hdue, if_true] at h ⊢
    obtain ⟨hc, -⟩ := hb sp.name w st st.step st.time
    rcases e : b.call sp.name w st st.step st.time with ⟨r, st1, w1⟩
    rw [e] at h hc
    simp only at hc
    subst hc
    cases r with
    | value v =>
      simp only at h ⊢
      split at h
      · split at h
        · cases h
        · cases h; rfl
      · cases h; rfl
    | raised =>
      simp only at h ⊢
      unfold liveHandle at h
      cases hq : b.handle sp.name with
      | none => rw [hq] at h; cases h
      | some hf =>
        rw [hq] at h
        simp only at h ⊢
        rcases eh : hf w1 st1 st1.step st1.time with ⟨rh, st2, w2⟩
        rw [eh] at h
        rcases rh with _ | _ | _
        · cases h
        · cases h
        · cases h; rfl
  · simp only [hdue] at h ⊢
    simp only [Bool.false_eq_true, if_false, Prod.mk.injEq, true_and] at h ⊢
    rw [← h]

theorem liveLoop_world {b : LiveBehaviour W T V} (hb : OnlyLooks b) {st : State T} :
    ∀ (specs : List (PropertySpec T V)) (w : W) (s : Sampler T V Row) (l : LiveEnv W T V Row),
      liveLoop b st.step st.time specs ⟨w, st, s⟩ = (.ok (), l) →
      l.world = specs.foldl (fun w sp =>
        if dueAt s.globalInterval s.globalTimeInterval sp st.step st.time then
          oneCall b sp.name w st else w) w := by
  intro specs
  induction specs with
  | nil =>
    intro w s l h
    simp only [liveLoop, Prod.mk.injEq, true_and] at h
    rw [← h]; rfl
  | cons sp rest ih =>
    intro w s l h
    simp only [liveLoop] at h
    obtain ⟨g1, g2⟩ := liveOne_globals b st.step st.time sp ⟨w, st, s⟩
    have o1 := (liveOne_pure hb st st.step st.time sp w s).1
    rcases e : liveOne b st.step st.time sp ⟨w, st, s⟩ with ⟨r, l1⟩
    rw [e] at h g1 g2 o1
    cases r with
    | error x => cases h
    | ok u =>
      have hw1 := liveOne_world hb e
      obtain ⟨w1, st1, s1⟩ := l1
      simp only at h g1 g2 o1 hw1
      subst o1
      rw [ih w1 s1 l h, g1, g2, hw1]
      rfl

/-- What the schedule of an attached property depends on. -/
def schedOf (kv : String × PropertySpec T V) : String × Bool × Option Int × Option T :=
  (kv.1, kv.2.enabled, kv.2.interval, kv.2.timeInterval)

/-- The schedule of a spec. -/
def schedTail (sp : PropertySpec T V) : Bool × Option Int × Option T :=
  (sp.enabled, sp.interval, sp.timeInterval)

theorem sched_same {s s' : Sampler T V Row} (hw : SamplerWF s) (h : SameRegistration s' s) :
    s'.properties.map schedOf = s.properties.map schedOf := by
  have key := dict_ext (s'.properties.map fun kv => (kv.1, schedTail kv.2))
    (s.properties.map fun kv => (kv.1, schedTail kv.2))
  apply key
  · rw [dictKeys_map, dictKeys_map, h.keys]
  · rw [dictKeys_map]; exact h.keys ▸ hw.nodup
  · intro n
    rw [dictGet_map, dictGet_map]
    cases hg : dictGet s.properties n with
    | some a =>
      obtain ⟨c, hc, x, y, rfl⟩ := h.spec n a hg
      rw [hc]; rfl
    | none =>
      rw [dictGet_eq_none_iff, ← h.keys, ← dictGet_eq_none_iff] at hg
      rw [hg]

end
section
variable {σ φ M R U K : Type} [Field K] [LinearOrder K] [FloorRing K]
variable [Add T] [Sub T] [LE T] [DecidableLE T]

/-- The tracker follows the schedules of a plan without time intervals. -/
structure Follows (plan : PropertyPlan T V) (len : Nat) (s : Sampler T V Row) : Prop where
  wf : SamplerWF s
  gi : s.globalInterval = plan.trackerInterval (some (max len 1 : Nat))
  gt : s.globalTimeInterval = none
  sched : s.properties.map schedOf = plan.attached.map schedOf

theorem foldl_via {α β γ ω : Type} (f : ω → α → ω) (f' : ω → β → ω) (F : ω → γ → ω) (p : α → γ)
    (p' : β → γ) : ∀ (a : List α) (c : List β), a.map p = c.map p' →
      (∀ w x, x ∈ a → f w x = F w (p x)) → (∀ w y, y ∈ c → f' w y = F w (p' y)) →
      ∀ w, a.foldl f w = c.foldl f' w
  | [], [], _, _, _, _ => rfl
  | [], _ :: _, h, _, _, _ => by simp at h
  | _ :: _, [], h, _, _, _ => by simp at h
  | x :: a, y :: c, h, h1, h2, w => by
    simp only [List.map_cons, List.cons.injEq] at h
    simp only [List.foldl_cons]
    rw [h1 w x List.mem_cons_self, h2 w y List.mem_cons_self, h.1]
    exact foldl_via f f' F p p' a c h.2 (fun w x hx => h1 w x (List.mem_cons_of_mem _ hx))
      (fun w x hx => h2 w x (List.mem_cons_of_mem _ hx)) _

theorem liveSample_world {b : LiveBehaviour W T V} (hb : OnlyLooks b) {plan : PropertyPlan T V}
    (hg : plan.globalTimeInterval = none)
    (ht : ∀ kv ∈ plan.attached, kv.2.timeInterval = none) {len : Nat}
    {summary : List (String × Bool) → Row} {st : State T} {w : W} {s : Sampler T V Row}
    {l : LiveEnv W T V Row} (hf : Follows plan len s)
    (h : liveSample b summary st.step st.time ⟨w, st, s⟩ = (.ok (), l)) :
    l.world = stepCalls b plan len w st ∧ Follows plan len l.sampler := by
  obtain ⟨h1, h2, tab, h3⟩ := liveSample_pure hb summary st st.step st.time w hf.wf
  obtain ⟨f1, f2, f3, f4, f5⟩ := sampleSummary_fields summary s st.step st.time
  rw [h] at h1 h2 h3
  simp only at h1 h2 h3
  obtain ⟨cb, hd, ha⟩ := memoryless_exists b fun _ => tab
  have hk := h3 cb hd (ha st st.step st.time)
  have hw' := (samplerWF_with cb hd).2 hf.wf
  have hsame := sampleProperties_same hw' hk
  have hgi : l.sampler.globalInterval = s.globalInterval := hsame.gi
  have hgt : l.sampler.globalTimeInterval = s.globalTimeInterval := hsame.gt
  have hsched : l.sampler.properties.map schedOf = s.properties.map schedOf := by
    have := sched_same hw' hsame
    simp only [Sampler.withFunctions, List.map_map] at this
    exact this
  refine ⟨?_, h2, hgi.trans hf.gi, hgt.trans hf.gt, hsched.trans hf.sched⟩
  unfold liveSample at h
  have hl := liveLoop_world hb _ _ _ _ h
  rw [hl, f1, f3, f4, hf.gi, hf.gt, List.foldl_map]
  unfold stepCalls
  refine foldl_via _ _ (fun w (k : String × Bool × Option Int × Option T) =>
    if k.2.1 = true ∧ k.2.2.2 = none ∧ OnMultiple ((k.2.2.1.orElse fun _ =>
        plan.globalInterval).getD (max len 1 : Nat)) (tickOf st)
      then oneCall b k.1 w st else w) schedOf schedOf _ _ hf.sched ?_ ?_ w
  · rintro w ⟨n, sp⟩ hm
    have hn : sp.name = n := hf.wf.named n sp hm
    have hti : sp.timeInterval = none := by
      have hmem : schedOf (n, sp) ∈ plan.attached.map schedOf := by
        rw [← hf.sched]; exact List.mem_map.2 ⟨_, hm, rfl⟩
      obtain ⟨kv, hkv, he⟩ := List.mem_map.1 hmem
      have := ht kv hkv
      simp only [schedOf, Prod.mk.injEq] at he
      rw [← he.2.2.2]; exact this
    have hdue : dueAt (plan.trackerInterval (some (max len 1 : Nat))) none sp st.step st.time = true ↔
        sp.enabled = true ∧ OnMultiple ((sp.interval.orElse fun _ => plan.globalInterval).getD
          (max len 1 : Nat)) (tickOf st) := by
      unfold dueAt PropertyPlan.trackerInterval shouldTrigger OnMultiple tickOf
      rw [hti, hg]
      cases sp.interval with
      | some i =>
        simp [Int.dvd_iff_emod_eq_zero]
      | none =>
        cases plan.globalInterval <;> simp [Int.dvd_iff_emod_eq_zero]
    simp only [schedOf, hti, true_and, hn]
    by_cases hq : dueAt (plan.trackerInterval (some (max len 1 : Nat))) none sp st.step st.time = true
    · rw [if_pos hq, if_pos (hdue.1 hq)]
    · rw [if_neg hq, if_neg (fun h => hq (hdue.2 h))]
  · rintro w ⟨n, sp⟩ hm
    have := ht _ hm
    simp only at this
    simp only [schedOf, this, true_and]

theorem liveStep_world {b : LiveBehaviour W T V} (hb : OnlyLooks b) {plan : PropertyPlan T V}
    (hg : plan.globalTimeInterval = none)
    (ht : ∀ kv ∈ plan.attached, kv.2.timeInterval = none) {len : Nat} {k : Kernel R T U}
    {m : RateModel M R T} {g : Geometry K}
    {summary : Trajectory K → T → List (String × Bool) → Row}
    {l l' : LiveState W σ φ M R T K V Row} {r1 r2 : U} (hf : Follows plan len l.run.sampler)
    (h : liveStep b k m g summary l r1 r2 = (.ok (), l')) :
    ∃ e dt, l.run.sim.propose k r1 r2 = .ok (e, dt) ∧
      l.run.sim.update k m e dt = (.ok (), l'.run.sim) ∧
      l'.world = stepCalls b plan len l.world l'.run.sim.st ∧ Follows plan len l'.run.sampler := by
  unfold liveStep at h
  cases hp : l.run.sim.propose k r1 r2 with
  | error x => rw [hp] at h; cases h
  | ok p =>
    obtain ⟨e, dt⟩ := p
    rw [hp] at h
    simp only at h
    rcases hq : l.run.traj.update g l.run.sim.st.occ e with ⟨rt, traj⟩
    rw [hq] at h
    cases rt with
    | error x => cases h
    | ok u =>
      simp only at h
      rcases hu : l.run.sim.update k m e dt with ⟨ru, sim⟩
      rw [hu] at h
      cases ru with
      | error x => cases h
      | ok u =>
        simp only at h
        have hst := (liveSample_pure hb (summary traj sim.st.time) sim.st sim.st.step sim.st.time
          l.world hf.wf).1
        rcases hs : liveSample b (summary traj sim.st.time) sim.st.step sim.st.time
          ⟨l.world, sim.st, l.run.sampler⟩ with ⟨r, le⟩
        rw [hs] at h hst
        simp only [Prod.mk.injEq] at h
        obtain ⟨rfl, rfl⟩ := h
        simp only at hst
        obtain ⟨h1, h2⟩ := liveSample_world hb hg ht hf hs
        refine ⟨e, dt, rfl, ?_, ?_, h2⟩
        · simp only [hst]; exact hu
        · simp only [hst]; exact h1

theorem liveSteps_world {b : LiveBehaviour W T V} (hb : OnlyLooks b) {plan : PropertyPlan T V}
    (hg : plan.globalTimeInterval = none)
    (ht : ∀ kv ∈ plan.attached, kv.2.timeInterval = none) {len : Nat} {k : Kernel R T U}
    {m : RateModel M R T} {g : Geometry K}
    {summary : Trajectory K → T → List (String × Bool) → Row} {rng : Nat → U × U} :
    ∀ {n c : Nat} {l l' : LiveState W σ φ M R T K V Row}, Follows plan len l.run.sampler →
      liveSteps b k m g summary rng n c l = (.ok (), l') →
      ∃ states, states.length = n ∧ Visited k m rng c l.run.sim states l'.run.sim ∧
        l'.world = states.foldl (stepCalls b plan len) l.world ∧ Follows plan len l'.run.sampler := by
  intro n
  induction n with
  | zero =>
    intro c l l' hf h
    simp only [liveSteps, Prod.mk.injEq, true_and] at h
    subst h; exact ⟨[], rfl, .nil _ _, rfl, hf⟩
  | succ n ih =>
    intro c l l' hf h
    simp only [liveSteps] at h
    rcases e : liveStep b k m g summary l (rng c).1 (rng c).2 with ⟨r, l1⟩
    rw [e] at h
    cases r with
    | error x => cases h
    | ok u =>
      obtain ⟨ev, dt, hp, hu, hw, hf1⟩ := liveStep_world hb hg ht hf e
      obtain ⟨states, hl, hv, hww, hf2⟩ := ih hf1 h
      exact ⟨l1.run.sim.st :: states, by simp [hl], .cons hp hu hv, by rw [hww, hw]; rfl, hf2⟩

theorem livePasses_world {b : LiveBehaviour W T V} (hb : OnlyLooks b) {plan : PropertyPlan T V}
    (hg : plan.globalTimeInterval = none)
    (ht : ∀ kv ∈ plan.attached, kv.2.timeInterval = none) {len : Nat} {k : Kernel R T U}
    {m : RateModel M R T} {g : Geometry K}
    {summary : Trajectory K → T → List (String × Bool) → Row} {rng : Nat → U × U} :
    ∀ {n p c : Nat} {l l' : LiveState W σ φ M R T K V Row}, Follows plan len l.run.sampler →
      livePasses b k m g summary rng len n p c l = (.ok (), l') →
      ∃ states, states.length = n * len ∧ Visited k m rng c l.run.sim states l'.run.sim ∧
        l'.world = states.foldl (stepCalls b plan len) l.world := by
  intro n
  induction n with
  | zero =>
    intro p c l l' hf h
    simp only [livePasses, Prod.mk.injEq, true_and] at h
    subst h; exact ⟨[], by simp, .nil _ _, rfl⟩
  | succ n ih =>
    intro p c l l' hf h
    simp only [livePasses] at h
    rcases e : liveSteps b k m g summary rng len c l with ⟨r, l1⟩
    rw [e] at h
    cases r with
    | error x => cases h
    | ok u =>
      obtain ⟨st1, hl1, hv1, hw1, hf1⟩ := liveSteps_world hb hg ht hf e
      obtain ⟨st2, hl2, hv2, hw2⟩ := ih (l := ⟨{ l1.run with currentPass := p }, l1.world⟩) hf1 h
      refine ⟨st1 ++ st2, by simp [hl1, hl2]; ring, Visited.append hv1 ?_, ?_⟩
      · rw [hl1]; exact hv2
      · rw [hw2, List.foldl_append, hw1]

end
end KMC
