import Verif.Spec.Shared
import Verif.Lemmas.Hop
/-
Lemmas about simulations in one memory.
-/
set_option linter.unusedSectionVars false
namespace KMC
open Spec Shared

section
variable {σ φ M R T U K V Row : Type}

/-- The same event apart from its hop codes. -/
def SameHop (a b : Event) : Prop := a.mobile = b.mobile ∧ a.env = b.env

theorem annotateEvent_sameHop {h : HopStateLookup} {a b : Event} (hab : SameHop a b) :
    h.annotateEvent a = h.annotateEvent b := by
  obtain ⟨am, ae, ac⟩ := a
  obtain ⟨bm, be, bc⟩ := b
  obtain ⟨h1, h2⟩ := hab
  simp only at h1 h2
  subst h1; subst h2
  rfl

theorem annotateEvent_same {h : HopStateLookup} {a b : Event} (hab : h.annotateEvent a = .ok b) : SameHop b a := by
  simp only [HopStateLookup.annotateEvent] at hab
  split at hab
  · cases hab
  · split at hab
    · cases hab
      exact ⟨rfl, rfl⟩
    · cases hab

theorem annotateEvent_again {h : HopStateLookup} {a b : Event} (hab : h.annotateEvent a = .ok b) :
    h.annotateEvent b = .ok b := by
  rw [annotateEvent_sameHop (annotateEvent_same hab), hab]

/-- What annotating through references does to memory. -/
theorem annotateAll_frame (h : HopStateLookup) (as : List Nat) (μ : Memory M T) :
    (annotateAll h as μ).2.states = μ.states ∧ (annotateAll h as μ).2.caches = μ.caches ∧
    (∀ b, SameHop ((annotateAll h as μ).2.events b) (μ.events b)) ∧
    (∀ b, b ∉ as → (annotateAll h as μ).2.events b = μ.events b) ∧
    (∀ b, h.annotateEvent (μ.events b) = .ok (μ.events b) → (annotateAll h as μ).2.events b = μ.events b) := by
  induction as generalizing μ with
  | nil => exact ⟨rfl, rfl, fun _ => ⟨rfl, rfl⟩, fun _ _ => rfl, fun _ _ => rfl⟩
  | cons a as ih =>
    simp only [annotateAll]
    split
    · exact ⟨rfl, rfl, fun _ => ⟨rfl, rfl⟩, fun _ _ => rfl, fun _ _ => rfl⟩
    · rename_i e he
      obtain ⟨h1, h2, h3, h4, h5⟩ := ih (μ.setEvent a e)
      refine ⟨h1, h2, ?_, ?_, ?_⟩
      · intro b
        refine ⟨(h3 b).1.trans ?_, (h3 b).2.trans ?_⟩ <;>
        · simp only [Memory.setEvent]
          split
          · rename_i hb
            subst hb
            first
              | exact (annotateEvent_same he).1
              | exact (annotateEvent_same he).2
          · rfl
      · intro b hb
        simp only [List.mem_cons, not_or] at hb
        rw [h4 b hb.2]
        simp only [Memory.setEvent, if_neg hb.1]
      · intro b hb
        by_cases hba : b = a
        · subst hba
          have : e = μ.events b := by
            rw [hb] at he
            exact (Except.ok.inj he).symm
          rw [h5 b (by simp only [Memory.setEvent, if_true, this]; exact hb)]
          simp only [Memory.setEvent, if_true, this]
        · rw [h5 b (by simp only [Memory.setEvent, if_neg hba]; exact hb)]
          simp only [Memory.setEvent, if_neg hba]

/-- Annotating through references is annotating the list that is read through them. -/
theorem annotateAll_read (h : HopStateLookup) (as : List Nat) (μ : Memory M T) :
    match h.annotateEvents (as.map μ.events) with
    | .error x => (annotateAll h as μ).1 = .error x
    | .ok es => (annotateAll h as μ).1 = .ok () ∧ as.map (annotateAll h as μ).2.events = es ∧
        ∀ b ∈ as, h.annotateEvent ((annotateAll h as μ).2.events b) = .ok ((annotateAll h as μ).2.events b) := by
  induction as generalizing μ with
  | nil => exact ⟨rfl, rfl, fun _ hb => by cases hb⟩
  | cons a as ih =>
    simp only [annotateAll, List.map_cons, HopStateLookup.annotateEvents]
    cases he : h.annotateEvent (μ.events a) with
    | error x => rfl
    | ok e =>
      simp only
      have hsame : ∀ b, SameHop ((μ.setEvent a e).events b) (μ.events b) := by
        intro b
        simp only [Memory.setEvent]
        split
        · rename_i hb
          subst hb
          exact annotateEvent_same he
        · exact ⟨rfl, rfl⟩
      have hcongr : h.annotateEvents (as.map (μ.setEvent a e).events) = h.annotateEvents (as.map μ.events) := by
        clear ih
        induction as with
        | nil => rfl
        | cons b bs ihb =>
          simp only [List.map_cons, HopStateLookup.annotateEvents]
          rw [annotateEvent_sameHop (hsame b), ihb]
      have := ih (μ.setEvent a e)
      rw [hcongr] at this
      cases hes : h.annotateEvents (as.map μ.events) with
      | error x =>
        rw [hes] at this
        exact this
      | ok es =>
        rw [hes] at this
        obtain ⟨h1, h2, h3⟩ := this
        obtain ⟨-, -, -, -, f5⟩ := annotateAll_frame h as (μ.setEvent a e)
        have ha : (annotateAll h as (μ.setEvent a e)).2.events a = e := by
          rw [f5 a]
          · simp only [Memory.setEvent, if_true]
          · simp only [Memory.setEvent, if_true]
            exact annotateEvent_again he
        refine ⟨h1, by rw [ha, h2], ?_⟩
        intro b hb
        rcases List.mem_cons.1 hb with rfl | hb
        · rw [ha]
          exact annotateEvent_again he
        · exact h3 b hb

/-- `setOwn`/memory bookkeeping. -/
theorem setOwn_same (w : Process M R T K V Row) (i : Nat) (o : Own R T K V Row) : (w.setOwn i o).own i = some o := by
  simp only [Process.setOwn, if_true]

theorem setOwn_other (w : Process M R T K V Row) {i j : Nat} (hij : j ≠ i) (o : Own R T K V Row) :
    (w.setOwn i o).own j = w.own j := by
  simp only [Process.setOwn, if_neg hij]

theorem setOwn_mem (w : Process M R T K V Row) (i : Nat) (o : Own R T K V Row) : (w.setOwn i o).mem = w.mem := rfl

theorem setState_same (μ : Memory M T) (a : Nat) (s : State T) : (μ.setState a s).states a = s := by
  simp only [Memory.setState, if_true]

theorem setCache_same (μ : Memory M T) (a : Nat) (c : M) : (μ.setCache a c).caches a = c := by
  simp only [Memory.setCache, if_true]

/-- The construction of an object ended the way described. -/
def Constructed (g : Given σ φ M R T U K V Row) (i : Nat) (w : Process M R T K V Row) : Py (Sim σ φ M R T) → Prop
  | .error x => (construct g i w).1 = .error x ∧ (construct g i w).2.own = w.own
  | .ok s => (construct g i w).1 = .ok () ∧ observed g i (construct g i w).2 = some s ∧
      observedTracker i (construct g i w).2 = none

/-- Constructing an object, seen through it, is `Sim.init`. -/
theorem construct_read (g : Given σ φ M R T U K V Row) (i : Nat) (w : Process M R T K V Row) :
    Constructed g i w
      (Sim.init g.kernel g.model (g.library w.mem) g.lookup (some (w.mem.states g.stateAt))) := by
  have main : ∀ μ : Memory M T, μ.states = w.mem.states → annotateGiven g w.mem = (.ok (), μ) →
      Constructed g i w (match g.model.initializeState (w.mem.states g.stateAt) (g.library μ).events with
        | .error e => (.error e : Py (Sim σ φ M R T))
        | .ok ms =>
          match initialProbs g.model ms (w.mem.states g.stateAt) (g.library μ).events with
          | .error e => .error e
          | .ok p => .ok { lib := g.library μ, st := w.mem.states g.stateAt, ms := ms, prob := p, cum := g.kernel.cumsum p }) := by
    intro μ hst hμ
    cases hin : g.model.initializeState (w.mem.states g.stateAt) (g.library μ).events with
    | error x =>
      simp only [Constructed, construct, hμ, hst, hin]
      exact ⟨trivial, trivial⟩
    | ok c =>
      have hlib : g.library (μ.setCache g.modelAt c) = g.library μ := rfl
      have hst' : (μ.setCache g.modelAt c).states = w.mem.states := hst
      simp only
      cases hp : initialProbs g.model c (w.mem.states g.stateAt) (g.library μ).events with
      | error x =>
        simp only [Constructed, construct, hμ, hst, hin, setCache_same, hlib, hst', hp]
        exact ⟨trivial, trivial⟩
      | ok p =>
        simp only [Constructed, construct, hμ, hst, hin, setCache_same, hlib, hst', hp]
        refine ⟨trivial, ?_, ?_⟩
        · simp only [observed, setOwn_same, setOwn_mem, Option.map_some, hlib, hst', setCache_same]
        · simp only [observedTracker, setOwn_same, Option.bind_some]
  simp only [Sim.init]
  cases hl : g.lookup with
  | none =>
    have := main w.mem rfl (by simp only [annotateGiven, hl])
    exact this
  | some h =>
    have hr := annotateAll_read h g.eventsAt w.mem
    simp only [Given.library] at hr ⊢
    cases hes : h.annotateEvents (g.eventsAt.map w.mem.events) with
    | error x =>
      rw [hes] at hr
      have hx : annotateGiven g w.mem = (.error x, (annotateAll h g.eventsAt w.mem).2) := by
        simp only [annotateGiven, hl]
        exact Prod.ext hr rfl
      simp only [Constructed, construct, hx]
      exact ⟨trivial, trivial⟩
    | ok es =>
      rw [hes] at hr
      obtain ⟨h1, h2, -⟩ := hr
      have hx : annotateGiven g w.mem = (.ok (), (annotateAll h g.eventsAt w.mem).2) := by
        simp only [annotateGiven, hl]
        exact Prod.ext h1 rfl
      have := main _ (annotateAll_frame h g.eventsAt w.mem).1 hx
      simp only [Given.library, h2] at this
      exact this

/-- Updating an object, seen through it, is `Sim.update`. -/
theorem update_read [Add T] (g : Given σ φ M R T U K V Row) (i : Nat) (w : Process M R T K V Row)
    (o : Own R T K V Row) (s : Sim σ φ M R T) (ho : w.own i = some o) (hs : observed g i w = some s) (e : Event) (dt : T) :
    (updateObject g i o e dt w).1 = (s.update g.kernel g.model e dt).1 ∧
    observed g i (updateObject g i o e dt w).2 = some (s.update g.kernel g.model e dt).2 ∧
    observedTracker i (updateObject g i o e dt w).2 = o.tracker := by
  simp only [observed, ho, Option.map_some, Option.some.injEq] at hs
  subst hs
  simp only [updateObject, Sim.update]
  rcases hap : (w.mem.states g.stateAt).applyEvent e dt with ⟨r, st⟩
  cases r with
  | error x =>
    refine ⟨rfl, ?_, ?_⟩
    · simp only [observed, ho, Option.map_some, setState_same]
      rfl
    · simp only [observedTracker, ho, Option.bind_some]
  | ok u =>
    simp only [setState_same]
    have hc : (w.mem.setState g.stateAt st).caches = w.mem.caches := rfl
    rw [hc]
    rcases hma : g.model.applyEvent (w.mem.caches g.modelAt) e st with ⟨r, c⟩
    cases r with
    | error x =>
      refine ⟨rfl, ?_, ?_⟩
      · simp only [observed, ho, Option.map_some, setCache_same]
        simp only [Memory.setCache, setState_same]
        rfl
      · simp only [observedTracker, ho, Option.bind_some]
    | ok u =>
      have hlib : g.library ((w.mem.setState g.stateAt st).setCache g.modelAt c) = g.library w.mem := rfl
      have hst : ((w.mem.setState g.stateAt st).setCache g.modelAt c).states g.stateAt = st := setState_same _ _ _
      simp only [hlib, hst, setCache_same]
      cases hix : indexOfEvent (g.library w.mem).events e with
      | error x =>
        refine ⟨rfl, ?_, ?_⟩
        · simp only [observed, ho, Option.map_some, setCache_same, hlib, hst]
        · simp only [observedTracker, ho, Option.bind_some]
      | ok k =>
        simp only
        rcases hrec : recompute g.model (g.library w.mem).events c st ((g.library w.mem).getDependentEvents k) o.prob with
          ⟨r, prob⟩
        cases r with
        | error x =>
          refine ⟨rfl, ?_, ?_⟩
          · simp only [observed, setOwn_same, setOwn_mem, Option.map_some, setCache_same, hlib, hst]
          · simp only [observedTracker, setOwn_same, Option.bind_some]
        | ok u =>
          refine ⟨rfl, ?_, ?_⟩
          · simp only [observed, setOwn_same, setOwn_mem, Option.map_some, setCache_same, hlib, hst]
          · simp only [observedTracker, setOwn_same, Option.bind_some]

theorem propose_read (g : Given σ φ M R T U K V Row) (i : Nat) (w : Process M R T K V Row)
    (o : Own R T K V Row) (s : Sim σ φ M R T) (ho : w.own i = some o) (hs : observed g i w = some s) (r1 r2 : U) :
    proposeObject g o w.mem r1 r2 = s.propose g.kernel r1 r2 := by
  simp only [observed, ho, Option.map_some, Option.some.injEq] at hs
  subst hs
  rfl

theorem equil_read [Add T] [Zero T] (g : Given σ φ M R T U K V Row) (i : Nat) (w : Process M R T K V Row)
    (o : Own R T K V Row) (s : Sim σ φ M R T) (ho : w.own i = some o) (hs : observed g i w = some s) (r1 r2 : U) :
    (equilObject g i o r1 r2 w).1 = (s.equilStep g.kernel g.model r1 r2).1 ∧
    observed g i (equilObject g i o r1 r2 w).2 = some (s.equilStep g.kernel g.model r1 r2).2 ∧
    observedTracker i (equilObject g i o r1 r2 w).2 = o.tracker := by
  simp only [equilObject, Sim.equilStep, propose_read g i w o s ho hs]
  cases hp : s.propose g.kernel r1 r2 with
  | error x => exact ⟨rfl, hs, by simp only [observedTracker, ho, Option.bind_some]⟩
  | ok q => exact update_read g i w o s ho hs q.1 0

variable [Field K] [LinearOrder K] [FloorRing K]

/-- The objects of the run in progress. -/
def runOf (s : Sim σ φ M R T) (t : Trajectory K × Sampler T V Row × Nat) : RunState σ φ M R T K V Row :=
  { sim := s, traj := t.1, sampler := t.2.1, currentPass := t.2.2 }

theorem prod_read [Add T] [Sub T] [LE T] [DecidableLE T] (g : Given σ φ M R T U K V Row) (i : Nat)
    (w : Process M R T K V Row) (o : Own R T K V Row) (s : Sim σ φ M R T)
    (t : Trajectory K × Sampler T V Row × Nat) (ho : w.own i = some o) (hs : observed g i w = some s)
    (ht : o.tracker = some t) (r1 r2 : U) :
    (prodObject g i o t.1 t.2.1 t.2.2 r1 r2 w).1 =
      ((runOf s t).prodStep g.kernel g.model g.geometry g.summary r1 r2).1 ∧
    ∃ s' t', ((runOf s t).prodStep g.kernel g.model g.geometry g.summary r1 r2).2 = runOf s' t' ∧
      observed g i (prodObject g i o t.1 t.2.1 t.2.2 r1 r2 w).2 = some s' ∧
      observedTracker i (prodObject g i o t.1 t.2.1 t.2.2 r1 r2 w).2 = some t' := by
  obtain ⟨traj, sampler, pass⟩ := t
  have hst : s.st = w.mem.states g.stateAt := by
    simp only [observed, ho, Option.map_some, Option.some.injEq] at hs
    subst hs
    rfl
  simp only [prodObject, runOf, RunState.prodStep, propose_read g i w o s ho hs]
  cases hp : s.propose g.kernel r1 r2 with
  | error x =>
    exact ⟨rfl, s, (traj, sampler, pass), rfl, hs, by simp only [observedTracker, ho, Option.bind_some, ht]⟩
  | ok q =>
    obtain ⟨e, dt⟩ := q
    simp only [hst]
    rcases htu : traj.update g.geometry (w.mem.states g.stateAt).occ e with ⟨r, traj'⟩
    have hs1 : observed g i (w.setOwn i { o with tracker := some (traj', sampler, pass) }) = some s := by
      rw [← hs]
      simp only [observed, setOwn_same, setOwn_mem, ho, Option.map_some]
    cases r with
    | error x =>
      exact ⟨rfl, s, (traj', sampler, pass), rfl, hs1,
        by simp only [observedTracker, setOwn_same, Option.bind_some]⟩
    | ok u =>
      simp only
      have hu := update_read g i _ { o with tracker := some (traj', sampler, pass) } s (setOwn_same w i _) hs1 e dt
      rcases huo : updateObject g i { o with tracker := some (traj', sampler, pass) } e dt
        (w.setOwn i { o with tracker := some (traj', sampler, pass) }) with ⟨r, w'⟩
      rw [huo] at hu
      rcases hsu : s.update g.kernel g.model e dt with ⟨r', s'⟩
      rw [hsu] at hu
      obtain ⟨h1, h2, h3⟩ := hu
      simp only at h1 h2 h3
      subst h1
      cases r with
      | error x => exact ⟨rfl, s', (traj', sampler, pass), rfl, h2, h3⟩
      | ok u =>
        simp only [sampleObject]
        cases ho' : w'.own i with
        | none => simp only [observed, ho', Option.map_none] at h2; cases h2
        | some o' =>
          have hst' : s'.st = w'.mem.states g.stateAt := by
            simp only [observed, ho', Option.map_some, Option.some.injEq] at h2
            subst h2
            rfl
          simp only [hst']
          rcases hsp : sampler.sampleProperties (g.summary traj' (w'.mem.states g.stateAt).time)
            (w'.mem.states g.stateAt) (w'.mem.states g.stateAt).step (w'.mem.states g.stateAt).time with ⟨r, sampler'⟩
          refine ⟨trivial, s', (traj', sampler', pass), rfl, ?_, ?_⟩
          · rw [← h2]
            simp only [observed, setOwn_same, setOwn_mem, ho', Option.map_some]
          · simp only [observedTracker, setOwn_same, Option.bind_some]


theorem track_read [Zero T] [LE T] [DecidableLE T] (g : Given σ φ M R T U K V Row) (i : Nat)
    (w : Process M R T K V Row) (o : Own R T K V Row) (s : Sim σ φ M R T) (ho : w.own i = some o)
    (hs : observed g i w = some s) :
    observed g i (trackObject g i o w).2 = some s ∧
    ((∃ traj, Trajectory.init g.geometry g.lookup s.st.occ = .ok traj ∧
        ∃ sampler, ({} : Sampler T V Row).applyPropertyPlan g.plan (some (max g.len 1 : Nat)) = (.ok (), sampler) ∧
          (trackObject g i o w).1 = .ok () ∧ observedTracker i (trackObject g i o w).2 = some (traj, sampler, 0)) ∨
      (∃ x, (trackObject g i o w).1 = .error x) ∧ (trackObject g i o w).2 = w) := by
  have hst : s.st = w.mem.states g.stateAt := by
    simp only [observed, ho, Option.map_some, Option.some.injEq] at hs
    subst hs
    rfl
  simp only [trackObject, hst]
  cases ht : Trajectory.init g.geometry g.lookup (w.mem.states g.stateAt).occ with
  | error x => exact ⟨hs, Or.inr ⟨⟨x, rfl⟩, rfl⟩⟩
  | ok traj =>
    simp only
    rcases hp : ({} : Sampler T V Row).applyPropertyPlan g.plan (some (max g.len 1 : Nat)) with ⟨r, sampler⟩
    cases r with
    | error x => exact ⟨hs, Or.inr ⟨⟨x, rfl⟩, rfl⟩⟩
    | ok u =>
      refine ⟨?_, Or.inl ⟨traj, rfl, sampler, rfl, rfl, ?_⟩⟩
      · rw [← hs]
        simp only [observed, setOwn_same, setOwn_mem, ho, Option.map_some]
      · simp only [observedTracker, setOwn_same, Option.bind_some]

/-- What an action of simulation `j` leaves alone. -/
structure LeftAlone (g : Given σ φ M R T U K V Row) (j : Nat) (w w' : Process M R T K V Row) : Prop where
  own : ∀ k, k ≠ j → w'.own k = w.own k
  state : ∀ b, b ≠ g.stateAt → w'.mem.states b = w.mem.states b
  cache : ∀ b, b ≠ g.modelAt → w'.mem.caches b = w.mem.caches b
  kept : ∀ c, RemembersNothing c g.model → w.mem.caches g.modelAt = c → w'.mem.caches g.modelAt = c
  hop : ∀ b, SameHop (w'.mem.events b) (w.mem.events b)
  event : ∀ b, (b ∈ g.eventsAt → ∀ h, g.lookup = some h → h.annotateEvent (w.mem.events b) = .ok (w.mem.events b)) →
    w'.mem.events b = w.mem.events b

theorem leftAlone_refl (g : Given σ φ M R T U K V Row) (j : Nat) (w : Process M R T K V Row) : LeftAlone g j w w :=
  ⟨fun _ _ => rfl, fun _ _ => rfl, fun _ _ => rfl, fun _ _ h => h, fun _ => ⟨rfl, rfl⟩, fun _ _ => rfl⟩

theorem leftAlone_setOwn {g : Given σ φ M R T U K V Row} {j : Nat} {w w' : Process M R T K V Row}
    (h : LeftAlone g j w w') (o : Own R T K V Row) : LeftAlone g j w (w'.setOwn j o) :=
  ⟨fun k hk => by rw [setOwn_other _ hk, h.own k hk], h.state, h.cache, h.kept, h.hop, h.event⟩

theorem leftAlone_mem {g : Given σ φ M R T U K V Row} {j : Nat} {w : Process M R T K V Row} {μ : Memory M T}
    (h1 : ∀ b, b ≠ g.stateAt → μ.states b = w.mem.states b) (h2 : ∀ b, b ≠ g.modelAt → μ.caches b = w.mem.caches b)
    (h3 : ∀ c, RemembersNothing c g.model → w.mem.caches g.modelAt = c → μ.caches g.modelAt = c)
    (h4 : μ.events = w.mem.events) : LeftAlone g j w { w with mem := μ } :=
  ⟨fun _ _ => rfl, h1, h2, h3, fun b => by rw [h4]; exact ⟨rfl, rfl⟩, fun b _ => by rw [h4]⟩

theorem construct_leftAlone (g : Given σ φ M R T U K V Row) (j : Nat) (w : Process M R T K V Row) :
    LeftAlone g j w (construct g j w).2 := by
  have hann : LeftAlone g j w { w with mem := (annotateGiven g w.mem).2 } := by
    cases hl : g.lookup with
    | none =>
      simp only [annotateGiven, hl]
      exact leftAlone_refl g j w
    | some h =>
      simp only [annotateGiven, hl]
      obtain ⟨h1, h2, h3, h4, h5⟩ := annotateAll_frame h g.eventsAt w.mem
      refine ⟨fun _ _ => rfl, fun b _ => by rw [h1], fun b _ => by rw [h2], fun c _ hc => by rw [h2]; exact hc,
        h3, ?_⟩
      intro b hb
      by_cases hm : b ∈ g.eventsAt
      · exact h5 b (hb hm h hl)
      · exact h4 b hm
  rcases hx : annotateGiven g w.mem with ⟨r, μ⟩
  rw [hx] at hann
  simp only [construct, hx]
  cases r with
  | error x => exact hann
  | ok u =>
    simp only
    cases hin : g.model.initializeState (μ.states g.stateAt) (g.library μ).events with
    | error x => exact hann
    | ok c =>
      have hc : LeftAlone g j w { w with mem := μ.setCache g.modelAt c } := by
        refine ⟨hann.own, hann.state, ?_, ?_, hann.hop, hann.event⟩
        · intro b hb
          simp only [Memory.setCache, if_neg hb]
          exact hann.cache b hb
        · intro c' hr _
          simp only [setCache_same]
          exact hr.start _ _ _ hin
      simp only
      split
      · exact hc
      · exact leftAlone_setOwn hc _

theorem update_leftAlone [Add T] (g : Given σ φ M R T U K V Row) (j : Nat) (w : Process M R T K V Row)
    (o : Own R T K V Row) (e : Event) (dt : T) : LeftAlone g j w (updateObject g j o e dt w).2 := by
  simp only [updateObject]
  rcases (w.mem.states g.stateAt).applyEvent e dt with ⟨r, st⟩
  have hs : ∀ b, b ≠ g.stateAt → (w.mem.setState g.stateAt st).states b = w.mem.states b := by
    intro b hb
    simp only [Memory.setState, if_neg hb]
  cases r with
  | error x => exact leftAlone_mem hs (fun _ _ => rfl) (fun _ _ h => h) rfl
  | ok u =>
    simp only [setState_same]
    have hc : (w.mem.setState g.stateAt st).caches = w.mem.caches := rfl
    rw [hc]
    rcases hma : g.model.applyEvent (w.mem.caches g.modelAt) e st with ⟨r, c⟩
    have hb : LeftAlone g j w { w with mem := (w.mem.setState g.stateAt st).setCache g.modelAt c } := by
      refine leftAlone_mem hs ?_ ?_ rfl
      · intro b hb
        simp only [Memory.setCache, if_neg hb, hc]
      · intro c' hr hc'
        simp only [setCache_same]
        have := hr.follow e st
        rw [← hc', hma] at this
        exact this.trans hc'
    cases r with
    | error x => exact hb
    | ok u =>
      simp only
      split
      · exact hb
      · split
        · exact leftAlone_setOwn hb _
        · exact leftAlone_setOwn hb _

theorem leftAlone_afterOwn {g : Given σ φ M R T U K V Row} {j : Nat} {w w' : Process M R T K V Row} {o : Own R T K V Row}
    (h : LeftAlone g j (w.setOwn j o) w') : LeftAlone g j w w' :=
  ⟨fun k hk => by rw [h.own k hk, setOwn_other _ hk], h.state, h.cache, h.kept, h.hop, h.event⟩

theorem act_leftAlone [Add T] [Zero T] [Sub T] [LE T] [DecidableLE T] (g : Given σ φ M R T U K V Row) (j : Nat)
    (a : Action T U) (w : Process M R T K V Row) : LeftAlone g j w (act g j a w).2 := by
  cases a with
  | construct => exact construct_leftAlone g j w
  | update e dt =>
    simp only [act]
    split
    · exact leftAlone_refl g j w
    · exact update_leftAlone g j w _ e dt
  | equil r1 r2 =>
    simp only [act]
    split
    · exact leftAlone_refl g j w
    · simp only [equilObject]
      split
      · exact leftAlone_refl g j w
      · exact update_leftAlone g j w _ _ _
  | track =>
    simp only [act]
    split
    · exact leftAlone_refl g j w
    · simp only [trackObject]
      split
      · exact leftAlone_refl g j w
      · split
        · exact leftAlone_refl g j w
        · exact leftAlone_setOwn (leftAlone_refl g j w) _
  | prod r1 r2 =>
    simp only [act]
    split
    · exact leftAlone_refl g j w
    · rename_i o _
      split
      · exact leftAlone_refl g j w
      · rename_i traj sampler pass _
        simp only [prodObject]
        rcases proposeObject g o w.mem r1 r2 with x | ⟨e, dt⟩
        · exact leftAlone_refl g j w
        · simp only
          rcases traj.update g.geometry (w.mem.states g.stateAt).occ e with ⟨x | u, traj'⟩
          · exact leftAlone_setOwn (leftAlone_refl g j w) _
          · simp only
            have hu := leftAlone_afterOwn (update_leftAlone g j
              (w.setOwn j { o with tracker := some (traj', sampler, pass) }) { o with tracker := some (traj', sampler, pass) } e dt)
            rcases huo : updateObject g j { o with tracker := some (traj', sampler, pass) } e dt
              (w.setOwn j { o with tracker := some (traj', sampler, pass) }) with ⟨x | u, w'⟩
            · rw [huo] at hu
              exact hu
            · rw [huo] at hu
              simp only [sampleObject]
              split
              · exact hu
              · exact leftAlone_setOwn hu _
  | endPass n =>
    simp only [act]
    split
    · exact leftAlone_refl g j w
    · split
      · exact leftAlone_refl g j w
      · exact leftAlone_setOwn (leftAlone_refl g j w) _

/-- Two processes look the same to simulation `i`. -/
structure LooksSame (g : Given σ φ M R T U K V Row) (i : Nat) (w a : Process M R T K V Row) : Prop where
  own : w.own i = a.own i
  state : w.mem.states g.stateAt = a.mem.states g.stateAt
  hop : ∀ b, SameHop (w.mem.events b) (a.mem.events b)
  plain : g.lookup = none → ∀ b ∈ g.eventsAt, w.mem.events b = a.mem.events b
  event : a.own i ≠ none → ∀ b ∈ g.eventsAt, w.mem.events b = a.mem.events b
  coded : a.own i ≠ none → ∀ h, g.lookup = some h → ∀ b ∈ g.eventsAt,
    h.annotateEvent (a.mem.events b) = .ok (a.mem.events b)
  cache : a.own i ≠ none → w.mem.caches g.modelAt = a.mem.caches g.modelAt
  kept : a.own i ≠ none → ∀ c, RemembersNothing c g.model → a.mem.caches g.modelAt = c


/-- Another simulation's action does not show. -/
theorem looksSame_other {g h : Given σ φ M R T U K V Row} {i j : Nat} (hij : j ≠ i) (hap : KeptApart g h)
    {w a w' : Process M R T K V Row} (hr : LooksSame g i w a) (hl : LeftAlone h j w w') : LooksSame g i w' a := by
  have hev : (a.own i ≠ none ∨ g.lookup = none) → ∀ b ∈ g.eventsAt, w'.mem.events b = w.mem.events b := by
    intro hm b hb
    apply hl.event b
    intro hb' k hk
    have hlk := hap.events b hb hb'
    rcases hm with hm | hm
    · rw [hr.event hm b hb]
      exact hr.coded hm k (hlk.trans hk) b hb
    · rw [← hlk, hm] at hk
      cases hk
  have hca : a.own i ≠ none → w'.mem.caches g.modelAt = a.mem.caches g.modelAt := by
    intro hm
    by_cases hmod : g.modelAt = h.modelAt
    · obtain ⟨c, h1, h2⟩ := hap.model hmod
      have hc := hr.kept hm c h1
      rw [hc, hmod]
      apply hl.kept c h2
      rw [← hmod, hr.cache hm, hc]
    · rw [hl.cache _ hmod, hr.cache hm]
  exact
    { own := by rw [hl.own i (Ne.symm hij), hr.own]
      state := by rw [hl.state _ hap.state, hr.state]
      hop := fun b => ⟨(hl.hop b).1.trans (hr.hop b).1, (hl.hop b).2.trans (hr.hop b).2⟩
      plain := fun hn b hb => by rw [hev (Or.inr hn) b hb, hr.plain hn b hb]
      event := fun hm b hb => by rw [hev (Or.inl hm) b hb, hr.event hm b hb]
      coded := hr.coded
      cache := hca
      kept := hr.kept }

theorem sameHop_symm {a b : Event} (h : SameHop a b) : SameHop b a := ⟨h.1.symm, h.2.symm⟩

/-- The two processes after an action of simulation `i` itself. -/
theorem looksSame_after {g : Given σ φ M R T U K V Row} {i : Nat} {w a w' a' : Process M R T K V Row}
    (hr : LooksSame g i w a) (hw : LeftAlone g i w w') (ha : LeftAlone g i a a') (hown : w'.own i = a'.own i)
    (hst : w'.mem.states g.stateAt = a'.mem.states g.stateAt)
    (hcache : a'.own i ≠ none → w'.mem.caches g.modelAt = a'.mem.caches g.modelAt)
    (hmade : a.own i ≠ none ∨ ((a'.own i ≠ none → ∀ b ∈ g.eventsAt, w'.mem.events b = a'.mem.events b) ∧
      (a'.own i ≠ none → ∀ h, g.lookup = some h → ∀ b ∈ g.eventsAt,
        h.annotateEvent (a'.mem.events b) = .ok (a'.mem.events b)) ∧
      (a'.own i ≠ none → ∀ c, RemembersNothing c g.model → a'.mem.caches g.modelAt = c))) :
    LooksSame g i w' a' := by
  have hev : (a.own i ≠ none) → ∀ b ∈ g.eventsAt, w'.mem.events b = w.mem.events b ∧ a'.mem.events b = a.mem.events b := by
    intro hm b hb
    constructor
    · apply hw.event b
      intro _ k hk
      rw [hr.event hm b hb]
      exact hr.coded hm k hk b hb
    · apply ha.event b
      intro _ k hk
      exact hr.coded hm k hk b hb
  exact
    { own := hown
      state := hst
      hop := fun b => ⟨(hw.hop b).1.trans ((hr.hop b).1.trans (ha.hop b).1.symm),
        (hw.hop b).2.trans ((hr.hop b).2.trans (ha.hop b).2.symm)⟩
      plain := by
        intro hn b hb
        rw [hw.event b (by intro _ k hk; rw [hn] at hk; cases hk),
          ha.event b (by intro _ k hk; rw [hn] at hk; cases hk), hr.plain hn b hb]
      event := by
        intro hm b hb
        rcases hmade with h | h
        · rw [(hev h b hb).1, (hev h b hb).2, hr.event h b hb]
        · exact h.1 hm b hb
      coded := by
        intro hm k hk b hb
        rcases hmade with h | h
        · rw [(hev h b hb).2]
          exact hr.coded h k hk b hb
        · exact h.2.1 hm k hk b hb
      cache := hcache
      kept := by
        intro hm c hc
        rcases hmade with h | h
        · exact ha.kept c hc (hr.kept h c hc)
        · exact h.2.2 hm c hc }

theorem annotateEvents_sameHop {h : HopStateLookup} {as : List Nat} {e e' : Nat → Event}
    (hs : ∀ b, SameHop (e b) (e' b)) : h.annotateEvents (as.map e) = h.annotateEvents (as.map e') := by
  induction as with
  | nil => rfl
  | cons b bs ih =>
    simp only [List.map_cons, HopStateLookup.annotateEvents]
    rw [annotateEvent_sameHop (hs b), ih]

theorem map_congr_mem {as : List Nat} {e e' : Nat → Event} (h : as.map e = as.map e') : ∀ b ∈ as, e b = e' b := by
  intro b hb
  exact (List.map_inj_left.1 h) b hb

/-- Constructing simulation `i` in two processes that look the same to it. -/
theorem looksSame_construct {g : Given σ φ M R T U K V Row} {i : Nat} {w a : Process M R T K V Row}
    (hr : LooksSame g i w a) : (construct g i w).1 = (construct g i a).1 ∧
      LooksSame g i (construct g i w).2 (construct g i a).2 := by
  have hwl := construct_leftAlone g i w
  have hal := construct_leftAlone g i a
  rcases hxw : annotateGiven g w.mem with ⟨r, μ⟩
  rcases hxa : annotateGiven g a.mem with ⟨r', μ'⟩
  have hann : μ.states = w.mem.states ∧ μ'.states = a.mem.states ∧ μ.caches = w.mem.caches ∧
      μ'.caches = a.mem.caches ∧ r = r' ∧ (r = .ok () → (∀ b ∈ g.eventsAt, μ.events b = μ'.events b) ∧
        ∀ h, g.lookup = some h → ∀ b ∈ g.eventsAt, h.annotateEvent (μ'.events b) = .ok (μ'.events b)) := by
    simp only [annotateGiven] at hxw hxa
    cases hl : g.lookup with
    | none =>
      rw [hl] at hxw hxa
      cases hxw; cases hxa
      refine ⟨rfl, rfl, rfl, rfl, rfl, fun _ => ⟨hr.plain hl, fun h hh => by cases hh⟩⟩
    | some h =>
      rw [hl] at hxw hxa
      simp only at hxw hxa
      have fw := annotateAll_frame h g.eventsAt w.mem
      have fa := annotateAll_frame h g.eventsAt a.mem
      have rw1 := annotateAll_read h g.eventsAt w.mem
      have ra1 := annotateAll_read h g.eventsAt a.mem
      rw [annotateEvents_sameHop hr.hop] at rw1
      rw [hxw] at fw rw1
      rw [hxa] at fa ra1
      refine ⟨fw.1, fa.1, fw.2.1, fa.2.1, ?_⟩
      cases hes : h.annotateEvents (g.eventsAt.map a.mem.events) with
      | error x =>
        rw [hes] at rw1 ra1
        simp only at rw1 ra1
        subst rw1; subst ra1
        exact ⟨rfl, fun hh => by cases hh⟩
      | ok es =>
        rw [hes] at rw1 ra1
        simp only at rw1 ra1
        obtain ⟨h1, h2, h3⟩ := rw1
        obtain ⟨k1, k2, k3⟩ := ra1
        subst h1; subst k1
        refine ⟨rfl, fun _ => ⟨map_congr_mem (h2.trans k2.symm), ?_⟩⟩
        intro h' hh b hb
        cases hh
        exact k3 b hb
  obtain ⟨s1, s2, c1, c2, hrr, hev⟩ := hann
  subst hrr
  simp only [construct, hxw, hxa] at hwl hal ⊢
  cases r with
  | error x =>
    simp only at hwl hal ⊢
    refine ⟨trivial, ?_⟩
    by_cases hm : a.own i = none
    · exact looksSame_after hr hwl hal hr.own (by simp only [s1, s2, hr.state]) (fun h => absurd hm h)
        (Or.inr ⟨fun h => absurd hm h, fun h => absurd hm h, fun h => absurd hm h⟩)
    · exact looksSame_after hr hwl hal hr.own (by simp only [s1, s2, hr.state])
        (fun _ => by simp only [c1, c2]; exact hr.cache hm) (Or.inl hm)
  | ok u =>
    obtain ⟨hev1, hev2⟩ := hev rfl
    have hlib : g.library μ = g.library μ' := by
      simp only [Given.library]
      congr 1
      exact List.map_congr_left hev1
    have hst : μ.states g.stateAt = μ'.states g.stateAt := by rw [s1, s2, hr.state]
    simp only [hlib, hst] at hwl hal ⊢
    cases hin : g.model.initializeState (μ'.states g.stateAt) (g.library μ').events with
    | error x =>
      rw [hin] at hwl hal
      simp only at hwl hal ⊢
      refine ⟨trivial, ?_⟩
      by_cases hm : a.own i = none
      · exact looksSame_after hr hwl hal hr.own hst (fun h => absurd hm h)
          (Or.inr ⟨fun h => absurd hm h, fun h => absurd hm h, fun h => absurd hm h⟩)
      · exact looksSame_after hr hwl hal hr.own hst (fun _ => by simp only [c1, c2]; exact hr.cache hm) (Or.inl hm)
    | ok c =>
      rw [hin] at hwl hal
      have l1 : g.library (μ.setCache g.modelAt c) = g.library μ' := hlib
      have l2 : g.library (μ'.setCache g.modelAt c) = g.library μ' := rfl
      have t1 : (μ.setCache g.modelAt c).states g.stateAt = μ'.states g.stateAt := hst
      have t2 : (μ'.setCache g.modelAt c).states g.stateAt = μ'.states g.stateAt := rfl
      simp only [l1, l2, t1, t2, setCache_same] at hwl hal ⊢
      cases hp : initialProbs g.model c (μ'.states g.stateAt) (g.library μ').events with
      | error x =>
        rw [hp] at hwl hal
        simp only at hwl hal ⊢
        refine ⟨trivial, ?_⟩
        by_cases hm : a.own i = none
        · exact looksSame_after hr hwl hal hr.own hst (fun h => absurd hm h)
            (Or.inr ⟨fun h => absurd hm h, fun h => absurd hm h, fun h => absurd hm h⟩)
        · exact looksSame_after hr hwl hal hr.own hst (fun _ => by simp only [setCache_same]) (Or.inl hm)
      | ok p =>
        rw [hp] at hwl hal
        simp only at hwl hal ⊢
        refine ⟨trivial, looksSame_after hr hwl hal (by simp only [setOwn_same]) hst
          (fun _ => by simp only [setOwn_mem, setCache_same]) (Or.inr ⟨fun _ => hev1, fun _ => hev2, ?_⟩)⟩
        intro _ c' hc
        simp only [setOwn_mem, setCache_same]
        exact hc.start _ _ _ hin

theorem looksSame_observed {g : Given σ φ M R T U K V Row} {i : Nat} {w a : Process M R T K V Row}
    (hr : LooksSame g i w a) : observed g i w = observed g i a ∧ observedTracker i w = observedTracker i a := by
  refine ⟨?_, by simp only [observedTracker, hr.own]⟩
  simp only [observed, hr.own]
  cases ho : a.own i with
  | none => rfl
  | some o =>
    have hm : a.own i ≠ none := by rw [ho]; exact fun h => by cases h
    simp only [Option.map_some, hr.state, hr.cache hm]
    have : g.library w.mem = g.library a.mem := by
      simp only [Given.library]
      congr 1
      exact List.map_congr_left (hr.event hm)
    rw [this]

/-- If both processes are observed to be the same afterwards, they still look the same. -/
theorem looksSame_made {g : Given σ φ M R T U K V Row} {i : Nat} {w a w' a' : Process M R T K V Row}
    (hr : LooksSame g i w a) (hw : LeftAlone g i w w') (ha : LeftAlone g i a a') (hm : a.own i ≠ none)
    (s : Sim σ φ M R T) (h1 : observed g i w' = some s) (h2 : observed g i a' = some s)
    (h3 : observedTracker i w' = observedTracker i a') : LooksSame g i w' a' := by
  simp only [observed, Option.map_eq_some_iff] at h1 h2
  obtain ⟨o, ho, rfl⟩ := h1
  obtain ⟨o', ho', he⟩ := h2
  have e1 := congrArg Sim.prob he
  have e2 := congrArg Sim.cum he
  have e3 := congrArg Sim.st he
  have e4 := congrArg Sim.ms he
  simp only at e1 e2 e3 e4
  simp only [observedTracker, ho, ho', Option.bind_some] at h3
  refine looksSame_after hr hw ha ?_ e3.symm (fun _ => e4.symm) (Or.inl hm)
  rw [ho, ho']
  obtain ⟨p, c, t⟩ := o
  obtain ⟨p', c', t'⟩ := o'
  simp only at e1 e2 h3
  subst e1; subst e2; subst h3
  rfl


theorem runOf_inj {s s' : Sim σ φ M R T} {t t' : Trajectory K × Sampler T V Row × Nat} (h : runOf s t = runOf s' t') :
    s = s' ∧ t = t' := by
  obtain ⟨t1, t2, t3⟩ := t
  obtain ⟨t1', t2', t3'⟩ := t'
  simp only [runOf, RunState.mk.injEq] at h
  obtain ⟨h1, h2, h3, h4⟩ := h
  subst h1; subst h2; subst h3; subst h4
  exact ⟨rfl, rfl⟩

theorem looksSame_setOwn {g : Given σ φ M R T U K V Row} {i : Nat} {w a : Process M R T K V Row}
    (hr : LooksSame g i w a) (hm : a.own i ≠ none) (o : Own R T K V Row) :
    LooksSame g i (w.setOwn i o) (a.setOwn i o) :=
  looksSame_after hr (leftAlone_setOwn (leftAlone_refl g i w) o) (leftAlone_setOwn (leftAlone_refl g i a) o)
    (by simp only [setOwn_same]) hr.state (fun _ => hr.cache hm) (Or.inl hm)

/-- An action of simulation `i` in two processes that look the same to it. -/
theorem looksSame_own [Add T] [Zero T] [Sub T] [LE T] [DecidableLE T] {g : Given σ φ M R T U K V Row} {i : Nat}
    {w a : Process M R T K V Row} (hr : LooksSame g i w a) (x : Action T U) :
    (act g i x w).1 = (act g i x a).1 ∧ LooksSame g i (act g i x w).2 (act g i x a).2 := by
  have hwl := act_leftAlone g i x w
  have hal := act_leftAlone g i x a
  cases hoa : a.own i with
  | none =>
    have how := hr.own.trans hoa
    cases x with
    | construct => exact looksSame_construct hr
    | update e dt => simp only [act, how, hoa]; exact ⟨trivial, hr⟩
    | equil r1 r2 => simp only [act, how, hoa]; exact ⟨trivial, hr⟩
    | track => simp only [act, how, hoa]; exact ⟨trivial, hr⟩
    | prod r1 r2 => simp only [act, how, hoa]; exact ⟨trivial, hr⟩
    | endPass n => simp only [act, how, hoa]; exact ⟨trivial, hr⟩
  | some o =>
    have how := hr.own.trans hoa
    have hm : a.own i ≠ none := by rw [hoa]; exact fun h => by cases h
    obtain ⟨s, hsa⟩ : ∃ s, observed g i a = some s := by
      simp only [observed, hoa, Option.map_some]
      exact ⟨_, rfl⟩
    have hsw := (looksSame_observed hr).1.trans hsa
    cases x with
    | construct => exact looksSame_construct hr
    | update e dt =>
      simp only [act, how, hoa] at hwl hal ⊢
      obtain ⟨h1, h2, h3⟩ := update_read g i w o s how hsw e dt
      obtain ⟨k1, k2, k3⟩ := update_read g i a o s hoa hsa e dt
      exact ⟨h1.trans k1.symm, looksSame_made hr hwl hal hm _ h2 k2 (h3.trans k3.symm)⟩
    | equil r1 r2 =>
      simp only [act, how, hoa] at hwl hal ⊢
      obtain ⟨h1, h2, h3⟩ := equil_read g i w o s how hsw r1 r2
      obtain ⟨k1, k2, k3⟩ := equil_read g i a o s hoa hsa r1 r2
      exact ⟨h1.trans k1.symm, looksSame_made hr hwl hal hm _ h2 k2 (h3.trans k3.symm)⟩
    | track =>
      simp only [act, how, hoa, trackObject, hr.state]
      rcases Trajectory.init g.geometry g.lookup (a.mem.states g.stateAt).occ with y | traj
      · exact ⟨rfl, hr⟩
      · simp only
        rcases ({} : Sampler T V Row).applyPropertyPlan g.plan (some (max g.len 1 : Nat)) with ⟨y | u, sampler⟩
        · exact ⟨rfl, hr⟩
        · exact ⟨rfl, looksSame_setOwn hr hm _⟩
    | prod r1 r2 =>
      simp only [act, how, hoa] at hwl hal ⊢
      cases ht : o.tracker with
      | none => exact ⟨rfl, hr⟩
      | some t =>
        rw [ht] at hwl hal
        simp only at hwl hal ⊢
        obtain ⟨h1, s1, t1, e1, h2, h3⟩ := prod_read g i w o s t how hsw ht r1 r2
        obtain ⟨k1, s2, t2, e2, k2, k3⟩ := prod_read g i a o s t hoa hsa ht r1 r2
        obtain ⟨rfl, rfl⟩ := runOf_inj (e1.symm.trans e2)
        exact ⟨h1.trans k1.symm, looksSame_made hr hwl hal hm _ h2 k2 (h3.trans k3.symm)⟩
    | endPass n =>
      simp only [act, how, hoa]
      cases ht : o.tracker with
      | none => exact ⟨rfl, hr⟩
      | some t => exact ⟨rfl, looksSame_setOwn hr hm _⟩

/-- A program, and the part of it that concerns simulation `i`. -/
theorem perform_same [Add T] [Zero T] [Sub T] [LE T] [DecidableLE T] (p : Nat → Given σ φ M R T U K V Row) (i : Nat)
    (hap : ∀ j, j ≠ i → KeptApart (p i) (p j)) (prog : List (Nat × Action T U)) (w a : Process M R T K V Row)
    (hr : LooksSame (p i) i w a) :
    ownOutcomes i (perform p prog w).1 = (perform p (ownActions i prog) a).1 ∧
      LooksSame (p i) i (perform p prog w).2 (perform p (ownActions i prog) a).2 := by
  induction prog generalizing w a with
  | nil => exact ⟨rfl, hr⟩
  | cons x rest ih =>
    obtain ⟨j, x⟩ := x
    by_cases hji : j = i
    · subst hji
      obtain ⟨h1, h2⟩ := looksSame_own hr x
      have hf : ownActions j ((j, x) :: rest) = (j, x) :: ownActions j rest := by
        simp only [ownActions, List.filter_cons, beq_self_eq_true, if_true]
      rw [hf]
      simp only [perform]
      obtain ⟨k1, k2⟩ := ih _ _ h2
      refine ⟨?_, k2⟩
      simp only [ownOutcomes, List.filter_cons, beq_self_eq_true, if_true, h1]
      rw [← k1]
      rfl
    · have hf : ownActions i ((j, x) :: rest) = ownActions i rest := by
        simp only [ownActions, List.filter_cons]
        rw [if_neg (by simpa using hji)]
      rw [hf]
      simp only [perform]
      obtain ⟨k1, k2⟩ := ih _ _ (looksSame_other hji (hap j hji) hr (act_leftAlone (p j) j x w))
      refine ⟨?_, k2⟩
      rw [← k1]
      simp only [ownOutcomes, List.filter_cons]
      rw [if_neg (by simpa using hji)]

theorem looksSame_start {g : Given σ φ M R T U K V Row} {i : Nat} {w : Process M R T K V Row} (hn : w.own i = none) :
    LooksSame g i w w :=
  ⟨rfl, rfl, fun _ => ⟨rfl, rfl⟩, fun _ _ _ => rfl, fun _ _ _ => rfl, fun h => absurd hn h, fun _ => rfl,
    fun h => absurd hn h⟩

end
end KMC
