import Verif.Model.KMC
/-
Objects in memory.  The other model files treat a simulation as a value that owns its state, its
event library and its model.  In Python a `KMC` object only refers to them (`kmc.py:78-99`), and
several `KMC` objects can refer to the same ones.  Here states, events and model caches live at
addresses, and every operation reads and writes them there.
-/
namespace KMC.Shared

/-- What lies at the addresses: `State` objects (`state.py:19-31`), `Event` objects
(`event/base.py:21-36`) and the caches of model objects (`models/site_energy.py:160-165`). -/
structure Memory (M T : Type) where
  states : Nat → State T
  events : Nat → Event
  caches : Nat → M

section
variable {M T : Type}

/-- Writing to a `State` object. -/
def Memory.setState (μ : Memory M T) (a : Nat) (s : State T) : Memory M T :=
  { μ with states := fun b => if b = a then s else μ.states b }

/-- Writing to an `Event` object: `event.hop_state_codes = …`, `event/hop.py:54-62`. -/
def Memory.setEvent (μ : Memory M T) (a : Nat) (e : Event) : Memory M T :=
  { μ with events := fun b => if b = a then e else μ.events b }

/-- Writing to the cache of a model object. -/
def Memory.setCache (μ : Memory M T) (a : Nat) (c : M) : Memory M T :=
  { μ with caches := fun b => if b = a then c else μ.caches b }

/-- `State.copy`, `state.py:157-163`, into a new object at address `b`. -/
def Memory.copyState (μ : Memory M T) (a b : Nat) : Memory M T := μ.setState b (μ.states a)

end

/-- What one `KMC` object is given, `kmc.py:52-60,78-97`: references to a state and to a model object,
the event library (the references in its list of events, and its tables, which no simulation
changes), the hop lookup, and the values that a simulation only reads.  `model` is what the model's
functions compute with this simulation's runtime configuration, `plan` the property plan and `len`
the pass length. -/
structure Given (σ φ M R T U K V Row : Type) where
  stateAt : Nat
  modelAt : Nat
  eventsAt : List Nat
  deps : Option (List (List Int))
  siteToEvents : List (Int × List Nat)
  meta? : Option (ActiveSiteOrder.Dict σ φ)
  lookup : Option HopStateLookup
  kernel : Kernel R T U
  model : RateModel M R T
  geometry : Geometry K
  summary : Trajectory K → T → List (String × Bool) → Row
  plan : PropertyPlan T V
  len : Nat

/-- The arrays and the tracker that belong to one `KMC` object alone: `prob_list`, `prob_cum_list`
(`kmc.py:112-122`) and the tracker of the run in progress (`kmc.py:523-531`) with its pass number. -/
structure Own (R T K V Row : Type) where
  prob : List R
  cum : List R
  tracker : Option (Trajectory K × Sampler T V Row × Nat) := none

/-- A Python process with any number of `KMC` objects; object `i` is `none` until constructed. -/
structure Process (M R T K V Row : Type) where
  mem : Memory M T
  own : Nat → Option (Own R T K V Row)

section
variable {σ φ M R T U K V Row : Type}

/-- The event library as it is read through the references. -/
def Given.library (g : Given σ φ M R T U K V Row) (μ : Memory M T) : EventLib σ φ :=
  { events := g.eventsAt.map μ.events, deps := g.deps, siteToEvents := g.siteToEvents, meta? := g.meta? }

/-- Assigning object number `i`. -/
def Process.setOwn (w : Process M R T K V Row) (i : Nat) (o : Own R T K V Row) : Process M R T K V Row :=
  { w with own := fun j => if j = i then some o else w.own j }

/-- `annotate_event_lib`, `event/hop.py:64-67`: every event object is written in turn. -/
def annotateAll (h : HopStateLookup) : List Nat → Memory M T → Py Unit × Memory M T
  | [], μ => (.ok (), μ)
  | a :: as, μ =>
    match h.annotateEvent (μ.events a) with
    | .error x => (.error x, μ)
    | .ok e => annotateAll h as (μ.setEvent a e)

/-- The annotation at construction, `kmc.py:98-99`. -/
def annotateGiven (g : Given σ φ M R T U K V Row) (μ : Memory M T) : Py Unit × Memory M T :=
  match g.lookup with
  | none => (.ok (), μ)
  | some h => annotateAll h g.eventsAt μ

/-- `kmc = KMC(…)`, `kmc.py:52-135`: annotate the events, initialise the model's cache, compute the
rates.  If an exception is raised the variable keeps its old object.  (A failing `initialize_state`
leaves the cache alone: a simplification.) -/
def construct (g : Given σ φ M R T U K V Row) (i : Nat) (w : Process M R T K V Row) :
    Py Unit × Process M R T K V Row :=
  match annotateGiven g w.mem with
  | (.error x, μ) => (.error x, { w with mem := μ })
  | (.ok _, μ) =>
    match g.model.initializeState (μ.states g.stateAt) (g.library μ).events with
    | .error x => (.error x, { w with mem := μ })
    | .ok c =>
      let μ' := μ.setCache g.modelAt c
      match initialProbs g.model (μ'.caches g.modelAt) (μ'.states g.stateAt) (g.library μ').events with
      | .error x => (.error x, { w with mem := μ' })
      | .ok p => (.ok (), ({ w with mem := μ' } : Process M R T K V Row).setOwn i
          { prob := p, cum := g.kernel.cumsum p })

/-- `kmc.update(event, dt)`, `kmc.py:415-456`, on an existing object. -/
def updateObject [Add T] (g : Given σ φ M R T U K V Row) (i : Nat) (o : Own R T K V Row) (e : Event)
    (dt : T) (w : Process M R T K V Row) : Py Unit × Process M R T K V Row :=
  match (w.mem.states g.stateAt).applyEvent e dt with
  | (.error x, st) => (.error x, { w with mem := w.mem.setState g.stateAt st })
  | (.ok _, st) =>
    let μ := w.mem.setState g.stateAt st
    match g.model.applyEvent (μ.caches g.modelAt) e (μ.states g.stateAt) with
    | (.error x, c) => (.error x, { w with mem := μ.setCache g.modelAt c })
    | (.ok _, c) =>
      let μ' := μ.setCache g.modelAt c
      match indexOfEvent (g.library μ').events e with
      | .error x => (.error x, { w with mem := μ' })
      | .ok k =>
        match recompute g.model (g.library μ').events (μ'.caches g.modelAt) (μ'.states g.stateAt)
            ((g.library μ').getDependentEvents k) o.prob with
        | (.error x, prob) =>
          (.error x, ({ w with mem := μ' } : Process M R T K V Row).setOwn i { o with prob := prob })
        | (.ok _, prob) => (.ok (), ({ w with mem := μ' } : Process M R T K V Row).setOwn i
            { o with prob := prob, cum := g.kernel.cumsum prob })

/-- `kmc.propose(events)`, `kmc.py:398-412`. -/
def proposeObject (g : Given σ φ M R T U K V Row) (o : Own R T K V Row) (μ : Memory M T) (r1 r2 : U) :
    Py (Event × T) :=
  match g.kernel.propose o.cum r1 r2 with
  | .error x => .error x
  | .ok (k, dt) =>
    match (g.library μ).events[k]? with
    | none => .error .indexError
    | some e => .ok (e, dt)

/-- One equilibration step, `kmc.py:515-517`. -/
def equilObject [Add T] [Zero T] (g : Given σ φ M R T U K V Row) (i : Nat) (o : Own R T K V Row) (r1 r2 : U)
    (w : Process M R T K V Row) : Py Unit × Process M R T K V Row :=
  match proposeObject g o w.mem r1 r2 with
  | .error x => (.error x, w)
  | .ok (e, _) => updateObject g i o e 0 w

variable [Field K] [LinearOrder K] [FloorRing K]

/-- Creating the tracker of a run, `kmc.py:523-532`: it keeps a reference to the state
(`tracker.py:93`), everything else is its own. -/
def trackObject [Zero T] [LE T] [DecidableLE T] (g : Given σ φ M R T U K V Row) (i : Nat)
    (o : Own R T K V Row) (w : Process M R T K V Row) : Py Unit × Process M R T K V Row :=
  match Trajectory.init g.geometry g.lookup (w.mem.states g.stateAt).occ with
  | .error x => (.error x, w)
  | .ok traj =>
    match ({} : Sampler T V Row).applyPropertyPlan g.plan (some (max g.len 1 : Nat)) with
    | (.error x, _) => (.error x, w)
    | (.ok _, sampler) => (.ok (), w.setOwn i { o with tracker := some (traj, sampler, 0) })

/-- `tracker.sample_properties(…)` at the end of a production step, `kmc.py:544-547`: step, time and
the state handed to callbacks are read from the state object. -/
def sampleObject [Sub T] [LE T] [DecidableLE T] (g : Given σ φ M R T U K V Row) (i : Nat)
    (traj : Trajectory K) (sampler : Sampler T V Row) (pass : Nat) (w : Process M R T K V Row) :
    Py Unit × Process M R T K V Row :=
  match w.own i with
  | none => (.ok (), w)
  | some o =>
    match sampler.sampleProperties (g.summary traj (w.mem.states g.stateAt).time) (w.mem.states g.stateAt)
        (w.mem.states g.stateAt).step (w.mem.states g.stateAt).time with
    | (r, sampler') => (r, w.setOwn i { o with tracker := some (traj, sampler', pass) })

/-- One production step, `kmc.py:539-547`. -/
def prodObject [Add T] [Sub T] [LE T] [DecidableLE T] (g : Given σ φ M R T U K V Row) (i : Nat)
    (o : Own R T K V Row) (traj : Trajectory K) (sampler : Sampler T V Row) (pass : Nat) (r1 r2 : U)
    (w : Process M R T K V Row) : Py Unit × Process M R T K V Row :=
  match proposeObject g o w.mem r1 r2 with
  | .error x => (.error x, w)
  | .ok (e, dt) =>
    match traj.update g.geometry (w.mem.states g.stateAt).occ e with
    | (.error x, traj') => (.error x, w.setOwn i { o with tracker := some (traj', sampler, pass) })
    | (.ok _, traj') =>
      match updateObject g i { o with tracker := some (traj', sampler, pass) } e dt
          (w.setOwn i { o with tracker := some (traj', sampler, pass) }) with
      | (.error x, w') => (.error x, w')
      | (.ok _, w') => sampleObject g i traj' sampler pass w'

/-- What a program can do with its simulations, step by step.  `construct` is `KMC(…)`, `update` a
direct call of `kmc.update`, the other four are the steps of `kmc.run` (`kmc.py:513-550`): an
equilibration step, creating the tracker, a production step and the end of a pass. -/
inductive Action (T U : Type) where
  | construct
  | update (e : Event) (dt : T)
  | equil (r1 r2 : U)
  | track
  | prod (r1 r2 : U)
  | endPass (n : Nat)

/-- Carrying out one action on object `i`; nothing happens if there is no such object. -/
def act [Add T] [Zero T] [Sub T] [LE T] [DecidableLE T] (g : Given σ φ M R T U K V Row) (i : Nat) :
    Action T U → Process M R T K V Row → Py Unit × Process M R T K V Row
  | .construct, w => KMC.Shared.construct g i w
  | .update e dt, w =>
    match w.own i with
    | none => (.error .attributeError, w)
    | some o => updateObject g i o e dt w
  | .equil r1 r2, w =>
    match w.own i with
    | none => (.error .attributeError, w)
    | some o => equilObject g i o r1 r2 w
  | .track, w =>
    match w.own i with
    | none => (.error .attributeError, w)
    | some o => trackObject g i o w
  | .prod r1 r2, w =>
    match w.own i with
    | none => (.error .attributeError, w)
    | some o =>
      match o.tracker with
      | none => (.error .attributeError, w)
      | some (traj, sampler, pass) => prodObject g i o traj sampler pass r1 r2 w
  | .endPass n, w =>
    match w.own i with
    | none => (.error .attributeError, w)
    | some o =>
      match o.tracker with
      | none => (.error .attributeError, w)
      | some (traj, sampler, _) => (.ok (), w.setOwn i { o with tracker := some (traj, sampler, n) })

/-- A program: actions on numbered simulations, one after the other.  The result lists what each
action returned or raised; the program goes on after an exception, as a program that catches it
does. -/
def perform [Add T] [Zero T] [Sub T] [LE T] [DecidableLE T] (p : Nat → Given σ φ M R T U K V Row) :
    List (Nat × Action T U) → Process M R T K V Row → List (Nat × Py Unit) × Process M R T K V Row
  | [], w => ([], w)
  | (i, a) :: rest, w =>
    match act (p i) i a w with
    | (r, w') =>
      match perform p rest w' with
      | (rs, w'') => ((i, r) :: rs, w'')

end
end KMC.Shared
