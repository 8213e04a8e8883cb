import Verif.Model.Tracker
/-
Model of `kmcpy/simulator/kmc.py`: construction, `propose`, `update` and `run`.

Rates have an arbitrary type `R`, times an arbitrary type `T` and the model-side
cache an arbitrary type `M`; the arithmetic of the event selection is a parameter
(`Kernel`), instantiated in `Model/Propose.lean`.
-/
namespace KMC

/-- The arithmetic used by the event selection: `np.cumsum` (`kmc.py:122,456`) and
`_propose` (`kmc.py:555-564`) for the two uniform draws. -/
structure Kernel (R T U : Type) where
  cumsum : List R → List R
  propose : List R → U → U → Py (Nat × T)

/-- A rate model as `KMC` uses it (`kmc.py:115-119,137-158,451-455`), for a fixed
runtime configuration.  `M` is the model-side state (external occupancy caches).
Models without `initialize_state`/`apply_event` use `M = Unit`. -/
structure RateModel (M R T : Type) where
  initializeState : State T → List Event → Py M
  applyEvent : M → Event → State T → Py Unit × M
  computeProbability : M → Event → State T → Py R

/-- The mutable part of a `KMC` object. -/
structure Sim (σ φ M R T : Type) where
  lib : EventLib σ φ
  st : State T
  ms : M
  prob : List R
  cum : List R

section
variable {σ φ M R T U : Type}

/-- Initial probability loop, `kmc.py:113-119`. -/
def initialProbs (m : RateModel M R T) (ms : M) (st : State T) : List Event → Py (List R)
  | [] => .ok []
  | e :: es =>
    match m.computeProbability ms e st with
    | .error x => .error x
    | .ok p =>
      match initialProbs m ms st es with
      | .error x => .error x
      | .ok ps => .ok (p :: ps)

/-- `KMC.__init__`, `kmc.py:52-135` (property configuration aside): annotate events
with hop codes (98-99), require a state (101-105), initialise the model state (107),
compute all probabilities (113-119) and the cumulative table (121-122). -/
def Sim.init (k : Kernel R T U) (m : RateModel M R T) (lib : EventLib σ φ)
    (lookup : Option HopStateLookup) (st : Option (State T)) : Py (Sim σ φ M R T) :=
  let lib' : Py (EventLib σ φ) :=
    match lookup with
    | none => .ok lib
    | some h =>
      match h.annotateEvents lib.events with
      | .error e => .error e
      | .ok es => .ok { lib with events := es }
  match lib' with
  | .error e => .error e
  | .ok lib =>
    match st with
    | none => .error .valueError
    | some st =>
      match m.initializeState st lib.events with
      | .error e => .error e
      | .ok ms =>
        match initialProbs m ms st lib.events with
        | .error e => .error e
        | .ok p => .ok { lib := lib, st := st, ms := ms, prob := p, cum := k.cumsum p }

/-- `self.event_lib.events.index(event)`, `kmc.py:443`: first dataclass-equal event,
else `ValueError`. -/
def indexOfEvent (events : List Event) (e : Event) : Py Nat :=
  match events.findIdx? (fun x => x.pyEq e) with
  | none => .error .valueError
  | some i => .ok i

/-- Loop `kmc.py:449-455`: recompute the listed probabilities in place. -/
def recompute (m : RateModel M R T) (events : List Event) (ms : M) (st : State T) :
    List Int → List R → Py Unit × List R
  | [], prob => (.ok (), prob)
  | i :: is, prob =>
    match pyGet events i with
    | .error x => (.error x, prob)
    | .ok e =>
      match m.computeProbability ms e st with
      | .error x => (.error x, prob)
      | .ok p =>
        match pySet prob i p with
        | .error x => (.error x, prob)
        | .ok prob' => recompute m events ms st is prob'

/-- `KMC.update`, `kmc.py:415-456`.  The second component is the object left behind,
also when an exception propagates. -/
def Sim.update [Add T] (k : Kernel R T U) (m : RateModel M R T) (s : Sim σ φ M R T) (e : Event)
    (dt : T) : Py Unit × Sim σ φ M R T :=
  match s.st.applyEvent e dt with
  | (.error x, st) => (.error x, { s with st := st })
  | (.ok _, st) =>
    match m.applyEvent s.ms e st with
    | (.error x, ms) => (.error x, { s with st := st, ms := ms })
    | (.ok _, ms) =>
      match indexOfEvent s.lib.events e with
      | .error x => (.error x, { s with st := st, ms := ms })
      | .ok i =>
        match recompute m s.lib.events ms st (s.lib.getDependentEvents i) s.prob with
        | (.error x, prob) => (.error x, { s with st := st, ms := ms, prob := prob })
        | (.ok _, prob) =>
          (.ok (), { s with st := st, ms := ms, prob := prob, cum := k.cumsum prob })

/-- `KMC.propose`, `kmc.py:398-412`. -/
def Sim.propose (k : Kernel R T U) (s : Sim σ φ M R T) (r1 r2 : U) : Py (Event × T) :=
  match k.propose s.cum r1 r2 with
  | .error x => .error x
  | .ok (i, dt) =>
    match s.lib.events[i]? with
    | none => .error .indexError
    | some e => .ok (e, dt)

/-- One equilibration step, `kmc.py:515-517`: propose, then update with `dt = 0`. -/
def Sim.equilStep [Add T] [Zero T] (k : Kernel R T U) (m : RateModel M R T) (s : Sim σ φ M R T)
    (r1 r2 : U) : Py Unit × Sim σ φ M R T :=
  match s.propose k r1 r2 with
  | .error x => (.error x, s)
  | .ok (e, _) => s.update k m e 0

/-- `n` equilibration steps starting with draw number `c`. -/
def Sim.equilSteps [Add T] [Zero T] (k : Kernel R T U) (m : RateModel M R T) (rng : Nat → U × U) :
    Nat → Nat → Sim σ φ M R T → Py Unit × Sim σ φ M R T
  | 0, _, s => (.ok (), s)
  | n + 1, c, s =>
    match s.equilStep k m (rng c).1 (rng c).2 with
    | (.error x, s') => (.error x, s')
    | (.ok _, s') => Sim.equilSteps k m rng n (c + 1) s'

/-- The mutable objects of a production run: the simulation, the trajectory arrays
and the sampling part of the tracker. -/
structure RunState (σ φ M R T K V Row : Type) where
  sim : Sim σ φ M R T
  traj : Trajectory K
  sampler : Sampler T V Row
  currentPass : Nat := 0

variable {K V Row : Type} [Field K] [LinearOrder K] [FloorRing K]

/-- One production step, `kmc.py:539-547`: propose, tracker update on the pre-event
state, simulation update, property sampling.  `summary` computes the built-in row
from trajectory, current time and enabled flags (`tracker.py:316-329`). -/
def RunState.prodStep [Add T] [Sub T] [LE T] [DecidableLE T] (k : Kernel R T U)
    (m : RateModel M R T) (g : Geometry K)
    (summary : Trajectory K → T → List (String × Bool) → Row)
    (s : RunState σ φ M R T K V Row) (r1 r2 : U) : Py Unit × RunState σ φ M R T K V Row :=
  match s.sim.propose k r1 r2 with
  | .error x => (.error x, s)
  | .ok (e, dt) =>
    match s.traj.update g s.sim.st.occ e with
    | (.error x, traj) => (.error x, { s with traj := traj })
    | (.ok _, traj) =>
      match s.sim.update k m e dt with
      | (.error x, sim) => (.error x, { s with traj := traj, sim := sim })
      | (.ok _, sim) =>
        match s.sampler.sampleProperties (summary traj sim.st.time) sim.st sim.st.step
            sim.st.time with
        | (r, sampler) => (r, { s with traj := traj, sim := sim, sampler := sampler })

/-- `n` production steps starting with draw number `c`, `kmc.py:538-547`. -/
def RunState.prodSteps [Add T] [Sub T] [LE T] [DecidableLE T] (k : Kernel R T U)
    (m : RateModel M R T) (g : Geometry K)
    (summary : Trajectory K → T → List (String × Bool) → Row) (rng : Nat → U × U) :
    Nat → Nat → RunState σ φ M R T K V Row → Py Unit × RunState σ φ M R T K V Row
  | 0, _, s => (.ok (), s)
  | n + 1, c, s =>
    match s.prodStep k m g summary (rng c).1 (rng c).2 with
    | (.error x, s') => (.error x, s')
    | (.ok _, s') => RunState.prodSteps k m g summary rng n (c + 1) s'

/-- Production passes, `kmc.py:537-550`: `len` steps each, then the pass number is
recorded. -/
def RunState.passes [Add T] [Sub T] [LE T] [DecidableLE T] (k : Kernel R T U)
    (m : RateModel M R T) (g : Geometry K)
    (summary : Trajectory K → T → List (String × Bool) → Row) (rng : Nat → U × U) (len : Nat) :
    Nat → Nat → Nat → RunState σ φ M R T K V Row → Py Unit × RunState σ φ M R T K V Row
  | 0, _, _, s => (.ok (), s)
  | n + 1, pass, c, s =>
    match s.prodSteps k m g summary rng len c with
    | (.error x, s') => (.error x, s')
    | (.ok _, s') =>
      RunState.passes k m g summary rng len n (pass + 1) (c + len) { s' with currentPass := pass }

/-- `pass_length`, `kmc.py:501-505`: sites whose element symbol contains the mobile
ion label as a substring (`mobile in symbol`). -/
def passLength (contains : String → String → Bool) (mobile : String) (symbols : List String) : Nat :=
  (symbols.filter fun s => contains mobile s).length

/-- Outcome of `KMC.run`: the simulation object left behind and, if the tracker was
created, the tracker. -/
structure RunResult (σ φ M R T K V Row : Type) where
  outcome : Py Unit
  sim : Sim σ φ M R T
  tracker : Option (RunState σ φ M R T K V Row)

/-- `KMC.run`, `kmc.py:458-553`, for a random stream `rng` (draw pairs), a pass length
and pass counts.  Result files are modelled in `Model/Results`, logging is not.  Equilibration is one
loop over `equil * len` steps: the nested loops of lines 513-517 do nothing between
passes. -/
def Sim.run [Add T] [Zero T] [Sub T] [LE T] [DecidableLE T] (k : Kernel R T U)
    (m : RateModel M R T) (g : Geometry K) (lookup : Option HopStateLookup)
    (summary : Trajectory K → T → List (String × Bool) → Row) (plan : PropertyPlan T V)
    (rng : Nat → U × U) (len equil prod : Nat) (s : Sim σ φ M R T) :
    RunResult σ φ M R T K V Row :=
  match s.equilSteps k m rng (equil * len) 0 with
  | (.error x, s1) => ⟨.error x, s1, none⟩
  | (.ok _, s1) =>
    match Trajectory.init g lookup s1.st.occ with
    | .error x => ⟨.error x, s1, none⟩
    | .ok traj =>
      match ({} : Sampler T V Row).applyPropertyPlan plan (some (max len 1 : Nat)) with
      | (.error x, _) => ⟨.error x, s1, none⟩
      | (.ok _, sampler) =>
        let r0 : RunState σ φ M R T K V Row := { sim := s1, traj := traj, sampler := sampler }
        match r0.passes k m g summary rng len prod 0 (equil * len) with
        | (r, rs) => ⟨r, rs.sim, some rs⟩

end
end KMC
