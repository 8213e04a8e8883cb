import Verif.Model.KMC
/-
Sampling with real callbacks.  `Model/Tracker.lean` treats a callback as a function of what it
is given.  In the code it is any callable: it may keep memory from call to call (a closure or a
bound method) and it is handed the live state object of the simulation
(`spec.callback(self.state, step, sim_time)`, `tracker.py:403`), which it can alter.  Here a
callback maps the memory and the state it finds to its result, the state it leaves and the
memory it leaves.  What a callback does is looked up under its registered name; the fields
`callback` and `onError` of the specs are carried along but not used.  Registration calls made
from inside a callback are in `Model/Reentrant.lean`.
-/
namespace KMC

/-- What the attached functions do, by registered name.  `W` is everything they remember
together.  `handle` is the `on_error` function, if one was given; it reports `none` when it
raises itself. -/
structure LiveBehaviour (W T V : Type) where
  call : String → W → State T → Int → T → CallResult V × State T × W
  handle : String → Option (W → State T → Int → T → Option Bool × State T × W)

/-- What sampling can change: the memory of the callbacks, the state object and the tracker's
sampling part. -/
structure LiveEnv (W T V Row : Type) where
  world : W
  st : State T
  sampler : Sampler T V Row

section
variable {W T V Row : Type}

/-- `_handle_callback_error`, `tracker.py:346-369`. -/
def liveHandle (b : LiveBehaviour W T V) (name : String) (w : W) (st : State T) (step : Int)
    (simTime : T) : Py Unit × State T × W :=
  match b.handle name with
  | none => (.error .callbackError, st, w)
  | some h =>
    match h w st step simTime with
    | (none, st', w') => (.error .callbackError, st', w')
    | (some true, st', w') => (.ok (), st', w')
    | (some false, st', w') => (.error .callbackError, st', w')

/-- One iteration of the loop `tracker.py:382-420`. -/
def liveOne [Sub T] [LE T] [DecidableLE T] (b : LiveBehaviour W T V) (step : Int) (simTime : T)
    (spec : PropertySpec T V) (l : LiveEnv W T V Row) : Py Unit × LiveEnv W T V Row :=
  if l.sampler.due spec step simTime then
    match b.call spec.name l.world l.st step simTime with
    | (.raised, st1, w1) =>
      match liveHandle b spec.name w1 st1 step simTime with
      | (.error e, st2, w2) => (.error e, ⟨w2, st2, l.sampler⟩)
      | (.ok _, st2, w2) => (.ok (), ⟨w2, st2, l.sampler.markTriggered spec step simTime⟩)
    | (.value v, st1, w1) =>
      if spec.store then
        match dictGet l.sampler.records spec.name with
        | none => (.error .keyError, ⟨w1, st1, l.sampler⟩)
        | some recs =>
          let records := dictSet l.sampler.records spec.name (appendRecord recs spec step simTime v)
          (.ok (), ⟨w1, st1,
            ({ l.sampler with records := records }).markTriggered spec step simTime⟩)
      else (.ok (), ⟨w1, st1, l.sampler.markTriggered spec step simTime⟩)
  else (.ok (), l)

/-- Loop `tracker.py:382-420` over the snapshot of specs.  Step and time were passed in by the
run loop before the first callback. -/
def liveLoop [Sub T] [LE T] [DecidableLE T] (b : LiveBehaviour W T V) (step : Int) (simTime : T) :
    List (PropertySpec T V) → LiveEnv W T V Row → Py Unit × LiveEnv W T V Row
  | [], l => (.ok (), l)
  | spec :: rest, l =>
    match liveOne b step simTime spec l with
    | (.error e, l') => (.error e, l')
    | (.ok _, l') => liveLoop b step simTime rest l'

/-- `sample_properties`, `tracker.py:378-420`. -/
def liveSample [Sub T] [LE T] [DecidableLE T] (b : LiveBehaviour W T V)
    (summary : List (String × Bool) → Row) (step : Int) (simTime : T) (l : LiveEnv W T V Row) :
    Py Unit × LiveEnv W T V Row :=
  let s1 := l.sampler.sampleSummary summary step simTime
  liveLoop b step simTime (s1.properties.map Prod.snd) { l with sampler := s1 }

/-- A run in progress together with the memory of the callbacks. -/
structure LiveState (W σ φ M R T K V Row : Type) where
  run : RunState σ φ M R T K V Row
  world : W

/-- A run that has ended, with the memory of the callbacks. -/
structure LiveResult (W σ φ M R T K V Row : Type) where
  result : RunResult σ φ M R T K V Row
  world : W

variable {σ φ M R U K : Type} [Field K] [LinearOrder K] [FloorRing K]
variable [Add T] [Sub T] [LE T] [DecidableLE T]

/-- One production step, `kmc.py:539-547`.  After the callbacks the simulation holds the state
they left; tables, model and library are as the update left them. -/
def liveStep (b : LiveBehaviour W T V) (k : Kernel R T U) (m : RateModel M R T) (g : Geometry K)
    (summary : Trajectory K → T → List (String × Bool) → Row)
    (l : LiveState W σ φ M R T K V Row) (r1 r2 : U) : Py Unit × LiveState W σ φ M R T K V Row :=
  match l.run.sim.propose k r1 r2 with
  | .error x => (.error x, l)
  | .ok (e, dt) =>
    match l.run.traj.update g l.run.sim.st.occ e with
    | (.error x, traj) => (.error x, { l with run := { l.run with traj := traj } })
    | (.ok _, traj) =>
      match l.run.sim.update k m e dt with
      | (.error x, sim) => (.error x, { l with run := { l.run with traj := traj, sim := sim } })
      | (.ok _, sim) =>
        match liveSample b (summary traj sim.st.time) sim.st.step sim.st.time
            ⟨l.world, sim.st, l.run.sampler⟩ with
        | (r, le) =>
          (r, ⟨{ l.run with traj := traj, sim := { sim with st := le.st }, sampler := le.sampler },
            le.world⟩)

/-- `n` production steps starting with draw number `c`, `kmc.py:538-547`. -/
def liveSteps (b : LiveBehaviour W T V) (k : Kernel R T U) (m : RateModel M R T) (g : Geometry K)
    (summary : Trajectory K → T → List (String × Bool) → Row) (rng : Nat → U × U) :
    Nat → Nat → LiveState W σ φ M R T K V Row → Py Unit × LiveState W σ φ M R T K V Row
  | 0, _, l => (.ok (), l)
  | n + 1, c, l =>
    match liveStep b k m g summary l (rng c).1 (rng c).2 with
    | (.error x, l') => (.error x, l')
    | (.ok _, l') => liveSteps b k m g summary rng n (c + 1) l'

/-- Production passes, `kmc.py:537-550`. -/
def livePasses (b : LiveBehaviour W T V) (k : Kernel R T U) (m : RateModel M R T) (g : Geometry K)
    (summary : Trajectory K → T → List (String × Bool) → Row) (rng : Nat → U × U) (len : Nat) :
    Nat → Nat → Nat → LiveState W σ φ M R T K V Row → Py Unit × LiveState W σ φ M R T K V Row
  | 0, _, _, l => (.ok (), l)
  | n + 1, pass, c, l =>
    match liveSteps b k m g summary rng len c l with
    | (.error x, l') => (.error x, l')
    | (.ok _, l') =>
      livePasses b k m g summary rng len n (pass + 1) (c + len)
        { l' with run := { l'.run with currentPass := pass } }

/-- `KMC.run`, `kmc.py:458-553`, with attached functions that behave like `b` and start from
memory `w`. -/
def Sim.liveRun [Zero T] (b : LiveBehaviour W T V) (w : W) (k : Kernel R T U)
    (m : RateModel M R T) (g : Geometry K) (lookup : Option HopStateLookup)
    (summary : Trajectory K → T → List (String × Bool) → Row) (plan : PropertyPlan T V)
    (rng : Nat → U × U) (len equil prod : Nat) (s : Sim σ φ M R T) :
    LiveResult W σ φ M R T K V Row :=
  match s.equilSteps k m rng (equil * len) 0 with
  | (.error x, s1) => ⟨⟨.error x, s1, none⟩, w⟩
  | (.ok _, s1) =>
    match Trajectory.init g lookup s1.st.occ with
    | .error x => ⟨⟨.error x, s1, none⟩, w⟩
    | .ok traj =>
      match ({} : Sampler T V Row).applyPropertyPlan plan (some (max len 1 : Nat)) with
      | (.error x, _) => ⟨⟨.error x, s1, none⟩, w⟩
      | (.ok _, sampler) =>
        let l0 : LiveState W σ φ M R T K V Row :=
          ⟨{ sim := s1, traj := traj, sampler := sampler }, w⟩
        match livePasses b k m g summary rng len prod 0 (equil * len) l0 with
        | (r, l) => ⟨⟨r, l.run.sim, some l.run⟩, l.world⟩

end
end KMC
