import Verif.Model.Tracker
/-
Registration calls made from inside callbacks.  A callback gets hold of the tracker (or of the
simulation, whose methods pass the call on) and attaches, detaches, enables or disables properties
or changes the global schedule while `sample_properties` is running.  Then it matters that
`_properties` holds references to spec objects: the loop `tracker.py:382` goes over a copy of the
list of references, the objects it reaches are the live ones.  Here every spec object has a
number, in order of creation.  The state is only read here; `Model/LiveCallbacks.lean` is about
callbacks that alter it.
-/
namespace KMC.Reentrant

/-- The registration calls, `tracker.py:211-219, 244-269, 284-294, 307-314`. -/
inductive RegCall (T V : Type) where
  | attach (a : AttachArgs T V)
  | detach (name : String)
  | clear
  | enable (name : String) (on : Bool)
  | frequency (interval : Option Int) (timeInterval : Option T)

/-- The sampling part of `Tracker`, `tracker.py:100-111`, with spec objects: `objects` are all that
were created so far, `properties` refers to them by number. -/
structure Reg (T V Row : Type) where
  globalInterval : Option Int := some 1
  globalTimeInterval : Option T := none
  builtin : List (String × Bool) := builtinPropertyFields.map fun n => (n, true)
  objects : List (PropertySpec T V) := []
  properties : List (String × Nat) := []
  records : List (String × List (PropertyRecord T V)) := []
  results : List (T × Row) := []
  lastSummaryTriggerTime : Option T := none

variable {W T V Row : Type}

/-- One registration call: `set_global_property_frequency` (`tracker.py:211-219`), `attach` (244-269),
`detach` (284-289), `clear_attachments` (291-294), `set_property_enabled` (307-314).  A call that raises
leaves everything as it was; whether the callback catches the exception is part of the behaviour of the
callback. -/
def Reg.apply [Zero T] [LE T] [DecidableLE T] (g : Reg T V Row) : RegCall T V → Reg T V Row
  | .attach a =>
    match makePropertySpec a (dictKeys g.properties) with
    | .error _ => g
    | .ok spec =>
      { g with
        objects := g.objects ++ [spec]
        properties := dictSet g.properties spec.name g.objects.length
        records := dictSet g.records spec.name [] }
  | .detach name =>
    if name ∈ dictKeys g.properties then
      { g with properties := dictDel g.properties name, records := dictDel g.records name }
    else g
  | .clear => { g with properties := [], records := [] }
  | .enable name on =>
    match dictGet g.builtin name with
    | some _ => { g with builtin := dictSet g.builtin name on }
    | none =>
      match dictGet g.properties name with
      | none => g
      | some i => { g with objects := g.objects.modify i fun s => { s with enabled := on } }
  | .frequency interval timeInterval =>
    match validateSchedule interval timeInterval with
    | .error _ => g
    | .ok _ => { g with globalInterval := interval, globalTimeInterval := timeInterval }

/-- Several calls one after the other. -/
def Reg.applyAll [Zero T] [LE T] [DecidableLE T] (g : Reg T V Row) (cs : List (RegCall T V)) : Reg T V Row :=
  cs.foldl Reg.apply g

/-- What the function of each spec object does: its result, the registration calls it makes on the way
(all of them, also those before an exception) and the memory it leaves.  `handle` is the same for
`on_error`, which reports `none` when it raises itself. -/
structure Behaviour (W T V Row : Type) where
  call : Nat → W → State T → Reg T V Row → Int → T → CallResult V × List (RegCall T V) × W
  handle : Nat → Option (W → State T → Reg T V Row → Int → T → Option Bool × List (RegCall T V) × W)

/-- The tracker with the memory of the callbacks and, for the statements only, the numbers of the objects
whose function was called so far. -/
structure Env (W T V Row : Type) where
  world : W
  reg : Reg T V Row
  called : List Nat := []

variable [Zero T] [Sub T] [LE T] [DecidableLE T]

/-- Whether one attached property is due, `tracker.py:383-400`. -/
def Reg.due (g : Reg T V Row) (spec : PropertySpec T V) (step : Int) (simTime : T) : Bool :=
  let interval := match spec.interval with
    | some i => some i
    | none => g.globalInterval
  let timeInterval := match spec.timeInterval with
    | some t => some t
    | none => g.globalTimeInterval
  spec.enabled && shouldTrigger step simTime interval timeInterval spec.lastTriggerTime

/-- `spec.last_trigger_step = step; spec.last_trigger_time = sim_time`, `tracker.py:406-407, 419-420`. -/
def Reg.mark (g : Reg T V Row) (i : Nat) (step : Int) (simTime : T) : Reg T V Row :=
  { g with objects := g.objects.modify i fun s =>
      { s with lastTriggerStep := step, lastTriggerTime := some simTime } }

/-- `_handle_callback_error`, `tracker.py:346-369`. -/
def onRaise (b : Behaviour W T V Row) (i : Nat) (w : W) (st : State T) (g : Reg T V Row) (step : Int) (simTime : T) :
    Py Unit × Reg T V Row × W :=
  match b.handle i with
  | none => (.error .callbackError, g, w)
  | some h =>
    match h w st g step simTime with
    | (none, cs, w') => (.error .callbackError, g.applyAll cs, w')
    | (some true, cs, w') => (.ok (), g.applyAll cs, w')
    | (some false, cs, w') => (.error .callbackError, g.applyAll cs, w')

/-- One iteration of the loop `tracker.py:382-420` for spec object `i`. -/
def one (b : Behaviour W T V Row) (st : State T) (step : Int) (simTime : T) (i : Nat) (l : Env W T V Row) :
    Py Unit × Env W T V Row :=
  match l.reg.objects[i]? with
  | none => (.ok (), l)
  | some spec =>
    if l.reg.due spec step simTime then
      match b.call i l.world st l.reg step simTime with
      | (.raised, cs, w1) =>
        match onRaise b i w1 st (l.reg.applyAll cs) step simTime with
        | (.error e, g2, w2) => (.error e, ⟨w2, g2, l.called ++ [i]⟩)
        | (.ok _, g2, w2) => (.ok (), ⟨w2, g2.mark i step simTime, l.called ++ [i]⟩)
      | (.value v, cs, w1) =>
        let g1 := l.reg.applyAll cs
        if spec.store then
          match dictGet g1.records spec.name with
          | none => (.error .keyError, ⟨w1, g1, l.called ++ [i]⟩)
          | some recs =>
            let g2 : Reg T V Row :=
              { g1 with records := dictSet g1.records spec.name (appendRecord recs spec step simTime v) }
            (.ok (), ⟨w1, g2.mark i step simTime, l.called ++ [i]⟩)
        else (.ok (), ⟨w1, g1.mark i step simTime, l.called ++ [i]⟩)
    else (.ok (), l)

/-- Loop `tracker.py:382-420` over the copy of the references. -/
def loop (b : Behaviour W T V Row) (st : State T) (step : Int) (simTime : T) :
    List Nat → Env W T V Row → Py Unit × Env W T V Row
  | [], l => (.ok (), l)
  | i :: rest, l =>
    match one b st step simTime i l with
    | (.error e, l') => (.error e, l')
    | (.ok _, l') => loop b st step simTime rest l'

/-- `_sample_transport_summary`, `tracker.py:331-344`. -/
def Reg.sampleSummary (summary : List (String × Bool) → Row) (g : Reg T V Row) (step : Int) (simTime : T) :
    Reg T V Row :=
  if shouldTrigger step simTime g.globalInterval g.globalTimeInterval g.lastSummaryTriggerTime then
    { g with
      results := g.results ++ [(simTime, summary g.builtin)]
      lastSummaryTriggerTime := some simTime }
  else g

/-- `sample_properties`, `tracker.py:378-420`. -/
def sample (b : Behaviour W T V Row) (summary : List (String × Bool) → Row) (st : State T) (step : Int) (simTime : T)
    (l : Env W T V Row) : Py Unit × Env W T V Row :=
  let g1 := l.reg.sampleSummary summary step simTime
  loop b st step simTime (g1.properties.map Prod.snd) { l with reg := g1 }

/-- What one call of `sample_properties` is given, `kmc.py:544-547`. -/
structure Point (T Row : Type) where
  summary : List (String × Bool) → Row
  st : State T
  step : Int
  time : T

/-- The calls of `sample_properties` during a run, `kmc.py:537-550`, until one raises. -/
def samples (b : Behaviour W T V Row) : List (Point T Row) → Env W T V Row → Py Unit × Env W T V Row
  | [], l => (.ok (), l)
  | p :: ps, l =>
    match sample b p.summary p.st p.step p.time l with
    | (.error e, l') => (.error e, l')
    | (.ok _, l') => samples b ps l'

end KMC.Reentrant
