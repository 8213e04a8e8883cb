import Verif.Model.State
/-
Model of the scheduling and registration part of
`kmcpy/simulator/property.py` (transport formulas are in `Model/Transport.lean`).

Simulation times have an arbitrary type `T` with the operations the code uses.
Callbacks are functions of the state, the step and the time that return a value
or raise; here they are assumed not to touch the tracker or the state (callbacks that do are in
`Model/LiveCallbacks` and `Model/Reentrant`).
-/
namespace KMC

/-- Result of calling a user callback: a value, or an exception. -/
inductive CallResult (V : Type) where
  | value (v : V)
  | raised
  deriving DecidableEq, Repr

/-- `PropertySpec`, `property.py:21-34`.  `onError` returns `none` when the handler
itself raises. -/
structure PropertySpec (T V : Type) where
  name : String
  callback : State T → Int → T → CallResult V
  interval : Option Int := none
  timeInterval : Option T := none
  store : Bool := true
  maxRecords : Option Int := none
  enabled : Bool := true
  onError : Option (State T → Int → T → Option Bool) := none
  lastTriggerStep : Int := 0
  lastTriggerTime : Option T := none

/-- `PropertyRecord`, `property.py:37-44`. -/
structure PropertyRecord (T V : Type) where
  name : String
  step : Int
  time : T
  value : V
  deriving DecidableEq, Repr

section
variable {T V : Type}

/-- `validate_schedule`, `property.py:48-57` (the `isinstance` check is by typing). -/
def validateSchedule [Zero T] [LE T] [DecidableLE T]
    (interval : Option Int) (timeInterval : Option T) : Py Unit :=
  match interval with
  | some i =>
    if i ≤ 0 then .error .valueError
    else
      match timeInterval with
      | some t => if t ≤ 0 then .error .valueError else .ok ()
      | none => .ok ()
  | none =>
    match timeInterval with
    | some t => if t ≤ 0 then .error .valueError else .ok ()
    | none => .ok ()

/-- `validate_max_records`, `property.py:61-68`. -/
def validateMaxRecords (m : Option Int) : Py Unit :=
  match m with
  | none => .ok ()
  | some k => if k ≤ 0 then .error .valueError else .ok ()

/-- `should_trigger`, `property.py:72-89`.  Python's `%` by a positive interval is
`Int.emod`. -/
def shouldTrigger [Sub T] [LE T] [DecidableLE T] (step : Int) (simTime : T)
    (interval : Option Int) (timeInterval : Option T) (lastTriggerTime : Option T) : Bool :=
  let stepTrigger := match interval with
    | none => false
    | some k => decide (0 < step) && decide (step % k = 0)
  let timeTrigger := match timeInterval with
    | none => false
    | some ti =>
      match lastTriggerTime with
      | none => decide (ti ≤ simTime)
      | some last => decide (ti ≤ simTime - last)
  stepTrigger || timeTrigger

/-- `append_record`, `property.py:93-99`. -/
def appendRecord (records : List (PropertyRecord T V)) (spec : PropertySpec T V)
    (step : Int) (simTime : T) (value : V) : List (PropertyRecord T V) :=
  let records := records ++ [⟨spec.name, step, simTime, value⟩]
  match spec.maxRecords with
  | none => records
  | some m =>
    if m < (records.length : Int) then records.drop ((records.length : Int) - m).toNat
    else records

/-- `BUILTIN_PROPERTY_FIELDS`, `property.py:102-109`. -/
def builtinPropertyFields : List String :=
  ["msd", "jump_diffusivity", "tracer_diffusivity", "conductivity", "havens_ratio",
   "correlation_factor"]

/-- Arguments of `attach` (`property.py:249-259`); `funcName` is
`getattr(func, "__name__", "attached_property")`. -/
structure AttachArgs (T V : Type) where
  callback : State T → Int → T → CallResult V
  funcName : String
  interval : Option Int := none
  timeInterval : Option T := none
  name : Option String := none
  store : Bool := true
  maxRecords : Option Int := none
  onError : Option (State T → Int → T → Option Bool) := none
  enabled : Bool := true

/-- `name or getattr(func, "__name__", ...)`, `property.py:135`: an empty name is
falsy. -/
def AttachArgs.resolvedName (a : AttachArgs T V) : String :=
  match a.name with
  | none => a.funcName
  | some n => if n = "" then a.funcName else n

/-- `make_property_spec`, `property.py:116-152` (callability by typing). -/
def makePropertySpec [Zero T] [LE T] [DecidableLE T] (a : AttachArgs T V)
    (existing : List String) : Py (PropertySpec T V) :=
  match validateSchedule a.interval a.timeInterval with
  | .error e => .error e
  | .ok _ =>
    match validateMaxRecords a.maxRecords with
    | .error e => .error e
    | .ok _ =>
      if a.resolvedName ∈ builtinPropertyFields then .error .valueError
      else if a.resolvedName ∈ existing then .error .valueError
      else .ok
        { name := a.resolvedName
          callback := a.callback
          interval := a.interval
          timeInterval := a.timeInterval
          store := a.store
          maxRecords := a.maxRecords
          enabled := a.enabled
          onError := a.onError }

/-- `set_property_enabled_flag`, `property.py:181-195`. -/
def setPropertyEnabledFlag (builtin : List (String × Bool))
    (attached : List (String × PropertySpec T V)) (name : String) (enabled : Bool) :
    Py Unit × List (String × Bool) × List (String × PropertySpec T V) :=
  match dictGet builtin name with
  | some _ => (.ok (), dictSet builtin name enabled, attached)
  | none =>
    match dictGet attached name with
    | none => (.error .valueError, builtin, attached)
    | some spec => (.ok (), builtin, dictSet attached name { spec with enabled := enabled })

/-- `PropertyPlan`, `property.py:198-222`. -/
structure PropertyPlan (T V : Type) where
  globalInterval : Option Int := none
  globalTimeInterval : Option T := none
  builtin : List (String × Bool) := builtinPropertyFields.map fun n => (n, true)
  attached : List (String × PropertySpec T V) := []

namespace PropertyPlan

/-- `set_frequency`, `property.py:239-247`. -/
def setFrequency [Zero T] [LE T] [DecidableLE T] (p : PropertyPlan T V)
    (interval : Option Int) (timeInterval : Option T) : Py Unit × PropertyPlan T V :=
  match validateSchedule interval timeInterval with
  | .error e => (.error e, p)
  | .ok _ => (.ok (), { p with globalInterval := interval, globalTimeInterval := timeInterval })

/-- `attach`, `property.py:249-273`. -/
def attach [Zero T] [LE T] [DecidableLE T] (p : PropertyPlan T V) (a : AttachArgs T V) :
    Py String × PropertyPlan T V :=
  match makePropertySpec a (dictKeys p.attached) with
  | .error e => (.error e, p)
  | .ok spec => (.ok spec.name, { p with attached := dictSet p.attached spec.name spec })

/-- `detach`, `property.py:275-279`. -/
def detach (p : PropertyPlan T V) (name : String) : Py Unit × PropertyPlan T V :=
  if name ∈ dictKeys p.attached then
    (.ok (), { p with attached := dictDel p.attached name })
  else (.error .valueError, p)

/-- `clear_attachments`, `property.py:281-283`. -/
def clearAttachments (p : PropertyPlan T V) : PropertyPlan T V := { p with attached := [] }

/-- `list_attachments`, `property.py:285-287`. -/
def listAttachments (p : PropertyPlan T V) : List String := dictKeys p.attached

/-- `set_property_enabled`, `property.py:296-303`. -/
def setPropertyEnabled (p : PropertyPlan T V) (name : String) (enabled : Bool) :
    Py Unit × PropertyPlan T V :=
  let r := setPropertyEnabledFlag p.builtin p.attached name enabled
  (r.1, { p with builtin := r.2.1, attached := r.2.2 })

/-- `fresh_attachment_specs`, `property.py:305-315`. -/
def freshAttachmentSpecs (p : PropertyPlan T V) : List (PropertySpec T V) :=
  p.attached.map fun kv => { kv.2 with lastTriggerStep := 0, lastTriggerTime := none }

end PropertyPlan

/-- `describe_property_calculations`, `property.py:155-178`; called by `list_property_calculations` of the plan
(`property.py:289-294`) and of the tracker (`tracker.py:300-305`) with their own flags and properties. -/
structure PropertyListing where
  builtInEnabled : List String
  builtInDisabled : List String
  attachedEnabled : List String
  attachedDisabled : List String
  deriving DecidableEq, Repr

/-- `describe_property_calculations`, `property.py:155-178`; called by `list_property_calculations` of the plan
(`property.py:289-294`) and of the tracker (`tracker.py:300-305`) with their own flags and properties. -/
def describePropertyCalculations (builtin : List (String × Bool))
    (attached : List (String × PropertySpec T V)) : PropertyListing :=
  { builtInEnabled := builtinPropertyFields.filter fun n => (dictGet builtin n).getD true
    builtInDisabled := builtinPropertyFields.filter fun n => !(dictGet builtin n).getD true
    attachedEnabled := (attached.filter fun kv => kv.2.enabled).map Prod.fst
    attachedDisabled := (attached.filter fun kv => !kv.2.enabled).map Prod.fst }

end
end KMC
