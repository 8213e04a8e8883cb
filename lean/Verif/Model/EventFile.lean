import Verif.Model.Event
import Verif.Model.Value
/-
Model of the files of single events in `kmcpy/event/base.py` and of reading a library by position.

An event object keeps whatever values it was built with; the files are JSON files, written whole and kept
as the value read back from them (names that make `monty` choose YAML or MessagePack are not modelled).
-/
namespace KMC
namespace EventFile

/-- `Event`, `base.py:21-36`, with fields of any type: the dataclass checks nothing. -/
structure EventObj where
  mobile : PyVal
  env : PyVal

/-- The event object of an event whose fields are tuples of integers; the attribute
`hop_state_codes` is no field, `base.py:21-36`. -/
def ofEvent (e : Event) : EventObj := ⟨.tuple (e.mobile.map .int), .tuple (e.env.map .int)⟩

/-- `Event.as_dict`, `base.py:47-52`. -/
def asDict (e : EventObj) : List (String × PyVal) :=
  [("mobile_ion_indices", e.mobile), ("local_env_indices", e.env)]

/-- `tuple(event_dict.get(key, ()))`, `base.py:66-67`. -/
def tupleUnder (d : List (String × PyVal)) (key : String) : Py PyVal :=
  match dictGet d key with
  | none => .ok (.tuple [])
  | some v =>
    match v.toList with
    | .error e => .error e
    | .ok l => .ok (.tuple l)

/-- `Event.from_dict`, `base.py:63-68`. -/
def fromDict (d : List (String × PyVal)) : Py EventObj :=
  match tupleUnder d "mobile_ion_indices" with
  | .error e => .error e
  | .ok m =>
    match tupleUnder d "local_env_indices" with
    | .error e => .error e
    | .ok v => .ok ⟨m, v⟩

/-- `Event.from_file` after parsing, `base.py:58-61`: only a dictionary has `get`. -/
def fromPayload : PyVal → Py EventObj
  | .dict d => fromDict d
  | _ => .error .attributeError

/-- Files by name, as the values read back from them. -/
abbrev Disk := List (String × PyVal)

/-- `Event.to`, `base.py:54-56`. -/
def save (disk : Disk) (name : String) (e : EventObj) : Disk :=
  dictSet disk name (PyVal.json (.dict (asDict e)))

/-- `Event.from_file`, `base.py:58-61`. -/
def load (disk : Disk) (name : String) : Py EventObj :=
  match dictGet disk name with
  | none => .error .osError
  | some v => fromPayload v

/-- Calls of `Event.to` one after the other, `base.py:54-56`. -/
def saves (disk : Disk) : List (String × EventObj) → Disk
  | [] => disk
  | (name, e) :: rest => saves (save disk name e) rest

end EventFile

namespace EventLib
variable {σ φ : Type}

/-- `get_event` and `__getitem__` with an integer, `base.py:213-214`, `base.py:219-220`. -/
def getEvent (lib : EventLib σ φ) (i : Int) : Py Event := pyGet lib.events i

/-- `__len__`, `base.py:216-217`. -/
def len (lib : EventLib σ φ) : Nat := lib.events.length

end EventLib
end KMC
