import Verif.Model.Value
/-
Model of `kmcpy/simulator/config.py`.

The two dataclasses `SystemConfig` and `RuntimeConfig` are represented by their field
dictionaries, in declaration order.  Types are not enforced by Python, so values are `PyVal`.
-/
namespace KMC

/-- Field values of a dataclass instance. -/
abbrev Fields := List (String × PyVal)

/-- `BUILTIN_PROPERTY_FIELDS`, `property.py:102-109`. -/
def builtinNames : List String :=
  ["msd", "jump_diffusivity", "tracer_diffusivity", "conductivity", "havens_ratio",
   "correlation_factor"]

namespace Config

/-- `LOADER_FIELD_NAMES`, `config.py:25-30`. -/
def loaderNames : List String :=
  ["structure_file", "model_file", "event_file", "initial_state_file"]

/-- `SYSTEM_FIELD_NAMES`, `config.py:32-46`. -/
def systemNames : List String :=
  ["structure_file", "supercell_shape", "dimension", "mobile_ion_specie", "mobile_ion_charge",
   "elementary_hop_distance", "model_type", "model_file", "event_file", "site_mapping",
   "convert_to_primitive_cell", "initial_state_file", "initial_occupations"]

/-- `RUNTIME_FIELD_NAMES`, `config.py:48-59`. -/
def runtimeNames : List String :=
  ["temperature", "attempt_frequency", "equilibration_passes", "kmc_passes", "random_seed",
   "name", "property_sampling_interval", "property_sampling_time_interval",
   "builtin_property_enabled", "property_callbacks"]

/-- Declared fields and defaults of `SystemConfig`, `config.py:150-170`. -/
def systemDefaults : Fields :=
  [("structure_file", .str ""),
   ("supercell_shape", .tuple [.int 1, .int 1, .int 1]),
   ("dimension", .int 3),
   ("mobile_ion_specie", .str "Li"),
   ("mobile_ion_charge", .float (.fin 1)),
   ("elementary_hop_distance", .float (.fin 1)),
   ("model_type", .str "composite_lce"),
   ("model_file", .str ""),
   ("event_file", .str ""),
   ("site_mapping", .none),
   ("convert_to_primitive_cell", .bool false),
   ("initial_state_file", .none),
   ("initial_occupations", .none)]

/-- Declared fields and defaults of `RuntimeConfig`, `config.py:211-227`. -/
def runtimeDefaults : Fields :=
  [("temperature", .float (.fin 300)),
   ("attempt_frequency", .float (.fin 10000000000000)),
   ("equilibration_passes", .int 1000),
   ("kmc_passes", .int 10000),
   ("random_seed", .none),
   ("name", .str "DefaultSimulation"),
   ("property_sampling_interval", .none),
   ("property_sampling_time_interval", .none),
   ("builtin_property_enabled", .dict []),
   ("property_callbacks", .list [])]

/-- Attribute access `self.k`; declared fields are always present. -/
def field (f : Fields) (k : String) : PyVal := (dictGet f k).getD .none

/-- `SystemConfig.__post_init__`, `config.py:172-178`. -/
def validateSystem (f : Fields) : Py Unit :=
  let d := field f "dimension"
  if !(d.eqInt 1 || d.eqInt 2 || d.eqInt 3) then .error .valueError
  else
    match (field f "supercell_shape").len with
    | .error e => .error e
    | .ok n => if n ≠ 3 then .error .valueError else .ok ()

/-- `validate_schedule`, `property.py:48-57`, on untyped arguments. -/
def validateSchedule (interval timeInterval : PyVal) : Py Unit :=
  let second : Py Unit :=
    if timeInterval.isNone then .ok ()
    else
      match timeInterval.leZero with
      | .error e => .error e
      | .ok true => .error .valueError
      | .ok false => .ok ()
  if interval.isNone then second
  else if !interval.isInt then .error .typeError
  else
    match interval.leZero with
    | .error e => .error e
    | .ok true => .error .valueError
    | .ok false => second

/-- Loop of `_validate_builtin_property_enabled`, `config.py:132-141`. -/
def validateFlags : List (String × PyVal) → Py Unit
  | [] => .ok ()
  | (k, v) :: rest =>
    if k ∉ builtinNames then .error .valueError
    else if !v.isBool then .error .typeError
    else validateFlags rest

/-- `_validate_builtin_property_enabled`, `config.py:128-141`. -/
def validateBuiltin : PyVal → Py Unit
  | .dict d => validateFlags d
  | _ => .error .typeError

/-- `allowed_keys`, `config.py:255-263`. -/
def callbackKeys : List String :=
  ["callable", "name", "interval", "time_interval", "store", "max_records", "enabled"]

/-- `isinstance(ref, str) and ref.strip()`, `config.py:269-270`. -/
def callableRefOk : PyVal → Bool
  | .str s => s.toList.any fun c => !c.isWhitespace
  | _ => false

/-- The `max_records` check, `config.py:278-283`. -/
def validateMax (v : PyVal) : Py Unit :=
  if v.isNone then .ok ()
  else if !v.isInt then .error .typeError
  else
    match v.leZero with
    | .error e => .error e
    | .ok true => .error .valueError
    | .ok false => .ok ()

/-- The boolean checks, `config.py:284-288`. -/
def validateBoolKey (d : List (String × PyVal)) (k : String) : Py Unit :=
  match dictGet d k with
  | some v => if v.isBool then .ok () else .error .typeError
  | none => .ok ()

/-- One callback entry, `config.py:252-288`. -/
def validateCallback : PyVal → Py Unit
  | .dict d =>
    if d.any fun kv => decide (kv.1 ∉ callbackKeys) then .error .valueError
    else if !callableRefOk ((dictGet d "callable").getD .none) then .error .valueError
    else
      match validateSchedule ((dictGet d "interval").getD .none)
          ((dictGet d "time_interval").getD .none) with
      | .error e => .error e
      | .ok _ =>
        match validateMax ((dictGet d "max_records").getD .none) with
        | .error e => .error e
        | .ok _ =>
          match validateBoolKey d "store" with
          | .error e => .error e
          | .ok _ => validateBoolKey d "enabled"
  | _ => .error .typeError

/-- Loop `config.py:252-288`. -/
def validateCallbacks : List PyVal → Py Unit
  | [] => .ok ()
  | v :: vs =>
    match validateCallback v with
    | .error e => .error e
    | .ok _ => validateCallbacks vs

/-- `RuntimeConfig.__post_init__`, `config.py:229-288`. -/
def validateRuntime (f : Fields) : Py Unit :=
  match (field f "temperature").leZero with
  | .error e => .error e
  | .ok true => .error .valueError
  | .ok false =>
    match (field f "attempt_frequency").leZero with
    | .error e => .error e
    | .ok true => .error .valueError
    | .ok false =>
      match (field f "equilibration_passes").ltZero with
      | .error e => .error e
      | .ok true => .error .valueError
      | .ok false =>
        match (field f "kmc_passes").leZero with
        | .error e => .error e
        | .ok true => .error .valueError
        | .ok false =>
          match validateSchedule (field f "property_sampling_interval")
              (field f "property_sampling_time_interval") with
          | .error e => .error e
          | .ok _ =>
            match validateBuiltin (field f "builtin_property_enabled") with
            | .error e => .error e
            | .ok _ =>
              match field f "property_callbacks" with
              | .list l => validateCallbacks l
              | _ => .error .typeError

/-- Generated dataclass `__init__` followed by `__post_init__`: keyword arguments override the
base values, unknown ones are a `TypeError`.  With the defaults as base this is the
constructor, with the fields of an object it is `dataclasses.replace`. -/
def build (validate : Fields → Py Unit) (base : Fields) (kwargs : Fields) : Py Fields :=
  if kwargs.any fun kv => decide (kv.1 ∉ dictKeys base) then .error .typeError
  else
    let f := base.map fun kv => (kv.1, (dictGet kwargs kv.1).getD kv.2)
    match validate f with
    | .error e => .error e
    | .ok _ => .ok f

end Config

/-- A value passed as `system_config` / `runtime_config`: an instance of the dataclass, or
anything else (no type is checked, `config.py:346-361`). -/
inductive Section where
  | cfg (f : Fields)
  | other (v : PyVal)

/-- `Configuration`, `config.py:306-311`. -/
structure Configuration where
  system : Section
  runtime : Section

namespace Configuration
open Config

/-- One of the two blocks `config.py:346-361`. -/
def section' (validate : Fields → Py Unit) (defaults : Fields) (given : Option Section)
    (fields : Fields) : Py Section :=
  match given with
  | none =>
    match build validate defaults fields with
    | .error e => .error e
    | .ok f => .ok (.cfg f)
  | some (.cfg f) =>
    if fields = [] then .ok (.cfg f)
    else
      match build validate f fields with
      | .error e => .error e
      | .ok f' => .ok (.cfg f')
  | some (.other v) => match fields with
    | [] => .ok (.other v)
    | _ => .error .typeError

/-- `Configuration.__init__`, `config.py:313-365`. -/
def init (system runtime : Option Section) (kwargs : Fields) : Py Configuration :=
  if system.isNone && runtime.isNone && kwargs.isEmpty then .error .valueError
  else
    let systemFields := kwargs.filter fun kv => decide (kv.1 ∈ systemNames)
    let runtimeFields := kwargs.filter fun kv =>
      decide (kv.1 ∉ systemNames) && decide (kv.1 ∈ runtimeNames)
    let unknown := kwargs.filter fun kv =>
      decide (kv.1 ∉ systemNames) && decide (kv.1 ∉ runtimeNames)
    if unknown.length ≠ 0 then .error .valueError
    else
      match section' validateSystem systemDefaults system systemFields with
      | .error e => .error e
      | .ok s =>
        match section' validateRuntime runtimeDefaults runtime runtimeFields with
        | .error e => .error e
        | .ok r => .ok ⟨s, r⟩

/-- `SystemConfig.as_dict`, `config.py:187-203` (`asdict` copies deeply, which is the identity
on values). -/
def systemAsDict (f : Fields) (includePaths : Bool) : Py Fields :=
  match (field f "supercell_shape").toList with
  | .error e => .error e
  | .ok l =>
    let data := dictSet f "supercell_shape" (.list l)
    if includePaths then .ok data else .ok (loaderNames.foldl dictDel data)

/-- `RuntimeConfig.as_dict`, `config.py:290-303`: the ten fields by name.  The copies
`dict(self.builtin_property_enabled)` and `[dict(callback) ...]` are the identity on validated
values. -/
def runtimeAsDict (f : Fields) : Fields :=
  ["temperature", "attempt_frequency", "equilibration_passes", "kmc_passes", "random_seed",
   "name", "property_sampling_interval", "property_sampling_time_interval",
   "builtin_property_enabled", "property_callbacks"].map fun k => (k, field f k)

/-- `as_dict`, `config.py:367-384`. -/
def asDict (c : Configuration) (includePaths : Bool) : Py Fields :=
  match c.system, c.runtime with
  | .cfg s, .cfg r =>
    match systemAsDict s includePaths with
    | .error e => .error e
    | .ok sd =>
      .ok (dictUpdate (dictUpdate
        [("@module", .str "kmcpy.simulator.config"), ("@class", .str "Configuration")] sd)
        (runtimeAsDict r))
  | _, _ => .error .attributeError

/-- A section keyword of the call `cls(**config_dict)`. -/
def sectionArg (d : Fields) (k : String) : Option Section :=
  match dictGet d k with
  | none => none
  | some .none => none
  | some v => some (.other v)

/-- `from_dict`, `config.py:399-411`; the keys `system_config` and `runtime_config` bind the two
named parameters. -/
def fromDict (d : Fields) : Py Configuration :=
  let kept := d.filter fun kv => !(kv.1.toList.head? == some '@')
  if kept.any (fun kv => decide (kv.1 = "self")) then .error .typeError
  else
    init (sectionArg kept "system_config") (sectionArg kept "runtime_config")
      (kept.filter fun kv => decide (kv.1 ≠ "system_config") && decide (kv.1 ≠ "runtime_config"))

/-- `replace(self, runtime_config=...)`, `config.py:516-520`. -/
def withRuntimeChanges (c : Configuration) (changes : Fields) : Py Configuration :=
  match c.runtime with
  | .other _ => .error .typeError
  | .cfg f =>
    match build validateRuntime f changes with
    | .error e => .error e
    | .ok f' => init (some c.system) (some (.cfg f')) []

/-- `with_system_changes`, `config.py:522-526`. -/
def withSystemChanges (c : Configuration) (changes : Fields) : Py Configuration :=
  match c.system with
  | .other _ => .error .typeError
  | .cfg f =>
    match build validateSystem f changes with
    | .error e => .error e
    | .ok f' => init (some (.cfg f')) (some c.runtime) []

/-- `_extract_section_data`, `config.py:92-125`.  `task_type` given as a value: only strings can
be keys, an unhashable one raises `TypeError`. -/
def extractSection (raw : Fields) (sec : String) (taskType : Option String) : Py Fields :=
  match dictGet raw sec with
  | none => .error .valueError
  | some (.dict d) =>
    match dictGet d "type" with
    | none => .ok d
    | some t =>
      let task : Py (Option String) := match taskType with
        | some t => .ok (some t)
        | none =>
          match t with
          | .str s => .ok (some s)
          | .list _ => .error .typeError
          | .dict _ => .error .typeError
          | _ => .ok none
      match task with
      | .error e => .error e
      | .ok none => .error .valueError
      | .ok (some t) =>
        match dictGet d t with
        | none => .error .valueError
        | some (.dict d') => .ok d'
        | some _ => .error .valueError
  | some _ => .error .valueError

/-- `_extract_file_config_data`, `config.py:413-434`. -/
def extractFileData (raw : PyVal) (sec taskType : Option String) : Py Fields :=
  match raw with
  | .dict d =>
    match sec with
    | some s => extractSection d s taskType
    | none =>
      if d.any fun kv => decide (kv.1 ∈ systemNames ++ runtimeNames) then .ok d
      else
        match dictGet d "kmc" with
        | none => .ok d
        | some _ => extractSection d "kmc" taskType
  | _ => .error .valueError

/-- `from_file`, `config.py:437-465`, on the parsed content of a `.json`, `.yaml` or `.yml`
file. -/
def fromFile (raw : PyVal) (sec taskType : Option String) : Py Configuration :=
  match extractFileData raw sec taskType with
  | .error e => .error e
  | .ok d => fromDict d

/-- Content written by `to` without a section, `config.py:485-514`. -/
def toFile (c : Configuration) (includePaths : Bool) : Py PyVal :=
  match c.asDict includePaths with
  | .error e => .error e
  | .ok d => .ok (PyVal.json (.dict d))

/-- Content written by `to` with a section into a YAML file whose previous content is `old`
(`{}` when missing or unreadable), `config.py:493-508`. -/
def toFileSection (c : Configuration) (includePaths : Bool) (old : PyVal) (sec taskType : String) :
    Py PyVal :=
  match c.asDict includePaths with
  | .error e => .error e
  | .ok d =>
    match old with
    | .dict o =>
      .ok (PyVal.json (.dict (dictSet o sec
        (.dict (dictSet [("type", .str taskType)] taskType (.dict d))))))
    | _ => .error .valueError

end Configuration
end KMC
