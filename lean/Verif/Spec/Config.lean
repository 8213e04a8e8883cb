import Verif.Model.Config
/-
What a user means by a valid configuration, stated on the stored values.
-/
namespace KMC.Spec
open KMC

/-- The fields that describe the simulated system. -/
def systemFields : List String :=
  ["structure_file", "supercell_shape", "dimension", "mobile_ion_specie", "mobile_ion_charge",
   "elementary_hop_distance", "model_type", "model_file", "event_file", "site_mapping",
   "convert_to_primitive_cell", "initial_state_file", "initial_occupations"]

/-- The fields that describe how it is simulated. -/
def runtimeFields : List String :=
  ["temperature", "attempt_frequency", "equilibration_passes", "kmc_passes", "random_seed",
   "name", "property_sampling_interval", "property_sampling_time_interval",
   "builtin_property_enabled", "property_callbacks"]

/-- The fields holding paths of input files. -/
def pathFields : List String :=
  ["structure_file", "model_file", "event_file", "initial_state_file"]

/-- Value of a system field the user does not mention. -/
def systemDefault : String → PyVal
  | "supercell_shape" => .tuple [.int 1, .int 1, .int 1]
  | "dimension" => .int 3
  | "mobile_ion_specie" => .str "Li"
  | "mobile_ion_charge" => .float (.fin 1)
  | "elementary_hop_distance" => .float (.fin 1)
  | "model_type" => .str "composite_lce"
  | "convert_to_primitive_cell" => .bool false
  | "structure_file" => .str ""
  | "model_file" => .str ""
  | "event_file" => .str ""
  | _ => .none

/-- Value of a runtime field the user does not mention. -/
def runtimeDefault : String → PyVal
  | "temperature" => .float (.fin 300)
  | "attempt_frequency" => .float (.fin 10000000000000)
  | "equilibration_passes" => .int 1000
  | "kmc_passes" => .int 10000
  | "name" => .str "DefaultSimulation"
  | "builtin_property_enabled" => .dict []
  | "property_callbacks" => .list []
  | _ => .none

/-- A positive number (`True` counts as one). -/
inductive Positive : PyVal → Prop
  | ofTrue : Positive (.bool true)
  | ofInt {n : Int} (h : 0 < n) : Positive (.int n)
  | ofFloat {q : ℚ} (h : 0 < q) : Positive (.float (.fin q))
  | ofInf : Positive (.float .posInf)

/-- A non-negative number. -/
inductive NonNegative : PyVal → Prop
  | ofBool {b : Bool} : NonNegative (.bool b)
  | ofInt {n : Int} (h : 0 ≤ n) : NonNegative (.int n)
  | ofFloat {q : ℚ} (h : 0 ≤ q) : NonNegative (.float (.fin q))
  | ofInf : NonNegative (.float .posInf)

/-- Not a number. -/
def IsNaN (v : PyVal) : Prop := v = .float .nan

/-- A positive integer (`True` is an integer). -/
inductive PositiveInt : PyVal → Prop
  | ofTrue : PositiveInt (.bool true)
  | ofInt {n : Int} (h : 0 < n) : PositiveInt (.int n)

/-- One, two or three, as integer, float or (for one) `True`. -/
inductive IsDimension : PyVal → Prop
  | ofTrue : IsDimension (.bool true)
  | ofInt {n : Int} (h : n = 1 ∨ n = 2 ∨ n = 3) : IsDimension (.int n)
  | ofFloat {q : ℚ} (h : q = 1 ∨ q = 2 ∨ q = 3) : IsDimension (.float (.fin q))

/-- A container with three entries. -/
inductive HasThreeEntries : PyVal → Prop
  | ofList (a b c : PyVal) : HasThreeEntries (.list [a, b, c])
  | ofTuple (a b c : PyVal) : HasThreeEntries (.tuple [a, b, c])
  | ofStr {s : String} (h : s.toList.length = 3) : HasThreeEntries (.str s)
  | ofDict (a b c : String × PyVal) : HasThreeEntries (.dict [a, b, c])

/-- Optional value: absent, `None`, or satisfying `P`. -/
def Optional (P : PyVal → Prop) (v : Option PyVal) : Prop :=
  v = none ∨ v = some .none ∨ ∃ w, v = some w ∧ P w

/-- A usable callback entry. -/
def CallbackEntry (v : PyVal) : Prop :=
  ∃ d, v = .dict d ∧
    (∀ kv ∈ d, kv.1 ∈ ["callable", "name", "interval", "time_interval", "store", "max_records",
      "enabled"]) ∧
    (∃ s, dictGet d "callable" = some (.str s) ∧ ∃ c ∈ s.toList, c.isWhitespace = false) ∧
    Optional PositiveInt (dictGet d "interval") ∧
    Optional (fun w => Positive w ∨ IsNaN w) (dictGet d "time_interval") ∧
    Optional PositiveInt (dictGet d "max_records") ∧
    (∀ w, dictGet d "store" = some w → ∃ b, w = .bool b) ∧
    (∀ w, dictGet d "enabled" = some w → ∃ b, w = .bool b)

/-- A valid system section. -/
structure ValidSystem (f : Fields) : Prop where
  keys : dictKeys f = systemFields
  dimension : ∃ v, dictGet f "dimension" = some v ∧ IsDimension v
  shape : ∃ v, dictGet f "supercell_shape" = some v ∧ HasThreeEntries v

/-- A valid runtime section, where `Pos` and `NonNeg` say what counts as positive and
non-negative. -/
structure ValidRuntime (Pos NonNeg : PyVal → Prop) (f : Fields) : Prop where
  keys : dictKeys f = runtimeFields
  temperature : ∃ v, dictGet f "temperature" = some v ∧ Pos v
  frequency : ∃ v, dictGet f "attempt_frequency" = some v ∧ Pos v
  equilibration : ∃ v, dictGet f "equilibration_passes" = some v ∧ NonNeg v
  passes : ∃ v, dictGet f "kmc_passes" = some v ∧ Pos v
  interval : Optional PositiveInt (dictGet f "property_sampling_interval")
  timeInterval : Optional Pos (dictGet f "property_sampling_time_interval")
  builtin : ∃ d, dictGet f "builtin_property_enabled" = some (.dict d) ∧
    ∀ kv ∈ d, kv.1 ∈ ["msd", "jump_diffusivity", "tracer_diffusivity", "conductivity",
      "havens_ratio", "correlation_factor"] ∧ ∃ b, kv.2 = .bool b
  callbacks : ∃ l, dictGet f "property_callbacks" = some (.list l) ∧ ∀ v ∈ l, CallbackEntry v

/-- The entries of a container: elements of a sequence, characters of a string, keys of a
dictionary. -/
inductive EntriesOf : PyVal → List PyVal → Prop
  | ofList (l : List PyVal) : EntriesOf (.list l) l
  | ofTuple (l : List PyVal) : EntriesOf (.tuple l) l
  | ofStr (s : String) : EntriesOf (.str s) (s.toList.map fun c => .str (String.singleton c))
  | ofDict (d : List (String × PyVal)) : EntriesOf (.dict d) (d.map fun kv => .str kv.1)

/-- Value of a field in the section that owns it. -/
def valueOf (c : Configuration) (k : String) : Option PyVal :=
  match c.system, c.runtime with
  | .cfg s, .cfg r =>
    match dictGet s k with
    | some v => some v
    | none => dictGet r k
  | _, _ => none

/-- Configurations a user can build from keyword values, dictionaries, other configurations and
changes. -/
inductive Built : Configuration → Prop
  | new {kwargs : Fields} {c : Configuration}
      (h : Configuration.init none none kwargs = .ok c) : Built c
  | reuseSystem {c₀ c : Configuration} {kwargs : Fields} (h₀ : Built c₀)
      (h : Configuration.init (some c₀.system) none kwargs = .ok c) : Built c
  | reuseRuntime {c₀ c : Configuration} {kwargs : Fields} (h₀ : Built c₀)
      (h : Configuration.init none (some c₀.runtime) kwargs = .ok c) : Built c
  | combine {c₁ c₂ c : Configuration} {kwargs : Fields} (h₁ : Built c₁) (h₂ : Built c₂)
      (h : Configuration.init (some c₁.system) (some c₂.runtime) kwargs = .ok c) : Built c
  | dict {d : Fields} {c : Configuration} (hs : "system_config" ∉ dictKeys d)
      (hr : "runtime_config" ∉ dictKeys d) (h : Configuration.fromDict d = .ok c) : Built c
  | runtimeChange {c₀ c : Configuration} {changes : Fields} (h₀ : Built c₀)
      (h : c₀.withRuntimeChanges changes = .ok c) : Built c
  | systemChange {c₀ c : Configuration} {changes : Fields} (h₀ : Built c₀)
      (h : c₀.withSystemChanges changes = .ok c) : Built c

end KMC.Spec
