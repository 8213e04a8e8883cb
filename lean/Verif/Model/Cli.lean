import Verif.Model.FromConfig
import Verif.Model.LocalBarrier
/-
Model of the command line: `kmcpy/cli/run_kmc.py`, `kmcpy/cli/init.py`, `kmcpy/cli/main.py` and the
simulation command of `kmcpy/cli/gui_wrapper.py`.

`argparse` itself is not modelled: the functions start from the values it stores.  `ast.literal_eval` is a
parameter; its `SyntaxError` is written `valueError`, like its `ValueError` (the code treats both alike).
-/
namespace KMC
namespace Cli
open Config FromConfig

/-- How a command ends when it does not succeed. -/
inductive CliErr where
  /-- `argparse.ArgumentTypeError` -/
  | usage
  /-- `OverflowError`, from `int(float('inf'))` -/
  | overflow
  | py (e : PyErr)
  deriving DecidableEq

/-- `text.split(",")`. -/
def splitCommas : List Char → List (List Char)
  | [] => [[]]
  | c :: cs =>
    if c = ',' then [] :: splitCommas cs
    else
      match splitCommas cs with
      | [] => [[c]]
      | p :: ps => (c :: p) :: ps

/-- `[item.strip() for item in text.split(",") if item.strip()]`, `run_kmc.py:16`. -/
def pieces (s : String) : List PyVal :=
  ((splitCommas s.toList).map fun p => pyStrip (String.ofList p)).filterMap fun t =>
    if t = "" then none else some (.str t)

/-- A list or tuple. -/
def isSequence : PyVal → Bool
  | .list _ => true
  | .tuple _ => true
  | _ => false

/-- The entries of a list or tuple. -/
def entries : PyVal → List PyVal
  | .list l => l
  | .tuple l => l
  | _ => []

/-- `_parse_sequence` on a text, `run_kmc.py:13-19`. -/
def parseText (lit : String → Py PyVal) (s : String) : Except CliErr PyVal :=
  match lit s with
  | .ok v => if isSequence v then .ok v else .error .usage
  | .error .valueError => .ok (.list (pieces s))
  | .error e => .error (.py e)

/-- `_parse_sequence`, `run_kmc.py:10-19`.  `literal_eval` raises `ValueError` on a value that is no text, so
`str(value)` is split; `str` is a parameter. -/
def parseSequence (lit : String → Py PyVal) (str : PyVal → String) : PyVal → Except CliErr PyVal
  | .none => .ok .none
  | .list l => .ok (.list l)
  | .tuple l => .ok (.tuple l)
  | .str s => parseText lit s
  | v => .ok (.list (pieces (str v)))

/-- `int(q)`: towards zero. -/
def truncate (q : ℚ) : Int := if 0 ≤ q then ⌊q⌋ else ⌈q⌉

/-- `int(item)`; `none` is an `OverflowError`. -/
def toInt : PyVal → Option (Py Int)
  | .bool b => some (.ok (if b then 1 else 0))
  | .int n => some (.ok n)
  | .float (.fin q) => some (.ok (truncate q))
  | .float .nan => some (.error .valueError)
  | .float _ => none
  | .str s =>
    match parseInt s with
    | some n => some (.ok n)
    | none => some (.error .valueError)
  | _ => some (.error .typeError)

/-- `tuple(int(item) for item in parsed)` with its `except`, `run_kmc.py:26-31`. -/
def toInts : List PyVal → Except CliErr (List Int)
  | [] => .ok []
  | v :: vs =>
    match toInt v with
    | none => .error .overflow
    | some (.error _) => .error .usage
    | some (.ok n) =>
      match toInts vs with
      | .error e => .error e
      | .ok ns => .ok (n :: ns)

/-- `_parse_supercell_shape`, `run_kmc.py:22-34`. -/
def parseShape (lit : String → Py PyVal) (str : PyVal → String) (v : PyVal) : Except CliErr PyVal :=
  match parseSequence lit str v with
  | .error e => .error e
  | .ok p =>
    if p.isNone then .ok .none
    else
      match toInts (entries p) with
      | .error e => .error e
      | .ok ns => if ns.length ≠ 3 then .error .usage else .ok (.tuple (ns.map .int))

/-- `_parse_mapping`, `run_kmc.py:37-46`.  On a value that is no text `literal_eval` raises `ValueError`. -/
def parseMapping (lit : String → Py PyVal) : PyVal → Except CliErr PyVal
  | .none => .ok .none
  | .dict d => .ok (.dict d)
  | .str s =>
    match lit s with
    | .ok (.dict d) => .ok (.dict d)
    | .ok _ => .error .usage
    | .error .valueError => .error .usage
    | .error e => .error (.py e)
  | _ => .error .usage

/-- The values stored by `argparse`, `run_kmc.py:84-144`; absent ones are `None`. -/
structure Args where
  input : PyVal
  shape : PyVal
  modelFile : PyVal
  structureFile : PyVal
  eventFile : PyVal
  mapping : PyVal
  frequency : PyVal
  temperature : PyVal
  primitive : PyVal

/-- `vars(args)` without `input`, under the names of the arguments. -/
def Args.rest (a : Args) : Fields :=
  [("supercell_shape", a.shape), ("model_file", a.modelFile), ("structure_file", a.structureFile),
   ("event_file", a.eventFile), ("site_mapping", a.mapping), ("attempt_frequency", a.frequency),
   ("temperature", a.temperature), ("convert_to_primitive_cell", a.primitive)]

/-- One of the two rewrites `d[k] = f(d[k])`, `run_kmc.py:186-193`. -/
def rewriteKey (f : PyVal → Except CliErr PyVal) (d : Fields) (k : String) : Except CliErr Fields :=
  match dictGet d k with
  | none => .ok d
  | some v =>
    match f v with
    | .error e => .error e
    | .ok v' => .ok (dictSet d k v')

/-- `input_dict`, `run_kmc.py:185-193`. -/
def Args.inputDict (lit : String → Py PyVal) (str : PyVal → String) (a : Args) : Except CliErr Fields :=
  match rewriteKey (parseShape lit str) (a.rest.filter fun kv => !kv.2.isNone) "supercell_shape" with
  | .error e => .error e
  | .ok d => rewriteKey (parseMapping lit) d "site_mapping"

/-- A Python exception as an outcome of the command. -/
def ofPy {α : Type} : Py α → Except CliErr α
  | .ok x => .ok x
  | .error e => .error (.py e)

/-- Reading the configuration file inside the `try`, `run_kmc.py:170-182`: `content` is the parsed file, and the
name of the simulation is read from the runtime section.  Every exception becomes a `ValueError`. -/
def loadInput (content : Py PyVal) : Except CliErr Configuration :=
  match content with
  | .error _ => .error (.py .valueError)
  | .ok raw =>
    match Configuration.fromFile raw none none with
    | .error _ => .error (.py .valueError)
    | .ok c =>
      match c.runtime with
      | .cfg _ => .ok c
      | .other _ => .error (.py .valueError)

/-- The configuration `run_kmc` uses, `run_kmc.py:165-194`.  Simplification: a value of `--input` that is no text
cannot be opened. -/
def Args.configuration (lit : String → Py PyVal) (str : PyVal → String) (files : String → Py PyVal)
    (a : Args) : Except CliErr Configuration :=
  if ModelChoice.truthy a.input then
    match a.input with
    | .str path => loadInput (files path)
    | _ => .error (.py .valueError)
  else
    match a.inputDict lit str with
    | .error e => .error e
    | .ok d => ofPy (Configuration.init none none d)

section
variable {φ M R T U K V Row : Type}

/-- `run_kmc`, `run_kmc.py:148-208`. -/
def runKmc [DecidableEq φ] [Add T] [Zero T] [Sub T] [LE T] [DecidableLE T] [Field K] [LinearOrder K]
    [FloorRing K] (k : Kernel R T U) (w : World φ M R T K V)
    (summary : Trajectory K → T → List (String × Bool) → Row) (rng : Nat → U × U)
    (lit : String → Py PyVal) (str : PyVal → String) (files : String → Py PyVal) (a : Args) :
    Except CliErr (RunResult String φ M R T K V Row) :=
  match a.configuration lit str files with
  | .error e => .error e
  | .ok c => ofPy (apiRun k w summary rng (.configuration c))

end

/-! ### The graphical command -/

/-- The values of the `KMCSimulation` form, `gui_wrapper.py:150-199`. -/
structure Form where
  workDir : PyVal
  fittingResults : PyVal
  fittingResultsSite : PyVal
  lce : PyVal
  lceSite : PyVal
  prim : PyVal
  event : PyVal
  initialState : PyVal
  /-- the text of `site_mapping` -/
  mapping : String
  /-- the text of `supercell_shape` -/
  shape : String
  /-- the choice of `convert_to_primitive_cell` -/
  primitive : String
  frequency : PyVal
  passes : PyVal
  temperature : PyVal
  charge : PyVal
  hop : PyVal
  dimension : PyVal
  seed : PyVal
  structureIdx : PyVal
  comp : PyVal
  equilibration : PyVal

/-- `[int(scale) for scale in args.supercell_shape.split(",")]`, `gui_wrapper.py:278`. -/
def formShape : List (List Char) → Py (List Int)
  | [] => .ok []
  | p :: ps =>
    match parseInt (String.ofList p) with
    | none => .error .valueError
    | some n =>
      match formShape ps with
      | .error e => .error e
      | .ok ns => .ok (n :: ns)

/-- `vars(args)` after the conversions, `gui_wrapper.py:204-207` and `278-279`. -/
def Form.vars (f : Form) (shape : List Int) (mapping : PyVal) : Fields :=
  [("command", .str "KMCSimulation"), ("work_dir", f.workDir), ("fitting_results", f.fittingResults),
   ("fitting_results_site", f.fittingResultsSite), ("lce_fname", f.lce), ("lce_site_fname", f.lceSite),
   ("prim_fname", f.prim), ("event_fname", f.event), ("initial_state", f.initialState),
   ("site_mapping", mapping), ("supercell_shape", .list (shape.map .int)),
   ("convert_to_primitive_cell", .bool (f.primitive == "yes")), ("attempt_frequency", f.frequency),
   ("kmc_pass", f.passes), ("T", f.temperature), ("q", f.charge), ("elem_hop_distance", f.hop),
   ("dimension", f.dimension), ("random_seed", f.seed), ("structure_idx", f.structureIdx), ("comp", f.comp),
   ("equilibriation_pass", f.equilibration)]

/-- `legacy_mapping`, `gui_wrapper.py:284-294`. -/
def legacyNames : List (String × String) :=
  [("lce_fname", "model_file"), ("prim_fname", "structure_file"), ("event_fname", "event_file"),
   ("initial_state", "initial_state_file"), ("kmc_pass", "kmc_passes"), ("T", "temperature"),
   ("q", "mobile_ion_charge"), ("elem_hop_distance", "elementary_hop_distance"),
   ("equilibriation_pass", "equilibration_passes")]

/-- `valid_config_keys`, `gui_wrapper.py:295-315`. -/
def validKeys : List String :=
  ["structure_file", "supercell_shape", "dimension", "mobile_ion_specie", "mobile_ion_charge",
   "elementary_hop_distance", "model_type", "model_file", "event_file", "site_mapping",
   "convert_to_primitive_cell", "initial_state_file", "initial_occupations", "temperature",
   "attempt_frequency", "equilibration_passes", "kmc_passes", "random_seed", "name"]

/-- Loop `gui_wrapper.py:318-321`. -/
def configParams : Fields → Fields → Fields
  | [], acc => acc
  | (k, v) :: rest, acc =>
    let m := (dictGet legacyNames k).getD k
    configParams rest (if m ∈ validKeys ∧ !v.isNone then dictSet acc m v else acc)

/-- The configuration of the `KMCSimulation` form, `gui_wrapper.py:276-323`; `lit` is `ast.literal_eval`. -/
def Form.configuration (lit : String → Py PyVal) (f : Form) : Py Configuration :=
  match formShape (splitCommas f.shape.toList) with
  | .error e => .error e
  | .ok shape =>
    match lit f.mapping with
    | .error e => .error e
    | .ok mapping => Configuration.init none none (configParams (f.vars shape mapping) [])

/-! ### The template -/

/-- The value of the YAML text of `build_template`, `init.py:13-107`. -/
def templateData : PyVal :=
  .dict [("kmc", .dict [("type", .str "default"), ("default", .dict
    [("structure_file", .str "path/to/structure.cif"), ("event_file", .str "path/to/event.json"),
     ("model_file", .str "path/to/model.json"), ("initial_state_file", .none), ("initial_occupations", .none),
     ("supercell_shape", .list [.int 1, .int 1, .int 1]), ("dimension", .int 3),
     ("mobile_ion_specie", .str "Li"), ("mobile_ion_charge", .float (.fin 1)),
     ("elementary_hop_distance", .float (.fin 1)), ("model_type", .str "composite_lce"),
     ("site_mapping", .dict [("Li", .list [.str "Li", .str "X"])]), ("convert_to_primitive_cell", .bool false),
     ("temperature", .float (.fin 300)), ("attempt_frequency", .float (.fin 10000000000000)),
     ("equilibration_passes", .int 1000), ("kmc_passes", .int 10000), ("random_seed", .none),
     ("name", .str "DefaultSimulation"), ("property_sampling_interval", .none),
     ("property_sampling_time_interval", .none), ("builtin_property_enabled", .dict []),
     ("property_callbacks", .list [])])])]

/-- An entry of a directory tree. -/
inductive Node where
  | file (text : String)
  | dir
  deriving DecidableEq

/-- A directory tree; paths are lists of names starting at the root. -/
abbrev Tree := List String → Option Node

/-- Set one entry. -/
def Tree.set (t : Tree) (p : List String) (n : Node) : Tree := fun q => if q = p then some n else t q

/-- `path.mkdir(parents=True, exist_ok=True)`: make the directories at the given paths, outermost first.
`NotADirectoryError` and `FileExistsError` are both written `fileExistsError`. -/
def mkdirs : Tree → List (List String) → Py Unit × Tree
  | t, [] => (.ok (), t)
  | t, p :: ps =>
    match t p with
    | some .dir => mkdirs t ps
    | some (.file _) => (.error .fileExistsError, t)
    | none => mkdirs (t.set p .dir) ps

/-- `write_template`, `init.py:110-122`, on the path `parent / name` with the text of the template.  Writing to a
directory is an `OSError`.  Not modelled: missing permissions and full disks. -/
def writeTemplate (text : String) (t : Tree) (parent : List String) (name : String) (force : Bool) :
    Py (List String) × Tree :=
  match mkdirs t parent.inits with
  | (.error e, t') => (.error e, t')
  | (.ok _, t') =>
    let path := parent ++ [name]
    if (t' path).isSome && !force then (.error .fileExistsError, t')
    else
      match t' path with
      | some .dir => (.error .osError, t')
      | _ => (.ok path, t'.set path (.file text))

end Cli
end KMC
