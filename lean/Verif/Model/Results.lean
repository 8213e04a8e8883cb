import Verif.Model.KMC
import Verif.Model.Transport
import Verif.Model.LocalBarrier
/-
Model of the result files: `kmcpy/simulator/results.py:48-166`, with `tracker.py:35-70,527-538`.

A file is its name and what was written into it; numbers, tables and JSON values are taken to be read
back as they were written (`np.savetxt`, `DataFrame.to_csv`, `json.dump` and gzip are trusted).
-/
namespace KMC
namespace Results
variable {O K C T Row : Type}

/-- A key of a dictionary returned by a callback; `other` has only its text. -/
inductive Key where
  | str (s : String)
  | int (n : Int)
  | other (shown : String)
  deriving DecidableEq

/-- `str(key)`. -/
def Key.text : Key → String
  | .str s => s
  | .int n => intStr n
  | .other s => s

/-- A value returned by a callback; `other` stands for everything that is not one of the types named in
`results.py:154-161`. -/
inductive Val (O : Type) where
  | none
  | bool (b : Bool)
  | int (n : Int)
  | float (f : PyFloat)
  | str (s : String)
  | list (l : List (Val O))
  | tuple (l : List (Val O))
  | dict (d : List (Key × Val O))
  | other (o : O)

/-- What monty's `jsanitize` makes of an object (`none` when it raises `TypeError`), and `repr`. -/
structure Sanitizer (O : Type) where
  sanitize : O → Option PyVal
  repr : O → String

mutual
/-- `_to_json_safe`, `results.py:152-166`. -/
def toJsonSafe (z : Sanitizer O) : Val O → PyVal
  | .none => .none
  | .bool b => .bool b
  | .int n => .int n
  | .float f => .float f
  | .str s => .str s
  | .dict d => .dict (safeDict z d [])
  | .list l => .list (safeList z l)
  | .tuple l => .list (safeList z l)
  | .other o =>
    match z.sanitize o with
    | some v => v
    | Option.none => .str (z.repr o)
/-- The list of `results.py:161`. -/
def safeList (z : Sanitizer O) : List (Val O) → List PyVal
  | [] => []
  | v :: vs => toJsonSafe z v :: safeList z vs
/-- The dictionary of `results.py:158`. -/
def safeDict (z : Sanitizer O) : List (Key × Val O) → List (String × PyVal) → List (String × PyVal)
  | [], acc => acc
  | (k, v) :: d, acc => safeDict z d (dictSet acc k.text (toJsonSafe z v))
end

/-- One entry of the properties file, `results.py:142-147`. -/
structure Stored (T : Type) where
  name : String
  step : Int
  time : T
  value : PyVal

/-- The inner loop of `_stored_property_payload`, `results.py:140-148`. -/
def storedRecords (z : Sanitizer O) (l : List (PropertyRecord T (Val O))) : List (Stored T) :=
  l.map fun r => ⟨r.name, r.step, r.time, toJsonSafe z r.value⟩

/-- `_stored_property_payload`, `results.py:134-149`. -/
def storedPayload (z : Sanitizer O) : List (String × List (PropertyRecord T (Val O))) → List (Stored T)
  | [] => []
  | (_, l) :: rest => storedRecords z l ++ storedPayload z rest

/-- The built-in values of one summary. -/
structure Metrics (C : Type) where
  jump : C
  tracer : C
  conductivity : C
  correlation : C
  havens : C
  msd : C

/-- `RESULT_FIELDS`, `tracker.py:35-43`. -/
def resultFields : List String :=
  ["time", "jump_diffusivity", "tracer_diffusivity", "conductivity", "correlation_factor",
   "havens_ratio", "msd"]

/-- `RESULT_UNITS`, `tracker.py:45-48`, with `BUILTIN_PROPERTY_UNITS`, `property.py:111-118`. -/
def resultUnits : List (String × String) :=
  [("time", "s"), ("msd", "Angstrom^2"), ("jump_diffusivity", "cm^2/s"),
   ("tracer_diffusivity", "cm^2/s"), ("conductivity", "mS/cm"), ("havens_ratio", "dimensionless"),
   ("correlation_factor", "dimensionless")]

/-- `_create_result_store`, `tracker.py:56-58`. -/
def emptyStore : List (String × List C) := resultFields.map fun f => (f, [])

/-- `store[field].append(value)`. -/
def appendTo (store : List (String × List C)) (field : String) (v : C) : List (String × List C) :=
  match dictGet store field with
  | none => store
  | some l => dictSet store field (l ++ [v])

/-- `_append_result_row`, `tracker.py:62-70`. -/
def appendRow (store : List (String × List C)) (time : C) (m : Metrics C) : List (String × List C) :=
  let s1 := appendTo store "time" time
  let s2 := appendTo s1 "jump_diffusivity" m.jump
  let s3 := appendTo s2 "tracer_diffusivity" m.tracer
  let s4 := appendTo s3 "conductivity" m.conductivity
  let s5 := appendTo s4 "correlation_factor" m.correlation
  let s6 := appendTo s5 "havens_ratio" m.havens
  appendTo s6 "msd" m.msd

/-- The column store after the sampled summaries, in the order of sampling. -/
def storeOf (rows : List (C × Metrics C)) : List (String × List C) :=
  rows.foldl (fun s r => appendRow s r.1 r.2) emptyStore

/-- Line `i` of the table. -/
def line (i : Nat) (cols : List (List C)) : List C := cols.filterMap fun c => c[i]?

/-- `pd.DataFrame(results)`, `results.py:117`: header and lines; columns of different lengths raise
`ValueError`. -/
def dataFrame (store : List (String × List C)) : Py (List String × List (List C)) :=
  match store with
  | [] => .ok ([], [])
  | (_, c) :: _ =>
    if store.all fun p => p.2.length == c.length then
      .ok (dictKeys store, (List.range c.length).map fun i => line i (store.map Prod.snd))
    else .error .valueError

/-- What a result file holds. -/
inductive Content (K C T : Type) where
  | vectors (l : List (Vec3 K))
  | counts (l : List Nat)
  | occupations (l : List Int)
  | table (header : List String) (lines : List (List C))
  | units (d : List (String × String))
  | records (l : List (Stored T))

/-- Named files. -/
abbrev Files (K C T : Type) := List (String × Content K C T)

/-- `f"{label}_{current_pass}" if label else str(current_pass)`, `results.py:60-62`; no label and the
empty label are the same. -/
def prefixOf (label : String) (pass : Nat) : String :=
  if label = "" then intStr pass else label ++ "_" ++ intStr pass

/-- `f"_{label}" if label else ""`, `results.py:70`. -/
def suffixOf (label : String) : String := if label = "" then "" else "_" ++ label

/-- `displacement_*.csv.gz`, `results.py:92`. -/
def displacementName (label : String) (pass : Nat) : String :=
  "displacement_" ++ prefixOf label pass ++ ".csv.gz"

/-- `hop_counter_*.csv.gz`, `results.py:97`. -/
def hopCounterName (label : String) (pass : Nat) : String :=
  "hop_counter_" ++ prefixOf label pass ++ ".csv.gz"

/-- `current_occ_*.csv.gz`, `results.py:102`. -/
def occupationsName (label : String) (pass : Nat) : String :=
  "current_occ_" ++ prefixOf label pass ++ ".csv.gz"

/-- `results*.csv.gz`, `results.py:72`. -/
def resultsName (label : String) : String := "results" ++ suffixOf label ++ ".csv.gz"

/-- `results_units*.json.gz`, `results.py:73`. -/
def unitsName (label : String) : String := "results_units" ++ suffixOf label ++ ".json.gz"

/-- `properties*.json.gz`, `results.py:78`. -/
def propertiesName (label : String) : String := "properties" ++ suffixOf label ++ ".json.gz"

/-- What `write_tracker_results` is given. -/
structure Outcome (O K C T : Type) where
  pass : Nat
  displacement : List (Vec3 K)
  hopCounter : List Nat
  occupations : List Int
  rows : List (C × Metrics C)
  records : List (String × List (PropertyRecord T (Val O)))

/-- The writes of `_write_property_records`, `results.py:119-131`: none without records. -/
def propertyWrites (z : Sanitizer O) (label : String) (r : Outcome O K C T) : Files K C T :=
  match storedPayload z r.records with
  | [] => []
  | l => [(propertiesName label, .records l)]

/-- The writes of `write_tracker_results`, `results.py:48-80`, in order. -/
def writes (z : Sanitizer O) (label : String) (r : Outcome O K C T) : Py (Files K C T) :=
  match dataFrame (storeOf r.rows) with
  | .error e => .error e
  | .ok (header, lines) =>
    .ok ([(displacementName label r.pass, .vectors r.displacement),
      (hopCounterName label r.pass, .counts r.hopCounter),
      (occupationsName label r.pass, .occupations r.occupations),
      (resultsName label, .table header lines),
      (unitsName label, .units resultUnits)] ++ propertyWrites z label r)

/-- Each write replaces the file of that name. -/
def writeAll (fs : Files K C T) : Files K C T → Files K C T
  | [] => fs
  | (n, c) :: ws => writeAll (dictSet fs n c) ws

/-- `write_tracker_results`.  (If `DataFrame` raised, the first three files would already be written;
it never does, see C82.) -/
def writeResults (z : Sanitizer O) (label : String) (r : Outcome O K C T) (fs : Files K C T) :
    Py (Files K C T) :=
  match writes z label r with
  | .error e => .error e
  | .ok ws => .ok (writeAll fs ws)

/-- `run`'s label: the argument, or else the configured name, `kmc.py:486-488`. -/
def runLabel (label : Option String) (name : String) : String := label.getD name

/-- What a finished run passes on, `tracker.py:527-538`; `cell` is a time as a table cell. -/
def outcomeOf {σ φ M R : Type} (cell : T → C) (metrics : Row → Metrics C)
    (rs : RunState σ φ M R T K (Val O) Row) : Outcome O K C T where
  pass := rs.currentPass
  displacement := rs.traj.displacement
  hopCounter := rs.traj.hopCounter
  occupations := rs.sim.st.occ
  rows := rs.sampler.results.map fun p => (cell p.1, metrics p.2)
  records := rs.sampler.records

end Results
end KMC
