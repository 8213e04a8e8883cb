import Verif.Model.LocalBarrier
/-
Model of how a configuration is turned into a model object: `kmcpy/models/base.py:18-42,113-186`,
`kmcpy/io/registry.py`, and `LocalBarrierModel.from_file`.

Python's import system is a parameter: what importing a module gives or raises, which attribute of the
module is found, and what the class's `from_file` makes of a file.
-/
namespace KMC
namespace ModelChoice
variable {Mod Cls M : Type}

/-- The import system and the classes found by it. -/
structure Imports (Mod Cls M : Type) where
  /-- `importlib.import_module(path)` -/
  module : PyVal → Py Mod
  /-- `getattr(module, name)` -/
  classOf : Mod → PyVal → Py Cls
  /-- the class's `from_file`, `none` if there is none that can be called -/
  fromFile : Cls → Option (String → Py M)

/-- `MODEL_FILETYPE`, `base.py:18`. -/
def fileType : String := "kmcpy.model_file"

/-- `MODEL_CLASS_REGISTRY`, `io/registry.py:4-10`; each path split at its last dot. -/
def registry : List (String × (String × String)) :=
  [("composite_lce", ("kmcpy.models.composite_lce_model", "CompositeLCEModel")),
   ("lce", ("kmcpy.models.local_cluster_expansion", "LocalClusterExpansion")),
   ("local_cluster_expansion", ("kmcpy.models.local_cluster_expansion", "LocalClusterExpansion")),
   ("local_barrier", ("kmcpy.models.local_barrier_model", "LocalBarrierModel")),
   ("site_energy", ("kmcpy.models.site_energy", "SiteEnergyModel"))]

/-- `x in {text, ...}` and `x in dict` need a hashable `x`. -/
def hashable : PyVal → Bool
  | .list _ => false
  | .dict _ => false
  | _ => true

/-- `require_model_file_payload`, `base.py:22-33`, of a dictionary. -/
def requireFileType (d : List (String × PyVal)) : Py Unit :=
  match dictGet d "filetype" with
  | some (.str s) => if s = fileType then .ok () else .error .valueError
  | some v => if hashable v then .error .valueError else .error .typeError
  | none => .error .valueError

/-- `require_model_type`, `base.py:36-42`. -/
def requireModelType (d : List (String × PyVal)) (modelType : String) : Py Unit :=
  match requireFileType d with
  | .error e => .error e
  | .ok _ =>
    match dictGet d "model_type" with
    | some (.str s) => if s = modelType then .ok () else .error .valueError
    | _ => .error .valueError

/-- `importlib.import_module(path)` followed by `getattr(module, name)`. -/
def importClass (imp : Imports Mod Cls M) (path name : PyVal) : Py Cls :=
  match imp.module path with
  | .error e => .error e
  | .ok m => imp.classOf m name

/-- The registered path whose last part is the class name, `base.py:147-154`. -/
def registeredPath (name : PyVal) : Option (String × String) :=
  match name with
  | .str s => (registry.map Prod.snd).find? fun p => p.2 == s
  | _ => none

/-- The `except (ImportError, AttributeError)` clause of `base.py:146-162`. -/
def registeredClass (imp : Imports Mod Cls M) (name : PyVal) : Py Cls :=
  match registeredPath name with
  | none => .error .valueError
  | some p => importClass imp (.str p.1) (.str p.2)

/-- The class recorded in a file, `base.py:143-162`. -/
def recordedClass (imp : Imports Mod Cls M) (path name : PyVal) : Py Cls :=
  match importClass imp path name with
  | .error .importError => registeredClass imp name
  | .error .attributeError => registeredClass imp name
  | r => r

/-- `base.py:163-168`. -/
def loadRecorded (imp : Imports Mod Cls M) (file : String) (path name : PyVal) : Py M :=
  match recordedClass imp path name with
  | .error e => .error e
  | .ok c =>
    match imp.fromFile c with
    | none => .error .valueError
    | some load => load file

/-- `model_class.from_config(config)` of a class other than `BaseModel`, `base.py:122-123`. -/
def classFromConfig (imp : Imports Mod Cls M) (c : Cls) (file : String) : Py M :=
  match imp.fromFile c with
  | none => .error .attributeError
  | some load => load file

/-- `base.py:173-186`, for a model type. -/
def loadRegistered (imp : Imports Mod Cls M) (file modelType : String) : Py M :=
  match dictGet registry modelType with
  | none => .error .valueError
  | some p =>
    match importClass imp (.str p.1) (.str p.2) with
    | .error .importError => .error .valueError
    | .error .attributeError => .error .valueError
    | .error e => .error e
    | .ok c => classFromConfig imp c file

/-- `bool(v)`. -/
def truthy : PyVal → Bool
  | .none => false
  | .bool b => b
  | .int n => decide (n ≠ 0)
  | .float (.fin q) => decide (q ≠ 0)
  | .float _ => true
  | .str s => decide (s ≠ "")
  | .list l => !l.isEmpty
  | .tuple l => !l.isEmpty
  | .dict d => !d.isEmpty

/-- `base.py:170-186`, when the file does not say what it holds. -/
def loadConfigured (imp : Imports Mod Cls M) (file : String) (modelType : PyVal) : Py M :=
  if truthy modelType then
    match modelType with
    | .str s => loadRegistered imp file s
    | v => if hashable v then .error .valueError else .error .typeError
  else loadRegistered imp file "composite_lce"

/-- The model type in an envelope, `base.py:131-136`. -/
def declaredType (d : List (String × PyVal)) : Py String :=
  match requireFileType d with
  | .error e => .error e
  | .ok _ =>
    match dictGet d "model_type" with
    | some (.str s) => if pyStrip s = "" then .error .valueError else .ok s
    | _ => .error .valueError

/-- `BaseModel.from_config(config)`, `base.py:113-186`: `file` and `modelType` are the configuration's
`model_file` (a text) and `model_type`, `read` is `loadfn(..., cls=None)`. -/
def fromConfig (imp : Imports Mod Cls M) (read : String → Py PyVal) (file : String) (modelType : PyVal) :
    Py M :=
  if file = "" then loadConfigured imp file modelType
  else
    match read file with
    | .error e => .error e
    | .ok (.dict d) =>
      if (dictGet d "filetype").isSome then
        match declaredType d with
        | .error e => .error e
        | .ok t => loadRegistered imp file t
      else
        match dictGet d "@module", dictGet d "@class" with
        | some path, some name => loadRecorded imp file path name
        | _, _ => loadConfigured imp file modelType
    | .ok _ => loadConfigured imp file modelType

/-- `LocalBarrierModel.from_file`, `local_barrier_model.py:1083-1095`, of the content of the file. -/
def barrierFromFile (content : PyVal) : Py LocalBarrierModel :=
  match content with
  | .dict d =>
    if (dictGet d "filetype").isSome then
      match requireModelType d "local_barrier" with
      | .error e => .error e
      | .ok _ =>
        match dictGet d "local_barrier" with
        | some (.dict p) => LocalBarrierModel.fromDict (.dict p)
        | _ => .error .valueError
    else LocalBarrierModel.fromDict (.dict d)
  | v => LocalBarrierModel.fromDict v

end ModelChoice
end KMC
