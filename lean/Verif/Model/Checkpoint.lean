import Verif.Model.State
/-
Model of state files on disk: `save_checkpoint`, `load_checkpoint` and `from_file` of
`kmcpy/simulator/state.py`.
-/
namespace KMC

/-- What a state file can contain: a JSON object, other valid JSON, an HDF5 file with the three
datasets, or an incompletely written file. -/
inductive FileContent (T : Type) where
  | json (p : State.FilePayload T)
  | otherJson
  | h5 (d : State.Dict T)
  | torn
  deriving DecidableEq, Repr

/-- A file system as a map from paths to contents. -/
abbrev FileSystem (T : Type) := String → Option (FileContent T)

/-- Replace the content of one file. -/
def FileSystem.write {T : Type} (fs : FileSystem T) (path : String) (c : FileContent T) :
    FileSystem T := fun p => if p = path then some c else fs p

/-- `filepath.endswith(ext)`. -/
def endsWith (path ext : String) : Bool := ext.toList.isSuffixOf path.toList

/-- `Path(filepath).name`, reversed: the last component, ignoring trailing slashes. -/
def revName (path : String) : List Char :=
  (path.toList.reverse.dropWhile fun c => c = '/').takeWhile fun c => c ≠ '/'

/-- `Path(filepath).suffix.lower()`: from the last dot of the name, empty when that dot is the
first or the last character. -/
def suffixLower (path : String) : List Char :=
  let n := revName path
  let ext := n.takeWhile fun c => c ≠ '.'
  match n.dropWhile fun c => c ≠ '.' with
  | [] => []
  | _ :: before =>
    if before = [] ∨ ext = [] then [] else ('.' :: ext.reverse).map Char.toLower

namespace State
variable {T : Type}

/-- `save_checkpoint`, `state.py:184-205`: the successive contents of the disk while it runs.
The file is opened for writing (truncated) first and complete only when the call returns. -/
def saveSteps (fs : FileSystem T) (path : String) (s : State T) : Py (List (FileSystem T)) :=
  if endsWith path ".json" then .ok [fs.write path .torn, fs.write path (.json s.savePayload)]
  else if endsWith path ".h5" then .ok [fs.write path .torn, fs.write path (.h5 s.asDict)]
  else .error .valueError

/-- `save_checkpoint` running to completion. -/
def saveCheckpoint (fs : FileSystem T) (path : String) (s : State T) : Py (FileSystem T) :=
  match saveSteps fs path s with
  | .error e => .error e
  | .ok l => .ok (l.getLast?.getD fs)

/-- The HDF5 branch of `load_checkpoint`, `state.py:213-225`. -/
def loadH5 (fs : FileSystem T) (path : String) : Py (State T) :=
  match fs path with
  | some (.h5 d) => .ok (fromH5 d)
  | _ => .error .osError

/-- `from_file`, `state.py:105-145`.  For a suffix `.h5` it calls `load_checkpoint`, which then
takes its HDF5 branch when the path ends in lower-case `.h5` and raises otherwise (a path with
suffix `.h5` does not end in `.json`).  Unreadable JSON raises `JSONDecodeError`, a
`ValueError`. -/
def fromFile {σ φ : Type} (fs : FileSystem T) (path : String) (shape : Option (List Nat))
    (select : Option (List Int)) (o : Option (ActiveSiteOrder σ φ)) (time : T) (step : Int) :
    Py (State T) :=
  if suffixLower path = ".h5".toList then
    if endsWith path ".h5" then loadH5 fs path else .error .valueError
  else if suffixLower path ≠ ".json".toList then .error .valueError
  else
    match fs path with
    | none => .error .osError
    | some (.json p) => fromPayload o shape select time step p
    | some _ => .error .valueError

/-- `load_checkpoint`, `state.py:207-227`. -/
def loadCheckpoint [Zero T] (fs : FileSystem T) (path : String) : Py (State T) :=
  if endsWith path ".json" then
    fromFile (σ := Unit) (φ := Unit) fs path none none none 0 0
  else if endsWith path ".h5" then loadH5 fs path
  else .error .valueError

end State
end KMC
