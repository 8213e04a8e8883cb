import Mathlib.Data.String.Basic
import Verif.Model.Value
import Verif.Model.Checkpoint
import Verif.Model.LocalBarrier
/-
Model of `kmcpy/models/parameters.py`: fitted parameters and their history.  The dataclass does not
check its fields, so they are arbitrary Python values.  YAML is treated like JSON.  Storing a value
in an HDF5 dataset and reading it back is a parameter (`store`), because it is h5py's business.
-/
namespace KMC
namespace Parameters

/-- `LCEModelParameters`, `parameters.py:13-30`. -/
structure Params where
  keci : PyVal
  emptyCluster : PyVal
  clusterSiteIndices : PyVal
  weight : PyVal
  alpha : PyVal
  timeStamp : PyVal
  time : PyVal
  rmse : PyVal
  loocv : PyVal
  normalize : PyVal
  orbitFingerprints : PyVal
  localEnvironmentHash : PyVal
  localSiteOrder : PyVal
  name : String

/-- The default of `name`, `parameters.py:30`. -/
def defaultName : String := "LCEModelParameters"

/-- `if value is not None: data[key] = value`. -/
def unlessNone (k : String) (v : PyVal) : List (String × PyVal) :=
  if v.isNone then [] else [(k, v)]

/-- `as_dict`, `parameters.py:32-52`. -/
def Params.asDict (p : Params) : List (String × PyVal) :=
  [("@module", .str "kmcpy.models.parameters"), ("@class", .str "LCEModelParameters"),
   ("keci", p.keci), ("empty_cluster", p.emptyCluster),
   ("cluster_site_indices", p.clusterSiteIndices), ("weight", p.weight), ("alpha", p.alpha),
   ("time_stamp", p.timeStamp), ("time", p.time), ("rmse", p.rmse), ("loocv", p.loocv),
   ("normalize", p.normalize)] ++
  unlessNone "orbit_fingerprints" p.orbitFingerprints ++
  unlessNone "local_environment_hash" p.localEnvironmentHash

/-- `not key.startswith("@") and key != "name"`, `parameters.py:59-63`. -/
def keptKey (k : String) : Bool := !(k.toList.head? == some '@') && !(k == "name")

/-- `from_dict`, `parameters.py:54-78`. -/
def fromDict : PyVal → Py Params
  | .dict data =>
    let payload := data.filter fun kv => keptKey kv.1
    let get := fun k (d : PyVal) => (dictGet payload k).getD d
    .ok { keci := get "keci" (.list [])
          emptyCluster := get "empty_cluster" (.float (.fin 0))
          clusterSiteIndices := get "cluster_site_indices" (.list [])
          weight := get "weight" (.list [])
          alpha := get "alpha" (.float (.fin 0))
          timeStamp := get "time_stamp" (.str "")
          time := get "time" (.str "")
          rmse := get "rmse" (.float (.fin 0))
          loocv := get "loocv" (.float (.fin 0))
          normalize := get "normalize" (.bool true)
          orbitFingerprints := get "orbit_fingerprints" .none
          localEnvironmentHash := get "local_environment_hash" .none
          localSiteOrder := get "local_site_order" .none
          name := defaultName }
  | _ => .error .valueError

/-- The comprehension `parameters.py:136`. -/
def fromDicts : List PyVal → Py (List Params)
  | [] => .ok []
  | v :: vs =>
    match fromDict v with
    | .error e => .error e
    | .ok p =>
      match fromDicts vs with
      | .error e => .error e
      | .ok ps => .ok (p :: ps)

/-- `LCEModelParamHistory.as_dict`, `parameters.py:114-120`. -/
def historyAsDict (h : List Params) : PyVal :=
  .dict [("@module", .str "kmcpy.models.parameters"), ("@class", .str "LCEModelParamHistory"),
    ("history", .list (h.map fun p => .dict p.asDict))]

/-- `LCEModelParamHistory.from_dict`, `parameters.py:122-136`. -/
def historyFromDict : PyVal → Py (List Params)
  | .list records => fromDicts records
  | .dict data =>
    match ((dictGet data "history").getD (.list [])).toList with
    | .error e => .error e
    | .ok records => fromDicts records
  | _ => .error .valueError

/-- `Path(filename).suffix`. -/
def pathSuffix (path : String) : List Char :=
  let n := revName path
  let ext := n.takeWhile fun c => c ≠ '.'
  match n.dropWhile fun c => c ≠ '.' with
  | [] => []
  | _ :: before => if before = [] ∨ ext = [] then [] else '.' :: ext.reverse

/-- `filename.suffix == ".h5"`. -/
def isH5 (path : String) : Bool := pathSuffix path = ".h5".toList

/-- What is on disk under a path: a text file with one JSON value, an HDF5 file with the datasets
of one record, or an HDF5 file with one group per record. -/
inductive Disk where
  | absent
  | text (v : PyVal)
  | datasets (d : List (String × PyVal))
  | groups (g : List (String × List (String × PyVal)))

/-- `_write_hdf5_group`, `parameters.py:192-196`, followed by reading the datasets back
(`_read_hdf5_group`, `parameters.py:179-180`): the outcome and the datasets in the group, which
after a failure are those written before it.  `β` are the values read back. -/
def storeGroup {β : Type} (store : PyVal → Py β) : List (String × PyVal) → Py Unit × List (String × β)
  | [] => (.ok (), [])
  | (k, v) :: rest =>
    if k.toList.head? == some '@' || v.isNone then storeGroup store rest
    else
      match store v with
      | .error e => (.error e, [])
      | .ok w => ((storeGroup store rest).1, (k, w) :: (storeGroup store rest).2)

/-- `LCEModelParameters.to`, `parameters.py:88-94`: the outcome and what is left on disk.  The `with`
block (`parameters.py:188-189`) closes the file after a failure too. -/
def Params.to (store : PyVal → Py PyVal) (path : String) (p : Params) : Py Unit × Disk :=
  if isH5 path then ((storeGroup store p.asDict).1, .datasets (storeGroup store p.asDict).2)
  else (.ok (), .text (PyVal.json (.dict p.asDict)))

/-- `LCEModelParameters.from_file`, `parameters.py:80-86`. -/
def fromFile (path : String) (disk : Disk) : Py Params :=
  if isH5 path then
    match disk with
    | .datasets d => fromDict (.dict d)
    | .groups [] => fromDict (.dict [])
    | .groups _ => .error .typeError
    | _ => .error .osError
  else
    match disk with
    | .text v => fromDict v
    | .absent => .error .osError
    | _ => .error .valueError

/-- `f"parameter_set_{index}"`, `parameters.py:164`. -/
def groupName (i : Nat) : String := "parameter_set_" ++ intStr (i : Int)

/-- Loop `parameters.py:163-165` from index `i` on: the outcome and the groups in the file. -/
def storeGroups (store : PyVal → Py PyVal) :
    Nat → List Params → Py Unit × List (String × List (String × PyVal))
  | _, [] => (.ok (), [])
  | i, p :: ps =>
    match storeGroup store p.asDict with
    | (.error e, d) => (.error e, [(groupName i, d)])
    | (.ok (), d) => ((storeGroups store (i + 1) ps).1, (groupName i, d) :: (storeGroups store (i + 1) ps).2)

/-- `LCEModelParamHistory.to`, `parameters.py:154-167`; the `with` block closes the file after a
failure too. -/
def historyTo (store : PyVal → Py PyVal) (path : String) (h : List Params) : Py Unit × Disk :=
  if isH5 path then ((storeGroups store 0 h).1, .groups (storeGroups store 0 h).2)
  else (.ok (), .text (PyVal.json (historyAsDict h)))

/-- `sorted(h5file.keys())` with the group of every key, `parameters.py:149`. -/
def sortedGroups (g : List (String × List (String × PyVal))) : List (String × List (String × PyVal)) :=
  g.mergeSort fun a b => decide (a.1 ≤ b.1)

/-- `LCEModelParamHistory.from_file`, `parameters.py:138-152`. -/
def historyFromFile (path : String) (disk : Disk) : Py (List Params) :=
  if isH5 path then
    match disk with
    | .groups g => fromDicts ((sortedGroups g).map fun kd => .dict kd.2)
    | .datasets [] => .ok []
    | .datasets _ => .error .attributeError
    | _ => .error .osError
  else
    match disk with
    | .text v => historyFromDict v
    | .absent => .error .osError
    | _ => .error .valueError

/-- Updating the history after a fit, `fitter.py:383-403`: load if the file exists, append, save. -/
def appendHistory (store : PyVal → Py PyVal) (path : String) (disk : Disk) (p : Params) : Py Unit × Disk :=
  match disk with
  | .absent => historyTo store path [p]
  | disk =>
    match historyFromFile path disk with
    | .error e => (.error e, disk)
    | .ok h => historyTo store path (h ++ [p])

/-- Several fits one after the other. -/
def appendAll (store : PyVal → Py PyVal) (path : String) : Disk → List Params → Py Unit × Disk
  | disk, [] => (.ok (), disk)
  | disk, p :: ps =>
    match appendHistory store path disk p with
    | (.error e, d) => (.error e, d)
    | (.ok (), d) => appendAll store path d ps

end Parameters
end KMC
