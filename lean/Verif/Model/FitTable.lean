import Verif.Model.Fitter
/-
Model of the table of fitting results in `kmcpy/models/fitting/fitter.py` (`fit_results_fname`) and of
loading a fitter from it or from its own dictionary.  The table is a JSON object with one object per fit;
it is read and written by pandas.  What pandas does to the values of a column when reading and to a value
when writing (ten decimals, NaN as null) are parameters; JSON numbers are not divided into integers and
floats.  A file that is absent and one that is not JSON are treated alike by the code (`except Exception`),
and here both are `none`.  Writing is assumed not to fail.
-/
namespace KMC
namespace FitTable
open Parameters LocalBarrier

/-- What pandas does to values. -/
structure Pandas where
  /-- the JSON value written for a cell by `DataFrame.to_json` -/
  write : PyVal → PyVal
  /-- the cells of a column made by `pandas.read_json` from its JSON values -/
  read : List PyVal → List PyVal

/-- `required_columns`, `fitter.py:83-92`. -/
def requiredColumns : List String :=
  ["time_stamp", "time", "keci", "empty_cluster", "weight", "alpha", "rmse", "loocv"]

/-- `columns`, `fitter.py:93-97`. -/
def columns : List String :=
  requiredColumns ++ ["normalize", "orbit_fingerprints", "local_environment_hash"]

/-- `row`, `fitter.py:98-110`. -/
def row (p : Params) : List PyVal :=
  [p.timeStamp, p.time, p.keci, p.emptyCluster, p.weight, p.alpha, p.rmse, p.loocv, p.normalize,
   p.orbitFingerprints, p.localEnvironmentHash]

/-- A `DataFrame`: columns with their cells, and the number of rows. -/
structure Frame where
  cols : List (String × List PyVal)
  count : Nat

/-- The values of an object, if all are objects. -/
def objects : List (String × PyVal) → Option (List (List (String × PyVal)))
  | [] => some []
  | (_, .dict r) :: rest => (objects rest).map (r :: ·)
  | _ :: _ => none

/-- The columns of a table: the keys of its records, in order of appearance. -/
def unionKeys : List (List (String × PyVal)) → List String → List String
  | [], acc => acc
  | r :: rs, acc => unionKeys rs (acc ++ (dictKeys r).filter fun k => !acc.contains k)

/-- `pd.read_json(fit_results_fname, orient="index")`, `fitter.py:113`.  Tables with other values than
objects have no column with a required name, or are refused; both are `none`. -/
def readJson (pd : Pandas) : Option PyVal → Option Frame
  | some (.dict d) =>
    match objects d with
    | none => none
    | some recs =>
      some ⟨(unionKeys recs []).map fun c => (c, pd.read (recs.map fun r => (dictGet r c).getD .none)),
        recs.length⟩
  | _ => none

/-- `if name not in df.columns: df[name] = value`, `fitter.py:116-121`. -/
def Frame.ensure (df : Frame) (name : String) (v : PyVal) : Frame :=
  if (dictKeys df.cols).contains name then df
  else ⟨df.cols ++ [(name, List.replicate df.count v)], df.count⟩

/-- `pd.concat([df[columns], new_data], ignore_index=True)`, `fitter.py:122-123`. -/
def Frame.concat (df : Frame) (r : List PyVal) : Frame :=
  ⟨(columns.zip r).map fun cv => (cv.1, (dictGet df.cols cv.1).getD [] ++ [cv.2]), df.count + 1⟩

/-- `to_json(fit_results_fname, orient="index")` of a frame numbered from zero, `fitter.py:124`. -/
def Frame.toJson (pd : Pandas) (df : Frame) : PyVal :=
  .dict ((List.range df.count).map fun i : Nat =>
    (intStr (i : Int), .dict (df.cols.map fun c => (c.1, pd.write (c.2[i]?.getD .none)))))

/-- The frame of one row, `fitter.py:131`. -/
def single (r : List PyVal) : Frame := ⟨(columns.zip r).map fun cv => (cv.1, [cv.2]), 1⟩

/-- `_save_fit_results_history`, `fitter.py:78-133`: the file afterwards. -/
def save (pd : Pandas) (file : Option PyVal) (p : Params) : PyVal :=
  match readJson pd file with
  | none => (single (row p)).toJson pd
  | some df =>
    if requiredColumns.any fun c => !(dictKeys df.cols).contains c then (single (row p)).toJson pd
    else
      ((((df.ensure "normalize" (.bool true)).ensure "orbit_fingerprints" .none).ensure
        "local_environment_hash" .none).concat (row p)).toJson pd

/-- Several fits with the same file. -/
def saveAll (pd : Pandas) : Option PyVal → List Params → Option PyVal
  | file, [] => file
  | file, p :: ps => saveAll pd (some (save pd file p)) ps

/-- The loop `fitter.py:64-71`: the records with a number as key. -/
def numbered : List (String × PyVal) → List (Int × List (String × PyVal))
  | [] => []
  | (k, .dict r) :: rest =>
    match parseInt k with
    | some n => (n, r) :: numbered rest
    | none => numbered rest
  | _ :: rest => numbered rest

/-- `max(numeric_records, key=…)`: the first record with the largest number. -/
def maxRecord : List (Int × List (String × PyVal)) → Option (Int × List (String × PyVal))
  | [] => none
  | a :: rest =>
    match maxRecord rest with
    | none => some a
    | some b => if b.1 ≤ a.1 then some a else some b

/-- `_extract_serialized_record`, `fitter.py:57-75`. -/
def extractRecord (payload : List (String × PyVal)) : Py (List (String × PyVal)) :=
  if (dictGet payload "keci").isSome then .ok payload
  else
    match maxRecord (numbered payload) with
    | some r => .ok r.2
    | none => .error .valueError

/-- `LCEFitter.as_dict`, `fitter.py:135-153`. -/
def fitterDict (p : Params) : List (String × PyVal) :=
  [("@module", .str "kmcpy.models.fitting.fitter"), ("@class", .str "LCEFitter"),
   ("time_stamp", p.timeStamp), ("time", p.time), ("weight", p.weight), ("alpha", p.alpha),
   ("keci", p.keci), ("empty_cluster", p.emptyCluster), ("rmse", p.rmse), ("loocv", p.loocv),
   ("normalize", p.normalize)] ++
  unlessNone "orbit_fingerprints" p.orbitFingerprints ++
  unlessNone "local_environment_hash" p.localEnvironmentHash

/-- `LCEFitter.from_dict`, `fitter.py:159-166`: the parameters of the new fitter. -/
def fitterFromDict : PyVal → Py Params
  | .dict payload =>
    match extractRecord payload with
    | .error e => .error e
    | .ok r => Parameters.fromDict (.dict r)
  | _ => .error .valueError

/-- `LCEFitter.to` followed by `LCEFitter.from_file`, `fitter.py:155-157` and `169-171`. -/
def fitterReload (p : Params) : Py Params := fitterFromDict (PyVal.json (.dict (fitterDict p)))

end FitTable
end KMC
