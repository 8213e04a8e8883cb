import Verif.Model.Fitter
import Verif.Model.LCE
/-
From a fit to the model that uses it: `LocalClusterExpansion.fit` hands the model's provenance to the
fitter, the parameter file is read back and `load_parameters_from_file` sets the parameters.
-/
namespace KMC
namespace FitUse
open Parameters Fitter

/-- `orbit_fingerprints` as `LocalClusterExpansion.fit` finds it, `local_cluster_expansion.py:50-53`: built
models and models loaded with their orbits carry the list of `get_orbit_fingerprints`
(`local_cluster_expansion.py:112`, `265`); models without orbits and features have none. -/
def ownFingerprints (m : LCE ℝ) : PyVal :=
  match m.correlationFingerprints, m.orbitFingerprints with
  | none, none => .none
  | _, _ => .list (m.getOrbitFingerprints.map .str)

/-- `local_environment_hash`, `local_cluster_expansion.py:56-58`. -/
def ownHash (m : LCE ℝ) : PyVal :=
  match m.environmentHash with
  | none => .none
  | some h => .str h

/-- What the user may pass to `fit` besides the data; `none` is an argument that is not given. -/
structure FitArguments where
  alpha : ℝ
  normalize : Bool
  paramsPath : Option String
  historyPath : Option String
  orbitFingerprints : Option PyVal
  localEnvironmentHash : Option PyVal

/-- `LocalClusterExpansion.fit`, `local_cluster_expansion.py:48-60`: `kwargs.setdefault` keeps what the user
passed, even `None`; the fitter's defaults are `None` (`fitter.py:268-269`). -/
def fitOptions (m : LCE ℝ) (a : FitArguments) : FitOptions where
  alpha := a.alpha
  normalize := a.normalize
  paramsPath := a.paramsPath
  historyPath := a.historyPath
  orbitFingerprints := a.orbitFingerprints.getD (ownFingerprints m)
  localEnvironmentHash := a.localEnvironmentHash.getD (ownHash m)

/-- A value read from a parameter file: an ordinary value, or the list of byte strings that
`.tolist()` makes of an HDF5 dataset of texts (`_decode_hdf5_value`, `parameters.py:199-204`, decodes a
single text only).  Byte strings are given by their text. -/
inductive Value where
  | plain (v : PyVal)
  | byteStrings (l : List String)

/-- `str(b)` of a byte string without quotes, backslashes and characters outside ASCII, such as a
hexadecimal digest. -/
def strOfBytes (s : String) : String := "b'" ++ s ++ "'"

/-- How Python turns values into numbers and texts; `str` of a text is the text itself. -/
structure Reading where
  number : PyVal → Py ℝ
  text : PyVal → String

/-- `str(value)`. -/
def Reading.str (r : Reading) : PyVal → String
  | .str s => s
  | v => r.text v

/-- `[number(v) for v in values]`. -/
def Reading.numbers (r : Reading) : List PyVal → Py (List ℝ)
  | [] => .ok []
  | v :: vs =>
    match r.number v with
    | .error e => .error e
    | .ok x =>
      match r.numbers vs with
      | .error e => .error e
      | .ok xs => .ok (x :: xs)

/-- The fields of a loaded record that `set_parameters` uses. -/
structure Loaded where
  keci : Value
  emptyCluster : Value
  fingerprints : Value
  hash : Value

/-- `LCEModelParameters.from_dict`, `parameters.py:54-78`, on the datasets of an HDF5 file
(`_read_hdf5_parameter_group`, `parameters.py:170-176`). -/
def ofGroup (d : List (String × Value)) : Loaded :=
  let payload := d.filter fun kv => keptKey kv.1
  { keci := (dictGet payload "keci").getD (.plain (.list []))
    emptyCluster := (dictGet payload "empty_cluster").getD (.plain (.float (.fin 0)))
    fingerprints := (dictGet payload "orbit_fingerprints").getD (.plain .none)
    hash := (dictGet payload "local_environment_hash").getD (.plain .none) }

/-- The same fields of a record read from a text file. -/
def ofParams (p : Params) : Loaded where
  keci := .plain p.keci
  emptyCluster := .plain p.emptyCluster
  fingerprints := .plain p.orbitFingerprints
  hash := .plain p.localEnvironmentHash

/-- `[str(value) for value in orbit_fingerprints]`, `local_cluster_expansion.py:326-327`. -/
def fingerprintTexts (r : Reading) : Value → Py (Option (List String))
  | .plain .none => .ok none
  | .plain v =>
    match v.toList with
    | .error e => .error e
    | .ok l => .ok (some (l.map r.str))
  | .byteStrings l => .ok (some (l.map strOfBytes))

/-- `str(local_environment_hash)`, `local_cluster_expansion.py:317`, `704`. -/
def hashText (r : Reading) : Value → Option String
  | .plain .none => none
  | .plain v => some (r.str v)
  | .byteStrings l => some (r.text (.list (l.map .str)))

/-- `list(keci)`, `local_cluster_expansion.py:291`, with its entries as numbers.  The code meets an entry
that is no number only in `compute`; here it is refused at once. -/
def keciNumbers (r : Reading) : Value → Py (List ℝ)
  | .plain v =>
    match v.toList with
    | .error e => .error e
    | .ok l => r.numbers l
  | .byteStrings _ => .error .typeError

/-- `empty_cluster` as a number. -/
def emptyNumber (r : Reading) : Value → Py ℝ
  | .plain v => r.number v
  | .byteStrings _ => .error .typeError

/-- `set_parameters` with a loaded record, `local_cluster_expansion.py:667-710`. -/
def setLoaded (r : Reading) (m : LCE ℝ) (l : Loaded) : Py Unit × LCE ℝ :=
  match keciNumbers r l.keci with
  | .error e => (.error e, m)
  | .ok keci =>
    match emptyNumber r l.emptyCluster with
    | .error e => (.error e, m)
    | .ok e0 =>
      match fingerprintTexts r l.fingerprints with
      | .error e => (.error e, m)
      | .ok fps => m.setParameters (.object keci e0 fps (hashText r l.hash))

/-- `load_parameters_from_file`, `local_cluster_expansion.py:712-722`, for a text file
(`LCEModelParameters.from_file`, `parameters.py:80-86`). -/
def loadText (r : Reading) (path : String) (disk : Disk) (m : LCE ℝ) : Py Unit × LCE ℝ :=
  match fromFile path disk with
  | .error e => (.error e, m)
  | .ok p => setLoaded r m (ofParams p)

/-- `LCEModelParameters.to` for an HDF5 file, `parameters.py:88-94`, `183-196`: the outcome and the
datasets as they are read back; `h5` is h5py. -/
def saveH5 (h5 : PyVal → Py Value) (p : Params) : Py Unit × List (String × Value) := storeGroup h5 p.asDict

/-- `load_parameters_from_file`, `local_cluster_expansion.py:712-722`, for an HDF5 file. -/
def loadH5 (r : Reading) (d : List (String × Value)) (m : LCE ℝ) : Py Unit × LCE ℝ := setLoaded r m (ofGroup d)

end FitUse
end KMC
