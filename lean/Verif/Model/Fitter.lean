import Mathlib.Analysis.SpecialFunctions.Pow.Real
import Mathlib.Algebra.BigOperators.Fin
import Verif.Model.Parameters
/-
Model of `kmcpy/models/fitting/fitter.py`: the weighted, optionally normalised Lasso fit, its
leave-one-out error and the files a fit writes.  Floats are real numbers.  Solving the Lasso problem
is sklearn's business and a parameter.  The table of results (`fit_results_fname`, off by default) is in
`Model/FitTable`.  Not modelled: logging, the wall clock (a parameter) and crashes.
-/
namespace KMC
namespace Fitter
open Parameters

/-- `sklearn.linear_model.Lasso`: `coef` is `fit` with `fit_intercept=False`, `coefIntercept` with
`fit_intercept=True`; `alpha` and `max_iter` are those of one fit and part of the parameter. -/
structure Lasso where
  coef : ∀ {m n : Nat}, (Fin m → Fin n → ℝ) → (Fin m → ℝ) → Option (Fin m → ℝ) → Py (Fin n → ℝ)
  coefIntercept : ∀ {m n : Nat}, (Fin m → Fin n → ℝ) → (Fin m → ℝ) → Option (Fin m → ℝ) →
    Py ((Fin n → ℝ) × ℝ)

/-- `np.dot`. -/
noncomputable def dot {n : Nat} (x k : Fin n → ℝ) : ℝ := ∑ j, x j * k j

/-- `np.mean` (weight `None`) or `np.average(…, weights=…)`, `fitter.py:200-205`. -/
noncomputable def average {m : Nat} (weight : Option (Fin m → ℝ)) (v : Fin m → ℝ) : Py ℝ :=
  match weight with
  | none => .ok ((∑ i, v i) / m)
  | some w => if ∑ i, w i = 0 then .error .zeroDivisionError else .ok ((∑ i, w i * v i) / ∑ i, w i)

/-- `average` of every column. -/
noncomputable def averageColumns {m n : Nat} (weight : Option (Fin m → ℝ)) (x : Fin m → Fin n → ℝ) :
    Py (Fin n → ℝ) :=
  match weight with
  | none => .ok fun j => (∑ i, x i j) / m
  | some w =>
    if ∑ i, w i = 0 then .error .zeroDivisionError
    else .ok fun j => (∑ i, w i * x i j) / ∑ i, w i

open Classical in
/-- `x_scale`, `fitter.py:212-213`. -/
noncomputable def columnScale {m n : Nat} (centred : Fin m → Fin n → ℝ) (j : Fin n) : ℝ :=
  if Real.sqrt (∑ i, centred i j ^ 2) = 0 then 1 else Real.sqrt (∑ i, centred i j ^ 2)

/-- What `_fit_lasso_values` returns. -/
structure Fitted (m n : Nat) where
  keci : Fin n → ℝ
  emptyCluster : ℝ
  predicted : Fin m → ℝ

/-- `_fit_lasso_values`, `fitter.py:173-224`.  No rows: `np.mean` gives NaN and `Lasso.fit` refuses. -/
noncomputable def fitValues (L : Lasso) {m n : Nat} (x : Fin m → Fin n → ℝ) (y : Fin m → ℝ)
    (weight : Option (Fin m → ℝ)) (normalize : Bool) : Py (Fitted m n) :=
  if m = 0 then .error .valueError
  else if normalize = false then
    match L.coefIntercept x y weight with
    | .error e => .error e
    | .ok (k, b) => .ok ⟨k, b, fun i => dot (x i) k + b⟩
  else
    match averageColumns weight x with
    | .error e => .error e
    | .ok xOffset =>
      match average weight y with
      | .error e => .error e
      | .ok yOffset =>
        let centred := fun i j => x i j - xOffset j
        match L.coef (fun i j => centred i j / columnScale centred j) (fun i => y i - yOffset) weight with
        | .error e => .error e
        | .ok beta =>
          let keci := fun j => beta j / columnScale centred j
          let empty := yOffset - dot xOffset keci
          .ok ⟨keci, empty, fun i => dot (x i) keci + empty⟩

/-- `array[mask]`. -/
def masked {α : Type} : List α → List Bool → List α
  | [], _ => []
  | _, [] => []
  | a :: l, b :: mask => if b then a :: masked l mask else masked l mask

/-- `_fit_lasso_values` on arrays whose numbers of rows may differ, which sklearn refuses. -/
noncomputable def fitArrays (L : Lasso) {n : Nat} (x : List (Fin n → ℝ)) (y : List ℝ) (normalize : Bool) :
    Py ((Fin n → ℝ) × ℝ) :=
  if h : x.length = y.length then
    match fitValues L (fun i : Fin y.length => x[i]) (fun i => y[i]) none normalize with
    | .error e => .error e
    | .ok f => .ok (f.keci, f.emptyCluster)
  else .error .valueError

/-- `train_mask`, `fitter.py:242-243`. -/
def trainMask (len excluded : Nat) : List Bool := (List.replicate len true).set excluded false

/-- One squared error, `fitter.py:242-253`. -/
noncomputable def leftOutError (L : Lasso) {n : Nat} (x : List (Fin n → ℝ)) (y : List ℝ) (normalize : Bool)
    (i : Nat) : Py ℝ :=
  match fitArrays L (masked x (trainMask y.length i)) (masked y (trainMask y.length i)) normalize with
  | .error e => .error e
  | .ok (keci, empty) =>
    match x[i]?, y[i]? with
    | some xi, some yi => .ok ((yi - (dot xi keci + empty)) ^ 2)
    | _, _ => .error .indexError

/-- The loop `fitter.py:241-253` over the given indices. -/
noncomputable def leftOutErrors (L : Lasso) {n : Nat} (x : List (Fin n → ℝ)) (y : List ℝ) (normalize : Bool) :
    List Nat → Py (List ℝ)
  | [] => .ok []
  | i :: is =>
    match leftOutError L x y normalize i with
    | .error e => .error e
    | .ok e =>
      match leftOutErrors L x y normalize is with
      | .error e => .error e
      | .ok es => .ok (e :: es)

/-- `_leave_one_out_rmse`, `fitter.py:226-254`.  With no data numpy returns NaN; here 0. -/
noncomputable def leaveOneOutRmse (L : Lasso) {n : Nat} (x : List (Fin n → ℝ)) (y : List ℝ)
    (normalize : Bool) : Py ℝ :=
  match leftOutErrors L x y normalize (List.range y.length) with
  | .error e => .error e
  | .ok es => .ok (Real.sqrt (es.sum / es.length))

/-- `root_mean_squared_error(y_true, y_pred)`. -/
noncomputable def rmse {m : Nat} (y p : Fin m → ℝ) : ℝ := Real.sqrt ((∑ i, (y i - p i) ^ 2) / m)

/-- The files a fit writes. -/
structure Files where
  keci : Option (List ℝ)
  params : Disk
  history : Disk

/-- Arguments of `fit` that are not data: file names (`None` skips the file) and provenance. -/
structure FitOptions where
  alpha : ℝ
  normalize : Bool
  paramsPath : Option String
  historyPath : Option String
  orbitFingerprints : PyVal
  localEnvironmentHash : PyVal

/-- How values become Python objects and HDF5 datasets, and the clock of the fit. -/
structure Outside where
  float : ℝ → PyVal
  store : PyVal → Py PyVal
  timeStamp : PyVal
  time : PyVal

/-- The record of a fit, `fitter.py:360-373`. -/
noncomputable def record (out : Outside) (o : FitOptions) {m n : Nat} (f : Fitted m n) (weight : Fin m → ℝ)
    (rmse loocv : ℝ) : Params where
  keci := .list (List.ofFn fun j => out.float (f.keci j))
  emptyCluster := out.float f.emptyCluster
  clusterSiteIndices := .list []
  weight := .list (List.ofFn fun i => out.float (weight i))
  alpha := out.float o.alpha
  timeStamp := out.timeStamp
  time := out.time
  rmse := out.float rmse
  loocv := out.float loocv
  normalize := .bool o.normalize
  orbitFingerprints := o.orbitFingerprints
  localEnvironmentHash := o.localEnvironmentHash
  localSiteOrder := .none
  name := defaultName

/-- The check `fitter.py:324-328`. -/
def checkFingerprints (fp : PyVal) (n : Nat) : Py Unit :=
  if fp.isNone then .ok ()
  else
    match fp.len with
    | .error e => .error e
    | .ok k => if n ≠ k then .error .valueError else .ok ()

/-- Writing the parameter file, `fitter.py:379-381`. -/
def writeParams (out : Outside) (o : FitOptions) (p : Params) (files : Files) : Py Unit × Files :=
  match o.paramsPath with
  | none => (.ok (), files)
  | some path => ((p.to out.store path).1, { files with params := (p.to out.store path).2 })

/-- Updating the history, `fitter.py:383-403`. -/
def writeHistory (out : Outside) (o : FitOptions) (p : Params) (files : Files) : Py Unit × Files :=
  match o.historyPath with
  | none => (.ok (), files)
  | some path =>
    ((appendHistory out.store path files.history p).1,
      { files with history := (appendHistory out.store path files.history p).2 })

/-- The files written once the numbers are known, `fitter.py:356-403`. -/
noncomputable def writeFiles (out : Outside) (o : FitOptions) {n : Nat} (keci : Fin n → ℝ) (p : Params)
    (files : Files) : Py Unit × Files :=
  match writeParams out o p { files with keci := some (List.ofFn keci) } with
  | (.error e, files) => (.error e, files)
  | (.ok (), files) => writeHistory out o p files

/-- `fit`, `fitter.py:256-404`, from the loaded arrays on (`np.loadtxt` is `loadMatrix`): the returned
record and predictions, and the files afterwards. -/
noncomputable def fit (L : Lasso) (out : Outside) (o : FitOptions) {m n : Nat} (x : Fin m → Fin n → ℝ)
    (y weight : Fin m → ℝ) (files : Files) : Py (Params × (Fin m → ℝ)) × Files :=
  match fitValues L x y (some weight) o.normalize with
  | .error e => (.error e, files)
  | .ok f =>
    match checkFingerprints o.orbitFingerprints n with
    | .error e => (.error e, files)
    | .ok () =>
      match leaveOneOutRmse L (List.ofFn x) (List.ofFn y) o.normalize with
      | .error e => (.error e, files)
      | .ok loocv =>
        match writeFiles out o f.keci (record out o f weight (rmse y f.predicted) loocv) files with
        | (.error e, files) => (.error e, files)
        | (.ok (), files) => (.ok (record out o f weight (rmse y f.predicted) loocv, f.predicted), files)

/-- What `np.loadtxt` returns: axes of length one are dropped. -/
inductive Loaded where
  | scalar (v : ℝ)
  | vector (v : List ℝ)
  | matrix (m n : Nat) (x : Fin m → Fin n → ℝ)

/-- `np.loadtxt` of a file of `m` lines with `n` numbers each. -/
noncomputable def loadtxt {m n : Nat} (x : Fin m → Fin n → ℝ) : Loaded :=
  if hm : m = 1 then
    if hn : n = 1 then .scalar (x ⟨0, by omega⟩ ⟨0, by omega⟩)
    else .vector (List.ofFn (x ⟨0, by omega⟩))
  else
    if hn : n = 1 then .vector (List.ofFn fun i => x i ⟨0, by omega⟩)
    else .matrix m n x

/-- `fit` from the files on, `fitter.py:311-323`: `np.loadtxt` and the regression.  A correlation array
without two axes ends in an exception, either at `x_scale[x_scale == 0.0] = 1.0` or in `Lasso.fit`;
which one depends on the numpy version.  The target and weight files have as many lines as the
correlation file. -/
noncomputable def fitFromFiles (L : Lasso) (out : Outside) (o : FitOptions) {m n : Nat}
    (x : Fin m → Fin n → ℝ) (y weight : Fin m → ℝ) (files : Files) :
    Py (Params × (Fin m → ℝ)) × Files :=
  match loadtxt x with
  | .matrix _ _ _ => fit L out o x y weight files
  | _ => (.error (if o.normalize then .typeError else .valueError), files)

end Fitter
end KMC
