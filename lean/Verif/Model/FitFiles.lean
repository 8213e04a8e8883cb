import Verif.Model.NEBLoader
/-
Model of the text files between the data loader and the fit: `write_fitting_inputs` of `kmcpy/io/neb/data.py` writes
three tables one after the other, and `fit` of `kmcpy/models/fitting/fitter.py` reads them.  `np.savetxt` and
`np.loadtxt` are modelled down to the characters, except for the text of one number (`NumberText`).  Numbers are an
abstract type.
-/
namespace KMC
namespace FitFiles
open NEBLoader

/-- The content of a text file. -/
abbrev Text := List Char

/-- Files by path. -/
abbrev Folder := String → Option Text

/-- The folder after the file at `path` has been written. -/
def Folder.put (d : Folder) (path : String) (t : Text) : Folder := fun p => if p = path then some t else d p

/-- How numbers are written (`"%.18e" % v`, `data.py:483-489`) and read (`float`). -/
structure NumberText (K : Type) where
  write : K → Text
  read : Text → Option K

variable {K : Type}

/-- The numbers of one line, separated by a space. -/
def joinWords : List Text → Text
  | [] => []
  | [w] => w
  | w :: ws => w ++ ' ' :: joinWords ws

/-- `np.savetxt` with its default delimiter and newline, `data.py:483-489`. -/
def savetxt (io : NumberText K) (rows : List (List K)) : Text :=
  rows.flatMap fun r => joinWords (r.map io.write) ++ ['\n']

/-- `str.split(c)`. -/
def splitOn (c : Char) : Text → List Text
  | [] => [[]]
  | x :: t =>
    if x = c then [] :: splitOn c t
    else
      match splitOn c t with
      | [] => [[x]]
      | w :: ws => (x :: w) :: ws

/-- The words of a line as `np.loadtxt` splits it.  (Only spaces separate here; tabs do not occur.) -/
def words (line : Text) : List Text := (splitOn ' ' line).filter (· ≠ [])

/-- The words of all lines; `np.loadtxt` skips lines without any. -/
def tokens (t : Text) : List (List Text) := ((splitOn '\n' t).map words).filter (· ≠ [])

/-- The numbers of one line. -/
def readRow (io : NumberText K) : List Text → Py (List K)
  | [] => .ok []
  | w :: ws =>
    match io.read w with
    | none => .error .valueError
    | some v =>
      match readRow io ws with
      | .error e => .error e
      | .ok vs => .ok (v :: vs)

/-- The numbers of all lines. -/
def readRows (io : NumberText K) : List (List Text) → Py (List (List K))
  | [] => .ok []
  | r :: rs =>
    match readRow io r with
    | .error e => .error e
    | .ok v =>
      match readRows io rs with
      | .error e => .error e
      | .ok vs => .ok (v :: vs)

/-- `np.loadtxt` before axes of length one are dropped: lines of different lengths are refused. -/
def loadTable (io : NumberText K) (t : Text) : Py (List (List K)) :=
  match readRows io (tokens t) with
  | .error e => .error e
  | .ok rows => if ∀ r ∈ rows, r.length = (rows.headD []).length then .ok rows else .error .valueError

/-- `np.loadtxt(path)`; a missing file raises `FileNotFoundError`. -/
def loadFile (io : NumberText K) (d : Folder) (path : String) : Py (List (List K)) :=
  match d path with
  | none => .error .osError
  | some t => loadTable io t

/-- `np.loadtxt(path)` of a file with one number per line.  Targets or weights with several numbers per line, which
nothing in the package writes, are taken as refused. -/
def loadColumn (io : NumberText K) (d : Folder) (path : String) : Py (List K) :=
  match loadFile io d path with
  | .error e => .error e
  | .ok rows => if ∀ r ∈ rows, r.length = 1 then .ok rows.flatten else .error .valueError

/-- The paths of the three files. -/
structure Paths where
  corr : String
  ekra : String
  weight : String

/-- `write_fitting_inputs`, `data.py:452-497`: how it ends, and the files it writes, in this order.  The argument
of each `np.savetxt` is computed before its file is opened. -/
def exportWrites {M R S α : Type} (io : NumberText K) (L : Loader M R S K α K) (w : Weight K) (p : Paths) :
    Py Unit × List (String × Text) :=
  if L.entries = [] then (.error .valueError, [])
  else
    match correlationMatrix L with
    | .error e => (.error e, [])
    | .ok c =>
      match properties L with
      | .error e => (.error e, [(p.corr, savetxt io c)])
      | .ok y =>
        match weights w L.entries.length with
        | .error e => (.error e, [(p.corr, savetxt io c), (p.ekra, savetxt io (y.map fun v => [v]))])
        | .ok ws => (.ok (), [(p.corr, savetxt io c), (p.ekra, savetxt io (y.map fun v => [v])),
            (p.weight, savetxt io (ws.map fun v => [v]))])

/-- The folder after files have been written in order. -/
def putAll (d : Folder) : List (String × Text) → Folder
  | [] => d
  | w :: ws => putAll (d.put w.1 w.2) ws

/-- The data that `fit` works with, `fitter.py:311-323`: it reads the targets, the weights and the correlations.
Numbers of lines that differ are refused by numpy and sklearn, and so is a matrix with one line or one column only
(see `Fitter.fitFromFiles`); which exception that is depends on versions and options. -/
def fitData (io : NumberText K) (d : Folder) (p : Paths) : Py (FitInputs K K K) :=
  match loadColumn io d p.ekra with
  | .error e => .error e
  | .ok y =>
    match loadColumn io d p.weight with
    | .error e => .error e
    | .ok ws =>
      match loadFile io d p.corr with
      | .error e => .error e
      | .ok c =>
        if c.length = y.length ∧ ws.length = y.length ∧ 2 ≤ y.length ∧ 2 ≤ (c.headD []).length then .ok ⟨c, y, ws⟩
        else .error .valueError

end FitFiles
end KMC
