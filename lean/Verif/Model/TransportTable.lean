import Mathlib.Algebra.Ring.Defs
import Mathlib.Data.Int.Cast.Defs
import Verif.Model.LocalBarrier
import Verif.Model.Tools
/-
Model of `collect_transport_data` in `kmcpy/tools/get_data.py`.

`float` and `int` on a text, `np.loadtxt` and the interpolation of the thermodynamic factor (read from
`theta_575.txt`) are parameters; the numbers are elements of a ring.  Grouping, plotting and the files written
by `main` are not modelled.
-/
namespace KMC
namespace TransportTable
variable {K : Type}

/-- One row of the table, `get_data.py:73-85`. -/
structure Row (K : Type) where
  x : K
  pass : Nat
  structureId : Int
  jump : K
  tracer : K
  chemical : K
  theta : K
  correlation : K
  conductivity : K
  location : String
  deriving DecidableEq

/-- What reading a folder needs from outside. -/
structure Readers (K : Type) where
  float : String → Py K
  int : String → Py Int
  loadtxt : String → Py (List K)
  spline : K → Py K

/-- `result + "/migration_" + str(n_pass) + ".txt"`, `get_data.py:66`. -/
def fileOf (result : String) (n : Nat) : String :=
  result ++ "/migration_" ++ intStr (n : Int) ++ ".txt"

/-- `3 - 3 * float(result.strip().split("_")[1])`, `get_data.py:59`. -/
def xOf [Ring K] (rd : Readers K) (result : String) : Py K :=
  match (Tools.split "_" (pyStrip result))[1]? with
  | none => .error .indexError
  | some t =>
    match rd.float t with
    | .error e => .error e
    | .ok c => .ok (3 - 3 * c)

/-- `int(result.strip().split("_")[2])`, `get_data.py:60`. -/
def idOf (rd : Readers K) (result : String) : Py Int :=
  match (Tools.split "_" (pyStrip result))[2]? with
  | none => .error .indexError
  | some t => rd.int t

/-- Unpacking into four names, `get_data.py:61-66`. -/
def unpack4 : List K → Py (K × K × K × K)
  | [a, b, c, d] => .ok (a, b, c, d)
  | _ => .error .valueError

/-- The body of the inner loop, `get_data.py:58-85`. -/
def rowOf [Ring K] (rd : Readers K) (result : String) (n : Nat) : Py (Row K) :=
  match xOf rd result with
  | .error e => .error e
  | .ok x =>
    match idOf rd result with
    | .error e => .error e
    | .ok i =>
      match rd.loadtxt (fileOf result n) with
      | .error e => .error e
      | .ok l =>
        match unpack4 l with
        | .error e => .error e
        | .ok (jump, tracer, corr, cond) =>
          match rd.spline x with
          | .error e => .error e
          | .ok theta => .ok ⟨x, n, i, jump, tracer, jump * theta, theta, corr, cond, result⟩

/-- The inner loop, `get_data.py:57-85`; the last argument are the rows so far. -/
def passes [Ring K] (rd : Readers K) (result : String) : List Nat → List (Row K) → Py (List (Row K))
  | [], acc => .ok acc
  | n :: ns, acc =>
    match rowOf rd result n with
    | .error e => .error e
    | .ok r => passes rd result ns (acc ++ [r])

/-- `np.arange(0, 2000, 1, dtype="int")`, `get_data.py:57`. -/
def passNumbers : List Nat := List.range 2000

/-- The outer loop, `get_data.py:56-85`; `ns` are the passes. -/
def folders [Ring K] (rd : Readers K) (ns : List Nat) : List String → List (Row K) → Py (List (Row K))
  | [], acc => .ok acc
  | f :: fs, acc =>
    match passes rd f ns acc with
    | .error e => .error e
    | .ok acc => folders rd ns fs acc

/-- `collect_transport_data(results)`, `get_data.py:51-86`, with a list of folders. -/
def collect [Ring K] (rd : Readers K) (results : List String) : Py (List (Row K)) :=
  folders rd passNumbers results []

end TransportTable
end KMC
