import Mathlib.Data.Rat.Defs
import Verif.Model.Py
/-
Dynamically typed Python values, as far as configuration files and recorded results use
them.  Nothing here models a particular kMCpy function.
-/
namespace KMC

/-- Python floats: exact finite values, the infinities and NaN.  Rounding and the sign of zero
are not modelled. -/
inductive PyFloat where
  | fin (q : ℚ)
  | posInf
  | negInf
  | nan
  deriving DecidableEq

/-- Python values that occur in configurations; dictionaries have string keys. -/
inductive PyVal where
  | none
  | bool (b : Bool)
  | int (n : Int)
  | float (f : PyFloat)
  | str (s : String)
  | list (l : List PyVal)
  | tuple (l : List PyVal)
  | dict (d : List (String × PyVal))

namespace PyVal

/-- `v <= 0`. -/
def leZero : PyVal → Py Bool
  | .bool b => .ok (!b)
  | .int n => .ok (decide (n ≤ 0))
  | .float (.fin q) => .ok (decide (q ≤ 0))
  | .float .posInf => .ok false
  | .float .negInf => .ok true
  | .float .nan => .ok false
  | _ => .error .typeError

/-- `v < 0`. -/
def ltZero : PyVal → Py Bool
  | .bool _ => .ok false
  | .int n => .ok (decide (n < 0))
  | .float (.fin q) => .ok (decide (q < 0))
  | .float .posInf => .ok false
  | .float .negInf => .ok true
  | .float .nan => .ok false
  | _ => .error .typeError

/-- `v == n` for an integer `n`; values of other types are unequal. -/
def eqInt (v : PyVal) (n : Int) : Bool :=
  match v with
  | .bool b => decide ((if b then 1 else 0 : Int) = n)
  | .int m => decide (m = n)
  | .float (.fin q) => decide (q = n)
  | _ => false

/-- `len(v)`. -/
def len : PyVal → Py Nat
  | .str s => .ok s.toList.length
  | .list l => .ok l.length
  | .tuple l => .ok l.length
  | .dict d => .ok d.length
  | _ => .error .typeError

/-- `list(v)`: characters of a string, entries of a sequence, keys of a dictionary. -/
def toList : PyVal → Py (List PyVal)
  | .str s => .ok (s.toList.map fun c => .str (String.singleton c))
  | .list l => .ok l
  | .tuple l => .ok l
  | .dict d => .ok (d.map fun kv => .str kv.1)
  | _ => .error .typeError

/-- `isinstance(v, int)`; booleans are integers. -/
def isInt : PyVal → Bool
  | .bool _ => true
  | .int _ => true
  | _ => false

/-- `isinstance(v, bool)`. -/
def isBool : PyVal → Bool
  | .bool _ => true
  | _ => false

/-- `v is None`. -/
def isNone : PyVal → Bool
  | .none => true
  | _ => false

mutual
/-- Writing a value to JSON and reading it back: tuples become lists. -/
def json : PyVal → PyVal
  | .list l => .list (jsonList l)
  | .tuple l => .list (jsonList l)
  | .dict d => .dict (jsonDict d)
  | .none => .none
  | .bool b => .bool b
  | .int n => .int n
  | .float f => .float f
  | .str s => .str s
/-- `json` on the entries of a sequence. -/
def jsonList : List PyVal → List PyVal
  | [] => []
  | v :: vs => json v :: jsonList vs
/-- `json` on the values of a dictionary. -/
def jsonDict : List (String × PyVal) → List (String × PyVal)
  | [] => []
  | (k, v) :: d => (k, json v) :: jsonDict d
end

end PyVal

/-- `d.update(e)`. -/
def dictUpdate {α : Type} (d e : List (String × α)) : List (String × α) :=
  e.foldl (fun d kv => dictSet d kv.1 kv.2) d

end KMC
