/-
Python runtime conventions shared by all model files: exceptions as values,
sequence indexing with negative indices, tuple unpacking, and insertion-ordered
dictionaries.  Nothing here models a particular kMCpy function; the individual
model files say which `/repo` lines rely on which convention.
-/
namespace KMC

/-- Exception classes raised by the modelled code paths. -/
inductive PyErr where
  | valueError
  | keyError
  | indexError
  | typeError
  | runtimeError
  | zeroDivisionError
  | attributeError
  | fileExistsError
  | importError
  | notImplementedError
  | callbackError
  | osError
  deriving DecidableEq, Repr

/-- A pure Python computation that may raise. -/
abbrev Py (α : Type u) := Except PyErr α

instance instDecidableEqPy {α : Type u} [DecidableEq α] : DecidableEq (Py α)
  | .ok a, .ok b => if h : a = b then isTrue (by rw [h]) else isFalse (by intro h'; cases h'; exact h rfl)
  | .error a, .error b => if h : a = b then isTrue (by rw [h]) else isFalse (by intro h'; cases h'; exact h rfl)
  | .ok _, .error _ => isFalse (by intro h; cases h)
  | .error _, .ok _ => isFalse (by intro h; cases h)

/-- Position denoted by a Python index `i` in a sequence of length `n`
(`l[i]` with `-n ≤ i < n`); `none` is `IndexError`. -/
def pyIdx (n : Nat) (i : Int) : Option Nat :=
  if 0 ≤ i then
    if i < (n : Int) then some i.toNat else none
  else if 0 ≤ i + n then some (i + n).toNat
  else none

/-- `l[i]`. -/
def pyGet {α : Type u} (l : List α) (i : Int) : Py α :=
  match pyIdx l.length i with
  | none => .error .indexError
  | some k =>
    match l[k]? with
    | some a => .ok a
    | none => .error .indexError

/-- `l[i] = v` (returning the updated sequence). -/
def pySet {α : Type u} (l : List α) (i : Int) (v : α) : Py (List α) :=
  match pyIdx l.length i with
  | none => .error .indexError
  | some k => .ok (l.set k v)

/-- `a, b = xs`: raises `ValueError` unless there are exactly two items. -/
def unpack2 {α : Type u} : List α → Py (α × α)
  | [a, b] => .ok (a, b)
  | _ => .error .valueError

/-- Dictionary lookup `d.get(k)` for an insertion-ordered dictionary given as
an association list with distinct keys. -/
def dictGet {κ : Type u} {α : Type v} [DecidableEq κ] : List (κ × α) → κ → Option α
  | [], _ => none
  | (k', v) :: d, k => if k' = k then some v else dictGet d k

/-- `d[k] = v`: overwrite in place, or append a new key at the end. -/
def dictSet {κ : Type u} {α : Type v} [DecidableEq κ] : List (κ × α) → κ → α → List (κ × α)
  | [], k, v => [(k, v)]
  | (k', v') :: d, k, v => if k' = k then (k', v) :: d else (k', v') :: dictSet d k v

/-- `del d[k]` / `d.pop(k)`: remove the key (if present). -/
def dictDel {κ : Type u} {α : Type v} [DecidableEq κ] : List (κ × α) → κ → List (κ × α)
  | [], _ => []
  | (k', v') :: d, k => if k' = k then d else (k', v') :: dictDel d k

/-- `d.keys()`. -/
def dictKeys {κ : Type u} {α : Type v} (d : List (κ × α)) : List κ := d.map Prod.fst

end KMC
