import Mathlib.Data.Rat.Defs
import Verif.Model.Event
/-
Model of the reports of an event library, `kmcpy/event/base.py`: saving, the information about the
dependency table and its statistics.
-/
namespace KMC
namespace EventLib
variable {σ φ : Type}

/-- `to`, `base.py:296-303`: what is handed to the file writer. -/
def save (lib : EventLib σ φ) : Py (Dict σ φ) :=
  match lib.meta? with
  | none => .error .valueError
  | some _ => .ok lib.asDict

/-- `has_event_dependencies`, `base.py:373-375`. -/
def hasEventDependencies (lib : EventLib σ φ) : Bool := lib.deps.isSome

/-- `sum(len(row) for row in table)`, `base.py:385` and `base.py:411`. -/
def sumLengths : List (List Int) → Nat
  | [] => 0
  | row :: rows => row.length + sumLengths rows

/-- `max(len(row) for row in table)`, `base.py:412`. -/
def maxLength : List Int → List (List Int) → Nat
  | row, [] => row.length
  | row, r :: rows => if row.length < maxLength r rows then maxLength r rows else row.length

/-- `min(len(row) for row in table)`, `base.py:413`. -/
def minLength : List Int → List (List Int) → Nat
  | row, [] => row.length
  | row, r :: rows => if minLength r rows < row.length then minLength r rows else row.length

/-- The counts of `get_event_dependencies_info`, `base.py:377-387`; `none` is the status
`not_generated`. -/
def dependenciesInfo (lib : EventLib σ φ) : Option (Nat × Nat) :=
  match lib.deps with
  | none => none
  | some rows => some (rows.length, sumLengths rows)

/-- The dictionary of `get_dependency_statistics`, `base.py:416-423`. -/
structure Statistics where
  totalEvents : Nat
  total : Nat
  max : Nat
  min : Nat
  average : ℚ
  density : ℚ
  deriving DecidableEq

/-- `get_dependency_statistics`, `base.py:401-423`; `none` is the error entry.  Divisions are exact
(in the code they are rounded to floats). -/
def statistics (lib : EventLib σ φ) : Option Statistics :=
  match lib.deps with
  | none => none
  | some rows =>
    let total := sumLengths rows
    some
      { totalEvents := lib.events.length
        total := total
        max := match rows with
          | [] => 0
          | r :: rs => maxLength r rs
        min := match rows with
          | [] => 0
          | r :: rs => minLength r rs
        average := if rows.isEmpty then 0 else (total : ℚ) / (rows.length : ℚ)
        density := if lib.events.isEmpty then 0 else (total : ℚ) / ((lib.events.length ^ 2 : Nat) : ℚ) }

end EventLib
end KMC
