import Verif.Model.KMC
import Mathlib.Analysis.SpecialFunctions.Log.Basic
import Mathlib.Data.EReal.Operations
/-
Model of `_propose`, `kmcpy/simulator/kmc.py:555-564`, and of `np.cumsum`.

Floating-point arithmetic is modelled as exact real arithmetic followed by a
rounding function.  Any rounding that is monotone, idempotent and fixes 0 and 1
is allowed, which covers IEEE double arithmetic without overflow, and exact
arithmetic (`Rounding.exact`).
-/
namespace KMC

/-- A monotone rounding to a set of representable numbers containing 0 and 1. -/
structure Rounding where
  rnd : ℝ → ℝ
  mono : Monotone rnd
  idem : ∀ x, rnd (rnd x) = rnd x
  zero : rnd 0 = 0
  one : rnd 1 = 1

/-- Exact arithmetic. -/
def Rounding.exact : Rounding :=
  { rnd := id, mono := monotone_id, idem := fun _ => rfl, zero := rfl, one := rfl }

/-- A number the arithmetic can represent. -/
def Rounding.Rep (R : Rounding) (x : ℝ) : Prop := R.rnd x = x

/-- `np.cumsum` from the running total `acc`: sequential rounded additions. -/
noncomputable def cumsumFrom (R : Rounding) : ℝ → List ℝ → List ℝ
  | _, [] => []
  | acc, p :: ps => R.rnd (acc + p) :: cumsumFrom R (R.rnd (acc + p)) ps

/-- `np.cumsum(prob_list)`, `kmc.py:122,456`: the first entry is copied. -/
noncomputable def cumsum (R : Rounding) : List ℝ → List ℝ
  | [] => []
  | p :: ps => p :: cumsumFrom R p ps

open Classical in
/-- `np.searchsorted(a, v, side="right")` as the bisection it is: invariant
`a[:lo] ≤ v < a[hi:]`; `fuel` bounds the number of halvings. -/
noncomputable def bisectRight (a : List ℝ) (v : ℝ) : Nat → Nat → Nat → Nat
  | 0, lo, _ => lo
  | fuel + 1, lo, hi =>
    if lo < hi then
      let mid := (lo + hi) / 2
      match a[mid]? with
      | none => lo
      | some x => if v < x then bisectRight a v fuel lo mid else bisectRight a v fuel (mid + 1) hi
    else lo

/-- `np.searchsorted(a, v, side="right")`, `kmc.py:560-562`. -/
noncomputable def searchsortedRight (a : List ℝ) (v : ℝ) : Nat :=
  bisectRight a v a.length 0 a.length

open Classical in
/-- Waiting time `(-1.0 / K) * np.log(u)`, `kmc.py:563`; `np.log(0) = -inf` gives
`+inf`.  Times live in the extended reals because of this case. -/
noncomputable def waitingTime (R : Rounding) (K u : ℝ) : EReal :=
  if u = 0 then ⊤ else ((R.rnd (R.rnd (-1 / K) * R.rnd (Real.log u)) : ℝ) : EReal)

open Classical in
/-- `_propose`, `kmc.py:555-564`, for the draws `r1`, `r2`.  `prob_cum_list[-1]` of
an empty table has no defined value (modelled as `IndexError`); a zero total makes
`-1.0 / prob_cum_list[-1]` raise `ZeroDivisionError` in compiled code. -/
noncomputable def propose (R : Rounding) (cum : List ℝ) (r1 r2 : ℝ) : Py (Nat × EReal) :=
  match cum.getLast? with
  | none => .error .indexError
  | some tot =>
    if tot = 0 then .error .zeroDivisionError
    else .ok (searchsortedRight (cum.map fun c => R.rnd (c / tot)) r1, waitingTime R tot r2)

/-- The event-selection arithmetic of `KMC`, `kmc.py:122,456,555-564`. -/
noncomputable def realKernel (R : Rounding) : Kernel ℝ EReal ℝ :=
  { cumsum := cumsum R, propose := propose R }

/-- Comparisons of simulation times. -/
noncomputable instance : DecidableLE EReal := fun _ _ => Classical.propDecidable _

end KMC
