import Verif.Model.LocalBarrier
import Verif.Model.Propose
/-
Event selection with the values of floating-point arithmetic that are not numbers.  `Model/Propose` leaves
out overflow; here a value is a number within range, an infinity or NaN, and the operations follow
IEEE 754 (the sign of zero, which makes no difference below, is left out).

In `np.searchsorted` NaN counts as larger than every number, in numpy and in numba alike.
-/
namespace KMC
namespace Overflow

/-- A floating-point format: a rounding and the largest finite number. -/
structure Format extends Rounding where
  limit : ℝ
  one_le : 1 ≤ limit
  limit_rep : rnd limit = limit
  neg_limit_rep : rnd (-limit) = -limit

/-- A floating-point value. -/
inductive Flt (F : Format) where
  | fin (x : ℝ)
  | posInf
  | negInf
  | nan

variable {F : Format}

open Classical in
/-- The rounded value of a real number; beyond the largest number it is infinite. -/
noncomputable def Flt.round (x : ℝ) : Flt F :=
  if F.limit < F.rnd x then .posInf else if F.rnd x < -F.limit then .negInf else .fin (F.rnd x)

/-- `a + b`. -/
noncomputable def Flt.add : Flt F → Flt F → Flt F
  | .fin a, .fin b => .round (a + b)
  | .nan, _ => .nan
  | _, .nan => .nan
  | .posInf, .negInf => .nan
  | .negInf, .posInf => .nan
  | .posInf, _ => .posInf
  | _, .posInf => .posInf
  | .negInf, _ => .negInf
  | _, .negInf => .negInf

/-- `-a`. -/
noncomputable def Flt.neg : Flt F → Flt F
  | .fin a => .fin (-a)
  | .posInf => .negInf
  | .negInf => .posInf
  | .nan => .nan

open Classical in
/-- An infinity times a number with the given sign; zero times infinity is NaN. -/
noncomputable def Flt.infTimes (x : ℝ) : Flt F :=
  if x = 0 then .nan else if 0 < x then .posInf else .negInf

/-- `a * b`. -/
noncomputable def Flt.mul : Flt F → Flt F → Flt F
  | .fin a, .fin b => .round (a * b)
  | .nan, _ => .nan
  | _, .nan => .nan
  | .fin a, .posInf => .infTimes a
  | .fin a, .negInf => .infTimes (-a)
  | .posInf, .fin b => .infTimes b
  | .negInf, .fin b => .infTimes (-b)
  | .posInf, .posInf => .posInf
  | .negInf, .negInf => .posInf
  | .posInf, .negInf => .negInf
  | .negInf, .posInf => .negInf

open Classical in
/-- `a / b` in an array expression. -/
noncomputable def Flt.div : Flt F → Flt F → Flt F
  | .fin a, .fin b => if b = 0 then .infTimes a else .round (a / b)
  | .nan, _ => .nan
  | _, .nan => .nan
  | .fin _, .posInf => .fin 0
  | .fin _, .negInf => .fin 0
  | .posInf, .fin b => if b < 0 then .negInf else .posInf
  | .negInf, .fin b => if b < 0 then .posInf else .negInf
  | _, _ => .nan

/-- `a ≤ b`, false for NaN. -/
def Flt.le : Flt F → Flt F → Prop
  | .fin a, .fin b => a ≤ b
  | .nan, _ => False
  | _, .nan => False
  | .negInf, _ => True
  | _, .posInf => True
  | _, _ => False

/-- `np.exp(a)`. -/
noncomputable def Flt.exp : Flt F → Flt F
  | .fin a => .round (Real.exp a)
  | .posInf => .posInf
  | .negInf => .fin 0
  | .nan => .nan

open Classical in
/-- `np.log(u)` of a random number, `kmc.py:563`. -/
noncomputable def Flt.log (u : ℝ) : Flt F := if u = 0 then .negInf else .round (Real.log u)

noncomputable instance : Add (Flt F) := ⟨Flt.add⟩
noncomputable instance : Sub (Flt F) := ⟨fun a b => a.add b.neg⟩
noncomputable instance : Zero (Flt F) := ⟨.fin 0⟩
instance : LE (Flt F) := ⟨Flt.le⟩
noncomputable instance : DecidableLE (Flt F) := fun _ _ => Classical.propDecidable _

/-- `np.cumsum` from the running total `acc`. -/
noncomputable def cumsumFrom : Flt F → List (Flt F) → List (Flt F)
  | _, [] => []
  | acc, p :: ps => acc.add p :: cumsumFrom (acc.add p) ps

/-- `np.cumsum(prob_list)`, `kmc.py:122,456`. -/
noncomputable def cumsum : List (Flt F) → List (Flt F)
  | [] => []
  | p :: ps => p :: cumsumFrom p ps

open Classical in
/-- `np.searchsorted(a, v, side="right")` as a bisection; NaN is larger than `v`. -/
noncomputable def bisectRight (a : List (Flt F)) (v : ℝ) : Nat → Nat → Nat → Nat
  | 0, lo, _ => lo
  | fuel + 1, lo, hi =>
    if lo < hi then
      let mid := (lo + hi) / 2
      match a[mid]? with
      | none => lo
      | some x => if x ≤ .fin v then bisectRight a v fuel (mid + 1) hi else bisectRight a v fuel lo mid
    else lo

open Classical in
/-- `_propose`, `kmc.py:555-564`. -/
noncomputable def propose (cum : List (Flt F)) (r1 r2 : ℝ) : Py (Nat × Flt F) :=
  match cum.getLast? with
  | none => .error .indexError
  | some tot =>
    if tot = .fin 0 then .error .zeroDivisionError
    else .ok (bisectRight (cum.map fun c => c.div tot) r1 cum.length 0 cum.length,
      (Flt.div (.fin (-1)) tot).mul (.log r2))

/-- The event-selection arithmetic of `KMC`, `kmc.py:122,456,555-564`. -/
noncomputable def kernel (F : Format) : Kernel (Flt F) (Flt F) ℝ :=
  { cumsum := cumsum, propose := propose }

/-- `hop_factor * attempt_frequency * np.exp(-barrier / (k_B * temperature))`, `local_barrier_model.py:1012-1019`;
`hop` says whether the hop is possible. -/
noncomputable def barrierRate (kB : ℝ) (hop : Bool) (frequency barrier temperature : Flt F) : Flt F :=
  ((Flt.fin (if hop then 1 else 0)).mul frequency).mul
    ((barrier.neg.div ((Flt.fin kB).mul temperature)).exp)

/-- The value of a Python float. -/
noncomputable def ofPy : PyFloat → Flt F
  | .fin q => .round (q : ℝ)
  | .posInf => .posInf
  | .negInf => .negInf
  | .nan => .nan

/-- `LocalBarrierModel` as the simulator uses it, `local_barrier_model.py:998-1019`. -/
noncomputable def barrierModel (m : LocalBarrierModel) (kB : ℝ) (temperature frequency : Flt F) :
    RateModel Unit (Flt F) (Flt F) where
  initializeState := fun _ _ => .ok ()
  computeProbability := fun _ e st =>
    if m.probabilityMode ≠ LocalBarrierModel.supportedMode then .error .valueError
    else
      match m.compute st.occ e m.probabilityProperty with
      | .error x => .error x
      | .ok barrier =>
        match eventDirection st.occ e with
        | .error x => .error x
        | .ok d => .ok (barrierRate kB (decide (d ≠ 0)) frequency (ofPy barrier) temperature)
  applyEvent := fun _ _ _ => (.ok (), ())

/-- The rate of a composite model, `composite_lce_model.py:210-235`. -/
noncomputable def compositeRate (kB : ℝ) (hop : Bool) (frequency kra delta temperature : Flt F) : Flt F :=
  if hop then
    frequency.mul (((kra.add (delta.div (.fin 2))).neg.div ((Flt.fin kB).mul temperature)).exp)
  else .fin 0

end Overflow
end KMC
