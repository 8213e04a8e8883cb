import Verif.Model.LocalBarrier
import Verif.Model.Propose
/-
The rates of `kmcpy/models/local_barrier_model.py` as the computer evaluates them.  Matching of rules compares
integers and strings and is the same in all arithmetics; the barriers of the rules are floats and enter as they
are.

Simplifications.  The exponential function of the library is a parameter.  Overflow to infinity of an
intermediate result is not represented (for that see `Model/Overflow.lean`).
-/
namespace KMC
open LocalBarrier
namespace LocalBarrierModel

/-- `hop_factor * attempt_frequency * np.exp(-barrier / (k_B * temperature))`, `local_barrier_model.py:1012-1018`,
each operation rounded; `none` is an infinite or NaN result. -/
noncomputable def arrheniusFloat (R : Rounding) (exp : ℝ → ℝ) (kB temperature frequency factor : ℝ) :
    PyFloat → Option ℝ
  | .fin q => some (R.rnd (R.rnd (factor * frequency) * exp (R.rnd (-(q : ℝ) / R.rnd (kB * temperature)))))
  | .posInf => some 0
  | .negInf => none
  | .nan => none

/-- `compute_probability`, `local_barrier_model.py:998-1019`, in floating-point arithmetic. -/
noncomputable def computeProbabilityFloat (R : Rounding) (exp : ℝ → ℝ) (m : LocalBarrierModel)
    (kB temperature frequency : ℝ) (e : Event) (occ : List Int) : Py (Option ℝ) :=
  if m.probabilityMode ≠ supportedMode then .error .valueError
  else
    match m.compute occ e m.probabilityProperty with
    | .error x => .error x
    | .ok barrier =>
      match eventDirection occ e with
      | .error x => .error x
      | .ok d =>
        .ok (arrheniusFloat R exp kB temperature frequency (if d ≠ 0 then 1 else 0) barrier)

/-- The model as the simulator uses it, with a clock of any kind (`local_barrier_model.py:998-1019`,
`models/base.py:86-110`).  An infinite or NaN rate is represented by an error. -/
noncomputable def floatModel {T : Type} (R : Rounding) (exp : ℝ → ℝ) (m : LocalBarrierModel)
    (kB temperature frequency : ℝ) : RateModel Unit ℝ T where
  initializeState := fun _ _ => .ok ()
  computeProbability := fun _ e st =>
    match m.computeProbabilityFloat R exp kB temperature frequency e st.occ with
    | .error x => .error x
    | .ok (some r) => .ok r
    | .ok none => .error .valueError
  applyEvent := fun _ _ _ => (.ok (), ())

end LocalBarrierModel
end KMC
