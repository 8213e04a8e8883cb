import Verif.Model.Propose
import Mathlib.Data.Int.Log
/-
The simulation clock in floating-point arithmetic.  `Model/Propose` rounds rates and waiting times but adds the
waiting times up exactly; here every sum of times is rounded as well.  The binary rounding below is the default
one of IEEE 754, with `p` significant bits and without limits on the exponent (no overflow, no underflow).
-/
namespace KMC

/-- A time rounded to the representable numbers; the infinities stay. -/
noncomputable def roundTime (R : Rounding) (t : EReal) : EReal :=
  if t = ⊤ then ⊤ else if t = ⊥ then ⊥ else ((R.rnd t.toReal : ℝ) : EReal)

/-- The values a floating-point clock can show. -/
structure FloatTime (R : Rounding) where
  val : EReal
  rep : roundTime R val = val

theorem roundTime_coe (R : Rounding) (x : ℝ) : roundTime R (x : EReal) = ((R.rnd x : ℝ) : EReal) := by
  simp [roundTime]

theorem roundTime_idem (R : Rounding) (t : EReal) : roundTime R (roundTime R t) = roundTime R t := by
  induction t with
  | bot => simp [roundTime]
  | top => simp [roundTime]
  | coe x => simp [roundTime_coe, R.idem]

/-- The time nearest to a given one. -/
noncomputable def FloatTime.of (R : Rounding) (t : EReal) : FloatTime R := ⟨roundTime R t, roundTime_idem R t⟩

variable {R : Rounding}

noncomputable instance : Zero (FloatTime R) := ⟨.of R 0⟩
/-- `self.time += dt`, `state.py:154`. -/
noncomputable instance : Add (FloatTime R) := ⟨fun a b => .of R (a.val + b.val)⟩
/-- `sim_time - last_trigger_time`, `property.py:87`. -/
noncomputable instance : Sub (FloatTime R) := ⟨fun a b => .of R (a.val - b.val)⟩
instance : LE (FloatTime R) := ⟨fun a b => a.val ≤ b.val⟩
noncomputable instance : DecidableLE (FloatTime R) := fun _ _ => Classical.propDecidable _

/-- The event selection of `kmc.py:555-564` for a simulation with this clock. -/
noncomputable def onClock {ρ U : Type} (R : Rounding) (k : Kernel ρ EReal U) : Kernel ρ (FloatTime R) U :=
  { cumsum := k.cumsum
    propose := fun cum r1 r2 =>
      match k.propose cum r1 r2 with
      | .error e => .error e
      | .ok (i, dt) => .ok (i, .of R dt) }

/-- The unit in the last place of a number with `p` significant bits. -/
noncomputable def lastPlace (p : ℕ) (x : ℝ) : ℝ := (2 : ℝ) ^ (Int.log 2 |x| - (p : ℤ) + 1)

/-- The nearest number with `p` significant bits, the even one of two. -/
noncomputable def binaryRnd (p : ℕ) (x : ℝ) : ℝ := (roundHalfEven (x / lastPlace p x) : ℝ) * lastPlace p x

end KMC
