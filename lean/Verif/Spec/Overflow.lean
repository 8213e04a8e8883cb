import Verif.Model.Overflow
/-
Words for the claim on rates that overflow or are not numbers.
-/
namespace KMC.Spec
open KMC Overflow

variable {F : Format}

/-- The floating-point value stands for the (possibly infinite) real number. -/
def ShowsValue : Flt F → EReal → Prop
  | .fin x, y => y = (x : EReal)
  | .posInf, y => y = ⊤
  | .negInf, y => y = ⊥
  | .nan, _ => False

/-- Two answers to "which event, after what time?": both the same error, or the same event and the same time. -/
def SameProposal : Py (Nat × Flt F) → Py (Nat × EReal) → Prop
  | .error x, .error y => x = y
  | .ok (i, t), .ok (j, u) => i = j ∧ ShowsValue t u
  | _, _ => False

/-- The running sums of the rates, and the waiting time for the draw `r2`, stay within the range of the format. -/
structure InRange (F : Format) (rates : List ℝ) (r2 : ℝ) : Prop where
  sums : ∀ c ∈ KMC.cumsum F.toRounding rates, c ≤ F.limit
  total : ∀ tot, (KMC.cumsum F.toRounding rates).getLast? = some tot → tot ≠ 0 →
    1 ≤ tot * F.limit ∧ F.rnd (-1 / tot) ≠ 0 ∧
      (r2 = 0 ∨ -Real.log r2 ≤ F.limit ∧ F.rnd (F.rnd (-1 / tot) * F.rnd (Real.log r2)) ≤ F.limit)

/-- Rates that are numbers of the format not below zero, or infinite. -/
def NotNegative (F : Format) (rates : List (Flt F)) : Prop :=
  ∀ p ∈ rates, p = .posInf ∨ ∃ x, p = .fin x ∧ F.Rep x ∧ 0 ≤ x

/-- `k` is the first event at which the running sum of the rates is infinite. -/
def FirstInfinite (rates : List (Flt F)) (k : Nat) : Prop :=
  (Overflow.cumsum rates)[k]? = some .posInf ∧ ∀ j, j < k → (Overflow.cumsum rates)[j]? ≠ some .posInf

/-- The model never gives this event a rate that is a number. -/
def NeverANumber {M : Type} (m : RateModel M (Flt F) (Flt F)) (e : Event) : Prop :=
  ∀ ms st p, m.computeProbability ms e st = .ok p → p = .nan

end KMC.Spec
