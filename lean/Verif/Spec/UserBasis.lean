import Verif.Model.UserBasis
/-
Vocabulary for occupations in registered bases.
-/
namespace KMC.Spec
open KMC UserBasis

/-- An array of the type of the match value can hold the match value and the mismatch value. -/
def HoldsItsValues (b : Obj) : Prop :=
  (b.body.matchValue.isInt = true → (∃ z : ℤ, b.body.matchValue.val = z) ∧ ∃ z : ℤ, b.body.mismatchValue.val = z)

/-- Match and mismatch are told apart. -/
def DistinctValues (b : Obj) : Prop := b.body.matchValue.val ≠ b.body.mismatchValue.val

/-- All values are the match value or the mismatch value. -/
def TwoValued (b : Obj) (data : List ℚ) : Prop :=
  ∀ v ∈ data, v = b.body.matchValue.val ∨ v = b.body.mismatchValue.val

/-- The class registered under the name by the last of these registrations that use it. -/
def latest (regs : List (String × Cls)) (name : String) : Option Cls :=
  (regs.reverse.find? fun e => e.1 == name).map Prod.snd

/-- A number without its fractional part. -/
def IntegerPart (q : ℚ) (z : ℤ) : Prop := (0 ≤ q → (z : ℚ) ≤ q ∧ q < z + 1) ∧ (q < 0 → (z : ℚ) - 1 < q ∧ q ≤ z)

end KMC.Spec
