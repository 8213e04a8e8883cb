import Verif.Spec.Path
/-
Events that never can happen.
-/
namespace KMC.Spec
open KMC

/-- The states a simulation with these events can get into (whatever its clock shows): the first one, and what an
event with a rate other than zero makes of one of them. -/
inductive CanArise (m : RateModel Unit ℝ EReal) (events : List Event) (st : State EReal) : State EReal → Prop where
  | start : CanArise m events st st
  | next {s : State EReal} {e : Event} : CanArise m events st s → e ∈ events → rateIn m s e ≠ 0 →
      CanArise m events st (s.applyEvent e 0).2

/-- An event that has the rate zero in every state that can arise without it. -/
def Idle (m : RateModel Unit ℝ EReal) (events : List Event) (st : State EReal) (e : Event) : Prop :=
  ∀ s, CanArise m events st s → rateIn m s e = 0

end KMC.Spec
