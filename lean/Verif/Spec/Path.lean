import Verif.Spec.OneSimulation
import Verif.Spec.Trace
import Mathlib.Analysis.SpecialFunctions.Exp
/-
The continuous-time Markov chain that has the model's rates: how likely are the first events and waiting times.
-/
namespace KMC.Spec
open KMC

/-- The rate that the model gives to the event in the state (zero if it gives none). -/
noncomputable def rateIn (m : RateModel Unit ℝ EReal) (st : State EReal) (e : Event) : ℝ :=
  match m.computeProbability () e st with
  | .ok p => p
  | .error _ => 0

/-- The rate at which anything happens: the sum of the rates of the listed events. -/
noncomputable def totalRate (m : RateModel Unit ℝ EReal) (events : List Event) (st : State EReal) : ℝ :=
  (events.map (rateIn m st)).sum

/-- The probability, in the chain with these rates that starts in the state, that the first events are those of
the list, each after waiting longer than the time given with it: the waiting time before an event is exponential
with the total rate, and the event is then chosen in proportion to its rate.  (An event listed several times is
chosen through each of its listings.) -/
noncomputable def pathChance (m : RateModel Unit ℝ EReal) (events : List Event) :
    State EReal → List (Event × ℝ) → ℝ
  | _, [] => 1
  | st, (e, t) :: rest =>
    events.count e * rateIn m st e / totalRate m events st * Real.exp (-totalRate m events st * t) *
      pathChance m events (st.applyEvent e 0).2 rest

variable {σ φ : Type}

/-- The first events that the simulation `s` executes with the random numbers `draws` are those of the list, each
after a waiting time longer than the one given with it. -/
def Follows (m : RateModel Unit ℝ EReal) (draws : Nat → ℝ × ℝ) (s : Sim σ φ Unit ℝ EReal)
    (path : List (Event × ℝ)) : Prop :=
  ∃ hist s', Steps (realKernel Rounding.exact) m draws true 0 s hist s' ∧
    List.Forall₂ (fun a b => a.1 = b.1 ∧ (a.2 : EReal) < b.2) path hist

end KMC.Spec
