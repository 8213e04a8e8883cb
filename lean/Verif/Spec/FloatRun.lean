import Verif.Spec.FloatRate
import Verif.Spec.RoundedChoice
/-
Vocabulary for whole simulations in floating-point arithmetic, rates included.
-/
namespace KMC.Spec
open KMC

/-- `q` is a rate the arithmetic `R` can hold, `p` is a rate, and they are equal up to the factor `a`. -/
structure NearRate (R : Rounding) (a q p : ℝ) : Prop where
  nonneg : 0 ≤ q
  rep : R.Rep q
  nonneg' : 0 ≤ p
  within : WithinFactor a q p

/-- A rate model in floating-point arithmetic beside an exact one.  For the given events and all configurations
with the composition of `occ` the first answers whenever the second does, with the same rate up to the factor
`a`.  The internal states develop alike. -/
structure RatesWithin {M : Type} (R : Rounding) (a : ℝ) (events : List Event) (occ : List Int)
    (m : RateModel M ℝ (FloatTime R)) (m' : RateModel M ℝ EReal) : Prop where
  starts : ∀ (st : State (FloatTime R)) (st' : State EReal) es, st.occ = st'.occ → st.step = st'.step →
    m.initializeState st es = m'.initializeState st' es
  applies : ∀ ms e (st : State (FloatTime R)) (st' : State EReal), st.occ = st'.occ → st.step = st'.step →
    m.applyEvent ms e st = m'.applyEvent ms e st'
  computes : ∀ ms e (st : State (FloatTime R)) (st' : State EReal), e ∈ events → SameComposition st'.occ occ →
    st.occ = st'.occ → st.step = st'.step → ∀ p, m'.computeProbability ms e st' = .ok p →
      ∃ q, m.computeProbability ms e st = .ok q ∧ NearRate R a q p

/-- The random number keeps more than the distance `δ` from the points at which the choice changes from one event
to the next: the shares of the first events in the total rate. -/
def KeepsClear (δ : ℝ) (rates : List ℝ) (r1 : ℝ) : Prop :=
  ∀ j, j < rates.length → δ < |r1 - (rates.take (j + 1)).sum / rates.sum|

/-- The random numbers of the next `n` steps of the exact simulation keep clear. -/
def ClearAhead {σ φ M : Type} (δ : ℝ) (m' : RateModel M ℝ EReal) (draws : Nat → ℝ × ℝ) :
    Nat → Nat → Sim σ φ M ℝ EReal → Prop
  | 0, _, _ => True
  | n + 1, c, s =>
    ((draws c).1 < 1 ∧ 0 < (draws c).2 ∧ (draws c).2 < 1) ∧ KeepsClear δ s.prob (draws c).1 ∧
    ∀ e dt d s1, s.propose (realKernel Rounding.exact) (draws c).1 (draws c).2 = .ok (e, d) →
      s.update (realKernel Rounding.exact) m' e dt = (.ok (), s1) → ClearAhead δ m' draws n (c + 1) s1

/-- Everything agrees except the clocks, the rates and their running sums; the rates agree up to the factor
`a`. -/
structure SamePlace {σ φ M T T' : Type} (a : ℝ) (s : Sim σ φ M ℝ T) (s' : Sim σ φ M ℝ T') : Prop where
  lib : s.lib = s'.lib
  occ : s.st.occ = s'.st.occ
  step : s.st.step = s'.st.step
  ms : s.ms = s'.ms
  rates : List.Forall₂ (WithinFactor a) s.prob s'.prob

/-- How clear of the edges the random numbers have to stay: `n` events, roundings to the relative accuracy `u`,
rates right up to the factor `a`. -/
noncomputable def margin (u a : ℝ) (n : Nat) : ℝ := 2 * n * u + (1 - a * a)

end KMC.Spec
