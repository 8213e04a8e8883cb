import Verif.Model.Clock
/-
Vocabulary for the clock in floating-point arithmetic.
-/
namespace KMC.Spec
open KMC

/-- The rounded value of a number differs from it by at most the fraction `u` of it. -/
def Accurate (R : Rounding) (u : ℝ) : Prop := ∀ x, |R.rnd x - x| ≤ u * |x|

/-- Two rate models, for simulations with different clocks, that give the same answers whatever the clocks
show. -/
structure IgnoresClock {M ρ T T' : Type} (m : RateModel M ρ T) (m' : RateModel M ρ T') : Prop where
  starts : ∀ (st : State T) (st' : State T') es, st.occ = st'.occ → st.step = st'.step →
    m.initializeState st es = m'.initializeState st' es
  applies : ∀ ms e (st : State T) (st' : State T'), st.occ = st'.occ → st.step = st'.step →
    m.applyEvent ms e st = m'.applyEvent ms e st'
  computes : ∀ ms e (st : State T) (st' : State T'), st.occ = st'.occ → st.step = st'.step →
    m.computeProbability ms e st = m'.computeProbability ms e st'

/-- Everything except the clocks agrees. -/
structure SameButClock {σ φ M ρ T T' : Type} (s : Sim σ φ M ρ T) (s' : Sim σ φ M ρ T') : Prop where
  lib : s.lib = s'.lib
  occ : s.st.occ = s'.st.occ
  step : s.st.step = s'.st.step
  ms : s.ms = s'.ms
  prob : s.prob = s'.prob
  cum : s.cum = s'.cum

end KMC.Spec
