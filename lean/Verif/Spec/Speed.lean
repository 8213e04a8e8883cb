import Verif.Spec.Trace
import Verif.Model.Composite
import Verif.Model.Propose
/-
Two simulations that differ only in how fast everything happens.
-/
namespace KMC.Spec
open KMC

/-- The second rate model gives `c` times the rates of the first one and is otherwise the same: it keeps the same
record of its own, and raises the same exceptions.  Neither looks at the clock. -/
structure SpedUp {M : Type} (c : ℝ) (m m' : RateModel M ℝ EReal) : Prop where
  start : ∀ (st st' : State EReal) es, st'.occ = st.occ → st'.step = st.step →
    m'.initializeState st' es = m.initializeState st es
  follow : ∀ ms e (st st' : State EReal), st'.occ = st.occ → st'.step = st.step →
    m'.applyEvent ms e st' = m.applyEvent ms e st
  rate : ∀ ms e (st st' : State EReal), st'.occ = st.occ → st'.step = st.step →
    ∀ p, m.computeProbability ms e st = .ok p → m'.computeProbability ms e st' = .ok (c * p)
  error : ∀ ms e (st st' : State EReal), st'.occ = st.occ → st'.step = st.step →
    ∀ x, m.computeProbability ms e st = .error x → m'.computeProbability ms e st' = .error x

/-- A duration on a clock that runs `c` times as fast. -/
noncomputable def shorter (c : ℝ) (t : EReal) : EReal := ((1 / c : ℝ) : EReal) * t

/-- A site-energy model that does not look at the clock. -/
structure NoClock {M : Type} (s : SiteSource M EReal) : Prop where
  start : ∀ (st st' : State EReal) es, st'.occ = st.occ → st'.step = st.step →
    s.initializeState st' es = s.initializeState st es
  follow : ∀ ms e (st st' : State EReal), st'.occ = st.occ → st'.step = st.step →
    s.applyEvent ms e st' = s.applyEvent ms e st
  difference : ∀ ms e (st st' : State EReal) d, st'.occ = st.occ → st'.step = st.step →
    s.difference ms e st' d = s.difference ms e st d

end KMC.Spec
