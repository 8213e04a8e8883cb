import Verif.Model.Composite
import Verif.Model.LocalBarrier
/-
The same material with all energies in another unit, or with all energies larger by a common factor.
-/
namespace KMC.Spec
open KMC LocalBarrier

/-- The same expansion with all fitted energies multiplied by `x`. -/
def scaledExpansion (x : ℝ) (m : LCE ℝ) : LCE ℝ :=
  { m with keci := m.keci.map (fun l => l.map (x * ·)), emptyCluster := m.emptyCluster.map (x * ·) }

/-- A number in the table of barriers multiplied by a positive `x`; infinities stay what they are. -/
def scaledFloat (x : ℚ) : PyFloat → PyFloat
  | .fin q => .fin (x * q)
  | f => f

/-- The same rules with all their numbers multiplied by `x`. -/
def scaledRule (x : ℚ) (r : Rule) : Rule := { r with props := r.props.map fun p => (p.1, scaledFloat x p.2) }

/-- The same local barrier model with all barriers multiplied by `x`. -/
def scaledBarriers (x : ℚ) (m : LocalBarrierModel) : LocalBarrierModel :=
  { m with
    rules := m.rules.map (scaledRule x)
    defaultProperties := m.defaultProperties.map fun d => d.map fun p => (p.1, scaledFloat x p.2) }

/-- Two site-energy models that keep the same records, fail in the same cases, and whose differences are those of
the first one times `x`. -/
structure ScaledDifferences {M T : Type} (x : ℝ) (s s' : SiteSource M T) : Prop where
  start : s'.initializeState = s.initializeState
  follow : s'.applyEvent = s.applyEvent
  value : ∀ ms e st d v, s.difference ms e st d = .ok v → s'.difference ms e st d = .ok (x * v)
  error : ∀ ms e st d err, s.difference ms e st d = .error err → s'.difference ms e st d = .error err

end KMC.Spec
