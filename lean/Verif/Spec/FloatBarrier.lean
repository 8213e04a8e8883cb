import Verif.Model.FloatBarrier
import Verif.Spec.FloatRun
/-
Vocabulary for local barrier models in floating-point arithmetic.
-/
namespace KMC.Spec
open KMC LocalBarrier

/-- No barrier the model holds, in its rules or among its defaults, is larger than `b` in size, apart from
infinite ones. -/
structure BarriersAtMost (m : LocalBarrierModel) (b : ℝ) : Prop where
  rules : ∀ r ∈ m.rules, ∀ p ∈ r.props, ∀ q : ℚ, p.2 = .fin q → |(q : ℝ)| ≤ b
  defaults : ∀ d, m.defaultProperties = some d → ∀ p ∈ d, ∀ q : ℚ, p.2 = .fin q → |(q : ℝ)| ≤ b

end KMC.Spec
