import Verif.Spec.Clock
import Verif.Model.FloatTracker
/-
Vocabulary for the tracker in floating-point arithmetic.
-/
namespace KMC.Spec
open KMC

/-- The number keeps a distance of more than the fraction `u` of itself from every half integer. -/
def OffHalf (u x : ℝ) : Prop := ∀ k : ℤ, u * |x| < |x - (k + 1 / 2)|

/-- The nearest image of every hop of the event is clear: no component of the difference of the coordinates of the two
sites comes close to half a cell. -/
def ClearImage (u : ℝ) (g : Geometry ℝ) (e : Event) : Prop :=
  ∀ f t ff ft, e.mobile = [f, t] → pyGet g.fracCoords f = .ok ff → pyGet g.fracCoords t = .ok ft →
    ∀ c, OffHalf u (ft c - ff c)

/-- The sum of the sizes of the components, along one axis, of the three lattice vectors. -/
def extent (g : Geometry ℝ) (c : Fin 3) : ℝ := |g.lattice 0 c| + |g.lattice 1 c| + |g.lattice 2 c|

/-- How far rounding can take the displacement of an ion, along an axis with extent `S`, in `n` hops. -/
noncomputable def roundingDrift (u S : ℝ) (n : Nat) : ℝ := (1 + u) ^ n * u * S * (6 * n + n * (n + 1) / 4)

end KMC.Spec
