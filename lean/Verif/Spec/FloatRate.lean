import Verif.Model.FloatRate
import Verif.Spec.Clock
import Mathlib.Analysis.SpecialFunctions.Exp
/-
Vocabulary for rates in floating-point arithmetic.
-/
namespace KMC.Spec
open KMC

/-- The expansion with the absolute values of all its numbers. -/
noncomputable def absoluteLCE (m : LCE ℝ) : LCE ℝ :=
  { m with
    siteBasisValues := m.siteBasisValues.map fun t => t.map fun rows => rows.map fun row => row.map fun x => |x|
    keci := m.keci.map fun l => l.map fun x => |x|
    emptyCluster := m.emptyCluster.map fun x => |x| }

/-- The occupations whose products the expansion adds up with all signs removed.  An expansion with site basis
functions reads them as state numbers, which stay as they are. -/
def absoluteOcc (m : LCE ℝ) (occ : List Int) : List Int :=
  match m.basisIndices, m.siteBasisValues with
  | some _, some _ => occ
  | _, _ => occ.map fun v => |v|

/-- The size of the sum that makes up the value of an expansion: the value it would have if all its terms were
positive. -/
noncomputable def magnitude (m : LCE ℝ) (occ : List Int) (e : Event) : Py ℝ :=
  (absoluteLCE m).compute (absoluteOcc m occ) e

/-- The expansion has no cluster with more than `s` sites, no orbit with more than `c` clusters, and at most
`k` features. -/
structure SizeAtMost (m : LCE ℝ) (s c k : Nat) : Prop where
  sites : ∀ orbit ∈ m.clusterSiteIndices, ∀ cluster ∈ orbit, cluster.length ≤ s
  clusters : ∀ orbit ∈ m.clusterSiteIndices, orbit.length ≤ c
  features : m.clusterSiteIndices.length ≤ k

/-- The size of the sum behind the site-energy difference; 0 without a site model. -/
noncomputable def siteMagnitude (site : Option (LCE ℝ)) (occ : List Int) (e : Event) : Py ℝ :=
  match site with
  | none => .ok 0
  | some m => magnitude m occ e

/-- The size of the sum behind the effective barrier of the event is at most `b`. -/
def BarrierSizeAtMost (kra : LCE ℝ) (site : Option (LCE ℝ)) (occ : List Int) (e : Event) (b : ℝ) : Prop :=
  ∀ A D, magnitude kra occ e = .ok A → siteMagnitude site occ e = .ok D → A + D / 2 ≤ b

/-- How far `n` roundings to a relative accuracy `u` can take a sum of size `x`. -/
noncomputable def roundingError (u : ℝ) (n : Nat) (x : ℝ) : ℝ := ((1 + u) ^ n - 1) * x

/-- The smallest and the largest factor by which a rate can be off, if its exponent is off by at most `η`, the
exponential function by the fraction `ε` and the final multiplication by the fraction `u`. -/
noncomputable def lowFactor (u ε η : ℝ) : ℝ := (1 - u) * (1 - ε) * Real.exp (-η)

@[inherit_doc lowFactor]
noncomputable def highFactor (u ε η : ℝ) : ℝ := (1 + u) * (1 + ε) * Real.exp η

/-- The library function is the exponential function up to the fraction `ε`. -/
def ExpWithin (exp : ℝ → ℝ) (ε : ℝ) : Prop := ∀ x, |exp x - Real.exp x| ≤ ε * Real.exp x

/-- `q` lies within the factors `a` and `b` of `p`. -/
def BetweenFactors (a b p q : ℝ) : Prop := a * p ≤ q ∧ q ≤ b * p

end KMC.Spec
