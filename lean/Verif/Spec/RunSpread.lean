import Verif.Spec.RandomWalk
import Verif.Spec.OneSimulation
/-
How far the results of single runs lie apart.
-/
namespace KMC.Spec
open KMC MeasureTheory ProbabilityTheory

/-- The scalar product. -/
noncomputable def dotVec (x y : Vec3 ℝ) : ℝ := ∑ c, x c * y c

/-- The directions in which ions can get at all. -/
noncomputable def hopDirections {σ φ : Type} (s0 : Sim σ φ Unit ℝ EReal) (v : Event → Vec3 ℝ) :
    Submodule ℝ (Vec3 ℝ) :=
  Submodule.span ℝ {x | ∃ e ∈ s0.lib.events, x = v e}

/-- Hops in `d` dimensions without a preferred direction: in every configuration that the simulation reaches, the
hops weighted by their rates have in every direction the `d`-th part of their squared length. -/
def Isotropic {σ φ ψ : Type} (o : ActiveSiteOrder String ψ) (mobile : String) (m : RateModel Unit ℝ EReal)
    (s0 : Sim σ φ Unit ℝ EReal) (v : Event → Vec3 ℝ) (a : ℝ) (d : Nat) : Prop :=
  ∀ s, Reaches m s0 s → ∀ x ∈ hopDirections s0 v,
    (s0.lib.events.map fun e => rateIn m s.st e * dotVec (wayOf o mobile v s.st.occ e) x ^ 2).sum =
      a ^ 2 / d * sqLen x * totalRate m s0.lib.events s.st

/-- The ways out of every site have no preferred direction. -/
def IsotropicStars {σ φ : Type} (s0 : Sim σ φ Unit ℝ EReal) (v : Event → Vec3 ℝ) (a : ℝ) (z d : Nat) : Prop :=
  ∀ k, k < s0.st.occ.length → ∀ x ∈ hopDirections s0 v,
    (s0.lib.events.map fun e => dotVec (wayOut v k e) x ^ 2).sum = z * a ^ 2 / d * sqLen x

/-- Random numbers for several runs: each run has its own, and all are independent. -/
structure IndependentRuns {Θ : Type} [MeasurableSpace Θ] (μ : Measure Θ) {K : Nat}
    (U : Fin K → Nat → Θ → ℝ × ℝ) : Prop where
  each : ∀ i, RandomNumbers μ (U i)
  independent : iIndepFun (fun p : Fin K × Nat => U p.1 p.2) μ

end KMC.Spec
