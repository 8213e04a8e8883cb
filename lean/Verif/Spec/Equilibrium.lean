import Verif.Spec.Progress
import Mathlib.MeasureTheory.Measure.Lebesgue.Basic
import Mathlib.MeasureTheory.Integral.IntervalIntegral.Basic
/-
The simulation as a random process: chances of the next step, mean residence times, stationary regimes.
-/
namespace KMC.Spec
open KMC MeasureTheory

variable {σ φ : Type}

/-- One step of the simulation: for some pair of random numbers, the first in `[0,1)`, the simulation `s`
proposes an event and executes it, which gives `s'`. -/
def Next (m : RateModel Unit ℝ EReal) (s s' : Sim σ φ Unit ℝ EReal) : Prop :=
  ∃ r1 r2 e dt, 0 ≤ r1 ∧ r1 < 1 ∧ s.propose (realKernel Rounding.exact) r1 r2 = .ok (e, dt) ∧
    s.update (realKernel Rounding.exact) m e dt = (.ok (), s')

/-- `s'` can come out of `s` by a number of steps. -/
def Reaches (m : RateModel Unit ℝ EReal) (s s' : Sim σ φ Unit ℝ EReal) : Prop :=
  Relation.ReflTransGen (Next m) s s'

/-- The probability that the next step of `s` leads to the configuration `y`: the length of the set of
selection numbers in `[0,1)` for which it does, the second random number being `r2`. -/
noncomputable def chance (m : RateModel Unit ℝ EReal) (r2 : ℝ) (s : Sim σ φ Unit ℝ EReal) (y : List Int) : ℝ :=
  (volume {r1 : ℝ | 0 ≤ r1 ∧ r1 < 1 ∧ ∃ e dt s', s.propose (realKernel Rounding.exact) r1 r2 = .ok (e, dt) ∧
    s.update (realKernel Rounding.exact) m e dt = (.ok (), s') ∧ s'.st.occ = y}).toReal

/-- The time that `s` stays as it is, if the random numbers are `r1` and `r2`. -/
noncomputable def stay (s : Sim σ φ Unit ℝ EReal) (r1 r2 : ℝ) : ℝ :=
  match s.propose (realKernel Rounding.exact) r1 r2 with
  | .ok (_, dt) => dt.toReal
  | .error _ => 0

/-- The mean over `r2` of the time that `s` stays as it is. -/
noncomputable def meanStay (r1 : ℝ) (s : Sim σ φ Unit ℝ EReal) : ℝ := ∫ r2 in (0 : ℝ)..1, stay s r1 r2

/-- `μ` is a stationary regime on the finite set `Ω` of configurations for the step probabilities `P`: if
`μ x` is the share of the steps that start in `x`, then the share of the steps that end in `y` is `μ y`. -/
def Stationary (Ω : Finset (List Int)) (P : List Int → List Int → ℝ) (μ : List Int → ℝ) : Prop :=
  ∀ y ∈ Ω, ∑ x ∈ Ω, μ x * P x y = μ y

/-- The model is balanced with the weights `W`: whenever every site holds one of its allowed species and a
listed event is possible, the weight of the configuration times the rate of the event is the weight of the
resulting configuration times the rate of the way back. -/
def Balanced {ψ : Type} (o : ActiveSiteOrder String ψ) (mobile : String) (m : RateModel Unit ℝ EReal)
    (events : List Event) (W : List Int → ℝ) : Prop :=
  ∀ e ∈ events, ∀ (st st' : State EReal) (dt : EReal) (d : Int) (p p' : ℝ), WellLabelled o mobile st.occ →
    eventDirection st.occ e = .ok d → d ≠ 0 → st.applyEvent e dt = (.ok (), st') →
    m.computeProbability () e st = .ok p → m.computeProbability () e st' = .ok p' →
    W st.occ * p = W st'.occ * p'

/-- The event exchanges the contents of its two sites, which turns the configuration `x` into `y`. -/
def Leads (e : Event) (x y : List Int) : Prop :=
  ∃ f t : Nat, e.mobile = [(f : Int), (t : Int)] ∧ Exchanged f t x y

end KMC.Spec
