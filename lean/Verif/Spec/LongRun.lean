import Verif.Spec.Equilibrium
/-
Averages over all sequences of random numbers that a simulation may draw.
-/
namespace KMC.Spec
open KMC MeasureTheory

variable {σ φ : Type}

/-- The simulation after one more step with the random numbers `r1` and `r2`: it proposes an event and executes
it.  (A proposal that fails leaves it as it is.) -/
noncomputable def oneStep (m : RateModel Unit ℝ EReal) (s : Sim σ φ Unit ℝ EReal) (r1 r2 : ℝ) :
    Sim σ φ Unit ℝ EReal :=
  match s.propose (realKernel Rounding.exact) r1 r2 with
  | .ok (e, dt) => (s.update (realKernel Rounding.exact) m e dt).2
  | .error _ => s

/-- The mean, over the random numbers of the first `n` steps, of the sum over these steps of the value of `f` in
the configuration of the step times the time that the simulation stays in it.  The random numbers are
independent and uniform in `[0,1)`. -/
noncomputable def accumulated (m : RateModel Unit ℝ EReal) (f : List Int → ℝ) : Nat → Sim σ φ Unit ℝ EReal → ℝ
  | 0, _ => 0
  | n + 1, s => ∫ r1 in Set.Ico (0 : ℝ) 1, ∫ r2 in (0 : ℝ)..1,
      (f s.st.occ * stay s r1 r2 + accumulated m f n (oneStep m s r1 r2))

/-- The mean time that the first `n` steps take. -/
noncomputable def meanTime (m : RateModel Unit ℝ EReal) (n : Nat) (s : Sim σ φ Unit ℝ EReal) : ℝ :=
  accumulated m (fun _ => 1) n s

/-- The mean of `F` after `n` steps. -/
noncomputable def meanOf (m : RateModel Unit ℝ EReal) (F : Sim σ φ Unit ℝ EReal → ℝ) : Nat →
    Sim σ φ Unit ℝ EReal → ℝ
  | 0, s => F s
  | n + 1, s => ∫ r1 in Set.Ico (0 : ℝ) 1, ∫ r2 in (0 : ℝ)..1, meanOf m F n (oneStep m s r1 r2)

open Classical in
/-- 1 if the proposition holds, 0 if not. -/
noncomputable def indicator (p : Prop) : ℝ := if p then 1 else 0

open Classical in
/-- The number of sites of `S` among the first `n` on which `p` holds. -/
noncomputable def countSites (n : Nat) (S p : Nat → Prop) : Nat :=
  ((Finset.range n).filter fun i => S i ∧ p i).card

end KMC.Spec
