import Verif.Model.Fitter
import Verif.Spec.Parameters
/-
What the numbers of a fit should be.
-/
namespace KMC
namespace Spec
open Fitter Parameters

/-- The weights a fit works with: all ones if none are given. -/
def effectiveWeights {m : Nat} (weight : Option (Fin m → ℝ)) : Fin m → ℝ := weight.getD fun _ => 1

/-- `a` is the weighted mean of `v`. -/
def IsWeightedMean {m : Nat} (w v : Fin m → ℝ) (a : ℝ) : Prop :=
  ∑ i, w i ≠ 0 ∧ a * ∑ i, w i = ∑ i, w i * v i

/-- The prediction of a linear model. -/
noncomputable def linear {n : Nat} (k : Fin n → ℝ) (b : ℝ) (row : Fin n → ℝ) : ℝ := (∑ j, row j * k j) + b

/-- The Lasso objective with one penalty factor per coefficient. -/
noncomputable def lassoLoss {m n : Nat} (c alpha : ℝ) (w : Fin m → ℝ) (x : Fin m → Fin n → ℝ) (y : Fin m → ℝ)
    (penalty : Fin n → ℝ) (k : Fin n → ℝ) (b : ℝ) : ℝ :=
  c * ∑ i, w i * (y i - linear k b (x i)) ^ 2 + alpha * ∑ j, penalty j * |k j|

/-- The solver returns a minimiser of the Lasso objective without intercept, for the prefactor `c`
it uses for the given weights. -/
def SolvesLasso (L : Lasso) (c : ∀ {m : Nat}, (Fin m → ℝ) → ℝ) (alpha : ℝ) : Prop :=
  ∀ {m n : Nat} (x : Fin m → Fin n → ℝ) (y : Fin m → ℝ) (weight : Option (Fin m → ℝ)) (beta : Fin n → ℝ),
    L.coef x y weight = .ok beta → ∀ beta' : Fin n → ℝ,
      lassoLoss (c (effectiveWeights weight)) alpha (effectiveWeights weight) x y (fun _ => 1) beta 0
        ≤ lassoLoss (c (effectiveWeights weight)) alpha (effectiveWeights weight) x y (fun _ => 1) beta' 0

/-- The spread of a column: its Euclidean norm after centring, or 1 if it is constant. -/
def IsSpread {m : Nat} (column : Fin m → ℝ) (mean scale : ℝ) : Prop :=
  0 < scale ∧ (scale ^ 2 = ∑ i, (column i - mean) ^ 2 ∨ (∀ i, column i = mean) ∧ scale = 1)

/-- What the record of a fit should say besides the coefficients: how good the fit is on the data and in
cross-validation, how it was made, and which environment it is for. -/
structure FitRecord (out : Outside) (o : FitOptions) {m : Nat} (y weight predicted : Fin m → ℝ) (loocv : ℝ)
    (p : Params) : Prop where
  rmse : p.rmse = out.float (Real.sqrt ((∑ i, (y i - predicted i) ^ 2) / m))
  loocv : p.loocv = out.float loocv
  weight : p.weight = .list (List.ofFn fun i => out.float (weight i))
  alpha : p.alpha = out.float o.alpha
  normalize : p.normalize = .bool o.normalize
  fingerprints : p.orbitFingerprints = o.orbitFingerprints
  hash : p.localEnvironmentHash = o.localEnvironmentHash
  made : p.timeStamp = out.timeStamp ∧ p.time = out.time

end Spec
end KMC
