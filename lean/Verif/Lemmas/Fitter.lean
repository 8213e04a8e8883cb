import Verif.Spec.Fitter
import Mathlib.Tactic.Ring
import Mathlib.Tactic.FieldSimp
import Mathlib.Tactic.Linarith
import Mathlib.Tactic.Positivity
/-
Algebra of the normalised fit.
-/
namespace KMC
namespace Fitter
open Spec

theorem average_mean {m : Nat} (hm : m ≠ 0) {weight : Option (Fin m → ℝ)} {v : Fin m → ℝ} {a : ℝ}
    (h : average weight v = .ok a) : IsWeightedMean (effectiveWeights weight) v a := by
  cases weight with
  | none =>
    simp only [average, Except.ok.injEq] at h
    subst h
    have : (m : ℝ) ≠ 0 := Nat.cast_ne_zero.mpr hm
    simp only [IsWeightedMean, effectiveWeights, Option.getD_none, Finset.sum_const, Finset.card_univ,
      Fintype.card_fin, nsmul_eq_mul, mul_one, one_mul]
    exact ⟨this, by field_simp⟩
  | some w =>
    simp only [average] at h
    split at h
    · cases h
    · next hw =>
      simp only [Except.ok.injEq] at h
      subst h
      exact ⟨hw, div_mul_cancel₀ _ hw⟩

theorem averageColumns_mean {m n : Nat} (hm : m ≠ 0) {weight : Option (Fin m → ℝ)}
    {x : Fin m → Fin n → ℝ} {a : Fin n → ℝ} (h : averageColumns weight x = .ok a) (j : Fin n) :
    IsWeightedMean (effectiveWeights weight) (fun i => x i j) (a j) := by
  apply average_mean hm
  cases weight with
  | none =>
    simp only [averageColumns, Except.ok.injEq] at h
    subst h
    rfl
  | some w =>
    simp only [averageColumns] at h
    split at h
    · cases h
    · next hw =>
      simp only [Except.ok.injEq] at h
      subst h
      simp only [average, if_neg hw]

theorem columnScale_spread {m n : Nat} (x : Fin m → Fin n → ℝ) (a : Fin n → ℝ) (j : Fin n) :
    IsSpread (fun i => x i j) (a j) (columnScale (fun i j => x i j - a j) j) := by
  have hnn : 0 ≤ ∑ i, (x i j - a j) ^ 2 := Finset.sum_nonneg fun i _ => sq_nonneg _
  unfold columnScale IsSpread
  split
  · next h =>
    refine ⟨one_pos, .inr ⟨?_, rfl⟩⟩
    rw [Real.sqrt_eq_zero hnn, Finset.sum_eq_zero_iff_of_nonneg fun i _ => sq_nonneg _] at h
    intro i
    have := h i (Finset.mem_univ i)
    rw [sq_eq_zero_iff, sub_eq_zero] at this
    exact this
  · next h =>
    exact ⟨lt_of_le_of_ne (Real.sqrt_nonneg _) (Ne.symm h), .inl (Real.sq_sqrt hnn)⟩

theorem fitValues_normalized {L : Lasso} {m n : Nat} {x : Fin m → Fin n → ℝ} {y : Fin m → ℝ}
    {weight : Option (Fin m → ℝ)} {f : Fitted m n} (h : fitValues L x y weight true = .ok f) :
    ∃ (a : Fin n → ℝ) (b : ℝ) (beta : Fin n → ℝ), m ≠ 0 ∧ averageColumns weight x = .ok a ∧
      average weight y = .ok b ∧
      L.coef (fun i j => (x i j - a j) / columnScale (fun i j => x i j - a j) j) (fun i => y i - b) weight
        = .ok beta ∧
      f.keci = (fun j => beta j / columnScale (fun i j => x i j - a j) j) ∧
      f.emptyCluster = b - dot a f.keci ∧
      ∀ i, f.predicted i = dot (x i) f.keci + f.emptyCluster := by
  unfold fitValues at h
  split at h
  · cases h
  · next hm =>
    rw [if_neg (by simp)] at h
    split at h
    · cases h
    · next a ha =>
      split at h
      · cases h
      · next b hb =>
        simp only at h
        split at h
        · cases h
        · next beta hbeta =>
          cases h
          exact ⟨a, b, beta, hm, ha, hb, hbeta, rfl, rfl, fun i => rfl⟩

theorem linear_eq {n : Nat} (k : Fin n → ℝ) (b : ℝ) (row : Fin n → ℝ) : linear k b row = dot row k + b := rfl

/-- Undoing the normalisation, algebraically. -/
theorem unnormalize {n : Nat} {a s beta : Fin n → ℝ} (b : ℝ) (hs : ∀ j, s j ≠ 0) (row : Fin n → ℝ) :
    linear (fun j => beta j / s j) (b - dot a fun j => beta j / s j) row
      = b + ∑ j, (row j - a j) / s j * beta j := by
  have : ∑ j, (row j - a j) / s j * beta j = dot row (fun j => beta j / s j) - dot a fun j => beta j / s j := by
    unfold dot
    rw [← Finset.sum_sub_distrib]
    refine Finset.sum_congr rfl fun j _ => ?_
    have := hs j
    field_simp
  rw [linear_eq, this]
  ring

/-- Weighted deviations from the weighted mean add up to nothing. -/
theorem sum_dev {m : Nat} {w v : Fin m → ℝ} {a : ℝ} (h : IsWeightedMean w v a) :
    ∑ i, w i * (v i - a) = 0 := by
  have : ∑ i, w i * (v i - a) = ∑ i, w i * v i - a * ∑ i, w i := by
    rw [Finset.mul_sum, ← Finset.sum_sub_distrib]
    exact Finset.sum_congr rfl fun i _ => by ring
  rw [this, h.2, sub_self]

theorem sum_dev_rows {m n : Nat} {w : Fin m → ℝ} {x : Fin m → Fin n → ℝ} {a : Fin n → ℝ}
    (h : ∀ j, IsWeightedMean w (fun i => x i j) (a j)) (k : Fin n → ℝ) :
    ∑ i, w i * ∑ j, (x i j - a j) * k j = 0 := by
  have : ∑ i, w i * ∑ j, (x i j - a j) * k j = ∑ j, (∑ i, w i * (x i j - a j)) * k j := by
    simp only [Finset.mul_sum, Finset.sum_mul]
    rw [Finset.sum_comm]
    exact Finset.sum_congr rfl fun j _ => Finset.sum_congr rfl fun i _ => by ring
  rw [this]
  refine Finset.sum_eq_zero fun j _ => ?_
  rw [sum_dev (h j), zero_mul]

/-- For fixed coefficients the loss of any intercept is that of the mean-matching one plus the
square of the difference. -/
theorem loss_split {m n : Nat} {w : Fin m → ℝ} {x : Fin m → Fin n → ℝ} {y : Fin m → ℝ} {a : Fin n → ℝ}
    {b : ℝ} (ha : ∀ j, IsWeightedMean w (fun i => x i j) (a j)) (hb : IsWeightedMean w y b)
    (k : Fin n → ℝ) (t : ℝ) :
    ∑ i, w i * (y i - linear k t (x i)) ^ 2
      = ∑ i, w i * (y i - b - ∑ j, (x i j - a j) * k j) ^ 2 + (∑ i, w i) * (b - dot a k - t) ^ 2 := by
  set d := b - dot a k - t with hd
  have hr : ∀ i, y i - linear k t (x i) = (y i - b - ∑ j, (x i j - a j) * k j) + d := by
    intro i
    have : ∑ j, (x i j - a j) * k j = dot (x i) k - dot a k := by
      unfold dot
      rw [← Finset.sum_sub_distrib]
      exact Finset.sum_congr rfl fun j _ => by ring
    rw [linear_eq, this, hd]
    ring
  have hz : ∑ i, w i * (y i - b - ∑ j, (x i j - a j) * k j) = 0 := by
    have : ∑ i, w i * (y i - b - ∑ j, (x i j - a j) * k j)
        = ∑ i, w i * (y i - b) - ∑ i, w i * ∑ j, (x i j - a j) * k j := by
      rw [← Finset.sum_sub_distrib]
      exact Finset.sum_congr rfl fun i _ => by ring
    rw [this, sum_dev hb, sum_dev_rows ha, sub_zero]
  calc ∑ i, w i * (y i - linear k t (x i)) ^ 2
      = ∑ i, (w i * (y i - b - ∑ j, (x i j - a j) * k j) ^ 2
          + 2 * d * (w i * (y i - b - ∑ j, (x i j - a j) * k j)) + w i * d ^ 2) := by
        refine Finset.sum_congr rfl fun i _ => ?_
        rw [hr i]
        ring
    _ = _ := by
        rw [Finset.sum_add_distrib, Finset.sum_add_distrib, ← Finset.mul_sum, hz, ← Finset.sum_mul]
        ring

/-! ### Leaving one out -/

theorem masked_true {α : Type} (l : List α) : masked l (List.replicate l.length true) = l := by
  induction l with
  | nil => rfl
  | cons a l ih => rw [List.length_cons, List.replicate_succ, masked, if_pos rfl, ih]

theorem masked_trainMask {α : Type} (l : List α) (i : Nat) :
    masked l (trainMask l.length i) = l.eraseIdx i := by
  induction l generalizing i with
  | nil => rfl
  | cons a l ih =>
    unfold trainMask at ih ⊢
    rw [List.length_cons, List.replicate_succ]
    cases i with
    | zero => simp [masked, masked_true]
    | succ i => simp [masked, ih]

theorem leftOutErrors_ok {L : Lasso} {n : Nat} {x : List (Fin n → ℝ)} {y : List ℝ} {normalize : Bool}
    {is : List Nat} {es : List ℝ} (h : leftOutErrors L x y normalize is = .ok es) :
    is.map (leftOutError L x y normalize) = es.map .ok := by
  induction is generalizing es with
  | nil => simp only [leftOutErrors, Except.ok.injEq] at h; subst h; rfl
  | cons i is ih =>
    rw [leftOutErrors] at h
    split at h
    · cases h
    · next e he =>
      split at h
      · cases h
      · next es' hes =>
        cases h
        rw [List.map_cons, List.map_cons, he, ih hes]

end Fitter
end KMC
