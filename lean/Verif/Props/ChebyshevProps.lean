import Mathlib.Analysis.SpecialFunctions.Trigonometric.Chebyshev.RootsExtrema
import Mathlib.Algebra.Polynomial.Sequence
import Mathlib.LinearAlgebra.FiniteDimensional.Lemmas
import Verif.Model.Basis
import Verif.Spec.LCE
/-
C47: the site basis functions of multi-state sites.
-/
namespace KMC
open Spec

/-- C47.  The table of a site with `q` states has `q` rows of equal length (`q - 1` for the
Chebyshev basis with at least two states). -/
theorem C47_shape (K : Type) [Field K] (b : Basis) : BasisShape (b.siteBasis K) := by
  cases b with
  | occupation =>
    refine ⟨fun n => by simp [Basis.siteBasis, Basis.siteBasisValues], ?_⟩
    intro n row hrow
    simp only [Basis.siteBasis, Basis.siteBasisValues, List.mem_map] at hrow
    obtain ⟨i, -, rfl⟩ := hrow
    rfl
  | chebyshev m =>
    refine ⟨fun n => ?_, ?_⟩
    · simp only [Basis.siteBasis, Basis.siteBasisValues]
      split <;> simp
    · intro n row hrow
      simp only [Basis.siteBasis, Basis.siteBasisValues, Basis.numSiteBasisFunctions] at hrow ⊢
      split at hrow
      · rename_i h
        rw [if_pos h, (List.mem_replicate.1 hrow).2]
        rfl
      · rename_i h
        rw [if_neg h]
        obtain ⟨i, -, rfl⟩ := List.mem_map.1 hrow
        simp

theorem C47_function_count (q : Nat) (hq : 2 ≤ q) (m : Int) :
    (Basis.chebyshev m).numSiteBasisFunctions q = q - 1 := by
  simp only [Basis.numSiteBasisFunctions]
  rw [if_neg (by omega)]

/-- The value of basis function `k` (from 0) of a site with `q` states in state `i`. -/
noncomputable def chebValue (q i k : Nat) : ℝ :=
  (((Basis.chebyshev 2).siteBasisValues ℝ q)[i]?.getD [])[k]?.getD 0

theorem chebT_eq (x : ℝ) (k : Nat) :
    Basis.chebT x k = (Polynomial.Chebyshev.T ℝ k).eval x := by
  induction k using Nat.twoStepInduction with
  | zero => simp [Basis.chebT]
  | one => simp [Basis.chebT]
  | more k h1 h2 =>
    have h := Polynomial.Chebyshev.T_add_two ℝ k
    push_cast at h2 ⊢
    rw [h, Basis.chebT, h1, h2]
    simp

theorem chebValue_eq {q i k : Nat} (hq : 2 ≤ q) (hi : i < q) (hk : k < q - 1) :
    chebValue q i k = (Polynomial.Chebyshev.T ℝ ((k + 1 : Nat) : ℤ)).eval (Basis.encoded q i) := by
  rw [← chebT_eq]
  simp [chebValue, Basis.siteBasisValues, Nat.not_lt.2 hq, hi, hk]

theorem encoded_mem {q i : Nat} (hq : 2 ≤ q) (hi : i < q) : |(Basis.encoded q i : ℝ)| ≤ 1 := by
  have hq' : (0 : ℝ) < (q : ℝ) - 1 := by
    have : (2 : ℝ) ≤ q := by exact_mod_cast hq
    linarith
  have hi' : (i : ℝ) ≤ (q : ℝ) - 1 := by
    have : (i : ℝ) + 1 ≤ q := by exact_mod_cast hi
    linarith
  have h0 : (0 : ℝ) ≤ i := Nat.cast_nonneg i
  unfold Basis.encoded
  have h1 : 0 ≤ (i : ℝ) * (2 / ((q : ℝ) - 1)) := by positivity
  have h2 : (i : ℝ) * (2 / ((q : ℝ) - 1)) ≤ 2 := by
    rw [← mul_div_assoc, div_le_iff₀ hq']
    linarith
  rw [abs_le]
  constructor <;> linarith

theorem encoded_injective {q i j : Nat} (hq : 2 ≤ q)
    (h : (Basis.encoded q i : ℝ) = Basis.encoded q j) : i = j := by
  have hq' : (0 : ℝ) < (q : ℝ) - 1 := by
    have : (2 : ℝ) ≤ q := by exact_mod_cast hq
    linarith
  unfold Basis.encoded at h
  have h1 : (2 / ((q : ℝ) - 1)) ≠ 0 := by positivity
  have h2 := mul_right_cancel₀ h1 (add_left_cancel h)
  exact_mod_cast h2

/-- C47.  Every basis function takes values between -1 and 1. -/
theorem C47_bounded (q i k : Nat) (hq : 2 ≤ q) (hi : i < q) (hk : k < q - 1) :
    -1 ≤ chebValue q i k ∧ chebValue q i k ≤ 1 := by
  rw [chebValue_eq hq hi hk]
  exact abs_le.1 (Polynomial.Chebyshev.abs_eval_T_real_le_one _ (encoded_mem hq hi))

/-- C47.  Different states have different vectors of values (already the first function tells
them apart). -/
theorem C47_states_differ (q i j : Nat) (hq : 2 ≤ q) (hi : i < q) (hj : j < q) (hij : i ≠ j) :
    chebValue q i 0 ≠ chebValue q j 0 := by
  rw [chebValue_eq hq hi (by omega), chebValue_eq hq hj (by omega)]
  simp only [zero_add, Nat.cast_one, Polynomial.Chebyshev.T_one, Polynomial.eval_X]
  exact fun h => hij (encoded_injective hq h)

/-- The Chebyshev polynomials as a sequence of polynomials of increasing degree. -/
noncomputable def chebSequence : Polynomial.Sequence ℝ where
  elems' k := Polynomial.Chebyshev.T ℝ k
  degree_eq' k := by simp [Polynomial.Chebyshev.degree_T]

/-- C47.  The functions are complete: every real function of the state of the site is a constant
plus a combination of the basis functions, in exactly one way. -/
theorem C47_complete (q : Nat) (hq : 2 ≤ q) (f : Fin q → ℝ) :
    ∃! c : Fin q → ℝ, ∀ i : Fin q, f i = ∑ k : Fin q, c k *
      (if k.val = 0 then 1 else chebValue q i (k.val - 1)) := by
  let E : (Fin q → ℝ) →ₗ[ℝ] (Fin q → ℝ) :=
    { toFun := fun c i => ∑ k : Fin q, c k * (if k.val = 0 then 1 else chebValue q i (k.val - 1))
      map_add' := by
        intro c d
        funext i
        simp only [Pi.add_apply, add_mul, Finset.sum_add_distrib]
      map_smul' := by
        intro r c
        funext i
        simp only [Pi.smul_apply, smul_eq_mul, Finset.mul_sum, mul_assoc, RingHom.id_apply] }
  have hE : ∀ (c : Fin q → ℝ) (i : Fin q), E c i =
      (∑ k : Fin q, c k • chebSequence k).eval (Basis.encoded q i) := by
    intro c i
    rw [Polynomial.eval_finsetSum]
    show ∑ k : Fin q, c k * (if k.val = 0 then 1 else chebValue q i (k.val - 1)) = _
    refine Finset.sum_congr rfl fun k _ => ?_
    rw [Polynomial.eval_smul, smul_eq_mul]
    congr 1
    show _ = (Polynomial.Chebyshev.T ℝ (k : ℤ)).eval _
    by_cases hk : k.val = 0
    · rw [if_pos hk]
      simp [hk]
    · rw [if_neg hk, chebValue_eq hq i.isLt (by have := k.isLt; omega)]
      congr 2
      omega
  have hinj : Function.Injective E := by
    rw [← LinearMap.ker_eq_bot, LinearMap.ker_eq_bot']
    intro c hc
    have hp : (∑ k : Fin q, c k • chebSequence k) = 0 := by
      refine Polynomial.eq_zero_of_natDegree_lt_card_of_eval_eq_zero _
        (f := fun i : Fin q => (Basis.encoded q i : ℝ)) ?_ ?_ ?_
      · intro i j h
        exact Fin.ext (encoded_injective hq h)
      · intro i
        rw [← hE, hc]
        rfl
      · rw [Fintype.card_fin]
        refine lt_of_le_of_lt (Polynomial.natDegree_sum_le_of_forall_le (n := q - 1) _ _ ?_) (by omega)
        intro k _
        refine (Polynomial.natDegree_smul_le _ _).trans ?_
        rw [Polynomial.Sequence.natDegree_eq]
        have := k.isLt
        omega
    have hli := chebSequence.linearIndependent
    have hli' : LinearIndependent ℝ (fun k : Fin q => chebSequence k) :=
      hli.comp (fun k : Fin q => (k : ℕ)) Fin.val_injective
    funext k
    exact Fintype.linearIndependent_iff.1 hli' c hp k
  have hsurj : Function.Surjective E := LinearMap.surjective_of_injective hinj
  obtain ⟨c, hc⟩ := hsurj f
  refine ⟨c, fun i => by rw [← hc]; rfl, ?_⟩
  intro d hd
  apply hinj
  rw [hc]
  funext i
  exact (hd i).symm

/-- Three states: the values of `T_1` and `T_2` at -1, 0 and 1. -/
example : (Basis.chebyshev 3).siteBasisValues ℚ 3 = [[-1, 1], [0, -1], [1, 1]] := by
  decide +kernel

end KMC
