import Verif.Lemmas.LongRun
import Mathlib.Probability.Independence.Integration
import Mathlib.MeasureTheory.Function.L2Space
import Mathlib.MeasureTheory.Constructions.Polish.Basic
import Mathlib.Analysis.PSeries
import Mathlib.Algebra.Order.Chebyshev
/-
Lemmas for single simulations in the long run: a finite Markov chain that is driven by independent random
numbers, and the almost sure limits of sums along it.
-/
set_option linter.unusedSectionVars false

namespace KMC
open Spec MeasureTheory Filter Topology ProbabilityTheory

section general
variable {Θ : Type} [MeasurableSpace Θ] {μ : Measure Θ} [IsProbabilityMeasure μ]

/-- Square means that can be summed: the sequence tends to zero almost surely. -/
theorem tendsto_zero_of_squares (f : Nat → Θ → ℝ) (hf : ∀ k, MemLp (f k) 2 μ) (c : Nat → ℝ)
    (hc : ∀ k, ∫ ω, f k ω ^ 2 ∂μ ≤ c k) (hs : Summable c) :
    ∀ᵐ ω ∂μ, Tendsto (fun k => f k ω) atTop (𝓝 0) := by
  have h1 : ∀ k, ∫⁻ ω, ENNReal.ofReal (f k ω ^ 2) ∂μ ≤ ENNReal.ofReal (c k) := by
    intro k
    rw [← ofReal_integral_eq_lintegral_ofReal (hf k).integrable_sq (Eventually.of_forall fun ω => sq_nonneg _)]
    exact ENNReal.ofReal_le_ofReal (hc k)
  have hm : ∀ k, AEMeasurable (fun ω => ENNReal.ofReal (f k ω ^ 2)) μ := fun k =>
    (hf k).integrable_sq.aestronglyMeasurable.aemeasurable.ennreal_ofReal
  have h2 : ∫⁻ ω, ∑' k, ENNReal.ofReal (f k ω ^ 2) ∂μ ≠ ⊤ := by
    rw [lintegral_tsum hm]
    refine ne_top_of_le_ne_top ?_ (ENNReal.tsum_le_tsum h1)
    exact hs.tsum_ofReal_ne_top
  have h3 := ae_lt_top' (AEMeasurable.tsum hm) h2
  filter_upwards [h3] with ω hω
  have h4 := ENNReal.tendsto_atTop_zero_of_tsum_ne_top hω.ne
  have h5 : Tendsto (fun k => f k ω ^ 2) atTop (𝓝 0) := by
    have := (ENNReal.tendsto_toReal ENNReal.zero_ne_top).comp h4
    simp only [ENNReal.toReal_zero] at this
    refine this.congr fun k => ?_
    simp only [Function.comp]
    rw [ENNReal.toReal_ofReal (sq_nonneg _)]
  have h6 := h5.sqrt
  simp only [Real.sqrt_zero, Real.sqrt_sq_eq_abs] at h6
  exact (tendsto_zero_iff_abs_tendsto_zero _).2 h6

end general

section chain
variable {Θ : Type} [mΘ : MeasurableSpace Θ] {μ : Measure Θ} [IsProbabilityMeasure μ]
variable {E : Type} [mE : MeasurableSpace E] {ν : Measure E} [IsFiniteMeasure ν]
variable {α : Type} [MeasurableSpace α] [DiscreteMeasurableSpace α] [Countable α] [DecidableEq α]

/-- The states along a sequence of random inputs. -/
def along (sel : α → E → α) (U : Nat → Θ → E) (x0 : α) : Nat → Θ → α
  | 0, _ => x0
  | n + 1, ω => sel (along sel U x0 n ω) (U n ω)

/-- What is determined by the inputs before the `n`-th. -/
@[instance_reducible] def past (U : Nat → Θ → E) (n : Nat) : MeasurableSpace Θ :=
  ⨆ i ∈ Set.Iio n, MeasurableSpace.comap (U i) mE

theorem past_le {U : Nat → Θ → E} (hU : ∀ n, Measurable (U n)) (n : Nat) : past U n ≤ mΘ :=
  iSup₂_le fun i _ => (hU i).comap_le

theorem past_mono (U : Nat → Θ → E) {n k : Nat} (h : n ≤ k) : past U n ≤ past U k :=
  biSup_mono fun _ hi => lt_of_lt_of_le hi h

theorem past_input (U : Nat → Θ → E) {n k : Nat} (h : n < k) : Measurable[past U k] (U n) := by
  have : MeasurableSpace.comap (U n) mE ≤ past U k :=
    le_iSup₂_of_le (f := fun i (_ : i ∈ Set.Iio k) => MeasurableSpace.comap (U i) mE) n h le_rfl
  exact measurable_iff_comap_le.2 this

theorem past_indep {U : Nat → Θ → E} (hU : ∀ n, Measurable (U n)) (hind : iIndepFun U μ) (n : Nat) :
    Indep (past U n) (MeasurableSpace.comap (U n) mE) μ := by
  have h := indep_iSup_of_disjoint (fun i => (hU i).comap_le) hind (S := Set.Iio n) (T := {n})
    (by simp)
  simpa [past] using h

theorem past_indepFun {U : Nat → Θ → E} (hU : ∀ n, Measurable (U n)) (hind : iIndepFun U μ) (n : Nat)
    {G : Θ → ℝ} (hG : Measurable[past U n] G) {H : E → ℝ} (hH : Measurable H) :
    IndepFun G (fun ω => H (U n ω)) μ := by
  rw [IndepFun_iff_Indep]
  refine indep_of_indep_of_le_left (indep_of_indep_of_le_right (past_indep hU hind n) ?_) ?_
  · rw [← measurable_iff_comap_le]
    exact hH.comp (comap_measurable _)
  · exact measurable_iff_comap_le.1 hG

theorem along_past {sel : α → E → α} (hsel : ∀ x, Measurable (sel x)) (U : Nat → Θ → E) (x0 : α) (n : Nat) :
    Measurable[past U n] (along sel U x0 n) := by
  induction n with
  | zero => exact @measurable_const _ _ _ (past U 0) x0
  | succ n ih =>
    have h1 : Measurable[past U (n + 1)] (along sel U x0 n) := ih.mono (past_mono U (Nat.le_succ n)) le_rfl
    have h2 := past_input U (Nat.lt_succ_self n)
    have h3 : Measurable (Function.uncurry sel) := measurable_from_prod_countable_right fun x => hsel x
    have h4 : Measurable[past U (n + 1)] fun ω => (along sel U x0 n ω, U n ω) :=
      h1.prodMk h2
    exact h3.comp h4

theorem along_mem {sel : α → E → α} {S : Finset α} (hS : ∀ x ∈ S, ∀ u, sel x u ∈ S) (U : Nat → Θ → E) {x0 : α}
    (hx : x0 ∈ S) (n : Nat) (ω : Θ) : along sel U x0 n ω ∈ S := by
  induction n with
  | zero => exact hx
  | succ n ih => exact hS _ ih _

section
variable {U : Nat → Θ → E} (hU : ∀ n, Measurable (U n)) (hind : iIndepFun U μ) (hlaw : ∀ n, μ.map (U n) = ν)
  {sel : α → E → α} (hsel : ∀ x, Measurable (sel x)) {S : Finset α} (hS : ∀ x ∈ S, ∀ u, sel x u ∈ S)
  {x0 : α} (hx : x0 ∈ S)
include hU hind hlaw hsel hS hx

/-- A quantity of the past times a quantity of the next step: the mean. -/
theorem step_mean {G : Θ → ℝ} {n : Nat} (hG : Measurable[past U n] G) (hGi : Integrable G μ) {F : α → E → ℝ}
    (hF : ∀ x ∈ S, Measurable (F x)) (hFi : ∀ x ∈ S, Integrable (F x) ν) :
    Integrable (fun ω => G ω * F (along sel U x0 n ω) (U n ω)) μ ∧
      ∫ ω, G ω * F (along sel U x0 n ω) (U n ω) ∂μ =
        ∑ x ∈ S, (∫ ω, G ω * (if along sel U x0 n ω = x then 1 else 0) ∂μ) * ∫ u, F x u ∂ν := by
  have hA := along_past hsel U x0 n
  have hI : ∀ x, Measurable[past U n] fun ω => G ω * (if along sel U x0 n ω = x then (1 : ℝ) else 0) := by
    intro x
    have h1 : Measurable fun y : α => if y = x then (1 : ℝ) else 0 := measurable_of_countable _
    exact @Measurable.mul _ _ _ _ (past U n) _ _ _ hG (h1.comp hA)
  have hIi : ∀ x, Integrable (fun ω => G ω * (if along sel U x0 n ω = x then (1 : ℝ) else 0)) μ := by
    intro x
    refine Integrable.mono hGi ((hI x).mono (past_le hU n) le_rfl).aestronglyMeasurable ?_
    refine Eventually.of_forall fun ω => ?_
    rw [norm_mul]
    refine mul_le_of_le_one_right (norm_nonneg _) ?_
    split <;> simp
  have hFn : ∀ x ∈ S, Integrable (fun ω => F x (U n ω)) μ := by
    intro x hx
    have := hFi x hx
    rw [← hlaw n] at this
    exact this.comp_measurable (hU n)
  have hFe : ∀ x ∈ S, ∫ ω, F x (U n ω) ∂μ = ∫ u, F x u ∂ν := by
    intro x hx
    rw [← hlaw n, integral_map (hU n).aemeasurable (hF x hx).aestronglyMeasurable]
  have hin : ∀ x ∈ S, IndepFun (fun ω => G ω * (if along sel U x0 n ω = x then (1 : ℝ) else 0))
      (fun ω => F x (U n ω)) μ := fun x hx => past_indepFun hU hind n (hI x) (hF x hx)
  have hdec : (fun ω => G ω * F (along sel U x0 n ω) (U n ω)) = fun ω =>
      ∑ x ∈ S, (G ω * (if along sel U x0 n ω = x then (1 : ℝ) else 0)) * F x (U n ω) := by
    funext ω
    rw [Finset.sum_eq_single (along sel U x0 n ω)]
    · simp
    · intro y _ hy
      rw [if_neg (Ne.symm hy)]; simp
    · intro hno
      exact absurd (along_mem hS U hx n ω) hno
  have hpi : ∀ x ∈ S, Integrable (fun ω => (G ω * (if along sel U x0 n ω = x then (1 : ℝ) else 0)) * F x (U n ω)) μ :=
    fun x hx => (hin x hx).integrable_mul (hIi x) (hFn x hx)
  rw [hdec]
  refine ⟨integrable_finsetSum _ hpi, ?_⟩
  rw [integral_finsetSum _ hpi]
  refine Finset.sum_congr rfl fun x hxS => ?_
  rw [(hin x hxS).integral_fun_mul_eq_mul_integral (hIi x).aestronglyMeasurable (hFn x hxS).aestronglyMeasurable,
    hFe x hxS]

theorem indicator_mean_sum (n : Nat) :
    ∑ x ∈ S, ∫ ω, (1 : ℝ) * (if along sel U x0 n ω = x then 1 else 0) ∂μ = 1 := by
  have hA := along_past hsel U x0 n
  rw [← integral_finsetSum]
  · have : ∀ ω, ∑ x ∈ S, (1 : ℝ) * (if along sel U x0 n ω = x then 1 else 0) = 1 := by
      intro ω
      simp [along_mem hS U hx n ω]
    rw [integral_congr_ae (Eventually.of_forall this)]
    simp
  · intro x _
    refine Integrable.mono (integrable_const (1 : ℝ)) ?_ (Eventually.of_forall fun ω => ?_)
    · have h1 : Measurable fun y : α => (1 : ℝ) * if y = x then (1 : ℝ) else 0 := measurable_of_countable _
      exact (h1.comp (hA.mono (past_le hU n) le_rfl)).aestronglyMeasurable
    · split <;> simp

variable {F : α → E → ℝ} (hF : ∀ x ∈ S, Measurable (F x)) (hF2 : ∀ x ∈ S, MemLp (F x) 2 ν) {C : ℝ}
  (hC : ∀ x ∈ S, ∫ u, F x u ^ 2 ∂ν ≤ C)
include hF hF2 hC

theorem step_past (n : Nat) : Measurable[past U (n + 1)] fun ω => F (along sel U x0 n ω) (U n ω) := by
  have hA : Measurable[past U (n + 1)] (along sel U x0 n) :=
    (along_past hsel U x0 n).mono (past_mono U (Nat.le_succ n)) le_rfl
  have hdec : (fun ω => F (along sel U x0 n ω) (U n ω)) = fun ω =>
      ∑ x ∈ S, (if along sel U x0 n ω = x then (1 : ℝ) else 0) * F x (U n ω) := by
    funext ω
    rw [Finset.sum_eq_single (along sel U x0 n ω)]
    · simp
    · intro y _ hy
      rw [if_neg (Ne.symm hy)]; simp
    · intro hno
      exact absurd (along_mem hS U hx n ω) hno
  rw [hdec]
  refine @Finset.measurable_fun_sum _ _ _ _ _ _ (past U (n + 1)) _ _ fun x hxS => ?_
  have h1 : Measurable fun y : α => if y = x then (1 : ℝ) else 0 := measurable_of_countable _
  exact @Measurable.mul _ _ _ _ (past U (n + 1)) _ _ _ (h1.comp hA)
    ((hF x hxS).comp (past_input U (Nat.lt_succ_self n)))

theorem step_measurable (n : Nat) : Measurable fun ω => F (along sel U x0 n ω) (U n ω) :=
  (step_past hU hind hlaw hsel hS hx hF hF2 hC n).mono (past_le hU _) le_rfl

theorem step_square (n : Nat) : MemLp (fun ω => F (along sel U x0 n ω) (U n ω)) 2 μ ∧
    ∫ ω, F (along sel U x0 n ω) (U n ω) ^ 2 ∂μ ≤ C := by
  obtain ⟨h1, h2⟩ := step_mean hU hind hlaw hsel hS hx (G := fun _ => 1) (n := n)
    (@measurable_const _ _ _ (past U n) 1) (integrable_const 1) (F := fun x u => F x u ^ 2)
    (fun x hxS => (hF x hxS).pow_const 2) (fun x hxS => (hF2 x hxS).integrable_sq)
  simp only [one_mul] at h1 h2
  refine ⟨(memLp_two_iff_integrable_sq
    (step_measurable hU hind hlaw hsel hS hx hF hF2 hC n).aestronglyMeasurable).2 h1, ?_⟩
  rw [h2]
  have hone := indicator_mean_sum hU hind hlaw hsel hS hx n
  simp only [one_mul] at hone
  calc _ ≤ ∑ x ∈ S, (∫ ω, (if along sel U x0 n ω = x then (1 : ℝ) else 0) ∂μ) * C := by
        refine Finset.sum_le_sum fun x hxS => mul_le_mul_of_nonneg_left (hC x hxS) ?_
        exact integral_nonneg fun ω => by split <;> norm_num
    _ = C := by rw [← Finset.sum_mul, hone, one_mul]

/-- The sum of the first `n` increments. -/
theorem sum_square (hF0 : ∀ x ∈ S, ∫ u, F x u ∂ν = 0) (n : Nat) :
    Measurable[past U n] (fun ω => ∑ k ∈ Finset.range n, F (along sel U x0 k ω) (U k ω)) ∧
    MemLp (fun ω => ∑ k ∈ Finset.range n, F (along sel U x0 k ω) (U k ω)) 2 μ ∧
    ∫ ω, (∑ k ∈ Finset.range n, F (along sel U x0 k ω) (U k ω)) ^ 2 ∂μ ≤ C * n := by
  induction n with
  | zero =>
    simp only [Finset.range_zero, Finset.sum_empty]
    refine ⟨@measurable_const _ _ _ (past U 0) 0, MemLp.zero' , by simp⟩
  | succ n ih =>
    obtain ⟨h1, h2, h3⟩ := ih
    obtain ⟨h4, h5⟩ := step_square hU hind hlaw hsel hS hx hF hF2 hC n
    have h6 := step_past hU hind hlaw hsel hS hx hF hF2 hC n
    simp only [Finset.sum_range_succ]
    refine ⟨@Measurable.add _ _ _ _ (past U (n + 1)) _ _ _ (h1.mono (past_mono U (Nat.le_succ n)) le_rfl) h6,
      h2.add h4, ?_⟩
    obtain ⟨h7, h8⟩ := step_mean hU hind hlaw hsel hS hx h1 (h2.integrable (by norm_num)) hF
      (fun x hxS => (hF2 x hxS).integrable (by norm_num))
    rw [Finset.sum_eq_zero fun x hxS => by rw [hF0 x hxS, mul_zero]] at h8
    have h9 : ∀ ω, ((∑ k ∈ Finset.range n, F (along sel U x0 k ω) (U k ω)) + F (along sel U x0 n ω) (U n ω)) ^ 2 =
        (∑ k ∈ Finset.range n, F (along sel U x0 k ω) (U k ω)) ^ 2 +
          2 * ((∑ k ∈ Finset.range n, F (along sel U x0 k ω) (U k ω)) * F (along sel U x0 n ω) (U n ω)) +
          F (along sel U x0 n ω) (U n ω) ^ 2 := fun ω => by ring
    simp only [h9]
    rw [integral_add (f := fun ω => (∑ k ∈ Finset.range n, F (along sel U x0 k ω) (U k ω)) ^ 2 +
          2 * ((∑ k ∈ Finset.range n, F (along sel U x0 k ω) (U k ω)) * F (along sel U x0 n ω) (U n ω)))
        ((h2.integrable_sq).add (h7.const_mul 2)) h4.integrable_sq,
      integral_add h2.integrable_sq (h7.const_mul 2), integral_const_mul, h8]
    push_cast
    linarith

/-- Increments of mean zero average out. -/
theorem increments_average (hF0 : ∀ x ∈ S, ∫ u, F x u ∂ν = 0) :
    ∀ᵐ ω ∂μ, Tendsto (fun n : Nat => (∑ k ∈ Finset.range n, F (along sel U x0 k ω) (U k ω)) / n) atTop (𝓝 0) := by
  have hC0 : 0 ≤ C := le_trans (integral_nonneg fun u => sq_nonneg _) (hC x0 hx)
  let M : Nat → Θ → ℝ := fun n ω => ∑ k ∈ Finset.range n, F (along sel U x0 k ω) (U k ω)
  let G : Nat → Θ → ℝ := fun k ω => ∑ j ∈ Finset.range (2 * k + 1), |F (along sel U x0 (k * k + j) ω) (U (k * k + j) ω)|
  have hsum : Summable fun k : Nat => C * (1 / (k : ℝ) ^ 2) :=
    (Real.summable_one_div_nat_pow.2 (by norm_num)).mul_left C
  have hM : ∀ᵐ ω ∂μ, Tendsto (fun k : Nat => M (k * k) ω / (k * k : ℝ)) atTop (𝓝 0) := by
    refine tendsto_zero_of_squares _ (fun k => ?_) _ (fun k => ?_) hsum
    · exact (sum_square hU hind hlaw hsel hS hx hF hF2 hC hF0 (k * k)).2.1.mul_const (k * k : ℝ)⁻¹
    · have h := (sum_square hU hind hlaw hsel hS hx hF hF2 hC hF0 (k * k)).2.2
      simp only [div_pow]
      rw [integral_div]
      rcases Nat.eq_zero_or_pos k with rfl | hk
      · simp
      · have : (0 : ℝ) < k := by exact_mod_cast hk
        rw [div_le_iff₀ (by positivity)]
        refine h.trans (le_of_eq ?_)
        push_cast
        field_simp
  have hG2 : ∀ k, MemLp (G k) 2 μ ∧ ∫ ω, G k ω ^ 2 ∂μ ≤ (2 * k + 1 : ℝ) ^ 2 * C := by
    intro k
    have hj := fun j => step_square hU hind hlaw hsel hS hx hF hF2 hC (k * k + j)
    refine ⟨memLp_finsetSum _ fun j _ => (hj j).1.abs, ?_⟩
    have hi : ∀ j, Integrable (fun ω => |F (along sel U x0 (k * k + j) ω) (U (k * k + j) ω)| ^ 2) μ := fun j =>
      (hj j).1.abs.integrable_sq
    calc ∫ ω, G k ω ^ 2 ∂μ ≤ ∫ ω, (2 * k + 1 : ℝ) * ∑ j ∈ Finset.range (2 * k + 1),
            |F (along sel U x0 (k * k + j) ω) (U (k * k + j) ω)| ^ 2 ∂μ := by
          refine integral_mono (memLp_finsetSum _ fun j _ => (hj j).1.abs).integrable_sq
            ((integrable_finsetSum _ fun j _ => hi j).const_mul _) fun ω => ?_
          have := sq_sum_le_card_mul_sum_sq (s := Finset.range (2 * k + 1))
            (f := fun j => |F (along sel U x0 (k * k + j) ω) (U (k * k + j) ω)|)
          simpa [G] using this
      _ = (2 * k + 1 : ℝ) * ∑ j ∈ Finset.range (2 * k + 1),
            ∫ ω, |F (along sel U x0 (k * k + j) ω) (U (k * k + j) ω)| ^ 2 ∂μ := by
          rw [integral_const_mul, integral_finsetSum _ fun j _ => hi j]
      _ ≤ (2 * k + 1 : ℝ) * ∑ j ∈ Finset.range (2 * k + 1), C := by
          refine mul_le_mul_of_nonneg_left (Finset.sum_le_sum fun j _ => ?_) (by positivity)
          simp only [sq_abs]
          exact (hj j).2
      _ = _ := by
          simp only [Finset.sum_const, Finset.card_range, nsmul_eq_mul]
          push_cast
          ring
  have hGt : ∀ᵐ ω ∂μ, Tendsto (fun k : Nat => G k ω / (k * k : ℝ)) atTop (𝓝 0) := by
    refine tendsto_zero_of_squares _ (fun k => ?_) (fun k => 9 * (C * (1 / (k : ℝ) ^ 2))) (fun k => ?_)
      (hsum.mul_left 9)
    · exact (hG2 k).1.mul_const (k * k : ℝ)⁻¹
    · have h := (hG2 k).2
      simp only [div_pow]
      rw [integral_div]
      rcases Nat.eq_zero_or_pos k with rfl | hk
      · simp
      · have hk1 : (1 : ℝ) ≤ k := by exact_mod_cast hk
        have : (0 : ℝ) < k := by linarith
        rw [div_le_iff₀ (by positivity)]
        refine h.trans ?_
        have e : 9 * (C * (1 / (k : ℝ) ^ 2)) * ((k : ℝ) * k) ^ 2 = (3 * k) ^ 2 * C := by
          field_simp
          ring
        rw [e]
        refine mul_le_mul_of_nonneg_right ?_ hC0
        gcongr
        linarith
  filter_upwards [hM, hGt] with ω h1 h2
  have hsq : Tendsto Nat.sqrt atTop atTop := by
    refine tendsto_atTop_atTop.2 fun b => ⟨b * b, fun a ha => ?_⟩
    rw [Nat.le_sqrt]; exact ha
  have h3 := ((h1.abs.add h2).comp hsq)
  simp only [abs_zero, add_zero] at h3
  refine squeeze_zero_norm' ?_ h3
  filter_upwards [eventually_ge_atTop 1] with n hn
  obtain ⟨k, hk⟩ : ∃ k, k = Nat.sqrt n := ⟨_, rfl⟩
  have hk1 : 1 ≤ k := by rw [hk, Nat.le_sqrt]; exact hn
  have hkn : k * k ≤ n := by rw [hk]; exact Nat.sqrt_le n
  have hnk : n ≤ k * k + k + k := by rw [hk]; exact Nat.sqrt_le_add n
  simp only [Function.comp, Real.norm_eq_abs, ← hk]
  obtain ⟨j, rfl⟩ : ∃ j, n = k * k + j := ⟨n - k * k, by omega⟩
  have hj : j ≤ 2 * k := by omega
  have hkr : (0 : ℝ) < (k : ℝ) * k := by
    have : (0 : ℝ) < k := by exact_mod_cast hk1
    positivity
  have hG0 : 0 ≤ G k ω := Finset.sum_nonneg fun _ _ => abs_nonneg _
  rw [abs_div, abs_div, abs_of_pos hkr, ← add_div, Finset.sum_range_add]
  have hle : |∑ i ∈ Finset.range (k * k), F (along sel U x0 i ω) (U i ω) +
      ∑ i ∈ Finset.range j, F (along sel U x0 (k * k + i) ω) (U (k * k + i) ω)| ≤ |M (k * k) ω| + G k ω := by
    refine (abs_add_le _ _).trans (add_le_add_right ?_ _)
    refine (Finset.abs_sum_le_sum_abs _ _).trans ?_
    exact Finset.sum_le_sum_of_subset_of_nonneg (Finset.range_mono (by omega)) fun _ _ _ => abs_nonneg _
  have hn' : (k : ℝ) * k ≤ |((k * k + j : Nat) : ℝ)| := by
    rw [abs_of_nonneg (Nat.cast_nonneg _)]
    push_cast
    linarith [Nat.cast_nonneg (α := ℝ) j]
  exact div_le_div₀ (by positivity) hle hkr hn'

end

section
variable {U : Nat → Θ → E} (hU : ∀ n, Measurable (U n)) (hind : iIndepFun U μ) (hlaw : ∀ n, μ.map (U n) = ν)
  {sel : α → E → α} (hsel : ∀ x, Measurable (sel x)) {S : Finset α} (hS : ∀ x ∈ S, ∀ u, sel x u ∈ S)
  {x0 : α} (hx : x0 ∈ S)
include hU hind hlaw hsel hS hx

theorem increments_average' {F : α → E → ℝ} (hF : ∀ x ∈ S, Measurable (F x)) (hF2 : ∀ x ∈ S, MemLp (F x) 2 ν)
    (hF0 : ∀ x ∈ S, ∫ u, F x u ∂ν = 0) :
    ∀ᵐ ω ∂μ, Tendsto (fun n : Nat => (∑ k ∈ Finset.range n, F (along sel U x0 k ω) (U k ω)) / n) atTop (𝓝 0) :=
  increments_average hU hind hlaw hsel hS hx hF hF2 (C := ∑ x ∈ S, ∫ u, F x u ^ 2 ∂ν)
    (fun _ hxS => Finset.single_le_sum (f := fun x => ∫ u, F x u ^ 2 ∂ν)
      (fun _ _ => integral_nonneg fun _ => sq_nonneg _) hxS) hF0

omit hU hind hlaw hx in
/-- The mean of a function of the next state. -/
theorem integral_sel (g : α → ℝ) {x : α} (hxS : x ∈ S) :
    Integrable (fun u => g (sel x u)) ν ∧
      ∫ u, g (sel x u) ∂ν = ∑ y ∈ S, ν.real {u | sel x u = y} * g y := by
  have hdec : (fun u => g (sel x u)) = fun u => ∑ y ∈ S, Set.indicator {u | sel x u = y} (fun _ => g y) u := by
    funext u
    rw [Finset.sum_eq_single (sel x u)]
    · simp
    · intro y _ hy
      rw [Set.indicator_of_notMem]
      exact fun h => hy h.symm
    · exact fun hno => absurd (hS x hxS u) hno
  have hms : ∀ y, MeasurableSet {u | sel x u = y} := fun y => hsel x (measurableSet_singleton y)
  have hi : ∀ y ∈ S, Integrable (Set.indicator {u | sel x u = y} (fun _ => g y)) ν := fun y _ =>
    (integrable_const _).indicator (hms y)
  rw [hdec]
  refine ⟨integrable_finsetSum _ hi, ?_⟩
  rw [integral_finsetSum _ hi]
  refine Finset.sum_congr rfl fun y _ => ?_
  rw [integral_indicator (hms y), setIntegral_const, smul_eq_mul]

variable {P : α → α → ℝ} (hP : ∀ x ∈ S, ∀ y ∈ S, 0 ≤ P x y) (hP1 : ∀ x ∈ S, ∑ y ∈ S, P x y = 1) (π : α → ℝ)
    (hπ : ∀ μ : α → ℝ, (∀ y ∈ S, ∑ x ∈ S, μ x * P x y = μ y) → ∑ x ∈ S, μ x = 1 → ∀ x ∈ S, μ x = π x)
    (hPs : ∀ x ∈ S, ∀ y ∈ S, ν.real {u | sel x u = y} = P x y)
include hP hP1 hπ hPs

/-- Along almost every sequence of inputs, the average of a function of the states tends to its mean over the
stationary distribution. -/
theorem along_average [IsProbabilityMeasure ν] (h : α → ℝ) :
    ∀ᵐ ω ∂μ, Tendsto (fun n : Nat => (∑ k ∈ Finset.range n, h (along sel U x0 k ω)) / n) atTop
      (𝓝 (∑ y ∈ S, π y * h y)) := by
  -- the averaged rewards solve the Poisson equation up to a small rest
  let g : Nat → α → ℝ := fun N x => (∑ j ∈ Finset.range N, gained S P h j x) / N
  have hg : ∀ N : Nat, 1 ≤ N → ∀ x ∈ S,
      g N x - ∑ y ∈ S, P x y * g N y = h x - gained S P h N x / N := by
    intro N hN x hxS
    have hN' : (N : ℝ) ≠ 0 := by positivity
    have e1 : ∑ y ∈ S, P x y * g N y = (∑ j ∈ Finset.range N, ∑ y ∈ S, P x y * gained S P h j y) / N := by
      rw [Finset.sum_comm, Finset.sum_div]
      refine Finset.sum_congr rfl fun y _ => ?_
      simp only [g]
      rw [← Finset.mul_sum, mul_div_assoc]
    have e2 : ∀ j, ∑ y ∈ S, P x y * gained S P h j y = gained S P h (j + 1) x - h x := by
      intro j; rw [gained]; ring
    rw [e1]
    simp only [e2, g]
    rw [← sub_div, ← Finset.sum_sub_distrib]
    have e3 : ∑ j ∈ Finset.range N, (gained S P h j x - (gained S P h (j + 1) x - h x)) =
        N * h x - gained S P h N x := by
      have := Finset.sum_range_sub (fun j => gained S P h j x) N
      have e0 : gained S P h 0 x = 0 := rfl
      rw [e0, sub_zero] at this
      rw [← this]
      rw [eq_sub_iff_add_eq, ← Finset.sum_add_distrib]
      simp
    rw [e3, sub_div, mul_div_cancel_left₀ _ hN']
  have hrest : ∀ x ∈ S, Tendsto (fun N : Nat => gained S P h N x / N) atTop (𝓝 (∑ y ∈ S, π y * h y)) := by
    intro x hxS
    have : ∀ n : Nat, gained S P h n x / n =
        ∑ y ∈ S, (∑ k ∈ Finset.range n, power S P k x y) / n * h y := by
      intro n
      rw [gained_eq h n x hxS, Finset.sum_div]
      exact Finset.sum_congr rfl fun y _ => by ring
    simp only [this]
    exact tendsto_finsetSum _ fun y hy => (average_tendsto hP hP1 π hπ hxS hy).mul_const _
  have hae : ∀ N : Nat, ∀ᵐ ω ∂μ, Tendsto (fun n : Nat => (∑ k ∈ Finset.range n,
      (g N (sel (along sel U x0 k ω) (U k ω)) - ∑ y ∈ S, P (along sel U x0 k ω) y * g N y)) / n) atTop (𝓝 0) := by
    intro N
    have hgm : Measurable (g N) := measurable_of_countable _
    refine increments_average' hU hind hlaw hsel hS hx
      (F := fun x u => g N (sel x u) - ∑ y ∈ S, P x y * g N y) (fun x _ => ?_) (fun x hxS => ?_) (fun x hxS => ?_)
    · exact (hgm.comp (hsel x)).sub_const _
    · refine MemLp.of_bound ((hgm.comp (hsel x)).sub_const _).aestronglyMeasurable
        (∑ y ∈ S, |g N y| + |∑ y ∈ S, P x y * g N y|) (Eventually.of_forall fun u => ?_)
      rw [Real.norm_eq_abs]
      refine (abs_sub _ _).trans (add_le_add_left ?_ _)
      exact Finset.single_le_sum (f := fun y => |g N y|) (fun _ _ => abs_nonneg _) (hS x hxS u)
    · obtain ⟨i1, i2⟩ := integral_sel (ν := ν) hsel hS (g N) hxS
      rw [integral_sub i1 (integrable_const _), i2, integral_const, smul_eq_mul]
      rw [Finset.sum_congr rfl fun y hy => by rw [hPs x hxS y hy]]
      simp
  filter_upwards [ae_all_iff.2 hae] with ω hω
  rw [Metric.tendsto_atTop]
  intro ε hε
  -- a rest smaller than half of `ε`
  obtain ⟨N, hN1, hN⟩ : ∃ N : Nat, 1 ≤ N ∧ ∀ x ∈ S, |gained S P h N x / N - ∑ y ∈ S, π y * h y| < ε / 2 := by
    have hev : ∀ᶠ N : Nat in atTop, ∀ x ∈ S, |gained S P h N x / N - ∑ y ∈ S, π y * h y| < ε / 2 := by
      rw [Filter.eventually_all_finset]
      intro x hxS
      have := Metric.tendsto_atTop.1 (hrest x hxS) (ε / 2) (by linarith)
      obtain ⟨n0, hn0⟩ := this
      filter_upwards [eventually_ge_atTop n0] with n hn
      have := hn0 n hn
      rwa [Real.dist_eq] at this
    obtain ⟨N, h1, h2⟩ := ((eventually_ge_atTop 1).and hev).exists
    exact ⟨N, h1, h2⟩
  -- the telescoping part
  have htel : Tendsto (fun n : Nat => (g N x0 - g N (along sel U x0 n ω)) / (n : ℝ)) atTop (𝓝 0) := by
    refine squeeze_zero_norm (a := fun n : Nat => (|g N x0| + ∑ y ∈ S, |g N y|) / (n : ℝ)) (fun n => ?_)
      (tendsto_const_div_atTop_nhds_zero_nat _)
    rw [Real.norm_eq_abs, abs_div, abs_of_nonneg (Nat.cast_nonneg (α := ℝ) n)]
    refine div_le_div_of_nonneg_right ((abs_sub _ _).trans (add_le_add_right ?_ _)) (Nat.cast_nonneg n)
    exact Finset.single_le_sum (f := fun y => |g N y|) (fun _ _ => abs_nonneg _) (along_mem hS U hx n ω)
  have hsmall := htel.add (hω N)
  rw [add_zero] at hsmall
  obtain ⟨n0, hn0⟩ := Metric.tendsto_atTop.1 hsmall (ε / 2) (by linarith)
  refine ⟨max n0 1, fun n hn => ?_⟩
  have hn1 : 1 ≤ n := le_trans (le_max_right _ _) hn
  have hnr : (0 : ℝ) < n := by exact_mod_cast hn1
  have hA := hn0 n (le_trans (le_max_left _ _) hn)
  rw [Real.dist_eq, sub_zero] at hA
  rw [Real.dist_eq]
  -- the sum of `h` along the states
  have hsplit : ∑ k ∈ Finset.range n, h (along sel U x0 k ω) =
      ((g N x0 - g N (along sel U x0 n ω)) + ∑ k ∈ Finset.range n,
        (g N (sel (along sel U x0 k ω) (U k ω)) - ∑ y ∈ S, P (along sel U x0 k ω) y * g N y)) +
      ∑ k ∈ Finset.range n, gained S P h N (along sel U x0 k ω) / N := by
    have ht := Finset.sum_range_sub' (fun k => g N (along sel U x0 k ω)) n
    have h0 : along sel U x0 0 ω = x0 := rfl
    rw [h0] at ht
    rw [← ht, ← Finset.sum_add_distrib, ← Finset.sum_add_distrib]
    refine Finset.sum_congr rfl fun k _ => ?_
    have e := hg N hN1 _ (along_mem hS U hx k ω)
    have e1 : along sel U x0 (k + 1) ω = sel (along sel U x0 k ω) (U k ω) := rfl
    rw [e1]
    linarith
  have hB : |(∑ k ∈ Finset.range n, gained S P h N (along sel U x0 k ω) / N) / n - ∑ y ∈ S, π y * h y| ≤ ε / 2 := by
    have e1 : (∑ k ∈ Finset.range n, gained S P h N (along sel U x0 k ω) / N) / n - ∑ y ∈ S, π y * h y =
        (∑ k ∈ Finset.range n, (gained S P h N (along sel U x0 k ω) / N - ∑ y ∈ S, π y * h y)) / n := by
      rw [Finset.sum_sub_distrib, Finset.sum_const, Finset.card_range, nsmul_eq_mul, sub_div,
        mul_div_cancel_left₀ _ hnr.ne']
    rw [e1, abs_div, abs_of_pos hnr, div_le_iff₀ hnr]
    refine (Finset.abs_sum_le_sum_abs _ _).trans ?_
    refine (Finset.sum_le_sum fun k _ => (hN _ (along_mem hS U hx k ω)).le).trans ?_
    simp [mul_comm]
  rw [hsplit, add_div, add_div, add_sub_assoc]
  refine (abs_add_le _ _).trans_lt ?_
  linarith

/-- The same, with weights that depend on the state and the input. -/
theorem along_weighted [IsProbabilityMeasure ν] (f : α → ℝ) {w : α → E → ℝ} (hw : ∀ x ∈ S, Measurable (w x))
    (hw2 : ∀ x ∈ S, MemLp (w x) 2 ν) :
    ∀ᵐ ω ∂μ, Tendsto (fun n : Nat => (∑ k ∈ Finset.range n,
        f (along sel U x0 k ω) * w (along sel U x0 k ω) (U k ω)) / n) atTop
      (𝓝 (∑ y ∈ S, π y * (f y * ∫ u, w y u ∂ν))) := by
  have h1 := along_average hU hind hlaw hsel hS hx hP hP1 π hπ hPs (fun y => f y * ∫ u, w y u ∂ν)
  have h2 := increments_average' hU hind hlaw hsel hS hx (F := fun x u => f x * (w x u - ∫ u, w x u ∂ν))
    (fun x hxS => ((hw x hxS).sub_const _).const_mul _)
    (fun x hxS => ((hw2 x hxS).sub (memLp_const _)).const_mul _)
    (fun x hxS => by
      rw [integral_const_mul, integral_sub ((hw2 x hxS).integrable (by norm_num)) (integrable_const _)]
      simp)
  filter_upwards [h1, h2] with ω a1 a2
  have a3 := a1.add a2
  rw [add_zero] at a3
  refine a3.congr fun n => ?_
  rw [← add_div, ← Finset.sum_add_distrib]
  congr 1
  exact Finset.sum_congr rfl fun k _ => by ring

/-- The ratio of two weighted sums. -/
theorem along_ratio [IsProbabilityMeasure ν] (f : α → ℝ) {w : α → E → ℝ} (hw : ∀ x ∈ S, Measurable (w x))
    (hw2 : ∀ x ∈ S, MemLp (w x) 2 ν) (hne : ∑ y ∈ S, π y * (∫ u, w y u ∂ν) ≠ 0) :
    ∀ᵐ ω ∂μ, Tendsto (fun n : Nat =>
        (∑ k ∈ Finset.range n, f (along sel U x0 k ω) * w (along sel U x0 k ω) (U k ω)) /
        (∑ k ∈ Finset.range n, w (along sel U x0 k ω) (U k ω))) atTop
      (𝓝 ((∑ y ∈ S, π y * (f y * ∫ u, w y u ∂ν)) / ∑ y ∈ S, π y * (∫ u, w y u ∂ν))) := by
  have h1 := along_weighted hU hind hlaw hsel hS hx hP hP1 π hπ hPs f hw hw2
  have h2 := along_weighted hU hind hlaw hsel hS hx hP hP1 π hπ hPs (fun _ => 1) hw hw2
  simp only [one_mul] at h2
  filter_upwards [h1, h2] with ω a1 a2
  refine (a1.div a2 hne).congr' ?_
  filter_upwards [eventually_ge_atTop 1] with n hn
  have : (n : ℝ) ≠ 0 := by positivity
  simp only [Pi.div_apply]
  rw [div_div_div_cancel_right₀ this]

end
end chain
end KMC
