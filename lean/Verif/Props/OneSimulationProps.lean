import Verif.Lemmas.OneSimulation
import Verif.Lemmas.Path
import Verif.Props.LongRunProps
import Verif.Props.RestartProps
import Mathlib.Probability.Independence.InfinitePi
/-
C93: almost every single simulation, run long enough, gives the ensemble averages.
-/
set_option linter.unusedSectionVars false

namespace KMC
open Spec MeasureTheory Filter Topology ProbabilityTheory

section
variable {σ φ ψ K : Type} [Field K] [LinearOrder K] [FloorRing K]
variable {o : ActiveSiteOrder String ψ} {mobile : String} {h : HopStateLookup}
  {m : RateModel Unit ℝ EReal} {g : Geometry K} {lib : EventLib σ φ} {st : State EReal}
  {s0 : Sim σ φ Unit ℝ EReal}

/-- The stationary distribution of the steps. -/
theorem step_shares (hs : HopSystem o mobile h Rounding.exact m g lib st)
    (ha : Answers o mobile m lib.events st.occ)
    (hi : Sim.init (realKernel Rounding.exact) m lib.generateEventDependencies (some h) (some st) = .ok s0)
    (hns : ¬ Stuck m s0) (W : List Int → ℝ) (hW : ∀ x, 0 < W x)
    (hb : Balanced o mobile m s0.lib.events W)
    (Ω : Finset (List Int)) (hΩ : ∀ x, x ∈ Ω ↔ ∃ s, Reaches m s0 s ∧ s.st.occ = x)
    (sims : List Int → Sim σ φ Unit ℝ EReal) (hsims : ∀ x ∈ Ω, Reaches m s0 (sims x) ∧ (sims x).st.occ = x)
    (pos : ∀ x ∈ Ω, 0 < (sims x).prob.sum) :
    ∃ π : List Int → ℝ, (∀ x ∈ Ω, 0 < π x) ∧
      (∀ μ : List Int → ℝ, (∀ y ∈ Ω, ∑ x ∈ Ω, μ x * chance m 0 (sims x) y = μ y) → ∑ x ∈ Ω, μ x = 1 →
        ∀ x ∈ Ω, μ x = π x) ∧
      ∃ Z > 0, (∀ x, π x = W x * (sims x).prob.sum / Z) ∧ ∀ f : List Int → ℝ,
        ∑ y ∈ Ω, π y * (f y * (1 / (sims y).prob.sum)) = (∑ y ∈ Ω, f y * W y) / Z := by
  have met : ∀ x ∈ Ω, Met o mobile m st s0 (sims x) := fun x hx =>
    met_reaches hs ha hi (met_start hs hi) (hsims x hx).1
  have hx0 : s0.st.occ ∈ Ω := (hΩ _).2 ⟨s0, .refl, rfl⟩
  let Z := ∑ x ∈ Ω, W x * (sims x).prob.sum
  have hZ : 0 < Z := Finset.sum_pos (fun x hx => mul_pos (hW x) (pos x hx)) ⟨_, hx0⟩
  refine ⟨fun x => W x * (sims x).prob.sum / Z, fun x hx => div_pos (mul_pos (hW x) (pos x hx)) hZ, ?_,
    Z, hZ, fun _ => rfl, fun f => ?_⟩
  · intro μ hμ hμ1
    obtain ⟨a, hall⟩ := (C90_stationary_iff hs ha hi hns W hW hb Ω hΩ sims hsims 0 0 le_rfl one_pos μ).1 hμ
    have hμx : ∀ x ∈ Ω, μ x = a * (W x * (sims x).prob.sum) := by
      intro x hx
      have h1 := hall x hx
      rw [meanStay_eq hs (met x hx) (pos x hx) 0 le_rfl one_pos] at h1
      have h2 := (pos x hx).ne'
      field_simp at h1
      rw [h1]; ring
    rw [Finset.sum_congr rfl hμx, ← Finset.mul_sum] at hμ1
    intro x hx
    rw [hμx x hx]
    have : a = 1 / Z := by
      rw [eq_div_iff hZ.ne']; exact hμ1
    rw [this]
    ring
  · rw [Finset.sum_div]
    refine Finset.sum_congr rfl fun y hy => ?_
    have := (pos y hy).ne'
    field_simp

/-- Sums along almost every simulation, also of what the selection numbers decide. -/
theorem simulated_chain (hs : HopSystem o mobile h Rounding.exact m g lib st)
    (ha : Answers o mobile m lib.events st.occ)
    (hi : Sim.init (realKernel Rounding.exact) m lib.generateEventDependencies (some h) (some st) = .ok s0)
    (hns : ¬ Stuck m s0) (W : List Int → ℝ) (hW : ∀ x, 0 < W x)
    (hb : Balanced o mobile m s0.lib.events W)
    (Ω : Finset (List Int)) (hΩ : ∀ x, x ∈ Ω ↔ ∃ s, Reaches m s0 s ∧ s.st.occ = x)
    (t0 : ℝ) (ht : st.time = (t0 : EReal)) (equil : Nat)
    {Θ : Type} [MeasurableSpace Θ] {μ : Measure Θ} [IsProbabilityMeasure μ] {U : Nat → Θ → ℝ × ℝ}
    (hU : RandomNumbers μ U) :
    ∃ (w : Nat → Θ → ℝ) (π : List Int → ℝ) (Z : ℝ), 0 < Z ∧ (∀ x ∈ Ω, 0 < π x) ∧
      (∀ x ∈ Ω, π x = W x * totalRate m s0.lib.events ⟨x, 0, 0⟩ / Z) ∧
      (∀ᵐ ω ∂μ, ∀ n, Met o mobile m st s0 (simulated m s0 equil (fun k => U k ω) n)) ∧
      (∀ᵐ ω ∂μ, ∀ n, (simulated m s0 equil (fun k => U k ω) n).st.occ ∈ Ω ∧
        (∃ t : ℝ, (simulated m s0 equil (fun k => U k ω) n).st.time = (t : EReal)) ∧
        clock (simulated m s0 equil (fun k => U k ω) (n + 1)) =
          clock (simulated m s0 equil (fun k => U k ω) n) + if n < equil then 0 else w n ω) ∧
      (∀ f : List Int → ℝ, ∀ᵐ ω ∂μ,
        Tendsto (fun n : Nat => (∑ k ∈ Finset.range n,
          f (simulated m s0 equil (fun k => U k ω) k).st.occ) / n) atTop (𝓝 (∑ y ∈ Ω, π y * f y)) ∧
        Tendsto (fun n : Nat => (∑ k ∈ Finset.range n,
          f (simulated m s0 equil (fun k => U k ω) k).st.occ * w k ω) / n) atTop
            (𝓝 ((∑ y ∈ Ω, f y * W y) / Z))) ∧
      ∀ x ∈ Ω, ∀ A : Set ℝ, MeasurableSet A → A ⊆ Set.Ico 0 1 → ∀ᵐ ω ∂μ,
        Tendsto (fun n : Nat => (∑ k ∈ Finset.range n,
          (if (simulated m s0 equil (fun k => U k ω) k).st.occ = x then (1 : ℝ) else 0) *
            A.indicator (1 : ℝ → ℝ) (U k ω).1) / n)
          atTop (𝓝 (π x * (volume A).toReal)) := by
  classical
  obtain ⟨sims, hsims, hP, hP1, pos, -⟩ := chances_kernel hs ha hi hns W hW hb Ω hΩ
  obtain ⟨π, hπ0, hπ, Z, hZ, hπe, hπf⟩ := step_shares hs ha hi hns W hW hb Ω hΩ sims hsims pos
  have met : ∀ x ∈ Ω, Met o mobile m st s0 (sims x) := fun x hx =>
    met_reaches hs ha hi (met_start hs hi) (hsims x hx).1
  have hx0 : s0.st.occ ∈ Ω := (hΩ _).2 ⟨s0, .refl, rfl⟩
  let _ : MeasurableSpace (List Int) := ⊤
  -- the Markov chain
  let tgt : List Int → ℝ → List Int := fun x r =>
    if x ∈ Ω ∧ 0 ≤ r ∧ r < 1 then (oneStep m (sims x) r 0).st.occ else x
  let sel : List Int → ℝ × ℝ → List Int := fun x u => tgt x u.1
  have htgt : ∀ x, Measurable (tgt x) := by
    intro x
    refine measurable_to_countable' fun y => ?_
    by_cases hx : x ∈ Ω
    · have hT := target_measurable hs ha hi (met x hx) (pos x hx) y
      have : tgt x ⁻¹' {y} = {r : ℝ | (0 ≤ r ∧ r < 1) ∧ (oneStep m (sims x) r 0).st.occ = y} ∪
          ((Set.Ico (0 : ℝ) 1)ᶜ ∩ {_r | x = y}) := by
        ext r
        simp only [tgt, Set.mem_preimage, Set.mem_singleton_iff, Set.mem_union, Set.mem_ofPred_eq,
          Set.mem_inter_iff, Set.mem_compl_iff, Set.mem_Ico, hx, true_and]
        by_cases hr : 0 ≤ r ∧ r < 1
        · simp [hr]
        · simp [hr]
      rw [this]
      exact hT.union (measurableSet_Ico.compl.inter (MeasurableSet.const _))
    · have : tgt x ⁻¹' {y} = {_r | x = y} := by
        ext r
        simp [tgt, hx]
      rw [this]
      exact MeasurableSet.const _
  have hsel : ∀ x, Measurable (sel x) := fun x => (htgt x).comp measurable_fst
  have hS : ∀ x ∈ Ω, ∀ u, sel x u ∈ Ω := by
    intro x hx u
    simp only [sel, tgt]
    split
    · rename_i hc
      have hn := (step_occ hs ha hi (met x hx) (met x hx) rfl (pos x hx) hc.2.1 hc.2.2 0).2.2
      exact (hΩ _).2 ⟨_, (hsims x hx).1.tail hn, rfl⟩
    · exact hx
  have hPs : ∀ x ∈ Ω, ∀ y ∈ Ω, twoUniform.real {u | sel x u = y} = chance m 0 (sims x) y := by
    intro x hx y _
    rw [chance_target hs ha hi (met x hx) (pos x hx), Measure.real]
    congr 1
    have e1 : {u : ℝ × ℝ | sel x u = y} = (tgt x ⁻¹' {y}) ×ˢ Set.univ := by
      ext u; simp [sel]
    rw [e1]
    unfold twoUniform
    rw [Measure.prod_prod, measure_univ, mul_one,
      Measure.restrict_apply (htgt x (measurableSet_singleton y))]
    congr 1
    ext r
    simp only [tgt, Set.mem_preimage, Set.mem_singleton_iff, Set.mem_inter_iff, Set.mem_Ico, Set.mem_ofPred_eq, hx,
      true_and]
    by_cases hr : 0 ≤ r ∧ r < 1
    · simp [hr]
    · simp [hr]
  let wt : List Int → ℝ × ℝ → ℝ := fun x u => -1 / (sims x).prob.sum * Real.log u.2
  have hw : ∀ x ∈ Ω, Measurable (wt x) := fun x _ => (Real.measurable_log.comp measurable_snd).const_mul _
  have hw2 : ∀ x ∈ Ω, MemLp (wt x) 2 twoUniform := fun x _ => (snd_memLp log_memLp).const_mul _
  have hwm : ∀ x ∈ Ω, ∫ u, wt x u ∂twoUniform = 1 / (sims x).prob.sum := by
    intro x _
    simp only [wt]
    rw [integral_const_mul, twoUniform_snd Real.log, integral_Ico_eq_integral_Ioc,
      ← intervalIntegral.integral_of_le zero_le_one, integral_log]
    simp
    ring
  let X : Nat → Θ → List Int := along sel U s0.st.occ
  have hX : ∀ n ω, X n ω ∈ Ω := along_mem hS U hx0
  -- the simulation follows the chain
  have hst : s0.st = st := by
    obtain ⟨i1, -⟩ := init_ok hi
    exact (Option.some.inj i1).symm
  have follow : ∀ᵐ ω ∂μ, ∀ n, Met o mobile m st s0 (simulated m s0 equil (fun k => U k ω) n) ∧
      (simulated m s0 equil (fun k => U k ω) n).st.occ = X n ω ∧
      ∃ t : ℝ, (simulated m s0 equil (fun k => U k ω) n).st.time = (t : EReal) ∧
        (simulated m s0 equil (fun k => U k ω) (n + 1)).st.time =
          ((t + if n < equil then 0 else wt (X n ω) (U n ω) : ℝ) : EReal) := by
    filter_upwards [draws_in_range hU] with ω hω
    have one : ∀ n, Met o mobile m st s0 (simulated m s0 equil (fun k => U k ω) n) →
        (simulated m s0 equil (fun k => U k ω) n).st.occ = X n ω →
        ∀ t : ℝ, (simulated m s0 equil (fun k => U k ω) n).st.time = (t : EReal) →
        Met o mobile m st s0 (simulated m s0 equil (fun k => U k ω) (n + 1)) ∧
        (simulated m s0 equil (fun k => U k ω) (n + 1)).st.occ = X (n + 1) ω ∧
        (simulated m s0 equil (fun k => U k ω) (n + 1)).st.time =
          ((t + if n < equil then 0 else wt (X n ω) (U n ω) : ℝ) : EReal) := by
      intro n hm ho t htn
      have hxn := hX n ω
      have hstep := step_occ hs ha hi (met _ hxn) hm (ho.trans (hsims _ hxn).2.symm) (pos _ hxn)
        (hω n).1.1 (hω n).1.2 (U n ω).2
      have hnext : X (n + 1) ω = (oneStep m (sims (X n ω)) (U n ω).1 0).st.occ := by
        show tgt (X n ω) (U n ω).1 = _
        simp only [tgt]
        rw [if_pos ⟨hxn, (hω n).1⟩]
      by_cases hq : n < equil
      · simp only [simulated, if_pos hq]
        refine ⟨hstep.2.1.1, hstep.2.1.2.1.trans hnext.symm, ?_⟩
        rw [hstep.2.1.2.2, htn]
        simp
      · simp only [simulated, if_neg hq]
        refine ⟨hstep.1.1, hstep.1.2.1.trans hnext.symm, ?_⟩
        rw [hstep.1.2.2 (hω n).2.1, htn, ← EReal.coe_add]
    have all : ∀ n, Met o mobile m st s0 (simulated m s0 equil (fun k => U k ω) n) ∧
        (simulated m s0 equil (fun k => U k ω) n).st.occ = X n ω ∧
        ∃ t : ℝ, (simulated m s0 equil (fun k => U k ω) n).st.time = (t : EReal) := by
      intro n
      induction n with
      | zero => exact ⟨met_start hs hi, rfl, t0, by simp only [simulated]; rw [hst]; exact ht⟩
      | succ n ih =>
        obtain ⟨a, b, t, c⟩ := ih
        obtain ⟨d, e, f⟩ := one n a b t c
        exact ⟨d, e, _, f⟩
    intro n
    obtain ⟨a, b, t, c⟩ := all n
    exact ⟨a, b, t, c, (one n a b t c).2.2⟩
  refine ⟨fun n ω => wt (X n ω) (U n ω), π, Z, hZ, hπ0, ?_, ?_, ?_, ?_, ?_⟩
  · intro x hx
    rw [hπe x, prob_sum (met x hx)]
    congr 2
    unfold totalRate
    congr 2
    funext e
    exact rateIn_congr (st := ⟨x, 0, 0⟩) hs.loc (hsims x hx).2 e
  · filter_upwards [follow] with ω hω n
    exact (hω n).1
  · filter_upwards [follow] with ω hω n
    obtain ⟨-, b, t, c, d⟩ := hω n
    refine ⟨by rw [b]; exact hX n ω, ⟨t, c⟩, ?_⟩
    unfold clock
    rw [c, d]
    simp only [EReal.toReal_coe]
  · intro f
    have h1 := along_average hU.measurable hU.independent hU.uniform hsel hS hx0 hP hP1 π hπ hPs f
    have h2 := along_weighted hU.measurable hU.independent hU.uniform hsel hS hx0 hP hP1 π hπ hPs f hw hw2
    rw [Finset.sum_congr rfl fun y hy => by rw [hwm y hy], hπf f] at h2
    filter_upwards [follow, h1, h2] with ω a b c
    refine ⟨b.congr fun n => ?_, c.congr fun n => ?_⟩
    · congr 1
      exact Finset.sum_congr rfl fun k _ => by rw [(a k).2.1]
    · congr 1
      exact Finset.sum_congr rfl fun k _ => by rw [(a k).2.1]
  · intro x hx A hA hA1
    have hAm : Measurable fun u : ℝ × ℝ => A.indicator (1 : ℝ → ℝ) u.1 :=
      (measurable_one.indicator hA).comp measurable_fst
    have h2 := along_weighted hU.measurable hU.independent hU.uniform hsel hS hx0 hP hP1 π hπ hPs
      (fun y => if y = x then 1 else 0) (w := fun _ u => A.indicator (1 : ℝ → ℝ) u.1) (fun _ _ => hAm)
      (fun _ _ => MemLp.of_bound hAm.aestronglyMeasurable 1 (Eventually.of_forall fun u => by
        by_cases h : u.1 ∈ A <;> simp [h]))
    have hint : ∫ u, A.indicator (1 : ℝ → ℝ) u.1 ∂twoUniform = (volume A).toReal := by
      unfold twoUniform
      rw [integral_fun_fst (μ := volume.restrict (Set.Ico (0 : ℝ) 1)) (ν := volume.restrict (Set.Ico (0 : ℝ) 1))
        (f := A.indicator (1 : ℝ → ℝ)), integral_indicator_one hA]
      rw [measureReal_restrict_apply hA, Set.inter_eq_left.2 hA1]
      simp [Measure.real]
    rw [Finset.sum_eq_single x (fun y _ hy => by rw [if_neg hy]; simp) (fun hno => absurd hx hno), if_pos rfl, one_mul,
      hint] at h2
    filter_upwards [follow, h2] with ω a b
    refine b.congr fun n => ?_
    congr 1
    exact Finset.sum_congr rfl fun k _ => by rw [(a k).2.1]

/-- Sums along almost every simulation. -/
theorem simulated_sums (hs : HopSystem o mobile h Rounding.exact m g lib st)
    (ha : Answers o mobile m lib.events st.occ)
    (hi : Sim.init (realKernel Rounding.exact) m lib.generateEventDependencies (some h) (some st) = .ok s0)
    (hns : ¬ Stuck m s0) (W : List Int → ℝ) (hW : ∀ x, 0 < W x)
    (hb : Balanced o mobile m s0.lib.events W)
    (Ω : Finset (List Int)) (hΩ : ∀ x, x ∈ Ω ↔ ∃ s, Reaches m s0 s ∧ s.st.occ = x)
    (t0 : ℝ) (ht : st.time = (t0 : EReal)) (equil : Nat)
    {Θ : Type} [MeasurableSpace Θ] {μ : Measure Θ} [IsProbabilityMeasure μ] {U : Nat → Θ → ℝ × ℝ}
    (hU : RandomNumbers μ U) :
    ∃ (w : Nat → Θ → ℝ) (π : List Int → ℝ) (Z : ℝ), 0 < Z ∧ (∀ x ∈ Ω, 0 < π x) ∧
      (∀ᵐ ω ∂μ, ∀ n, (simulated m s0 equil (fun k => U k ω) n).st.occ ∈ Ω ∧
        (∃ t : ℝ, (simulated m s0 equil (fun k => U k ω) n).st.time = (t : EReal)) ∧
        clock (simulated m s0 equil (fun k => U k ω) (n + 1)) =
          clock (simulated m s0 equil (fun k => U k ω) n) + if n < equil then 0 else w n ω) ∧
      ∀ f : List Int → ℝ, ∀ᵐ ω ∂μ,
        Tendsto (fun n : Nat => (∑ k ∈ Finset.range n,
          f (simulated m s0 equil (fun k => U k ω) k).st.occ) / n) atTop (𝓝 (∑ y ∈ Ω, π y * f y)) ∧
        Tendsto (fun n : Nat => (∑ k ∈ Finset.range n,
          f (simulated m s0 equil (fun k => U k ω) k).st.occ * w k ω) / n) atTop
            (𝓝 ((∑ y ∈ Ω, f y * W y) / Z)) := by
  obtain ⟨w, π, Z, hZ, h1, -, -, h2, h3, -⟩ := simulated_chain hs ha hi hns W hW hb Ω hΩ t0 ht equil hU
  exact ⟨w, π, Z, hZ, h1, h2, h3⟩

/-- C93.  Almost every single simulation gives the ensemble averages.  Let the model be balanced with positive
weights `W`, and let `Ω` be the configurations the simulation can get into.  The random numbers are independent
and uniform.  Then with probability one, for every quantity `f` of the configuration, the average of `f` over
the simulated time of the first `n` steps after equilibration tends, as `n` grows, to the average of `f` over
`Ω` with the weights `W`.  The number of equilibration steps is arbitrary. -/
theorem C93_time_average (hs : HopSystem o mobile h Rounding.exact m g lib st)
    (ha : Answers o mobile m lib.events st.occ)
    (hi : Sim.init (realKernel Rounding.exact) m lib.generateEventDependencies (some h) (some st) = .ok s0)
    (hns : ¬ Stuck m s0) (W : List Int → ℝ) (hW : ∀ x, 0 < W x)
    (hb : Balanced o mobile m s0.lib.events W)
    (Ω : Finset (List Int)) (hΩ : ∀ x, x ∈ Ω ↔ ∃ s, Reaches m s0 s ∧ s.st.occ = x)
    (t0 : ℝ) (ht : st.time = (t0 : EReal)) (equil : Nat)
    {Θ : Type} [MeasurableSpace Θ] {μ : Measure Θ} [IsProbabilityMeasure μ] {U : Nat → Θ → ℝ × ℝ}
    (hU : RandomNumbers μ U) :
    ∀ᵐ ω ∂μ, ∀ f : List Int → ℝ,
      Tendsto (timeAverage (simulated m s0 equil fun k => U k ω) equil f) atTop
        (𝓝 ((∑ x ∈ Ω, f x * W x) / ∑ x ∈ Ω, W x)) := by
  classical
  obtain ⟨w, π, Z, hZ, -, hfol, hsum⟩ := simulated_sums hs ha hi hns W hW hb Ω hΩ t0 ht equil hU
  have hx0 : s0.st.occ ∈ Ω := (hΩ _).2 ⟨s0, .refl, rfl⟩
  have hWs : 0 < ∑ x ∈ Ω, W x := Finset.sum_pos (fun x _ => hW x) ⟨_, hx0⟩
  have hall : ∀ᵐ ω ∂μ, ∀ y ∈ Ω, Tendsto (fun n : Nat => (∑ k ∈ Finset.range n,
      (if (simulated m s0 equil (fun k => U k ω) k).st.occ = y then (1 : ℝ) else 0) * w k ω) / n) atTop
      (𝓝 (W y / Z)) := by
    rw [Filter.eventually_all_finset]
    intro y hy
    filter_upwards [hsum fun x => if x = y then 1 else 0] with ω hω
    have := hω.2
    rw [show (∑ x ∈ Ω, (if x = y then (1 : ℝ) else 0) * W x) = W y by simp [hy]] at this
    exact this
  filter_upwards [hfol, hall] with ω hf hy f
  -- weighted sums from the start
  have key : ∀ f : List Int → ℝ, Tendsto (fun n : Nat => (∑ k ∈ Finset.range n,
      f (simulated m s0 equil (fun k => U k ω) k).st.occ * w k ω) / n) atTop (𝓝 ((∑ x ∈ Ω, f x * W x) / Z)) := by
    intro f
    have h1 := tendsto_finsetSum Ω fun y hyΩ => (hy y hyΩ).const_mul (f y)
    rw [Finset.sum_div]
    simp only [mul_div_assoc]
    refine h1.congr fun n => ?_
    simp only [Finset.sum_div, Finset.mul_sum]
    rw [Finset.sum_comm]
    refine Finset.sum_congr rfl fun k _ => ?_
    rw [Finset.sum_eq_single (simulated m s0 equil (fun k => U k ω) k).st.occ]
    · simp; ring
    · intro y _ hne
      simp [Ne.symm hne]
    · intro hno
      exact absurd (hf k).1 hno
  -- the sums after equilibration
  have shift : ∀ f : List Int → ℝ, Tendsto (fun n : Nat => (∑ k ∈ Finset.range n,
      f (simulated m s0 equil (fun k => U k ω) (equil + k)).st.occ * w (equil + k) ω) / ((n + equil : Nat) : ℝ))
      atTop (𝓝 ((∑ x ∈ Ω, f x * W x) / Z)) := by
    intro f
    have h1 := (tendsto_add_atTop_iff_nat equil).2 (key f)
    have h2 : Tendsto (fun n : Nat => (∑ k ∈ Finset.range equil,
        f (simulated m s0 equil (fun k => U k ω) k).st.occ * w k ω) / ((n + equil : Nat) : ℝ)) atTop (𝓝 0) :=
      (tendsto_add_atTop_iff_nat equil).2 (tendsto_const_div_atTop_nhds_zero_nat _)
    have h3 := h1.sub h2
    rw [sub_zero] at h3
    refine h3.congr fun n => ?_
    rw [← sub_div, add_comm n equil, Finset.sum_range_add, add_sub_cancel_left]
  have hnum : ∀ k, clock (simulated m s0 equil (fun k => U k ω) (equil + k + 1)) -
      clock (simulated m s0 equil (fun k => U k ω) (equil + k)) = w (equil + k) ω := by
    intro k
    rw [(hf (equil + k)).2.2, if_neg (by omega)]
    ring
  have hden : ∀ n : Nat, clock (simulated m s0 equil (fun k => U k ω) (equil + n)) -
      clock (simulated m s0 equil (fun k => U k ω) equil) = ∑ k ∈ Finset.range n, w (equil + k) ω := by
    intro n
    have := Finset.sum_range_sub (fun k => clock (simulated m s0 equil (fun k => U k ω) (equil + k))) n
    simp only [add_zero] at this
    rw [← this]
    refine Finset.sum_congr rfl fun k _ => ?_
    exact hnum k
  have h4 := shift fun _ => 1
  simp only [one_mul] at h4
  have h5 := (shift f).div h4 (div_pos hWs hZ).ne'
  rw [div_div_div_cancel_right₀ hZ.ne'] at h5
  refine h5.congr' ?_
  filter_upwards [eventually_ge_atTop 1] with n hn
  have hn0 : ((n + equil : Nat) : ℝ) ≠ 0 := by positivity
  simp only [Pi.div_apply]
  rw [div_div_div_cancel_right₀ hn0]
  unfold timeAverage
  rw [hden]
  congr 1
  refine Finset.sum_congr rfl fun k _ => ?_
  rw [hnum]

/-- C93.  With probability one the clock of the simulation grows beyond every bound, and the simulation comes
back to every configuration it can get into again and again. -/
theorem C93_recurrent (hs : HopSystem o mobile h Rounding.exact m g lib st)
    (ha : Answers o mobile m lib.events st.occ)
    (hi : Sim.init (realKernel Rounding.exact) m lib.generateEventDependencies (some h) (some st) = .ok s0)
    (hns : ¬ Stuck m s0) (W : List Int → ℝ) (hW : ∀ x, 0 < W x)
    (hb : Balanced o mobile m s0.lib.events W)
    (t0 : ℝ) (ht : st.time = (t0 : EReal)) (equil : Nat)
    {Θ : Type} [MeasurableSpace Θ] {μ : Measure Θ} [IsProbabilityMeasure μ] {U : Nat → Θ → ℝ × ℝ}
    (hU : RandomNumbers μ U) :
    ∀ᵐ ω ∂μ, Tendsto (fun n => clock (simulated m s0 equil (fun k => U k ω) n)) atTop atTop ∧
      ∀ s, Reaches m s0 s → ∀ N, ∃ n, N ≤ n ∧ (simulated m s0 equil (fun k => U k ω) n).st.occ = s.st.occ := by
  classical
  obtain ⟨Ω, hΩ⟩ := C90_finitely_many hs ha hi
  obtain ⟨w, π, Z, hZ, hπ, hfol, hsum⟩ := simulated_sums hs ha hi hns W hW hb Ω hΩ t0 ht equil hU
  have hx0 : s0.st.occ ∈ Ω := (hΩ _).2 ⟨s0, .refl, rfl⟩
  have hWs : 0 < ∑ x ∈ Ω, W x := Finset.sum_pos (fun x _ => hW x) ⟨_, hx0⟩
  have hall : ∀ᵐ ω ∂μ, ∀ y ∈ Ω, Tendsto (fun n : Nat => (∑ k ∈ Finset.range n,
      (if (simulated m s0 equil (fun k => U k ω) k).st.occ = y then (1 : ℝ) else 0)) / n) atTop
      (𝓝 (π y)) := by
    rw [Filter.eventually_all_finset]
    intro y hy
    filter_upwards [hsum fun x => if x = y then 1 else 0] with ω hω
    have := hω.1
    rw [show (∑ x ∈ Ω, π x * (if x = y then (1 : ℝ) else 0)) = π y by simp [hy]] at this
    exact this
  filter_upwards [hfol, hall, hsum fun _ => 1] with ω hf hy hw
  constructor
  · have h1 := hw.2
    simp only [one_mul] at h1
    have h2 : Tendsto (fun n : Nat => (∑ k ∈ Finset.range n, w k ω) / n * n) atTop atTop :=
      h1.pos_mul_atTop (div_pos hWs hZ) tendsto_natCast_atTop_atTop
    have h3 : Tendsto (fun n : Nat => ∑ k ∈ Finset.range n, w k ω) atTop atTop := by
      refine h2.congr' ?_
      filter_upwards [eventually_ge_atTop 1] with n hn
      have : (n : ℝ) ≠ 0 := by positivity
      rw [div_mul_cancel₀ _ this]
    have hc : ∀ n, clock (simulated m s0 equil (fun k => U k ω) n) =
        clock s0 + ∑ k ∈ Finset.range n, (if k < equil then 0 else w k ω) := by
      intro n
      induction n with
      | zero => simp [simulated]
      | succ n ih => rw [(hf n).2.2, ih, Finset.sum_range_succ]; ring
    have hsplit : ∀ n, equil ≤ n → ∑ k ∈ Finset.range n, (if k < equil then 0 else w k ω) =
        ∑ k ∈ Finset.range n, w k ω - ∑ k ∈ Finset.range equil, w k ω := by
      intro n hn
      obtain ⟨j, rfl⟩ : ∃ j, n = equil + j := ⟨n - equil, by omega⟩
      rw [Finset.sum_range_add, Finset.sum_range_add]
      rw [Finset.sum_eq_zero fun k hk => if_pos (Finset.mem_range.1 hk)]
      rw [zero_add, add_sub_cancel_left]
      exact Finset.sum_congr rfl fun k _ => if_neg (by omega)
    have h4 : Tendsto (fun n : Nat => clock s0 - ∑ k ∈ Finset.range equil, w k ω + ∑ k ∈ Finset.range n, w k ω)
        atTop atTop := tendsto_atTop_add_const_left _ _ h3
    refine h4.congr' ?_
    filter_upwards [eventually_ge_atTop equil] with n hn
    rw [hc, hsplit n hn]
    ring
  · intro s hr N
    have hyΩ : s.st.occ ∈ Ω := (hΩ _).2 ⟨s, hr, rfl⟩
    by_contra hno
    push Not at hno
    have hlim := hy _ hyΩ
    have hz : Tendsto (fun n : Nat => (∑ k ∈ Finset.range n,
        (if (simulated m s0 equil (fun k => U k ω) k).st.occ = s.st.occ then (1 : ℝ) else 0)) / n) atTop (𝓝 0) := by
      refine (tendsto_const_div_atTop_nhds_zero_nat (∑ k ∈ Finset.range N,
        (if (simulated m s0 equil (fun k => U k ω) k).st.occ = s.st.occ then (1 : ℝ) else 0))).congr' ?_
      filter_upwards [eventually_ge_atTop N] with n hn
      congr 1
      refine Finset.sum_subset (Finset.range_mono hn) fun k _ hk => ?_
      rw [Finset.mem_range, not_lt] at hk
      exact if_neg (hno k hk)
    exact (hπ _ hyΩ).ne' (tendsto_nhds_unique hlim hz)

/-- C93.  Canonical averages from one simulation: with a composite model whose site-energy differences are
differences of an energy `E`, on a connected network with an ion and a vacancy, with probability one the time
average of every quantity of the configuration tends to its Boltzmann average over all arrangements of the
network. -/
theorem C93_canonical_average (c : Composite Unit EReal) (kB temp ν : ℝ) (hν : 0 < ν)
    (hs : HopSystem o mobile h Rounding.exact (c.rateModel kB temp ν) g lib st)
    (ha : Answers o mobile (c.rateModel kB temp ν) lib.events st.occ)
    (hi : Sim.init (realKernel Rounding.exact) (c.rateModel kB temp ν) lib.generateEventDependencies (some h)
      (some st) = .ok s0)
    {S : Nat → Prop} (hn : Network o mobile lib.events st.occ S)
    (hap : ∀ e ∈ lib.events, SurroundingsApart st.occ.length e) (E : List Int → ℝ)
    (hE : ReportsEnergy c.site (fun _ st' => WellLabelled o mobile st'.occ)
      (fun e => ∃ x ∈ lib.events, e.mobile = x.mobile ∧ e.env = x.env) E)
    (Ω : Finset (List Int))
    (hΩ : ∀ x, x ∈ Ω ↔ SameComposition x st.occ ∧ ∀ i, ¬ S i → x[i]? = st.occ[i]?)
    (t0 : ℝ) (ht : st.time = (t0 : EReal)) (equil : Nat)
    {Θ : Type} [MeasurableSpace Θ] {μ : Measure Θ} [IsProbabilityMeasure μ] {U : Nat → Θ → ℝ × ℝ}
    (hU : RandomNumbers μ U) :
    ∀ᵐ ω ∂μ, ∀ f : List Int → ℝ,
      Tendsto (timeAverage (simulated (c.rateModel kB temp ν) s0 equil fun k => U k ω) equil f) atTop
        (𝓝 ((∑ x ∈ Ω, f x * Real.exp (-E x / (kB * temp))) / ∑ x ∈ Ω, Real.exp (-E x / (kB * temp)))) := by
  have hst : s0.st = st := by
    obtain ⟨i1, -⟩ := init_ok hi
    exact (Option.some.inj i1).symm
  have hw := C85_composite_willing c kB temp ν hν
  have hns : ¬ Stuck (c.rateModel kB temp ν) s0 :=
    network_not_stuck hs ha hi hw (sim_init_inv hs hi) (by rw [hst]) (by rw [hst]; exact hn)
  exact C93_time_average hs ha hi hns (fun x => Real.exp (-E x / (kB * temp))) (fun x => Real.exp_pos _)
    (C90_energy_balanced c kB temp ν hν hs hi (fun e st' => ha.commit e st') hap E hE) Ω
    (fun x => (hΩ x).trans (C90_all_arrangements hs ha hw hi hn x).symm) t0 ht equil hU

/-- C93.  How long a site is occupied in one simulation.  If all configurations have the same weight, then on a
connected network with probability one every site holds an ion for the same share of the time: the number of
ions over the number of sites of the network. -/
theorem C93_site_share (hs : HopSystem o mobile h Rounding.exact m g lib st)
    (ha : Answers o mobile m lib.events st.occ) (hw : Willing m)
    (hi : Sim.init (realKernel Rounding.exact) m lib.generateEventDependencies (some h) (some st) = .ok s0)
    (hb : Balanced o mobile m s0.lib.events fun _ => 1)
    {S : Nat → Prop} (hn : Network o mobile lib.events st.occ S)
    (t0 : ℝ) (ht : st.time = (t0 : EReal)) (equil : Nat)
    {Θ : Type} [MeasurableSpace Θ] {μ : Measure Θ} [IsProbabilityMeasure μ] {U : Nat → Θ → ℝ × ℝ}
    (hU : RandomNumbers μ U) :
    ∀ᵐ ω ∂μ, ∀ i, S i → Tendsto (timeAverage (simulated m s0 equil fun k => U k ω) equil
        fun x => indicator (speciesAt o x i = some mobile)) atTop
      (𝓝 ((countSites st.occ.length S (fun k => speciesAt o st.occ k = some mobile) : ℝ) /
        countSites st.occ.length S fun _ => True)) := by
  have hst : s0.st = st := by
    obtain ⟨i1, -⟩ := init_ok hi
    exact (Option.some.inj i1).symm
  have hns := network_not_stuck hs ha hi hw (sim_init_inv hs hi) (by rw [hst]) (by rw [hst]; exact hn)
  obtain ⟨Ω, hΩ⟩ := C90_finitely_many hs ha hi
  filter_upwards [C93_time_average hs ha hi hns (fun _ => 1) (fun _ => one_pos) hb Ω hΩ t0 ht equil hU] with ω hω i si
  have h1 := C91_ensemble_average hs ha hi hns (fun _ => 1) (fun _ => one_pos) hb Ω hΩ
    fun x => indicator (speciesAt o x i = some mobile)
  rw [tendsto_nhds_unique (C91_site_share hs ha hw hi hb hn i si) h1]
  exact hω _

end

/-! ### The simulations above are those of `run` -/

section run
variable {σ φ K V Row : Type} [Field K] [LinearOrder K] [FloorRing K]

theorem simulated_steps {m : RateModel Unit ℝ EReal} {s0 s s' : Sim σ φ Unit ℝ EReal} {equil c : Nat}
    {draws : Nat → ℝ × ℝ} {b : Bool} {hist : List (Event × EReal)}
    (hst : Steps (realKernel Rounding.exact) m draws b c s hist s')
    (hs : s = simulated m s0 equil draws c)
    (hb : if b then equil ≤ c else c + hist.length ≤ equil) :
    s' = simulated m s0 equil draws (c + hist.length) := by
  induction hst with
  | nil => exact hs
  | @cons c s s1 s2 e dt hist hp hu hr ih =>
    have hnext : s1 = simulated m s0 equil draws (c + 1) := by
      cases b with
      | true =>
        simp only [if_true] at hb hu
        simp only [simulated]
        rw [if_neg (by omega), ← hs]
        unfold oneStep
        rw [hp]
        simp only [hu]
      | false =>
        simp only [Bool.false_eq_true, if_false, List.length_cons] at hb hu
        simp only [simulated]
        rw [if_pos (by omega), ← hs]
        unfold quietStep
        rw [hp]
        simp only [hu]
    have := ih hnext (by
      cases b with
      | true => simp only [if_true] at hb ⊢; omega
      | false => simp only [Bool.false_eq_true, if_false, List.length_cons] at hb ⊢; omega)
    rw [this, List.length_cons]
    congr 1
    omega

/-- C93.  The simulation that a completed run leaves behind is `simulated` after all its steps: the steps of the
equilibration passes and then those of the production passes, in the order of the random numbers. -/
theorem C93_run (m : RateModel Unit ℝ EReal) (g : Geometry K) (lookup : Option HopStateLookup)
    (summary : Trajectory K → EReal → List (String × Bool) → Row) (plan : PropertyPlan EReal V)
    (draws : Nat → ℝ × ℝ) (len equil prod : Nat) (s0 : Sim σ φ Unit ℝ EReal)
    (hok : (s0.run (realKernel Rounding.exact) m g lookup summary plan draws len equil prod).outcome = .ok ()) :
    (s0.run (realKernel Rounding.exact) m g lookup summary plan draws len equil prod).sim =
      simulated m s0 (equil * len) draws (equil * len + prod * len) := by
  obtain ⟨a1, t1, p1, r1, e1, -, -, g1, w1⟩ := run_ok hok
  obtain ⟨hq, hql, he⟩ := equilSteps_steps e1
  obtain ⟨hp, hpl, hps⟩ := passes_steps g1
  rw [w1]
  have h1 : a1 = simulated m s0 (equil * len) draws (equil * len) := by
    have := simulated_steps (s0 := s0) (equil := equil * len) he rfl (by simp [hql])
    simpa [hql] using this
  have h2 := simulated_steps (s0 := s0) (equil := equil * len) hps h1 (by simp)
  simp only
  rw [h2, hpl]

end run

/-! ### Concrete simulations -/

/-- There are random numbers as the theorems ask for: all sequences of pairs, with the product measure. -/
theorem C93_random_numbers :
    RandomNumbers (Measure.infinitePi fun _ : Nat => twoUniform) fun n ω => ω n where
  measurable n := measurable_pi_apply n
  independent := iIndepFun_infinitePi (P := fun _ : Nat => twoUniform) (X := fun _ u => u) fun _ => measurable_id
  uniform n := Measure.infinitePi_map_eval (fun _ : Nat => twoUniform) n

/-- Non-vacuity: two ions on a chain of five sites.  For almost every sequence of random numbers, with ten steps
of equilibration, every site holds an ion for two fifths of the time in the long run. -/
example : ∃ s0 : Sim Unit Unit Unit ℝ EReal,
    Sim.init (realKernel Rounding.exact) ((⟨some chainExpansion, .none⟩ :
      Composite Unit EReal).rateModel 1 300 1000) chainLib.generateEventDependencies
      (some ⟨[0, 0, 0, 0, 0], [1, 1, 1, 1, 1]⟩) (some ⟨[0, 1, 0, 1, 1], 0, 0⟩) = .ok s0 ∧
    ∀ᵐ ω ∂Measure.infinitePi fun _ : Nat => twoUniform, ∀ i, i < 5 →
      Tendsto (timeAverage (simulated ((⟨some chainExpansion, .none⟩ :
        Composite Unit EReal).rateModel 1 300 1000) s0 10 ω) 10
        fun x => indicator (speciesAt exampleOrder x i = some "Na")) atTop (𝓝 (2 / 5)) := by
  have hs := C69_hop_system exampleOrder "Na" _ (some chainExpansion) none 1 300 1000 hopGeometry chainLib
    ⟨[0, 1, 0, 1, 1], 0, 0⟩ (by norm_num) chain_hopSystem.lookup chain_hopSystem.labelled chain_hopSystem.fit
    chain_hopSystem.endpoints chain_hopSystem.coords
  have ha : Answers exampleOrder "Na" ((⟨some chainExpansion, .none⟩ : Composite Unit EReal).rateModel 1 300 1000)
      chainLib.events [0, 1, 0, 1, 1] :=
    C85_composite_answers chainExpansion none 1 300 1000 chainLib.events [0, 1, 0, 1, 1] [2, 2] [2, 2]
      chainExpansion_built chain_surroundings (by rintro m ⟨⟩) chain_hopSystem.fit (by
        intro e he
        obtain ⟨f, t, h1, -⟩ := chain_hopSystem.endpoints e he
        exact ⟨f, t, h1⟩)
  obtain ⟨s0, hi⟩ := C85_can_be_constructed hs ha
  refine ⟨s0, hi, ?_⟩
  have key := C93_site_share hs ha (C85_composite_willing _ 1 300 1000 (by norm_num)) hi
    (C90_barriers_balanced chainExpansion 1 300 1000 (by norm_num) hs hi chain_apart) chain_network 0 rfl 10
    C93_random_numbers
  have e1 : countSites 5 (fun i => i < 5) (fun k => speciesAt exampleOrder [0, 1, 0, 1, 1] k = some "Na") = 2 := by
    classical
    have : ((Finset.range 5).filter fun k => k < 5 ∧ speciesAt exampleOrder [0, 1, 0, 1, 1] k = some "Na").card =
      2 := by decide
    rw [← this]
    unfold countSites
    congr
  have e2 : countSites 5 (fun i => i < 5) (fun _ => True) = 5 := by
    classical
    have : ((Finset.range 5).filter fun k => k < 5 ∧ True).card = 5 := by decide
    rw [← this]
    unfold countSites
    congr
  have e3 : ([0, 1, 0, 1, 1] : List Int).length = 5 := rfl
  simp only [e3, e1, e2] at key
  norm_num at key
  exact key

end KMC
