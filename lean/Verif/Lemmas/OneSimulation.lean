import Verif.Lemmas.Ergodic
import Verif.Spec.OneSimulation
import Mathlib.MeasureTheory.Integral.Prod
import Mathlib.Analysis.SpecialFunctions.Integrability.Basic
/-
Lemmas for single simulations: what a step does, and the simulation as a Markov chain driven by its random
numbers.
-/
set_option linter.unusedSectionVars false

namespace KMC
open Spec MeasureTheory Filter Topology ProbabilityTheory

instance : IsProbabilityMeasure (volume.restrict (Set.Ico (0 : ℝ) 1)) := ⟨by simp⟩

instance : IsProbabilityMeasure twoUniform := by unfold twoUniform; infer_instance

/-- The squares of the waiting times have a mean. -/
theorem log_memLp : MemLp Real.log 2 (volume.restrict (Set.Ico (0 : ℝ) 1)) := by
  rw [memLp_two_iff_integrable_sq Real.measurable_log.aestronglyMeasurable]
  have h1 : IntegrableOn (fun x : ℝ => 16 * x ^ (-(1 / 2) : ℝ)) (Set.Ico 0 1) := by
    have := (intervalIntegral.intervalIntegrable_rpow' (a := 0) (b := 1) (r := (-(1 / 2) : ℝ)) (by norm_num))
    rw [intervalIntegrable_iff_integrableOn_Ico_of_le zero_le_one] at this
    exact this.const_mul 16
  refine Integrable.mono h1 (Real.measurable_log.pow_const 2).aestronglyMeasurable ?_
  rw [ae_restrict_iff' measurableSet_Ico]
  refine Eventually.of_forall fun x hx => ?_
  rcases hx.1.eq_or_lt with rfl | h0
  · simp [Real.zero_rpow]
  have h2 := Real.abs_log_mul_self_rpow_lt x (1 / 4) h0 hx.2.le (by norm_num)
  have hp : 0 < x ^ (1 / 4 : ℝ) := Real.rpow_pos_of_pos h0 _
  rw [abs_mul, abs_of_pos hp] at h2
  have h3 : |Real.log x| ≤ 4 * x ^ (-(1 / 4) : ℝ) := by
    rw [Real.rpow_neg h0.le, ← div_eq_mul_inv, le_div_iff₀ hp]
    refine h2.le.trans (by norm_num)
  have h4 : (x ^ (-(1 / 4) : ℝ)) ^ 2 = x ^ (-(1 / 2) : ℝ) := by
    rw [← Real.rpow_natCast, ← Real.rpow_mul h0.le]
    norm_num
  rw [Real.norm_eq_abs, Real.norm_eq_abs, abs_pow]
  refine le_trans ?_ (le_abs_self _)
  calc |Real.log x| ^ 2 ≤ (4 * x ^ (-(1 / 4) : ℝ)) ^ 2 := by gcongr
    _ = 16 * x ^ (-(1 / 2) : ℝ) := by rw [mul_pow, h4]; norm_num

/-- The mean of a function of the second random number. -/
theorem twoUniform_snd (f : ℝ → ℝ) : ∫ u, f u.2 ∂twoUniform = ∫ r in Set.Ico (0 : ℝ) 1, f r := by
  unfold twoUniform
  rw [integral_fun_snd]
  simp

theorem snd_memLp {f : ℝ → ℝ} (hf : MemLp f 2 (volume.restrict (Set.Ico (0 : ℝ) 1))) :
    MemLp (fun u : ℝ × ℝ => f u.2) 2 twoUniform :=
  hf.comp_measurePreserving measurePreserving_snd

/-- Random numbers are in range. -/
theorem draws_in_range {Θ : Type} [MeasurableSpace Θ] {μ : Measure Θ} {U : Nat → Θ → ℝ × ℝ}
    (hU : RandomNumbers μ U) : ∀ᵐ ω ∂μ, ∀ n, (0 ≤ (U n ω).1 ∧ (U n ω).1 < 1) ∧ 0 < (U n ω).2 ∧ (U n ω).2 < 1 := by
  rw [ae_all_iff]
  intro n
  have h1 : ∀ᵐ u ∂twoUniform, (0 ≤ u.1 ∧ u.1 < 1) ∧ 0 < u.2 ∧ u.2 < 1 := by
    have hIco : ∀ᵐ r ∂(volume.restrict (Set.Ico (0 : ℝ) 1)), r ∈ Set.Ico (0 : ℝ) 1 :=
      ae_restrict_mem measurableSet_Ico
    have hne : ∀ᵐ r ∂(volume.restrict (Set.Ico (0 : ℝ) 1)), r ≠ 0 := by
      refine ae_restrict_of_ae ?_
      rw [ae_iff]
      simp
    have a1 : ∀ᵐ u ∂twoUniform, u.1 ∈ Set.Ico (0 : ℝ) 1 := by
      have := measurePreserving_fst (μ := volume.restrict (Set.Ico (0 : ℝ) 1))
        (ν := volume.restrict (Set.Ico (0 : ℝ) 1))
      exact this.quasiMeasurePreserving.ae hIco
    have hq := (measurePreserving_snd (μ := volume.restrict (Set.Ico (0 : ℝ) 1))
        (ν := volume.restrict (Set.Ico (0 : ℝ) 1))).quasiMeasurePreserving
    have a2 : ∀ᵐ u ∂twoUniform, u.2 ∈ Set.Ico (0 : ℝ) 1 := hq.ae hIco
    have a3 : ∀ᵐ u ∂twoUniform, u.2 ≠ 0 := hq.ae hne
    filter_upwards [a1, a2, a3] with u b1 b2 b3
    exact ⟨b1, lt_of_le_of_ne b2.1 (Ne.symm b3), b2.2⟩
  rw [← hU.uniform n] at h1
  exact ae_of_ae_map (hU.measurable n).aemeasurable h1

section
variable {σ φ ψ K : Type} [Field K] [LinearOrder K] [FloorRing K]
variable {o : ActiveSiteOrder String ψ} {mobile : String} {h : HopStateLookup}
  {m : RateModel Unit ℝ EReal} {g : Geometry K} {lib : EventLib σ φ} {st : State EReal}
  {s0 : Sim σ φ Unit ℝ EReal}

/-- What a simulation proposes: the event is determined by the configuration and the first random number, the
waiting time by the total rate and the second one. -/
theorem proposes (hs : HopSystem o mobile h Rounding.exact m g lib st)
    {s : Sim σ φ Unit ℝ EReal} (hm : Met o mobile m st s0 s) (hpos : 0 < s.prob.sum) {r1 : ℝ} (h0 : 0 ≤ r1)
    (h1 : r1 < 1) :
    ∃ (i : Nat) (e : Event), i < s.prob.length ∧ s0.lib.events[i]? = some e ∧
      ((s.prob.take i).sum / s.prob.sum ≤ r1 ∧ r1 < (s.prob.take (i + 1)).sum / s.prob.sum) ∧
      ∀ s', Met o mobile m st s0 s' → s'.st.occ = s.st.occ → ∀ r2,
        s'.propose (realKernel Rounding.exact) r1 r2 = .ok (e, waitingTime Rounding.exact s.prob.sum r2) := by
  have hne : s.prob ≠ [] := by rintro h; rw [h] at hpos; simp at hpos
  have hp := exists_pos_of_sum_pos hpos
  obtain ⟨i, dt, p, a1, a2, -⟩ := C01_selected_event_allowed Rounding.exact s.prob (fun _ _ => rfl)
    (rates_nonneg hs hm.inv) hp r1 0 h0 h1
  have hip := (List.getElem?_eq_some_iff.1 a2).1
  have hil : i < s0.lib.events.length := by
    rw [← hm.inv.lib, ← hm.inv.table.length]; exact hip
  refine ⟨i, s0.lib.events[i], hip, by simp [hil],
    (C02_selection_interval s.prob (rates_nonneg hs hm.inv) hpos i hip r1 0 h0).1 ⟨dt, a1⟩, ?_⟩
  intro s' hm' ho r2
  have hpr := met_prob hs hm' hm ho
  refine (propose_iff hm'.inv.table.cum).2 ⟨i, ?_, by rw [hm'.inv.lib]; simp [hil]⟩
  rw [hpr]
  unfold propose at a1 ⊢
  rw [cumsum_exact_last hne] at a1 ⊢
  simp only at a1 ⊢
  rw [if_neg (ne_of_gt hpos)] at a1 ⊢
  simp only [Except.ok.injEq, Prod.mk.injEq] at a1 ⊢
  exact ⟨a1.1, trivial⟩

/-- The configuration after a step depends only on the configuration before it and the first random number. -/
theorem step_occ (hs : HopSystem o mobile h Rounding.exact m g lib st)
    (ha : Answers o mobile m lib.events st.occ)
    (hi : Sim.init (realKernel Rounding.exact) m lib.generateEventDependencies (some h) (some st) = .ok s0)
    {s s' : Sim σ φ Unit ℝ EReal} (hm : Met o mobile m st s0 s) (hm' : Met o mobile m st s0 s')
    (ho : s'.st.occ = s.st.occ) (hpos : 0 < s.prob.sum) {r1 : ℝ} (h0 : 0 ≤ r1) (h1 : r1 < 1) (r2 : ℝ) :
    (Met o mobile m st s0 (oneStep m s' r1 r2) ∧ (oneStep m s' r1 r2).st.occ = (oneStep m s r1 0).st.occ ∧
      (0 < r2 → (oneStep m s' r1 r2).st.time =
        s'.st.time + ((-1 / s.prob.sum * Real.log r2 : ℝ) : EReal))) ∧
    (Met o mobile m st s0 (quietStep m s' r1 r2) ∧ (quietStep m s' r1 r2).st.occ = (oneStep m s r1 0).st.occ ∧
      (quietStep m s' r1 r2).st.time = s'.st.time + 0) ∧
    Next m s (oneStep m s r1 0) := by
  obtain ⟨i, e, -, he, -, hprop⟩ := proposes hs hm hpos h0 h1
  have hmem := List.mem_of_getElem? he
  have p1 := hprop s hm rfl 0
  have p2 := hprop s' hm' ho r2
  obtain ⟨t1, u1, m1, l1⟩ := met_update hs ha hi hm hmem (waitingTime Rounding.exact s.prob.sum 0)
  obtain ⟨t2, u2, m2, l2⟩ := met_update hs ha hi hm' hmem (waitingTime Rounding.exact s.prob.sum r2)
  obtain ⟨t3, u3, m3, l3⟩ := met_update hs ha hi hm' hmem 0
  have e1 : oneStep m s r1 0 = t1 := by unfold oneStep; rw [p1]; simp only [u1]
  have e2 : oneStep m s' r1 r2 = t2 := by unfold oneStep; rw [p2]; simp only [u2]
  have e3 : quietStep m s' r1 r2 = t3 := by unfold quietStep; rw [p2]; simp only [u3]
  have time : ∀ {dt : EReal} {t : Sim σ φ Unit ℝ EReal},
      s'.update (realKernel Rounding.exact) m e dt = (.ok (), t) → t.st.time = s'.st.time + dt := by
    intro dt t hu
    obtain ⟨st1, ms, i1, prob, b1, -, -, -, rfl⟩ := update_ok hu
    obtain ⟨f, t', i, j, hi', hj', -, -, -, rfl⟩ := applyEvent_ok b1
    rfl
  rw [e1, e2, e3]
  rw [ho] at l2 l3
  refine ⟨⟨m2, leads_unique l2 l1, fun hr => ?_⟩, ⟨m3, leads_unique l3 l1, time u3⟩,
    ⟨r1, 0, e, _, h0, h1, p1, u1⟩⟩
  rw [time u2]
  unfold waitingTime
  rw [if_neg hr.ne']
  rfl

/-- The selection numbers that lead to a given configuration are a measurable set. -/
theorem target_measurable (hs : HopSystem o mobile h Rounding.exact m g lib st)
    (ha : Answers o mobile m lib.events st.occ)
    (hi : Sim.init (realKernel Rounding.exact) m lib.generateEventDependencies (some h) (some st) = .ok s0)
    {s : Sim σ φ Unit ℝ EReal} (hm : Met o mobile m st s0 s) (hpos : 0 < s.prob.sum) (y : List Int) :
    MeasurableSet {r : ℝ | (0 ≤ r ∧ r < 1) ∧ (oneStep m s r 0).st.occ = y} := by
  classical
  let I : Nat → Set ℝ := fun i => Set.Ico ((s.prob.take i).sum / s.prob.sum) ((s.prob.take (i + 1)).sum / s.prob.sum)
  have hrange : ∀ i r, r ∈ I i → 0 ≤ r ∧ r < 1 := fun i r hr => by
    refine ⟨le_trans (div_nonneg (List.sum_nonneg fun a ha => rates_nonneg hs hm.inv a (List.mem_of_mem_take ha))
      hpos.le) hr.1, lt_of_lt_of_le hr.2 ?_⟩
    rw [div_le_one hpos]
    exact List.Sublist.sum_le_sum (List.take_sublist _ _) (rates_nonneg hs hm.inv)
  have hone : ∀ i, i < s.prob.length → ∀ r ∈ I i, ∀ r' ∈ I i, (oneStep m s r 0).st.occ = (oneStep m s r' 0).st.occ := by
    intro i hil r hr r' hr'
    have hsel := fun r (hr : r ∈ I i) =>
      (C02_selection_interval s.prob (rates_nonneg hs hm.inv) hpos i hil r 0 (hrange i r hr).1).2 hr
    have hie : i < s.lib.events.length := by rw [← hm.inv.table.length]; exact hil
    have key : ∀ r, r ∈ I i → Leads s.lib.events[i] s.st.occ (oneStep m s r 0).st.occ := by
      intro r hr
      obtain ⟨dt, hdt⟩ := hsel r hr
      have hp := (propose_iff (e := s.lib.events[i]) hm.inv.table.cum).2 ⟨i, hdt, by simp [hie]⟩
      obtain ⟨t1, u1, m1, l1⟩ := met_update hs ha hi hm
        (show s.lib.events[i] ∈ s0.lib.events by rw [← hm.inv.lib]; exact List.getElem_mem hie) dt
      have e1 : oneStep m s r 0 = t1 := by unfold oneStep; rw [hp]; simp only [u1]
      rw [e1]; exact l1
    exact leads_unique (key r hr) (key r' hr')
  have hset : {r : ℝ | (0 ≤ r ∧ r < 1) ∧ (oneStep m s r 0).st.occ = y} =
      ⋃ i ∈ (Finset.range s.prob.length).filter fun i => ∃ r ∈ I i, (oneStep m s r 0).st.occ = y, I i := by
    ext r
    simp only [Set.mem_ofPred_eq, Set.mem_iUnion, Finset.mem_filter, Finset.mem_range, exists_prop]
    constructor
    · rintro ⟨⟨h0, h1⟩, hy⟩
      obtain ⟨i, e, hil, -, hI, -⟩ := proposes hs hm hpos h0 h1
      exact ⟨i, ⟨hil, r, hI, hy⟩, hI⟩
    · rintro ⟨i, ⟨hil, r', hr', hy⟩, hr⟩
      exact ⟨hrange i r hr, by rw [hone i hil r hr r' hr']; exact hy⟩
  rw [hset]
  exact Finset.measurableSet_biUnion _ fun i _ => measurableSet_Ico

/-- The chance of a configuration is the length of that set. -/
theorem chance_target (hs : HopSystem o mobile h Rounding.exact m g lib st)
    (ha : Answers o mobile m lib.events st.occ)
    (hi : Sim.init (realKernel Rounding.exact) m lib.generateEventDependencies (some h) (some st) = .ok s0)
    {s : Sim σ φ Unit ℝ EReal} (hm : Met o mobile m st s0 s) (hpos : 0 < s.prob.sum) (y : List Int) :
    chance m 0 s y = (volume {r : ℝ | (0 ≤ r ∧ r < 1) ∧ (oneStep m s r 0).st.occ = y}).toReal := by
  unfold chance
  congr 2
  ext r
  simp only [Set.mem_ofPred_eq]
  constructor
  · rintro ⟨h0, h1, e, dt, s', hp, hu, hy⟩
    refine ⟨⟨h0, h1⟩, ?_⟩
    unfold oneStep
    rw [hp]
    simp only [hu]
    exact hy
  · rintro ⟨⟨h0, h1⟩, hy⟩
    obtain ⟨-, -, r1, r2, e, dt, -, -, hp, hu⟩ := step_occ hs ha hi hm hm rfl hpos h0 h1 0
    obtain ⟨i, e', -, he, -, hprop⟩ := proposes hs hm hpos h0 h1
    have p1 := hprop s hm rfl 0
    obtain ⟨t1, u1, m1, l1⟩ := met_update hs ha hi hm (List.mem_of_getElem? he)
      (waitingTime Rounding.exact s.prob.sum 0)
    have e1 : oneStep m s r 0 = t1 := by unfold oneStep; rw [p1]; simp only [u1]
    exact ⟨h0, h1, e', _, t1, p1, u1, by rw [← e1]; exact hy⟩

end
end KMC
