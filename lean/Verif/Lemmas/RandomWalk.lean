import Verif.Props.PathProps
import Verif.Spec.RandomWalk
/-
Lemmas for averages over all runs.
-/
set_option linter.unusedSectionVars false

namespace KMC
open Spec MeasureTheory Filter Topology ProbabilityTheory

section future
variable {Θ : Type} [mΘ : MeasurableSpace Θ] {μ : Measure Θ}

theorem measurable_weighted {D : Set (ℝ × ℝ)} (hD : MeasurableSet D) {u : Θ → ℝ × ℝ} (hu : Measurable u)
    {Y : Θ → ℝ} (hY : Measurable Y) : Measurable fun ω => D.indicator (fun _ => (1 : ℝ)) (u ω) * Y ω :=
  ((measurable_const.indicator hD).comp hu).mul hY

theorem measurable_weighted_sum {α : Type} {E : Finset α} {D : α → Set (ℝ × ℝ)} (hD : ∀ e, MeasurableSet (D e))
    {u : Θ → ℝ × ℝ} (hu : Measurable u) {Y : α → Θ → ℝ} (hY : ∀ e ∈ E, Measurable (Y e)) :
    Measurable fun ω => ∑ e ∈ E, (D e).indicator (fun _ => (1 : ℝ)) (u ω) * Y e ω :=
  Finset.measurable_fun_sum E fun e he => measurable_weighted (hD e) hu (hY e he)

theorem measurable_waiting {u : Θ → ℝ × ℝ} (hu : Measurable u) (r : ℝ) {Y : Θ → ℝ} (hY : Measurable Y) :
    Measurable fun ω => -1 / r * Real.log (u ω).2 + Y ω :=
  ((Real.measurable_log.comp (measurable_snd.comp hu)).const_mul _).add hY

/-- The random numbers of a step are independent of what comes after it. -/
theorem integral_now_later [IsProbabilityMeasure μ] {U : Nat → Θ → ℝ × ℝ} (hU : RandomNumbers μ U) (c : Nat)
    {f : ℝ × ℝ → ℝ} (hf : Measurable f) (hfi : Integrable f twoUniform) {Y : Θ → ℝ}
    (hY : Measurable[future U (c + 1)] Y) (hYi : Integrable Y μ) :
    Integrable (fun ω => f (U c ω) * Y ω) μ ∧
      ∫ ω, f (U c ω) * Y ω ∂μ = (∫ u, f u ∂twoUniform) * ∫ ω, Y ω ∂μ := by
  have hint : Integrable (fun ω => f (U c ω)) μ := by
    have : Integrable f (μ.map (U c)) := by rw [hU.uniform c]; exact hfi
    exact this.comp_measurable (hU.measurable c)
  have hind : IndepFun (fun ω => f (U c ω)) Y μ := by
    rw [IndepFun_iff_Indep]
    refine indep_of_indep_of_le_left (indep_of_indep_of_le_right
      (future_indep hU.measurable hU.independent c) hY.comap_le) ?_
    rw [← measurable_iff_comap_le]
    exact hf.comp (comap_measurable _)
  refine ⟨hind.integrable_mul hint hYi, ?_⟩
  have h1 := hind.integral_fun_mul_eq_mul_integral hint.aestronglyMeasurable hYi.aestronglyMeasurable
  rw [h1]
  congr 1
  rw [← hU.uniform c, integral_map (hU.measurable c).aemeasurable]
  rw [hU.uniform c]
  exact hf.aestronglyMeasurable

end future

section
variable {σ φ ψ K : Type} [Field K] [LinearOrder K] [FloorRing K]
variable {o : ActiveSiteOrder String ψ} {mobile : String} {h : HopStateLookup}
  {m : RateModel Unit ℝ EReal} {g : Geometry K} {lib : EventLib σ φ} {st : State EReal}
  {s0 : Sim σ φ Unit ℝ EReal}

/-- Simulations in the same configuration make the same steps, whether or not the clock runs. -/
theorem steps_congr (hs : HopSystem o mobile h Rounding.exact m g lib st)
    (ha : Answers o mobile m lib.events st.occ)
    (hi : Sim.init (realKernel Rounding.exact) m lib.generateEventDependencies (some h) (some st) = .ok s0)
    {draws : Nat → ℝ × ℝ} {b : Bool} (b' : Bool) {c : Nat} {s s1 : Sim σ φ Unit ℝ EReal}
    {hist : List (Event × EReal)} (hst : Steps (realKernel Rounding.exact) m draws b c s hist s1) :
    ∀ s', Met o mobile m st s0 s → Met o mobile m st s0 s' → s'.st.occ = s.st.occ →
    ∃ s2, Steps (realKernel Rounding.exact) m draws b' c s' hist s2 ∧ Met o mobile m st s0 s1 ∧
      Met o mobile m st s0 s2 ∧ s2.st.occ = s1.st.occ := by
  induction hst with
  | nil c s => intro s' hm hm' ho; exact ⟨s', .nil _ _, hm, hm', ho⟩
  | @cons c s s1 s2 e dt hist hp hu _ ih =>
    intro s' hm hm' ho
    have hmem := proposed_listed hm hp
    obtain ⟨t1, u1, m1, l1⟩ := met_update hs ha hi hm hmem (if b then dt else 0)
    obtain ⟨t2, u2, m2, l2⟩ := met_update hs ha hi hm' hmem (if b' then dt else 0)
    rw [hu] at u1
    obtain ⟨-, rfl⟩ := Prod.mk.inj u1
    rw [ho] at l2
    obtain ⟨s3, r1, r2, r3, r4⟩ := ih t2 m1 m2 (leads_unique l2 l1)
    exact ⟨s3, .cons (by rw [propose_congr hs hm hm' ho]; exact hp) u2 r1, r2, r3, r4⟩

/-- A sum over the events as listed, as a sum over the different events. -/
theorem sum_listed (events : List Event) (p : Event → Prop) [DecidablePred p] (w G : Event → ℝ)
    (hz : ∀ e ∈ events, ¬ p e → w e = 0) :
    (events.map fun e => w e * G e).sum =
      ∑ e ∈ events.toFinset.filter p, (events.count e * w e) * G e := by
  rw [Finset.sum_list_map_count, Finset.sum_filter]
  refine Finset.sum_congr rfl fun e he => ?_
  rw [List.mem_toFinset] at he
  split
  · rw [nsmul_eq_mul, mul_assoc]
  · rename_i hp
    rw [hz e he hp]; simp

theorem rateIn_nonneg (hs : HopSystem o mobile h Rounding.exact m g lib st) (st' : State EReal) (e : Event) :
    0 ≤ rateIn m st' e := by
  unfold rateIn
  cases hc : m.computeProbability () e st' with
  | error x => exact le_refl _
  | ok p => exact (hs.rates e st' p hc).1

/-- An event with a positive rate can be executed. -/
theorem next_of_rateIn (hs : HopSystem o mobile h Rounding.exact m g lib st)
    (ha : Answers o mobile m lib.events st.occ)
    (hi : Sim.init (realKernel Rounding.exact) m lib.generateEventDependencies (some h) (some st) = .ok s0)
    {s : Sim σ φ Unit ℝ EReal} (hm : Met o mobile m st s0 s) {e : Event} (he : e ∈ s0.lib.events)
    (hp : 0 < rateIn m s.st e) : ∃ s', Next m s s' ∧ Leads e s.st.occ s'.st.occ := by
  obtain ⟨i, hil, rfl⟩ := List.getElem_of_mem he
  refine next_of_rate hs ha hi hm (i := i) (by simp [hil]) ?_
  rw [prob_eq_rates hm, List.getD_eq_getElem?_getD, List.getElem?_map, List.getElem?_eq_getElem hil]
  exact hp

theorem mean_log : ∫ u : ℝ × ℝ, Real.log u.2 ∂twoUniform = -1 := by
  rw [twoUniform_snd, integral_Ico_eq_integral_Ioc, ← intervalIntegral.integral_of_le zero_le_one]
  simp

theorem apply_leads (hs : HopSystem o mobile h Rounding.exact m g lib st)
    (ha : Answers o mobile m lib.events st.occ)
    (hi : Sim.init (realKernel Rounding.exact) m lib.generateEventDependencies (some h) (some st) = .ok s0)
    {s : Sim σ φ Unit ℝ EReal} (hm : Met o mobile m st s0 s) {e : Event} (he : e ∈ s0.lib.events) {y : List Int}
    (hl : Leads e s.st.occ y) (st' : State EReal) (ho : st'.occ = s.st.occ) :
    (st'.applyEvent e 0).2.occ = y := by
  obtain ⟨s1, u1, -, l1⟩ := met_update hs ha hi hm he 0
  obtain ⟨st1, ms, i1, prob, b1, -, -, -, rfl⟩ := update_ok u1
  rw [applyEvent_occ_congr ho e 0 0, b1]
  exact leads_unique l1 hl

theorem expectedOver_congr (hm : LocalModel m) (events : List Event) (n : Nat) : ∀ (F : List Event → ℝ)
    {st st' : State EReal}, st'.occ = st.occ →
    expectedOver m events n st' F = expectedOver m events n st F := by
  induction n with
  | zero => intro F st st' _; rfl
  | succ n ih =>
    intro F st st' ho
    have ht : rateIn m st' = rateIn m st := funext fun e => rateIn_congr hm ho e
    simp only [expectedOver, totalRate, ht, ih _ (applyEvent_occ_congr ho _ 0 0)]

theorem expectedTime_congr (hm : LocalModel m) (events : List Event) (n : Nat) :
    ∀ {st st' : State EReal}, st'.occ = st.occ →
    expectedTime m events n st' = expectedTime m events n st := by
  induction n with
  | zero => intro st st' _; rfl
  | succ n ih =>
    intro st st' ho
    have ht : rateIn m st' = rateIn m st := funext fun e => rateIn_congr hm ho e
    simp only [expectedTime, totalRate, ht, ih (applyEvent_occ_congr ho _ 0 0)]

/-- The mean over all runs of a function of the events and of the time. -/
theorem expectation_from (hs : HopSystem o mobile h Rounding.exact m g lib st)
    (ha : Answers o mobile m lib.events st.occ)
    (hi : Sim.init (realKernel Rounding.exact) m lib.generateEventDependencies (some h) (some st) = .ok s0)
    (alive : ∀ s, Reaches m s0 s → ¬ Stuck m s)
    {Θ : Type} [MeasurableSpace Θ] {μ : Measure Θ} [IsProbabilityMeasure μ] {U : Nat → Θ → ℝ × ℝ}
    (hU : RandomNumbers μ U) (n : Nat) : ∀ (c : Nat) (s : Sim σ φ Unit ℝ EReal), Reaches m s0 s →
    ∀ F : List Event → ℝ, ∃ Y T : Θ → ℝ, Measurable[future U c] Y ∧ Measurable[future U c] T ∧
      Integrable Y μ ∧ Integrable T μ ∧
      (∀ᵐ ω ∂μ, ∃ hist s', Steps (realKernel Rounding.exact) m (fun k => U k ω) true c s hist s' ∧
        hist.length = n ∧ Y ω = F (hist.map (·.1)) ∧ (∀ x ∈ hist, ∃ r : ℝ, x.2 = (r : EReal)) ∧
        T ω = (hist.map fun x => x.2.toReal).sum) ∧
      ∫ ω, Y ω ∂μ = expectedOver m s0.lib.events n s.st F ∧
      ∫ ω, T ω ∂μ = expectedTime m s0.lib.events n s.st := by
  classical
  induction n with
  | zero =>
    intro c s hr F
    refine ⟨fun _ => F [], fun _ => 0, @measurable_const _ _ _ (future U c) _, @measurable_const _ _ _ (future U c) _,
      integrable_const _, integrable_const _, ?_, by simp [expectedOver], by simp [expectedTime]⟩
    exact Eventually.of_forall fun ω => ⟨[], s, .nil _ _, rfl, rfl, by simp, by simp⟩
  | succ n ih =>
    intro c s hr F
    have hm := met_reaches hs ha hi (met_start hs hi) hr
    have hpos := sum_pos_of_not_stuck hs hm (alive s hr)
    have hsum := prob_sum hm
    let E : Finset Event := s0.lib.events.toFinset.filter fun e => 0 < rateIn m s.st e
    have hE : ∀ e ∈ E, e ∈ s0.lib.events ∧ 0 < rateIn m s.st e := fun e he => by
      have := Finset.mem_filter.1 he
      exact ⟨List.mem_toFinset.1 this.1, this.2⟩
    have hD : ∀ e, ∃ D : Set (ℝ × ℝ), MeasurableSet D ∧
        (∀ u : ℝ × ℝ, 0 ≤ u.1 → u.1 < 1 → 0 < u.2 → u.2 < 1 →
          (u ∈ D ↔ ∃ dt, s.propose (realKernel Rounding.exact) u.1 u.2 = .ok (e, dt) ∧ ((0 : ℝ) : EReal) < dt)) ∧
        twoUniform D = ENNReal.ofReal (s0.lib.events.count e * rateIn m s.st e / totalRate m s0.lib.events s.st *
          Real.exp (-totalRate m s0.lib.events s.st * 0)) := fun e => step_region hs hm e le_rfl
    choose D D1 D2 D3 using hD
    have hA : ∀ e, ∃ (s' : Sim σ φ Unit ℝ EReal) (Y T : Θ → ℝ), e ∈ E →
        (Reaches m s0 s' ∧ Leads e s.st.occ s'.st.occ) ∧
        Measurable[future U (c + 1)] Y ∧ Measurable[future U (c + 1)] T ∧ Integrable Y μ ∧ Integrable T μ ∧
        (∀ᵐ ω ∂μ, ∃ hist s'', Steps (realKernel Rounding.exact) m (fun k => U k ω) true (c + 1) s' hist s'' ∧
          hist.length = n ∧ Y ω = F (e :: hist.map (·.1)) ∧ (∀ x ∈ hist, ∃ r : ℝ, x.2 = (r : EReal)) ∧
          T ω = (hist.map fun x => x.2.toReal).sum) ∧
        ∫ ω, Y ω ∂μ = expectedOver m s0.lib.events n s'.st (fun p => F (e :: p)) ∧
        ∫ ω, T ω ∂μ = expectedTime m s0.lib.events n s'.st := by
      intro e
      by_cases he : e ∈ E
      · obtain ⟨h1, h2⟩ := hE e he
        obtain ⟨s', hn, hl⟩ := next_of_rateIn hs ha hi hm h1 h2
        have hr' : Reaches m s0 s' := hr.tail hn
        obtain ⟨Y, T, b1, b2, b3, b4, b5, b6, b7⟩ := ih (c + 1) s' hr' (fun p => F (e :: p))
        exact ⟨s', Y, T, fun _ => ⟨⟨hr', hl⟩, b1, b2, b3, b4, b5, b6, b7⟩⟩
      · exact ⟨s0, fun _ => 0, fun _ => 0, fun h => absurd h he⟩
    choose S Y T hA using hA
    have hstep : ∀ e ∈ E, ∀ Z : Θ → ℝ, Measurable[future U (c + 1)] Z → Integrable Z μ →
        Integrable (fun ω => (D e).indicator (fun _ => (1 : ℝ)) (U c ω) * Z ω) μ ∧
        ∫ ω, (D e).indicator (fun _ => (1 : ℝ)) (U c ω) * Z ω ∂μ =
          s0.lib.events.count e * (rateIn m s.st e / totalRate m s0.lib.events s.st) * ∫ ω, Z ω ∂μ := by
      intro e he Z hZ hZi
      have hfin : IsFiniteMeasure twoUniform := by unfold twoUniform; infer_instance
      obtain ⟨k1, k2⟩ := integral_now_later hU c (measurable_const.indicator (D1 e) (f := fun _ => (1 : ℝ)))
        ((integrable_const (1 : ℝ)).indicator (D1 e)) hZ hZi
      refine ⟨k1, k2.trans ?_⟩
      congr 1
      rw [integral_indicator (D1 e), integral_const, smul_eq_mul, mul_one, Measure.real,
        Measure.restrict_apply MeasurableSet.univ, Set.univ_inter, D3 e, ENNReal.toReal_ofReal]
      · rw [mul_zero, Real.exp_zero, mul_one, mul_div_assoc]
      · have := rateIn_nonneg hs s.st e
        have := hsum ▸ hpos
        positivity
    have hzero : ∀ e ∈ s0.lib.events, ¬ 0 < rateIn m s.st e →
        rateIn m s.st e / totalRate m s0.lib.events s.st = 0 := by
      intro e _ hn
      rw [le_antisymm (not_lt.1 hn) (rateIn_nonneg hs s.st e), zero_div]
    have hocc : ∀ e ∈ E, (s.st.applyEvent e 0).2.occ = (S e).st.occ := fun e he =>
      apply_leads hs ha hi hm (hE e he).1 (hA e he).1.2 s.st rfl
    refine ⟨fun ω => ∑ e ∈ E, (D e).indicator (fun _ => (1 : ℝ)) (U c ω) * Y e ω,
      fun ω => -1 / totalRate m s0.lib.events s.st * Real.log (U c ω).2 +
        ∑ e ∈ E, (D e).indicator (fun _ => (1 : ℝ)) (U c ω) * T e ω, ?_, ?_, ?_, ?_, ?_, ?_, ?_⟩
    · exact @measurable_weighted_sum Θ (future U c) _ E D D1 (U c) (future_input U c) Y fun e he =>
        (hA e he).2.1.mono (future_mono U (Nat.le_succ c)) le_rfl
    · exact @measurable_waiting Θ (future U c) (U c) (future_input U c) _ _
        (@measurable_weighted_sum Θ (future U c) _ E D D1 (U c) (future_input U c) T fun e he =>
          (hA e he).2.2.1.mono (future_mono U (Nat.le_succ c)) le_rfl)
    · exact integrable_finsetSum _ fun e he => (hstep e he _ (hA e he).2.1 (hA e he).2.2.2.1).1
    · refine Integrable.add ?_ (integrable_finsetSum _ fun e he => (hstep e he _ (hA e he).2.2.1 (hA e he).2.2.2.2.1).1)
      have hlog : Integrable (fun u : ℝ × ℝ => Real.log u.2) (μ.map (U c)) := by
        have hfin : IsFiniteMeasure twoUniform := by unfold twoUniform; infer_instance
        rw [hU.uniform c]
        exact (snd_memLp log_memLp).integrable (by norm_num)
      exact (hlog.comp_measurable (hU.measurable c)).const_mul _
    · have hall : ∀ᵐ ω ∂μ, ∀ e ∈ E,
          ∃ hist s'', Steps (realKernel Rounding.exact) m (fun k => U k ω) true (c + 1) (S e) hist s'' ∧
          hist.length = n ∧ Y e ω = F (e :: hist.map (·.1)) ∧ (∀ x ∈ hist, ∃ r : ℝ, x.2 = (r : EReal)) ∧
          T e ω = (hist.map fun x => x.2.toReal).sum :=
        (Finset.eventually_all E).2 fun e he => (hA e he).2.2.2.2.2.1
      filter_upwards [hall, draws_in_range hU] with ω hω hr'
      obtain ⟨⟨u0, u1⟩, u2, u3⟩ := hr' c
      obtain ⟨i, e, hil, he, ⟨q1, q2⟩, hprop⟩ := proposes hs hm hpos u0 u1
      have hp := hprop s hm rfl (U c ω).2
      have hmem := List.mem_of_getElem? he
      have hrate : 0 < rateIn m s.st e := by
        have hs1 : (s.prob.take (i + 1)).sum = (s.prob.take i).sum + s.prob.getD i 0 := by
          rw [List.take_add_one, List.getD_eq_getElem?_getD, List.getElem?_eq_getElem hil]
          simp only [List.sum_append, Option.toList_some, List.sum_singleton, Option.getD_some]
        have hlt := lt_of_le_of_lt q1 q2
        rw [div_lt_div_iff_of_pos_right hpos, hs1] at hlt
        have hg : s.prob.getD i 0 = rateIn m s.st e := by
          rw [prob_eq_rates hm, List.getD_eq_getElem?_getD, List.getElem?_map, he]; rfl
        rw [← hg]; linarith
      have heE : e ∈ E := Finset.mem_filter.2 ⟨List.mem_toFinset.2 hmem, hrate⟩
      have hwait : waitingTime Rounding.exact s.prob.sum (U c ω).2 =
          ((-1 / s.prob.sum * Real.log (U c ω).2 : ℝ) : EReal) := by
        unfold waitingTime
        rw [if_neg u2.ne']
        rfl
      have hdt : (0 : ℝ) < -1 / s.prob.sum * Real.log (U c ω).2 := by
        have := Real.log_neg u2 u3
        rw [div_mul_eq_mul_div]
        exact div_pos (by linarith) hpos
      have hin : ∀ e' ∈ E, ((U c ω) ∈ D e' ↔ e' = e) := by
        intro e' he'
        rw [D2 e' _ u0 u1 u2 u3, hp]
        constructor
        · rintro ⟨dt, h1, -⟩
          simp only [Except.ok.injEq, Prod.mk.injEq] at h1
          exact h1.1.symm
        · rintro rfl
          exact ⟨_, rfl, by rw [hwait]; exact EReal.coe_lt_coe_iff.2 hdt⟩
      have hpick : ∀ Z : Event → Θ → ℝ,
          ∑ e' ∈ E, (D e').indicator (fun _ => (1 : ℝ)) (U c ω) * Z e' ω = Z e ω := by
        intro Z
        rw [Finset.sum_eq_single e]
        · rw [Set.indicator_of_mem ((hin e heE).2 rfl), one_mul]
        · intro e' he' hne
          rw [Set.indicator_of_notMem (fun hc => hne ((hin e' he').1 hc)), zero_mul]
        · intro hc; exact absurd heE hc
      obtain ⟨hist, s'', w1, w2, w3, w4, w5⟩ := hω e heE
      obtain ⟨s2, v1, v2, v3⟩ := met_update hs ha hi hm hmem (waitingTime Rounding.exact s.prob.sum (U c ω).2)
      have hmS := met_reaches hs ha hi (met_start hs hi) (hA e heE).1.1
      obtain ⟨s3, x1, -⟩ := steps_congr hs ha hi true w1 s2 hmS v2 (leads_unique v3 (hA e heE).1.2)
      refine ⟨(e, waitingTime Rounding.exact s.prob.sum (U c ω).2) :: hist, s3, .cons hp v1 x1, by simp [w2], ?_, ?_, ?_⟩
      · rw [hpick, w3]; rfl
      · intro x hx
        rcases List.mem_cons.1 hx with rfl | hx
        · exact ⟨_, hwait⟩
        · exact w4 x hx
      · rw [hpick, w5, List.map_cons, List.sum_cons, hwait, EReal.toReal_coe, hsum]
    · rw [integral_finsetSum _ fun e he => (hstep e he _ (hA e he).2.1 (hA e he).2.2.2.1).1, expectedOver,
        sum_listed s0.lib.events (fun e => 0 < rateIn m s.st e) _ _ hzero]
      refine Finset.sum_congr rfl fun e he => ?_
      rw [(hstep e he _ (hA e he).2.1 (hA e he).2.2.2.1).2, (hA e he).2.2.2.2.2.2.1,
        expectedOver_congr hs.loc _ _ _ (hocc e he)]
    · have hlog : Integrable (fun u : ℝ × ℝ => Real.log u.2) (μ.map (U c)) := by
        have hfin : IsFiniteMeasure twoUniform := by unfold twoUniform; infer_instance
        rw [hU.uniform c]
        exact (snd_memLp log_memLp).integrable (by norm_num)
      have hlogi : Integrable (fun ω => Real.log (U c ω).2) μ := hlog.comp_measurable (hU.measurable c)
      have hl : ∫ ω, Real.log (U c ω).2 ∂μ = -1 := by
        rw [← mean_log, ← hU.uniform c, integral_map (hU.measurable c).aemeasurable hlog.aestronglyMeasurable]
      simp only
      rw [integral_add (hlogi.const_mul _) (integrable_finsetSum _ fun e he =>
          (hstep e he _ (hA e he).2.2.1 (hA e he).2.2.2.2.1).1), integral_const_mul,
        integral_finsetSum _ fun e he => (hstep e he _ (hA e he).2.2.1 (hA e he).2.2.2.2.1).1, expectedTime,
        sum_listed s0.lib.events (fun e => 0 < rateIn m s.st e) _ _ hzero]
      congr 1
      · rw [hl]; ring
      · refine Finset.sum_congr rfl fun e he => ?_
        rw [(hstep e he _ (hA e he).2.2.1 (hA e he).2.2.2.2.1).2, (hA e he).2.2.2.2.2.2.2,
          expectedTime_congr hs.loc _ _ (hocc e he)]

end
end KMC
