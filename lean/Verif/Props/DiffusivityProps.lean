import Verif.Lemmas.Diffusivity
import Verif.Props.CorrelationProps
import Verif.Spec.Diffusivity
/-
C135: the clock in equilibrium, and the diffusivity that simulations approach.
-/
set_option linter.unusedSectionVars false

namespace KMC
open Spec MeasureTheory Filter Topology ProbabilityTheory

section
variable {σ φ ψ V Row : Type}
variable {o : ActiveSiteOrder String ψ} {mobile : String} {h : HopStateLookup}
  {m : RateModel Unit ℝ EReal} {g : Geometry ℝ} {lib : EventLib σ φ} {st : State EReal}
  {s0 : Sim σ φ Unit ℝ EReal}

theorem meanTotalRate_pos (hs : HopSystem o mobile h Rounding.exact m g lib st)
    (ha : Answers o mobile m lib.events st.occ)
    (hi : Sim.init (realKernel Rounding.exact) m lib.generateEventDependencies (some h) (some st) = .ok s0)
    (hns : ¬ Stuck m s0) {W : List Int → ℝ} (hW : ∀ x, 0 < W x) (hb : Balanced o mobile m s0.lib.events W)
    {Ω : Finset (List Int)} (hΩ : ∀ x, x ∈ Ω ↔ ∃ s, Reaches m s0 s ∧ s.st.occ = x) :
    0 < meanTotalRate m s0.lib.events Ω W := by
  have hne : Ω.Nonempty := ⟨_, (hΩ _).2 ⟨s0, .refl, rfl⟩⟩
  refine div_pos (Finset.sum_pos (fun x hx => ?_) hne) (Finset.sum_pos (fun x _ => hW x) hne)
  exact mul_pos (hW x) (good_pos hs ha hi (equilibrium_alive hs ha hi hns hW hb) (config_good hs ha hi hW hb hΩ hx))

/-- C135.  The clock.  The rates are balanced (by Boltzmann factors, C90) and the simulations start in equilibrium
with their clocks at zero.  Then the mean time at the end of a run is the number of production steps over the mean
total rate, where the mean is that over the configurations with the balancing weights: exactly, for every number of
steps and however long the equilibration, which takes no time. -/
theorem C135_clock (hs : HopSystem o mobile h Rounding.exact m g lib st)
    (ha : Answers o mobile m lib.events st.occ)
    (hi : Sim.init (realKernel Rounding.exact) m lib.generateEventDependencies (some h) (some st) = .ok s0)
    (hns : ¬ Stuck m s0) {W : List Int → ℝ} (hW : ∀ x, 0 < W x) (hb : Balanced o mobile m s0.lib.events W)
    {Ω : Finset (List Int)} (hΩ : ∀ x, x ∈ Ω ↔ ∃ s, Reaches m s0 s ∧ s.st.occ = x)
    (sims : List Int → Sim σ φ Unit ℝ EReal)
    (hsims : ∀ x ∈ Ω, ∃ st', st'.occ = x ∧ st'.time = 0 ∧
      Sim.init (realKernel Rounding.exact) m lib.generateEventDependencies (some h) (some st') = .ok (sims x))
    (π : List Int → ℝ) (hπ : InEquilibrium m Ω sims π)
    {v : Event → Vec3 ℝ} (hv : ∀ e ∈ s0.lib.events, IsHopVector g e (v e))
    {Θ : Type} [MeasurableSpace Θ] {μ : Measure Θ} [IsProbabilityMeasure μ] {U : Nat → Θ → ℝ × ℝ}
    (hU : RandomNumbers μ U) (summary : Trajectory ℝ → EReal → List (String × Bool) → Row)
    (plan : PropertyPlan EReal V) (len equil prod : Nat)
    (hok : ∀ x ∈ Ω, ∀ᵐ ω ∂μ, ((sims x).run (realKernel Rounding.exact) m g (some h) summary plan
      (fun k => U k ω) len equil prod).outcome = .ok ()) :
    MeanOfEnds μ U m g (some h) summary plan len equil prod Ω sims π (fun sim => sim.st.time.toReal)
      ((prod * len : Nat) / meanTotalRate m s0.lib.events Ω W) := by
  have alive := equilibrium_alive hs ha hi hns hW hb
  have hne : Ω.Nonempty := ⟨_, (hΩ _).2 ⟨s0, .refl, rfl⟩⟩
  have hw : ∀ x ∈ Ω, 0 < W x * totalRate m s0.lib.events (inConfig x) := fun x hx =>
    mul_pos (hW x) (good_pos hs ha hi alive (config_good hs ha hi hW hb hΩ hx))
  have hZpos := Finset.sum_pos hw hne
  have hWpos : 0 < ∑ x ∈ Ω, W x := Finset.sum_pos (fun x _ => hW x) hne
  have hsims' : ∀ x ∈ Ω, ∃ st', st'.occ = x ∧
      Sim.init (realKernel Rounding.exact) m lib.generateEventDependencies (some h) (some st') = .ok (sims x) :=
    fun x hx => let ⟨st', h1, _, h2⟩ := hsims x hx; ⟨st', h1, h2⟩
  -- the weights
  obtain ⟨-, -, b, hb1, -⟩ := equilibrium_mean hs ha hi hns hW hb hΩ sims hsims' 0 π (hπ.steady 0) hU hok
    (fun _ => 0) (fun _ _ => 0) (by
      intro x hx st' k1 k2 k3 k4 rng hr hc
      obtain ⟨rs, hist1, hist2, s1, s2, c1, c2, c3, c4, c5, -⟩ := run_walk k1 k2 k3 (by rw [k4]; exact hv) hr hc
      exact ⟨rs, hist1, hist2, s1, s2, c1, c2, c3, c4, c5, rfl⟩)
  have hb2 : b = 1 / ∑ x ∈ Ω, W x * totalRate m s0.lib.events (inConfig x) := by
    have h1 := hπ.sum
    rw [Finset.sum_congr rfl hb1, ← Finset.mul_sum] at h1
    field_simp
    exact h1
  refine ⟨fun x => expectedTime m s0.lib.events (equil * len + prod * len) (inConfig x) -
    expectedTime m s0.lib.events (equil * len) (inConfig x), ?_, ?_⟩
  · intro x hx
    obtain ⟨st', h1, h2, h3⟩ := hsims x hx
    obtain ⟨s, hr, hox⟩ := (hΩ x).1 hx
    have hm := met_reaches hs ha hi (met_start hs hi) hr
    obtain ⟨k1, k2, k3, k4, k5⟩ := constructed_met hs ha hi hm (h1.trans hox.symm) h3
    have hnsx : ¬ Stuck m (sims x) := by
      intro hst
      refine alive s hr fun e he p hp => ?_
      refine hst e (by rw [k3, ← hm.inv.lib]; exact he) p ?_
      rw [← hp]
      have ho : (sims x).st.occ = s.st.occ := by rw [k5, h1, hox]
      exact hs.loc.local_rate e _ _ (by rw [ho]) fun i _ => by rw [ho]
    have alivex := equilibrium_alive k1 k2 h3 hnsx hW (by rw [k3]; exact hb)
    have := mean_clock_at k1 k2 h3 (by rw [k3]; exact hv) alivex hU (hok x hx) (t0 := 0) (by rw [k5, h2]; rfl)
    rw [zero_add, k3] at this
    have ho : (sims x).st.occ = (inConfig x).occ := by rw [k5, h1]; rfl
    rw [expectedTime_congr hs.loc _ _ ho, expectedTime_congr hs.loc _ _ ho] at this
    exact this
  · have e1 : ∀ x ∈ Ω, π x * (expectedTime m s0.lib.events (equil * len + prod * len) (inConfig x) -
        expectedTime m s0.lib.events (equil * len) (inConfig x)) = b *
        (W x * totalRate m s0.lib.events (inConfig x) *
          expectedTime m s0.lib.events (equil * len + prod * len) (inConfig x) -
        W x * totalRate m s0.lib.events (inConfig x) * expectedTime m s0.lib.events (equil * len) (inConfig x)) := by
      intro x hx
      rw [hb1 x hx]
      ring
    rw [Finset.sum_congr rfl e1, ← Finset.mul_sum, Finset.sum_sub_distrib, equilibrium_time hs ha hi hW hb hΩ alive,
      equilibrium_time hs ha hi hW hb hΩ alive, hb2, meanTotalRate]
    change _ / ((∑ x ∈ Ω, W x * totalRate m s0.lib.events (inConfig x)) / _) = _
    field_simp
    push_cast
    ring

/-- From the mean per step to the mean per time. -/
theorem per_time {R L A : ℝ} (hR : 0 < R) {len : Nat} (hlen : 0 < len) {M : Nat → ℝ}
    (hle : ∀ prod, M prod ≤ (prod * len : Nat) * A)
    (hlim : Tendsto (fun prod => M prod / (prod * len : Nat)) atTop (𝓝 L)) {P Q : Nat → ℝ → Prop}
    (hP : ∀ prod, P prod (M prod)) (hQ : ∀ prod, Q prod ((prod * len : Nat) / R)) :
    ∃ M T : Nat → ℝ, (∀ prod, P prod (M prod)) ∧ (∀ prod, Q prod (T prod)) ∧
      (∀ prod, 0 < prod → 0 < T prod ∧ M prod / T prod ≤ A * R) ∧
      Tendsto (fun prod => M prod / T prod) atTop (𝓝 (L * R)) := by
  refine ⟨M, fun prod => (prod * len : Nat) / R, hP, hQ, fun prod hp => ?_, ?_⟩
  · have hn : (0 : ℝ) < ((prod * len : Nat) : ℝ) := Nat.cast_pos.2 (Nat.mul_pos hp hlen)
    refine ⟨div_pos hn hR, ?_⟩
    rw [div_le_iff₀ (div_pos hn hR)]
    calc M prod ≤ (prod * len : Nat) * A := hle prod
      _ = _ := by field_simp
  · refine (hlim.mul_const R).congr fun prod => ?_
    rw [div_div_eq_mul_div, mul_div_right_comm]

/-- C135.  The diffusivity of single ions.  In the situation of `C131_ions` and `C135_clock` the mean of the squared
displacements of the ions at the end of a run, summed over the ions and divided by the mean time, is at most the square
of the longest hop times the mean total rate, and has a limit as the runs become longer.  The limit is the same for all
lengths of passes and equilibrations and for all sources of random numbers. -/
theorem C135_ions (hs : HopSystem o mobile h Rounding.exact m g lib st)
    (ha : Answers o mobile m lib.events st.occ)
    (hi : Sim.init (realKernel Rounding.exact) m lib.generateEventDependencies (some h) (some st) = .ok s0)
    (hns : ¬ Stuck m s0) {W : List Int → ℝ} (hW : ∀ x, 0 < W x) (hb : Balanced o mobile m s0.lib.events W)
    {Ω : Finset (List Int)} (hΩ : ∀ x, x ∈ Ω ↔ ∃ s, Reaches m s0 s ∧ s.st.occ = x)
    (sims : List Int → Sim σ φ Unit ℝ EReal)
    (hsims : ∀ x ∈ Ω, ∃ st', st'.occ = x ∧ st'.time = 0 ∧
      Sim.init (realKernel Rounding.exact) m lib.generateEventDependencies (some h) (some st') = .ok (sims x))
    (π : List Int → ℝ) (hπ : InEquilibrium m Ω sims π)
    {v : Event → Vec3 ℝ} (hv : ∀ e ∈ s0.lib.events, IsHopVector g e (v e))
    (a : ℝ) (hva : ∀ e ∈ s0.lib.events, sqLen (v e) ≤ a ^ 2) :
    ∃ D : ℝ, 0 ≤ D ∧ D ≤ a ^ 2 * meanTotalRate m s0.lib.events Ω W ∧
      ∀ {Θ : Type} [MeasurableSpace Θ] {μ : Measure Θ} [IsProbabilityMeasure μ] {U : Nat → Θ → ℝ × ℝ},
      RandomNumbers μ U → ∀ (summary : Trajectory ℝ → EReal → List (String × Bool) → Row)
        (plan : PropertyPlan EReal V) (len equil : Nat), 0 < len →
      (∀ prod, ∀ x ∈ Ω, ∀ᵐ ω ∂μ, ((sims x).run (realKernel Rounding.exact) m g (some h) summary plan
        (fun k => U k ω) len equil prod).outcome = .ok ()) →
      ∃ M T : Nat → ℝ, (∀ prod, MeanOverStarts μ U m g (some h) summary plan len equil prod Ω sims π
          (fun traj => (traj.displacement.map sqLen).sum) (M prod)) ∧
        (∀ prod, MeanOfEnds μ U m g (some h) summary plan len equil prod Ω sims π
          (fun sim => sim.st.time.toReal) (T prod)) ∧
        (∀ prod, 0 < prod → 0 < T prod ∧ M prod / T prod ≤ a ^ 2 * meanTotalRate m s0.lib.events Ω W) ∧
        Tendsto (fun prod => M prod / T prod) atTop (𝓝 D) := by
  have hR := meanTotalRate_pos hs ha hi hns hW hb hΩ
  have hsims' : ∀ x ∈ Ω, ∃ st', st'.occ = x ∧
      Sim.init (realKernel Rounding.exact) m lib.generateEventDependencies (some h) (some st') = .ok (sims x) :=
    fun x hx => let ⟨st', h1, _, h2⟩ := hsims x hx; ⟨st', h1, h2⟩
  obtain ⟨L, h1, h2, key⟩ := C131_ions hs ha hi hns hW hb hΩ sims hsims' π hπ hv a hva (V := V) (Row := Row)
  refine ⟨L * meanTotalRate m s0.lib.events Ω W, mul_nonneg h1 hR.le, mul_le_mul_of_nonneg_right h2 hR.le, ?_⟩
  intro Θ _ μ _ U hU summary plan len equil hlen hok
  obtain ⟨M, k1, k2, k3⟩ := key hU summary plan len equil hlen hok
  exact per_time hR hlen k2 k3 k1 fun prod =>
    C135_clock hs ha hi hns hW hb hΩ sims hsims π hπ hv hU summary plan len equil prod (hok prod)

/-- C135.  The collective diffusivity: the same for the square of the sum of the displacements. -/
theorem C135_collective (hs : HopSystem o mobile h Rounding.exact m g lib st)
    (ha : Answers o mobile m lib.events st.occ)
    (hi : Sim.init (realKernel Rounding.exact) m lib.generateEventDependencies (some h) (some st) = .ok s0)
    (hns : ¬ Stuck m s0) {W : List Int → ℝ} (hW : ∀ x, 0 < W x) (hb : Balanced o mobile m s0.lib.events W)
    {Ω : Finset (List Int)} (hΩ : ∀ x, x ∈ Ω ↔ ∃ s, Reaches m s0 s ∧ s.st.occ = x)
    (sims : List Int → Sim σ φ Unit ℝ EReal)
    (hsims : ∀ x ∈ Ω, ∃ st', st'.occ = x ∧ st'.time = 0 ∧
      Sim.init (realKernel Rounding.exact) m lib.generateEventDependencies (some h) (some st') = .ok (sims x))
    (π : List Int → ℝ) (hπ : InEquilibrium m Ω sims π)
    {v : Event → Vec3 ℝ} (hv : ∀ e ∈ s0.lib.events, IsHopVector g e (v e))
    (a : ℝ) (hva : ∀ e ∈ s0.lib.events, sqLen (v e) ≤ a ^ 2) :
    ∃ D : ℝ, 0 ≤ D ∧ D ≤ a ^ 2 * meanTotalRate m s0.lib.events Ω W ∧
      ∀ {Θ : Type} [MeasurableSpace Θ] {μ : Measure Θ} [IsProbabilityMeasure μ] {U : Nat → Θ → ℝ × ℝ},
      RandomNumbers μ U → ∀ (summary : Trajectory ℝ → EReal → List (String × Bool) → Row)
        (plan : PropertyPlan EReal V) (len equil : Nat), 0 < len →
      (∀ prod, ∀ x ∈ Ω, ∀ᵐ ω ∂μ, ((sims x).run (realKernel Rounding.exact) m g (some h) summary plan
        (fun k => U k ω) len equil prod).outcome = .ok ()) →
      ∃ M T : Nat → ℝ, (∀ prod, MeanOverStarts μ U m g (some h) summary plan len equil prod Ω sims π
          (fun traj => sqLen traj.displacement.sum) (M prod)) ∧
        (∀ prod, MeanOfEnds μ U m g (some h) summary plan len equil prod Ω sims π
          (fun sim => sim.st.time.toReal) (T prod)) ∧
        (∀ prod, 0 < prod → 0 < T prod ∧ M prod / T prod ≤ a ^ 2 * meanTotalRate m s0.lib.events Ω W) ∧
        Tendsto (fun prod => M prod / T prod) atTop (𝓝 D) := by
  have hR := meanTotalRate_pos hs ha hi hns hW hb hΩ
  have hsims' : ∀ x ∈ Ω, ∃ st', st'.occ = x ∧
      Sim.init (realKernel Rounding.exact) m lib.generateEventDependencies (some h) (some st') = .ok (sims x) :=
    fun x hx => let ⟨st', h1, _, h2⟩ := hsims x hx; ⟨st', h1, h2⟩
  obtain ⟨L, h1, h2, key⟩ := C131_collective hs ha hi hns hW hb hΩ sims hsims' π hπ hv a hva (V := V) (Row := Row)
  refine ⟨L * meanTotalRate m s0.lib.events Ω W, mul_nonneg h1 hR.le, mul_le_mul_of_nonneg_right h2 hR.le, ?_⟩
  intro Θ _ μ _ U hU summary plan len equil hlen hok
  obtain ⟨M, k1, k2, k3⟩ := key hU summary plan len equil hlen hok
  exact per_time hR hlen k2 k3 k1 fun prod =>
    C135_clock hs ha hi hns hW hb hΩ sims hsims π hπ hv hU summary plan len equil prod (hok prod)

end

/-! ### Two ions on a chain of five sites -/

/-- The total rates of the ten arrangements add up to 24: their mean is 12/5. -/
theorem chain_mean_rate {s0 : Sim Unit Unit Unit ℝ EReal}
    (hl : s0.lib.events = chainHops) : meanTotalRate hopModel s0.lib.events fiveTwo (fun _ => 1) = 12 / 5 := by
  have hrate : ∀ x ∈ fiveTwo, totalRate hopModel chainHops ⟨x, 0, 0⟩ =
      ((chainHops.countP fun e => decide (eventDirection x e ≠ .ok 0) : Nat) : ℝ) := by
    intro x hx
    have hd : ∀ e ∈ chainHops, ∃ d : Int, eventDirection x e = .ok d := by
      have h1 : ∀ x ∈ fiveTwo, ∀ e ∈ chainHops, (eventDirection x e).toOption.isSome = true := by decide
      intro e he
      have h2 := h1 x hx e he
      cases hc : eventDirection x e with
      | error err => rw [hc] at h2; cases h2
      | ok d => exact ⟨d, rfl⟩
    clear hx hl
    unfold totalRate
    generalize chainHops = es at hd ⊢
    induction es with
    | nil => simp
    | cons e es ih =>
      obtain ⟨d, h1⟩ := hd e (List.mem_cons_self ..)
      rw [List.map_cons, List.sum_cons, ih (fun e' he' => hd e' (List.mem_cons_of_mem _ he')), List.countP_cons,
        hopModel_rate (st := ⟨x, 0, 0⟩) h1, h1]
      by_cases h0 : d = 0
      · simp [h0]
      · have : ¬ (Except.ok d : Py Int) = .ok 0 := fun h => h0 (Except.ok.inj h)
        simp [h0, this]
        ring
  rw [meanTotalRate, hl]
  simp only [one_mul]
  rw [Finset.sum_congr rfl hrate]
  simp only [← Nat.cast_sum, Finset.sum_const, nsmul_eq_mul, mul_one]
  have e1 : ∑ x ∈ fiveTwo, chainHops.countP (fun e => decide (eventDirection x e ≠ .ok 0)) = 24 := by decide
  have e2 : fiveTwo.card = 10 := by decide
  rw [e1, e2]
  norm_num

/-- Non-vacuity: two ions on a chain of five sites make 12/5 hops per unit of time, so a run of `prod` passes of three
steps takes 5/4 `prod` on average; and both diffusivities have limits of at most 12/125. -/
example : ∃ (sims : List Int → Sim Unit Unit Unit ℝ EReal) (π : List Int → ℝ) (D D' : ℝ) (M M' T T' : Nat → ℝ),
    InEquilibrium hopModel fiveTwo sims π ∧ D ≤ 12 / 125 ∧ D' ≤ 12 / 125 ∧
    (∀ prod, MeanOfEnds (Measure.infinitePi fun _ : Nat => twoUniform) (fun k ω => ω k) hopModel ringGeometry
      (some ⟨[0, 0, 0, 0, 0], [1, 1, 1, 1, 1]⟩) (fun _ _ _ => ()) (planAfter ([] : List (PlanOp EReal Unit))) 3 10 prod
      fiveTwo sims π (fun sim => sim.st.time.toReal) (5 / 4 * prod)) ∧
    (∀ prod, MeanOverStarts (Measure.infinitePi fun _ : Nat => twoUniform) (fun k ω => ω k) hopModel ringGeometry
      (some ⟨[0, 0, 0, 0, 0], [1, 1, 1, 1, 1]⟩) (fun _ _ _ => ()) (planAfter ([] : List (PlanOp EReal Unit))) 3 10 prod
      fiveTwo sims π (fun traj => (traj.displacement.map sqLen).sum) (M prod)) ∧
    (∀ prod, MeanOverStarts (Measure.infinitePi fun _ : Nat => twoUniform) (fun k ω => ω k) hopModel ringGeometry
      (some ⟨[0, 0, 0, 0, 0], [1, 1, 1, 1, 1]⟩) (fun _ _ _ => ()) (planAfter ([] : List (PlanOp EReal Unit))) 3 10 prod
      fiveTwo sims π (fun traj => sqLen traj.displacement.sum) (M' prod)) ∧
    Tendsto (fun prod => M prod / T prod) atTop (𝓝 D) ∧ Tendsto (fun prod => M' prod / T' prod) atTop (𝓝 D') := by
  obtain ⟨s0, sims, π, hi, hns, hl, hb, hΩ, hsims, hπ, -, hok⟩ := chain_started
  have hr := chain_mean_rate hl
  have hsims' : ∀ x ∈ fiveTwo, ∃ st' : State EReal, st'.occ = x ∧ st'.time = 0 ∧
      Sim.init (realKernel Rounding.exact) hopModel chainLib.generateEventDependencies
        (some ⟨[0, 0, 0, 0, 0], [1, 1, 1, 1, 1]⟩) (some st') = .ok (sims x) :=
    fun x hx => ⟨⟨x, 0, 0⟩, rfl, rfl, hsims x hx⟩
  have hv : ∀ e ∈ s0.lib.events, IsHopVector ringGeometry e (chainVector e) := by
    rw [hl]; exact fun e he => chainVector_hop he
  obtain ⟨D, -, h1, h2⟩ := C135_ions (V := Unit) (Row := Unit) chain_on_line chain_answers hi hns (fun _ => one_pos) hb hΩ
    sims hsims' π hπ hv (1 / 5) (fun e _ => (chainVector_length e).le)
  obtain ⟨D', -, h1', h2'⟩ := C135_collective (V := Unit) (Row := Unit) chain_on_line chain_answers hi hns
    (fun _ => one_pos) hb hΩ sims hsims' π hπ hv (1 / 5) (fun e _ => (chainVector_length e).le)
  obtain ⟨M, T, a1, a2, a3, a4⟩ := h2 C93_random_numbers (fun _ _ _ => ()) (planAfter []) 3 10 (by norm_num)
    (fun prod => hok 3 10 prod)
  obtain ⟨M', T', b1, b2, b3, b4⟩ := h2' C93_random_numbers (fun _ _ _ => ()) (planAfter []) 3 10 (by norm_num)
    (fun prod => hok 3 10 prod)
  rw [hr] at h1 h1'
  refine ⟨sims, π, D, D', M, M', T, T', hπ, by linarith, by linarith, fun prod => ?_, a1, b1, a4, b4⟩
  have := C135_clock (V := Unit) (Row := Unit) chain_on_line chain_answers hi hns (fun _ => one_pos) hb hΩ sims hsims' π
    hπ hv C93_random_numbers (fun _ _ _ => ()) (planAfter []) 3 10 prod (hok 3 10 prod)
  rw [hr] at this
  convert this using 1
  push_cast
  ring

end KMC
