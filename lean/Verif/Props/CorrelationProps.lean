import Verif.Lemmas.Correlation
import Verif.Props.ReversalProps
import Verif.Props.TrackerRunProps
import Verif.Props.FrequencyProps
import Verif.Spec.Correlation
/-
C131: memory only slows the ions down.
-/
set_option linter.unusedSectionVars false

namespace KMC
open Spec MeasureTheory Filter Topology ProbabilityTheory

section
variable {σ φ ψ V Row : Type}
variable {o : ActiveSiteOrder String ψ} {mobile : String} {h : HopStateLookup}
  {m : RateModel Unit ℝ EReal} {g : Geometry ℝ} {lib : EventLib σ φ} {st : State EReal}
  {s0 : Sim σ φ Unit ℝ EReal}

theorem equilibrium_bound (hs : HopSystem o mobile h Rounding.exact m g lib st)
    (ha : Answers o mobile m lib.events st.occ)
    (hi : Sim.init (realKernel Rounding.exact) m lib.generateEventDependencies (some h) (some st) = .ok s0)
    (hns : ¬ Stuck m s0) {W : List Int → ℝ} (hW : ∀ x, 0 < W x) (hb : Balanced o mobile m s0.lib.events W)
    {Ω : Finset (List Int)} (hΩ : ∀ x, x ∈ Ω ↔ ∃ s, Reaches m s0 s ∧ s.st.occ = x)
    (sims : List Int → Sim σ φ Unit ℝ EReal)
    (hsims : ∀ x ∈ Ω, ∃ st', st'.occ = x ∧
      Sim.init (realKernel Rounding.exact) m lib.generateEventDependencies (some h) (some st') = .ok (sims x))
    (π : List Int → ℝ) (hπ : InEquilibrium m Ω sims π) (a : ℝ)
    (f : Trajectory ℝ → ℝ) (F : List Int → List Event → ℝ)
    (hF : ∀ x ∈ Ω, ∀ {st' : State EReal}, HopSystem o mobile h Rounding.exact m g lib st' →
      Answers o mobile m lib.events st'.occ →
      Sim.init (realKernel Rounding.exact) m lib.generateEventDependencies (some h) (some st') = .ok (sims x) →
      (sims x).lib.events = s0.lib.events →
      ∀ (summary : Trajectory ℝ → EReal → List (String × Bool) → Row) (plan : PropertyPlan EReal V)
        (len equil prod : Nat) (rng : Nat → ℝ × ℝ), (∀ c, 0 ≤ (rng c).1 ∧ (rng c).1 < 1) →
      ((sims x).run (realKernel Rounding.exact) m g (some h) summary plan rng len equil prod).outcome = .ok () →
      ∃ (rs : RunState σ φ Unit ℝ EReal ℝ V Row) (hist1 hist2 : List (Event × EReal))
        (s1 s2 : Sim σ φ Unit ℝ EReal),
        ((sims x).run (realKernel Rounding.exact) m g (some h) summary plan rng len equil prod).tracker = some rs ∧
        Steps (realKernel Rounding.exact) m rng true 0 (sims x) hist1 s1 ∧
        Steps (realKernel Rounding.exact) m rng true (equil * len) s1 hist2 s2 ∧
        hist1.length = equil * len ∧ hist2.length = prod * len ∧
        f rs.traj = F (afterAll (sims x).st (hist1.map (·.1))).occ (hist2.map (·.1)))
    (hle : ∀ n : Nat, ∑ x ∈ Ω, W x * totalRate m s0.lib.events (inConfig x) *
        expectedOver m s0.lib.events n (inConfig x) (F x) ≤
      n * (a ^ 2 * ∑ x ∈ Ω, W x * totalRate m s0.lib.events (inConfig x)))
    (hlim : ∃ L, 0 ≤ L ∧ L ≤ a ^ 2 * ∑ x ∈ Ω, W x * totalRate m s0.lib.events (inConfig x) ∧
      Tendsto (fun n : Nat => (∑ x ∈ Ω, W x * totalRate m s0.lib.events (inConfig x) *
        expectedOver m s0.lib.events n (inConfig x) (F x)) / n) atTop (𝓝 L)) :
    ∃ L : ℝ, 0 ≤ L ∧ L ≤ a ^ 2 ∧
      ∀ {Θ : Type} [MeasurableSpace Θ] {μ : Measure Θ} [IsProbabilityMeasure μ] {U : Nat → Θ → ℝ × ℝ},
      RandomNumbers μ U → ∀ (summary : Trajectory ℝ → EReal → List (String × Bool) → Row)
        (plan : PropertyPlan EReal V) (len equil : Nat), 0 < len →
      (∀ prod, ∀ x ∈ Ω, ∀ᵐ ω ∂μ, ((sims x).run (realKernel Rounding.exact) m g (some h) summary plan
        (fun k => U k ω) len equil prod).outcome = .ok ()) →
      ∃ M : Nat → ℝ, (∀ prod, MeanOverStarts μ U m g (some h) summary plan len equil prod Ω sims π f (M prod)) ∧
        (∀ prod, M prod ≤ (prod * len : Nat) * a ^ 2) ∧
        Tendsto (fun prod => M prod / (prod * len : Nat)) atTop (𝓝 L) := by
  have alive := equilibrium_alive hs ha hi hns hW hb
  obtain ⟨L, hL0, hL1, hL2⟩ := hlim
  set Z : ℝ := ∑ x ∈ Ω, W x * totalRate m s0.lib.events (inConfig x) with hZ
  have hw : ∀ x ∈ Ω, 0 < W x * totalRate m s0.lib.events (inConfig x) := fun x hx =>
    mul_pos (hW x) (good_pos hs ha hi alive (config_good hs ha hi hW hb hΩ hx))
  have hZpos : 0 < Z := Finset.sum_pos hw ⟨_, (hΩ _).2 ⟨s0, .refl, rfl⟩⟩
  have hfac : ∀ b : ℝ, (∀ x ∈ Ω, π x = b * (W x * totalRate m s0.lib.events (inConfig x))) → b = 1 / Z := by
    intro b hb'
    have h1 := hπ.sum
    rw [Finset.sum_congr rfl hb', ← Finset.mul_sum] at h1
    field_simp
    exact h1
  refine ⟨1 / Z * L, mul_nonneg (by positivity) hL0, ?_, ?_⟩
  · calc 1 / Z * L ≤ 1 / Z * (a ^ 2 * Z) := mul_le_mul_of_nonneg_left hL1 (by positivity)
      _ = a ^ 2 := by field_simp
  intro Θ _ μ _ U hU summary plan len equil hlen hok
  have hD : ∀ prod : Nat, ∃ M : ℝ, MeanOverStarts μ U m g (some h) summary plan len equil prod Ω sims π f M ∧
      M = 1 / Z * ∑ x ∈ Ω, W x * totalRate m s0.lib.events (inConfig x) *
        expectedOver m s0.lib.events (prod * len) (inConfig x) (F x) := by
    intro prod
    obtain ⟨D, h1, b, h2, h3⟩ := equilibrium_mean hs ha hi hns hW hb hΩ sims hsims 0 π (hπ.steady 0) hU (hok prod) f F
      (fun x hx _ k1 k2 k3 k4 rng hr hc => hF x hx k1 k2 k3 k4 summary plan len equil prod rng hr hc)
    exact ⟨_, ⟨D, h1, rfl⟩, by rw [h3, hfac b h2]⟩
  choose M hM1 hM2 using hD
  refine ⟨M, hM1, fun prod => ?_, ?_⟩
  · rw [hM2]
    calc _ ≤ 1 / Z * ((prod * len : Nat) * (a ^ 2 * Z)) :=
          mul_le_mul_of_nonneg_left (hle (prod * len)) (by positivity)
      _ = _ := by field_simp
  · have ht : Tendsto (fun prod : Nat => prod * len) atTop atTop :=
      tendsto_id.atTop_mul_const' hlen
    refine ((hL2.comp ht).const_mul (1 / Z)).congr fun prod => ?_
    rw [hM2]
    simp only [Function.comp]
    ring

/-- C131.  The ions, one by one.  The rates are balanced (by Boltzmann factors, C90), no hop is longer than `a`, and
the simulations start in equilibrium.  Then the squares of the displacements that the tracker reports for the ions at
the end of a run add up, on average, to at most `a²` for every production step, however many steps there are: a random
walk without memory attains this (C98), the memory of the ions, which are more likely to go back to where they
came from, can only make it less.  Per step the sum has a limit, which depends neither on the lengths of the passes
nor on the random numbers: simulations that are long enough agree on it. -/
theorem C131_ions (hs : HopSystem o mobile h Rounding.exact m g lib st)
    (ha : Answers o mobile m lib.events st.occ)
    (hi : Sim.init (realKernel Rounding.exact) m lib.generateEventDependencies (some h) (some st) = .ok s0)
    (hns : ¬ Stuck m s0) {W : List Int → ℝ} (hW : ∀ x, 0 < W x) (hb : Balanced o mobile m s0.lib.events W)
    {Ω : Finset (List Int)} (hΩ : ∀ x, x ∈ Ω ↔ ∃ s, Reaches m s0 s ∧ s.st.occ = x)
    (sims : List Int → Sim σ φ Unit ℝ EReal)
    (hsims : ∀ x ∈ Ω, ∃ st', st'.occ = x ∧
      Sim.init (realKernel Rounding.exact) m lib.generateEventDependencies (some h) (some st') = .ok (sims x))
    (π : List Int → ℝ) (hπ : InEquilibrium m Ω sims π)
    {v : Event → Vec3 ℝ} (hv : ∀ e ∈ s0.lib.events, IsHopVector g e (v e))
    (a : ℝ) (hva : ∀ e ∈ s0.lib.events, sqLen (v e) ≤ a ^ 2) :
    ∃ L : ℝ, 0 ≤ L ∧ L ≤ a ^ 2 ∧
      ∀ {Θ : Type} [MeasurableSpace Θ] {μ : Measure Θ} [IsProbabilityMeasure μ] {U : Nat → Θ → ℝ × ℝ},
      RandomNumbers μ U → ∀ (summary : Trajectory ℝ → EReal → List (String × Bool) → Row)
        (plan : PropertyPlan EReal V) (len equil : Nat), 0 < len →
      (∀ prod, ∀ x ∈ Ω, ∀ᵐ ω ∂μ, ((sims x).run (realKernel Rounding.exact) m g (some h) summary plan
        (fun k => U k ω) len equil prod).outcome = .ok ()) →
      ∃ M : Nat → ℝ, (∀ prod, MeanOverStarts μ U m g (some h) summary plan len equil prod Ω sims π
          (fun traj => (traj.displacement.map sqLen).sum) (M prod)) ∧
        (∀ prod, M prod ≤ (prod * len : Nat) * a ^ 2) ∧
        Tendsto (fun prod => M prod / (prod * len : Nat)) atTop (𝓝 L) := by
  obtain ⟨h1, h2⟩ := ions_square hs ha hi hW hb hΩ (equilibrium_alive hs ha hi hns hW hb) hva
  refine equilibrium_bound hs ha hi hns hW hb hΩ sims hsims π hπ a _
    (fun x p => ∑ k ∈ ionsAt o mobile x, sqLen (ionWalk v k p)) ?_ h1 h2
  intro x hx st' k1 k2 k3 k4 summary plan len equil prod rng hr hok
  obtain ⟨rs, hist1, hist2, s1, s2, c1, c2, c3, c4, c5, c6⟩ := run_ions k1 k2 k3 (by rw [k4]; exact hv) hr hok
  exact ⟨rs, hist1, hist2, s1, s2, c1, c2, c3, c4, c5, c6 sqLen⟩

/-- C131.  The ions all together.  The same for the square of the sum of their displacements, from which the
collective diffusivity and the conductivity are computed. -/
theorem C131_collective (hs : HopSystem o mobile h Rounding.exact m g lib st)
    (ha : Answers o mobile m lib.events st.occ)
    (hi : Sim.init (realKernel Rounding.exact) m lib.generateEventDependencies (some h) (some st) = .ok s0)
    (hns : ¬ Stuck m s0) {W : List Int → ℝ} (hW : ∀ x, 0 < W x) (hb : Balanced o mobile m s0.lib.events W)
    {Ω : Finset (List Int)} (hΩ : ∀ x, x ∈ Ω ↔ ∃ s, Reaches m s0 s ∧ s.st.occ = x)
    (sims : List Int → Sim σ φ Unit ℝ EReal)
    (hsims : ∀ x ∈ Ω, ∃ st', st'.occ = x ∧
      Sim.init (realKernel Rounding.exact) m lib.generateEventDependencies (some h) (some st') = .ok (sims x))
    (π : List Int → ℝ) (hπ : InEquilibrium m Ω sims π)
    {v : Event → Vec3 ℝ} (hv : ∀ e ∈ s0.lib.events, IsHopVector g e (v e))
    (a : ℝ) (hva : ∀ e ∈ s0.lib.events, sqLen (v e) ≤ a ^ 2) :
    ∃ L : ℝ, 0 ≤ L ∧ L ≤ a ^ 2 ∧
      ∀ {Θ : Type} [MeasurableSpace Θ] {μ : Measure Θ} [IsProbabilityMeasure μ] {U : Nat → Θ → ℝ × ℝ},
      RandomNumbers μ U → ∀ (summary : Trajectory ℝ → EReal → List (String × Bool) → Row)
        (plan : PropertyPlan EReal V) (len equil : Nat), 0 < len →
      (∀ prod, ∀ x ∈ Ω, ∀ᵐ ω ∂μ, ((sims x).run (realKernel Rounding.exact) m g (some h) summary plan
        (fun k => U k ω) len equil prod).outcome = .ok ()) →
      ∃ M : Nat → ℝ, (∀ prod, MeanOverStarts μ U m g (some h) summary plan len equil prod Ω sims π
          (fun traj => sqLen traj.displacement.sum) (M prod)) ∧
        (∀ prod, M prod ≤ (prod * len : Nat) * a ^ 2) ∧
        Tendsto (fun prod => M prod / (prod * len : Nat)) atTop (𝓝 L) := by
  obtain ⟨h1, h2⟩ := collective_square hs ha hi hW hb hΩ (equilibrium_alive hs ha hi hns hW hb) hva
  refine equilibrium_bound hs ha hi hns hW hb hΩ sims hsims π hπ a _
    (fun x p => sqLen (walkOf o mobile v (inConfig x) p)) ?_ h1 h2
  intro x hx st' k1 k2 k3 k4 summary plan len equil prod rng hr hok
  obtain ⟨rs, hist1, hist2, s1, s2, c1, c2, c3, c4, c5, c6, -⟩ := run_walk k1 k2 k3 (by rw [k4]; exact hv) hr hok
  refine ⟨rs, hist1, hist2, s1, s2, c1, c2, c3, c4, c5, ?_⟩
  rw [c6]
  congr 1
  exact walkOf_congr (st := inConfig (afterAll (sims x).st (hist1.map (·.1))).occ)
    (st' := afterAll (sims x).st (hist1.map (·.1))) v _ rfl

/-- C131.  The correlation factor: the sum of the squares, divided by the square of the hop distance times the
number of hops that the tracker has counted, is at most one on average. -/
theorem C131_correlation (hs : HopSystem o mobile h Rounding.exact m g lib st)
    (ha : Answers o mobile m lib.events st.occ)
    (hi : Sim.init (realKernel Rounding.exact) m lib.generateEventDependencies (some h) (some st) = .ok s0)
    (hns : ¬ Stuck m s0) {W : List Int → ℝ} (hW : ∀ x, 0 < W x) (hb : Balanced o mobile m s0.lib.events W)
    {Ω : Finset (List Int)} (hΩ : ∀ x, x ∈ Ω ↔ ∃ s, Reaches m s0 s ∧ s.st.occ = x)
    (sims : List Int → Sim σ φ Unit ℝ EReal)
    (hsims : ∀ x ∈ Ω, ∃ st', st'.occ = x ∧
      Sim.init (realKernel Rounding.exact) m lib.generateEventDependencies (some h) (some st') = .ok (sims x))
    (π : List Int → ℝ) (hπ : InEquilibrium m Ω sims π)
    {v : Event → Vec3 ℝ} (hv : ∀ e ∈ s0.lib.events, IsHopVector g e (v e))
    (a : ℝ) (ha0 : 0 < a) (hva : ∀ e ∈ s0.lib.events, sqLen (v e) ≤ a ^ 2)
    {Θ : Type} [MeasurableSpace Θ] {μ : Measure Θ} [IsProbabilityMeasure μ] {U : Nat → Θ → ℝ × ℝ}
    (hU : RandomNumbers μ U) (summary : Trajectory ℝ → EReal → List (String × Bool) → Row)
    (plan : PropertyPlan EReal V) (len equil prod : Nat) (hlen : 0 < len) (hprod : 0 < prod)
    (hok : ∀ prod, ∀ x ∈ Ω, ∀ᵐ ω ∂μ, ((sims x).run (realKernel Rounding.exact) m g (some h) summary plan
      (fun k => U k ω) len equil prod).outcome = .ok ()) :
    ∃ M : ℝ, MeanOverStarts μ U m g (some h) summary plan len equil prod Ω sims π
        (fun traj => (traj.displacement.map sqLen).sum / (a ^ 2 * (traj.hopCounter.sum : Nat))) M ∧ M ≤ 1 := by
  obtain ⟨L, -, -, key⟩ := C131_ions hs ha hi hns hW hb hΩ sims hsims π hπ hv a hva (V := V) (Row := Row)
  obtain ⟨M, h1, h2, -⟩ := key hU summary plan len equil hlen hok
  obtain ⟨D, d1, d2⟩ := h1 prod
  have hn : (0 : ℝ) < ((prod * len : Nat) : ℝ) := Nat.cast_pos.2 (Nat.mul_pos hprod hlen)
  have hc : 0 < a ^ 2 * ((prod * len : Nat) : ℝ) := by positivity
  refine ⟨M prod / (a ^ 2 * ((prod * len : Nat) : ℝ)), ⟨fun x => D x / (a ^ 2 * ((prod * len : Nat) : ℝ)), ?_, ?_⟩, ?_⟩
  · intro x hx
    obtain ⟨X, e1, e2, e3⟩ := d1 x hx
    refine ⟨fun ω => X ω / (a ^ 2 * ((prod * len : Nat) : ℝ)), e1.div_const _, ?_, by rw [integral_div, e3]⟩
    obtain ⟨st', f1, f2⟩ := hsims x hx
    obtain ⟨s, hr, hox⟩ := (hΩ x).1 hx
    obtain ⟨k1, -, -, -, -⟩ := constructed_met hs ha hi (met_reaches hs ha hi (met_start hs hi) hr)
      (f1.trans hox.symm) f2
    filter_upwards [e2, draws_in_range hU] with ω b1 b2
    obtain ⟨rs, c1, c2, c3⟩ := b1
    obtain ⟨rs', c4, -, c5⟩ := C16_run_counts_every_step k1 f2 (fun k => U k ω) (fun c => (b2 c).1) summary plan len
      equil prod c1
    rw [c2] at c4
    cases c4
    exact ⟨rs, c1, c2, by rw [c3, c5]⟩
  · rw [d2, Finset.sum_div]
    exact Finset.sum_congr rfl fun x _ => mul_div_assoc _ _ _
  · rw [div_le_one hc, mul_comm]
    exact h2 prod

end

/-! ### Two ions on a chain of five sites -/

/-- Simulations of two ions on a chain of five sites, started in equilibrium. -/
theorem chain_started : ∃ (s0 : Sim Unit Unit Unit ℝ EReal) (sims : List Int → Sim Unit Unit Unit ℝ EReal)
    (π : List Int → ℝ),
    Sim.init (realKernel Rounding.exact) hopModel chainLib.generateEventDependencies
      (some ⟨[0, 0, 0, 0, 0], [1, 1, 1, 1, 1]⟩) (some ⟨[0, 1, 0, 1, 1], 0, 0⟩) = .ok s0 ∧
    ¬ Stuck hopModel s0 ∧ s0.lib.events = chainHops ∧
    Balanced exampleOrder "Na" hopModel s0.lib.events (fun _ => 1) ∧
    (∀ x, x ∈ fiveTwo ↔ ∃ s, Reaches hopModel s0 s ∧ s.st.occ = x) ∧
    (∀ x ∈ fiveTwo, Sim.init (realKernel Rounding.exact) hopModel chainLib.generateEventDependencies
      (some ⟨[0, 0, 0, 0, 0], [1, 1, 1, 1, 1]⟩) (some ⟨x, 0, 0⟩) = .ok (sims x)) ∧
    InEquilibrium hopModel fiveTwo sims π ∧
    (∀ x ∈ fiveTwo, HopSystem exampleOrder "Na" ⟨[0, 0, 0, 0, 0], [1, 1, 1, 1, 1]⟩ Rounding.exact hopModel
      ringGeometry chainLib ⟨x, 0, 0⟩ ∧ Answers exampleOrder "Na" hopModel chainLib.events x) ∧
    ∀ (len equil prod : Nat), ∀ x ∈ fiveTwo, ∀ᵐ ω ∂(Measure.infinitePi fun _ : Nat => twoUniform),
      ((sims x).run (realKernel Rounding.exact) hopModel ringGeometry (some ⟨[0, 0, 0, 0, 0], [1, 1, 1, 1, 1]⟩)
        (fun _ _ _ => ()) (planAfter ([] : List (PlanOp EReal Unit))) (fun k => ω k) len equil prod).outcome = .ok () := by
  classical
  obtain ⟨s0, hi⟩ := C85_can_be_constructed chain_on_line chain_answers
  obtain ⟨hl, hst⟩ := chain_annotated hi
  have hb : Balanced exampleOrder "Na" hopModel s0.lib.events fun _ => 1 := by
    refine hopModel_balanced ?_
    rw [hl]
    decide
  have hns : ¬ Stuck hopModel s0 := by
    intro hst'
    have h1 := hst' ⟨[0, 1], [4, 3], some ⟨0, 1, 1, 0⟩⟩ (by rw [hl]; decide) 1 (by
      rw [hst]
      have hd : eventDirection [0, 1, 0, 1, 1] ⟨[0, 1], [4, 3], some ⟨0, 1, 1, 0⟩⟩ = .ok 1 := by decide
      simp only [hopModel, hd]
      norm_num)
    norm_num at h1
  have hΩ : ∀ x, x ∈ fiveTwo ↔ ∃ s, Reaches hopModel s0 s ∧ s.st.occ = x := by
    intro x
    rw [C90_all_arrangements chain_on_line chain_answers hopModel_willing hi
      (chain_network_perm (x := [0, 1, 0, 1, 1]) (.refl _)) x, fiveTwo_perm]
    constructor
    · intro hp
      refine ⟨sameComposition_iff_perm.2 hp, fun i hi' => ?_⟩
      rw [List.getElem?_eq_none (by rw [hp.length_eq]; simpa using hi'), List.getElem?_eq_none (by simpa using hi')]
    · exact fun hp => sameComposition_iff_perm.1 hp.1
  obtain ⟨sims, π, h1, h2, h3, h4⟩ := C103_equilibrium_start chain_on_line chain_answers hi hns
    (fun _ => one_pos) hb hΩ
  have hsys : ∀ x ∈ fiveTwo, HopSystem exampleOrder "Na" ⟨[0, 0, 0, 0, 0], [1, 1, 1, 1, 1]⟩ Rounding.exact hopModel
      ringGeometry chainLib ⟨x, 0, 0⟩ ∧ Answers exampleOrder "Na" hopModel chainLib.events x ∧
      Network exampleOrder "Na" chainLib.events x (fun i => i < 5) := by
    intro x hx
    obtain ⟨s, hr, ho⟩ := (hΩ x).1 hx
    have hm := met_reaches chain_on_line chain_answers hi (met_start chain_on_line hi) hr
    obtain ⟨k1, k2⟩ := reached_system chain_on_line chain_answers hm (st' := ⟨x, 0, 0⟩) ho.symm
    exact ⟨k1, k2, chain_network_perm (by rw [← ho]; exact hm.perm)⟩
  refine ⟨s0, sims, π, hi, hns, hl, hb, hΩ, h1, ⟨fun x hx => (h2 x hx).le, h3, h4⟩,
    fun x hx => ⟨(hsys x hx).1, (hsys x hx).2.1⟩, ?_⟩
  intro len equil prod x hx
  filter_upwards [draws_in_range C93_random_numbers] with ω hω
  exact C85_connected_completes (hsys x hx).1 (hsys x hx).2.1 hopModel_willing (hsys x hx).2.2 (h1 x hx) _ []
    (by intro n spec hn; simp [planAfter, dictGet] at hn) _ (fun c => (hω c).1) len equil prod

theorem chainVector_length (e : Event) : sqLen (chainVector e) = (1 / 5) ^ 2 := by
  unfold chainVector sqLen
  split_ifs <;> simp [Fin.sum_univ_three] <;> norm_num

/-- Non-vacuity: the squares of the displacements of the two ions, and the square of their sum, in runs of any
number of passes of three steps after ten passes of equilibration. -/
example : ∃ (sims : List Int → Sim Unit Unit Unit ℝ EReal) (π : List Int → ℝ) (L L' : ℝ) (M M' : Nat → ℝ),
    InEquilibrium hopModel fiveTwo sims π ∧ L ≤ (1 / 5) ^ 2 ∧ L' ≤ (1 / 5) ^ 2 ∧
    (∀ prod, MeanOverStarts (Measure.infinitePi fun _ : Nat => twoUniform) (fun k ω => ω k) hopModel ringGeometry
      (some ⟨[0, 0, 0, 0, 0], [1, 1, 1, 1, 1]⟩) (fun _ _ _ => ()) (planAfter ([] : List (PlanOp EReal Unit))) 3 10 prod
      fiveTwo sims π (fun traj => (traj.displacement.map sqLen).sum) (M prod)) ∧
    (∀ prod, MeanOverStarts (Measure.infinitePi fun _ : Nat => twoUniform) (fun k ω => ω k) hopModel ringGeometry
      (some ⟨[0, 0, 0, 0, 0], [1, 1, 1, 1, 1]⟩) (fun _ _ _ => ()) (planAfter ([] : List (PlanOp EReal Unit))) 3 10 prod
      fiveTwo sims π (fun traj => sqLen traj.displacement.sum) (M' prod)) ∧
    (∀ prod, M prod ≤ (prod * 3 : Nat) * (1 / 5) ^ 2) ∧ (∀ prod, M' prod ≤ (prod * 3 : Nat) * (1 / 5) ^ 2) ∧
    Tendsto (fun prod => M prod / (prod * 3 : Nat)) atTop (𝓝 L) ∧
    Tendsto (fun prod => M' prod / (prod * 3 : Nat)) atTop (𝓝 L') := by
  obtain ⟨s0, sims, π, hi, hns, hl, hb, hΩ, hsims, hπ, -, hok⟩ := chain_started
  obtain ⟨L, -, h1, h2⟩ := C131_ions (V := Unit) (Row := Unit) chain_on_line chain_answers hi hns (fun _ => one_pos) hb hΩ
    sims (fun x hx => ⟨⟨x, 0, 0⟩, rfl, hsims x hx⟩) π hπ (v := chainVector)
    (by rw [hl]; exact fun e he => chainVector_hop he) (1 / 5) (fun e _ => (chainVector_length e).le)
  obtain ⟨L', -, h1', h2'⟩ := C131_collective (V := Unit) (Row := Unit) chain_on_line chain_answers hi hns
    (fun _ => one_pos) hb hΩ sims (fun x hx => ⟨⟨x, 0, 0⟩, rfl, hsims x hx⟩) π hπ (v := chainVector)
    (by rw [hl]; exact fun e he => chainVector_hop he) (1 / 5) (fun e _ => (chainVector_length e).le)
  obtain ⟨M, a1, a2, a3⟩ := h2 C93_random_numbers (fun _ _ _ => ()) (planAfter []) 3 10 (by norm_num)
    (fun prod => hok 3 10 prod)
  obtain ⟨M', b1, b2, b3⟩ := h2' C93_random_numbers (fun _ _ _ => ()) (planAfter []) 3 10 (by norm_num)
    (fun prod => hok 3 10 prod)
  exact ⟨sims, π, L, L', M, M', hπ, h1, h1', a1, b1, a2, b2, a3, b3⟩

/-- Non-vacuity: the correlation factor after a thousand passes. -/
example : ∃ (sims : List Int → Sim Unit Unit Unit ℝ EReal) (π : List Int → ℝ) (M : ℝ),
    InEquilibrium hopModel fiveTwo sims π ∧ M ≤ 1 ∧
    MeanOverStarts (Measure.infinitePi fun _ : Nat => twoUniform) (fun k ω => ω k) hopModel ringGeometry
      (some ⟨[0, 0, 0, 0, 0], [1, 1, 1, 1, 1]⟩) (fun _ _ _ => ()) (planAfter ([] : List (PlanOp EReal Unit))) 3 10 1000
      fiveTwo sims π (fun traj => (traj.displacement.map sqLen).sum / ((1 / 5) ^ 2 * (traj.hopCounter.sum : Nat))) M := by
  obtain ⟨s0, sims, π, hi, hns, hl, hb, hΩ, hsims, hπ, -, hok⟩ := chain_started
  obtain ⟨M, h1, h2⟩ := C131_correlation (V := Unit) (Row := Unit) chain_on_line chain_answers hi hns (fun _ => one_pos)
    hb hΩ sims (fun x hx => ⟨⟨x, 0, 0⟩, rfl, hsims x hx⟩) π hπ (v := chainVector)
    (by rw [hl]; exact fun e he => chainVector_hop he) (1 / 5) (by norm_num) (fun e _ => (chainVector_length e).le)
    C93_random_numbers (fun _ _ _ => ()) (planAfter []) 3 10 1000 (by norm_num) (by norm_num)
    (fun prod => hok 3 10 prod)
  exact ⟨sims, π, M, hπ, h2, h1⟩

/-- C131.  The bound is one on the average over the equilibrium, not on every start: of two ions at one end of the
chain, the first must hop away from the end, and then two of three hops lead further.  After two steps the mean square
of the sum of the displacements is 8/3 hop distances squared, more than the two of a random walk. -/
theorem C131_one_start_exceeds : ∃ s0 : Sim Unit Unit Unit ℝ EReal,
    Sim.init (realKernel Rounding.exact) hopModel chainLib.generateEventDependencies
      (some ⟨[0, 0, 0, 0, 0], [1, 1, 1, 1, 1]⟩) (some ⟨[0, 0, 1, 1, 1], 0, 0⟩) = .ok s0 ∧
    MeanAtTheEnd (Measure.infinitePi fun _ : Nat => twoUniform) (fun k ω => ω k) hopModel ringGeometry
      (some ⟨[0, 0, 0, 0, 0], [1, 1, 1, 1, 1]⟩) (fun _ _ _ => ()) (planAfter ([] : List (PlanOp EReal Unit))) 1 0 2
      s0 (fun traj _ => sqLen traj.displacement.sum) (8 / 3 * (1 / 5) ^ 2) ∧
    ((2 * 1 : Nat) : ℝ) * (1 / 5) ^ 2 < 8 / 3 * (1 / 5) ^ 2 := by
  obtain ⟨u0, sims, π, hi0, hns0, -, hb0, hΩ, hsims, -, hsys, hok⟩ := chain_started
  have hx : [0, 0, 1, 1, 1] ∈ fiveTwo := by decide
  obtain ⟨hs, ha⟩ := hsys _ hx
  have hi := hsims _ hx
  refine ⟨sims [0, 0, 1, 1, 1], hi, ?_, by norm_num⟩
  obtain ⟨hl, hst⟩ := chain_annotated hi
  have hb : Balanced exampleOrder "Na" hopModel (sims [0, 0, 1, 1, 1]).lib.events fun _ => 1 := by
    refine hopModel_balanced ?_
    rw [hl]
    decide
  have hns : ¬ Stuck hopModel (sims [0, 0, 1, 1, 1]) := by
    intro hst'
    have h1 := hst' ⟨[2, 1], [4, 3], some ⟨0, 1, 1, 0⟩⟩ (by rw [hl]; decide) 1 (by
      rw [hst]
      have hd : eventDirection [0, 0, 1, 1, 1] ⟨[2, 1], [4, 3], some ⟨0, 1, 1, 0⟩⟩ = .ok (-1) := by decide
      simp only [hopModel, hd]
      norm_num)
    norm_num at h1
  have alive := equilibrium_alive hs ha hi hns (W := fun _ => 1) (fun _ => one_pos) hb
  obtain ⟨Y, T, -, -, hYi, -, hY, hm, -⟩ := expectation_from hs ha hi alive C93_random_numbers 2 0 _ .refl
    (fun p => sqLen (walkOf exampleOrder "Na" chainVector (sims [0, 0, 1, 1, 1]).st p))
  refine ⟨Y, hYi, ?_, ?_⟩
  · filter_upwards [hY, hok 1 0 2 _ hx, draws_in_range C93_random_numbers] with ω b1 b2 b3
    obtain ⟨hist, s', d1, d2, d3, -, -⟩ := b1
    obtain ⟨rs, hist1, hist2, s1, s2, c1, c2, c3, c4, c5, c6, -⟩ :=
      run_walk hs ha hi (v := chainVector) (by rw [hl]; exact fun e he => chainVector_hop he) (fun c => (b3 c).1) b2
    have h0 : hist1 = [] := List.length_eq_zero_iff.1 (by simpa using c4)
    subst h0
    cases c2
    obtain ⟨rfl, -⟩ := steps_unique d1 (by simpa using c3) (by rw [d2, c5])
    exact ⟨rs, b2, c1, by rw [d3, c6]; rfl⟩
  · rw [hm, hl, hst]
    have way : ∀ (x : List Int), x ∈ fiveTwo → ∀ e ∈ chainHops, ∀ d : Int, eventDirection x e = .ok d → d ≠ 0 →
        wayOf exampleOrder "Na" chainVector x e = if d = 1 then chainVector e else -chainVector e := by
      intro x hx' e he d hd h0
      obtain ⟨hs', ha'⟩ := hsys x hx'
      exact wayOf_direction hs' (hsims x hx') rfl hs'.labelled (by rw [(chain_annotated (hsims x hx')).1]; exact he) _
        hd h0
    have hrate : ∀ (x : State EReal) (e : Event) (d : Int), eventDirection x.occ e = .ok d →
        rateIn hopModel x e = if d = 0 then 0 else 1 := fun x e d hd => hopModel_rate hd
    have hocc : ((⟨[0, 0, 1, 1, 1], 0, 0⟩ : State EReal).applyEvent ⟨[2, 1], [4, 3], some ⟨0, 1, 1, 0⟩⟩ 0).2.occ =
        [0, 1, 0, 1, 1] := rfl
    set S1 := ((⟨[0, 0, 1, 1, 1], 0, 0⟩ : State EReal).applyEvent ⟨[2, 1], [4, 3], some ⟨0, 1, 1, 0⟩⟩ 0).2 with hS1
    have a0 := hrate ⟨[0, 0, 1, 1, 1], 0, 0⟩ ⟨[0, 1], [4, 3], some ⟨0, 1, 1, 0⟩⟩ 0 (by decide)
    have a1 := hrate ⟨[0, 0, 1, 1, 1], 0, 0⟩ ⟨[2, 1], [4, 3], some ⟨0, 1, 1, 0⟩⟩ (-1) (by decide)
    have a2 := hrate ⟨[0, 0, 1, 1, 1], 0, 0⟩ ⟨[2, 3], [0, 1], some ⟨0, 1, 1, 0⟩⟩ 0 (by decide)
    have a3 := hrate ⟨[0, 0, 1, 1, 1], 0, 0⟩ ⟨[3, 4], [0, 1], some ⟨0, 1, 1, 0⟩⟩ 0 (by decide)
    have b0 := hrate S1 ⟨[0, 1], [4, 3], some ⟨0, 1, 1, 0⟩⟩ 1 (by rw [hocc]; decide)
    have b1 := hrate S1 ⟨[2, 1], [4, 3], some ⟨0, 1, 1, 0⟩⟩ 1 (by rw [hocc]; decide)
    have b2 := hrate S1 ⟨[2, 3], [0, 1], some ⟨0, 1, 1, 0⟩⟩ 1 (by rw [hocc]; decide)
    have b3 := hrate S1 ⟨[3, 4], [0, 1], some ⟨0, 1, 1, 0⟩⟩ 0 (by rw [hocc]; decide)
    have w1 := way [0, 0, 1, 1, 1] (by decide) ⟨[2, 1], [4, 3], some ⟨0, 1, 1, 0⟩⟩ (by decide) (-1) (by decide) (by decide)
    have v0 := way [0, 1, 0, 1, 1] (by decide) ⟨[0, 1], [4, 3], some ⟨0, 1, 1, 0⟩⟩ (by decide) 1 (by decide) (by decide)
    have v1 := way [0, 1, 0, 1, 1] (by decide) ⟨[2, 1], [4, 3], some ⟨0, 1, 1, 0⟩⟩ (by decide) 1 (by decide) (by decide)
    have v2 := way [0, 1, 0, 1, 1] (by decide) ⟨[2, 3], [0, 1], some ⟨0, 1, 1, 0⟩⟩ (by decide) 1 (by decide) (by decide)
    norm_num at a0 a1 a2 a3 b0 b1 b2 b3 w1 v0 v1 v2
    simp only [expectedOver, chainHops, totalRate, List.map_cons, List.map_nil, List.sum_cons, List.sum_nil, a0, a1, a2,
      a3, zero_div, zero_mul, zero_add, add_zero, ← hS1, b0, b1, b2, b3, walkOf, hocc, w1, v0, v1, v2]
    unfold chainVector sqLen
    simp [Fin.sum_univ_three]
    norm_num

end KMC
