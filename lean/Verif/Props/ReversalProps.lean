import Verif.Lemmas.Drift
/-
C103: in equilibrium a film of the simulation looks the same when it is run backwards.
-/
set_option linter.unusedSectionVars false

namespace KMC
open Spec MeasureTheory Filter Topology ProbabilityTheory

section
variable {σ φ ψ K : Type} [Field K] [LinearOrder K] [FloorRing K]
variable {o : ActiveSiteOrder String ψ} {mobile : String} {h : HopStateLookup}
  {m : RateModel Unit ℝ EReal} {g : Geometry K} {lib : EventLib σ φ} {st : State EReal}
  {s0 : Sim σ φ Unit ℝ EReal}

/-- C103.  Time reversal.  The model is balanced with the weights `W` (the Boltzmann factors, by C90), the events
of `history` lead from the simulation `s0` to `s1`, and the random numbers are independent and uniform.  Then the
probability that the film of `s0` begins with these events, with the pictures standing longer than the given times,
times the weight of a step in the first configuration, is the probability that the film of `s1` begins with the
same events in the reverse order and the times in the reverse order, times the weight of a step in the last
configuration.  (The weight of a step is `W` over the mean time of a step, which is one over the total rate: this
is how often the simulation is in the configuration in the long run, by C90.) -/
theorem C103_time_reversal (hs : HopSystem o mobile h Rounding.exact m g lib st)
    (ha : Answers o mobile m lib.events st.occ)
    (hi : Sim.init (realKernel Rounding.exact) m lib.generateEventDependencies (some h) (some st) = .ok s0)
    {W : List Int → ℝ} (hb : Balanced o mobile m s0.lib.events W)
    {Θ : Type} [MeasurableSpace Θ] {μ : Measure Θ} [IsProbabilityMeasure μ] {U : Nat → Θ → ℝ × ℝ}
    (hU : RandomNumbers μ U) (history : List (Event × EReal)) (hl : ∀ x ∈ history, x.1 ∈ s0.lib.events)
    (s1 : Sim σ φ Unit ℝ EReal) (hrun : Executed (realKernel Rounding.exact) m s0 history s1)
    (times : List ℝ) (hlen : times.length = history.length + 1) (hpos : ∀ t ∈ times, 0 ≤ t) :
    W s0.st.occ * totalRate m s0.lib.events s0.st *
        μ.real {ω | Scene m (fun k => U k ω) s0 (history.map (·.1)) times} =
      W s1.st.occ * totalRate m s0.lib.events s1.st *
        μ.real {ω | Scene m (fun k => U k ω) s1 (history.map (·.1)).reverse times.reverse} := by
  have hm0 := met_start hs hi
  obtain ⟨hm1, back, s2, hback, hbe, hm2, ho2⟩ := undo hs ha hi history s0 s1 hm0 hl hrun
  have hbl : ∀ x ∈ back, x.1 ∈ s0.lib.events := by
    intro x hx
    have : x.1 ∈ back.map (·.1) := List.mem_map_of_mem hx
    rw [hbe, List.mem_reverse, List.mem_map] at this
    obtain ⟨y, hy, hyx⟩ := this
    rw [← hyx]
    exact hl y hy
  have hbn : back.length = history.length := by
    have := congrArg List.length hbe
    simpa using this
  have l1 := scene_law hs ha hi hU history times hlen hpos hm0 hl hrun
  have l2 := scene_law hs ha hi hU back times.reverse (by rw [List.length_reverse, hlen, hbn])
    (fun t ht => hpos t (List.mem_reverse.1 ht)) hm1 hbl hback
  have htot : totalRate m s0.lib.events s2.st = totalRate m s0.lib.events s0.st := totalRate_congr hs.loc _ ho2
  rw [hbe, htot] at l2
  rw [l1, l2]
  obtain ⟨w, ts, rfl⟩ : ∃ w ts, times = w :: ts := by
    cases times with
    | nil => simp at hlen
    | cons w ts => exact ⟨w, ts, rfl⟩
  have key := reversed_path hs ha hi hb history w ts s0 s1 (by simpa using hlen) hm0 hl hrun
  have hlast : (w :: ts).reverse.getLastD 0 = w := by simp
  rw [hlast]
  set k0 := totalRate m s0.lib.events s0.st
  set k1 := totalRate m s0.lib.events s1.st
  set A := pathChance m s0.lib.events s0.st ((history.map (·.1)).zip (w :: ts)) *
    Real.exp (-k1 * (w :: ts).getLastD 0)
  set B := pathChance m s0.lib.events s1.st ((history.map (·.1)).reverse.zip (w :: ts).reverse) *
    Real.exp (-k0 * w)
  by_cases h0 : k0 = 0
  · rw [h0]; simp
  · by_cases h1 : k1 = 0
    · rw [h1]; simp
    · rw [div_self h0, div_self h1, one_mul, one_mul]
      exact key

/-- C103.  No circulation.  If the events lead back to the configuration they started from, the way round is as
likely as the way round in the other direction, whatever the weights are: nothing circulates in equilibrium. -/
theorem C103_no_circulation (hs : HopSystem o mobile h Rounding.exact m g lib st)
    (ha : Answers o mobile m lib.events st.occ)
    (hi : Sim.init (realKernel Rounding.exact) m lib.generateEventDependencies (some h) (some st) = .ok s0)
    {W : List Int → ℝ} (hW : ∀ x, 0 < W x) (hb : Balanced o mobile m s0.lib.events W)
    {Θ : Type} [MeasurableSpace Θ] {μ : Measure Θ} [IsProbabilityMeasure μ] {U : Nat → Θ → ℝ × ℝ}
    (hU : RandomNumbers μ U) (history : List (Event × EReal)) (hl : ∀ x ∈ history, x.1 ∈ s0.lib.events)
    (s1 : Sim σ φ Unit ℝ EReal) (hrun : Executed (realKernel Rounding.exact) m s0 history s1)
    (hloop : s1.st.occ = s0.st.occ)
    (times : List ℝ) (hlen : times.length = history.length + 1) (hpos : ∀ t ∈ times, 0 ≤ t) :
    μ {ω | Scene m (fun k => U k ω) s0 (history.map (·.1)) times} =
      μ {ω | Scene m (fun k => U k ω) s0 (history.map (·.1)).reverse times.reverse} := by
  have hm0 := met_start hs hi
  obtain ⟨hm1, back, s2, hback, hbe, hm2, ho2⟩ := undo hs ha hi history s0 s1 hm0 hl hrun
  have key := C103_time_reversal hs ha hi hb hU history hl s1 hrun times hlen hpos
  have htot : totalRate m s0.lib.events s1.st = totalRate m s0.lib.events s0.st := totalRate_congr hs.loc _ hloop
  have hscene : {ω | Scene m (fun k => U k ω) s1 (history.map (·.1)).reverse times.reverse} =
      {ω | Scene m (fun k => U k ω) s0 (history.map (·.1)).reverse times.reverse} := by
    ext ω
    constructor
    · rintro ⟨e, he⟩
      exact ⟨e, followsFrom_congr hs ha hi _ _ 0 s1 s0 hm1 hm0 hloop.symm he⟩
    · rintro ⟨e, he⟩
      exact ⟨e, followsFrom_congr hs ha hi _ _ 0 s0 s1 hm0 hm1 hloop he⟩
  rw [htot, hloop, hscene] at key
  by_cases h0 : totalRate m s0.lib.events s0.st = 0
  · -- nothing can happen
    have l1 := scene_law hs ha hi hU history times hlen hpos hm0 hl hrun
    rw [htot, h0] at l1
    have hbl : ∀ x ∈ back, x.1 ∈ s0.lib.events := by
      intro x hx
      have : x.1 ∈ back.map (·.1) := List.mem_map_of_mem hx
      rw [hbe, List.mem_reverse, List.mem_map] at this
      obtain ⟨y, hy, hyx⟩ := this
      rw [← hyx]
      exact hl y hy
    have hbn : back.length = history.length := by
      have := congrArg List.length hbe
      simpa using this
    have l2 := scene_law hs ha hi hU back times.reverse (by rw [List.length_reverse, hlen, hbn])
      (fun t ht => hpos t (List.mem_reverse.1 ht)) hm1 hbl hback
    rw [hbe, hscene, show totalRate m s0.lib.events s2.st = 0 by
      rw [totalRate_congr hs.loc _ ho2, h0]] at l2
    simp only [div_zero, zero_mul] at l1 l2
    rw [(measureReal_eq_zero_iff).1 l1, (measureReal_eq_zero_iff).1 l2]
  · have h1 := mul_left_cancel₀ (mul_ne_zero (hW _).ne' h0) key
    exact (measureReal_eq_measureReal_iff).1 h1

end

section
variable {σ φ ψ V Row : Type}
variable {o : ActiveSiteOrder String ψ} {mobile : String} {h : HopStateLookup}
  {m : RateModel Unit ℝ EReal} {g : Geometry ℝ} {lib : EventLib σ φ} {st : State EReal}
  {s0 : Sim σ φ Unit ℝ EReal}

/-- C103.  No drift.  The configuration in which a simulation is constructed is drawn from a distribution that does
not change from step to step (by C90 there is only one, the Boltzmann distribution).  Then, on average over it and
over the random numbers, the displacements that the tracker reports at the end of a run add up to zero along every
axis, whatever the number of steps, and however much the ions drift from the one configuration or the other. -/
theorem C103_no_drift (hs : HopSystem o mobile h Rounding.exact m g lib st)
    (ha : Answers o mobile m lib.events st.occ)
    (hi : Sim.init (realKernel Rounding.exact) m lib.generateEventDependencies (some h) (some st) = .ok s0)
    (hns : ¬ Stuck m s0) {W : List Int → ℝ} (hW : ∀ x, 0 < W x) (hb : Balanced o mobile m s0.lib.events W)
    {Ω : Finset (List Int)} (hΩ : ∀ x, x ∈ Ω ↔ ∃ s, Reaches m s0 s ∧ s.st.occ = x)
    (sims : List Int → Sim σ φ Unit ℝ EReal)
    (hsims : ∀ x ∈ Ω, ∃ st', st'.occ = x ∧
      Sim.init (realKernel Rounding.exact) m lib.generateEventDependencies (some h) (some st') = .ok (sims x))
    (r2 : ℝ) (π : List Int → ℝ) (hπ : Stationary Ω (fun x y => chance m r2 (sims x) y) π)
    {v : Event → Vec3 ℝ} (hv : ∀ e ∈ s0.lib.events, IsHopVector g e (v e))
    {Θ : Type} [MeasurableSpace Θ] {μ : Measure Θ} [IsProbabilityMeasure μ] {U : Nat → Θ → ℝ × ℝ}
    (hU : RandomNumbers μ U) {summary : Trajectory ℝ → EReal → List (String × Bool) → Row}
    {plan : PropertyPlan EReal V} {len equil prod : Nat}
    (hok : ∀ x ∈ Ω, ∀ᵐ ω ∂μ, ((sims x).run (realKernel Rounding.exact) m g (some h) summary plan (fun k => U k ω)
      len equil prod).outcome = .ok ()) (c : Fin 3) :
    ∃ D : List Int → ℝ, (∀ x ∈ Ω, MeanAtTheEnd μ U m g (some h) summary plan len equil prod (sims x)
        (fun traj _ => traj.displacement.sum c) (D x)) ∧
      ∑ x ∈ Ω, π x * D x = 0 := by
  classical
  have hpos : ∀ {s : Sim σ φ Unit ℝ EReal}, Reaches m s0 s → 0 < s.prob.sum := fun hr =>
    reaches_sum_pos hs ha hi hb hW hns hr
  have alive_of : ∀ {s : Sim σ φ Unit ℝ EReal}, Met o mobile m st s0 s → 0 < s.prob.sum → ¬ Stuck m s := by
    intro s hm hp hst
    obtain ⟨p, h1, h2⟩ := exists_pos_of_sum_pos hp
    obtain ⟨i, hil, rfl⟩ := List.getElem_of_mem h1
    have hil' : i < s.lib.events.length := by rw [← hm.inv.table.length]; exact hil
    obtain ⟨q, h3, h4⟩ := hm.inv.table.fresh i s.lib.events[i] (by simp [hil'])
    rw [List.getElem?_eq_getElem hil, Option.some.injEq] at h3
    have := hst _ (List.getElem_mem hil') q h4
    rw [h3, this] at h2
    exact lt_irrefl _ h2
  have alive : ∀ s, Reaches m s0 s → ¬ Stuck m s := fun s hr =>
    alive_of (met_reaches hs ha hi (met_start hs hi) hr) (hpos hr)
  -- a simulation that reaches the configuration
  have hch : ∀ x, ∃ s : Sim σ φ Unit ℝ EReal, x ∈ Ω → Reaches m s0 s ∧ s.st.occ = x := by
    intro x
    by_cases hx : x ∈ Ω
    · obtain ⟨s, hr⟩ := (hΩ x).1 hx
      exact ⟨s, fun _ => hr⟩
    · exact ⟨s0, fun hx' => absurd hx' hx⟩
  choose there hthere using hch
  have hmt : ∀ x ∈ Ω, Met o mobile m st s0 (there x) := fun x hx =>
    met_reaches hs ha hi (met_start hs hi) (hthere x hx).1
  -- the constructed simulations
  have hcon : ∀ x ∈ Ω, ∃ st', st'.occ = x ∧ (sims x).st = st' ∧
      HopSystem o mobile h Rounding.exact m g lib st' ∧ Answers o mobile m lib.events st'.occ ∧
      (sims x).lib.events = s0.lib.events ∧ Met o mobile m st s0 (sims x) ∧
      Sim.init (realKernel Rounding.exact) m lib.generateEventDependencies (some h) (some st') = .ok (sims x) := by
    intro x hx
    obtain ⟨st', h1, h2⟩ := hsims x hx
    obtain ⟨k1, k2, k3, k4, k5⟩ := constructed_met hs ha hi (hmt x hx) (h1.trans (hthere x hx).2.symm) h2
    exact ⟨st', h1, k5, k1, k2, k3, k4, h2⟩
  have hprob : ∀ x ∈ Ω, (sims x).prob = (there x).prob := by
    intro x hx
    obtain ⟨st', h1, h2, -, -, -, hm, -⟩ := hcon x hx
    exact met_prob hs hm (hmt x hx) (by rw [h2, h1, (hthere x hx).2])
  -- the weights
  have hstat : Stationary Ω (fun x y => chance m r2 (there x) y) π := by
    intro y hy
    rw [← hπ y hy]
    refine Finset.sum_congr rfl fun x hx => ?_
    obtain ⟨st', h1, h2, -, -, -, hm, -⟩ := hcon x hx
    simp only
    rw [chance_eq hs ha hi (hmt x hx) (hpos (hthere x hx).1), chance_eq hs ha hi hm
      (by rw [hprob x hx]; exact hpos (hthere x hx).1), hprob x hx, h2, h1, (hthere x hx).2]
  obtain ⟨a, hw⟩ := (C90_stationary_iff hs ha hi hns W hW hb Ω hΩ there hthere 0 r2 le_rfl one_pos π).1 hstat
  have hweight : ∀ x ∈ Ω, π x = a * (W x * totalRate m s0.lib.events (inConfig x)) := by
    intro x hx
    have h1 := hw x hx
    rw [meanStay_eq hs (hmt x hx) (hpos (hthere x hx).1) 0 le_rfl one_pos] at h1
    have h2 : (there x).prob.sum = totalRate m s0.lib.events (inConfig x) := by
      rw [prob_sum (hmt x hx)]
      exact totalRate_congr (st := inConfig x) hs.loc _ (hthere x hx).2
    have h3 := hpos (hthere x hx).1
    rw [← h2]
    field_simp at h1
    linarith
  -- the means
  let D : List Int → ℝ := fun x => expectedOver m s0.lib.events (equil * len) (inConfig x) (fun p =>
      expectedOver m s0.lib.events (prod * len) (inConfig (afterAll (inConfig x) p).occ)
        (fun q => walkOf o mobile v (inConfig (afterAll (inConfig x) p).occ) q c))
  have hmean : ∀ x ∈ Ω, MeanAtTheEnd μ U m g (some h) summary plan len equil prod (sims x)
      (fun traj _ => traj.displacement.sum c) (D x) := by
    intro x hx
    obtain ⟨st', h1, h2, k1, k2, k3, k4, k5⟩ := hcon x hx
    have hnsx : ¬ Stuck m (sims x) := alive_of k4 (by rw [hprob x hx]; exact hpos (hthere x hx).1)
    have alivex : ∀ s, Reaches m (sims x) s → ¬ Stuck m s := by
      intro s hr
      refine alive_of (met_reaches hs ha hi k4 hr) ?_
      exact reaches_sum_pos k1 k2 k5 (by rw [k3]; exact hb) hW hnsx hr
    obtain ⟨Y, T, -, -, hYi, -, hY, hm, -⟩ := expectation_from k1 k2 k5 alivex hU (equil * len + prod * len) 0 (sims x)
      .refl (fun p => walkOf o mobile v (afterAll (sims x).st (p.take (equil * len))) (p.drop (equil * len)) c)
    have hEnd : MeanAtTheEnd μ U m g (some h) summary plan len equil prod (sims x)
        (fun traj _ => traj.displacement.sum c) (∫ ω, Y ω ∂μ) := by
      refine ⟨Y, hYi, ?_, rfl⟩
      filter_upwards [hY, hok x hx, draws_in_range hU] with ω b1 b2 b3
      obtain ⟨hist, s', d1, d2, d3, -, -⟩ := b1
      obtain ⟨rs, hist1, hist2, s1, s2, c1, c2, c3, c4, c5, c6, -⟩ :=
        run_walk k1 k2 k5 (by rw [k3]; exact hv) (fun c => (b3 c).1) b2
      have c7 := Steps.append c2 (by simpa [c4] using c3)
      obtain ⟨rfl, -⟩ := steps_unique d1 c7 (by simp [d2, c4, c5])
      refine ⟨rs, b2, c1, ?_⟩
      rw [d3, c6]
      simp only [List.map_append]
      rw [List.take_left' (by simpa using c4), List.drop_left' (by simpa using c4)]
    refine (?_ : D x = ∫ ω, Y ω ∂μ) ▸ hEnd
    symm
    rw [hm, k3, expectedOver_add]
    have hocc : (sims x).st.occ = x := by rw [h2, h1]
    have hlist : ∀ (n : Nat) (st1 : State EReal) (F G : List Event → ℝ), (∀ p, p.length = n → F p = G p) →
        expectedOver m s0.lib.events n st1 F = expectedOver m s0.lib.events n st1 G := by
      intro n
      induction n with
      | zero => intro st1 F G hFG; exact hFG [] rfl
      | succ n ih =>
        intro st1 F G hFG
        simp only [expectedOver]
        refine list_sum_congr fun e _ => ?_
        rw [ih _ _ (fun p => G (e :: p)) fun p hp => hFG (e :: p) (by simp [hp])]
    rw [expectedOver_congr (st := inConfig x) (st' := (sims x).st) hs.loc _ _ _ hocc]
    refine hlist _ _ _ _ fun p hp => ?_
    have ho' : (afterAll (sims x).st p).occ = (inConfig (afterAll (inConfig x) p).occ).occ :=
      afterAll_congr (st := inConfig x) p hocc
    rw [expectedOver_congr hs.loc _ _ _ ho']
    congr 1
    funext q
    rw [List.take_left' hp, List.drop_left' hp, walkOf_congr v q ho']
  have hsum : ∑ x ∈ Ω, π x * D x = a * ∑ x ∈ Ω, W x * totalRate m s0.lib.events (inConfig x) *
      expectedOver m s0.lib.events (equil * len) (inConfig x) (fun p => (fun y =>
        expectedOver m s0.lib.events (prod * len) (inConfig y) (fun q => walkOf o mobile v (inConfig y) q c))
          (afterAll (inConfig x) p).occ) := by
    rw [Finset.mul_sum]
    refine Finset.sum_congr rfl fun x hx => ?_
    rw [hweight x hx]
    simp only [D]
    ring
  refine ⟨D, hmean, ?_⟩
  rw [hsum, mean_after hs ha hi hW hb hΩ (equil * len) (fun y => expectedOver m s0.lib.events (prod * len) (inConfig y)
    (fun q => walkOf o mobile v (inConfig y) q c)), mean_walk_zero hs ha hi hW hb hΩ alive v c (prod * len), mul_zero]

/-- C103.  There is such a distribution, for simulations that are constructed in the configurations. -/
theorem C103_equilibrium_start (hs : HopSystem o mobile h Rounding.exact m g lib st)
    (ha : Answers o mobile m lib.events st.occ)
    (hi : Sim.init (realKernel Rounding.exact) m lib.generateEventDependencies (some h) (some st) = .ok s0)
    (hns : ¬ Stuck m s0) {W : List Int → ℝ} (hW : ∀ x, 0 < W x) (hb : Balanced o mobile m s0.lib.events W)
    {Ω : Finset (List Int)} (hΩ : ∀ x, x ∈ Ω ↔ ∃ s, Reaches m s0 s ∧ s.st.occ = x) :
    ∃ (sims : List Int → Sim σ φ Unit ℝ EReal) (π : List Int → ℝ),
      (∀ x ∈ Ω, Sim.init (realKernel Rounding.exact) m lib.generateEventDependencies (some h) (some ⟨x, 0, 0⟩) =
        .ok (sims x)) ∧
      (∀ x ∈ Ω, 0 < π x) ∧ ∑ x ∈ Ω, π x = 1 ∧
      ∀ r2, Stationary Ω (fun x y => chance m r2 (sims x) y) π := by
  classical
  have hpos : ∀ {s : Sim σ φ Unit ℝ EReal}, Reaches m s0 s → 0 < s.prob.sum := fun hr =>
    reaches_sum_pos hs ha hi hb hW hns hr
  have hch : ∀ x, ∃ s s' : Sim σ φ Unit ℝ EReal, x ∈ Ω → (Reaches m s0 s ∧ s.st.occ = x) ∧
      Sim.init (realKernel Rounding.exact) m lib.generateEventDependencies (some h) (some ⟨x, 0, 0⟩) = .ok s' := by
    intro x
    by_cases hx : x ∈ Ω
    · obtain ⟨s, hr, ho⟩ := (hΩ x).1 hx
      have hm := met_reaches hs ha hi (met_start hs hi) hr
      have hsys := reached_system hs ha hm (st' := ⟨x, 0, 0⟩) ho.symm
      obtain ⟨s', hs'⟩ := init_total hsys.1 hsys.2
      exact ⟨s, s', fun _ => ⟨⟨hr, ho⟩, hs'⟩⟩
    · exact ⟨s0, s0, fun hx' => absurd hx' hx⟩
  choose there sims hch using hch
  have hmt : ∀ x ∈ Ω, Met o mobile m st s0 (there x) := fun x hx =>
    met_reaches hs ha hi (met_start hs hi) (hch x hx).1.1
  have hne : Ω.Nonempty := ⟨_, (hΩ _).2 ⟨s0, .refl, rfl⟩⟩
  let Z : ℝ := ∑ x ∈ Ω, W x * (there x).prob.sum
  have hw : ∀ x ∈ Ω, 0 < W x * (there x).prob.sum := fun x hx => mul_pos (hW x) (hpos (hch x hx).1.1)
  have hZ : 0 < Z := Finset.sum_pos hw hne
  refine ⟨sims, fun x => W x * (there x).prob.sum / Z, fun x hx => (hch x hx).2, fun x hx => div_pos (hw x hx) hZ,
    by rw [← Finset.sum_div, div_self hZ.ne'], fun r2 => ?_⟩
  have h1 := (C90_stationary_iff hs ha hi hns W hW hb Ω hΩ there (fun x hx => (hch x hx).1) 0 r2 le_rfl one_pos
    (fun x => W x * (there x).prob.sum / Z)).2 ⟨1 / Z, fun x hx => by
      have h2 := hpos (hch x hx).1.1
      rw [meanStay_eq hs (hmt x hx) h2 0 le_rfl one_pos]
      field_simp⟩
  intro y hy
  rw [← h1 y hy]
  refine Finset.sum_congr rfl fun x hx => ?_
  obtain ⟨k1, k2, k3, k4, k5⟩ := constructed_met hs ha hi (hmt x hx) (st' := ⟨x, 0, 0⟩) (hch x hx).1.2.symm
    (hch x hx).2
  have hp : (sims x).prob = (there x).prob := met_prob hs k4 (hmt x hx) (by rw [k5, (hch x hx).1.2])
  simp only
  rw [chance_eq hs ha hi (hmt x hx) (hpos (hch x hx).1.1), chance_eq hs ha hi k4
    (by rw [hp]; exact hpos (hch x hx).1.1), hp, k5, (hch x hx).1.2]

end

/-! ### Concrete simulations -/

/-- The model with one rate for every possible hop is balanced, all configurations having the same weight. -/
theorem hopModel_balanced {ψ : Type} {o : ActiveSiteOrder String ψ} {mobile : String} {events : List Event}
    (hc : ∀ e ∈ events, e.codes = some ⟨0, 1, 1, 0⟩) : Balanced o mobile hopModel events fun _ => 1 := by
  intro e he st st' dt d p p' _ hd h0 happly hp hp'
  have hd' := C13_hop_reverses_direction st st' e dt d _ (hc e he) rfl rfl (by decide) hd h0 happly
  have hne : ¬ (-d = 0) := by omega
  simp only [hopModel, hd, hd', if_neg h0, if_neg hne, Except.ok.injEq] at hp hp'
  rw [← hp, ← hp']

theorem chain_annotated {occ : List Int} {s0 : Sim Unit Unit Unit ℝ EReal} {m : RateModel Unit ℝ EReal}
    (hi : Sim.init (realKernel Rounding.exact) m chainLib.generateEventDependencies
      (some ⟨[0, 0, 0, 0, 0], [1, 1, 1, 1, 1]⟩) (some ⟨occ, 0, 0⟩) = .ok s0) :
    s0.lib.events = chainHops ∧ s0.st = ⟨occ, 0, 0⟩ := by
  obtain ⟨i1, -, -, -, -, h1, -⟩ := init_ok hi
  have h2 := h1 _ rfl
  have h3 : (⟨[0, 0, 0, 0, 0], [1, 1, 1, 1, 1]⟩ : HopStateLookup).annotateEvents
      chainLib.generateEventDependencies.events = .ok chainHops := by decide +kernel
  rw [h3] at h2
  exact ⟨(Except.ok.inj h2).symm, (Option.some.inj i1).symm⟩

theorem chain_on_line : HopSystem exampleOrder "Na" ⟨[0, 0, 0, 0, 0], [1, 1, 1, 1, 1]⟩ Rounding.exact hopModel
    ringGeometry chainLib ⟨[0, 1, 0, 1, 1], 0, 0⟩ :=
  { chain_hopSystem with coords := rfl }

theorem chain_network_perm {x : List Int} (hp : x.Perm [0, 1, 0, 1, 1]) :
    Network exampleOrder "Na" chainLib.events x (fun i => i < 5) := by
  have hlen : x.length = 5 := hp.length_eq
  have h01 : ∀ v ∈ x, v = 0 ∨ v = 1 := by
    intro v hv
    have := hp.mem_iff.1 hv
    simp at this
    tauto
  have hall : ∀ i, i < 5 → allowedAt exampleOrder i = some ["Na", "X"] := by decide
  have hsp : ∀ (i : Nat) (hi : i < x.length), (x[i] = 0 → speciesAt exampleOrder x i = some "Na") ∧
      (x[i] = 1 → Vacant exampleOrder x i) := by
    intro i hi
    constructor
    · intro h
      simp [speciesAt, speciesOf, hall i (by omega), List.getElem?_eq_getElem hi, h]
    · intro h
      refine ⟨"X", .inl rfl, ?_⟩
      simp [speciesAt, speciesOf, hall i (by omega), List.getElem?_eq_getElem hi, h]
  refine ⟨chain_network.ends, chain_network.connected, ?_, ?_, ?_⟩
  · intro i hi
    rcases h01 _ (List.getElem_mem (show i < x.length by omega)) with h | h
    · exact .inl ((hsp i (by omega)).1 h)
    · exact .inr ((hsp i (by omega)).2 h)
  · obtain ⟨i, hi, h⟩ := List.getElem_of_mem (hp.mem_iff.2 (show (0 : Int) ∈ [0, 1, 0, 1, 1] by simp))
    exact ⟨i, by omega, (hsp i hi).1 h⟩
  · obtain ⟨i, hi, h⟩ := List.getElem_of_mem (hp.mem_iff.2 (show (1 : Int) ∈ [0, 1, 0, 1, 1] by simp))
    exact ⟨i, by omega, (hsp i hi).2 h⟩

/-- A fifth of the cell forward, or back for the event that is listed from right to left. -/
noncomputable def chainVector (e : Event) : Vec3 ℝ := if e.mobile = [2, 1] then ![-1 / 5, 0, 0] else ![1 / 5, 0, 0]

theorem chainVector_hop {e : Event} (he : e ∈ chainHops) : IsHopVector ringGeometry e (chainVector e) := by
  have mk : ∀ (f t : Nat) (x y z : ℝ), e.mobile = [(f : Int), (t : Int)] →
      ringGeometry.fracCoords[f]? = some ![x, 0, 0] → ringGeometry.fracCoords[t]? = some ![y, 0, 0] →
      y - x = z → |z| < 1 / 2 → chainVector e = ![z, 0, 0] → IsHopVector ringGeometry e (chainVector e) := by
    intro f t x y z h1 h2 h3 h4 h5 h6
    refine ⟨f, t, _, _, fun _ => 0, h1, h2, h3, ?_, ?_⟩
    · intro c
      fin_cases c
      · simpa [h4] using h5
      · simp
      · simp
    · rw [h6]
      simp only [ringGeometry, Matrix.vecMul_one]
      funext c
      fin_cases c <;> simp [h4]
  simp only [chainHops, List.mem_cons, List.not_mem_nil, or_false] at he
  rcases he with rfl | rfl | rfl | rfl
  · exact mk 0 1 0 (1 / 5) (1 / 5) rfl rfl rfl (by norm_num) (by norm_num [abs_of_pos]) rfl
  · exact mk 2 1 (2 / 5) (1 / 5) (-1 / 5) rfl rfl rfl (by norm_num) (by norm_num [abs_lt]) rfl
  · exact mk 2 3 (2 / 5) (3 / 5) (1 / 5) rfl rfl rfl (by norm_num) (by norm_num [abs_of_pos]) rfl
  · exact mk 3 4 (3 / 5) (4 / 5) (1 / 5) rfl rfl rfl (by norm_num) (by norm_num [abs_of_pos]) rfl

/-- Non-vacuity: two ions on a chain of five sites, started in equilibrium.  From the left end of the chain they
drift to the right; on average over all starts they do not. -/
example : ∃ (s0 : Sim Unit Unit Unit ℝ EReal) (Ω : Finset (List Int)) (sims : List Int → Sim Unit Unit Unit ℝ EReal)
    (π D : List Int → ℝ),
    Sim.init (realKernel Rounding.exact) hopModel chainLib.generateEventDependencies
      (some ⟨[0, 0, 0, 0, 0], [1, 1, 1, 1, 1]⟩) (some ⟨[0, 1, 0, 1, 1], 0, 0⟩) = .ok s0 ∧
    (∀ x, x ∈ Ω ↔ ∃ s, Reaches hopModel s0 s ∧ s.st.occ = x) ∧
    (∀ x ∈ Ω, 0 < π x) ∧ ∑ x ∈ Ω, π x = 1 ∧ ∑ x ∈ Ω, π x * D x = 0 ∧
    ∀ x ∈ Ω, MeanAtTheEnd (Measure.infinitePi fun _ : Nat => twoUniform) (fun k ω => ω k) hopModel ringGeometry
      (some ⟨[0, 0, 0, 0, 0], [1, 1, 1, 1, 1]⟩) (fun _ _ _ => ()) (planAfter ([] : List (PlanOp EReal Unit))) 3 10 1000
      (sims x) (fun traj _ => traj.displacement.sum 0) (D x) := by
  classical
  obtain ⟨s0, hi⟩ := C85_can_be_constructed chain_on_line chain_answers
  obtain ⟨hl, hst⟩ := chain_annotated hi
  have hb : Balanced exampleOrder "Na" hopModel s0.lib.events fun _ => 1 := by
    refine hopModel_balanced ?_
    rw [hl]
    decide
  have hns : ¬ Stuck hopModel s0 := by
    intro hst'
    have h1 := hst' ⟨[0, 1], [4, 3], some ⟨0, 1, 1, 0⟩⟩ (by rw [hl]; decide) 1 (by
      rw [hst]
      have hd : eventDirection [0, 1, 0, 1, 1] ⟨[0, 1], [4, 3], some ⟨0, 1, 1, 0⟩⟩ = .ok 1 := by decide
      simp only [hopModel, hd]
      norm_num)
    norm_num at h1
  obtain ⟨Ω, hΩ⟩ := C90_finitely_many chain_on_line chain_answers hi
  obtain ⟨sims, π, h1, h2, h3, h4⟩ := C103_equilibrium_start chain_on_line chain_answers hi hns
    (fun _ => one_pos) hb hΩ
  have hsys : ∀ x ∈ Ω, HopSystem exampleOrder "Na" ⟨[0, 0, 0, 0, 0], [1, 1, 1, 1, 1]⟩ Rounding.exact hopModel
      ringGeometry chainLib ⟨x, 0, 0⟩ ∧ Answers exampleOrder "Na" hopModel chainLib.events x ∧
      Network exampleOrder "Na" chainLib.events x (fun i => i < 5) := by
    intro x hx
    obtain ⟨s, hr, ho⟩ := (hΩ x).1 hx
    have hm := met_reaches chain_on_line chain_answers hi (met_start chain_on_line hi) hr
    obtain ⟨k1, k2⟩ := reached_system chain_on_line chain_answers hm (st' := ⟨x, 0, 0⟩) ho.symm
    exact ⟨k1, k2, chain_network_perm (by rw [← ho]; exact hm.perm)⟩
  obtain ⟨D, h5, h6⟩ := C103_no_drift (V := Unit) (Row := Unit) chain_on_line chain_answers hi hns
    (fun _ => one_pos) hb hΩ sims (fun x hx => ⟨⟨x, 0, 0⟩, rfl, h1 x hx⟩) 1 π (h4 1)
    (v := chainVector) (by rw [hl]; exact fun e he => chainVector_hop he) C93_random_numbers
    (summary := fun _ _ _ => ()) (plan := planAfter []) (len := 3) (equil := 10) (prod := 1000)
    (by
      intro x hx
      filter_upwards [draws_in_range C93_random_numbers] with ω hω
      exact C85_connected_completes (hsys x hx).1 (hsys x hx).2.1 hopModel_willing (hsys x hx).2.2 (h1 x hx) _ []
        (by intro n spec hn; simp [planAfter, dictGet] at hn) _ (fun c => (hω c).1) 3 10 1000) 0
  exact ⟨s0, Ω, sims, π, D, hi, hΩ, h2, h3, h6, h5⟩

/-- Listed events can be executed one after the other. -/
theorem executed_all {σ φ ψ K : Type} [Field K] [LinearOrder K] [FloorRing K]
    {o : ActiveSiteOrder String ψ} {mobile : String} {h : HopStateLookup}
    {m : RateModel Unit ℝ EReal} {g : Geometry K} {lib : EventLib σ φ} {st : State EReal}
    {s0 : Sim σ φ Unit ℝ EReal} (hs : HopSystem o mobile h Rounding.exact m g lib st)
    (ha : Answers o mobile m lib.events st.occ)
    (hi : Sim.init (realKernel Rounding.exact) m lib.generateEventDependencies (some h) (some st) = .ok s0)
    (es : List Event) : ∀ s : Sim σ φ Unit ℝ EReal, Met o mobile m st s0 s → (∀ e ∈ es, e ∈ s0.lib.events) →
      ∃ s1, Executed (realKernel Rounding.exact) m s (es.map fun e => (e, 0)) s1 ∧
        (afterAll s.st es).occ = s1.st.occ := by
  induction es with
  | nil => intro s _ _; exact ⟨s, .nil _, rfl⟩
  | cons e es ih =>
    intro s hm hl
    obtain ⟨s', hu, hm', -⟩ := met_update hs ha hi hm (hl e (by simp)) 0
    obtain ⟨s1, h1, h2⟩ := ih s' hm' fun e he => hl e (List.mem_cons_of_mem _ he)
    refine ⟨s1, .cons hu h1, ?_⟩
    rw [← h2, afterAll]
    exact afterAll_congr _ (update_after hu)

/-- Non-vacuity: one ion is as likely to go all the way round the ring in the one direction as in the other, with
the same stays on the way. -/
example : ∃ s0 : Sim Unit Unit Unit ℝ EReal,
    Sim.init (realKernel Rounding.exact) hopModel ringLib.generateEventDependencies
      (some ⟨[0, 0, 0, 0, 0], [1, 1, 1, 1, 1]⟩) (some ⟨[0, 1, 1, 1, 1], 0, 0⟩) = .ok s0 ∧
    (Measure.infinitePi fun _ : Nat => twoUniform) {ω | Scene hopModel ω s0 ringHops [1, 2, 3, 4, 5, 6]} =
      (Measure.infinitePi fun _ : Nat => twoUniform) {ω | Scene hopModel ω s0 ringHops.reverse [6, 5, 4, 3, 2, 1]} := by
  have hs := ringHop_system (occ := [0, 1, 1, 1, 1]) rfl (by decide)
  have ha := ringHop_answers (occ := [0, 1, 1, 1, 1]) rfl
  obtain ⟨s0, hi⟩ := C85_can_be_constructed hs ha
  obtain ⟨hl, hst⟩ := ring_annotated hi
  have hb : Balanced exampleOrder "Na" hopModel s0.lib.events fun _ => 1 := by
    refine hopModel_balanced ?_
    rw [hl]
    decide
  obtain ⟨s1, h1, h2⟩ := executed_all hs ha hi ringHops s0 (met_start hs hi) (by rw [hl]; exact fun e he => he)
  have h3 := C103_no_circulation hs ha hi (fun _ => one_pos) hb C93_random_numbers _
    (by
      intro x hx
      obtain ⟨e, he, rfl⟩ := List.mem_map.1 hx
      rw [hl]
      exact he) s1 h1
    (by
      rw [← h2, hst]
      rfl) [1, 2, 3, 4, 5, 6] rfl (by
        intro t ht
        simp only [List.mem_cons, List.not_mem_nil, or_false] at ht
        rcases ht with rfl | rfl | rfl | rfl | rfl | rfl <;> norm_num)
  rw [List.map_map] at h3
  have h4 : ringHops.map ((fun x : Event × EReal => x.1) ∘ fun e => (e, 0)) = ringHops := by
    conv_rhs => rw [← List.map_id ringHops]
    rfl
  rw [h4] at h3
  exact ⟨s0, hi, h3⟩

end KMC
