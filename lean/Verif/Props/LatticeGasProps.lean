import Verif.Lemmas.LatticeGas
/-
C126: ions that only block each other.
-/
set_option linter.unusedSectionVars false

namespace KMC
open Spec MeasureTheory Filter Topology ProbabilityTheory

section
variable {σ φ ψ V Row : Type}
variable {o : ActiveSiteOrder String ψ} {mobile : String} {h : HopStateLookup}
  {m : RateModel Unit ℝ EReal} {g : Geometry ℝ} {lib : EventLib σ φ} {st : State EReal}
  {s0 : Sim σ φ Unit ℝ EReal} {v : Event → Vec3 ℝ} {a ν : ℝ} {z : Nat} {S : Nat → Prop}

/-- C126.  Any number of ions that only block each other have no drift together: in every configuration that the
simulation gets into, the hops weighted by their rates cancel. -/
theorem C126_no_drift (hs : HopSystem o mobile h Rounding.exact m g lib st)
    (ha : Answers o mobile m lib.events st.occ) (hw : Willing m)
    (hi : Sim.init (realKernel Rounding.exact) m lib.generateEventDependencies (some h) (some st) = .ok s0)
    (hn : Network o mobile lib.events st.occ S)
    (hl : LatticeGas o mobile m g s0 v a ν z S) : Unbiased o mobile m g s0 v a :=
  gas_unbiased hs ha hw hi hn hl

/-- C126.  So the squared length of the sum of all displacements that the tracker reports is, on average over all
sequences of random numbers, the number of steps times the square of the hop length: the ions move together as
one random walker, however many they are. -/
theorem C126_collective_displacement (hs : HopSystem o mobile h Rounding.exact m g lib st)
    (ha : Answers o mobile m lib.events st.occ) (hw : Willing m)
    (hi : Sim.init (realKernel Rounding.exact) m lib.generateEventDependencies (some h) (some st) = .ok s0)
    (hn : Network o mobile lib.events st.occ S)
    (hl : LatticeGas o mobile m g s0 v a ν z S)
    {Θ : Type} [MeasurableSpace Θ] {μ : Measure Θ} [IsProbabilityMeasure μ] {U : Nat → Θ → ℝ × ℝ}
    (hU : RandomNumbers μ U)
    (summary : Trajectory ℝ → EReal → List (String × Bool) → Row) (ops : List (PlanOp EReal V))
    (ht : ∀ n spec, dictGet (planAfter ops).attached n = some spec → Tolerant spec) (len equil prod : Nat) :
    MeanAtTheEnd μ U m g (some h) summary (planAfter ops) len equil prod s0
      (fun traj _ => sqLen traj.displacement.sum) ((prod * len : Nat) * a ^ 2) := by
  refine C98_mean_square_displacement hs ha hi (gas_unbiased hs ha hw hi hn hl) hU ?_
  filter_upwards [draws_in_range hU] with ω hω
  exact C85_connected_completes hs ha hw hn hi summary ops ht _ (fun c => (hω c).1) len equil prod

/-- C126.  How often the ions hop.  For almost every sequence of random numbers, the number of hops that the tracker
reports over the time that the clock shows tends to `ν z N V / (M - 1)`, for `N` ions and `V` vacancies on `M` sites:
each ion tries its `z` ways with the rate `ν`, and finds the other site vacant in the fraction `V / (M - 1)` of all
cases. -/
theorem C126_hops_per_time (hs : HopSystem o mobile h Rounding.exact m g lib st)
    (ha : Answers o mobile m lib.events st.occ) (hw : Willing m)
    (hi : Sim.init (realKernel Rounding.exact) m lib.generateEventDependencies (some h) (some st) = .ok s0)
    (hn : Network o mobile lib.events st.occ S)
    (hl : LatticeGas o mobile m g s0 v a ν z S)
    (t0 : ℝ) (ht : st.time = (t0 : EReal)) (len equil : Nat) (hlen : 0 < len)
    {Θ : Type} [MeasurableSpace Θ] {μ : Measure Θ} [IsProbabilityMeasure μ] {U : Nat → Θ → ℝ × ℝ}
    (hU : RandomNumbers μ U) :
    ∀ᵐ ω ∂μ, ∀ (summary : Trajectory ℝ → EReal → List (String × Bool) → Row) (plan : PropertyPlan EReal V)
      (D : Nat → ℝ),
      ReportedPerTime m g (some h) summary plan (fun k => U k ω) len equil s0 t0
        (fun traj => traj.hopCounter.sum) D →
      Tendsto D atTop (𝓝 (ν * z * countSites st.occ.length S (fun k => speciesAt o st.occ k = some mobile) *
        countSites st.occ.length S (fun k => Vacant o st.occ k) /
        ((countSites st.occ.length S fun _ => True) - 1))) := by
  have hst : s0.st = st := by
    obtain ⟨i1, -⟩ := init_ok hi
    exact (Option.some.inj i1).symm
  have hns := network_not_stuck hs ha hi hw (sim_init_inv hs hi) (by rw [hst]) (by rw [hst]; exact hn)
  obtain ⟨Ω, hΩ⟩ := C90_finitely_many hs ha hi
  have key := C105_hops_reported (V := V) (Row := Row) hs ha hi hns (fun _ => 1) (fun _ => one_pos)
    (gas_balanced hs hi hl) Ω hΩ t0 ht len equil hlen hU
  rw [gas_mean_rate hs ha hw hi hn hl hΩ] at key
  exact key

/-- The mean at the end of a run is one number. -/
theorem meanAtTheEnd_unique {Θ : Type} [MeasurableSpace Θ] {μ : Measure Θ} {U : Nat → Θ → ℝ × ℝ}
    {summary : Trajectory ℝ → EReal → List (String × Bool) → Row} {plan : PropertyPlan EReal V}
    {len equil prod : Nat} {f : Trajectory ℝ → Sim σ φ Unit ℝ EReal → ℝ} {x y : ℝ}
    (hx : MeanAtTheEnd μ U m g (some h) summary plan len equil prod s0 f x)
    (hy : MeanAtTheEnd μ U m g (some h) summary plan len equil prod s0 f y) : x = y := by
  obtain ⟨X, -, hX, rfl⟩ := hx
  obtain ⟨Y, -, hY, rfl⟩ := hy
  refine integral_congr_ae ?_
  filter_upwards [hX, hY] with ω h1 h2
  obtain ⟨rs, -, h3, h4⟩ := h1
  obtain ⟨rs', -, h5, h6⟩ := h2
  rw [h3] at h5
  cases h5
  rw [h4, h6]

/-- C126.  The conductivity diffusivity.  Let `x prod` be the mean, over all sequences of random numbers, of the squared
length of the sum of all displacements after `prod` passes.  For almost every sequence of random numbers, `x prod` over
`2 d N` and the time that the clock shows tends to `z ν a² / (2 d)`, the diffusivity of a lone ion, times
`V / (M - 1)`. -/
theorem C126_conductivity_diffusivity (hs : HopSystem o mobile h Rounding.exact m g lib st)
    (ha : Answers o mobile m lib.events st.occ) (hw : Willing m)
    (hi : Sim.init (realKernel Rounding.exact) m lib.generateEventDependencies (some h) (some st) = .ok s0)
    (hn : Network o mobile lib.events st.occ S)
    (hl : LatticeGas o mobile m g s0 v a ν z S)
    (t0 : ℝ) (ht : st.time = (t0 : EReal)) (len equil : Nat) (hlen : 0 < len)
    {Θ : Type} [MeasurableSpace Θ] {μ : Measure Θ} [IsProbabilityMeasure μ] {U : Nat → Θ → ℝ × ℝ}
    (hU : RandomNumbers μ U)
    (summary : Trajectory ℝ → EReal → List (String × Bool) → Row) (ops : List (PlanOp EReal V))
    (htol : ∀ n spec, dictGet (planAfter ops).attached n = some spec → Tolerant spec)
    (x : Nat → ℝ)
    (hx : ∀ prod, MeanAtTheEnd μ U m g (some h) summary (planAfter ops) len equil prod s0
      (fun traj _ => sqLen traj.displacement.sum) (x prod)) (d : ℝ) (hd : 0 < d) :
    ∀ᵐ ω ∂μ, ∀ T : Nat → ℝ,
      (∀ prod, ∃ rs, (s0.run (realKernel Rounding.exact) m g (some h) summary (planAfter ops) (fun k => U k ω) len equil
        prod).tracker = some rs ∧ T prod = clock rs.sim - t0) →
      Tendsto (fun prod => x prod /
        (2 * d * countSites st.occ.length S (fun k => speciesAt o st.occ k = some mobile) * T prod)) atTop
        (𝓝 (z * ν * a ^ 2 / (2 * d) * (countSites st.occ.length S (fun k => Vacant o st.occ k) /
          ((countSites st.occ.length S fun _ => True) - 1)))) := by
  have hxe : ∀ prod, x prod = (prod * len : Nat) * a ^ 2 := fun prod =>
    meanAtTheEnd_unique (hx prod) (C126_collective_displacement hs ha hw hi hn hl hU summary ops htol len equil prod)
  have hN : (countSites st.occ.length S (fun k => speciesAt o st.occ k = some mobile) : ℝ) ≠ 0 := by
    obtain ⟨i, si, hion⟩ := hn.ion
    have : 0 < countSites st.occ.length S (fun k => speciesAt o st.occ k = some mobile) := by
      simp only [countSites]
      refine Finset.card_pos.2 ⟨i, ?_⟩
      simp only [Finset.mem_filter, Finset.mem_range]
      exact ⟨network_lt hn i si, si, hion⟩
    exact_mod_cast this.ne'
  filter_upwards [C126_hops_per_time (V := V) (Row := Row) hs ha hw hi hn hl t0 ht len equil hlen hU,
    draws_in_range hU] with ω h1 h2 T hT
  have hok : ∀ prod, (s0.run (realKernel Rounding.exact) m g (some h) summary (planAfter ops) (fun k => U k ω) len equil
      prod).outcome = .ok () := fun prod =>
    C85_connected_completes hs ha hw hn hi summary ops htol _ (fun c => (h2 c).1) len equil prod
  have key := h1 summary (planAfter ops) (fun prod => ((prod * len : Nat) : ℝ) / T prod) (by
    intro prod
    obtain ⟨rs, r1, r2⟩ := hT prod
    obtain ⟨rs', c1, -, c2⟩ := C16_run_counts_every_step hs hi (fun k => U k ω) (fun c => (h2 c).1) summary (planAfter ops)
      len equil prod (hok prod)
    rw [r1, Option.some.injEq] at c1
    subst c1
    exact ⟨rs, hok prod, r1, by dsimp only; rw [r2, c2]⟩)
  set N : ℝ := ((countSites st.occ.length S (fun k => speciesAt o st.occ k = some mobile) : Nat) : ℝ)
  have hlim : ν * z * N * countSites st.occ.length S (fun k => Vacant o st.occ k) /
      ((countSites st.occ.length S fun _ => True) - 1) * (a ^ 2 / (2 * d * N)) =
      z * ν * a ^ 2 / (2 * d) * (countSites st.occ.length S (fun k => Vacant o st.occ k) /
        ((countSites st.occ.length S fun _ => True) - 1)) := by
    have hd' := hd.ne'
    field_simp
  have := key.mul_const (a ^ 2 / (2 * d * N))
  rw [hlim] at this
  refine this.congr fun prod => ?_
  rw [hxe, div_mul_div_comm, mul_comm (T prod)]

/-- C126.  A constant barrier makes a lattice gas of every lattice whose sites all have `z` ways out that cancel: every
possible hop has the Arrhenius rate. -/
theorem C126_constant_barrier (b : ℚ) (name : String) (kB temp ν₀ : ℝ) (hν : 0 < ν₀)
    (lookup : HopStateLookup.fromActiveSiteOrder o mobile = .ok h)
    (fit : IndicesFit st.occ.length lib.events) (labelled : WellLabelled o mobile st.occ)
    {lm : LocalBarrierModel} (hlm : LocalBarrierModel.constantBarrier (.float (.fin b)) name = .ok lm)
    (hi : Sim.init (realKernel Rounding.exact) (lm.rateModel kB temp ν₀) lib.generateEventDependencies (some h)
        (some st) = .ok s0)
    (vector : ∀ e ∈ s0.lib.events, IsHopVector g e (v e)) (length : ∀ e ∈ s0.lib.events, sqLen (v e) = a ^ 2)
    (apos : 0 < a) (cancel : ∀ k, S k → (s0.lib.events.map (wayOut v k)).sum = 0)
    (ways : ∀ k, S k → s0.lib.events.countP (fun e => decide ((k : Int) ∈ e.mobile)) = z) :
    LatticeGas o mobile (lm.rateModel kB temp ν₀) g s0 v a (ν₀ * Real.exp (-b / (kB * temp))) z S := by
  refine ⟨vector, length, cancel, ways, ?_, apos, mul_pos hν (Real.exp_pos _)⟩
  intro x hwl e he f t hmob hpos
  have hlm' : lm = ⟨name, "barrier", "barrier_arrhenius", "barrier", [], some [("barrier", .fin b)], [], []⟩ := by
    have : LocalBarrierModel.constantBarrier (.float (.fin b)) name =
      .ok ⟨name, "barrier", "barrier_arrhenius", "barrier", [], some [("barrier", .fin b)], [], []⟩ := rfl
    rw [hlm] at this
    exact Except.ok.inj this
  have hlen : x.occ.length = st.occ.length := hwl.length.trans labelled.length.symm
  obtain ⟨-, -, -, -, -, hann, -, -⟩ := init_ok hi
  obtain ⟨e0, he0, hae⟩ := annotateEvents_mem (hann h rfl) e he
  have he0' : e0 ∈ lib.events := he0
  have hmob0 : e0.mobile = e.mobile := by
    obtain ⟨f, t, mf, vt, vf, mt, hm', -, -, -, -, rfl⟩ := annotateEvent_ok hae
    rfl
  have hf := fit e0 he0' f (by simp [hmob0, hmob])
  have ht := fit e0 he0' t (by simp [hmob0, hmob])
  obtain ⟨d, hd, -, h3, h4⟩ := C12_direction_of_species o mobile h lookup x.occ hwl e0 e hae f t
    (by rw [hmob0, hmob]) (by omega) (by omega)
  have hd0 : d ≠ 0 := by
    rcases hpos with ⟨k1, w, k2, k3⟩ | ⟨k1, w, k2, k3⟩
    · rw [h3.2 ⟨k1, w, k3, k2⟩]; decide
    · rw [h4.2 ⟨k1, w, k3, k2⟩]; decide
  have hcomp : lm.compute x.occ e lm.probabilityProperty = .ok (.fin b) := by rw [hlm']; rfl
  have hmode : lm.probabilityMode = LocalBarrierModel.supportedMode := by rw [hlm']; rfl
  simp only [rateIn, LocalBarrierModel.rateModel, LocalBarrierModel.computeProbability, hmode, ne_eq,
    not_true_eq_false, if_false, hcomp, hd, LocalBarrierModel.arrhenius, hd0, not_false_eq_true, if_true, one_mul]

end

/-! ### Concrete simulations -/

/-- Any number of ions on the ring of five sites are a lattice gas. -/
theorem ring_gas {occ : List Int} (hlen : occ.length = 5) (h01 : ∀ v ∈ occ, v = 0 ∨ v = 1)
    {s0 : Sim Unit Unit Unit ℝ EReal}
    (hi : Sim.init (realKernel Rounding.exact) hopModel ringLib.generateEventDependencies
      (some ⟨[0, 0, 0, 0, 0], [1, 1, 1, 1, 1]⟩) (some ⟨occ, 0, 0⟩) = .ok s0) :
    LatticeGas exampleOrder "Na" hopModel ringGeometry s0 ringVector (1 / 5) 1 2 (fun i => i < 5) := by
  obtain ⟨hl, hst⟩ := ring_annotated hi
  have hsys := ringHop_system hlen h01
  refine ⟨?_, fun e _ => ringVector_length e, ?_, ?_, ?_, by norm_num⟩
  · rw [hl]; exact fun e he => ringVector_hop he
  · rw [hl]
    intro k hk
    have : k = 0 ∨ k = 1 ∨ k = 2 ∨ k = 3 ∨ k = 4 := by omega
    rcases this with rfl | rfl | rfl | rfl | rfl <;> simp [ringHops, wayOut, ringVector]
  · rw [hl]
    intro k hk
    have : k = 0 ∨ k = 1 ∨ k = 2 ∨ k = 3 ∨ k = 4 := by omega
    rcases this with rfl | rfl | rfl | rfl | rfl <;> decide
  · intro x hwl e he f t hm hpos
    have hlen' : x.occ.length = occ.length := hwl.length.trans hsys.labelled.length.symm
    obtain ⟨f', t', g1, -, -, -, d, g2, g3, g4, g5⟩ := direction_species hsys hi hlen' hwl he
    rw [hm] at g1
    simp only [List.cons.injEq, Nat.cast_inj, and_true] at g1
    obtain ⟨rfl, rfl⟩ := g1
    rw [hopModel_rate g2]
    rcases hpos with h | h
    · rw [g3.2 h]; simp
    · rw [g4.2 h]; simp

/-- Non-vacuity: two ions on a ring of five sites, every hop with rate one.  In a long simulation they hop three times
per unit of time (a lone ion hops twice, so two that did not block each other would hop four times). -/
example : ∃ s0 : Sim Unit Unit Unit ℝ EReal,
    Sim.init (realKernel Rounding.exact) hopModel ringLib.generateEventDependencies
      (some ⟨[0, 0, 0, 0, 0], [1, 1, 1, 1, 1]⟩) (some ⟨[0, 1, 0, 1, 1], 0, 0⟩) = .ok s0 ∧
    ∀ᵐ ω ∂(Measure.infinitePi fun _ : Nat => twoUniform), ∃ D : Nat → ℝ,
      ReportedPerTime hopModel ringGeometry (some ⟨[0, 0, 0, 0, 0], [1, 1, 1, 1, 1]⟩) (fun _ _ _ => ())
        (planAfter ([] : List (PlanOp EReal Unit))) (fun k => ω k) 3 10 s0 0 (fun traj => traj.hopCounter.sum) D ∧
      Tendsto D atTop (𝓝 3) := by
  have hsys := ringHop_system (occ := [0, 1, 0, 1, 1]) rfl (by decide)
  have hans := ringHop_answers (occ := [0, 1, 0, 1, 1]) rfl
  have hnet := ring_network (occ := [0, 1, 0, 1, 1]) rfl (by decide) (by decide) (by decide)
  obtain ⟨s0, hi⟩ := C85_can_be_constructed hsys hans
  refine ⟨s0, hi, ?_⟩
  have hgas := ring_gas (occ := [0, 1, 0, 1, 1]) rfl (by decide) hi
  have ion : ∀ k, speciesAt exampleOrder [0, 1, 0, 1, 1] k = some "Na" ↔ k = 0 ∨ k = 2 := by
    intro k
    rcases k with _ | _ | _ | _ | _ | k
    all_goals first | decide | skip
    simp [speciesAt]
  have hvac : ∀ k, k < 5 → (Vacant exampleOrder [0, 1, 0, 1, 1] k ↔ k = 1 ∨ k = 3 ∨ k = 4) := by
    intro k hk
    constructor
    · intro hv
      have := not_vacant_mobile hsys.labelled hv
      simp only [ne_eq, ion] at this
      omega
    · rintro (rfl | rfl | rfl) <;> exact ⟨"X", .inl rfl, by decide⟩
  have hN : countSites 5 (fun i => i < 5) (fun k => speciesAt exampleOrder [0, 1, 0, 1, 1] k = some "Na") = 2 := by
    have : (Finset.range 5).filter (fun k => k = 0 ∨ k = 2) = {0, 2} := by decide
    rw [← Finset.card_pair (a := 0) (b := 2) (by decide), ← this]
    unfold countSites
    congr 1
    ext k
    simp only [Finset.mem_filter, Finset.mem_range, ion]
    omega
  have hV : countSites 5 (fun i => i < 5) (fun k => Vacant exampleOrder [0, 1, 0, 1, 1] k) = 3 := by
    have h1 : ((Finset.range 5).filter (fun k => k = 1 ∨ k = 3 ∨ k = 4)).card = 3 := by decide
    rw [← h1]
    unfold countSites
    congr 1
    ext k
    simp only [Finset.mem_filter, Finset.mem_range]
    constructor
    · rintro ⟨h2, -, h3⟩; exact ⟨h2, (hvac k h2).1 h3⟩
    · rintro ⟨h2, h3⟩; exact ⟨h2, h2, (hvac k h2).2 h3⟩
  have hM : countSites 5 (fun i => i < 5) (fun _ => True) = 5 := by
    have := network_counts (S := fun i => i < 5) hsys.labelled hnet 5
    rw [← this, hN, hV]
  filter_upwards [C126_hops_per_time (V := Unit) (Row := Unit) hsys hans hopModel_willing hi hnet hgas 0 rfl 3 10
    (by norm_num) C93_random_numbers, draws_in_range C93_random_numbers] with ω h1 h2
  have hok : ∀ prod, (s0.run (realKernel Rounding.exact) hopModel ringGeometry
      (some ⟨[0, 0, 0, 0, 0], [1, 1, 1, 1, 1]⟩) (fun _ _ _ => ())
      (planAfter ([] : List (PlanOp EReal Unit))) (fun k => ω k) 3 10 prod).outcome = .ok () := fun prod =>
    C85_connected_completes hsys hans hopModel_willing hnet hi _ [] (by intro n spec hn; cases hn) _
      (fun c => (h2 c).1) 3 10 prod
  have hrs : ∀ prod, ∃ rs, (s0.run (realKernel Rounding.exact) hopModel ringGeometry
      (some ⟨[0, 0, 0, 0, 0], [1, 1, 1, 1, 1]⟩) (fun _ _ _ => ())
      (planAfter ([] : List (PlanOp EReal Unit))) (fun k => ω k) 3 10 prod).tracker = some rs := fun prod => by
    obtain ⟨rs, h3, -⟩ := C16_run_counts_every_step hsys hi (fun k => ω k) (fun c => (h2 c).1) (fun _ _ _ => ())
      (planAfter ([] : List (PlanOp EReal Unit))) 3 10 prod (hok prod)
    exact ⟨rs, h3⟩
  choose rs hrs using hrs
  have hD : ReportedPerTime hopModel ringGeometry (some ⟨[0, 0, 0, 0, 0], [1, 1, 1, 1, 1]⟩) (fun _ _ _ => ())
      (planAfter ([] : List (PlanOp EReal Unit))) (fun k => ω k) 3 10 s0 0 (fun traj => traj.hopCounter.sum)
      (fun prod => ((rs prod).traj.hopCounter.sum : ℝ) / (clock (rs prod).sim - 0)) :=
    fun prod => ⟨rs prod, hok prod, hrs prod, rfl⟩
  refine ⟨_, hD, ?_⟩
  have key := h1 _ _ _ hD
  have hlen5 : ([0, 1, 0, 1, 1] : List Int).length = 5 := rfl
  simp only [hlen5, hN, hV, hM] at key
  norm_num at key
  simpa using key

end KMC
