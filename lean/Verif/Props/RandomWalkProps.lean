import Verif.Lemmas.RandomWalkRun
import Verif.Props.TransportProps
import Verif.Props.HomogeneousProps
import Verif.Props.OneSimulationProps
/-
C94: means over all runs.  C98: random walks without drift.
-/
set_option linter.unusedSectionVars false

namespace KMC
open Spec MeasureTheory Filter Topology ProbabilityTheory

section
variable {σ φ ψ : Type}
variable {o : ActiveSiteOrder String ψ} {mobile : String} {h : HopStateLookup}
  {m : RateModel Unit ℝ EReal} {g : Geometry ℝ} {lib : EventLib σ φ} {st : State EReal}
  {s0 : Sim σ φ Unit ℝ EReal}

/-- C94.  Means over all runs: if the simulation can never come to rest, then with independent uniform random
numbers the mean of any function of the first `n` events is its mean over the Markov chain of the rates, and the
mean of the time they take is the mean time of that chain. -/
theorem C94_expected_value (hs : HopSystem o mobile h Rounding.exact m g lib st)
    (ha : Answers o mobile m lib.events st.occ)
    (hi : Sim.init (realKernel Rounding.exact) m lib.generateEventDependencies (some h) (some st) = .ok s0)
    (alive : ∀ s, Reaches m s0 s → ¬ Stuck m s)
    {Θ : Type} [MeasurableSpace Θ] {μ : Measure Θ} [IsProbabilityMeasure μ] {U : Nat → Θ → ℝ × ℝ}
    (hU : RandomNumbers μ U) (n : Nat) (F : List Event → ℝ) :
    ∃ Y T : Θ → ℝ, Integrable Y μ ∧ Integrable T μ ∧
      (∀ᵐ ω ∂μ, ∃ hist s', Steps (realKernel Rounding.exact) m (fun k => U k ω) true 0 s0 hist s' ∧
        hist.length = n ∧ Y ω = F (hist.map (·.1)) ∧ T ω = (hist.map fun x => x.2.toReal).sum) ∧
      ∫ ω, Y ω ∂μ = expectedOver m s0.lib.events n st F ∧
      ∫ ω, T ω ∂μ = expectedTime m s0.lib.events n st := by
  obtain ⟨Y, T, -, -, h1, h2, h3, h4, h5⟩ := expectation_from hs ha hi alive hU n 0 s0 .refl F
  have hst : s0.st = st := by
    obtain ⟨i1, -⟩ := init_ok hi
    exact (Option.some.inj i1).symm
  rw [hst] at h4 h5
  refine ⟨Y, T, h1, h2, ?_, h4, h5⟩
  filter_upwards [h3] with ω hω
  obtain ⟨hist, s', b1, b2, b3, -, b5⟩ := hω
  exact ⟨hist, s', b1, b2, b3, b5⟩

variable {V Row Θ : Type} [MeasurableSpace Θ] {μ : Measure Θ} [IsProbabilityMeasure μ] {U : Nat → Θ → ℝ × ℝ}

/-- A mean at the end of the run is unique. -/
theorem C98_mean_unique {summary : Trajectory ℝ → EReal → List (String × Bool) → Row}
    {plan : PropertyPlan EReal V} {lookup : Option HopStateLookup} {len equil prod : Nat}
    {f : Trajectory ℝ → Sim σ φ Unit ℝ EReal → ℝ} {x y : ℝ}
    (hx : MeanAtTheEnd μ U m g lookup summary plan len equil prod s0 f x)
    (hy : MeanAtTheEnd μ U m g lookup summary plan len equil prod s0 f y) : x = y := by
  obtain ⟨X, -, h1, rfl⟩ := hx
  obtain ⟨Y, -, h2, rfl⟩ := hy
  refine integral_congr_ae ?_
  filter_upwards [h1, h2] with ω a1 a2
  obtain ⟨rs, -, b1, b2⟩ := a1
  obtain ⟨rs', -, c1, c2⟩ := a2
  rw [b1] at c1
  cases c1
  rw [b2, c2]

/-- C98.  Without drift the ions, all together, get nowhere on average: the mean over all runs of the sum of the
displacements that the tracker reports is zero along every axis. -/
theorem C98_mean_displacement (hs : HopSystem o mobile h Rounding.exact m g lib st)
    (ha : Answers o mobile m lib.events st.occ)
    (hi : Sim.init (realKernel Rounding.exact) m lib.generateEventDependencies (some h) (some st) = .ok s0)
    {v : Event → Vec3 ℝ} {a : ℝ} (hub : Unbiased o mobile m g s0 v a) (hU : RandomNumbers μ U)
    {summary : Trajectory ℝ → EReal → List (String × Bool) → Row} {plan : PropertyPlan EReal V}
    {len equil prod : Nat}
    (hok : ∀ᵐ ω ∂μ, (s0.run (realKernel Rounding.exact) m g (some h) summary plan (fun k => U k ω) len equil
      prod).outcome = .ok ()) (c : Fin 3) :
    MeanAtTheEnd μ U m g (some h) summary plan len equil prod s0 (fun traj _ => traj.displacement.sum c) 0 :=
  mean_walk hs ha hi hub hU hok (fun w => w c) 0 fun st' hg => by
    have := walk_mean hs ha hi hub c (prod * len) st' hg 0
    simpa using this

/-- C98.  Without drift the mean over all runs of the squared length of the sum of the displacements is the number
of production steps times the squared length of one hop. -/
theorem C98_mean_square_displacement (hs : HopSystem o mobile h Rounding.exact m g lib st)
    (ha : Answers o mobile m lib.events st.occ)
    (hi : Sim.init (realKernel Rounding.exact) m lib.generateEventDependencies (some h) (some st) = .ok s0)
    {v : Event → Vec3 ℝ} {a : ℝ} (hub : Unbiased o mobile m g s0 v a) (hU : RandomNumbers μ U)
    {summary : Trajectory ℝ → EReal → List (String × Bool) → Row} {plan : PropertyPlan EReal V}
    {len equil prod : Nat}
    (hok : ∀ᵐ ω ∂μ, (s0.run (realKernel Rounding.exact) m g (some h) summary plan (fun k => U k ω) len equil
      prod).outcome = .ok ()) :
    MeanAtTheEnd μ U m g (some h) summary plan len equil prod s0 (fun traj _ => sqLen traj.displacement.sum)
      ((prod * len : Nat) * a ^ 2) :=
  mean_walk hs ha hi hub hU hok sqLen _ fun st' hg => by
    have := walk_square hs ha hi hub (prod * len) st' hg 0
    have h0 : sqLen (0 : Vec3 ℝ) = 0 := by simp [sqLen]
    rw [h0, zero_add] at this
    rw [← this]
    congr 1
    funext p
    rw [zero_add]

/-- C98.  If the total rate is always `r`, the clock of a run that starts at `t0` shows on average `t0` plus the
number of production steps over `r`: the equilibration takes no time. -/
theorem C98_mean_time (hs : HopSystem o mobile h Rounding.exact m g lib st)
    (ha : Answers o mobile m lib.events st.occ)
    (hi : Sim.init (realKernel Rounding.exact) m lib.generateEventDependencies (some h) (some st) = .ok s0)
    {v : Event → Vec3 ℝ} {a : ℝ} (hub : Unbiased o mobile m g s0 v a) (hU : RandomNumbers μ U)
    {summary : Trajectory ℝ → EReal → List (String × Bool) → Row} {plan : PropertyPlan EReal V}
    {len equil prod : Nat}
    (hok : ∀ᵐ ω ∂μ, (s0.run (realKernel Rounding.exact) m g (some h) summary plan (fun k => U k ω) len equil
      prod).outcome = .ok ()) {t0 : ℝ} (ht0 : st.time = (t0 : EReal)) {r : ℝ}
    (hr : ∀ s, Reaches m s0 s → totalRate m s0.lib.events s.st = r) :
    MeanAtTheEnd μ U m g (some h) summary plan len equil prod s0 (fun _ sim => sim.st.time.toReal)
      (t0 + (prod * len : Nat) / r) := by
  have hst : s0.st = st := by
    obtain ⟨i1, -⟩ := init_ok hi
    exact (Option.some.inj i1).symm
  exact mean_clock hs ha hi hub.vector hub.alive hU hok (by rw [hst]; exact ht0) hr

/-- C98.  An ion alone in a lattice whose sites all have the same `z` ways out, of the same length and with the same
rate `ν`, is a random walk without drift, with the total rate `z ν`. -/
theorem C98_lone_ion (hs : HopSystem o mobile h Rounding.exact m g lib st)
    (ha : Answers o mobile m lib.events st.occ)
    (hi : Sim.init (realKernel Rounding.exact) m lib.generateEventDependencies (some h) (some st) = .ok s0)
    {v : Event → Vec3 ℝ} {a ν : ℝ} {z : Nat} (hl : LoneIon o mobile m g s0 v a ν z) :
    Unbiased o mobile m g s0 v a ∧ ∀ s, Reaches m s0 s → totalRate m s0.lib.events s.st = z * ν :=
  lone_unbiased hs ha hi hl

/-- C98.  The textbook diffusion coefficient of a lone ion: the mean squared displacement over twice the dimension
times the mean time is `z ν a² / (2 d)`, however many steps are made. -/
theorem C98_diffusion_coefficient (hs : HopSystem o mobile h Rounding.exact m g lib st)
    (ha : Answers o mobile m lib.events st.occ)
    (hi : Sim.init (realKernel Rounding.exact) m lib.generateEventDependencies (some h) (some st) = .ok s0)
    {v : Event → Vec3 ℝ} {a ν : ℝ} {z : Nat} (hl : LoneIon o mobile m g s0 v a ν z) (hU : RandomNumbers μ U)
    {summary : Trajectory ℝ → EReal → List (String × Bool) → Row} {plan : PropertyPlan EReal V}
    {len equil prod : Nat} (hlen : 0 < len) (hprod : 0 < prod)
    (hok : ∀ᵐ ω ∂μ, (s0.run (realKernel Rounding.exact) m g (some h) summary plan (fun k => U k ω) len equil
      prod).outcome = .ok ()) (ht0 : st.time = 0) (d : ℝ) (x t : ℝ)
    (hx : MeanAtTheEnd μ U m g (some h) summary plan len equil prod s0 (fun traj _ => sqLen traj.displacement.sum) x)
    (ht : MeanAtTheEnd μ U m g (some h) summary plan len equil prod s0 (fun _ sim => sim.st.time.toReal) t) :
    x / (2 * d * t) = z * ν * a ^ 2 / (2 * d) := by
  obtain ⟨hub, hr⟩ := C98_lone_ion hs ha hi hl
  rw [C98_mean_unique hx (C98_mean_square_displacement hs ha hi hub hU hok),
    C98_mean_unique ht (C98_mean_time hs ha hi hub hU hok (t0 := 0) (by rw [ht0]; rfl) hr)]
  have h1 : ((prod * len : Nat) : ℝ) ≠ 0 := by
    have : 0 < prod * len := Nat.mul_pos hprod hlen
    exact_mod_cast this.ne'
  have h2 : (z : ℝ) * ν ≠ 0 := (mul_pos (by exact_mod_cast hl.positive.2.2) hl.positive.2.1).ne'
  rw [zero_add]
  rcases eq_or_ne d 0 with rfl | hd
  · simp
  field_simp

/-- What the tracker of a run with a lone ion holds. -/
theorem lone_tracker (hs : HopSystem o mobile h Rounding.exact m g lib st)
    (ha : Answers o mobile m lib.events st.occ)
    (hi : Sim.init (realKernel Rounding.exact) m lib.generateEventDependencies (some h) (some st) = .ok s0)
    {v : Event → Vec3 ℝ} {a ν : ℝ} {z : Nat} (hl : LoneIon o mobile m g s0 v a ν z)
    {rng : Nat → ℝ × ℝ} (hr : ∀ c, 0 ≤ (rng c).1 ∧ (rng c).1 < 1)
    {summary : Trajectory ℝ → EReal → List (String × Bool) → Row} {plan : PropertyPlan EReal V}
    {len equil prod : Nat}
    (hok : (s0.run (realKernel Rounding.exact) m g (some h) summary plan rng len equil prod).outcome = .ok ())
    {rs : RunState σ φ Unit ℝ EReal ℝ V Row}
    (hrs : (s0.run (realKernel Rounding.exact) m g (some h) summary plan rng len equil prod).tracker = some rs) :
    ∃ w, rs.traj.displacement = [w] ∧ rs.traj.hopCounter = [prod * len] ∧ rs.traj.locations.length = 1 := by
  obtain ⟨rs', a1, a2, a3, a4⟩ := C15_run_tracks_ions_partial hs hi rng hr summary plan len equil prod hok
  obtain ⟨rs'', b1, b2, b3⟩ := C16_run_counts_every_step hs hi rng hr summary plan len equil prod hok
  rw [hrs] at a1 b1
  cases a1; cases b1
  obtain ⟨s1, traj, sm, rs', c1, c2, -, c4, c5⟩ := run_ok hok
  rw [c5] at hrs
  simp only [Option.some.injEq] at hrs
  subst hrs
  obtain ⟨hist, d1, d2⟩ := passes_tracked c4
  have hal := trackedSteps_aligned d2 (traj_init_aligned c2)
  obtain ⟨eq, -, heq⟩ := equilSteps_steps c1
  have inv1 := sim_inv_steps hs hi hr heq (sim_init_inv hs hi)
  obtain ⟨hist2, j1, -⟩ := tracked_walk hs hi hl.vector hr d2 inv1 (traj_init_tracks c2) (traj_init_aligned c2)
  have key : ∀ {b : Bool} {c : Nat} {s s' : Sim σ φ Unit ℝ EReal} {hist : List (Event × EReal)},
      Steps (realKernel Rounding.exact) m rng b c s hist s' → Met o mobile m st s0 s →
      Alone o mobile s.st.occ → Alone o mobile s'.st.occ := by
    intro b c s s' hist hst
    induction hst with
    | nil => exact fun _ h => h
    | @cons c s s1 s2 e dt hist hp hu _ ih =>
      intro hm hal
      have he := proposed_listed hm hp
      obtain ⟨s3, u1, m1, l1⟩ := met_update hs ha hi hm he (if b then dt else 0)
      rw [hu] at u1
      obtain ⟨-, rfl⟩ := Prod.mk.inj u1
      obtain ⟨f, t, e1, e2⟩ := l1
      obtain ⟨f', t', hf, ht, hm', hall, -⟩ := event_facts hs hi he
      rw [e1] at hm'
      simp only [List.cons.injEq, Nat.cast_inj, and_true] at hm'
      obtain ⟨rfl, rfl⟩ := hm'
      have hlen := hm.perm.length_eq
      exact ih m1 (alone_exchange (by omega) (by omega) hall e2 hal)
  have hm1 := met_steps hs ha hi heq (met_start hs hi)
  have hal2 := key j1 hm1 (key heq (met_start hs hi) hl.ion)
  have hm2 := met_steps hs ha hi j1 hm1
  obtain ⟨k, hk, hsk, hv⟩ := hal2
  have hone : ∀ i : Int, i ∈ rs'.traj.locations ↔ i = (k : Int) := by
    intro i
    rw [a4]
    constructor
    · rintro ⟨j, rfl, hj⟩
      by_contra hne
      have hjk : j ≠ k := fun h => hne (by rw [h])
      have hjl : j < rs'.sim.st.occ.length := by
        by_contra hc
        unfold speciesAt at hj
        rw [List.getElem?_eq_none (by omega)] at hj
        cases hj
      exact not_vacant_mobile hm2.inv.labelled (hv j hjl hjk) hj
    · rintro rfl
      exact ⟨k, rfl, hsk⟩
  have hloc : rs'.traj.locations = [(k : Int)] := by
    rcases hL : rs'.traj.locations with _ | ⟨x, l⟩
    · have := (hone k).2 rfl
      rw [hL] at this
      cases this
    · have hx : x = (k : Int) := (hone x).1 (by rw [hL]; simp)
      subst hx
      rcases l with _ | ⟨y, l⟩
      · rfl
      · have hy : y = (k : Int) := (hone y).1 (by rw [hL]; simp)
        rw [hL, hy] at a3
        simp at a3
  have hl1 : rs'.traj.locations.length = 1 := by rw [hloc]; rfl
  obtain ⟨w, hw⟩ := List.length_eq_one_iff.1 (hal.disp.trans hl1)
  obtain ⟨n, hn⟩ := List.length_eq_one_iff.1 (b2.trans hl1)
  refine ⟨w, hw, ?_, hl1⟩
  rw [hn] at b3 ⊢
  simp at b3
  rw [b3]

/-- C98.  For an ion alone the reported values are right on average: over all runs the mean of the reported
correlation factor is one and the mean of the reported mean squared displacement is the number of steps times the
squared hop length, whatever a missing value would count: none is missing. -/
theorem C98_lone_ion_report (hs : HopSystem o mobile h Rounding.exact m g lib st)
    (ha : Answers o mobile m lib.events st.occ)
    (hi : Sim.init (realKernel Rounding.exact) m lib.generateEventDependencies (some h) (some st) = .ok s0)
    {v : Event → Vec3 ℝ} {a ν : ℝ} {z : Nat} (hl : LoneIon o mobile m g s0 v a ν z) (hU : RandomNumbers μ U)
    {summary : Trajectory ℝ → EReal → List (String × Bool) → Row} {plan : PropertyPlan EReal V}
    {len equil prod : Nat} (hlen : 0 < len) (hprod : 0 < prod)
    (hok : ∀ᵐ ω ∂μ, (s0.run (realKernel Rounding.exact) m g (some h) summary plan (fun k => U k ω) len equil
      prod).outcome = .ok ()) (p : TransportParams) (hp : p.hopDistance = a) (flags : List (String × Bool))
    (hc : SwitchedOn flags "correlation_factor") (hm : SwitchedOn flags "msd") (x : ℝ) :
    MeanAtTheEnd μ U m g (some h) summary plan len equil prod s0
      (fun traj sim => (transportSummary p traj sim.st.time flags).correlationFactor.getD x) 1 ∧
    MeanAtTheEnd μ U m g (some h) summary plan len equil prod s0
      (fun traj sim => (transportSummary p traj sim.st.time flags).msd.getD x) ((prod * len : Nat) * a ^ 2) := by
  obtain ⟨hub, -⟩ := C98_lone_ion hs ha hi hl
  obtain ⟨X, hX, hend, hmean⟩ := C98_mean_square_displacement hs ha hi hub hU hok
  have h1 : ((prod * len : Nat) : ℝ) ≠ 0 := by
    have : 0 < prod * len := Nat.mul_pos hprod hlen
    exact_mod_cast this.ne'
  have hn : prod * len ≠ 0 := by exact_mod_cast h1
  have ha' : a ≠ 0 := hl.positive.1.ne'
  constructor
  · refine ⟨fun ω => X ω / ((prod * len : Nat) * a ^ 2), hX.div_const _, ?_, ?_⟩
    · filter_upwards [hend, draws_in_range hU] with ω h2 h3
      obtain ⟨rs, b1, b2, b3⟩ := h2
      refine ⟨rs, b1, b2, ?_⟩
      obtain ⟨w, c1, c2, c3⟩ := lone_tracker hs ha hi hl (fun c => (h3 c).1) b1 b2
      have key := (C26_correlation_formula (p := p) (ds := rs.traj.displacement) (hops := rs.traj.hopCounter)
        (t := rs.sim.st.time) (flags := flags) rs.traj.locations.length (by rw [c1, c2]; rfl) hc).2
        (by rw [c1]; simp)
      unfold transportSummary
      rw [key, b3, c1, c2, hp]
      simp [hn]
    · rw [integral_div, hmean]
      field_simp
  · refine ⟨X, hX, ?_, hmean⟩
    filter_upwards [hend, draws_in_range hU] with ω h2 h3
    obtain ⟨rs, b1, b2, b3⟩ := h2
    refine ⟨rs, b1, b2, ?_⟩
    obtain ⟨w, c1, c2, c3⟩ := lone_tracker hs ha hi hl (fun c => (h3 c).1) b1 b2
    have key := ((C25_msd (p := p) (ds := rs.traj.displacement) (hops := rs.traj.hopCounter)
      (t := rs.sim.st.time) (flags := flags) hm).2 (by rw [c1]; simp)).1
    unfold transportSummary
    rw [c3]
    have hone : rs.traj.displacement.length = 1 := by rw [c1]; rfl
    rw [hone] at key
    rw [key, b3, c1]
    simp [meanSquare]

end

/-! ### Ions on a ring of five sites -/

/-- The ring along the first axis of a cell of length one. -/
noncomputable def ringGeometry : Geometry ℝ :=
  { fracCoords := [![0, 0, 0], ![1 / 5, 0, 0], ![2 / 5, 0, 0], ![3 / 5, 0, 0], ![4 / 5, 0, 0]]
    lattice := 1
    nMobileSymbolSites := 5 }

/-- The hops around the ring, with their codes. -/
def ringHops : List Event :=
  [⟨[0, 1], [4, 2], some ⟨0, 1, 1, 0⟩⟩, ⟨[1, 2], [0, 3], some ⟨0, 1, 1, 0⟩⟩, ⟨[2, 3], [1, 4], some ⟨0, 1, 1, 0⟩⟩,
    ⟨[3, 4], [2, 0], some ⟨0, 1, 1, 0⟩⟩, ⟨[4, 0], [3, 1], some ⟨0, 1, 1, 0⟩⟩]

/-- Every hop leads a fifth of the ring forward. -/
noncomputable def ringVector (_ : Event) : Vec3 ℝ := ![1 / 5, 0, 0]

theorem ringHop_system {occ : List Int} (hlen : occ.length = 5) (h01 : ∀ v ∈ occ, v = 0 ∨ v = 1) :
    HopSystem exampleOrder "Na" ⟨[0, 0, 0, 0, 0], [1, 1, 1, 1, 1]⟩ Rounding.exact hopModel ringGeometry ringLib
      ⟨occ, 0, 0⟩ := by
  have h0 := hopSystem_example
  refine ⟨h0.lookup, exampleOrder_wellLabelled _ hlen h01, ?_, ring_hopSystem.endpoints, by simp [ringGeometry, hlen],
    h0.loc, h0.rates, h0.forbidden⟩
  have := ring_hopSystem.fit
  intro e he i hi
  simpa [hlen] using this e he i hi

theorem ringHop_answers {occ : List Int} (hlen : occ.length = 5) :
    Answers exampleOrder "Na" hopModel ringLib.events occ := by
  refine ⟨fun _ _ => rfl, fun _ _ => rfl, ?_⟩
  rintro e st ⟨x, hx, hm, -⟩ hc -
  have hl : st.occ.length = 5 := by rw [hc.1, hlen]
  obtain ⟨d, hd⟩ : ∃ d, eventDirection st.occ e = .ok d := by
    have key : ∀ f t : Nat, f < 5 → t < 5 → e.mobile = [(f : Int), (t : Int)] →
        ∃ d, eventDirection st.occ e = .ok d := fun f t hf ht he =>
      ⟨_, eventDirection_of he (pyIdx_natCast (by omega)) (pyIdx_natCast (by omega))
        (List.getElem?_eq_getElem (by omega)) (List.getElem?_eq_getElem (by omega))⟩
    rcases ring_events hx with rfl | rfl | rfl | rfl | rfl
    · exact key 0 1 (by omega) (by omega) hm
    · exact key 1 2 (by omega) (by omega) hm
    · exact key 2 3 (by omega) (by omega) hm
    · exact key 3 4 (by omega) (by omega) hm
    · exact key 4 0 (by omega) (by omega) hm
  simp only [hopModel, hd]
  exact ⟨_, rfl⟩

theorem ring_network {occ : List Int} (hlen : occ.length = 5) (h01 : ∀ v ∈ occ, v = 0 ∨ v = 1) (h0 : 0 ∈ occ)
    (h1 : 1 ∈ occ) : Network exampleOrder "Na" ringLib.events occ (fun i => i < 5) := by
  have hmem : ∀ e, (e = ⟨[0, 1], [4, 2], none⟩ ∨ e = ⟨[1, 2], [0, 3], none⟩ ∨ e = ⟨[2, 3], [1, 4], none⟩ ∨
      e = ⟨[3, 4], [2, 0], none⟩ ∨ e = ⟨[4, 0], [3, 1], none⟩) → e ∈ ringLib.events := by
    intro e he
    simpa [ringLib, EventLib.addAll_events] using he
  have hsym : ∀ i j, Linked ringLib.events i j → Linked ringLib.events j i := by
    rintro i j ⟨e, he, h1 | h1⟩
    · exact ⟨e, he, .inr h1⟩
    · exact ⟨e, he, .inl h1⟩
  have l01 : Linked ringLib.events 0 1 := ⟨⟨[0, 1], [4, 2], none⟩, hmem _ (by simp), .inl rfl⟩
  have l12 : Linked ringLib.events 1 2 := ⟨⟨[1, 2], [0, 3], none⟩, hmem _ (by simp), .inl rfl⟩
  have l23 : Linked ringLib.events 2 3 := ⟨⟨[2, 3], [1, 4], none⟩, hmem _ (by simp), .inl rfl⟩
  have l34 : Linked ringLib.events 3 4 := ⟨⟨[3, 4], [2, 0], none⟩, hmem _ (by simp), .inl rfl⟩
  have up : ∀ j, j < 5 → Relation.ReflTransGen (Linked ringLib.events) 0 j := by
    intro j hj
    have r1 := Relation.ReflTransGen.single l01
    have r2 := r1.tail l12
    have r3 := r2.tail l23
    have r4 := r3.tail l34
    interval_cases j
    · exact .refl
    · exact r1
    · exact r2
    · exact r3
    · exact r4
  have hall : ∀ i, i < 5 → allowedAt exampleOrder i = some ["Na", "X"] := by decide
  have hsp : ∀ (i : Nat) (hi : i < occ.length), (occ[i] = 0 → speciesAt exampleOrder occ i = some "Na") ∧
      (occ[i] = 1 → Vacant exampleOrder occ i) := by
    intro i hi
    constructor
    · intro h
      simp [speciesAt, speciesOf, hall i (by omega), List.getElem?_eq_getElem hi, h]
    · intro h
      refine ⟨"X", .inl rfl, ?_⟩
      simp [speciesAt, speciesOf, hall i (by omega), List.getElem?_eq_getElem hi, h]
  refine ⟨?_, ?_, ?_, ?_, ?_⟩
  · intro e he f t hm
    rcases ring_events he with rfl | rfl | rfl | rfl | rfl <;> simp at hm <;> omega
  · intro i j hi hj
    refine Relation.ReflTransGen.trans ?_ (up j hj)
    have := (up i hi)
    clear hi
    induction this with
    | refl => exact .refl
    | tail _ hl ih => exact .head (hsym _ _ hl) ih
  · intro i hi
    rcases h01 _ (List.getElem_mem (show i < occ.length by omega)) with h | h
    · exact .inl ((hsp i (by omega)).1 h)
    · exact .inr ((hsp i (by omega)).2 h)
  · obtain ⟨i, hi, h⟩ := List.getElem_of_mem h0
    exact ⟨i, by omega, (hsp i hi).1 h⟩
  · obtain ⟨i, hi, h⟩ := List.getElem_of_mem h1
    exact ⟨i, by omega, (hsp i hi).2 h⟩

theorem ring_annotated {occ : List Int} {s0 : Sim Unit Unit Unit ℝ EReal}
    (hi : Sim.init (realKernel Rounding.exact) hopModel ringLib.generateEventDependencies
      (some ⟨[0, 0, 0, 0, 0], [1, 1, 1, 1, 1]⟩) (some ⟨occ, 0, 0⟩) = .ok s0) :
    s0.lib.events = ringHops ∧ s0.st = ⟨occ, 0, 0⟩ := by
  obtain ⟨i1, -, -, -, -, h1, -⟩ := init_ok hi
  have h2 := h1 _ rfl
  have h3 : (⟨[0, 0, 0, 0, 0], [1, 1, 1, 1, 1]⟩ : HopStateLookup).annotateEvents
      ringLib.generateEventDependencies.events = .ok ringHops := by decide +kernel
  rw [h3] at h2
  exact ⟨(Except.ok.inj h2).symm, (Option.some.inj i1).symm⟩

theorem ringVector_hop {e : Event} (he : e ∈ ringHops) : IsHopVector ringGeometry e (ringVector e) := by
  have hvec : ∀ (x y : ℝ) (n : ℤ), y - x + n = 1 / 5 →
      (∀ c : Fin 3, |(![y, 0, 0] : Vec3 ℝ) c - (![x, 0, 0] : Vec3 ℝ) c + ((![n, 0, 0] : Fin 3 → ℤ) c : ℝ)| < 1 / 2) ∧
      (![1 / 5, 0, 0] : Vec3 ℝ) = Matrix.vecMul (fun c => (![y, 0, 0] : Vec3 ℝ) c - (![x, 0, 0] : Vec3 ℝ) c +
        ((![n, 0, 0] : Fin 3 → ℤ) c : ℝ)) ringGeometry.lattice := by
    intro x y n hxy
    constructor
    · intro c
      fin_cases c
      · simp only [Fin.zero_eta, Matrix.cons_val_zero]
        rw [hxy]; norm_num [abs_of_pos]
      · norm_num
      · norm_num
    · simp only [ringGeometry, Matrix.vecMul_one]
      funext c
      fin_cases c
      · simp only [Fin.zero_eta, Matrix.cons_val_zero]; rw [hxy]
      · simp
      · simp
  have mk : ∀ (f t : Nat) (x y : ℝ) (n : ℤ), e.mobile = [(f : Int), (t : Int)] →
      ringGeometry.fracCoords[f]? = some ![x, 0, 0] → ringGeometry.fracCoords[t]? = some ![y, 0, 0] →
      y - x + n = 1 / 5 → IsHopVector ringGeometry e (ringVector e) := by
    intro f t x y n h1 h2 h3 h4
    obtain ⟨h5, h6⟩ := hvec x y n h4
    exact ⟨f, t, _, _, _, h1, h2, h3, h5, h6⟩
  simp only [ringHops, List.mem_cons, List.not_mem_nil, or_false] at he
  rcases he with rfl | rfl | rfl | rfl | rfl
  · exact mk 0 1 0 (1 / 5) 0 rfl rfl rfl (by norm_num)
  · exact mk 1 2 (1 / 5) (2 / 5) 0 rfl rfl rfl (by norm_num)
  · exact mk 2 3 (2 / 5) (3 / 5) 0 rfl rfl rfl (by norm_num)
  · exact mk 3 4 (3 / 5) (4 / 5) 0 rfl rfl rfl (by norm_num)
  · exact mk 4 0 (4 / 5) 0 1 rfl rfl rfl (by norm_num)

theorem ringVector_length (e : Event) : sqLen (ringVector e) = (1 / 5) ^ 2 := by
  simp [sqLen, ringVector, Fin.sum_univ_three]

theorem ring_lone {s0 : Sim Unit Unit Unit ℝ EReal}
    (hi : Sim.init (realKernel Rounding.exact) hopModel ringLib.generateEventDependencies
      (some ⟨[0, 0, 0, 0, 0], [1, 1, 1, 1, 1]⟩) (some ⟨[1, 1, 0, 1, 1], 0, 0⟩) = .ok s0) :
    LoneIon exampleOrder "Na" hopModel ringGeometry s0 ringVector (1 / 5) 1 2 := by
  obtain ⟨hl, hst⟩ := ring_annotated hi
  have hsys := ringHop_system (occ := [1, 1, 0, 1, 1]) rfl (by decide)
  have hans := ringHop_answers (occ := [1, 1, 0, 1, 1]) rfl
  refine ⟨?_, ?_, fun e _ => ringVector_length e, ?_, ?_, ?_, by norm_num⟩
  · rw [hst]
    refine ⟨2, by decide, by decide, ?_⟩
    intro j hj hne
    have : j = 0 ∨ j = 1 ∨ j = 3 ∨ j = 4 := by simp at hj; omega
    refine ⟨"X", .inl rfl, ?_⟩
    rcases this with rfl | rfl | rfl | rfl <;> decide
  · rw [hl]; exact fun e he => ringVector_hop he
  · rw [hl, hst]
    intro k hk
    have : k = 0 ∨ k = 1 ∨ k = 2 ∨ k = 3 ∨ k = 4 := by simp at hk; omega
    rcases this with rfl | rfl | rfl | rfl | rfl <;> simp [ringHops, wayOut, ringVector]
  · rw [hl, hst]
    intro k hk
    have : k = 0 ∨ k = 1 ∨ k = 2 ∨ k = 3 ∨ k = 4 := by simp at hk; omega
    rcases this with rfl | rfl | rfl | rfl | rfl <;> decide
  · intro s hr e he f t hm hpos
    have hmet := met_reaches hsys hans hi (met_start hsys hi) hr
    have hlen : s.st.occ.length = ([1, 1, 0, 1, 1] : List Int).length := hmet.perm.length_eq
    obtain ⟨f', t', g1, -, -, -, d, g2, g3, g4, g5⟩ := direction_species hsys hi hlen hmet.inv.labelled he
    rw [hm] at g1
    simp only [List.cons.injEq, Nat.cast_inj, and_true] at g1
    obtain ⟨rfl, rfl⟩ := g1
    rw [hopModel_rate g2]
    rcases hpos with h | h
    · rw [g3.2 h]; simp
    · rw [g4.2 h]; simp

/-- Non-vacuity: one ion on a ring of five sites, every hop with rate one.  With ten passes of three steps for
equilibration, after a thousand passes of three steps the reported correlation factor is one on average, and the
mean squared displacement over two dimensions and the mean time gives the diffusion coefficient `1/25`. -/
example : ∃ s0 : Sim Unit Unit Unit ℝ EReal,
    Sim.init (realKernel Rounding.exact) hopModel ringLib.generateEventDependencies
      (some ⟨[0, 0, 0, 0, 0], [1, 1, 1, 1, 1]⟩) (some ⟨[1, 1, 0, 1, 1], 0, 0⟩) = .ok s0 ∧
    MeanAtTheEnd (Measure.infinitePi fun _ : Nat => twoUniform) (fun n ω => ω n) hopModel ringGeometry
      (some ⟨[0, 0, 0, 0, 0], [1, 1, 1, 1, 1]⟩) (fun _ _ _ => ()) (planAfter ([] : List (PlanOp EReal Unit))) 3 10 1000
      s0 (fun traj sim => (transportSummary ⟨1, 1 / 5, 1, 300, 1⟩ traj sim.st.time []).correlationFactor.getD 0) 1 ∧
    MeanAtTheEnd (Measure.infinitePi fun _ : Nat => twoUniform) (fun n ω => ω n) hopModel ringGeometry
      (some ⟨[0, 0, 0, 0, 0], [1, 1, 1, 1, 1]⟩) (fun _ _ _ => ()) (planAfter ([] : List (PlanOp EReal Unit))) 3 10 1000
      s0 (fun _ sim => sim.st.time.toReal) 1500 := by
  have hsys := ringHop_system (occ := [1, 1, 0, 1, 1]) rfl (by decide)
  have hans := ringHop_answers (occ := [1, 1, 0, 1, 1]) rfl
  obtain ⟨s0, hi⟩ := C85_can_be_constructed hsys hans
  have hok : ∀ᵐ ω ∂Measure.infinitePi fun _ : Nat => twoUniform, (s0.run (realKernel Rounding.exact) hopModel
      ringGeometry (some ⟨[0, 0, 0, 0, 0], [1, 1, 1, 1, 1]⟩) (fun _ _ _ => ())
      (planAfter ([] : List (PlanOp EReal Unit))) (fun k => ω k) 3 10 1000).outcome = .ok () := by
    filter_upwards [draws_in_range C93_random_numbers] with ω hω
    exact C85_connected_completes hsys hans hopModel_willing (ring_network rfl (by decide) (by decide) (by decide)) hi
      _ [] (by intro n spec hn; cases hn) _ (fun c => (hω c).1) 3 10 1000
  have hl := ring_lone hi
  obtain ⟨hub, hr⟩ := C98_lone_ion hsys hans hi hl
  refine ⟨s0, hi, (C98_lone_ion_report hsys hans hi hl C93_random_numbers (by norm_num) (by norm_num) hok _ rfl _
    (by simp [SwitchedOn, dictGet]) (by simp [SwitchedOn, dictGet]) 0).1, ?_⟩
  have := C98_mean_time hsys hans hi hub C93_random_numbers hok (t0 := 0) rfl hr
  norm_num at this
  exact this

/-- Any number of ions on the ring: together they have no drift, because as many pairs of neighbours hold an ion
and then a vacancy as hold a vacancy and then an ion. -/
theorem ring_unbiased {occ : List Int} (hlen : occ.length = 5) (h01 : ∀ v ∈ occ, v = 0 ∨ v = 1) (h0 : 0 ∈ occ)
    (h1 : 1 ∈ occ) {s0 : Sim Unit Unit Unit ℝ EReal}
    (hi : Sim.init (realKernel Rounding.exact) hopModel ringLib.generateEventDependencies
      (some ⟨[0, 0, 0, 0, 0], [1, 1, 1, 1, 1]⟩) (some ⟨occ, 0, 0⟩) = .ok s0) :
    Unbiased exampleOrder "Na" hopModel ringGeometry s0 ringVector (1 / 5) := by
  obtain ⟨hl, hst⟩ := ring_annotated hi
  have hsys := ringHop_system hlen h01
  have hans := ringHop_answers hlen
  have hocc : ∀ s, Reaches hopModel s0 s → s.st.occ.Perm occ := fun s hr =>
    (met_reaches hsys hans hi (met_start hsys hi) hr).perm
  refine ⟨by rw [hl]; exact fun e he => ringVector_hop he, fun e _ => ringVector_length e, ?_, ?_⟩
  · intro s hr
    have hp := hocc s hr
    exact network_not_stuck hsys hans hi hopModel_willing (met_reaches hsys hans hi (met_start hsys hi) hr).inv hp
      (ring_network (hp.length_eq.trans hlen) (fun v hv => h01 v (hp.mem_iff.1 hv)) (hp.mem_iff.2 h0)
        (hp.mem_iff.2 h1))
  · intro s hr
    have hp := hocc s hr
    have hlen' := hp.length_eq.trans hlen
    have h01' : ∀ v ∈ s.st.occ, v = 0 ∨ v = 1 := fun v hv => h01 v (hp.mem_iff.1 hv)
    have hmet := met_reaches hsys hans hi (met_start hsys hi) hr
    have key : ∀ e ∈ s0.lib.events, ∀ d, eventDirection s.st.occ e = .ok d →
        rateIn hopModel s.st e • wayOf exampleOrder "Na" ringVector s.st.occ e = (d : ℝ) • ringVector e := by
      intro e he d hd
      rw [hopModel_rate hd]
      by_cases hd0 : d = 0
      · subst hd0; simp
      · rw [if_neg hd0, wayOf_direction hsys hi (hp.length_eq) hmet.inv.labelled he ringVector hd hd0, one_smul]
        rcases eventDirection_values hd with rfl | rfl | rfl
        · simp
        · simp
        · exact absurd rfl hd0
    obtain ⟨a, b, c, d, e, habc⟩ : ∃ a b c d e, s.st.occ = [a, b, c, d, e] := by
      rcases hL : s.st.occ with _ | ⟨a, _ | ⟨b, _ | ⟨c, _ | ⟨d, _ | ⟨e, _ | ⟨f, l⟩⟩⟩⟩⟩⟩ <;> rw [hL] at hlen' <;>
        simp at hlen'
      exact ⟨a, b, c, d, e, rfl⟩
    have pairs : ∀ x y : Int, (x = 0 ∨ x = 1) → (y = 0 ∨ y = 1) →
        endpointDirectionFromCodes x y ⟨0, 1, 1, 0⟩ = y - x := by
      rintro x y (rfl | rfl) (rfl | rfl) <;> rfl
    rw [habc] at h01'
    have ha := h01' a (by simp)
    have hb := h01' b (by simp)
    have hc := h01' c (by simp)
    have hd := h01' d (by simp)
    have he := h01' e (by simp)
    rw [hl] at key ⊢
    have k1 := key ⟨[0, 1], [4, 2], some ⟨0, 1, 1, 0⟩⟩ (by simp [ringHops]) (b - a)
      (by rw [habc, ← pairs a b ha hb]; rfl)
    have k2 := key ⟨[1, 2], [0, 3], some ⟨0, 1, 1, 0⟩⟩ (by simp [ringHops]) (c - b)
      (by rw [habc, ← pairs b c hb hc]; rfl)
    have k3 := key ⟨[2, 3], [1, 4], some ⟨0, 1, 1, 0⟩⟩ (by simp [ringHops]) (d - c)
      (by rw [habc, ← pairs c d hc hd]; rfl)
    have k4 := key ⟨[3, 4], [2, 0], some ⟨0, 1, 1, 0⟩⟩ (by simp [ringHops]) (e - d)
      (by rw [habc, ← pairs d e hd he]; rfl)
    have k5 := key ⟨[4, 0], [3, 1], some ⟨0, 1, 1, 0⟩⟩ (by simp [ringHops]) (a - e)
      (by rw [habc, ← pairs e a he ha]; rfl)
    simp only [ringHops, List.map_cons, List.map_nil, List.sum_cons, List.sum_nil]
    rw [k1, k2, k3, k4, k5]
    funext x
    simp only [ringVector, Pi.add_apply, Pi.smul_apply, smul_eq_mul, Pi.zero_apply]
    push_cast
    ring

/-- Non-vacuity with several ions: two ions that block each other on the ring of five sites.  After `n` production
steps the squared length of the sum of their displacements is `n/25` on average. -/
example : ∃ s0 : Sim Unit Unit Unit ℝ EReal,
    Sim.init (realKernel Rounding.exact) hopModel ringLib.generateEventDependencies
      (some ⟨[0, 0, 0, 0, 0], [1, 1, 1, 1, 1]⟩) (some ⟨[0, 1, 0, 1, 1], 0, 0⟩) = .ok s0 ∧
    ∀ len equil prod, MeanAtTheEnd (Measure.infinitePi fun _ : Nat => twoUniform) (fun n ω => ω n) hopModel
      ringGeometry (some ⟨[0, 0, 0, 0, 0], [1, 1, 1, 1, 1]⟩) (fun _ _ _ => ())
      (planAfter ([] : List (PlanOp EReal Unit))) len equil prod s0
      (fun traj _ => sqLen traj.displacement.sum) ((prod * len : Nat) * (1 / 5) ^ 2) := by
  have hsys := ringHop_system (occ := [0, 1, 0, 1, 1]) rfl (by decide)
  have hans := ringHop_answers (occ := [0, 1, 0, 1, 1]) rfl
  obtain ⟨s0, hi⟩ := C85_can_be_constructed hsys hans
  refine ⟨s0, hi, fun len equil prod => ?_⟩
  refine C98_mean_square_displacement hsys hans hi (ring_unbiased rfl (by decide) (by decide) (by decide) hi)
    C93_random_numbers ?_
  filter_upwards [draws_in_range C93_random_numbers] with ω hω
  exact C85_connected_completes hsys hans hopModel_willing (ring_network rfl (by decide) (by decide) (by decide)) hi
    _ [] (by intro n spec hn; cases hn) _ (fun c => (hω c).1) len equil prod

end KMC
