import Verif.Lemmas.Path
import Verif.Props.OneSimulationProps
/-
C94: a simulation is exactly the continuous-time Markov chain with the model's rates.
-/
set_option linter.unusedSectionVars false

namespace KMC
open Spec MeasureTheory Filter Topology ProbabilityTheory

section
variable {σ φ ψ K : Type} [Field K] [LinearOrder K] [FloorRing K]
variable {o : ActiveSiteOrder String ψ} {mobile : String} {h : HopStateLookup}
  {m : RateModel Unit ℝ EReal} {g : Geometry K} {lib : EventLib σ φ} {st : State EReal}
  {s0 : Sim σ φ Unit ℝ EReal}

theorem path_law_from (hs : HopSystem o mobile h Rounding.exact m g lib st)
    (ha : Answers o mobile m lib.events st.occ)
    (hi : Sim.init (realKernel Rounding.exact) m lib.generateEventDependencies (some h) (some st) = .ok s0)
    {Θ : Type} [MeasurableSpace Θ] {μ : Measure Θ} [IsProbabilityMeasure μ] {U : Nat → Θ → ℝ × ℝ}
    (hU : RandomNumbers μ U) (path : List (Event × ℝ)) : ∀ (c : Nat) (s : Sim σ φ Unit ℝ EReal),
    (∀ x ∈ path, 0 ≤ x.2) → Met o mobile m st s0 s →
    ∃ B, MeasurableSet[future U c] B ∧ {ω | FollowsFrom m (fun k => U k ω) c s path} =ᵐ[μ] B ∧
      μ B = ENNReal.ofReal (pathChance m s0.lib.events s.st path) := by
  induction path with
  | nil =>
    intro c s _ _
    refine ⟨Set.univ, @MeasurableSet.univ _ (future U c), ?_, by simp [pathChance]⟩
    refine Eventually.of_forall fun ω => ?_
    exact eq_true (followsFrom_nil _ _ _) |>.trans (eq_true trivial).symm
  | cons a path ih =>
    obtain ⟨e, t⟩ := a
    intro c s hpos hm
    have ht : 0 ≤ t := hpos (e, t) (by simp)
    by_cases he : e ∈ s0.lib.events
    · obtain ⟨D, hD, hDiff, hDm⟩ := step_region hs hm e ht
      obtain ⟨s1, u1, m1, l1⟩ := met_update hs ha hi hm he 0
      obtain ⟨B, hB, hBae, hBm⟩ := ih (c + 1) s1 (fun x hx => hpos x (List.mem_cons_of_mem _ hx)) m1
      refine ⟨U c ⁻¹' D ∩ B, ?_, ?_, ?_⟩
      · exact @MeasurableSet.inter _ (future U c) _ _ (future_input U c hD)
          (future_mono U (Nat.le_succ c) _ hB)
      · filter_upwards [hBae, draws_in_range hU] with ω hω hr
        have hω' : (FollowsFrom m (fun k => U k ω) (c + 1) s1 path) = (ω ∈ B) := hω
        refine propext ?_
        show FollowsFrom m (fun k => U k ω) c s ((e, t) :: path) ↔ (U c ω ∈ D ∧ ω ∈ B)
        rw [← hω', hDiff _ (hr c).1.1 (hr c).1.2 (hr c).2.1 (hr c).2.2, followsFrom_cons]
        constructor
        · rintro ⟨dt, s2, hp, hlt, hu, hf⟩
          refine ⟨⟨dt, hp, hlt⟩, ?_⟩
          obtain ⟨s3, u3, m3, l3⟩ := met_update hs ha hi hm he dt
          rw [hu] at u3
          obtain ⟨-, rfl⟩ := Prod.mk.inj u3
          exact followsFrom_congr hs ha hi _ path (c + 1) s2 s1 m3 m1 (leads_unique l1 l3) hf
        · rintro ⟨⟨dt, hp, hlt⟩, hf⟩
          obtain ⟨s3, u3, m3, l3⟩ := met_update hs ha hi hm he dt
          exact ⟨dt, s3, hp, hlt, u3,
            followsFrom_congr hs ha hi _ path (c + 1) s1 s3 m1 m3 (leads_unique l3 l1) hf⟩
      · have hind := (Indep_iff _ _ _).1 (future_indep hU.measurable hU.independent c) (U c ⁻¹' D) B
          ⟨D, hD, rfl⟩ hB
        rw [hind, hBm, ← Measure.map_apply (hU.measurable c) hD, hU.uniform c, hDm]
        have hst1 : s1.st = (s.st.applyEvent e 0).2 := by
          obtain ⟨st1, ms, i1, prob, b1, -, -, -, rfl⟩ := update_ok u1
          rw [b1]
        have hnn := rates_nonneg hs hm.inv
        have hr0 : 0 ≤ rateIn m s.st e := by
          rw [prob_eq_rates hm] at hnn
          exact hnn _ (List.mem_map.2 ⟨e, he, rfl⟩)
        have hΓ : 0 ≤ totalRate m s0.lib.events s.st := by
          rw [← prob_sum hm]; exact List.sum_nonneg hnn
        rw [pathChance, ← hst1, ← ENNReal.ofReal_mul (by positivity)]
    · refine ⟨∅, @MeasurableSet.empty _ (future U c), ?_, ?_⟩
      · refine Eventually.of_forall fun ω => ?_
        refine eq_false ?_ |>.trans (eq_false (Set.notMem_empty ω)).symm
        show ¬ FollowsFrom m (fun k => U k ω) c s ((e, t) :: path)
        rw [followsFrom_cons]
        rintro ⟨dt, s2, hp, -⟩
        exact he (proposed_listed hm hp)
      · rw [pathChance, List.count_eq_zero_of_not_mem he]
        simp

/-- C94.  The law of a simulation.  The random numbers are independent and uniform.  Then for every list of events
with times, the probability that the first events the simulation executes are these, each after waiting longer
than its time, is the one in the continuous-time Markov chain with the model's rates: the product, over the
events, of the rate of the event over the total rate and of the exponential of minus the total rate times the
time, all rates taken in the configuration that the events before have produced.  No balance is asked of the
model, and the simulation may run into a dead end. -/
theorem C94_path_law (hs : HopSystem o mobile h Rounding.exact m g lib st)
    (ha : Answers o mobile m lib.events st.occ)
    (hi : Sim.init (realKernel Rounding.exact) m lib.generateEventDependencies (some h) (some st) = .ok s0)
    {Θ : Type} [MeasurableSpace Θ] {μ : Measure Θ} [IsProbabilityMeasure μ] {U : Nat → Θ → ℝ × ℝ}
    (hU : RandomNumbers μ U) (path : List (Event × ℝ)) (hpath : ∀ x ∈ path, 0 ≤ x.2) :
    μ {ω | Follows m (fun k => U k ω) s0 path} = ENNReal.ofReal (pathChance m s0.lib.events st path) := by
  have hst : s0.st = st := by
    obtain ⟨i1, -⟩ := init_ok hi
    exact (Option.some.inj i1).symm
  obtain ⟨B, -, h1, h2⟩ := path_law_from hs ha hi hU path 0 s0 hpath (met_start hs hi)
  rw [hst] at h2
  rw [← h2]
  exact measure_congr h1

/-- C94.  What one step does next does not depend on how long it waited: the probability that the first event is
`e` and comes after more than `t` is the probability of `e` times the probability to wait longer than `t`. -/
theorem C94_first_step (hs : HopSystem o mobile h Rounding.exact m g lib st)
    (ha : Answers o mobile m lib.events st.occ)
    (hi : Sim.init (realKernel Rounding.exact) m lib.generateEventDependencies (some h) (some st) = .ok s0)
    {Θ : Type} [MeasurableSpace Θ] {μ : Measure Θ} [IsProbabilityMeasure μ] {U : Nat → Θ → ℝ × ℝ}
    (hU : RandomNumbers μ U) (e : Event) (t : ℝ) (ht : 0 ≤ t) :
    μ {ω | Follows m (fun k => U k ω) s0 [(e, t)]} =
      μ {ω | Follows m (fun k => U k ω) s0 [(e, 0)]} *
        ENNReal.ofReal (Real.exp (-totalRate m s0.lib.events st * t)) := by
  rw [C94_path_law hs ha hi hU [(e, t)] (by simpa using ht), C94_path_law hs ha hi hU [(e, 0)] (by simp),
    ← ENNReal.ofReal_mul' (Real.exp_pos _).le]
  simp [pathChance]

/-- C94.  The Markov property: given the first events, the simulation goes on like one that is constructed in the
configuration they lead to.  The probability of two lists of events one after the other is the probability of
the first times the probability of the second for the simulation that starts where the first leads. -/
theorem C94_markov (hs : HopSystem o mobile h Rounding.exact m g lib st)
    (ha : Answers o mobile m lib.events st.occ)
    (hi : Sim.init (realKernel Rounding.exact) m lib.generateEventDependencies (some h) (some st) = .ok s0)
    {Θ : Type} [MeasurableSpace Θ] {μ : Measure Θ} [IsProbabilityMeasure μ] {U : Nat → Θ → ℝ × ℝ}
    (hU : RandomNumbers μ U) (first second : List (Event × ℝ)) (hpos : ∀ x ∈ first ++ second, 0 ≤ x.2)
    (history : List (Event × EReal)) (hev : history.map (·.1) = first.map (·.1)) (s1 : Sim σ φ Unit ℝ EReal)
    (hrun : Executed (realKernel Rounding.exact) m s0 history s1) :
    μ {ω | Follows m (fun k => U k ω) s0 (first ++ second)} =
      μ {ω | Follows m (fun k => U k ω) s0 first} * μ {ω | Follows m (fun k => U k ω) s1 second} := by
  have hst : s0.st = st := by
    obtain ⟨i1, -⟩ := init_ok hi
    exact (Option.some.inj i1).symm
  have hm0 := met_start hs hi
  have hlisted : (∀ x ∈ history, x.1 ∈ s0.lib.events) → Met o mobile m st s0 s1 := by
    intro hl
    have key : ∀ (history : List (Event × EReal)) (s : Sim σ φ Unit ℝ EReal), Met o mobile m st s0 s →
        (∀ x ∈ history, x.1 ∈ s0.lib.events) →
        Executed (realKernel Rounding.exact) m s history s1 → Met o mobile m st s0 s1 := by
      intro history
      induction history with
      | nil => intro s hm _ hr; cases hr; exact hm
      | cons b history ih =>
        obtain ⟨e, dt⟩ := b
        intro s hm hl hr
        cases hr with
        | @cons _ s2 _ _ _ _ hu hr =>
          obtain ⟨s3, u3, m3, -⟩ := met_update hs ha hi hm (hl (e, dt) (by simp)) dt
          rw [hu] at u3
          obtain ⟨-, rfl⟩ := Prod.mk.inj u3
          exact ih s2 m3 (fun x hx => hl x (List.mem_cons_of_mem _ hx)) hr
    exact key history s0 hm0 hl hrun
  by_cases hall : ∀ x ∈ history, x.1 ∈ s0.lib.events
  · obtain ⟨B, -, h1, h2⟩ := path_law_from hs ha hi hU second 0 s1
      (fun x hx => hpos x (List.mem_append_right _ hx)) (hlisted hall)
    have h3 : μ {ω | Follows m (fun k => U k ω) s1 second} = μ B := measure_congr h1
    rw [C94_path_law hs ha hi hU _ hpos, C94_path_law hs ha hi hU first
      (fun x hx => hpos x (List.mem_append_left _ hx)), h3, h2, ← ENNReal.ofReal_mul, ← hst,
      pathChance_append hs.loc s0.lib.events second _ first history s0 s1 hev hrun]
    rw [← hst]
    exact pathChance_nonneg hs ha hi hm0 first
  · -- an event that is not listed
    have hno : ∀ path : List (Event × ℝ), (∃ x ∈ path, x.1 ∉ s0.lib.events) → ∀ (draws : Nat → ℝ × ℝ) (c : Nat)
        (s : Sim σ φ Unit ℝ EReal), Met o mobile m st s0 s → ¬ FollowsFrom m draws c s path := by
      intro path
      induction path with
      | nil => rintro ⟨x, hx, -⟩; cases hx
      | cons a path ih =>
        obtain ⟨e, t⟩ := a
        rintro ⟨x, hx, hxn⟩ draws c s hm
        rw [followsFrom_cons]
        rintro ⟨dt, s2, hp, -, hu, hf⟩
        have hmem := proposed_listed hm hp
        obtain ⟨s3, u3, m3, -⟩ := met_update hs ha hi hm hmem dt
        rw [hu] at u3
        obtain ⟨-, rfl⟩ := Prod.mk.inj u3
        rcases List.mem_cons.1 hx with rfl | hx
        · exact hxn hmem
        · exact ih ⟨x, hx, hxn⟩ draws (c + 1) s2 m3 hf
    push Not at hall
    obtain ⟨x, hx, hxn⟩ := hall
    have hx' : x.1 ∈ first.map (·.1) := by rw [← hev]; exact List.mem_map_of_mem hx
    obtain ⟨y, hy, hyx⟩ := List.mem_map.1 hx'
    have e1 : {ω | Follows m (fun k => U k ω) s0 (first ++ second)} = ∅ :=
      Set.eq_empty_of_forall_notMem fun ω =>
        hno _ ⟨y, List.mem_append_left _ hy, by rw [hyx]; exact hxn⟩ _ 0 s0 hm0
    have e2 : {ω | Follows m (fun k => U k ω) s0 first} = ∅ :=
      Set.eq_empty_of_forall_notMem fun ω => hno _ ⟨y, hy, by rw [hyx]; exact hxn⟩ _ 0 s0 hm0
    rw [e1, e2]
    simp

end

/-! ### A concrete simulation -/

/-- The four hops of the chain, with their codes. -/
def chainHops : List Event :=
  [⟨[0, 1], [4, 3], some ⟨0, 1, 1, 0⟩⟩, ⟨[2, 1], [4, 3], some ⟨0, 1, 1, 0⟩⟩, ⟨[2, 3], [0, 1], some ⟨0, 1, 1, 0⟩⟩,
    ⟨[3, 4], [0, 1], some ⟨0, 1, 1, 0⟩⟩]

theorem hopModel_rate {st : State EReal} {e : Event} {d : Int} (h : eventDirection st.occ e = .ok d) :
    rateIn hopModel st e = if d = 0 then 0 else 1 := by
  simp only [rateIn, hopModel, h]

/-- Non-vacuity: two ions on a chain of five sites, every possible hop with rate one.  Three hops are possible at
first, and two after the ion on the first site has hopped.  So the probability that the first ion hops first, after
more than `t`, and then the second, after more than `u`, is `1/3 exp(-3t) 1/2 exp(-2u)`; and nothing starts with
the fourth hop, whose sites are both empty. -/
example : ∃ s0 : Sim Unit Unit Unit ℝ EReal,
    Sim.init (realKernel Rounding.exact) hopModel chainLib.generateEventDependencies
      (some ⟨[0, 0, 0, 0, 0], [1, 1, 1, 1, 1]⟩) (some ⟨[0, 1, 0, 1, 1], 0, 0⟩) = .ok s0 ∧
    (∀ t u : ℝ, 0 ≤ t → 0 ≤ u →
      Measure.infinitePi (fun _ : Nat => twoUniform) {ω | Follows hopModel ω s0
        [(⟨[0, 1], [4, 3], some ⟨0, 1, 1, 0⟩⟩, t), (⟨[2, 3], [0, 1], some ⟨0, 1, 1, 0⟩⟩, u)]} =
      ENNReal.ofReal (1 / 3 * Real.exp (-3 * t) * (1 / 2 * Real.exp (-2 * u)))) ∧
    Measure.infinitePi (fun _ : Nat => twoUniform) {ω | Follows hopModel ω s0
      [(⟨[3, 4], [0, 1], some ⟨0, 1, 1, 0⟩⟩, 0)]} = 0 := by
  obtain ⟨s0, hi⟩ := C85_can_be_constructed chain_hopSystem chain_answers
  have hl : s0.lib.events = chainHops := by
    obtain ⟨-, -, -, -, -, h1, -⟩ := init_ok hi
    have h2 := h1 _ rfl
    have h3 : (⟨[0, 0, 0, 0, 0], [1, 1, 1, 1, 1]⟩ : HopStateLookup).annotateEvents
        chainLib.generateEventDependencies.events = .ok chainHops := by decide +kernel
    rw [h3] at h2
    exact (Except.ok.inj h2).symm
  refine ⟨s0, hi, ?_, ?_⟩
  · intro t u ht hu
    have key := C94_path_law chain_hopSystem chain_answers hi C93_random_numbers
      [(⟨[0, 1], [4, 3], some ⟨0, 1, 1, 0⟩⟩, t), (⟨[2, 3], [0, 1], some ⟨0, 1, 1, 0⟩⟩, u)] (by simp [ht, hu])
    rw [hl] at key
    refine key.trans ?_
    have c1 : chainHops.count ⟨[0, 1], [4, 3], some ⟨0, 1, 1, 0⟩⟩ = 1 := by decide
    have c2 : chainHops.count ⟨[2, 3], [0, 1], some ⟨0, 1, 1, 0⟩⟩ = 1 := by decide
    have h1 : totalRate hopModel chainHops ⟨[0, 1, 0, 1, 1], 0, 0⟩ = 3 := by
      simp only [totalRate, chainHops, List.map_cons, List.map_nil, List.sum_cons, List.sum_nil]
      rw [hopModel_rate (d := 1) rfl, hopModel_rate (d := 1) rfl, hopModel_rate (d := 1) rfl,
        hopModel_rate (d := 0) rfl]
      norm_num
    have h2 : totalRate hopModel chainHops ⟨[1, 0, 0, 1, 1], 0, 0⟩ = 2 := by
      simp only [totalRate, chainHops, List.map_cons, List.map_nil, List.sum_cons, List.sum_nil]
      rw [hopModel_rate (d := -1) rfl, hopModel_rate (d := 0) rfl, hopModel_rate (d := 1) rfl,
        hopModel_rate (d := 0) rfl]
      norm_num
    rw [pathChance, pathChance_congr hopModel_local chainHops _
      (show (State.applyEvent (⟨[0, 1, 0, 1, 1], 0, 0⟩ : State EReal)
        ⟨[0, 1], [4, 3], some ⟨0, 1, 1, 0⟩⟩ 0).2.occ = (⟨[1, 0, 0, 1, 1], 0, 0⟩ : State EReal).occ from rfl),
      pathChance, pathChance, h1, h2, c1, c2, hopModel_rate (d := 1) rfl, hopModel_rate (d := 1) rfl]
    norm_num
  · have key := C94_path_law chain_hopSystem chain_answers hi C93_random_numbers
      [(⟨[3, 4], [0, 1], some ⟨0, 1, 1, 0⟩⟩, 0)] (by simp)
    rw [hl] at key
    refine key.trans ?_
    rw [pathChance, hopModel_rate (d := 0) rfl]
    simp

end KMC
