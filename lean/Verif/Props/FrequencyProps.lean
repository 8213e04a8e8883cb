import Verif.Spec.Frequency
import Verif.Lemmas.Drift
import Verif.Props.OneSimulationProps
import Verif.Props.ReversalProps
/-
C105: how often things happen in a long simulation.
-/
set_option linter.unusedSectionVars false

namespace KMC
open Spec MeasureTheory Filter Topology ProbabilityTheory

section
variable {σ φ ψ K : Type} [Field K] [LinearOrder K] [FloorRing K]
variable {o : ActiveSiteOrder String ψ} {mobile : String} {h : HopStateLookup}
  {m : RateModel Unit ℝ EReal} {g : Geometry K} {lib : EventLib σ φ} {st : State EReal}
  {s0 : Sim σ φ Unit ℝ EReal}

/-- The selection numbers that choose the `i`-th of the rates. -/
def chooses (rates : List ℝ) (i : Nat) : Set ℝ :=
  Set.Ico ((rates.take i).sum / rates.sum) ((rates.take (i + 1)).sum / rates.sum)

theorem chooses_sub {rates : List ℝ} (h0 : ∀ p ∈ rates, 0 ≤ p) (hpos : 0 < rates.sum) (i : Nat) :
    chooses rates i ⊆ Set.Ico 0 1 := by
  intro r hr
  refine ⟨le_trans (div_nonneg (List.sum_nonneg fun a ha => h0 a (List.mem_of_mem_take ha)) hpos.le) hr.1,
    lt_of_lt_of_le hr.2 ?_⟩
  rw [div_le_one hpos]
  exact List.Sublist.sum_le_sum (List.take_sublist _ _) h0

theorem chooses_length {rates : List ℝ} (h0 : ∀ p ∈ rates, 0 ≤ p) (hpos : 0 < rates.sum) {i : Nat}
    (hi : i < rates.length) : (volume (chooses rates i)).toReal = rates[i] / rates.sum := by
  unfold chooses
  rw [Real.volume_Ico, List.take_succ_eq_append_getElem hi, List.sum_append, List.sum_singleton, ← sub_div,
    add_sub_cancel_left, ENNReal.toReal_ofReal (div_nonneg (h0 _ (List.getElem_mem hi)) hpos.le)]

/-- What a step adds to the count, as a sum over the configurations and the events. -/
theorem tally_eq (hs : HopSystem o mobile h Rounding.exact m g lib st)
    {s : Sim σ φ Unit ℝ EReal} (hm : Met o mobile m st s0 s) (hpos : 0 < s.prob.sum)
    {Ω : Finset (List Int)} (hx : s.st.occ ∈ Ω) (rates : List Int → List ℝ)
    (hr : rates s.st.occ = s.prob) {r : ℝ × ℝ} (h0 : 0 ≤ r.1) (h1 : r.1 < 1) (v : List Int → Event → ℝ) :
    tally v s r = ∑ x ∈ Ω, ∑ i : Fin s0.lib.events.length, v x s0.lib.events[i] *
      ((if s.st.occ = x then (1 : ℝ) else 0) * (chooses (rates x) i).indicator (1 : ℝ → ℝ) r.1) := by
  classical
  have hlen : s.prob.length = s0.lib.events.length := by rw [hm.inv.table.length, hm.inv.lib]
  obtain ⟨i, e, hil, he, hI, hprop⟩ := proposes hs hm hpos h0 h1
  have hp := hprop s hm rfl r.2
  have hie : i < s0.lib.events.length := hlen ▸ hil
  rw [List.getElem?_eq_getElem hie, Option.some.injEq] at he
  have hnn := rates_nonneg hs hm.inv
  rw [Finset.sum_eq_single s.st.occ]
  · rw [Finset.sum_eq_single ⟨i, hie⟩]
    · rw [if_pos rfl, one_mul, hr, Set.indicator_of_mem (show r.1 ∈ chooses s.prob i from hI)]
      unfold tally
      rw [hp]
      simp [he]
    · intro j _ hj
      rw [hr, Set.indicator_of_notMem, mul_zero, mul_zero]
      intro hJ
      have a1 := (C02_selection_interval s.prob hnn hpos i hil r.1 0 h0).2 hI
      have a2 := (C02_selection_interval s.prob hnn hpos j (by rw [hlen]; exact j.2) r.1 0 h0).2 hJ
      obtain ⟨d1, b1⟩ := a1
      obtain ⟨d2, b2⟩ := a2
      rw [b1] at b2
      cases b2
      exact hj (Fin.ext rfl)
    · intro hno
      exact absurd (Finset.mem_univ _) hno
  · intro y _ hy
    refine Finset.sum_eq_zero fun j _ => ?_
    rw [if_neg (Ne.symm hy), zero_mul, mul_zero]
  · exact fun hno => absurd hx hno

/-- C105.  How often things happen.  Let the model be balanced with positive weights `W`, and let `Ω` be the
configurations the simulation can get into.  The random numbers are independent and uniform.  Then with probability
one, for every way `v` to count events - the value may depend on the event and on the configuration in which it
happens - the count of the first `n` steps after equilibration over the simulated time they take tends, as `n`
grows, to the mean of the rates, counted in the same way, over `Ω` with the weights `W`. -/
theorem C105_count_per_time (hs : HopSystem o mobile h Rounding.exact m g lib st)
    (ha : Answers o mobile m lib.events st.occ)
    (hi : Sim.init (realKernel Rounding.exact) m lib.generateEventDependencies (some h) (some st) = .ok s0)
    (hns : ¬ Stuck m s0) (W : List Int → ℝ) (hW : ∀ x, 0 < W x)
    (hb : Balanced o mobile m s0.lib.events W)
    (Ω : Finset (List Int)) (hΩ : ∀ x, x ∈ Ω ↔ ∃ s, Reaches m s0 s ∧ s.st.occ = x)
    (t0 : ℝ) (ht : st.time = (t0 : EReal)) (equil : Nat)
    {Θ : Type} [MeasurableSpace Θ] {μ : Measure Θ} [IsProbabilityMeasure μ] {U : Nat → Θ → ℝ × ℝ}
    (hU : RandomNumbers μ U) :
    ∀ᵐ ω ∂μ, ∀ v : List Int → Event → ℝ,
      Tendsto (perTime m s0 equil (fun k => U k ω) v) atTop (𝓝 (meanRate m s0.lib.events Ω W v)) := by
  classical
  obtain ⟨w, π, Z, hZ, -, hπ, hmet, hfol, hsum, hsel⟩ := simulated_chain hs ha hi hns W hW hb Ω hΩ t0 ht equil hU
  have hx0 : s0.st.occ ∈ Ω := (hΩ _).2 ⟨s0, .refl, rfl⟩
  have hWs : 0 < ∑ x ∈ Ω, W x := Finset.sum_pos (fun x _ => hW x) ⟨_, hx0⟩
  let rates : List Int → List ℝ := fun x => s0.lib.events.map (rateIn m ⟨x, 0, 0⟩)
  have hprob : ∀ {s : Sim σ φ Unit ℝ EReal}, Met o mobile m st s0 s → s.prob = rates s.st.occ := by
    intro s hm
    rw [prob_eq_rates hm]
    simp only [rates]
    congr 1
    funext e
    exact rateIn_congr (st := ⟨s.st.occ, 0, 0⟩) (st' := s.st) hs.loc rfl e
  have hnn : ∀ x ∈ Ω, ∀ p ∈ rates x, 0 ≤ p := by
    intro x hx
    obtain ⟨s, hr, rfl⟩ := (hΩ x).1 hx
    have hm := met_reaches hs ha hi (met_start hs hi) hr
    rw [← hprob hm]
    exact rates_nonneg hs hm.inv
  have hpos : ∀ x ∈ Ω, 0 < (rates x).sum := by
    intro x hx
    obtain ⟨s, hr, rfl⟩ := (hΩ x).1 hx
    rw [← hprob (met_reaches hs ha hi (met_start hs hi) hr)]
    exact reaches_sum_pos hs ha hi hb hW hns hr
  have hone : ∀ᵐ ω ∂μ, ∀ x ∈ Ω, ∀ i : Fin s0.lib.events.length,
      Tendsto (fun n : Nat => (∑ k ∈ Finset.range n,
          (if (simulated m s0 equil (fun k => U k ω) k).st.occ = x then (1 : ℝ) else 0) *
            (chooses (rates x) i).indicator (1 : ℝ → ℝ) (U k ω).1) / n)
        atTop (𝓝 (W x * rateIn m ⟨x, 0, 0⟩ s0.lib.events[i] / Z)) := by
    rw [Filter.eventually_all_finset]
    intro x hx
    rw [ae_all_iff]
    intro i
    have hil : (i : Nat) < (rates x).length := by simp only [rates, List.length_map]; exact i.2
    have h1 := hsel x hx (chooses (rates x) i) measurableSet_Ico (chooses_sub (hnn x hx) (hpos x hx) i)
    rw [chooses_length (hnn x hx) (hpos x hx) hil, hπ x hx] at h1
    have e1 : W x * totalRate m s0.lib.events ⟨x, 0, 0⟩ / Z * ((rates x)[(i : Nat)] / (rates x).sum) =
        W x * rateIn m ⟨x, 0, 0⟩ s0.lib.events[i] / Z := by
      have h2 : totalRate m s0.lib.events ⟨x, 0, 0⟩ = (rates x).sum := rfl
      have h3 := (hpos x hx).ne'
      have h4 : (rates x)[(i : Nat)] = rateIn m ⟨x, 0, 0⟩ s0.lib.events[i] := by simp [rates]
      rw [h2, h4]
      field_simp
    rw [e1] at h1
    exact h1
  filter_upwards [hmet, hfol, hone, hsum fun _ => 1, draws_in_range hU] with ω h1 h2 h3 h4 h5 v
  have hw := h4.2
  simp only [one_mul] at hw
  -- the counts
  have hcount : ∀ n, tally v (simulated m s0 equil (fun k => U k ω) n) (U n ω) =
      ∑ x ∈ Ω, ∑ i : Fin s0.lib.events.length, v x s0.lib.events[i] *
        ((if (simulated m s0 equil (fun k => U k ω) n).st.occ = x then (1 : ℝ) else 0) *
          (chooses (rates x) i).indicator (1 : ℝ → ℝ) (U n ω).1) := by
    intro n
    have hxn := (h2 n).1
    exact tally_eq hs (h1 n) (by rw [hprob (h1 n)]; exact hpos _ hxn) hxn rates (hprob (h1 n)).symm
      (h5 n).1.1 (h5 n).1.2 v
  have key : Tendsto (fun n : Nat => (∑ k ∈ Finset.range n,
      tally v (simulated m s0 equil (fun k => U k ω) k) (U k ω)) / n) atTop
      (𝓝 ((∑ x ∈ Ω, W x * (s0.lib.events.map fun e => rateIn m ⟨x, 0, 0⟩ e * v x e).sum) / Z)) := by
    have a1 := tendsto_finsetSum Ω fun x hx => tendsto_finsetSum Finset.univ
      fun (i : Fin s0.lib.events.length) _ => (h3 x hx i).const_mul (v x s0.lib.events[i])
    have e1 : ∑ x ∈ Ω, ∑ i : Fin s0.lib.events.length,
        v x s0.lib.events[i] * (W x * rateIn m ⟨x, 0, 0⟩ s0.lib.events[i] / Z) =
        (∑ x ∈ Ω, W x * (s0.lib.events.map fun e => rateIn m ⟨x, 0, 0⟩ e * v x e).sum) / Z := by
      rw [Finset.sum_div]
      refine Finset.sum_congr rfl fun x _ => ?_
      rw [← Fin.sum_univ_fun_getElem, Finset.mul_sum, Finset.sum_div]
      refine Finset.sum_congr rfl fun i _ => ?_
      simp only [Fin.getElem_fin]
      ring
    rw [e1] at a1
    refine a1.congr fun n => ?_
    rw [Finset.sum_congr rfl fun k _ => hcount k]
    simp only [← mul_div_assoc, ← Finset.sum_div, Finset.mul_sum]
    congr 1
    rw [Finset.sum_comm]
    rw [Finset.sum_comm]
    rw [Finset.sum_comm (s := Finset.range n)]
    exact Finset.sum_congr rfl fun x _ => Finset.sum_comm
  -- the sums after equilibration
  have shift : ∀ (f : Nat → ℝ) (a : ℝ), Tendsto (fun n : Nat => (∑ k ∈ Finset.range n, f k) / n) atTop (𝓝 a) →
      Tendsto (fun n : Nat => (∑ k ∈ Finset.range n, f (equil + k)) / ((n + equil : Nat) : ℝ)) atTop (𝓝 a) := by
    intro f a hf
    have b1 := (tendsto_add_atTop_iff_nat equil).2 hf
    have b2 : Tendsto (fun n : Nat => (∑ k ∈ Finset.range equil, f k) / ((n + equil : Nat) : ℝ)) atTop (𝓝 0) :=
      (tendsto_add_atTop_iff_nat equil).2 (tendsto_const_div_atTop_nhds_zero_nat _)
    have b3 := b1.sub b2
    rw [sub_zero] at b3
    refine b3.congr fun n => ?_
    rw [← sub_div, add_comm n equil, Finset.sum_range_add, add_sub_cancel_left]
  have hden : ∀ n : Nat, clock (simulated m s0 equil (fun k => U k ω) (equil + n)) -
      clock (simulated m s0 equil (fun k => U k ω) equil) = ∑ k ∈ Finset.range n, w (equil + k) ω := by
    intro n
    have := Finset.sum_range_sub (fun k => clock (simulated m s0 equil (fun k => U k ω) (equil + k))) n
    simp only [add_zero] at this
    rw [← this]
    refine Finset.sum_congr rfl fun k _ => ?_
    rw [show equil + (k + 1) = equil + k + 1 from rfl, (h2 (equil + k)).2.2, if_neg (by omega)]
    ring
  have c1 := (shift _ _ key).div (shift _ _ hw) (div_pos hWs hZ).ne'
  rw [div_div_div_cancel_right₀ hZ.ne'] at c1
  refine c1.congr' ?_
  filter_upwards [eventually_ge_atTop 1] with n hn
  have hn0 : ((n + equil : Nat) : ℝ) ≠ 0 := by positivity
  simp only [Pi.div_apply]
  rw [div_div_div_cancel_right₀ hn0]
  unfold perTime
  rw [hden]

/-- C105.  How often an event happens.  With probability one the number of times an event is executed, over the
simulated time, tends to the mean of its rate (once for every time it is listed) over the configurations with the
weights `W`. -/
theorem C105_event_frequency (hs : HopSystem o mobile h Rounding.exact m g lib st)
    (ha : Answers o mobile m lib.events st.occ)
    (hi : Sim.init (realKernel Rounding.exact) m lib.generateEventDependencies (some h) (some st) = .ok s0)
    (hns : ¬ Stuck m s0) (W : List Int → ℝ) (hW : ∀ x, 0 < W x)
    (hb : Balanced o mobile m s0.lib.events W)
    (Ω : Finset (List Int)) (hΩ : ∀ x, x ∈ Ω ↔ ∃ s, Reaches m s0 s ∧ s.st.occ = x)
    (t0 : ℝ) (ht : st.time = (t0 : EReal)) (equil : Nat)
    {Θ : Type} [MeasurableSpace Θ] {μ : Measure Θ} [IsProbabilityMeasure μ] {U : Nat → Θ → ℝ × ℝ}
    (hU : RandomNumbers μ U) :
    ∀ᵐ ω ∂μ, ∀ e : Event,
      Tendsto (perTime m s0 equil (fun k => U k ω) fun _ e' => if e' = e then 1 else 0) atTop
        (𝓝 ((∑ x ∈ Ω, W x * (s0.lib.events.count e * rateIn m ⟨x, 0, 0⟩ e)) / ∑ x ∈ Ω, W x)) := by
  filter_upwards [C105_count_per_time hs ha hi hns W hW hb Ω hΩ t0 ht equil hU] with ω hω e
  have h1 := hω fun _ e' => if e' = e then 1 else 0
  unfold meanRate at h1
  have h2 : ∀ (x : List Int) (l : List Event),
      (l.map fun e' => rateIn m ⟨x, 0, 0⟩ e' * if e' = e then 1 else 0).sum = l.count e * rateIn m ⟨x, 0, 0⟩ e := by
    intro x l
    induction l with
    | nil => simp
    | cons a l ih =>
      rw [List.map_cons, List.sum_cons, ih]
      by_cases hae : a = e
      · subst hae
        simp
        ring
      · rw [List.count_cons_of_ne hae]
        simp [hae]
  simp only [h2] at h1
  exact h1

end

section
variable {σ φ ψ V Row : Type}
variable {o : ActiveSiteOrder String ψ} {mobile : String} {h : HopStateLookup}
  {m : RateModel Unit ℝ EReal} {g : Geometry ℝ} {lib : EventLib σ φ} {st : State EReal}
  {s0 : Sim σ φ Unit ℝ EReal}

/-- An event with a rate changes the configuration. -/
theorem hopped_leads (hs : HopSystem o mobile h Rounding.exact m g lib st)
    (ha : Answers o mobile m lib.events st.occ)
    (hi : Sim.init (realKernel Rounding.exact) m lib.generateEventDependencies (some h) (some st) = .ok s0)
    {W : List Int → ℝ} (hW : ∀ x, 0 < W x) (hb : Balanced o mobile m s0.lib.events W)
    {Ω : Finset (List Int)} (hΩ : ∀ x, x ∈ Ω ↔ ∃ s, Reaches m s0 s ∧ s.st.occ = x)
    {e : Event} (he : e ∈ s0.lib.events) {x : List Int} (hx : x ∈ Ω) (hp : rateIn m (inConfig x) e ≠ 0) :
    Leads e x (hopped x e) ∧ x ≠ hopped x e := by
  have hback := hopped_back hs ha hi hW hb hΩ he hx hp
  obtain ⟨s, hr, hox⟩ := (hΩ x).1 hx
  have hm := met_reaches hs ha hi (met_start hs hi) hr
  have hrate : rateIn m (inConfig x) e = rateIn m s.st e := rateIn_congr hs.loc hox.symm e
  have hpos : 0 < rateIn m s.st e :=
    lt_of_le_of_ne (rateIn_nonneg hs _ _) (by rw [← hrate]; exact hp.symm)
  obtain ⟨s', hn, hl⟩ := next_of_rateIn hs ha hi hm he hpos
  have hh : hopped x e = s'.st.occ := apply_leads hs ha hi hm he hl _ hox.symm
  refine ⟨by rw [hh, ← hox]; exact hl, ?_⟩
  intro heq
  have h1 := hback.2.2.2.2 fun _ => ![1, 0, 0]
  rw [← heq] at h1
  obtain ⟨f, t, h2, -, -, -, d, h3, -, -, -⟩ := direction_species hs hi hm.perm.length_eq hm.inv.labelled he
  have hd : d ≠ 0 := by
    rintro rfl
    have : rateIn m s.st e = 0 := by
      unfold rateIn
      cases hc : m.computeProbability () e s.st with
      | error => rfl
      | ok p => exact hs.forbidden e s.st p h3 hc
    exact hpos.ne' this
  rw [← hox, wayOf_direction hs hi hm.perm.length_eq hm.inv.labelled he _ h3 hd] at h1
  have h4 := congrFun h1 0
  split at h4
  · simp at h4; linarith
  · simp at h4; linarith

/-- C105.  Nothing flows.  A count in which doing an event and undoing it cancel has no rate: with probability one
it grows slower than the simulated time.  Example: the executions of an event in one direction minus those in the
other. -/
theorem C105_no_net_flow (hs : HopSystem o mobile h Rounding.exact m g lib st)
    (ha : Answers o mobile m lib.events st.occ)
    (hi : Sim.init (realKernel Rounding.exact) m lib.generateEventDependencies (some h) (some st) = .ok s0)
    (hns : ¬ Stuck m s0) (W : List Int → ℝ) (hW : ∀ x, 0 < W x)
    (hb : Balanced o mobile m s0.lib.events W)
    (t0 : ℝ) (ht : st.time = (t0 : EReal)) (equil : Nat)
    {Θ : Type} [MeasurableSpace Θ] {μ : Measure Θ} [IsProbabilityMeasure μ] {U : Nat → Θ → ℝ × ℝ}
    (hU : RandomNumbers μ U) :
    ∀ᵐ ω ∂μ, ∀ v : List Int → Event → ℝ,
      (∀ e ∈ s0.lib.events, ∀ s s', Reaches m s0 s → Reaches m s0 s' → Leads e s.st.occ s'.st.occ →
        s.st.occ ≠ s'.st.occ → v s'.st.occ e = -v s.st.occ e) →
      Tendsto (perTime m s0 equil (fun k => U k ω) v) atTop (𝓝 0) := by
  obtain ⟨Ω, hΩ⟩ := C90_finitely_many hs ha hi
  filter_upwards [C105_count_per_time hs ha hi hns W hW hb Ω hΩ t0 ht equil hU] with ω hω v hv
  have h1 := hω v
  have h2 : meanRate m s0.lib.events Ω W v = 0 := by
    unfold meanRate
    rw [div_eq_zero_iff]
    refine .inl ?_
    have e1 : ∀ x, W x * (s0.lib.events.map fun e => rateIn m ⟨x, 0, 0⟩ e * v x e).sum =
        (s0.lib.events.map fun e => W x * rateIn m (inConfig x) e * v x e).sum := by
      intro x
      rw [← List.sum_map_mul_left]
      refine list_sum_congr fun e _ => ?_
      rw [mul_assoc]
      rfl
    simp only [e1]
    rw [sum_list_swap]
    have e2 : ∀ e ∈ s0.lib.events, ∑ x ∈ Ω, W x * rateIn m (inConfig x) e * v x e = 0 := by
      intro e he
      have h3 := event_stationary hs ha hi hW hb hΩ he (fun x => v x e)
      have h4 : ∑ x ∈ Ω, W x * rateIn m (inConfig x) e * v (hopped x e) e =
          - ∑ x ∈ Ω, W x * rateIn m (inConfig x) e * v x e := by
        rw [← Finset.sum_neg_distrib]
        refine Finset.sum_congr rfl fun x hx => ?_
        by_cases h0 : rateIn m (inConfig x) e = 0
        · simp [h0]
        · obtain ⟨hl, hne⟩ := hopped_leads hs ha hi hW hb hΩ he hx h0
          obtain ⟨s, hr, hox⟩ := (hΩ _).1 hx
          obtain ⟨s', hr', hox'⟩ := (hΩ _).1 (hopped_back hs ha hi hW hb hΩ he hx h0).1
          have := hv e he s s' hr hr' (by rw [hox, hox']; exact hl) (by rw [hox, hox']; exact hne)
          rw [hox, hox'] at this
          rw [this]
          ring
      simp only [h4] at h3
      linarith
    rw [List.sum_eq_zero]
    intro a ha'
    obtain ⟨e, he, rfl⟩ := List.mem_map.1 ha'
    exact e2 e he
  rw [h2] at h1
  exact h1

/-- C105.  Forward and backward.  With probability one an event is executed as often in the one direction as in the
other, per simulated time. -/
theorem C105_both_directions (hs : HopSystem o mobile h Rounding.exact m g lib st)
    (ha : Answers o mobile m lib.events st.occ)
    (hi : Sim.init (realKernel Rounding.exact) m lib.generateEventDependencies (some h) (some st) = .ok s0)
    (hns : ¬ Stuck m s0) (W : List Int → ℝ) (hW : ∀ x, 0 < W x)
    (hb : Balanced o mobile m s0.lib.events W)
    (t0 : ℝ) (ht : st.time = (t0 : EReal)) (equil : Nat)
    {Θ : Type} [MeasurableSpace Θ] {μ : Measure Θ} [IsProbabilityMeasure μ] {U : Nat → Θ → ℝ × ℝ}
    (hU : RandomNumbers μ U) :
    ∀ᵐ ω ∂μ, ∀ e : Event, ∃ a : ℝ,
      Tendsto (perTime m s0 equil (fun k => U k ω) fun x e' => indicator (e' = e ∧ eventDirection x e' = .ok 1)) atTop
        (𝓝 a) ∧
      Tendsto (perTime m s0 equil (fun k => U k ω) fun x e' => indicator (e' = e ∧ eventDirection x e' = .ok (-1)))
        atTop (𝓝 a) := by
  classical
  obtain ⟨Ω, hΩ⟩ := C90_finitely_many hs ha hi
  filter_upwards [C105_count_per_time hs ha hi hns W hW hb Ω hΩ t0 ht equil hU] with ω hω e
  have h1 := hω fun x e' => indicator (e' = e ∧ eventDirection x e' = .ok 1)
  have h2 := hω fun x e' => indicator (e' = e ∧ eventDirection x e' = .ok (-1))
  refine ⟨_, h1, ?_⟩
  refine (?_ : meanRate m s0.lib.events Ω W (fun x e' => indicator (e' = e ∧ eventDirection x e' = .ok (-1))) =
    meanRate m s0.lib.events Ω W (fun x e' => indicator (e' = e ∧ eventDirection x e' = .ok 1))) ▸ h2
  have e1 : ∀ d : Int, ∀ x, W x * (s0.lib.events.map fun e' => rateIn m ⟨x, 0, 0⟩ e' *
      indicator (e' = e ∧ eventDirection x e' = .ok d)).sum =
      (s0.lib.events.map fun e' => W x * rateIn m (inConfig x) e' *
        indicator (e' = e ∧ eventDirection x e' = .ok d)).sum := by
    intro d x
    rw [← List.sum_map_mul_left]
    refine list_sum_congr fun e _ => ?_
    rw [mul_assoc]
    rfl
  unfold meanRate
  simp only [e1]
  rw [sum_list_swap, sum_list_swap]
  congr 1
  refine list_sum_congr fun e' he => ?_
  by_cases hee : e' = e
  · have h3 := event_no_drift hs ha hi hW hb hΩ he (fun _ => ![1, 0, 0]) 0
    rw [← sub_eq_zero, ← neg_eq_zero, neg_sub, ← Finset.sum_sub_distrib, ← h3]
    refine Finset.sum_congr rfl fun x hx => ?_
    by_cases h0 : rateIn m (inConfig x) e' = 0
    · simp [h0]
    obtain ⟨s, hr, hox⟩ := (hΩ x).1 hx
    have hm := met_reaches hs ha hi (met_start hs hi) hr
    have hrate : rateIn m (inConfig x) e' = rateIn m s.st e' := rateIn_congr hs.loc hox.symm e'
    obtain ⟨f, t, -, -, -, -, d, h4, -, -, h5⟩ := direction_species hs hi hm.perm.length_eq hm.inv.labelled he
    have hd : d ≠ 0 := by
      rintro rfl
      have : rateIn m s.st e' = 0 := by
        unfold rateIn
        cases hc : m.computeProbability () e' s.st with
        | error => rfl
        | ok p => exact hs.forbidden e' s.st p h4 hc
      rw [hrate, this] at h0
      exact h0 rfl
    have hway := wayOf_direction hs hi hm.perm.length_eq hm.inv.labelled he (fun _ => ![(1 : ℝ), 0, 0]) h4 hd
    rw [hox] at hway h4
    rw [hway, h4]
    rcases h5 with rfl | rfl | rfl
    · simp [indicator, hee]
    · simp [indicator, hee]
    · exact absurd rfl hd
  · simp [indicator, hee]

/-- C105.  Hop frequencies at a temperature.  With a composite model whose site-energy differences are differences of
an energy `E`, on a connected network with an ion and a vacancy, with probability one an event happens as often per
simulated time as the mean of its rate over all arrangements of the network with their Boltzmann weights. -/
theorem C105_canonical_frequency (c : Composite Unit EReal) (kB temp ν : ℝ) (hν : 0 < ν)
    (hs : HopSystem o mobile h Rounding.exact (c.rateModel kB temp ν) g lib st)
    (ha : Answers o mobile (c.rateModel kB temp ν) lib.events st.occ)
    (hi : Sim.init (realKernel Rounding.exact) (c.rateModel kB temp ν) lib.generateEventDependencies (some h)
      (some st) = .ok s0)
    {S : Nat → Prop} (hn : Network o mobile lib.events st.occ S)
    (hap : ∀ e ∈ lib.events, SurroundingsApart st.occ.length e) (E : List Int → ℝ)
    (hE : ReportsEnergy c.site (fun _ st' => WellLabelled o mobile st'.occ)
      (fun e => ∃ x ∈ lib.events, e.mobile = x.mobile ∧ e.env = x.env) E)
    (Ω : Finset (List Int))
    (hΩ : ∀ x, x ∈ Ω ↔ SameComposition x st.occ ∧ ∀ i, ¬ S i → x[i]? = st.occ[i]?)
    (t0 : ℝ) (ht : st.time = (t0 : EReal)) (equil : Nat)
    {Θ : Type} [MeasurableSpace Θ] {μ : Measure Θ} [IsProbabilityMeasure μ] {U : Nat → Θ → ℝ × ℝ}
    (hU : RandomNumbers μ U) :
    ∀ᵐ ω ∂μ, ∀ e : Event,
      Tendsto (perTime (c.rateModel kB temp ν) s0 equil (fun k => U k ω) fun _ e' => if e' = e then 1 else 0) atTop
        (𝓝 ((∑ x ∈ Ω, Real.exp (-E x / (kB * temp)) *
            (s0.lib.events.count e * rateIn (c.rateModel kB temp ν) ⟨x, 0, 0⟩ e)) /
          ∑ x ∈ Ω, Real.exp (-E x / (kB * temp)))) := by
  have hst : s0.st = st := by
    obtain ⟨i1, -⟩ := init_ok hi
    exact (Option.some.inj i1).symm
  have hw := C85_composite_willing c kB temp ν hν
  have hns : ¬ Stuck (c.rateModel kB temp ν) s0 :=
    network_not_stuck hs ha hi hw (sim_init_inv hs hi) (by rw [hst]) (by rw [hst]; exact hn)
  have hb := C90_energy_balanced c kB temp ν hν hs hi (fun e st' => ha.commit e st') hap E hE
  have hΩ' := fun x => (hΩ x).trans (C90_all_arrangements hs ha hw hi hn x).symm
  exact C105_event_frequency hs ha hi hns (fun x => Real.exp (-E x / (kB * temp)))
    (fun x => Real.exp_pos _) hb Ω hΩ' t0 ht equil hU

/-- The way that the ions go in a part of a run, as a count. -/
theorem walk_tally (hs : HopSystem o mobile h Rounding.exact m g lib st)
    (ha : Answers o mobile m lib.events st.occ)
    (hi : Sim.init (realKernel Rounding.exact) m lib.generateEventDependencies (some h) (some st) = .ok s0)
    {draws : Nat → ℝ × ℝ} {equil : Nat} (v : Event → Vec3 ℝ) (a : Fin 3) {c : Nat} {s s' : Sim σ φ Unit ℝ EReal}
    {hist : List (Event × EReal)} (hst : Steps (realKernel Rounding.exact) m draws true c s hist s') :
    ∀ st' : State EReal, st'.occ = s.st.occ → Met o mobile m st s0 s → equil ≤ c →
      Met o mobile m st s0 (simulated m s0 equil draws c) → (simulated m s0 equil draws c).st.occ = s.st.occ →
      walkOf o mobile v st' (hist.map (·.1)) a = ∑ k ∈ Finset.range hist.length,
        tally (fun x e => wayOf o mobile v x e a) (simulated m s0 equil draws (c + k)) (draws (c + k)) := by
  induction hst with
  | nil => intro st' _ _ _ _ _; simp [walkOf]
  | @cons c s s1 s2 e dt hist hp hu hr ih =>
    intro st' ho hm hc hmt hot
    have hmem := proposed_listed hm hp
    have hpt := (propose_congr hs hm hmt hot (draws c).1 (draws c).2).trans hp
    obtain ⟨t1, u1, m1, l1⟩ := met_update hs ha hi hm hmem dt
    obtain ⟨t2, u2, m2, l2⟩ := met_update hs ha hi hmt hmem dt
    simp only [if_true] at hu
    rw [hu] at u1
    have ht1 : s1 = t1 := (Prod.mk.inj u1).2
    subst ht1
    have hsim : simulated m s0 equil draws (c + 1) = t2 := by
      simp only [simulated]
      rw [if_neg (by omega)]
      unfold oneStep
      rw [hpt]
      simp only [u2]
    rw [hot] at l2
    have h1 := ih (st'.applyEvent e 0).2 (apply_leads hs ha hi hm hmem l1 st' ho) m1 (by omega)
      (by rw [hsim]; exact m2) (by rw [hsim]; exact leads_unique l2 l1)
    rw [List.map_cons, walkOf, Pi.add_apply, h1, List.length_cons, Finset.sum_range_succ', add_comm]
    congr 1
    · refine Finset.sum_congr rfl fun k _ => ?_
      rw [show c + (k + 1) = c + 1 + k by omega]
    · unfold tally
      simp only [add_zero]
      rw [hpt]
      simp only
      rw [hot, ho]

/-- C105.  No drift in a single simulation.  The same random numbers are used for longer and longer runs.  With
probability one, if the runs complete, the sum of the displacements that the tracker reports over the simulated time
tends to zero along every axis. -/
theorem C105_no_drift (hs : HopSystem o mobile h Rounding.exact m g lib st)
    (ha : Answers o mobile m lib.events st.occ)
    (hi : Sim.init (realKernel Rounding.exact) m lib.generateEventDependencies (some h) (some st) = .ok s0)
    (hns : ¬ Stuck m s0) (W : List Int → ℝ) (hW : ∀ x, 0 < W x)
    (hb : Balanced o mobile m s0.lib.events W)
    (t0 : ℝ) (ht : st.time = (t0 : EReal)) (len equil : Nat) (hlen : 0 < len)
    {v : Event → Vec3 ℝ} (hv : ∀ e ∈ s0.lib.events, IsHopVector g e (v e))
    {Θ : Type} [MeasurableSpace Θ] {μ : Measure Θ} [IsProbabilityMeasure μ] {U : Nat → Θ → ℝ × ℝ}
    (hU : RandomNumbers μ U) :
    ∀ᵐ ω ∂μ, ∀ (summary : Trajectory ℝ → EReal → List (String × Bool) → Row) (plan : PropertyPlan EReal V)
      (a : Fin 3) (D : Nat → ℝ),
      ReportedPerTime m g (some h) summary plan (fun k => U k ω) len equil s0 t0
        (fun traj => traj.displacement.sum a) D →
      Tendsto D atTop (𝓝 0) := by
  obtain ⟨Ω, hΩ⟩ := C90_finitely_many hs ha hi
  have hst : s0.st = st := by
    obtain ⟨i1, -⟩ := init_ok hi
    exact (Option.some.inj i1).symm
  obtain ⟨_, _, _, -, -, -, hmet, hfol, -, -⟩ :=
    simulated_chain hs ha hi hns W hW hb Ω hΩ t0 ht (equil * len) hU
  filter_upwards [C105_count_per_time hs ha hi hns W hW hb Ω hΩ t0 ht (equil * len) hU, draws_in_range hU, hmet,
    hfol] with ω h1 h2 h3 h4 summary plan a D hD
  have key := h1 fun x e => wayOf o mobile v x e a
  have hzero : meanRate m s0.lib.events Ω W (fun x e => wayOf o mobile v x e a) = 0 := by
    unfold meanRate
    rw [div_eq_zero_iff]
    refine .inl ?_
    have e1 : ∀ x, W x * (s0.lib.events.map fun e => rateIn m ⟨x, 0, 0⟩ e * wayOf o mobile v x e a).sum =
        (s0.lib.events.map fun e => W x * rateIn m (inConfig x) e * wayOf o mobile v x e a).sum := by
      intro x
      rw [← List.sum_map_mul_left]
      refine list_sum_congr fun e _ => ?_
      rw [mul_assoc]
      rfl
    simp only [e1]
    rw [sum_list_swap, List.sum_eq_zero]
    intro b hb'
    obtain ⟨e, he, rfl⟩ := List.mem_map.1 hb'
    exact event_no_drift hs ha hi hW hb hΩ he v a
  rw [hzero] at key
  have hk : Tendsto (fun prod : Nat => prod * len) atTop atTop :=
    tendsto_id.atTop_mul_const' hlen
  refine (key.comp hk).congr fun prod => ?_
  obtain ⟨rs, r1, r2, r3⟩ := hD prod
  obtain ⟨rs', hist1, hist2, s1, s2, c1, c2, c3, c4, c5, c6, -⟩ := run_walk hs ha hi hv (fun c => (h2 c).1) r1
  rw [r2, Option.some.injEq] at c1
  subst c1
  have hsim := C93_run m g (some h) summary plan (fun k => U k ω) len equil prod s0 r1
  obtain ⟨-, -, -, rs'', -, -, -, -, a5⟩ := run_ok r1
  rw [a5] at r2 hsim
  simp only [Option.some.injEq] at r2 hsim
  subst r2
  have hq : simulated m s0 (equil * len) (fun k => U k ω) 0 = s0 := rfl
  -- the clock stands still during equilibration
  have hclock : clock (simulated m s0 (equil * len) (fun k => U k ω) (equil * len)) = t0 := by
    have : ∀ n, n ≤ equil * len → clock (simulated m s0 (equil * len) (fun k => U k ω) n) = t0 := by
      intro n
      induction n with
      | zero => intro _; rw [hq]; unfold clock; rw [hst, ht, EReal.toReal_coe]
      | succ n ih => intro hn; rw [(h4 n).2.2, if_pos (by omega), ih (by omega), add_zero]
    exact this _ le_rfl
  have m1 : Met o mobile m st s0 s1 ∧ (simulated m s0 (equil * len) (fun k => U k ω) (equil * len)).st.occ = s1.st.occ := by
    obtain ⟨x1, k1, k2, k3, k4⟩ := steps_congr hs ha hi false c2 s0 (met_start hs hi) (met_start hs hi) rfl
    have := simulated_steps (s0 := s0) (equil := equil * len) k1 rfl (by simp [c4])
    rw [zero_add, c4] at this
    rw [← this]
    exact ⟨k2, k4⟩
  have hw := walk_tally hs ha hi (equil := equil * len) v a c3 (afterAll s0.st (hist1.map (·.1))) (steps_after c2)
    m1.1 le_rfl (h3 _) m1.2
  simp only [Function.comp]
  unfold perTime
  rw [r3]
  beta_reduce
  rw [c6, hw, c5, hsim, hclock]

/-- C105.  The hops that are reported.  With probability one, if the runs complete, the sum of the hop counters over
the simulated time tends to the mean of the total rate over the configurations with the weights `W`. -/
theorem C105_hops_reported (hs : HopSystem o mobile h Rounding.exact m g lib st)
    (ha : Answers o mobile m lib.events st.occ)
    (hi : Sim.init (realKernel Rounding.exact) m lib.generateEventDependencies (some h) (some st) = .ok s0)
    (hns : ¬ Stuck m s0) (W : List Int → ℝ) (hW : ∀ x, 0 < W x)
    (hb : Balanced o mobile m s0.lib.events W)
    (Ω : Finset (List Int)) (hΩ : ∀ x, x ∈ Ω ↔ ∃ s, Reaches m s0 s ∧ s.st.occ = x)
    (t0 : ℝ) (ht : st.time = (t0 : EReal)) (len equil : Nat) (hlen : 0 < len)
    {Θ : Type} [MeasurableSpace Θ] {μ : Measure Θ} [IsProbabilityMeasure μ] {U : Nat → Θ → ℝ × ℝ}
    (hU : RandomNumbers μ U) :
    ∀ᵐ ω ∂μ, ∀ (summary : Trajectory ℝ → EReal → List (String × Bool) → Row) (plan : PropertyPlan EReal V)
      (D : Nat → ℝ),
      ReportedPerTime m g (some h) summary plan (fun k => U k ω) len equil s0 t0
        (fun traj => traj.hopCounter.sum) D →
      Tendsto D atTop (𝓝 ((∑ x ∈ Ω, W x * totalRate m s0.lib.events ⟨x, 0, 0⟩) / ∑ x ∈ Ω, W x)) := by
  have hst : s0.st = st := by
    obtain ⟨i1, -⟩ := init_ok hi
    exact (Option.some.inj i1).symm
  obtain ⟨_, _, _, -, -, -, hmet, hfol, -, -⟩ :=
    simulated_chain hs ha hi hns W hW hb Ω hΩ t0 ht (equil * len) hU
  filter_upwards [C105_count_per_time hs ha hi hns W hW hb Ω hΩ t0 ht (equil * len) hU, draws_in_range hU, hmet,
    hfol] with ω h1 h2 h3 h4 summary plan D hD
  have key := h1 fun _ _ => 1
  have hmean : meanRate m s0.lib.events Ω W (fun _ _ => 1) =
      (∑ x ∈ Ω, W x * totalRate m s0.lib.events ⟨x, 0, 0⟩) / ∑ x ∈ Ω, W x := by
    unfold meanRate totalRate
    simp only [mul_one]
  rw [hmean] at key
  have hk : Tendsto (fun prod : Nat => prod * len) atTop atTop :=
    tendsto_id.atTop_mul_const' hlen
  refine (key.comp hk).congr fun prod => ?_
  obtain ⟨rs, r1, r2, r3⟩ := hD prod
  obtain ⟨rs', c1, -, c2⟩ := C16_run_counts_every_step hs hi (fun k => U k ω) (fun c => (h2 c).1) summary plan len equil
    prod r1
  rw [r2, Option.some.injEq] at c1
  subst c1
  have hsim := C93_run m g (some h) summary plan (fun k => U k ω) len equil prod s0 r1
  obtain ⟨-, -, -, rs'', -, -, -, -, a5⟩ := run_ok r1
  rw [a5] at r2 hsim
  simp only [Option.some.injEq] at r2 hsim
  subst r2
  have hq : simulated m s0 (equil * len) (fun k => U k ω) 0 = s0 := rfl
  have hclock : clock (simulated m s0 (equil * len) (fun k => U k ω) (equil * len)) = t0 := by
    have : ∀ n, n ≤ equil * len → clock (simulated m s0 (equil * len) (fun k => U k ω) n) = t0 := by
      intro n
      induction n with
      | zero => intro _; rw [hq]; unfold clock; rw [hst, ht, EReal.toReal_coe]
      | succ n ih => intro hn; rw [(h4 n).2.2, if_pos (by omega), ih (by omega), add_zero]
    exact this _ le_rfl
  have htally : ∀ n, tally (fun _ _ => (1 : ℝ)) (simulated m s0 (equil * len) (fun k => U k ω) n) (U n ω) = 1 := by
    intro n
    obtain ⟨s, hr, ho⟩ := (hΩ _).1 (h4 n).1
    have hm := met_reaches hs ha hi (met_start hs hi) hr
    have hpos := reaches_sum_pos hs ha hi hb hW hns hr
    rw [← met_prob hs (h3 n) hm ho.symm] at hpos
    obtain ⟨i, e, -, -, -, hp⟩ := proposes hs (h3 n) hpos (h2 n).1.1 (h2 n).1.2
    unfold tally
    rw [hp _ (h3 n) rfl]
  simp only [Function.comp]
  unfold perTime
  rw [r3]
  beta_reduce
  rw [hsim, hclock, c2]
  congr 1
  rw [Finset.sum_congr rfl fun k _ => htally (equil * len + k)]
  simp

end
/-! ### Concrete simulations -/

/-- The arrangements of two ions on five sites. -/
def fiveTwo : Finset (List Int) :=
  {[0, 0, 1, 1, 1], [0, 1, 0, 1, 1], [0, 1, 1, 0, 1], [0, 1, 1, 1, 0], [1, 0, 0, 1, 1], [1, 0, 1, 0, 1],
    [1, 0, 1, 1, 0], [1, 1, 0, 0, 1], [1, 1, 0, 1, 0], [1, 1, 1, 0, 0]}

theorem fiveTwo_perm (x : List Int) : x ∈ fiveTwo ↔ x.Perm [0, 1, 0, 1, 1] := by
  have h1 : fiveTwo = ([0, 1, 0, 1, 1] : List Int).permutations'.toFinset := by decide +kernel
  rw [h1, List.mem_toFinset, List.mem_permutations']

theorem chain_rates (x : List Int) (hx : x ∈ fiveTwo) : totalRate hopModel chainHops ⟨x, 0, 0⟩ =
    (chainHops.filter fun e => eventDirection x e ≠ .ok 0).length := by
  have hok : ∀ x ∈ fiveTwo, ∀ e ∈ chainHops, ∃ d, eventDirection x e = .ok d := by
    have : ∀ x ∈ fiveTwo, ∀ e ∈ chainHops, (eventDirection x e).toOption.isSome = true := by decide +kernel
    intro x hx e he
    have := this x hx e he
    cases hd : eventDirection x e with
    | error => rw [hd] at this; cases this
    | ok d => exact ⟨d, rfl⟩
  have hone := hok x hx
  unfold totalRate
  generalize chainHops = l at hone
  induction l with
  | nil => simp
  | cons e l ih =>
    obtain ⟨d, hd⟩ := hone e (by simp)
    rw [List.map_cons, List.sum_cons, ih fun e he => hone e (List.mem_cons_of_mem _ he), List.filter_cons]
    unfold rateIn hopModel
    simp only [hd]
    by_cases h0 : d = 0
    · simp [h0]
    · simp [h0]
      ring

/-- Non-vacuity: two ions on a chain of five sites, with one rate for all hops that are possible.  In almost every
simulation there are 12/5 hops per unit of time in the long run: of the four bonds of the chain, three fifths have an
ion on one side only. -/
example : ∃ s0 : Sim Unit Unit Unit ℝ EReal,
    Sim.init (realKernel Rounding.exact) hopModel chainLib.generateEventDependencies
      (some ⟨[0, 0, 0, 0, 0], [1, 1, 1, 1, 1]⟩) (some ⟨[0, 1, 0, 1, 1], 0, 0⟩) = .ok s0 ∧
    ∀ᵐ ω ∂Measure.infinitePi fun _ : Nat => twoUniform, ∃ D E : Nat → ℝ,
      ReportedPerTime hopModel ringGeometry (some ⟨[0, 0, 0, 0, 0], [1, 1, 1, 1, 1]⟩) (fun _ _ _ => ())
        (planAfter ([] : List (PlanOp EReal Unit))) ω 3 10 s0 0 (fun traj => traj.hopCounter.sum) D ∧
      ReportedPerTime hopModel ringGeometry (some ⟨[0, 0, 0, 0, 0], [1, 1, 1, 1, 1]⟩) (fun _ _ _ => ())
        (planAfter ([] : List (PlanOp EReal Unit))) ω 3 10 s0 0 (fun traj => traj.displacement.sum 0) E ∧
      Tendsto D atTop (𝓝 (12 / 5)) ∧ Tendsto E atTop (𝓝 0) := by
  classical
  obtain ⟨s0, hi⟩ := C85_can_be_constructed chain_on_line chain_answers
  obtain ⟨hl, hst⟩ := chain_annotated hi
  have hb : Balanced exampleOrder "Na" hopModel s0.lib.events fun _ => 1 := by
    refine hopModel_balanced ?_
    rw [hl]
    decide
  have hns : ¬ Stuck hopModel s0 := by
    intro hst'
    have h1 := hst' ⟨[0, 1], [4, 3], some ⟨0, 1, 1, 0⟩⟩ (by rw [hl]; decide) 1 (by
      rw [hst]
      have hd : eventDirection [0, 1, 0, 1, 1] ⟨[0, 1], [4, 3], some ⟨0, 1, 1, 0⟩⟩ = .ok 1 := by decide
      simp only [hopModel, hd]
      norm_num)
    norm_num at h1
  have hn := chain_network_perm (x := [0, 1, 0, 1, 1]) (.refl _)
  have hΩ : ∀ x, x ∈ fiveTwo ↔ ∃ s, Reaches hopModel s0 s ∧ s.st.occ = x := by
    intro x
    rw [C90_all_arrangements chain_on_line chain_answers hopModel_willing hi hn x, fiveTwo_perm]
    constructor
    · intro hp
      refine ⟨sameComposition_iff_perm.2 hp, fun i hi' => ?_⟩
      rw [List.getElem?_eq_none (by rw [hp.length_eq]; simpa using hi'), List.getElem?_eq_none (by simpa using hi')]
    · exact fun hp => sameComposition_iff_perm.1 hp.1
  refine ⟨s0, hi, ?_⟩
  filter_upwards [C105_hops_reported (V := Unit) (Row := Unit) chain_on_line chain_answers hi hns (fun _ => 1)
    (fun _ => one_pos) hb fiveTwo hΩ 0 rfl 3 10 (by norm_num) C93_random_numbers,
    C105_no_drift (V := Unit) (Row := Unit) chain_on_line chain_answers hi hns (fun _ => 1)
    (fun _ => one_pos) hb 0 rfl 3 10 (by norm_num) (v := chainVector)
    (by rw [hl]; exact fun e he => chainVector_hop he) C93_random_numbers,
    draws_in_range C93_random_numbers] with ω h1 h2 hω
  have hrun := fun prod => C85_connected_completes chain_on_line chain_answers hopModel_willing hn hi
    (fun _ _ _ => ()) ([] : List (PlanOp EReal Unit))
    (by intro n spec hn; simp [planAfter, dictGet] at hn) ω (fun c => (hω c).1) 3 10 prod
  have htr : ∀ prod, ∃ rs, (s0.run (realKernel Rounding.exact) hopModel ringGeometry
      (some ⟨[0, 0, 0, 0, 0], [1, 1, 1, 1, 1]⟩) (fun _ _ _ => ()) (planAfter ([] : List (PlanOp EReal Unit))) ω 3 10
      prod).tracker = some rs := by
    intro prod
    obtain ⟨-, -, -, rs, -, -, -, -, a5⟩ := run_ok (hrun prod)
    exact ⟨rs, by rw [a5]⟩
  choose rs hrs using htr
  have hD : ReportedPerTime hopModel ringGeometry (some ⟨[0, 0, 0, 0, 0], [1, 1, 1, 1, 1]⟩) (fun _ _ _ => ())
        (planAfter ([] : List (PlanOp EReal Unit))) ω 3 10 s0 0 (fun traj => traj.hopCounter.sum)
        (fun prod => ((rs prod).traj.hopCounter.sum : ℝ) / (clock (rs prod).sim - 0)) :=
    fun prod => ⟨rs prod, hrun prod, hrs prod, rfl⟩
  have hE : ReportedPerTime hopModel ringGeometry (some ⟨[0, 0, 0, 0, 0], [1, 1, 1, 1, 1]⟩) (fun _ _ _ => ())
        (planAfter ([] : List (PlanOp EReal Unit))) ω 3 10 s0 0 (fun traj => traj.displacement.sum 0)
        (fun prod => (rs prod).traj.displacement.sum 0 / (clock (rs prod).sim - 0)) :=
    fun prod => ⟨rs prod, hrun prod, hrs prod, rfl⟩
  refine ⟨_, _, hD, hE, ?_, h2 _ _ 0 _ hE⟩
  have h3 := h1 _ _ _ hD
  have e1 : ∑ x ∈ fiveTwo, (1 : ℝ) * totalRate hopModel s0.lib.events ⟨x, 0, 0⟩ = 24 := by
    rw [hl]
    have e2 : ∑ x ∈ fiveTwo, (chainHops.filter fun e => eventDirection x e ≠ .ok 0).length = 24 := by decide +kernel
    rw [Finset.sum_congr rfl fun x hx => by rw [one_mul, chain_rates x hx]]
    exact_mod_cast e2
  have e3 : ∑ x ∈ fiveTwo, (1 : ℝ) = 10 := by
    rw [Finset.sum_const, show fiveTwo.card = 10 by decide +kernel]
    norm_num
  simp only [e1, e3] at h3
  rw [show (24 : ℝ) / 10 = 12 / 5 by norm_num] at h3
  exact h3

end KMC
