import Verif.Lemmas.Progress
import Verif.Props.ProgressProps
import Verif.Spec.Equilibrium
import Verif.Spec.Balance
import Mathlib.Analysis.SpecialFunctions.Integrals.Basic
/-
Lemmas for the stationary regime of a simulation.
-/
set_option linter.unusedSectionVars false

namespace KMC
open Spec MeasureTheory

/-! ### Abstract part: reversible jump processes on a finite set -/

section abstract
variable {α : Type}

/-- A function that equals its weighted average over the neighbours everywhere on a connected finite set is
constant. -/
theorem harmonic_constant (Ω : Finset α) (a : α → α → ℝ) (g : α → ℝ)
    (ha : ∀ x ∈ Ω, ∀ y ∈ Ω, 0 ≤ a x y)
    (h : ∀ y ∈ Ω, ∑ x ∈ Ω, (g x - g y) * a y x = 0)
    (hc : ∀ x ∈ Ω, ∀ y ∈ Ω, Relation.ReflTransGen (fun u v => u ∈ Ω ∧ v ∈ Ω ∧ 0 < a u v) x y) :
    ∃ c, ∀ x ∈ Ω, g x = c := by
  rcases Ω.eq_empty_or_nonempty with rfl | hne
  · exact ⟨0, by simp⟩
  obtain ⟨z, hz, hmax⟩ := Ω.exists_max_image g hne
  refine ⟨g z, fun x hx => ?_⟩
  have := hc z hz x hx
  induction this with
  | refl => rfl
  | @tail u v _ huv ih =>
    obtain ⟨hu, hv, hpos⟩ := huv
    have hu' := ih hu
    have hterm : ∀ w ∈ Ω, (g w - g u) * a u w ≤ 0 := fun w hw =>
      mul_nonpos_of_nonpos_of_nonneg (by rw [hu']; linarith [hmax w hw]) (ha u hu w hw)
    have := (Finset.sum_eq_zero_iff_of_nonpos hterm).1 (h u hu) v hv
    rcases mul_eq_zero.1 this with h1 | h1
    · linarith
    · exact absurd h1 hpos.ne'

/-- Stationary regimes of a reversible jump process: flows `a`, total `Γ x` out of `x`, weights `W` with
detailed balance. -/
theorem stationary_iff (Ω : Finset α) (a : α → α → ℝ) (Γ W μ : α → ℝ)
    (ha : ∀ x ∈ Ω, ∀ y ∈ Ω, 0 ≤ a x y) (hΓ : ∀ x ∈ Ω, 0 < Γ x) (hsum : ∀ x ∈ Ω, Γ x = ∑ y ∈ Ω, a x y)
    (hW : ∀ x ∈ Ω, 0 < W x) (hb : ∀ x ∈ Ω, ∀ y ∈ Ω, W x * a x y = W y * a y x)
    (hc : ∀ x ∈ Ω, ∀ y ∈ Ω, Relation.ReflTransGen (fun u v => u ∈ Ω ∧ v ∈ Ω ∧ 0 < a u v) x y) :
    (∀ y ∈ Ω, ∑ x ∈ Ω, μ x * (a x y / Γ x) = μ y) ↔ ∃ c, ∀ x ∈ Ω, μ x * (1 / Γ x) = c * W x := by
  constructor
  · intro h
    obtain ⟨c, hcst⟩ := harmonic_constant Ω a (fun x => μ x / Γ x / W x) ha (by
      intro y hy
      have h1 := h y hy
      have h2 : W y * ∑ x ∈ Ω, (μ x / Γ x / W x - μ y / Γ y / W y) * a y x =
          ∑ x ∈ Ω, μ x * (a x y / Γ x) - μ y := by
        have h3 : μ y = ∑ x ∈ Ω, μ y / Γ y * a y x := by
          rw [← Finset.mul_sum, ← hsum y hy, div_mul_cancel₀ _ (hΓ y hy).ne']
        conv_rhs => rw [h3]
        rw [Finset.mul_sum, ← Finset.sum_sub_distrib]
        refine Finset.sum_congr rfl fun x hx => ?_
        have e1 := (hW x hx).ne'
        have e2 := (hW y hy).ne'
        have e3 := hb x hx y hy
        have e4 : μ x * (a x y / Γ x) = μ x / Γ x / W x * (W x * a x y) := by field_simp
        rw [e4, e3]
        have e5 : W y * ((μ x / Γ x / W x - μ y / Γ y / W y) * a y x) =
          μ x / Γ x / W x * (W y * a y x) - μ y / Γ y * a y x * (W y / W y) := by ring
        rw [e5, div_self e2, mul_one]
      rw [h1, sub_self] at h2
      exact (mul_eq_zero.1 h2).resolve_left (hW y hy).ne') hc
    refine ⟨c, fun x hx => ?_⟩
    have := hcst x hx
    rw [mul_one_div, ← this, div_mul_cancel₀ _ (hW x hx).ne']
  · rintro ⟨c, h⟩ y hy
    have e1 : ∀ x ∈ Ω, μ x * (a x y / Γ x) = c * (W y * a y x) := by
      intro x hx
      rw [← hb x hx y hy, ← mul_assoc, ← h x hx]
      ring
    rw [Finset.sum_congr rfl e1, ← Finset.mul_sum, ← Finset.mul_sum, ← hsum y hy, ← mul_assoc, ← h y hy,
      mul_assoc, one_div, inv_mul_cancel₀ (hΓ y hy).ne', mul_one]

end abstract

/-! ### The chance of a step -/

open Classical in
/-- The sum of the rates of the events that lead from `x` to `y`. -/
noncomputable def flow (events : List Event) (prob : List ℝ) (x y : List Int) : ℝ :=
  ∑ i ∈ Finset.range events.length,
    if (∃ e, events[i]? = some e ∧ Leads e x y) then prob.getD i 0 else 0

theorem sum_getD (l : List ℝ) : ∑ i ∈ Finset.range l.length, l.getD i 0 = l.sum := by
  induction l with
  | nil => simp
  | cons a l ih =>
    rw [List.length_cons, Finset.sum_range_succ', List.sum_cons, add_comm, ← ih]
    rfl

theorem leads_symm {e : Event} {x y : List Int} (h : Leads e x y) : Leads e y x := by
  obtain ⟨f, t, hm, h1, h2, h3, h4⟩ := h
  exact ⟨f, t, hm, h1.symm, h3.symm, h2.symm, fun k a b => (h4 k a b).symm⟩

theorem leads_unique {e : Event} {x y z : List Int} (h : Leads e x y) (h' : Leads e x z) : y = z := by
  obtain ⟨f, t, hm, hx⟩ := h
  obtain ⟨f', t', hm', hx'⟩ := h'
  rw [hm] at hm'
  simp only [List.cons.injEq, Nat.cast_inj, and_true] at hm'
  obtain ⟨rfl, rfl⟩ := hm'
  exact exchanged_unique hx hx'

/-- The measure of the variates that select one of a set of indices. -/
theorem volume_selected (rates : List ℝ) (hnn : ∀ p ∈ rates, 0 ≤ p) (hpos : 0 < rates.sum) (r2 : ℝ)
    (A : Finset Nat) (hA : ∀ i ∈ A, i < rates.length) :
    (volume {r1 : ℝ | 0 ≤ r1 ∧ r1 < 1 ∧ ∃ i ∈ A, ∃ dt,
      propose Rounding.exact (cumsum Rounding.exact rates) r1 r2 = .ok (i, dt)}).toReal =
      (∑ i ∈ A, rates.getD i 0) / rates.sum := by
  have hset : {r1 : ℝ | 0 ≤ r1 ∧ r1 < 1 ∧ ∃ i ∈ A, ∃ dt,
      propose Rounding.exact (cumsum Rounding.exact rates) r1 r2 = .ok (i, dt)} =
      ⋃ i ∈ A, Set.Ico ((rates.take i).sum / rates.sum) ((rates.take (i + 1)).sum / rates.sum) := by
    ext r
    simp only [Set.mem_ofPred_eq, Set.mem_iUnion, Set.mem_Ico, exists_prop]
    constructor
    · rintro ⟨h0, h1, i, hi, hp⟩
      exact ⟨i, hi, (C02_selection_interval rates hnn hpos i (hA i hi) r r2 h0).1 hp⟩
    · rintro ⟨i, hi, h1, h2⟩
      have h0 : 0 ≤ r := le_trans (div_nonneg (List.sum_nonneg fun a ha => hnn a (List.mem_of_mem_take ha))
        hpos.le) h1
      refine ⟨h0, lt_of_lt_of_le h2 ?_, i, hi,
        (C02_selection_interval rates hnn hpos i (hA i hi) r r2 h0).2 ⟨h1, h2⟩⟩
      rw [div_le_one hpos]
      exact List.Sublist.sum_le_sum (List.take_sublist _ _) hnn
  rw [hset, measure_biUnion_finset]
  · rw [ENNReal.toReal_sum (by intro i _; simp), Finset.sum_div]
    refine Finset.sum_congr rfl fun i hi => ?_
    have hl := hA i hi
    have hsum : (rates.take (i + 1)).sum = (rates.take i).sum + rates.getD i 0 := by
      rw [List.take_add_one, List.getD_eq_getElem?_getD, List.getElem?_eq_getElem hl]
      simp only [List.sum_append, Option.toList_some, List.sum_singleton, Option.getD_some]
    have hp : 0 ≤ rates.getD i 0 := by
      rw [List.getD_eq_getElem?_getD, List.getElem?_eq_getElem hl]
      exact hnn _ (List.getElem_mem hl)
    rw [Real.volume_Ico, ENNReal.toReal_ofReal]
    · rw [hsum]; ring
    · rw [hsum, ← sub_div, add_sub_cancel_left]
      exact div_nonneg hp hpos.le
  · intro i hi j hj hij
    simp only [Function.onFun]
    rw [Set.disjoint_left]
    intro r hr hr'
    have hr2 : (0 : ℝ) ≤ r := le_trans (div_nonneg (List.sum_nonneg fun a ha => hnn a (List.mem_of_mem_take ha))
        hpos.le) hr.1
    obtain ⟨d1, p1⟩ := (C02_selection_interval rates hnn hpos i (hA i hi) r r2 hr2).2 hr
    obtain ⟨d2, p2⟩ := (C02_selection_interval rates hnn hpos j (hA j hj) r r2 hr2).2 hr'
    rw [p1] at p2
    cases p2
    exact hij rfl
  · intro i _
    exact measurableSet_Ico

section
variable {σ φ ψ K : Type} [Field K] [LinearOrder K] [FloorRing K]
variable {o : ActiveSiteOrder String ψ} {mobile : String} {h : HopStateLookup}
  {m : RateModel Unit ℝ EReal} {g : Geometry K} {lib : EventLib σ φ} {st : State EReal}
  {s0 : Sim σ φ Unit ℝ EReal}

/-- A proposal of the simulation is a selected index. -/
theorem propose_iff {s : Sim σ φ Unit ℝ EReal} (hc : s.cum = cumsum Rounding.exact s.prob) {r1 r2 : ℝ}
    {e : Event} {dt : EReal} : s.propose (realKernel Rounding.exact) r1 r2 = .ok (e, dt) ↔
    ∃ i, propose Rounding.exact (cumsum Rounding.exact s.prob) r1 r2 = .ok (i, dt) ∧
      s.lib.events[i]? = some e := by
  unfold Sim.propose
  rw [hc]
  simp only [realKernel]
  cases propose Rounding.exact (cumsum Rounding.exact s.prob) r1 r2 with
  | error x => simp
  | ok v =>
    obtain ⟨i, d⟩ := v
    simp only [Except.ok.injEq, Prod.mk.injEq]
    cases he : s.lib.events[i]? with
    | none =>
      simp only [reduceCtorEq, false_iff, not_exists, not_and]
      rintro j ⟨rfl, -⟩ hj
      rw [he] at hj; cases hj
    | some e' =>
      simp only [Except.ok.injEq, Prod.mk.injEq]
      constructor
      · rintro ⟨rfl, rfl⟩; exact ⟨i, ⟨rfl, rfl⟩, he⟩
      · rintro ⟨j, ⟨rfl, rfl⟩, hj⟩
        rw [he, Option.some.injEq] at hj
        exact ⟨hj, rfl⟩

theorem rates_nonneg (hs : HopSystem o mobile h Rounding.exact m g lib st) {s : Sim σ φ Unit ℝ EReal}
    (inv : SimInv o mobile Rounding.exact m s0 s) : ∀ p ∈ s.prob, 0 ≤ p := by
  intro p hp
  obtain ⟨i, hi, rfl⟩ := List.getElem_of_mem hp
  have hi' : i < s.lib.events.length := by rw [← inv.table.length]; exact hi
  obtain ⟨q, hq, hq'⟩ := inv.table.fresh i s.lib.events[i] (by simp [hi'])
  simp only [List.getElem?_eq_getElem hi, Option.some.injEq] at hq
  rw [hq]; exact (hs.rates _ _ _ hq').1

theorem exists_pos_of_sum_pos : ∀ {l : List ℝ}, 0 < l.sum → ∃ p ∈ l, 0 < p
  | [], h => by simp at h
  | a :: l, h => by
    by_cases ha : 0 < a
    · exact ⟨a, by simp, ha⟩
    · rw [List.sum_cons] at h
      obtain ⟨p, hp, hpos⟩ := exists_pos_of_sum_pos (l := l) (by linarith)
      exact ⟨p, by simp [hp], hpos⟩

/-- What is true of every simulation that can come out of `s0`. -/
structure Met (o : ActiveSiteOrder String ψ) (mobile : String) (m : RateModel Unit ℝ EReal)
    (st : State EReal) (s0 s : Sim σ φ Unit ℝ EReal) : Prop where
  inv : SimInv o mobile Rounding.exact m s0 s
  perm : s.st.occ.Perm st.occ

theorem met_update (hs : HopSystem o mobile h Rounding.exact m g lib st)
    (ha : Answers o mobile m lib.events st.occ)
    (hi : Sim.init (realKernel Rounding.exact) m lib.generateEventDependencies (some h) (some st) = .ok s0)
    {s : Sim σ φ Unit ℝ EReal} (hm : Met o mobile m st s0 s) {e : Event} (he : e ∈ s0.lib.events)
    (dt : EReal) :
    ∃ s', s.update (realKernel Rounding.exact) m e dt = (.ok (), s') ∧ Met o mobile m st s0 s' ∧
      Leads e s.st.occ s'.st.occ := by
  obtain ⟨s', h1, h2, h3⟩ := update_total hs ha hi hm.inv (kept_perm o lib.events st.occ hs.fit) hm.perm
    (dt := dt) he
  exact ⟨s', h1, ⟨h2, h3⟩, (sim_inv_update hs hi hm.inv he h1).2⟩

theorem met_next (hs : HopSystem o mobile h Rounding.exact m g lib st)
    (ha : Answers o mobile m lib.events st.occ)
    (hi : Sim.init (realKernel Rounding.exact) m lib.generateEventDependencies (some h) (some st) = .ok s0)
    {s s' : Sim σ φ Unit ℝ EReal} (hm : Met o mobile m st s0 s) (hn : Next m s s') :
    Met o mobile m st s0 s' ∧ ∃ (i : Nat) (e : Event), s0.lib.events[i]? = some e ∧
      Leads e s.st.occ s'.st.occ ∧ 0 < s.prob.getD i 0 := by
  obtain ⟨r1, r2, e, dt, h0, h1, hp, hu⟩ := hn
  obtain ⟨he, hd⟩ := proposed_possible hs hm.inv h0 h1 hp
  obtain ⟨s'', hu', hm', hl⟩ := met_update hs ha hi hm he dt
  rw [hu'] at hu
  cases hu
  refine ⟨hm', ?_⟩
  obtain ⟨i, hpi, hei⟩ := (propose_iff hm.inv.table.cum).1 hp
  refine ⟨i, e, by rw [← hm.inv.lib]; exact hei, hl, ?_⟩
  have hpos : ∃ p ∈ s.prob, 0 < p := by
    by_contra hno
    push Not at hno
    obtain ⟨x, hx⟩ := C04_frozen_raises Rounding.exact s.prob
      (fun p hp => le_antisymm (hno p hp) (rates_nonneg hs hm.inv p hp)) r1 r2
    rw [hx] at hpi; cases hpi
  obtain ⟨j, dt', p, h2, h3, h4⟩ := C01_selected_event_allowed Rounding.exact s.prob (fun _ _ => rfl)
    (rates_nonneg hs hm.inv) hpos r1 r2 h0 h1
  rw [hpi] at h2
  cases h2
  rw [List.getD_eq_getElem?_getD, h3]
  exact h4

theorem met_reaches (hs : HopSystem o mobile h Rounding.exact m g lib st)
    (ha : Answers o mobile m lib.events st.occ)
    (hi : Sim.init (realKernel Rounding.exact) m lib.generateEventDependencies (some h) (some st) = .ok s0)
    {s s' : Sim σ φ Unit ℝ EReal} (hm : Met o mobile m st s0 s) (hr : Reaches m s s') :
    Met o mobile m st s0 s' := by
  induction hr with
  | refl => exact hm
  | tail _ hn ih => exact (met_next hs ha hi ih hn).1

theorem met_start (hs : HopSystem o mobile h Rounding.exact m g lib st)
    (hi : Sim.init (realKernel Rounding.exact) m lib.generateEventDependencies (some h) (some st) = .ok s0) :
    Met o mobile m st s0 s0 := by
  refine ⟨sim_init_inv hs hi, ?_⟩
  obtain ⟨i1, -⟩ := init_ok hi
  cases i1
  exact List.Perm.refl _

/-- The chance of a step is the sum of the rates of the events that make it over the total rate. -/
theorem chance_eq (hs : HopSystem o mobile h Rounding.exact m g lib st)
    (ha : Answers o mobile m lib.events st.occ)
    (hi : Sim.init (realKernel Rounding.exact) m lib.generateEventDependencies (some h) (some st) = .ok s0)
    {s : Sim σ φ Unit ℝ EReal} (hm : Met o mobile m st s0 s) (hpos : 0 < s.prob.sum) (r2 : ℝ) (y : List Int) :
    chance m r2 s y = flow s0.lib.events s.prob s.st.occ y / s.prob.sum := by
  classical
  have hlen : s.prob.length = s0.lib.events.length := by rw [hm.inv.table.length, hm.inv.lib]
  have hv := volume_selected s.prob (rates_nonneg hs hm.inv) hpos r2
    ((Finset.range s0.lib.events.length).filter fun i => ∃ e, s0.lib.events[i]? = some e ∧ Leads e s.st.occ y)
    (by intro i hi'; simp only [Finset.mem_filter, Finset.mem_range] at hi'; rw [hlen]; exact hi'.1)
  unfold flow
  rw [← Finset.sum_filter]
  rw [← hv]
  unfold chance
  congr 2
  ext r1
  simp only [Set.mem_ofPred_eq, Finset.mem_filter, Finset.mem_range]
  constructor
  · rintro ⟨h0, h1, e, dt, s', hp, hu, rfl⟩
    refine ⟨h0, h1, ?_⟩
    obtain ⟨i, hpi, hei⟩ := (propose_iff hm.inv.table.cum).1 hp
    obtain ⟨he, -⟩ := proposed_possible hs hm.inv h0 h1 hp
    obtain ⟨s'', hu', -, hl⟩ := met_update hs ha hi hm he dt
    rw [hu'] at hu
    cases hu
    rw [hm.inv.lib] at hei
    exact ⟨i, ⟨(List.getElem?_eq_some_iff.1 hei).1, e, hei, hl⟩, dt, hpi⟩
  · rintro ⟨h0, h1, i, ⟨hil, e, hei, hl⟩, dt, hpi⟩
    obtain ⟨s', hu, -, hl'⟩ := met_update hs ha hi hm (List.mem_of_getElem? hei) dt
    exact ⟨h0, h1, e, dt, s', (propose_iff hm.inv.table.cum).2 ⟨i, hpi, by rw [hm.inv.lib]; exact hei⟩, hu,
      leads_unique hl' hl⟩

/-- The time of a stay. -/
theorem stay_eq (hs : HopSystem o mobile h Rounding.exact m g lib st)
    {s : Sim σ φ Unit ℝ EReal} (hm : Met o mobile m st s0 s) (hpos : 0 < s.prob.sum) (r1 : ℝ) (h0 : 0 ≤ r1)
    (h1 : r1 < 1) (r2 : ℝ) : stay s r1 r2 = -1 / s.prob.sum * Real.log r2 := by
  have hne : s.prob ≠ [] := by rintro h; rw [h] at hpos; simp at hpos
  have hp := exists_pos_of_sum_pos hpos
  obtain ⟨i, dt, p, a1, a2, -⟩ := C01_selected_event_allowed Rounding.exact s.prob (fun _ _ => rfl)
    (rates_nonneg hs hm.inv) hp r1 r2 h0 h1
  have hil : i < s.lib.events.length := by
    rw [← hm.inv.table.length]; exact (List.getElem?_eq_some_iff.1 a2).1
  have hprop := (propose_iff (e := s.lib.events[i]) hm.inv.table.cum).2 ⟨i, a1, by simp [hil]⟩
  unfold stay
  rw [hprop]
  simp only
  unfold propose at a1
  rw [cumsum_exact_last hne] at a1
  simp only at a1
  rw [if_neg (ne_of_gt hpos)] at a1
  simp only [Except.ok.injEq, Prod.mk.injEq] at a1
  rw [← a1.2]
  unfold waitingTime
  split
  · rename_i hz
    rw [hz]; simp
  · simp only [Rounding.exact, id, EReal.toReal_coe]

/-- The mean stay is the inverse of the total rate. -/
theorem meanStay_eq (hs : HopSystem o mobile h Rounding.exact m g lib st)
    {s : Sim σ φ Unit ℝ EReal} (hm : Met o mobile m st s0 s) (hpos : 0 < s.prob.sum) (r1 : ℝ) (h0 : 0 ≤ r1)
    (h1 : r1 < 1) : meanStay r1 s = 1 / s.prob.sum := by
  have hstay := stay_eq hs hm hpos r1 h0 h1
  unfold meanStay
  simp only [hstay]
  rw [intervalIntegral.integral_const_mul, integral_log]
  simp
  ring

/-- Simulations in the same configuration have the same rates. -/
theorem met_prob (hs : HopSystem o mobile h Rounding.exact m g lib st) {s s' : Sim σ φ Unit ℝ EReal}
    (hm : Met o mobile m st s0 s) (hm' : Met o mobile m st s0 s') (ho : s.st.occ = s'.st.occ) :
    s.prob = s'.prob := by
  refine List.ext_getElem? fun i => ?_
  by_cases hl : i < s0.lib.events.length
  · obtain ⟨p, h1, h2⟩ := hm.inv.table.fresh i s0.lib.events[i] (by rw [hm.inv.lib]; simp [hl])
    obtain ⟨p', h1', h2'⟩ := hm'.inv.table.fresh i s0.lib.events[i] (by rw [hm'.inv.lib]; simp [hl])
    have := hs.loc.local_rate s0.lib.events[i] s.st s'.st (by rw [ho]) (fun _ _ => by rw [ho])
    rw [h2, h2', Except.ok.injEq] at this
    rw [h1, h1', this]
  · rw [List.getElem?_eq_none (by rw [hm.inv.table.length, hm.inv.lib]; omega),
      List.getElem?_eq_none (by rw [hm'.inv.table.length, hm'.inv.lib]; omega)]

/-- Events of the simulation can be undone by themselves, or are never possible. -/
theorem event_twoWay (hs : HopSystem o mobile h Rounding.exact m g lib st)
    (hi : Sim.init (realKernel Rounding.exact) m lib.generateEventDependencies (some h) (some st) = .ok s0)
    {e : Event} (he : e ∈ s0.lib.events) {occ : List Int} (hw : WellLabelled o mobile occ)
    (hlen : occ.length = st.occ.length) {d : Int} (hd : eventDirection occ e = .ok d) (h0 : d ≠ 0) :
    TwoWay e := by
  obtain ⟨f, t, hf, ht, hm, hall, a, b, c1, c2, c3, c4, hc⟩ := event_facts hs hi he
  rw [← hlen] at hf ht
  refine ⟨_, hc, rfl, rfl, ?_⟩
  rintro hab
  simp only at hab
  subst hab
  have hvf : occ[f]? = some occ[f] := by simp [hf]
  have hvt : occ[t]? = some occ[t] := by simp [ht]
  obtain ⟨m1, v1, d1, d2, d3, d4, d5⟩ := site_codes hw hs.lookup hvf
  obtain ⟨m2, v2, d1', d2', d3', d4', d5'⟩ := site_codes hw hs.lookup hvt
  rw [c1] at d1; rw [c3] at d2; rw [c2] at d1'; rw [c4] at d2'
  cases d1; cases d2; cases d1'; cases d2'
  have hd' := eventDirection_of hm (pyIdx_natCast hf) (pyIdx_natCast ht) hvf hvt
  rw [hd, hc] at hd'
  have key : ∀ i, (speciesAt o occ i = some mobile) → (∃ s, speciesAt o occ i = some s ∧ IsVacancyLabel s) →
      False := by
    rintro i h1 ⟨s, h2, h3⟩
    rw [h1] at h2; cases h2
    exact hw.mobileNotVacancy h3
  by_cases h1 : occ[f] = a
  · exact key f (d3.1 h1) (d4.1 h1)
  · rw [Except.ok.injEq] at hd'
    rw [hd'] at h0
    simp [endpointDirectionFromCodes, h1] at h0

theorem met_applyEvent (hs : HopSystem o mobile h Rounding.exact m g lib st)
    (ha : Answers o mobile m lib.events st.occ)
    (hi : Sim.init (realKernel Rounding.exact) m lib.generateEventDependencies (some h) (some st) = .ok s0)
    {s : Sim σ φ Unit ℝ EReal} (hm : Met o mobile m st s0 s) {e : Event} (he : e ∈ s0.lib.events) {y : List Int}
    (hl : Leads e s.st.occ y) : ∃ st', s.st.applyEvent e 0 = (.ok (), st') ∧ st'.occ = y := by
  obtain ⟨s', hu, -, hl'⟩ := met_update hs ha hi hm he 0
  obtain ⟨st1, ms, i, prob, h1, -, -, -, rfl⟩ := update_ok hu
  exact ⟨st1, h1, leads_unique hl' hl⟩

/-- Detailed balance of one event between two simulations. -/
theorem balance_event (hs : HopSystem o mobile h Rounding.exact m g lib st)
    (ha : Answers o mobile m lib.events st.occ)
    (hi : Sim.init (realKernel Rounding.exact) m lib.generateEventDependencies (some h) (some st) = .ok s0)
    {W : List Int → ℝ} (hb : Balanced o mobile m s0.lib.events W)
    {s t : Sim σ φ Unit ℝ EReal} (hm : Met o mobile m st s0 s) (hm' : Met o mobile m st s0 t) {i : Nat}
    {e : Event} (he : s0.lib.events[i]? = some e) (hl : Leads e s.st.occ t.st.occ) :
    W s.st.occ * s.prob.getD i 0 = W t.st.occ * t.prob.getD i 0 := by
  have hmem := List.mem_of_getElem? he
  obtain ⟨p, h1, h2⟩ := hm.inv.table.fresh i e (by rw [hm.inv.lib]; exact he)
  obtain ⟨p', h1', h2'⟩ := hm'.inv.table.fresh i e (by rw [hm'.inv.lib]; exact he)
  rw [List.getD_eq_getElem?_getD, List.getD_eq_getElem?_getD, h1, h1']
  simp only [Option.getD_some]
  obtain ⟨f, x, hf, hx, hmob, -⟩ := event_facts hs hi hmem
  have dir : ∀ {u : Sim σ φ Unit ℝ EReal}, Met o mobile m st s0 u → ∃ d, eventDirection u.st.occ e = .ok d := by
    intro u hu
    rw [← hu.perm.length_eq] at hf hx
    exact ⟨_, eventDirection_of hmob (pyIdx_natCast hf) (pyIdx_natCast hx) (List.getElem?_eq_getElem hf)
      (List.getElem?_eq_getElem hx)⟩
  have main : ∀ {u v : Sim σ φ Unit ℝ EReal}, Met o mobile m st s0 u → Met o mobile m st s0 v →
      Leads e u.st.occ v.st.occ → ∀ {d : Int}, eventDirection u.st.occ e = .ok d → d ≠ 0 →
      ∀ {q q' : ℝ}, m.computeProbability () e u.st = .ok q → m.computeProbability () e v.st = .ok q' →
        W u.st.occ * q = W v.st.occ * q' := by
    intro u v hu hv hl d hd h0 q q' hq hq'
    obtain ⟨st', h3, h4⟩ := met_applyEvent hs ha hi hu hmem hl
    have h5 : m.computeProbability () e st' = .ok q' := by
      rw [hs.loc.local_rate e st' v.st (by rw [h4]) (fun _ _ => by rw [h4])]
      exact hq'
    have := hb e hmem u.st st' 0 d q q' hu.inv.labelled hd h0 h3 hq h5
    rw [h4] at this
    exact this
  obtain ⟨d, hd⟩ := dir hm
  obtain ⟨d', hd'⟩ := dir hm'
  by_cases h0 : d = 0
  · by_cases h0' : d' = 0
    · subst h0 h0'
      rw [hs.forbidden e _ p hd h2, hs.forbidden e _ p' hd' h2']
      ring
    · exact (main hm' hm (leads_symm hl) hd' h0' h2' h2).symm
  · exact main hm hm' hl hd h0 h2 h2'

/-- Detailed balance of the flows between two configurations. -/
theorem balance_flow (hs : HopSystem o mobile h Rounding.exact m g lib st)
    (ha : Answers o mobile m lib.events st.occ)
    (hi : Sim.init (realKernel Rounding.exact) m lib.generateEventDependencies (some h) (some st) = .ok s0)
    {W : List Int → ℝ} (hb : Balanced o mobile m s0.lib.events W)
    {s t : Sim σ φ Unit ℝ EReal} (hm : Met o mobile m st s0 s) (hm' : Met o mobile m st s0 t) :
    W s.st.occ * flow s0.lib.events s.prob s.st.occ t.st.occ =
      W t.st.occ * flow s0.lib.events t.prob t.st.occ s.st.occ := by
  classical
  unfold flow
  rw [Finset.mul_sum, Finset.mul_sum]
  refine Finset.sum_congr rfl fun i hi' => ?_
  by_cases hl : ∃ e, s0.lib.events[i]? = some e ∧ Leads e s.st.occ t.st.occ
  · obtain ⟨e, he, hl⟩ := hl
    rw [if_pos ⟨e, he, hl⟩, if_pos ⟨e, he, leads_symm hl⟩]
    exact balance_event hs ha hi hb hm hm' he hl
  · rw [if_neg hl, if_neg, mul_zero, mul_zero]
    rintro ⟨e, he, h2⟩
    exact hl ⟨e, he, leads_symm h2⟩

/-- An event with a positive rate can come next. -/
theorem next_of_rate (hs : HopSystem o mobile h Rounding.exact m g lib st)
    (ha : Answers o mobile m lib.events st.occ)
    (hi : Sim.init (realKernel Rounding.exact) m lib.generateEventDependencies (some h) (some st) = .ok s0)
    {s : Sim σ φ Unit ℝ EReal} (hm : Met o mobile m st s0 s) {i : Nat} {e : Event}
    (he : s0.lib.events[i]? = some e) (hp : 0 < s.prob.getD i 0) :
    ∃ s', Next m s s' ∧ Leads e s.st.occ s'.st.occ := by
  have hnn := rates_nonneg hs hm.inv
  have hil : i < s.prob.length := by
    rw [hm.inv.table.length, hm.inv.lib]; exact (List.getElem?_eq_some_iff.1 he).1
  have hsum : (s.prob.take (i + 1)).sum = (s.prob.take i).sum + s.prob.getD i 0 := by
    rw [List.take_add_one, List.getD_eq_getElem?_getD, List.getElem?_eq_getElem hil]
    simp only [List.sum_append, Option.toList_some, List.sum_singleton, Option.getD_some]
  have hle : (s.prob.take (i + 1)).sum ≤ s.prob.sum := List.Sublist.sum_le_sum (List.take_sublist _ _) hnn
  have h0 : 0 ≤ (s.prob.take i).sum := List.sum_nonneg fun a ha' => hnn a (List.mem_of_mem_take ha')
  have hpos : 0 < s.prob.sum := by linarith
  have hr0 : 0 ≤ (s.prob.take i).sum / s.prob.sum := div_nonneg h0 hpos.le
  have hlt : (s.prob.take i).sum / s.prob.sum < (s.prob.take (i + 1)).sum / s.prob.sum := by
    gcongr; linarith
  obtain ⟨dt, hsel⟩ := (C02_selection_interval s.prob hnn hpos i hil _ 0 hr0).2 ⟨le_refl _, hlt⟩
  obtain ⟨s', hu, -, hl⟩ := met_update hs ha hi hm (List.mem_of_getElem? he) dt
  refine ⟨s', ⟨_, 0, e, dt, hr0, lt_of_lt_of_le hlt ?_,
    (propose_iff hm.inv.table.cum).2 ⟨i, hsel, by rw [hm.inv.lib]; exact he⟩, hu⟩, hl⟩
  rw [div_le_one hpos]
  exact hle

theorem prob_getD_nonneg (hs : HopSystem o mobile h Rounding.exact m g lib st) {s : Sim σ φ Unit ℝ EReal}
    (hm : Met o mobile m st s0 s) (i : Nat) : 0 ≤ s.prob.getD i 0 := by
  rw [List.getD_eq_getElem?_getD]
  by_cases hi : i < s.prob.length
  · rw [List.getElem?_eq_getElem hi]
    exact rates_nonneg hs hm.inv _ (List.getElem_mem hi)
  · rw [List.getElem?_eq_none (by omega)]; exact le_refl _

theorem flow_nonneg (hs : HopSystem o mobile h Rounding.exact m g lib st) {s : Sim σ φ Unit ℝ EReal}
    (hm : Met o mobile m st s0 s) (x y : List Int) : 0 ≤ flow s0.lib.events s.prob x y := by
  classical
  unfold flow
  refine Finset.sum_nonneg fun i _ => ?_
  split
  · exact prob_getD_nonneg hs hm i
  · exact le_refl _

theorem flow_pos (hs : HopSystem o mobile h Rounding.exact m g lib st) {s : Sim σ φ Unit ℝ EReal}
    (hm : Met o mobile m st s0 s) {x y : List Int} {i : Nat} {e : Event} (he : s0.lib.events[i]? = some e)
    (hl : Leads e x y) (hp : 0 < s.prob.getD i 0) : 0 < flow s0.lib.events s.prob x y := by
  classical
  unfold flow
  refine Finset.sum_pos' (fun j _ => ?_) ⟨i, Finset.mem_range.2 (List.getElem?_eq_some_iff.1 he).1, ?_⟩
  · split
    · exact prob_getD_nonneg hs hm j
    · exact le_refl _
  · rw [if_pos ⟨e, he, hl⟩]; exact hp

/-- All flow out of a configuration goes to configurations that can be reached. -/
theorem flow_total (hs : HopSystem o mobile h Rounding.exact m g lib st)
    (ha : Answers o mobile m lib.events st.occ)
    (hi : Sim.init (realKernel Rounding.exact) m lib.generateEventDependencies (some h) (some st) = .ok s0)
    {s : Sim σ φ Unit ℝ EReal} (hm : Met o mobile m st s0 s) (Ω : Finset (List Int))
    (hΩ : ∀ s', Next m s s' → s'.st.occ ∈ Ω) :
    s.prob.sum = ∑ y ∈ Ω, flow s0.lib.events s.prob s.st.occ y := by
  classical
  unfold flow
  rw [Finset.sum_comm, ← sum_getD, hm.inv.table.length, hm.inv.lib]
  refine Finset.sum_congr rfl fun i hil => ?_
  rw [Finset.mem_range] at hil
  have he : s0.lib.events[i]? = some s0.lib.events[i] := by simp [hil]
  rcases (prob_getD_nonneg hs hm i).lt_or_eq with hp | hp
  · obtain ⟨s', hn, hl⟩ := next_of_rate hs ha hi hm he hp
    rw [Finset.sum_eq_single s'.st.occ]
    · rw [if_pos ⟨_, he, hl⟩]
    · intro y _ hne
      rw [if_neg]
      rintro ⟨e, he', hl'⟩
      rw [he, Option.some.injEq] at he'
      subst he'
      exact hne (leads_unique hl' hl)
    · intro hno
      exact absurd (hΩ s' hn) hno
  · rw [← hp]
    simp

/-- A step leads along positive flow, and the way back has positive flow too. -/
theorem next_flow (hs : HopSystem o mobile h Rounding.exact m g lib st)
    (ha : Answers o mobile m lib.events st.occ)
    (hi : Sim.init (realKernel Rounding.exact) m lib.generateEventDependencies (some h) (some st) = .ok s0)
    {W : List Int → ℝ} (hb : Balanced o mobile m s0.lib.events W) (hW : ∀ x, 0 < W x)
    {s s' : Sim σ φ Unit ℝ EReal} (hm : Met o mobile m st s0 s) (hn : Next m s s') :
    0 < flow s0.lib.events s.prob s.st.occ s'.st.occ ∧ 0 < flow s0.lib.events s'.prob s'.st.occ s.st.occ ∧
      0 < s'.prob.sum := by
  obtain ⟨hm', i, e, he, hl, hp⟩ := met_next hs ha hi hm hn
  have hbal := balance_event hs ha hi hb hm hm' he hl
  have hp' : 0 < s'.prob.getD i 0 := by
    have h1 := mul_pos (hW s.st.occ) hp
    rw [hbal] at h1
    exact (pos_iff_pos_of_mul_pos h1).1 (hW _)
  refine ⟨flow_pos hs hm he hl hp, flow_pos hs hm' he (leads_symm hl) hp', ?_⟩
  have hil : i < s'.prob.length := by
    rw [hm'.inv.table.length, hm'.inv.lib]; exact (List.getElem?_eq_some_iff.1 he).1
  refine lt_of_lt_of_le hp' ?_
  rw [List.getD_eq_getElem?_getD, List.getElem?_eq_getElem hil]
  exact List.single_le_sum (rates_nonneg hs hm'.inv) _ (List.getElem_mem hil)

/-- A simulation that is not stuck has a positive total rate. -/
theorem sum_pos_of_not_stuck (hs : HopSystem o mobile h Rounding.exact m g lib st) {s : Sim σ φ Unit ℝ EReal}
    (hm : Met o mobile m st s0 s) (hst : ¬ Stuck m s) : 0 < s.prob.sum := by
  by_contra hno
  apply hst
  intro e he p hp
  obtain ⟨i, hil, rfl⟩ := List.getElem_of_mem he
  obtain ⟨q, h1, h2⟩ := hm.inv.table.fresh i s.lib.events[i] (by simp [hil])
  rw [hp] at h2
  cases h2
  have hle := List.single_le_sum (rates_nonneg hs hm.inv) p (List.mem_of_getElem? h1)
  have h0 := rates_nonneg hs hm.inv p (List.mem_of_getElem? h1)
  linarith

theorem reaches_sum_pos (hs : HopSystem o mobile h Rounding.exact m g lib st)
    (ha : Answers o mobile m lib.events st.occ)
    (hi : Sim.init (realKernel Rounding.exact) m lib.generateEventDependencies (some h) (some st) = .ok s0)
    {W : List Int → ℝ} (hb : Balanced o mobile m s0.lib.events W) (hW : ∀ x, 0 < W x)
    (hst : ¬ Stuck m s0) {s : Sim σ φ Unit ℝ EReal} (hr : Reaches m s0 s) : 0 < s.prob.sum := by
  rcases Relation.ReflTransGen.cases_tail hr with rfl | ⟨u, hu, hn⟩
  · exact sum_pos_of_not_stuck hs (met_start hs hi) hst
  · exact (next_flow hs ha hi hb hW (met_reaches hs ha hi (met_start hs hi) hu) hn).2.2

/-! ### Arrangements on a connected network -/

theorem exchanged_comm {α : Type} {i j : Nat} {a b : List α} (h : Exchanged i j a b) : Exchanged j i a b :=
  ⟨h.1, h.2.2.1, h.2.1, fun k h1 h2 => h.2.2.2 k h2 h1⟩

theorem exchanged_self {α : Type} {i j : Nat} {a : List α} (h : a[i]? = a[j]?) : Exchanged i j a a :=
  ⟨rfl, h, h.symm, fun _ _ _ => rfl⟩

theorem exchanged_conj {α : Type} {i j k : Nat} {x y z w : List α} (hij : i ≠ j) (hik : i ≠ k) (hjk : j ≠ k)
    (h1 : Exchanged k j x y) (h2 : Exchanged i k y z) (h3 : Exchanged k j z w) : Exchanged i j x w := by
  obtain ⟨a1, a2, a3, a4⟩ := h1
  obtain ⟨b1, b2, b3, b4⟩ := h2
  obtain ⟨c1, c2, c3, c4⟩ := h3
  refine ⟨by omega, ?_, ?_, ?_⟩
  · rw [c4 i hik hij, b2, a2]
  · rw [c3, b3, a4 i hik hij]
  · intro q hqi hqj
    by_cases hqk : q = k
    · subst hqk
      rw [c2, b4 j hij.symm hjk, a3]
    · rw [c4 q hqk hqj, b4 q hqi hqk, a4 q hqk hqj]

theorem count_mono (v : Int) : ∀ (x y : List Int), x.length = y.length →
    (∀ q : Nat, x[q]? = some v → y[q]? = some v) → x.count v ≤ y.count v ∧
      ∀ p : Nat, y[p]? = some v → x[p]? ≠ some v → x.count v < y.count v
  | [], [], _, _ => ⟨le_refl _, by simp⟩
  | [], _ :: _, h, _ => by simp at h
  | _ :: _, [], h, _ => by simp at h
  | a :: x, b :: y, hl, h => by
    obtain ⟨ih1, ih2⟩ := count_mono v x y (by simpa using hl) (fun q hq => by
      have := h (q + 1); simpa using this (by simpa using hq))
    have h0 : a = v → b = v := by have := h 0; simpa using this
    have hc : ∀ (c : Int) (l : List Int), (c :: l).count v = l.count v + if c = v then 1 else 0 := by
      intro c l; rw [List.count_cons]; simp
    rw [hc, hc]
    constructor
    · by_cases ha : a = v
      · rw [if_pos ha, if_pos (h0 ha)]; omega
      · rw [if_neg ha]; omega
    · intro p hp hp'
      cases p with
      | zero =>
        simp only [List.getElem?_cons_zero, Option.some.injEq, ne_eq] at hp hp'
        rw [if_pos hp, if_neg hp']; omega
      | succ p =>
        simp only [List.getElem?_cons_succ] at hp hp'
        have := ih2 p hp hp'
        by_cases ha : a = v
        · rw [if_pos ha, if_pos (h0 ha)]; omega
        · rw [if_neg ha]; omega

/-- In two arrangements of the same contents, a wrong site has a partner: a wrong site that holds what the
first one should hold. -/
theorem wrong_partner {x y : List Int} (hp : y.Perm x) {p : Nat} (hne : x[p]? ≠ y[p]?) :
    ∃ q : Nat, x[q]? = y[p]? ∧ x[q]? ≠ y[q]? ∧ q < x.length := by
  have hlen := hp.length_eq
  have hpl : p < y.length := by
    by_contra hc
    rw [List.getElem?_eq_none (by omega), List.getElem?_eq_none (by omega)] at hne
    exact hne rfl
  have hv : y[p]? = some y[p] := by simp [hpl]
  by_contra hno
  push Not at hno
  have := (count_mono y[p] x y hlen.symm (fun q hq => by
    by_contra hq'
    have h2 := hno q (by rw [hq, hv]) (by rw [hq]; exact fun hc => hq' hc.symm)
    have := (List.getElem?_eq_some_iff.1 hq).1
    omega)).2 p hv (by rw [← hv]; exact hne)
  have hc := hp.count_eq y[p]
  omega

/-- The annotated event that joins two linked sites. -/
theorem linked_event
    (hi : Sim.init (realKernel Rounding.exact) m lib.generateEventDependencies (some h) (some st) = .ok s0)
    {i j : Nat} (hl : Linked lib.events i j) :
    ∃ (k : Nat) (e x : Event), s0.lib.events[k]? = some e ∧ x ∈ lib.events ∧ e.mobile = x.mobile ∧
      e.env = x.env ∧ (e.mobile = [(i : Int), (j : Int)] ∨ e.mobile = [(j : Int), (i : Int)]) := by
  obtain ⟨x, hx, hm⟩ := hl
  obtain ⟨-, -, a1, a2, -, -, -, -⟩ := init_ok hi
  obtain ⟨k, hk, rfl⟩ := List.getElem_of_mem hx
  have h1 := congrArg (fun l => l[k]?) a1
  have h2 := congrArg (fun l => l[k]?) a2
  have hk' : lib.generateEventDependencies.events[k]? = some lib.events[k] := by
    show lib.events[k]? = _
    simp [hk]
  simp only [List.getElem?_map, hk', Option.map_some, Option.map_eq_some_iff] at h1 h2
  obtain ⟨e, h1, h1'⟩ := h1
  obtain ⟨e2, h2, h2'⟩ := h2
  rw [h1, Option.some.injEq] at h2
  subst h2
  exact ⟨k, e, _, h1, List.getElem_mem hk, h1', h2', by rw [h1']; exact hm⟩

/-- Two linked sites of a network can exchange their contents. -/
theorem link_swap (hs : HopSystem o mobile h Rounding.exact m g lib st)
    (ha : Answers o mobile m lib.events st.occ)
    (hi : Sim.init (realKernel Rounding.exact) m lib.generateEventDependencies (some h) (some st) = .ok s0)
    (hw : Willing m) {S : Nat → Prop} {s : Sim σ φ Unit ℝ EReal} (hm : Met o mobile m st s0 s)
    (n : Network o mobile lib.events s.st.occ S) {i j : Nat} (hl : Linked lib.events i j) :
    ∃ s', Reaches m s s' ∧ Exchanged i j s.st.occ s'.st.occ ∧ Network o mobile lib.events s'.st.occ S := by
  by_cases heq : s.st.occ[i]? = s.st.occ[j]?
  · exact ⟨s, .refl, exchanged_self heq, n⟩
  obtain ⟨si, sj⟩ := linked_ends n hl
  obtain ⟨k, e, x, he, hx, hem, hee, hmob⟩ := linked_event hi hl
  have hmem := List.mem_of_getElem? he
  obtain ⟨f, t, hf, ht, hm', hall, a, b, c1, c2, c3, c4, hc⟩ := event_facts hs hi hmem
  rw [← hm.perm.length_eq] at hf ht
  have hvf : s.st.occ[f]? = some s.st.occ[f] := by simp [hf]
  have hvt : s.st.occ[t]? = some s.st.occ[t] := by simp [ht]
  have hd := eventDirection_of hm' (pyIdx_natCast hf) (pyIdx_natCast ht) hvf hvt
  obtain ⟨m1, v1, d1, d2, d3, d4, -⟩ := site_codes hm.inv.labelled hs.lookup hvf
  obtain ⟨m2, v2, d1', d2', d3', d4', -⟩ := site_codes hm.inv.labelled hs.lookup hvt
  rw [c1] at d1; rw [c3] at d2; rw [c2] at d1'; rw [c4] at d2'
  cases d1; cases d2; cases d1'; cases d2'
  have hft : (f = i ∧ t = j) ∨ (f = j ∧ t = i) := by
    rw [hm'] at hmob
    rcases hmob with hq | hq
    · simp only [List.cons.injEq, Nat.cast_inj, and_true] at hq; exact .inl hq
    · simp only [List.cons.injEq, Nat.cast_inj, and_true] at hq; exact .inr hq
  have hne : s.st.occ[f] ≠ s.st.occ[t] := by
    intro hc'
    apply heq
    rcases hft with ⟨rfl, rfl⟩ | ⟨rfl, rfl⟩
    · rw [hvf, hvt, hc']
    · rw [hvf, hvt, hc']
  have sf : S f ∧ S t := by rcases hft with ⟨rfl, rfl⟩ | ⟨rfl, rfl⟩ <;> exact ⟨by assumption, by assumption⟩
  obtain ⟨p, hpr⟩ := ha.rate e s.st ⟨x, hx, hem, hee⟩ (sameComposition_iff_perm.2 hm.perm) hm.inv.labelled
  have hdir : endpointDirectionFromCodes s.st.occ[f] s.st.occ[t] (e.codes.getD defaultHopCodes) ≠ 0 := by
    rw [hc]
    have hv : ∀ {i : Nat}, Vacant o s.st.occ i → ∃ s', speciesAt o s.st.occ i = some s' ∧ IsVacancyLabel s' :=
      fun hv => by obtain ⟨v, q1, q2⟩ := hv; exact ⟨v, q2, q1⟩
    rcases n.filled f sf.1 with hfi | hfv <;> rcases n.filled t sf.2 with hti | htv
    · exact absurd ((d3.2 hfi).trans (d3'.2 hti).symm) hne
    · have e1 := d3.2 hfi
      have e2 := d4'.2 (hv htv)
      simp [endpointDirectionFromCodes, e1, e2]
    · have e1 := d3'.2 hti
      have e2 := d4.2 (hv hfv)
      simp only [endpointDirectionFromCodes, e1, e2, Option.getD_some]
      split <;> simp
    · exact absurd ((d4.2 (hv hfv)).trans (d4'.2 (hv htv)).symm) hne
  have hpos := hw e s.st _ p hd hdir hpr
  obtain ⟨q, h1, h2⟩ := hm.inv.table.fresh k e (by rw [hm.inv.lib]; exact he)
  have hq : 0 < s.prob.getD k 0 := by
    rw [List.getD_eq_getElem?_getD, h1]
    have h2' : m.computeProbability () e s.st = .ok q := h2
    rw [hpr, Except.ok.injEq] at h2'
    rw [← h2']; exact hpos
  obtain ⟨s', hn, f', t', hm'', hx'⟩ := next_of_rate hs ha hi hm he hq
  rw [hm'] at hm''
  simp only [List.cons.injEq, Nat.cast_inj, and_true] at hm''
  obtain ⟨rfl, rfl⟩ := hm''
  have hlink : Linked lib.events f t := ⟨x, hx, .inl (by rw [← hem]; exact hm')⟩
  refine ⟨s', .single hn, ?_, network_step n hlink hall hx'⟩
  rcases hft with ⟨rfl, rfl⟩ | ⟨rfl, rfl⟩
  · exact hx'
  · exact exchanged_comm hx'

/-- Any two sites of a network can exchange their contents. -/
theorem network_swap (hs : HopSystem o mobile h Rounding.exact m g lib st)
    (ha : Answers o mobile m lib.events st.occ)
    (hi : Sim.init (realKernel Rounding.exact) m lib.generateEventDependencies (some h) (some st) = .ok s0)
    (hw : Willing m) {S : Nat → Prop} {i j : Nat}
    (hc : Relation.ReflTransGen (Linked lib.events) i j) :
    ∀ {s : Sim σ φ Unit ℝ EReal}, Met o mobile m st s0 s → Network o mobile lib.events s.st.occ S →
    ∃ s', Reaches m s s' ∧ Exchanged i j s.st.occ s'.st.occ ∧ Network o mobile lib.events s'.st.occ S := by
  induction hc with
  | refl => intro s _ n; exact ⟨s, .refl, exchanged_self rfl, n⟩
  | @tail k j _ hkj ih =>
    intro s hm n
    by_cases hij : i = j
    · subst hij; exact ⟨s, .refl, exchanged_self rfl, n⟩
    by_cases hik : i = k
    · subst hik; exact link_swap hs ha hi hw hm n hkj
    by_cases hjk : j = k
    · subst hjk; exact ih hm n
    obtain ⟨s1, r1, x1, n1⟩ := link_swap hs ha hi hw hm n hkj
    have hm1 := met_reaches hs ha hi hm r1
    obtain ⟨s2, r2, x2, n2⟩ := ih hm1 n1
    have hm2 := met_reaches hs ha hi hm1 r2
    obtain ⟨s3, r3, x3, n3⟩ := link_swap hs ha hi hw hm2 n2 hkj
    exact ⟨s3, (r1.trans r2).trans r3, exchanged_conj hij hik hjk x1 x2 x3, n3⟩

/-- Every arrangement of the contents of a network can be reached. -/
theorem network_arrange (hs : HopSystem o mobile h Rounding.exact m g lib st)
    (ha : Answers o mobile m lib.events st.occ)
    (hi : Sim.init (realKernel Rounding.exact) m lib.generateEventDependencies (some h) (some st) = .ok s0)
    (hw : Willing m) {S : Nat → Prop} (y : List Int) : ∀ (c : Nat) (s : Sim σ φ Unit ℝ EReal),
    Met o mobile m st s0 s → Network o mobile lib.events s.st.occ S → y.Perm s.st.occ →
    (∀ i, ¬ S i → y[i]? = s.st.occ[i]?) →
    ((Finset.range y.length).filter fun i => s.st.occ[i]? ≠ y[i]?).card ≤ c →
    ∃ s', Reaches m s s' ∧ s'.st.occ = y := by
  intro c
  induction c with
  | zero =>
    intro s hm n hp hS hcard
    refine ⟨s, .refl, List.ext_getElem? fun i => ?_⟩
    by_contra hne
    have hil : i < y.length := by
      by_contra hc
      have := hp.length_eq
      rw [List.getElem?_eq_none (by omega), List.getElem?_eq_none (by omega)] at hne
      exact hne rfl
    have : ((Finset.range y.length).filter fun i => s.st.occ[i]? ≠ y[i]?) = ∅ :=
      Finset.card_eq_zero.1 (by omega)
    have hmem : i ∈ ((Finset.range y.length).filter fun i => s.st.occ[i]? ≠ y[i]?) :=
      Finset.mem_filter.2 ⟨Finset.mem_range.2 hil, hne⟩
    rw [this] at hmem
    simp at hmem
  | succ c ih =>
    intro s hm n hp hS hcard
    by_cases hall : ∀ i : Nat, s.st.occ[i]? = y[i]?
    · exact ⟨s, .refl, List.ext_getElem? hall⟩
    push Not at hall
    obtain ⟨p, hne⟩ := hall
    obtain ⟨q, q1, q2, q3⟩ := wrong_partner hp hne
    have sp : S p := by by_contra hc; exact hne (hS p hc).symm
    have sq : S q := by by_contra hc; exact q2 (hS q hc).symm
    have hpl : p < y.length := by
      by_contra hc
      have := hp.length_eq
      rw [List.getElem?_eq_none (by omega), List.getElem?_eq_none (by omega)] at hne
      exact hne rfl
    obtain ⟨s1, r1, hx, n1⟩ := network_swap hs ha hi hw (n.connected p q sp sq) hm n
    have hm1 := met_reaches hs ha hi hm r1
    have hlen := hp.length_eq
    have hp1 : y.Perm s1.st.occ := hp.trans (exchanged_perm (by omega) (by omega) hx).symm
    obtain ⟨s2, r2, h2⟩ := ih s1 hm1 n1 hp1 (fun i hi' => by
      rw [hS i hi', hx.2.2.2 i (fun h => hi' (h ▸ sp)) (fun h => hi' (h ▸ sq))]) (by
      have hlt : ((Finset.range y.length).filter fun i => s1.st.occ[i]? ≠ y[i]?).card <
          ((Finset.range y.length).filter fun i => s.st.occ[i]? ≠ y[i]?).card := by
        refine Finset.card_lt_card (Finset.ssubset_iff_of_subset ?_ |>.2 ⟨p, Finset.mem_filter.2
          ⟨Finset.mem_range.2 hpl, hne⟩, ?_⟩)
        · intro i hi'
          simp only [Finset.mem_filter, Finset.mem_range] at hi' ⊢
          refine ⟨hi'.1, ?_⟩
          by_cases h1 : i = p
          · subst h1; exact hne
          · by_cases h2 : i = q
            · subst h2; exact q2
            · rw [← hx.2.2.2 i h1 h2]; exact hi'.2
        · simp only [Finset.mem_filter, not_and, not_not]
          intro _
          rw [hx.2.1, q1]
      omega)
    exact ⟨s2, r1.trans r2, h2⟩

/-- What can be reached is an arrangement. -/
theorem reaches_arrangement (hs : HopSystem o mobile h Rounding.exact m g lib st)
    (ha : Answers o mobile m lib.events st.occ)
    (hi : Sim.init (realKernel Rounding.exact) m lib.generateEventDependencies (some h) (some st) = .ok s0)
    {S : Nat → Prop} (hS : ∀ e ∈ lib.events, ∀ f t : Nat, e.mobile = [(f : Int), (t : Int)] → S f ∧ S t)
    {s : Sim σ φ Unit ℝ EReal} (hr : Reaches m s0 s) :
    s.st.occ.Perm st.occ ∧ ∀ i, ¬ S i → s.st.occ[i]? = st.occ[i]? := by
  have hst : s0.st = st := by
    obtain ⟨i1, -⟩ := init_ok hi
    cases i1; rfl
  refine ⟨(met_reaches hs ha hi (met_start hs hi) hr).perm, ?_⟩
  induction hr with
  | refl => intro i _; rw [hst]
  | tail hu hn ih =>
    intro i hiS
    obtain ⟨-, k, e, he, ⟨f, t, hm, hx⟩, -⟩ := met_next hs ha hi (met_reaches hs ha hi (met_start hs hi) hu) hn
    obtain ⟨-, -, -, -, -, hann, -, -⟩ := init_ok hi
    obtain ⟨x, hx', hye⟩ := annotateEvents_mem (hann h rfl) e (List.mem_of_getElem? he)
    obtain ⟨f', t', mf, vt, vf, mt, -, -, -, -, -, rfl⟩ := annotateEvent_ok hye
    obtain ⟨h1, h2⟩ := hS x hx' f t hm
    rw [hx.2.2.2 i (fun h => hiS (h ▸ h1)) (fun h => hiS (h ▸ h2))]
    exact ih i hiS

end

end KMC
