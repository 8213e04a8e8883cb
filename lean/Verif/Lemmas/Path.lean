import Verif.Lemmas.OneSimulation
import Verif.Spec.Path
/-
Lemmas for the law of the first events and waiting times.
-/
set_option linter.unusedSectionVars false

namespace KMC
open Spec MeasureTheory Filter Topology ProbabilityTheory

theorem count_eq_card {α : Type} [DecidableEq α] (l : List α) (a : α) :
    ((Finset.range l.length).filter fun i => l[i]? = some a).card = l.count a := by
  induction l with
  | nil => simp
  | cons b l ih =>
    rw [List.count_cons, ← ih, List.length_cons, Finset.card_filter, Finset.card_filter, Finset.sum_range_succ']
    simp only [List.getElem?_cons_zero, Option.some.injEq, List.getElem?_cons_succ, beq_iff_eq]

section future
variable {Θ : Type} [mΘ : MeasurableSpace Θ] {μ : Measure Θ}
variable {E : Type} [mE : MeasurableSpace E]

/-- What is determined by the inputs from the `n`-th on. -/
@[instance_reducible] def future (U : Nat → Θ → E) (n : Nat) : MeasurableSpace Θ :=
  ⨆ i ∈ Set.Ici n, MeasurableSpace.comap (U i) mE

theorem future_le {U : Nat → Θ → E} (hU : ∀ n, Measurable (U n)) (n : Nat) : future U n ≤ mΘ :=
  iSup₂_le fun i _ => (hU i).comap_le

theorem future_mono (U : Nat → Θ → E) {n k : Nat} (h : n ≤ k) : future U k ≤ future U n :=
  biSup_mono fun _ hi => le_trans h hi

theorem future_input (U : Nat → Θ → E) (n : Nat) : Measurable[future U n] (U n) := by
  have : MeasurableSpace.comap (U n) mE ≤ future U n :=
    le_iSup₂_of_le (f := fun i (_ : i ∈ Set.Ici n) => MeasurableSpace.comap (U i) mE) n (Set.mem_Ici.2 le_rfl) le_rfl
  exact measurable_iff_comap_le.2 this

theorem future_indep {U : Nat → Θ → E} (hU : ∀ n, Measurable (U n)) (hind : iIndepFun U μ) (n : Nat) :
    Indep (MeasurableSpace.comap (U n) mE) (future U (n + 1)) μ := by
  have h := indep_iSup_of_disjoint (fun i => (hU i).comap_le) hind (S := {n}) (T := Set.Ici (n + 1)) (by simp)
  simpa [future] using h

end future

section
variable {σ φ ψ K : Type} [Field K] [LinearOrder K] [FloorRing K]
variable {o : ActiveSiteOrder String ψ} {mobile : String} {h : HopStateLookup}
  {m : RateModel Unit ℝ EReal} {g : Geometry K} {lib : EventLib σ φ} {st : State EReal}
  {s0 : Sim σ φ Unit ℝ EReal}

/-- The rate table holds the rates of the model. -/
theorem prob_eq_rates {s : Sim σ φ Unit ℝ EReal} (hm : Met o mobile m st s0 s) :
    s.prob = s0.lib.events.map (rateIn m s.st) := by
  refine List.ext_getElem? fun i => ?_
  by_cases hl : i < s0.lib.events.length
  · obtain ⟨p, h1, h2⟩ := hm.inv.table.fresh i s0.lib.events[i] (by rw [hm.inv.lib]; simp [hl])
    rw [h1, List.getElem?_map, List.getElem?_eq_getElem hl, Option.map_some]
    unfold rateIn
    rw [h2]
  · rw [List.getElem?_eq_none (by rw [hm.inv.table.length, hm.inv.lib]; omega),
      List.getElem?_eq_none (by rw [List.length_map]; omega)]

theorem prob_sum {s : Sim σ φ Unit ℝ EReal} (hm : Met o mobile m st s0 s) :
    s.prob.sum = totalRate m s0.lib.events s.st := by
  rw [prob_eq_rates hm]; rfl

/-- Simulations in the same configuration propose the same. -/
theorem propose_congr (hs : HopSystem o mobile h Rounding.exact m g lib st)
    {s s' : Sim σ φ Unit ℝ EReal} (hm : Met o mobile m st s0 s) (hm' : Met o mobile m st s0 s')
    (ho : s'.st.occ = s.st.occ) (r1 r2 : ℝ) :
    s'.propose (realKernel Rounding.exact) r1 r2 = s.propose (realKernel Rounding.exact) r1 r2 := by
  have hp := met_prob hs hm' hm ho
  unfold Sim.propose
  rw [hm.inv.table.cum, hm'.inv.table.cum, hp, hm.inv.lib, hm'.inv.lib]

theorem proposed_listed {s : Sim σ φ Unit ℝ EReal} (hm : Met o mobile m st s0 s) {r1 r2 : ℝ} {e : Event}
    {dt : EReal} (hp : s.propose (realKernel Rounding.exact) r1 r2 = .ok (e, dt)) : e ∈ s0.lib.events := by
  obtain ⟨i, -, he⟩ := (propose_iff hm.inv.table.cum).1 hp
  rw [hm.inv.lib] at he
  exact List.mem_of_getElem? he

/-- `Follows`, from a given draw on. -/
def FollowsFrom (m : RateModel Unit ℝ EReal) (draws : Nat → ℝ × ℝ) (c : Nat) (s : Sim σ φ Unit ℝ EReal)
    (path : List (Event × ℝ)) : Prop :=
  ∃ hist s', Steps (realKernel Rounding.exact) m draws true c s hist s' ∧
    List.Forall₂ (fun a b => a.1 = b.1 ∧ (a.2 : EReal) < b.2) path hist

theorem followsFrom_nil (draws : Nat → ℝ × ℝ) (c : Nat) (s : Sim σ φ Unit ℝ EReal) :
    FollowsFrom m draws c s [] := ⟨[], s, .nil _ _, .nil⟩

theorem followsFrom_cons (draws : Nat → ℝ × ℝ) (c : Nat) (s : Sim σ φ Unit ℝ EReal) (e : Event) (t : ℝ)
    (path : List (Event × ℝ)) : FollowsFrom m draws c s ((e, t) :: path) ↔
    ∃ dt s1, s.propose (realKernel Rounding.exact) (draws c).1 (draws c).2 = .ok (e, dt) ∧ (t : EReal) < dt ∧
      s.update (realKernel Rounding.exact) m e dt = (.ok (), s1) ∧ FollowsFrom m draws (c + 1) s1 path := by
  constructor
  · rintro ⟨hist, s', hst, hf⟩
    cases hf with
    | @cons _ b _ hist' hab hf' =>
      obtain ⟨e', dt⟩ := b
      obtain ⟨rfl, hlt⟩ := hab
      cases hst with
      | @cons _ _ s1 _ _ _ _ hp hu hr =>
        exact ⟨dt, s1, hp, hlt, by simpa using hu, hist', s', hr, hf'⟩
  · rintro ⟨dt, s1, hp, hlt, hu, hist, s', hr, hf⟩
    exact ⟨(e, dt) :: hist, s', .cons hp (by simpa using hu) hr, .cons ⟨rfl, hlt⟩ hf⟩

theorem followsFrom_congr (hs : HopSystem o mobile h Rounding.exact m g lib st)
    (ha : Answers o mobile m lib.events st.occ)
    (hi : Sim.init (realKernel Rounding.exact) m lib.generateEventDependencies (some h) (some st) = .ok s0)
    (draws : Nat → ℝ × ℝ) (path : List (Event × ℝ)) : ∀ (c : Nat) (s s' : Sim σ φ Unit ℝ EReal),
    Met o mobile m st s0 s → Met o mobile m st s0 s' → s'.st.occ = s.st.occ →
    (FollowsFrom m draws c s path → FollowsFrom m draws c s' path) := by
  induction path with
  | nil => exact fun c s s' _ _ _ _ => followsFrom_nil _ _ _
  | cons a path ih =>
    obtain ⟨e, t⟩ := a
    intro c s s' hm hm' ho
    rw [followsFrom_cons, followsFrom_cons]
    rintro ⟨dt, s1, hp, hlt, hu, hr⟩
    have hmem := proposed_listed hm hp
    obtain ⟨t1, u1, m1, l1⟩ := met_update hs ha hi hm hmem dt
    obtain ⟨t2, u2, m2, l2⟩ := met_update hs ha hi hm' hmem dt
    rw [hu] at u1
    obtain ⟨-, rfl⟩ := Prod.mk.inj u1
    rw [ho] at l2
    exact ⟨dt, t2, by rw [propose_congr hs hm hm' ho]; exact hp, hlt, u2,
      ih (c + 1) s1 t2 m1 m2 (leads_unique l2 l1) hr⟩

/-- The random numbers of a step that give the event after the waiting time. -/
theorem step_region (hs : HopSystem o mobile h Rounding.exact m g lib st)
    {s : Sim σ φ Unit ℝ EReal} (hm : Met o mobile m st s0 s) (e : Event) {t : ℝ} (ht : 0 ≤ t) :
    ∃ D : Set (ℝ × ℝ), MeasurableSet D ∧
      (∀ u : ℝ × ℝ, 0 ≤ u.1 → u.1 < 1 → 0 < u.2 → u.2 < 1 →
        (u ∈ D ↔ ∃ dt, s.propose (realKernel Rounding.exact) u.1 u.2 = .ok (e, dt) ∧ (t : EReal) < dt)) ∧
      twoUniform D = ENNReal.ofReal (s0.lib.events.count e * rateIn m s.st e / totalRate m s0.lib.events s.st *
        Real.exp (-totalRate m s0.lib.events s.st * t)) := by
  classical
  have hsum := prob_sum hm
  have hnn := rates_nonneg hs hm.inv
  have hlen : s.prob.length = s0.lib.events.length := by rw [hm.inv.table.length, hm.inv.lib]
  rcases (List.sum_nonneg hnn).eq_or_lt with hz | hpos
  · -- nothing can happen
    refine ⟨∅, MeasurableSet.empty, ?_, ?_⟩
    · intro u _ _ _ _
      simp only [Set.mem_empty_iff_false, false_iff, not_exists, not_and]
      intro dt hp
      obtain ⟨i, hi', -⟩ := (propose_iff hm.inv.table.cum).1 hp
      exfalso
      unfold propose at hi'
      by_cases hne : s.prob = []
      · rw [hne] at hi'
        simp [cumsum] at hi'
      · rw [cumsum_exact_last hne] at hi'
        simp only at hi'
        rw [if_pos hz.symm] at hi'
        cases hi'
    · rw [← hsum, ← hz]
      simp
  · let A : Finset Nat := (Finset.range s0.lib.events.length).filter fun i => s0.lib.events[i]? = some e
    let I : Nat → Set ℝ := fun i =>
      Set.Ico ((s.prob.take i).sum / s.prob.sum) ((s.prob.take (i + 1)).sum / s.prob.sum)
    have hA : ∀ i ∈ A, i < s.prob.length := by
      intro i hiA
      rw [hlen]
      exact Finset.mem_range.1 (Finset.mem_filter.1 hiA).1
    have hsel : ∀ i, i < s.prob.length → ∀ r, 0 ≤ r → ∀ r2,
        (∃ dt, propose Rounding.exact (cumsum Rounding.exact s.prob) r r2 = .ok (i, dt)) ↔ r ∈ I i :=
      fun i hil r h0 r2 => C02_selection_interval s.prob hnn hpos i hil r r2 h0
    have hI0 : ∀ i, ∀ r ∈ I i, 0 ≤ r := fun i r hr =>
      le_trans (div_nonneg (List.sum_nonneg fun a ha => hnn a (List.mem_of_mem_take ha)) hpos.le) hr.1
    have hI1 : ∀ i, ∀ r ∈ I i, r < 1 := fun i r hr => by
      refine lt_of_lt_of_le hr.2 ?_
      rw [div_le_one hpos]
      exact List.Sublist.sum_le_sum (List.take_sublist _ _) hnn
    have hwait : ∀ r1 r2 i dt, propose Rounding.exact (cumsum Rounding.exact s.prob) r1 r2 = .ok (i, dt) →
        dt = waitingTime Rounding.exact s.prob.sum r2 := by
      intro r1 r2 i dt hp
      have hne : s.prob ≠ [] := by rintro h; rw [h] at hpos; simp at hpos
      unfold propose at hp
      rw [cumsum_exact_last hne] at hp
      simp only at hp
      rw [if_neg (ne_of_gt hpos)] at hp
      simp only [Except.ok.injEq, Prod.mk.injEq] at hp
      exact hp.2.symm
    refine ⟨(⋃ i ∈ A, I i) ×ˢ Set.Iio (Real.exp (-s.prob.sum * t)),
      (Finset.measurableSet_biUnion _ fun i _ => measurableSet_Ico).prod measurableSet_Iio, ?_, ?_⟩
    · intro u h0 h1 h2 h3
      have hlt : (t : EReal) < waitingTime Rounding.exact s.prob.sum u.2 ↔ u.2 < Real.exp (-s.prob.sum * t) := by
        unfold waitingTime
        rw [if_neg h2.ne', EReal.coe_lt_coe_iff, ← Real.log_lt_iff_lt_exp h2]
        simp only [Rounding.exact, id]
        rw [show -1 / s.prob.sum * Real.log u.2 = -Real.log u.2 / s.prob.sum by ring, lt_div_iff₀ hpos]
        constructor <;> intro <;> linarith
      simp only [Set.mem_prod, Set.mem_iUnion, exists_prop, Set.mem_Iio]
      constructor
      · rintro ⟨⟨i, hiA, hr⟩, hr2⟩
        obtain ⟨dt, hdt⟩ := (hsel i (hA i hiA) u.1 h0 u.2).2 hr
        refine ⟨dt, (propose_iff hm.inv.table.cum).2 ⟨i, hdt, ?_⟩, ?_⟩
        · rw [hm.inv.lib]; exact (Finset.mem_filter.1 hiA).2
        · rw [hwait _ _ _ _ hdt]; exact hlt.2 hr2
      · rintro ⟨dt, hp, hdt⟩
        obtain ⟨i, hi', he⟩ := (propose_iff hm.inv.table.cum).1 hp
        rw [hm.inv.lib] at he
        have hil := (List.getElem?_eq_some_iff.1 he).1
        have hiA : i ∈ A := Finset.mem_filter.2 ⟨Finset.mem_range.2 hil, he⟩
        rw [hwait _ _ _ _ hi'] at hdt
        exact ⟨⟨i, hiA, (hsel i (hA i hiA) u.1 h0 u.2).1 ⟨dt, hi'⟩⟩, hlt.1 hdt⟩
    · have hexp1 : Real.exp (-s.prob.sum * t) ≤ 1 := by
        rw [Real.exp_le_one_iff]
        have := mul_nonneg hpos.le ht
        linarith
      have hv2 : volume.restrict (Set.Ico (0 : ℝ) 1) (Set.Iio (Real.exp (-s.prob.sum * t))) =
          ENNReal.ofReal (Real.exp (-s.prob.sum * t)) := by
        rw [Measure.restrict_apply measurableSet_Iio]
        have : Set.Iio (Real.exp (-s.prob.sum * t)) ∩ Set.Ico (0 : ℝ) 1 = Set.Ico 0 (Real.exp (-s.prob.sum * t)) := by
          ext r
          simp only [Set.mem_inter_iff, Set.mem_Iio, Set.mem_Ico]
          constructor
          · rintro ⟨a, b, c⟩; exact ⟨b, a⟩
          · rintro ⟨a, b⟩; exact ⟨b, a, lt_of_lt_of_le b hexp1⟩
        rw [this, Real.volume_Ico, sub_zero]
      have hv1 : volume.restrict (Set.Ico (0 : ℝ) 1) (⋃ i ∈ A, I i) =
          ENNReal.ofReal ((∑ i ∈ A, s.prob.getD i 0) / s.prob.sum) := by
        rw [Measure.restrict_apply (Finset.measurableSet_biUnion _ fun i _ => measurableSet_Ico)]
        have hset : (⋃ i ∈ A, I i) ∩ Set.Ico (0 : ℝ) 1 = {r1 : ℝ | 0 ≤ r1 ∧ r1 < 1 ∧ ∃ i ∈ A, ∃ dt,
            propose Rounding.exact (cumsum Rounding.exact s.prob) r1 0 = .ok (i, dt)} := by
          ext r
          simp only [Set.mem_inter_iff, Set.mem_iUnion, exists_prop, Set.mem_Ico, Set.mem_ofPred_eq]
          constructor
          · rintro ⟨⟨i, hiA, hr⟩, h0, h1⟩
            exact ⟨h0, h1, i, hiA, (hsel i (hA i hiA) r h0 0).2 hr⟩
          · rintro ⟨h0, h1, i, hiA, hdt⟩
            exact ⟨⟨i, hiA, (hsel i (hA i hiA) r h0 0).1 hdt⟩, h0, h1⟩
        rw [hset, ← volume_selected s.prob hnn hpos 0 A hA, ENNReal.ofReal_toReal]
        refine ne_top_of_le_ne_top ?_ (measure_mono (t := Set.Ico (0 : ℝ) 1) fun r hr => ⟨hr.1, hr.2.1⟩)
        simp
      have hcount : ∑ i ∈ A, s.prob.getD i 0 = s0.lib.events.count e * rateIn m s.st e := by
        rw [Finset.sum_congr rfl (g := fun _ => rateIn m s.st e), Finset.sum_const, nsmul_eq_mul,
          ← count_eq_card]
        intro i hiA
        rw [prob_eq_rates hm, List.getD_eq_getElem?_getD, List.getElem?_map, (Finset.mem_filter.1 hiA).2]
        rfl
      unfold twoUniform
      rw [Measure.prod_prod, hv1, hv2, hcount, ← hsum, ENNReal.ofReal_mul]
      have h1 : 0 ≤ ∑ i ∈ A, s.prob.getD i 0 := Finset.sum_nonneg fun i _ => prob_getD_nonneg hs hm i
      rw [hcount] at h1
      exact div_nonneg h1 hpos.le

/-- The configuration after an event depends only on the configuration before it. -/
theorem applyEvent_occ_congr {st st' : State EReal} (ho : st'.occ = st.occ) (e : Event) (dt dt' : EReal) :
    (st'.applyEvent e dt').2.occ = (st.applyEvent e dt).2.occ := by
  obtain ⟨occ, t, n⟩ := st
  obtain ⟨occ', t', n'⟩ := st'
  simp only at ho
  subst ho
  unfold State.applyEvent
  cases unpack2 e.mobile with
  | error x => rfl
  | ok p =>
    obtain ⟨a, b⟩ := p
    simp only
    cases pyGet occ' b with
    | error x => rfl
    | ok vt =>
      simp only
      cases pyGet occ' a with
      | error x => rfl
      | ok vf =>
        simp only
        cases pySet occ' a vt with
        | error x => rfl
        | ok occ1 =>
          simp only
          cases pySet occ1 b vf <;> rfl

theorem rateIn_congr (hm : LocalModel m) {st st' : State EReal} (ho : st'.occ = st.occ) (e : Event) :
    rateIn m st' e = rateIn m st e := by
  unfold rateIn
  rw [hm.local_rate e st' st (by rw [ho]) fun _ _ => by rw [ho]]

theorem pathChance_congr (hm : LocalModel m) (events : List Event) (path : List (Event × ℝ)) :
    ∀ {st st' : State EReal}, st'.occ = st.occ → pathChance m events st' path = pathChance m events st path := by
  induction path with
  | nil => intro st st' _; rfl
  | cons a path ih =>
    obtain ⟨e, t⟩ := a
    intro st st' ho
    have ht : totalRate m events st' = totalRate m events st := by
      unfold totalRate
      rw [show rateIn m st' = rateIn m st from funext fun e => rateIn_congr hm ho e]
    simp only [pathChance, rateIn_congr hm ho, ht, ih (applyEvent_occ_congr ho e 0 0)]

theorem pathChance_append (hm : LocalModel m) (events : List Event) (second : List (Event × ℝ))
    (k : Kernel ℝ EReal ℝ) : ∀ (first : List (Event × ℝ)) (history : List (Event × EReal))
    (s s1 : Sim σ φ Unit ℝ EReal), history.map (·.1) = first.map (·.1) → Executed k m s history s1 →
    pathChance m events s.st (first ++ second) =
      pathChance m events s.st first * pathChance m events s1.st second := by
  intro first
  induction first with
  | nil =>
    intro history s s1 hev hrun
    cases history with
    | nil => cases hrun; simp [pathChance]
    | cons => simp at hev
  | cons a first ih =>
    obtain ⟨e, t⟩ := a
    intro history s s1 hev hrun
    cases history with
    | nil => simp at hev
    | cons b history =>
      obtain ⟨e', dt⟩ := b
      simp only [List.map_cons, List.cons.injEq] at hev
      obtain ⟨rfl, hev⟩ := hev
      cases hrun with
      | @cons _ s2 _ _ _ _ hu hr =>
        obtain ⟨st1, ms, i1, prob, b1, -, -, -, rfl⟩ := update_ok hu
        have h1 := ih history _ s1 hev hr
        have h2 : (s.st.applyEvent e' 0).2.occ = st1.occ := by
          rw [applyEvent_occ_congr (st := s.st) rfl e' dt 0, b1]
        simp only [List.cons_append, pathChance]
        rw [pathChance_congr hm events (first ++ second) h2, pathChance_congr hm events first h2, h1]
        ring

theorem pathChance_nonneg {s : Sim σ φ Unit ℝ EReal} (hs : HopSystem o mobile h Rounding.exact m g lib st)
    (ha : Answers o mobile m lib.events st.occ)
    (hi : Sim.init (realKernel Rounding.exact) m lib.generateEventDependencies (some h) (some st) = .ok s0)
    (hm : Met o mobile m st s0 s) (path : List (Event × ℝ)) : 0 ≤ pathChance m s0.lib.events s.st path := by
  induction path generalizing s with
  | nil => simp [pathChance]
  | cons a path ih =>
    obtain ⟨e, t⟩ := a
    by_cases he : e ∈ s0.lib.events
    · obtain ⟨s1, u1, m1, -⟩ := met_update hs ha hi hm he 0
      have hst1 : s1.st = (s.st.applyEvent e 0).2 := by
        obtain ⟨st1, ms, i1, prob, b1, -, -, -, rfl⟩ := update_ok u1
        rw [b1]
      have hnn := rates_nonneg hs hm.inv
      have hr0 : 0 ≤ rateIn m s.st e := by
        rw [prob_eq_rates hm] at hnn
        exact hnn _ (List.mem_map.2 ⟨e, he, rfl⟩)
      have hΓ : 0 ≤ totalRate m s0.lib.events s.st := by
        rw [← prob_sum hm]; exact List.sum_nonneg hnn
      rw [pathChance, ← hst1]
      have := ih m1
      positivity
    · rw [pathChance, List.count_eq_zero_of_not_mem he]
      simp

end
end KMC
