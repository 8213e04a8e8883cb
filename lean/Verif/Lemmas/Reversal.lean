import Verif.Lemmas.Path
import Verif.Props.PathProps
import Verif.Props.RestartProps
import Verif.Spec.Reversal
import Mathlib.Algebra.BigOperators.Group.Finset.Basic
/-
Lemmas for C103.
-/
set_option linter.unusedSectionVars false

namespace KMC
open Spec MeasureTheory Filter Topology ProbabilityTheory

section
variable {σ φ ψ K : Type} [Field K] [LinearOrder K] [FloorRing K]
variable {o : ActiveSiteOrder String ψ} {mobile : String} {h : HopStateLookup}
  {m : RateModel Unit ℝ EReal} {g : Geometry K} {lib : EventLib σ φ} {st : State EReal}
  {s0 : Sim σ φ Unit ℝ EReal}

theorem listed_rate_nonneg (hs : HopSystem o mobile h Rounding.exact m g lib st) {s : Sim σ φ Unit ℝ EReal}
    (hm : Met o mobile m st s0 s) {e : Event} (he : e ∈ s0.lib.events) : 0 ≤ rateIn m s.st e := by
  have hnn := rates_nonneg hs hm.inv
  rw [prob_eq_rates hm] at hnn
  exact hnn _ (List.mem_map.2 ⟨e, he, rfl⟩)

/-- Nothing can happen: no event has a rate. -/
theorem rate_zero_of_total (hs : HopSystem o mobile h Rounding.exact m g lib st) {s : Sim σ φ Unit ℝ EReal}
    (hm : Met o mobile m st s0 s) (h0 : totalRate m s0.lib.events s.st = 0) {e : Event}
    (he : e ∈ s0.lib.events) : rateIn m s.st e = 0 := by
  have hnn : ∀ p ∈ s0.lib.events.map (rateIn m s.st), 0 ≤ p := by
    intro p hp
    obtain ⟨x, hx, rfl⟩ := List.mem_map.1 hp
    exact listed_rate_nonneg hs hm hx
  exact le_antisymm (h0 ▸ List.single_le_sum hnn _ (List.mem_map.2 ⟨e, he, rfl⟩)) (listed_rate_nonneg hs hm he)

/-- Detailed balance of an event, in the rates of the model. -/
theorem balance_rateIn (hs : HopSystem o mobile h Rounding.exact m g lib st)
    (ha : Answers o mobile m lib.events st.occ)
    (hi : Sim.init (realKernel Rounding.exact) m lib.generateEventDependencies (some h) (some st) = .ok s0)
    {W : List Int → ℝ} (hb : Balanced o mobile m s0.lib.events W)
    {s t : Sim σ φ Unit ℝ EReal} (hm : Met o mobile m st s0 s) (hm' : Met o mobile m st s0 t)
    {e : Event} (he : e ∈ s0.lib.events) (hl : Leads e s.st.occ t.st.occ) :
    W s.st.occ * rateIn m s.st e = W t.st.occ * rateIn m t.st e := by
  obtain ⟨i, hi', hie⟩ := List.getElem_of_mem he
  have hie' : s0.lib.events[i]? = some e := by rw [List.getElem?_eq_getElem hi', hie]
  have := balance_event hs ha hi hb hm hm' hie' hl
  rw [prob_eq_rates hm, prob_eq_rates hm', List.getD_eq_getElem?_getD, List.getD_eq_getElem?_getD,
    List.getElem?_map, List.getElem?_map, hie'] at this
  simpa using this

/-- Listed events can be executed, and then undone in the reverse order. -/
theorem undo (hs : HopSystem o mobile h Rounding.exact m g lib st)
    (ha : Answers o mobile m lib.events st.occ)
    (hi : Sim.init (realKernel Rounding.exact) m lib.generateEventDependencies (some h) (some st) = .ok s0) :
    ∀ (history : List (Event × EReal)) (s s1 : Sim σ φ Unit ℝ EReal), Met o mobile m st s0 s →
      (∀ x ∈ history, x.1 ∈ s0.lib.events) → Executed (realKernel Rounding.exact) m s history s1 →
      Met o mobile m st s0 s1 ∧ ∃ (back : List (Event × EReal)) (s2 : Sim σ φ Unit ℝ EReal),
        Executed (realKernel Rounding.exact) m s1 back s2 ∧ back.map (·.1) = (history.map (·.1)).reverse ∧
        Met o mobile m st s0 s2 ∧ s2.st.occ = s.st.occ
  | [], s, s1, hm, _, hr => by
    cases hr
    exact ⟨hm, [], s, .nil _, rfl, hm, rfl⟩
  | (e, dt) :: history, s, s1, hm, hl, hr => by
    cases hr with
    | @cons _ s2 _ _ _ _ hu hr =>
      have he : e ∈ s0.lib.events := hl (e, dt) (by simp)
      obtain ⟨s3, u3, m3, l3⟩ := met_update hs ha hi hm he dt
      rw [hu] at u3
      obtain ⟨-, rfl⟩ := Prod.mk.inj u3
      obtain ⟨m1, back, s4, hb, hbe, m4, o4⟩ := undo hs ha hi history s2 s1 m3
        (fun x hx => hl x (List.mem_cons_of_mem _ hx)) hr
      obtain ⟨s5, u5, m5, l5⟩ := met_update hs ha hi m4 he 0
      refine ⟨m1, back ++ [(e, 0)], s5, ?_, by simp [hbe], m5, ?_⟩
      · have key : ∀ (l : List (Event × EReal)) (a b c : Sim σ φ Unit ℝ EReal) (x : Event × EReal),
            Executed (realKernel Rounding.exact) m a l b →
            b.update (realKernel Rounding.exact) m x.1 x.2 = (.ok (), c) →
            Executed (realKernel Rounding.exact) m a (l ++ [x]) c := by
          intro l
          induction l with
          | nil => intro a b c x h1 h2; cases h1; exact .cons h2 (.nil _)
          | cons y l ih =>
            intro a b c x h1 h2
            cases h1 with
            | cons h3 h4 => exact .cons h3 (ih _ _ _ _ h4 h2)
        exact key back s1 s4 s5 (e, 0) hb u5
      · rw [o4] at l5
        exact leads_unique l5 (leads_symm l3)

/-- The scene and the reversed scene, in the chain with the rates of the model. -/
theorem reversed_path (hs : HopSystem o mobile h Rounding.exact m g lib st)
    (ha : Answers o mobile m lib.events st.occ)
    (hi : Sim.init (realKernel Rounding.exact) m lib.generateEventDependencies (some h) (some st) = .ok s0)
    {W : List Int → ℝ} (hb : Balanced o mobile m s0.lib.events W) :
    ∀ (history : List (Event × EReal)) (w : ℝ) (times : List ℝ) (s s1 : Sim σ φ Unit ℝ EReal),
      times.length = history.length → Met o mobile m st s0 s →
      (∀ x ∈ history, x.1 ∈ s0.lib.events) → Executed (realKernel Rounding.exact) m s history s1 →
      W s.st.occ * totalRate m s0.lib.events s.st *
          (pathChance m s0.lib.events s.st ((history.map (·.1)).zip (w :: times)) *
            Real.exp (-totalRate m s0.lib.events s1.st * (w :: times).getLastD 0)) =
        W s1.st.occ * totalRate m s0.lib.events s1.st *
          (pathChance m s0.lib.events s1.st ((history.map (·.1)).reverse.zip (w :: times).reverse) *
            Real.exp (-totalRate m s0.lib.events s.st * w)) := by
  intro history
  induction history with
  | nil =>
    intro w times s s1 hlen hm _ hr
    have : times = [] := by simpa using hlen
    subst this
    cases hr
    simp [pathChance]
  | cons a history hind =>
    obtain ⟨e, dt⟩ := a
    intro w times s s1 hlen hm hl hr
    cases times with
    | nil => simp at hlen
    | cons w1 times =>
    cases hr with
    | @cons _ s2 _ _ _ _ hu hr =>
      have he : e ∈ s0.lib.events := hl (e, dt) (by simp)
      have hl' : ∀ x ∈ history, x.1 ∈ s0.lib.events := fun x hx => hl x (List.mem_cons_of_mem _ hx)
      obtain ⟨s3, u3, m3, l3⟩ := met_update hs ha hi hm he dt
      rw [hu] at u3
      obtain ⟨-, rfl⟩ := Prod.mk.inj u3
      have hlen' : times.length = history.length := by simpa using hlen
      have ih := hind w1 times s2 s1 hlen' m3 hl' hr
      obtain ⟨m1, back, s4, hback, hbe, m4, o4⟩ := undo hs ha hi history s2 s1 m3 hl' hr
      have hbal := balance_rateIn hs ha hi hb hm m3 he l3
      obtain ⟨st1, ms, i1, prob, b1, -, -, -, hs2⟩ := update_ok hu
      have hst2 : (s.st.applyEvent e 0).2.occ = s2.st.occ := by
        rw [applyEvent_occ_congr (st := s.st) rfl e dt 0, b1, hs2]
      -- the forward scene
      have hfwd : pathChance m s0.lib.events s.st (((((e, dt) :: history).map (·.1))).zip (w :: w1 :: times)) =
          s0.lib.events.count e * rateIn m s.st e / totalRate m s0.lib.events s.st *
            Real.exp (-totalRate m s0.lib.events s.st * w) *
            pathChance m s0.lib.events s2.st ((history.map (·.1)).zip (w1 :: times)) := by
        simp only [List.map_cons, List.zip_cons_cons, pathChance]
        rw [pathChance_congr hs.loc _ _ hst2]
      -- the reversed scene
      have hz1 : (((e, dt) :: history).map (·.1)).reverse.zip (w :: w1 :: times).reverse =
          (history.map (·.1)).reverse.zip times.reverse ++ [(e, w1)] := by
        simp only [List.map_cons, List.reverse_cons, List.append_assoc, List.cons_append, List.nil_append]
        rw [List.zip_append (by simp [hlen'])]
        simp
      have hz2 : (history.map (·.1)).reverse.zip (w1 :: times).reverse =
          (history.map (·.1)).reverse.zip times.reverse := by
        have := List.zip_append (l₁ := (history.map (·.1)).reverse) (r₁ := []) (l₂ := times.reverse) (r₂ := [w1])
          (by simp [hlen'])
        simpa using this
      have hrate4 : rateIn m s4.st e = rateIn m s2.st e := rateIn_congr hs.loc o4 e
      have htot4 : totalRate m s0.lib.events s4.st = totalRate m s0.lib.events s2.st := by
        unfold totalRate
        rw [show rateIn m s4.st = rateIn m s2.st from funext fun e => rateIn_congr hs.loc o4 e]
      have hrev : pathChance m s0.lib.events s1.st
          ((((e, dt) :: history).map (·.1)).reverse.zip (w :: w1 :: times).reverse) =
          pathChance m s0.lib.events s1.st ((history.map (·.1)).reverse.zip (w1 :: times).reverse) *
            (s0.lib.events.count e * rateIn m s2.st e / totalRate m s0.lib.events s2.st *
              Real.exp (-totalRate m s0.lib.events s2.st * w1)) := by
        rw [hz1, hz2, pathChance_append hs.loc s0.lib.events [(e, w1)] (realKernel Rounding.exact)
          ((history.map (·.1)).reverse.zip times.reverse) back s1 s4
          (by rw [hbe, List.map_fst_zip (by simp [hlen'])]) hback]
        simp only [pathChance, mul_one, hrate4, htot4]
      have hlast : (w :: w1 :: times).getLastD 0 = (w1 :: times).getLastD 0 := by simp
      rw [hfwd, hrev, hlast]
      set A := pathChance m s0.lib.events s2.st ((history.map (·.1)).zip (w1 :: times))
      set B := pathChance m s0.lib.events s1.st ((history.map (·.1)).reverse.zip (w1 :: times).reverse)
      set E1 := Real.exp (-totalRate m s0.lib.events s1.st * (w1 :: times).getLastD 0)
      set E2 := Real.exp (-totalRate m s0.lib.events s2.st * w1)
      set E0 := Real.exp (-totalRate m s0.lib.events s.st * w)
      set c : ℝ := (s0.lib.events.count e : ℝ)
      have h1 : totalRate m s0.lib.events s.st * (c * rateIn m s.st e / totalRate m s0.lib.events s.st) =
          c * rateIn m s.st e := by
        by_cases h0 : totalRate m s0.lib.events s.st = 0
        · rw [h0, rate_zero_of_total hs hm h0 he]; simp
        · field_simp
      have h2 : totalRate m s0.lib.events s2.st * (c * rateIn m s2.st e / totalRate m s0.lib.events s2.st) =
          c * rateIn m s2.st e := by
        by_cases h0 : totalRate m s0.lib.events s2.st = 0
        · rw [h0, rate_zero_of_total hs m3 h0 he]; simp
        · field_simp
      calc W s.st.occ * totalRate m s0.lib.events s.st *
            (c * rateIn m s.st e / totalRate m s0.lib.events s.st * E0 * A * E1)
          = (totalRate m s0.lib.events s.st * (c * rateIn m s.st e / totalRate m s0.lib.events s.st)) *
              (W s.st.occ * E0 * A * E1) := by ring
        _ = (W s.st.occ * rateIn m s.st e) * (c * E0 * A * E1) := by rw [h1]; ring
        _ = (c * rateIn m s2.st e) * (W s2.st.occ * E0 * A * E1) := by rw [hbal]; ring
        _ = (c * rateIn m s2.st e / totalRate m s0.lib.events s2.st) * E0 *
              (W s2.st.occ * totalRate m s0.lib.events s2.st * (A * E1)) := by
          conv_lhs => rw [← h2]
          ring
        _ = (c * rateIn m s2.st e / totalRate m s0.lib.events s2.st) * E0 *
              (W s1.st.occ * totalRate m s0.lib.events s1.st * (B * E2)) := by rw [ih]
        _ = _ := by ring

/-- The probability of a scene. -/
theorem scene_law (hs : HopSystem o mobile h Rounding.exact m g lib st)
    (ha : Answers o mobile m lib.events st.occ)
    (hi : Sim.init (realKernel Rounding.exact) m lib.generateEventDependencies (some h) (some st) = .ok s0)
    {Θ : Type} [MeasurableSpace Θ] {μ : Measure Θ} [IsProbabilityMeasure μ] {U : Nat → Θ → ℝ × ℝ}
    (hU : RandomNumbers μ U) (history : List (Event × EReal)) (times : List ℝ)
    {s s1 : Sim σ φ Unit ℝ EReal}
    (hlen : times.length = history.length + 1) (hpos : ∀ t ∈ times, 0 ≤ t) (hm : Met o mobile m st s0 s)
    (hl : ∀ x ∈ history, x.1 ∈ s0.lib.events) (hr : Executed (realKernel Rounding.exact) m s history s1) :
    μ.real {ω | Scene m (fun k => U k ω) s (history.map (·.1)) times} =
      totalRate m s0.lib.events s1.st / totalRate m s0.lib.events s1.st *
      (pathChance m s0.lib.events s.st ((history.map (·.1)).zip times) *
        Real.exp (-totalRate m s0.lib.events s1.st * times.getLastD 0)) := by
  classical
  obtain ⟨front, t, rfl⟩ : ∃ front t, times = front ++ [t] := by
    have : times ≠ [] := by rintro rfl; simp at hlen
    exact ⟨times.dropLast, times.getLast this, (List.dropLast_append_getLast this).symm⟩
  have hfl : front.length = history.length := by simpa using hlen
  have hzip : ∀ e, (history.map (·.1) ++ [e]).zip (front ++ [t]) = (history.map (·.1)).zip front ++ [(e, t)] := by
    intro e
    rw [List.zip_append (by simp [hfl])]
    simp
  have hzip0 : (history.map (·.1)).zip (front ++ [t]) = (history.map (·.1)).zip front := by
    have := List.zip_append (l₁ := history.map (·.1)) (r₁ := []) (l₂ := front) (r₂ := [t]) (by simp [hfl])
    simpa using this
  have hm1 := (undo hs ha hi history s s1 hm hl hr).1
  set F : Event → Set Θ := fun e => {ω | Follows m (fun k => U k ω) s ((history.map (·.1)).zip front ++ [(e, t)])}
    with hF
  have hset : {ω | Scene m (fun k => U k ω) s (history.map (·.1)) (front ++ [t])} =
      ⋃ e ∈ s0.lib.events.toFinset, F e := by
    ext ω
    simp only [Set.mem_ofPred_eq, Scene, hzip, Set.mem_iUnion, List.mem_toFinset, hF, exists_prop]
    constructor
    · rintro ⟨e, he⟩
      refine ⟨e, ?_, he⟩
      have key : ∀ (path : List (Event × ℝ)) (c : Nat) (u : Sim σ φ Unit ℝ EReal), Met o mobile m st s0 u →
          FollowsFrom m (fun k => U k ω) c u path → ∀ x ∈ path, x.1 ∈ s0.lib.events := by
        intro path
        induction path with
        | nil => intro c u _ _ x hx; cases hx
        | cons a path ih =>
          obtain ⟨e', t'⟩ := a
          intro c u hmu hf x hx
          rw [followsFrom_cons] at hf
          obtain ⟨dt, u1, hp, -, hu, hf⟩ := hf
          have hmem := proposed_listed hmu hp
          obtain ⟨u3, b3, m3, -⟩ := met_update hs ha hi hmu hmem dt
          rw [hu] at b3
          obtain ⟨-, rfl⟩ := Prod.mk.inj b3
          rcases List.mem_cons.1 hx with rfl | hx
          · exact hmem
          · exact ih (c + 1) u1 m3 hf x hx
      exact key _ 0 s hm he (e, t) (by simp)
    · rintro ⟨e, -, he⟩
      exact ⟨e, he⟩
  have hp : ∀ e, ∀ x ∈ (history.map (·.1)).zip front ++ [(e, t)], 0 ≤ x.2 := by
    intro e x hx
    rcases List.mem_append.1 hx with hx | hx
    · exact hpos _ (List.mem_append_left _ (List.of_mem_zip (a := x.1) (b := x.2) hx).2)
    · simp only [List.mem_singleton] at hx
      subst hx
      exact hpos _ (by simp)
  have hlaw : ∀ e, NullMeasurableSet (F e) μ ∧ μ (F e) = ENNReal.ofReal
      (pathChance m s0.lib.events s.st ((history.map (·.1)).zip front ++ [(e, t)])) := by
    intro e
    obtain ⟨B, hB, h1, h2⟩ := path_law_from hs ha hi hU _ 0 s (hp e) hm
    refine ⟨NullMeasurableSet.congr (future_le hU.measurable 0 _ hB).nullMeasurableSet h1.symm, ?_⟩
    rw [← h2]
    exact measure_congr h1
  have hdis : Set.PairwiseDisjoint (↑s0.lib.events.toFinset : Set Event) F := by
    intro e _ e' _ hne
    refine Set.disjoint_left.2 fun ω h1 h2 => hne ?_
    obtain ⟨hist, u, st1, f1⟩ := h1
    obtain ⟨hist', u', st2, f2⟩ := h2
    obtain ⟨rfl, -⟩ := steps_unique st1 st2 (by rw [← f1.length_eq, ← f2.length_eq]; simp)
    have e1 : ∀ {path : List (Event × ℝ)} {hi : List (Event × EReal)},
        List.Forall₂ (fun a b => a.1 = b.1 ∧ (a.2 : EReal) < b.2) path hi → path.map (·.1) = hi.map (·.1) := by
      intro path hi hf
      induction hf with
      | nil => rfl
      | cons h1 _ ih => simp [h1.1, ih]
    have := (e1 f1).trans (e1 f2).symm
    simpa using this
  have hnn : ∀ e, 0 ≤ pathChance m s0.lib.events s.st ((history.map (·.1)).zip front ++ [(e, t)]) :=
    fun e => pathChance_nonneg hs ha hi hm _
  have happ : ∀ e, pathChance m s0.lib.events s.st ((history.map (·.1)).zip front ++ [(e, t)]) =
      pathChance m s0.lib.events s.st ((history.map (·.1)).zip front) *
        (s0.lib.events.count e * rateIn m s1.st e / totalRate m s0.lib.events s1.st *
          Real.exp (-totalRate m s0.lib.events s1.st * t)) := by
    intro e
    rw [pathChance_append hs.loc s0.lib.events [(e, t)] (realKernel Rounding.exact) _ history s s1
      (by rw [List.map_fst_zip (by simp [hfl])]) hr]
    simp [pathChance]
  have hsum : ∑ e ∈ s0.lib.events.toFinset, (s0.lib.events.count e : ℝ) * rateIn m s1.st e =
      totalRate m s0.lib.events s1.st := by
    unfold totalRate
    rw [Finset.sum_list_map_count]
    simp
  rw [measureReal_def, hset, measure_biUnion_finset₀ (fun e he e' he' hne => (hdis he he' hne).aedisjoint)
    (fun e _ => (hlaw e).1), Finset.sum_congr rfl (fun e _ => (hlaw e).2),
    ← ENNReal.ofReal_sum_of_nonneg (fun e _ => hnn e), ENNReal.toReal_ofReal (Finset.sum_nonneg fun e _ => hnn e),
    hzip0]
  simp only [happ]
  rw [← Finset.mul_sum, ← Finset.sum_mul, ← Finset.sum_div, hsum]
  simp only [List.getLastD_concat]
  ring

end

end KMC
