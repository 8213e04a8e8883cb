import Verif.Lemmas.Reversal
import Verif.Lemmas.RandomWalkRun
import Verif.Props.RandomWalkProps
import Verif.Props.EquilibriumProps
/-
Lemmas for the mean displacement in equilibrium (C103).
-/
set_option linter.unusedSectionVars false

namespace KMC
open Spec MeasureTheory Filter Topology ProbabilityTheory

section
variable {σ φ ψ : Type}
variable {o : ActiveSiteOrder String ψ} {mobile : String} {h : HopStateLookup}
  {m : RateModel Unit ℝ EReal} {g : Geometry ℝ} {lib : EventLib σ φ} {st : State EReal}
  {s0 : Sim σ φ Unit ℝ EReal}

/-- A configuration that a simulation has reached is a starting point as well. -/
theorem reached_system (hs : HopSystem o mobile h Rounding.exact m g lib st)
    (ha : Answers o mobile m lib.events st.occ) {s : Sim σ φ Unit ℝ EReal} (hm : Met o mobile m st s0 s)
    {st' : State EReal} (ho : st'.occ = s.st.occ) :
    HopSystem o mobile h Rounding.exact m g lib st' ∧ Answers o mobile m lib.events st'.occ := by
  have hperm : st'.occ.Perm st.occ := by rw [ho]; exact hm.perm
  exact ⟨{ hs with
      labelled := by rw [ho]; exact hm.inv.labelled
      fit := by rw [hperm.length_eq]; exact hs.fit
      coords := by rw [hperm.length_eq]; exact hs.coords },
    { ha with
      rate := fun e x he hc hl => ha.rate e x he
        ⟨hc.1.trans hperm.length_eq, fun v => (hc.2 v).trans (hperm.count_eq v)⟩ hl }⟩

/-- A simulation that is constructed in a configuration that another one has reached. -/
theorem constructed_met (hs : HopSystem o mobile h Rounding.exact m g lib st)
    (ha : Answers o mobile m lib.events st.occ)
    (hi : Sim.init (realKernel Rounding.exact) m lib.generateEventDependencies (some h) (some st) = .ok s0)
    {s s' : Sim σ φ Unit ℝ EReal} (hm : Met o mobile m st s0 s) {st' : State EReal} (ho : st'.occ = s.st.occ)
    (hi' : Sim.init (realKernel Rounding.exact) m lib.generateEventDependencies (some h) (some st') = .ok s') :
    HopSystem o mobile h Rounding.exact m g lib st' ∧ Answers o mobile m lib.events st'.occ ∧
      s'.lib.events = s0.lib.events ∧ Met o mobile m st s0 s' ∧ s'.st = st' := by
  have hperm : st'.occ.Perm st.occ := by rw [ho]; exact hm.perm
  obtain ⟨hs', ha'⟩ := reached_system hs ha hm ho
  have hst' : s'.st = st' := by
    obtain ⟨i1, -⟩ := init_ok hi'
    exact (Option.some.inj i1).symm
  have hst : s0.st = st := by
    obtain ⟨i1, -⟩ := init_ok hi
    exact (Option.some.inj i1).symm
  have hlib : s'.lib = s0.lib := by
    have key : ∀ {x : State EReal} {u : Sim σ φ Unit ℝ EReal},
        Sim.init (realKernel Rounding.exact) m lib.generateEventDependencies (some h) (some x) = .ok u →
        ∃ es, h.annotateEvents lib.generateEventDependencies.events = .ok es ∧
          u.lib = { lib.generateEventDependencies with events := es } := by
      intro x u hu
      cases hes : h.annotateEvents lib.generateEventDependencies.events with
      | error e => simp only [Sim.init, hes] at hu; cases hu
      | ok es =>
        refine ⟨es, rfl, ?_⟩
        simp only [Sim.init, hes] at hu
        cases h1 : m.initializeState x es with
        | error e => simp only [h1] at hu; cases hu
        | ok ms =>
          simp only [h1] at hu
          cases h2 : initialProbs m ms x es with
          | error e => simp only [h2] at hu; cases hu
          | ok p =>
            simp only [h2] at hu
            cases hu
            rfl
    obtain ⟨es, a1, a2⟩ := key hi
    obtain ⟨es', b1, b2⟩ := key hi'
    rw [a1] at b1
    cases b1
    rw [a2, b2]
  have inv' := sim_init_inv hs' hi'
  refine ⟨hs', ha', by rw [hlib], ⟨⟨hlib, ?_, inv'.table, inv'.labelled⟩, ?_⟩, hst'⟩
  · rw [hst', hst, hperm.length_eq]
  · rw [hst']; exact hperm

/-- A state in the configuration `x`. -/
noncomputable def inConfig (x : List Int) : State EReal := ⟨x, 0, 0⟩

/-- The configuration after the event. -/
noncomputable def hopped (x : List Int) (e : Event) : List Int := ((inConfig x).applyEvent e 0).2.occ

/-- A constant can be taken out of the mean. -/
theorem expectedOver_add_const (hs : HopSystem o mobile h Rounding.exact m g lib st)
    (ha : Answers o mobile m lib.events st.occ)
    (hi : Sim.init (realKernel Rounding.exact) m lib.generateEventDependencies (some h) (some st) = .ok s0)
    (alive : ∀ s, Reaches m s0 s → ¬ Stuck m s) (a : ℝ) (n : Nat) : ∀ (st' : State EReal), GoodState m s0 st' →
    ∀ F : List Event → ℝ, expectedOver m s0.lib.events n st' (fun p => a + F p) =
      a + expectedOver m s0.lib.events n st' F := by
  induction n with
  | zero => intro st' hg F; rfl
  | succ n ih =>
    intro st' hg F
    have hpos := good_pos hs ha hi alive hg
    simp only [expectedOver]
    have e1 : (s0.lib.events.map fun e => rateIn m st' e / totalRate m s0.lib.events st' *
        expectedOver m s0.lib.events n (st'.applyEvent e 0).2 (fun p => a + F (e :: p))).sum =
        (s0.lib.events.map fun e => rateIn m st' e / totalRate m s0.lib.events st' * a +
          rateIn m st' e / totalRate m s0.lib.events st' *
            expectedOver m s0.lib.events n (st'.applyEvent e 0).2 (fun p => F (e :: p))).sum := by
      refine list_sum_congr fun e he => ?_
      rcases (rateIn_nonneg hs st' e).lt_or_eq with hp | hp
      · rw [ih _ (good_step hs ha hi hg he hp)]
        ring
      · rw [← hp]; simp
    rw [e1, sum_map_add, sum_weights s0.lib.events (rateIn m st') _ hpos.ne' rfl]

theorem sum_list_swap (Ω : Finset (List Int)) (l : List Event) (G : Event → List Int → ℝ) :
    (∑ x ∈ Ω, (l.map fun e => G e x).sum) = (l.map fun e => ∑ x ∈ Ω, G e x).sum := by
  induction l with
  | nil => simp
  | cons a l ih => simp [Finset.sum_add_distrib, ih]

section equilibrium
variable (hs : HopSystem o mobile h Rounding.exact m g lib st)
    (ha : Answers o mobile m lib.events st.occ)
    (hi : Sim.init (realKernel Rounding.exact) m lib.generateEventDependencies (some h) (some st) = .ok s0)
    {W : List Int → ℝ} (hW : ∀ x, 0 < W x) (hb : Balanced o mobile m s0.lib.events W)
    {Ω : Finset (List Int)} (hΩ : ∀ x, x ∈ Ω ↔ ∃ s, Reaches m s0 s ∧ s.st.occ = x)
include hs ha hi hW hb hΩ

theorem config_good {x : List Int} (hx : x ∈ Ω) : GoodState m s0 (inConfig x) := (hΩ x).1 hx

/-- Executing an event with a rate, and what it leaves. -/
theorem hopped_back {e : Event} (he : e ∈ s0.lib.events) {x : List Int} (hx : x ∈ Ω)
    (hp : rateIn m (inConfig x) e ≠ 0) :
    hopped x e ∈ Ω ∧ hopped (hopped x e) e = x ∧
      W x * rateIn m (inConfig x) e = W (hopped x e) * rateIn m (inConfig (hopped x e)) e ∧
      rateIn m (inConfig (hopped x e)) e ≠ 0 ∧
      ∀ v, wayOf o mobile v (hopped x e) e = -wayOf o mobile v x e := by
  obtain ⟨s, hr, hox⟩ := (hΩ x).1 hx
  have hm := met_reaches hs ha hi (met_start hs hi) hr
  have hrate : rateIn m (inConfig x) e = rateIn m s.st e := rateIn_congr hs.loc hox.symm e
  have hpos : 0 < rateIn m s.st e :=
    lt_of_le_of_ne (rateIn_nonneg hs _ _) (by rw [← hrate]; exact hp.symm)
  obtain ⟨s', hn, hl⟩ := next_of_rateIn hs ha hi hm he hpos
  have hr' : Reaches m s0 s' := hr.tail hn
  have hm' := met_reaches hs ha hi (met_start hs hi) hr'
  have hh : hopped x e = s'.st.occ := apply_leads hs ha hi hm he hl _ hox.symm
  have hback : hopped (hopped x e) e = x := by
    rw [hh, ← hox]
    exact apply_leads hs ha hi hm' he (leads_symm hl) _ rfl
  have hbal := balance_rateIn hs ha hi hb hm hm' he hl
  have hrate' : rateIn m (inConfig (hopped x e)) e = rateIn m s'.st e :=
    rateIn_congr (st := s'.st) (st' := inConfig (hopped x e)) hs.loc hh e
  have hbal' : W x * rateIn m (inConfig x) e = W (hopped x e) * rateIn m (inConfig (hopped x e)) e := by
    rw [hrate, hrate', hh, ← hox]; exact hbal
  have hne : rateIn m (inConfig (hopped x e)) e ≠ 0 := by
    intro h0
    rw [h0, mul_zero] at hbal'
    exact hp ((mul_eq_zero.1 hbal').resolve_left (hW x).ne')
  refine ⟨by rw [hh]; exact (hΩ _).2 ⟨s', hr', rfl⟩, hback, hbal', hne, ?_⟩
  intro v
  have hst : s0.st = st := by
    obtain ⟨i1, -⟩ := init_ok hi
    exact (Option.some.inj i1).symm
  have dirs : ∀ {u : Sim σ φ Unit ℝ EReal}, Met o mobile m st s0 u → 0 < rateIn m u.st e →
      ∃ d : Int, eventDirection u.st.occ e = .ok d ∧ d ≠ 0 := by
    intro u hu hpu
    obtain ⟨f, t, -, -, -, -, d, h2, -, -, -⟩ := direction_species hs hi hu.perm.length_eq hu.inv.labelled he
    refine ⟨d, h2, ?_⟩
    rintro rfl
    have : rateIn m u.st e = 0 := by
      unfold rateIn
      cases hc : m.computeProbability () e u.st with
      | error => rfl
      | ok p => exact hs.forbidden e u.st p h2 hc
    exact hpu.ne' this
  have hpos' : 0 < rateIn m s'.st e :=
    lt_of_le_of_ne (rateIn_nonneg hs _ _) (by rw [← hrate']; exact hne.symm)
  obtain ⟨d, hd, hd0⟩ := dirs hm hpos
  obtain ⟨d', hd', hd0'⟩ := dirs hm' hpos'
  obtain ⟨f, t, h1, hf, ht, hall, d1, h2, h3, h4, h5⟩ := direction_species hs hi hm.perm.length_eq hm.inv.labelled he
  obtain ⟨f', t', h1', hf', ht', hall', d1', h2', h3', h4', h5'⟩ :=
    direction_species hs hi hm'.perm.length_eq hm'.inv.labelled he
  rw [h1] at h1'
  simp only [List.cons.injEq, Nat.cast_inj, and_true] at h1'
  obtain ⟨rfl, rfl⟩ := h1'
  rw [hd] at h2; cases h2
  rw [hd'] at h2'; cases h2'
  rw [hh, ← hox, wayOf_direction hs hi hm.perm.length_eq hm.inv.labelled he v hd hd0,
    wayOf_direction hs hi hm'.perm.length_eq hm'.inv.labelled he v hd' hd0']
  -- the ion has changed its place
  obtain ⟨f2, t2, g1, g2⟩ := hl
  rw [h1] at g1
  simp only [List.cons.injEq, Nat.cast_inj, and_true] at g1
  obtain ⟨rfl, rfl⟩ := g1
  have hne : ∀ i, Vacant o s'.st.occ i → speciesAt o s'.st.occ i ≠ some mobile := by
    rintro i ⟨v, hv, hv'⟩ hi'
    rw [hi'] at hv'
    cases hv'
    exact hm'.inv.labelled.mobileNotVacancy hv
  have sp := speciesAt_exchange hall g2
  rcases h5 with rfl | rfl | rfl
  · have hd'1 : d' ≠ 1 := fun hd1 => hne t (h3'.1 hd1).2 (sp.2.1.trans (h3.1 rfl).1)
    rw [if_pos rfl, if_neg hd'1]
  · have hd'1 : d' = 1 := by
      rcases h5' with h | rfl | rfl
      · exact h
      · exact absurd (sp.1.trans (h4.1 rfl).1) (hne f (h4'.1 rfl).2)
      · exact absurd rfl hd0'
    rw [if_pos hd'1, if_neg (by decide), neg_neg]
  · exact absurd rfl hd0

/-- Every event carries as much weight out of the configurations as into them. -/
theorem event_stationary {e : Event} (he : e ∈ s0.lib.events) (f : List Int → ℝ) :
    ∑ x ∈ Ω, W x * rateIn m (inConfig x) e * f (hopped x e) = ∑ x ∈ Ω, W x * rateIn m (inConfig x) e * f x := by
  classical
  have key : ∀ F : List Int → ℝ, ∑ x ∈ Ω, W x * rateIn m (inConfig x) e * F x =
      ∑ x ∈ Ω.filter (fun x => rateIn m (inConfig x) e ≠ 0), W x * rateIn m (inConfig x) e * F x := by
    intro F
    rw [Finset.sum_filter]
    refine Finset.sum_congr rfl fun x _ => ?_
    by_cases h0 : rateIn m (inConfig x) e = 0 <;> simp [h0]
  rw [key (fun x => f (hopped x e)), key f]
  refine Finset.sum_nbij' (fun x => hopped x e) (fun x => hopped x e) ?_ ?_ ?_ ?_ ?_
  · intro x hx
    obtain ⟨h1, h2⟩ := Finset.mem_filter.1 hx
    obtain ⟨k1, -, -, k2, -⟩ := hopped_back hs ha hi hW hb hΩ he h1 h2
    exact Finset.mem_filter.2 ⟨k1, k2⟩
  · intro x hx
    obtain ⟨h1, h2⟩ := Finset.mem_filter.1 hx
    obtain ⟨k1, -, -, k2, -⟩ := hopped_back hs ha hi hW hb hΩ he h1 h2
    exact Finset.mem_filter.2 ⟨k1, k2⟩
  · intro x hx
    obtain ⟨h1, h2⟩ := Finset.mem_filter.1 hx
    exact (hopped_back hs ha hi hW hb hΩ he h1 h2).2.1
  · intro x hx
    obtain ⟨h1, h2⟩ := Finset.mem_filter.1 hx
    exact (hopped_back hs ha hi hW hb hΩ he h1 h2).2.1
  · intro x hx
    obtain ⟨h1, h2⟩ := Finset.mem_filter.1 hx
    rw [(hopped_back hs ha hi hW hb hΩ he h1 h2).2.2.1]

/-- Every event carries the ions as far to one side as to the other. -/
theorem event_no_drift {e : Event} (he : e ∈ s0.lib.events) (v : Event → Vec3 ℝ) (c : Fin 3) :
    ∑ x ∈ Ω, W x * rateIn m (inConfig x) e * wayOf o mobile v x e c = 0 := by
  have h1 := event_stationary hs ha hi hW hb hΩ he (fun x => wayOf o mobile v x e c)
  have h2 : ∑ x ∈ Ω, W x * rateIn m (inConfig x) e * wayOf o mobile v (hopped x e) e c =
      - ∑ x ∈ Ω, W x * rateIn m (inConfig x) e * wayOf o mobile v x e c := by
    rw [← Finset.sum_neg_distrib]
    refine Finset.sum_congr rfl fun x hx => ?_
    by_cases h0 : rateIn m (inConfig x) e = 0
    · simp [h0]
    · rw [(hopped_back hs ha hi hW hb hΩ he hx h0).2.2.2.2 v, Pi.neg_apply]
      ring
  simp only [h2] at h1
  linarith

/-- A sum over the configurations of means of one step. -/
theorem weighted_step (H : Event → List Int → ℝ) :
    ∑ x ∈ Ω, W x * totalRate m s0.lib.events (inConfig x) *
        (s0.lib.events.map fun e => rateIn m (inConfig x) e / totalRate m s0.lib.events (inConfig x) * H e x).sum =
      (s0.lib.events.map fun e => ∑ x ∈ Ω, W x * rateIn m (inConfig x) e * H e x).sum := by
  rw [← sum_list_swap]
  refine Finset.sum_congr rfl fun x hx => ?_
  rw [← sum_map_const_mul]
  refine list_sum_congr fun e he => ?_
  by_cases h0 : totalRate m s0.lib.events (inConfig x) = 0
  · obtain ⟨s, hr, hox⟩ := (hΩ x).1 hx
    have hm := met_reaches hs ha hi (met_start hs hi) hr
    have h1 : rateIn m (inConfig x) e = 0 := by
      rw [show rateIn m (inConfig x) e = rateIn m s.st e from rateIn_congr hs.loc hox.symm e]
      refine rate_zero_of_total hs hm ?_ he
      rw [← h0]
      exact totalRate_congr hs.loc _ hox
    rw [h1]; simp
  · field_simp

/-- In equilibrium the configuration after some steps is distributed like the one before. -/
theorem mean_after (k : Nat) (G : List Int → ℝ) :
    ∑ x ∈ Ω, W x * totalRate m s0.lib.events (inConfig x) *
        expectedOver m s0.lib.events k (inConfig x) (fun p => G (afterAll (inConfig x) p).occ) =
      ∑ x ∈ Ω, W x * totalRate m s0.lib.events (inConfig x) * G x := by
  induction k with
  | zero => rfl
  | succ k ih =>
    rw [← ih]
    simp only [expectedOver]
    have e1 : ∀ (x : List Int) (e : Event), expectedOver m s0.lib.events k ((inConfig x).applyEvent e 0).2
        (fun p => G (afterAll (inConfig x) (e :: p)).occ) =
        expectedOver m s0.lib.events k (inConfig (hopped x e)) (fun p => G (afterAll (inConfig (hopped x e)) p).occ) := by
      intro x e
      refine (expectedOver_congr (st := inConfig (hopped x e)) (st' := ((inConfig x).applyEvent e 0).2) hs.loc _ k _
        rfl).trans ?_
      congr 1
      funext p
      rw [afterAll, afterAll_congr (st := inConfig (hopped x e)) (st' := ((inConfig x).applyEvent e 0).2) p rfl]
    simp only [e1]
    rw [weighted_step hs ha hi hW hb hΩ (fun e x => expectedOver m s0.lib.events k (inConfig (hopped x e))
      (fun p => G (afterAll (inConfig (hopped x e)) p).occ))]
    rw [list_sum_congr (fun e he => event_stationary hs ha hi hW hb hΩ he (fun y => expectedOver m s0.lib.events k
      (inConfig y) (fun p => G (afterAll (inConfig y) p).occ)))]
    rw [← sum_list_swap]
    refine Finset.sum_congr rfl fun x _ => ?_
    rw [totalRate, ← List.sum_map_mul_left, ← List.sum_map_mul_right]

/-- In equilibrium the ions get nowhere on average. -/
theorem mean_walk_zero (alive : ∀ s, Reaches m s0 s → ¬ Stuck m s) (v : Event → Vec3 ℝ) (c : Fin 3) (n : Nat) :
    ∑ x ∈ Ω, W x * totalRate m s0.lib.events (inConfig x) *
        expectedOver m s0.lib.events n (inConfig x) (fun p => walkOf o mobile v (inConfig x) p c) = 0 := by
  induction n with
  | zero => simp [expectedOver, walkOf]
  | succ n ih =>
    simp only [expectedOver]
    have e1 : ∀ x ∈ Ω, (s0.lib.events.map fun e => rateIn m (inConfig x) e / totalRate m s0.lib.events (inConfig x) *
        expectedOver m s0.lib.events n ((inConfig x).applyEvent e 0).2
          (fun p => walkOf o mobile v (inConfig x) (e :: p) c)).sum =
        (s0.lib.events.map fun e => rateIn m (inConfig x) e / totalRate m s0.lib.events (inConfig x) *
          (wayOf o mobile v x e c + expectedOver m s0.lib.events n (inConfig (hopped x e))
            (fun p => walkOf o mobile v (inConfig (hopped x e)) p c))).sum := by
      intro x hx
      refine list_sum_congr fun e he => ?_
      rcases (rateIn_nonneg hs (inConfig x) e).lt_or_eq with hp | hp
      · congr 1
        have hg := good_step hs ha hi (config_good hs ha hi hW hb hΩ hx) he hp
        simp only [walkOf, Pi.add_apply]
        rw [expectedOver_add_const hs ha hi alive _ n _ hg]
        rw [show (inConfig x).occ = x from rfl]
        congr 1
        refine (expectedOver_congr (st := inConfig (hopped x e)) (st' := ((inConfig x).applyEvent e 0).2) hs.loc _ n _
          rfl).trans ?_
        congr 1
        funext p
        rw [walkOf_congr (st := inConfig (hopped x e)) (st' := ((inConfig x).applyEvent e 0).2) v p rfl]
      · rw [← hp]; simp
    rw [Finset.sum_congr rfl fun x hx => by rw [e1 x hx]]
    rw [weighted_step hs ha hi hW hb hΩ (fun e x => wayOf o mobile v x e c +
      expectedOver m s0.lib.events n (inConfig (hopped x e)) (fun p => walkOf o mobile v (inConfig (hopped x e)) p c))]
    have e2 : ∀ e ∈ s0.lib.events, ∑ x ∈ Ω, W x * rateIn m (inConfig x) e * (wayOf o mobile v x e c +
        expectedOver m s0.lib.events n (inConfig (hopped x e)) (fun p => walkOf o mobile v (inConfig (hopped x e)) p c)) =
        ∑ x ∈ Ω, W x * rateIn m (inConfig x) e * expectedOver m s0.lib.events n (inConfig x)
          (fun p => walkOf o mobile v (inConfig x) p c) := by
      intro e he
      simp only [mul_add, Finset.sum_add_distrib]
      rw [event_no_drift hs ha hi hW hb hΩ he v c, zero_add]
      exact event_stationary hs ha hi hW hb hΩ he (fun y => expectedOver m s0.lib.events n (inConfig y)
        (fun p => walkOf o mobile v (inConfig y) p c))
    rw [list_sum_congr e2, ← ih]
    rw [← sum_list_swap]
    refine Finset.sum_congr rfl fun x _ => ?_
    rw [totalRate, ← List.sum_map_mul_left, ← List.sum_map_mul_right]

end equilibrium

end
end KMC
