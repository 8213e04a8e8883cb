import Verif.Lemmas.Equilibrium
import Verif.Props.ModelProgressProps
/-
C90: in the long run a simulation visits configurations according to the Boltzmann distribution.
-/
set_option linter.unusedSectionVars false

namespace KMC
open Spec MeasureTheory

section
variable {σ φ ψ K : Type} [Field K] [LinearOrder K] [FloorRing K]
variable {o : ActiveSiteOrder String ψ} {mobile : String} {h : HopStateLookup}
  {m : RateModel Unit ℝ EReal} {g : Geometry K} {lib : EventLib σ φ} {st : State EReal}
  {s0 : Sim σ φ Unit ℝ EReal}

/-- C90.  The past does not matter: two simulations that came out of the same start, by whatever histories,
and are now in the same configuration have the same rates, the same chances for the next step, and stay
equally long on average. -/
theorem C90_past_does_not_matter (hs : HopSystem o mobile h Rounding.exact m g lib st)
    (ha : Answers o mobile m lib.events st.occ)
    (hi : Sim.init (realKernel Rounding.exact) m lib.generateEventDependencies (some h) (some st) = .ok s0)
    {s s' : Sim σ φ Unit ℝ EReal} (hr : Reaches m s0 s) (hr' : Reaches m s0 s') (ho : s.st.occ = s'.st.occ) :
    s.prob = s'.prob ∧ (∀ r1 r2, s.propose (realKernel Rounding.exact) r1 r2 =
      s'.propose (realKernel Rounding.exact) r1 r2) ∧
    (∀ r2 y, chance m r2 s y = chance m r2 s' y) ∧ ∀ r1, meanStay r1 s = meanStay r1 s' := by
  have hm := met_reaches hs ha hi (met_start hs hi) hr
  have hm' := met_reaches hs ha hi (met_start hs hi) hr'
  have hp := met_prob hs hm hm' ho
  have hprop : ∀ r1 r2, s.propose (realKernel Rounding.exact) r1 r2 =
      s'.propose (realKernel Rounding.exact) r1 r2 := by
    intro r1 r2
    unfold Sim.propose
    rw [hm.inv.table.cum, hm'.inv.table.cum, hm.inv.lib, hm'.inv.lib, hp]
  refine ⟨hp, hprop, ?_, ?_⟩
  · intro r2 y
    unfold chance
    congr 2
    ext r1
    simp only [Set.mem_ofPred_eq]
    refine and_congr_right fun h0 => and_congr_right fun h1 => ?_
    refine exists_congr fun e => exists_congr fun dt => ?_
    rw [hprop]
    constructor
    · rintro ⟨u, hu, hv, hw⟩
      rw [← hprop] at hu
      obtain ⟨he, -⟩ := proposed_possible hs hm.inv h0 h1 hu
      obtain ⟨u1, q1, -, l1⟩ := met_update hs ha hi hm he dt
      obtain ⟨u2, q2, -, l2⟩ := met_update hs ha hi hm' he dt
      rw [q1] at hv; cases hv
      rw [← ho] at l2
      rw [hprop] at hu
      exact ⟨u2, hu, q2, (leads_unique l2 l1).trans hw⟩
    · rintro ⟨u, hu, hv, hw⟩
      obtain ⟨he, -⟩ := proposed_possible hs hm'.inv h0 h1 hu
      obtain ⟨u1, q1, -, l1⟩ := met_update hs ha hi hm he dt
      obtain ⟨u2, q2, -, l2⟩ := met_update hs ha hi hm' he dt
      rw [q2] at hv; cases hv
      rw [← ho] at l2
      exact ⟨u1, hu, q1, (leads_unique l1 l2).trans hw⟩
  · intro r1
    unfold meanStay stay
    simp only [hprop]

open Classical in
/-- C90.  The chance that the next step leads to a configuration is the sum of the current rates of the events
that lead there over the sum of all rates. -/
theorem C90_step_chance (hs : HopSystem o mobile h Rounding.exact m g lib st)
    (ha : Answers o mobile m lib.events st.occ)
    (hi : Sim.init (realKernel Rounding.exact) m lib.generateEventDependencies (some h) (some st) = .ok s0)
    {s : Sim σ φ Unit ℝ EReal} (hr : Reaches m s0 s) (hns : ¬ Stuck m s) (rate : Nat → ℝ)
    (hrate : ∀ i e, s0.lib.events[i]? = some e → m.computeProbability () e s.st = .ok (rate i)) (r2 : ℝ)
    (y : List Int) :
    chance m r2 s y =
      (∑ i ∈ Finset.range s0.lib.events.length,
        if ∃ e, s0.lib.events[i]? = some e ∧ Leads e s.st.occ y then rate i else 0) /
      ∑ i ∈ Finset.range s0.lib.events.length, rate i := by
  have hm := met_reaches hs ha hi (met_start hs hi) hr
  rw [chance_eq hs ha hi hm (sum_pos_of_not_stuck hs hm hns)]
  have key : ∀ i ∈ Finset.range s0.lib.events.length, s.prob.getD i 0 = rate i := by
    intro i hil
    rw [Finset.mem_range] at hil
    have he : s0.lib.events[i]? = some s0.lib.events[i] := by simp [hil]
    obtain ⟨p, h1, h2⟩ := hm.inv.table.fresh i s0.lib.events[i] (by rw [hm.inv.lib]; exact he)
    have h3 := hrate i _ he
    have h2' : m.computeProbability () s0.lib.events[i] s.st = .ok p := h2
    rw [h3, Except.ok.injEq] at h2'
    rw [List.getD_eq_getElem?_getD, h1, h2']
    rfl
  congr 1
  · unfold flow
    refine Finset.sum_congr rfl fun i hil => ?_
    rw [key i hil]
  · rw [← sum_getD, hm.inv.table.length, hm.inv.lib]
    exact Finset.sum_congr rfl key

/-- C90.  The mean time until the next step is one over the sum of all rates. -/
theorem C90_mean_stay (hs : HopSystem o mobile h Rounding.exact m g lib st)
    (ha : Answers o mobile m lib.events st.occ)
    (hi : Sim.init (realKernel Rounding.exact) m lib.generateEventDependencies (some h) (some st) = .ok s0)
    {s : Sim σ φ Unit ℝ EReal} (hr : Reaches m s0 s) (hns : ¬ Stuck m s) (rate : Nat → ℝ)
    (hrate : ∀ i e, s0.lib.events[i]? = some e → m.computeProbability () e s.st = .ok (rate i)) (r1 : ℝ)
    (h0 : 0 ≤ r1) (h1 : r1 < 1) :
    meanStay r1 s = 1 / ∑ i ∈ Finset.range s0.lib.events.length, rate i := by
  have hm := met_reaches hs ha hi (met_start hs hi) hr
  rw [meanStay_eq hs hm (sum_pos_of_not_stuck hs hm hns) r1 h0 h1, ← sum_getD, hm.inv.table.length, hm.inv.lib]
  congr 1
  refine Finset.sum_congr rfl fun i hil => ?_
  rw [Finset.mem_range] at hil
  have he : s0.lib.events[i]? = some s0.lib.events[i] := by simp [hil]
  obtain ⟨p, h1, h2⟩ := hm.inv.table.fresh i s0.lib.events[i] (by rw [hm.inv.lib]; exact he)
  have h3 := hrate i _ he
  have h2' : m.computeProbability () s0.lib.events[i] s.st = .ok p := h2
  rw [h3, Except.ok.injEq] at h2'
  rw [List.getD_eq_getElem?_getD, h1, h2']
  rfl

/-- C90.  Which regimes are stationary.  Let the model be balanced with positive weights `W`, and let `Ω` be
the configurations that the simulation can get into.  Then a distribution of the steps over `Ω` is stationary
exactly if the mean time it spends in each configuration is proportional to the weight `W`.  So there is one
stationary regime, up to its size, and it spends its time according to `W`. -/
theorem C90_stationary_iff (hs : HopSystem o mobile h Rounding.exact m g lib st)
    (ha : Answers o mobile m lib.events st.occ)
    (hi : Sim.init (realKernel Rounding.exact) m lib.generateEventDependencies (some h) (some st) = .ok s0)
    (hns : ¬ Stuck m s0) (W : List Int → ℝ) (hW : ∀ x, 0 < W x)
    (hb : Balanced o mobile m s0.lib.events W)
    (Ω : Finset (List Int)) (hΩ : ∀ x, x ∈ Ω ↔ ∃ s, Reaches m s0 s ∧ s.st.occ = x)
    (sims : List Int → Sim σ φ Unit ℝ EReal) (hsims : ∀ x ∈ Ω, Reaches m s0 (sims x) ∧ (sims x).st.occ = x)
    (r1 r2 : ℝ) (h0 : 0 ≤ r1) (h1 : r1 < 1) (μ : List Int → ℝ) :
    Stationary Ω (fun x y => chance m r2 (sims x) y) μ ↔
      ∃ c, ∀ x ∈ Ω, μ x * meanStay r1 (sims x) = c * W x := by
  have met : ∀ x ∈ Ω, Met o mobile m st s0 (sims x) := fun x hx =>
    met_reaches hs ha hi (met_start hs hi) (hsims x hx).1
  have pos : ∀ x ∈ Ω, 0 < (sims x).prob.sum := fun x hx => reaches_sum_pos hs ha hi hb hW hns (hsims x hx).1
  have hflow : ∀ {u v : Sim σ φ Unit ℝ EReal}, Reaches m s0 u → Next m u v →
      (u.st.occ ∈ Ω ∧ v.st.occ ∈ Ω ∧
        0 < flow s0.lib.events (sims u.st.occ).prob u.st.occ v.st.occ) ∧
      (v.st.occ ∈ Ω ∧ u.st.occ ∈ Ω ∧
        0 < flow s0.lib.events (sims v.st.occ).prob v.st.occ u.st.occ) := by
    intro u v hu hn
    have hmu := met_reaches hs ha hi (met_start hs hi) hu
    have hmv := (met_next hs ha hi hmu hn).1
    have hu' : u.st.occ ∈ Ω := (hΩ _).2 ⟨u, hu, rfl⟩
    have hv' : v.st.occ ∈ Ω := (hΩ _).2 ⟨v, hu.tail hn, rfl⟩
    obtain ⟨f1, f2, -⟩ := next_flow hs ha hi hb hW hmu hn
    rw [met_prob hs (met _ hu') hmu (hsims _ hu').2, met_prob hs (met _ hv') hmv (hsims _ hv').2]
    exact ⟨⟨hu', hv', f1⟩, hv', hu', f2⟩
  have conn : ∀ {s : Sim σ φ Unit ℝ EReal}, Reaches m s0 s →
      Relation.ReflTransGen (fun u v => u ∈ Ω ∧ v ∈ Ω ∧ 0 < flow s0.lib.events (sims u).prob u v)
        s0.st.occ s.st.occ ∧
      Relation.ReflTransGen (fun u v => u ∈ Ω ∧ v ∈ Ω ∧ 0 < flow s0.lib.events (sims u).prob u v)
        s.st.occ s0.st.occ := by
    intro s hr
    induction hr with
    | refl => exact ⟨.refl, .refl⟩
    | tail hu hn ih =>
      obtain ⟨f1, f2⟩ := hflow hu hn
      exact ⟨ih.1.tail f1, .head f2 ih.2⟩
  have key := stationary_iff Ω (fun x y => flow s0.lib.events (sims x).prob x y) (fun x => (sims x).prob.sum) W μ
    (fun x hx y _ => flow_nonneg hs (met x hx) x y) pos
    (fun x hx => by
      have := flow_total hs ha hi (met x hx) Ω (fun s' hn => (hΩ _).2 ⟨s', (hsims x hx).1.tail hn, rfl⟩)
      rw [(hsims x hx).2] at this
      exact this)
    (fun x _ => hW x)
    (fun x hx y hy => by
      have := balance_flow hs ha hi hb (met x hx) (met y hy)
      rw [(hsims x hx).2, (hsims y hy).2] at this
      exact this)
    (fun x hx y hy => by
      obtain ⟨s, hr, rfl⟩ := (hΩ x).1 hx
      obtain ⟨t, ht, rfl⟩ := (hΩ y).1 hy
      exact (conn hr).2.trans (conn ht).1)
  have e1 : Stationary Ω (fun x y => chance m r2 (sims x) y) μ ↔
      ∀ y ∈ Ω, ∑ x ∈ Ω, μ x * (flow s0.lib.events (sims x).prob x y / (sims x).prob.sum) = μ y := by
    unfold Stationary
    refine forall_congr' fun y => forall_congr' fun hy => ?_
    rw [Finset.sum_congr rfl fun x hx => ?_]
    simp only
    rw [chance_eq hs ha hi (met x hx) (pos x hx), (hsims x hx).2]
  have e2 : (∃ c, ∀ x ∈ Ω, μ x * meanStay r1 (sims x) = c * W x) ↔
      ∃ c, ∀ x ∈ Ω, μ x * (1 / (sims x).prob.sum) = c * W x := by
    refine exists_congr fun c => forall_congr' fun x => forall_congr' fun hx => ?_
    rw [meanStay_eq hs (met x hx) (pos x hx) r1 h0 h1]
  rw [e1, e2]
  exact key

/-- C90.  The configurations that a simulation can get into are finitely many. -/
theorem C90_finitely_many (hs : HopSystem o mobile h Rounding.exact m g lib st)
    (ha : Answers o mobile m lib.events st.occ)
    (hi : Sim.init (realKernel Rounding.exact) m lib.generateEventDependencies (some h) (some st) = .ok s0) :
    ∃ Ω : Finset (List Int), ∀ x, x ∈ Ω ↔ ∃ s, Reaches m s0 s ∧ s.st.occ = x := by
  classical
  refine ⟨st.occ.permutations.toFinset.filter fun x => ∃ s, Reaches m s0 s ∧ s.st.occ = x, fun x => ?_⟩
  simp only [Finset.mem_filter, List.mem_toFinset, List.mem_permutations, and_iff_right_iff_imp]
  rintro ⟨s, hr, rfl⟩
  exact (met_reaches hs ha hi (met_start hs hi) hr).perm

/-- C90.  On a connected network with a model that gives possible hops a positive rate, the configurations
that the simulation can get into are all the arrangements of the contents of the network. -/
theorem C90_all_arrangements (hs : HopSystem o mobile h Rounding.exact m g lib st)
    (ha : Answers o mobile m lib.events st.occ) (hw : Willing m)
    (hi : Sim.init (realKernel Rounding.exact) m lib.generateEventDependencies (some h) (some st) = .ok s0)
    {S : Nat → Prop} (hn : Network o mobile lib.events st.occ S) (x : List Int) :
    (∃ s, Reaches m s0 s ∧ s.st.occ = x) ↔ SameComposition x st.occ ∧ ∀ i, ¬ S i → x[i]? = st.occ[i]? := by
  have hst : s0.st = st := by
    obtain ⟨i1, -⟩ := init_ok hi
    cases i1; rfl
  constructor
  · rintro ⟨s, hr, rfl⟩
    obtain ⟨h1, h2⟩ := reaches_arrangement hs ha hi hn.ends hr
    exact ⟨sameComposition_iff_perm.2 h1, h2⟩
  · rintro ⟨h1, h2⟩
    exact network_arrange hs ha hi hw x _ s0 (met_start hs hi) (by rw [hst]; exact hn)
      (by rw [hst]; exact sameComposition_iff_perm.1 h1) (by rw [hst]; exact h2) (le_refl _)

/-- An event of the running simulation lists the same sites as one of the given events. -/
theorem running_event
    (hi : Sim.init (realKernel Rounding.exact) m lib.generateEventDependencies (some h) (some st) = .ok s0)
    {e : Event} (he : e ∈ s0.lib.events) : ∃ x ∈ lib.events, e.mobile = x.mobile ∧ e.env = x.env := by
  obtain ⟨-, -, -, -, -, hann, -, -⟩ := init_ok hi
  obtain ⟨x, hx, hye⟩ := annotateEvents_mem (hann h rfl) e he
  obtain ⟨f', t', mf, vt, vf, mt, -, -, -, -, -, rfl⟩ := annotateEvent_ok hye
  exact ⟨x, hx, rfl, rfl⟩

/-- C90.  A composite model whose site-energy differences are differences of an energy `E` is balanced with
the Boltzmann weights of `E`. -/
theorem C90_energy_balanced (c : Composite Unit EReal) (kB temp ν : ℝ) (hν : 0 < ν)
    (hs : HopSystem o mobile h Rounding.exact (c.rateModel kB temp ν) g lib st)
    (hi : Sim.init (realKernel Rounding.exact) (c.rateModel kB temp ν) lib.generateEventDependencies (some h)
      (some st) = .ok s0)
    (hc : ∀ e st', (c.site.applyEvent () e st').1 = .ok ())
    (hap : ∀ e ∈ lib.events, SurroundingsApart st.occ.length e) (E : List Int → ℝ)
    (hE : ReportsEnergy c.site (fun _ st' => WellLabelled o mobile st'.occ)
      (fun e => ∃ x ∈ lib.events, e.mobile = x.mobile ∧ e.env = x.env) E) :
    Balanced o mobile (c.rateModel kB temp ν) s0.lib.events fun x => Real.exp (-E x / (kB * temp)) := by
  intro e he st1 st2 dt d p p' hw hd h0 happly hp hp'
  have hlen : st1.occ.length = st.occ.length := hw.length.trans hs.labelled.length.symm
  obtain ⟨x, hx, h1, h2⟩ := running_event hi he
  have hsur : SurroundingsApart st1.occ.length e := by
    rw [hlen]
    intro i hi' j hj
    rw [h2] at hi'; rw [h1] at hj
    exact hap x hx i hi' j hj
  exact (C39_boltzmann c kB temp ν hν _ _ E hE () () st1 st2 e dt d p p' hw ⟨x, hx, h1, h2⟩
    (event_twoWay hs hi he hw hlen hd h0) hsur hd h0 happly (Prod.ext (hc e st2) rfl) hp hp').1

/-- C90.  A barrier expansion without site energies is balanced with equal weights. -/
theorem C90_barriers_balanced (kra : LCE ℝ) (kB temp ν : ℝ) (hν : 0 < ν)
    (hs : HopSystem o mobile h Rounding.exact
      ((⟨some kra, .none⟩ : Composite Unit EReal).rateModel kB temp ν) g lib st)
    (hi : Sim.init (realKernel Rounding.exact) ((⟨some kra, .none⟩ : Composite Unit EReal).rateModel kB temp ν)
      lib.generateEventDependencies (some h) (some st) = .ok s0)
    (hap : ∀ e ∈ lib.events, SurroundingsApart st.occ.length e) :
    Balanced o mobile ((⟨some kra, .none⟩ : Composite Unit EReal).rateModel kB temp ν) s0.lib.events
      fun _ => 1 := by
  intro e he st1 st2 dt d p p' hw hd h0 happly hp hp'
  have hlen : st1.occ.length = st.occ.length := hw.length.trans hs.labelled.length.symm
  obtain ⟨x, hx, h1, h2⟩ := running_event hi he
  have hsur : SurroundingsApart st1.occ.length e := by
    rw [hlen]
    intro i hi' j hj
    rw [h2] at hi'; rw [h1] at hj
    exact hap x hx i hi' j hj
  rw [one_mul, one_mul]
  exact C39_no_site_model_symmetric kra kB temp ν hν st1 st2 e dt d p p'
    (event_twoWay hs hi he hw hlen hd h0) hsur hd h0 happly hp hp'

/-- C90.  The equilibrium of a simulation is the Boltzmann distribution.  Take a composite model whose
site-energy differences are differences of an energy `E`, and a connected network with an ion and a vacancy.
Then a regime over all arrangements of the network is stationary exactly if it spends in each arrangement `x` a
time proportional to `exp (-E x / kT)`. -/
theorem C90_boltzmann (c : Composite Unit EReal) (kB temp ν : ℝ) (hν : 0 < ν)
    (hs : HopSystem o mobile h Rounding.exact (c.rateModel kB temp ν) g lib st)
    (ha : Answers o mobile (c.rateModel kB temp ν) lib.events st.occ)
    (hi : Sim.init (realKernel Rounding.exact) (c.rateModel kB temp ν) lib.generateEventDependencies (some h)
      (some st) = .ok s0)
    {S : Nat → Prop} (hn : Network o mobile lib.events st.occ S)
    (hap : ∀ e ∈ lib.events, SurroundingsApart st.occ.length e) (E : List Int → ℝ)
    (hE : ReportsEnergy c.site (fun _ st' => WellLabelled o mobile st'.occ)
      (fun e => ∃ x ∈ lib.events, e.mobile = x.mobile ∧ e.env = x.env) E)
    (Ω : Finset (List Int))
    (hΩ : ∀ x, x ∈ Ω ↔ SameComposition x st.occ ∧ ∀ i, ¬ S i → x[i]? = st.occ[i]?)
    (sims : List Int → Sim σ φ Unit ℝ EReal)
    (hsims : ∀ x ∈ Ω, Reaches (c.rateModel kB temp ν) s0 (sims x) ∧ (sims x).st.occ = x)
    (r1 r2 : ℝ) (h0 : 0 ≤ r1) (h1 : r1 < 1) (μ : List Int → ℝ) :
    Stationary Ω (fun x y => chance (c.rateModel kB temp ν) r2 (sims x) y) μ ↔
      ∃ a, ∀ x ∈ Ω, μ x * meanStay r1 (sims x) = a * Real.exp (-E x / (kB * temp)) := by
  have hst : s0.st = st := by
    obtain ⟨i1, -⟩ := init_ok hi
    cases i1; rfl
  have hw := C85_composite_willing c kB temp ν hν
  have hns : ¬ Stuck (c.rateModel kB temp ν) s0 :=
    network_not_stuck hs ha hi hw (sim_init_inv hs hi) (by rw [hst]) (by rw [hst]; exact hn)
  refine C90_stationary_iff hs ha hi hns (fun x => Real.exp (-E x / (kB * temp))) (fun x => Real.exp_pos _)
    (C90_energy_balanced c kB temp ν hν hs hi (fun e st' => ha.commit e st') hap E hE) Ω
    (fun x => (hΩ x).trans (C90_all_arrangements hs ha hw hi hn x).symm) sims hsims r1 r2 h0 h1 μ

/-- C90.  Without site energies every arrangement gets the same share of the time. -/
theorem C90_equal_shares (kra : LCE ℝ) (kB temp ν : ℝ) (hν : 0 < ν)
    (hs : HopSystem o mobile h Rounding.exact
      ((⟨some kra, .none⟩ : Composite Unit EReal).rateModel kB temp ν) g lib st)
    (ha : Answers o mobile ((⟨some kra, .none⟩ : Composite Unit EReal).rateModel kB temp ν) lib.events st.occ)
    (hi : Sim.init (realKernel Rounding.exact) ((⟨some kra, .none⟩ : Composite Unit EReal).rateModel kB temp ν)
      lib.generateEventDependencies (some h) (some st) = .ok s0)
    {S : Nat → Prop} (hn : Network o mobile lib.events st.occ S)
    (hap : ∀ e ∈ lib.events, SurroundingsApart st.occ.length e)
    (Ω : Finset (List Int))
    (hΩ : ∀ x, x ∈ Ω ↔ SameComposition x st.occ ∧ ∀ i, ¬ S i → x[i]? = st.occ[i]?)
    (sims : List Int → Sim σ φ Unit ℝ EReal)
    (hsims : ∀ x ∈ Ω, Reaches ((⟨some kra, .none⟩ : Composite Unit EReal).rateModel kB temp ν) s0 (sims x) ∧
      (sims x).st.occ = x)
    (r1 r2 : ℝ) (h0 : 0 ≤ r1) (h1 : r1 < 1) (μ : List Int → ℝ) :
    Stationary Ω (fun x y =>
        chance ((⟨some kra, .none⟩ : Composite Unit EReal).rateModel kB temp ν) r2 (sims x) y) μ ↔
      ∀ x ∈ Ω, ∀ y ∈ Ω, μ x * meanStay r1 (sims x) = μ y * meanStay r1 (sims y) := by
  have hst : s0.st = st := by
    obtain ⟨i1, -⟩ := init_ok hi
    cases i1; rfl
  have hw := C85_composite_willing (⟨some kra, .none⟩ : Composite Unit EReal) kB temp ν hν
  have hns := network_not_stuck hs ha hi hw (sim_init_inv hs hi) (by rw [hst]) (by rw [hst]; exact hn)
  rw [C90_stationary_iff hs ha hi hns (fun _ => 1) (fun _ => one_pos)
    (C90_barriers_balanced kra kB temp ν hν hs hi hap) Ω
    (fun x => (hΩ x).trans (C90_all_arrangements hs ha hw hi hn x).symm) sims hsims r1 r2 h0 h1 μ]
  constructor
  · rintro ⟨a, hall⟩ x hx y hy
    rw [hall x hx, hall y hy]
  · intro hall
    rcases Ω.eq_empty_or_nonempty with rfl | ⟨z, hz⟩
    · exact ⟨0, by simp⟩
    · exact ⟨μ z * meanStay r1 (sims z), fun x hx => by rw [mul_one]; exact hall x hx z hz⟩

/-- C90.  There is an equilibrium: the distribution that gives each configuration a number of steps proportional
to its weight over the mean time of a visit is stationary, and it is positive everywhere. -/
theorem C90_equilibrium_exists (hs : HopSystem o mobile h Rounding.exact m g lib st)
    (ha : Answers o mobile m lib.events st.occ)
    (hi : Sim.init (realKernel Rounding.exact) m lib.generateEventDependencies (some h) (some st) = .ok s0)
    (hns : ¬ Stuck m s0) (W : List Int → ℝ) (hW : ∀ x, 0 < W x)
    (hb : Balanced o mobile m s0.lib.events W) :
    ∃ (Ω : Finset (List Int)) (sims : List Int → Sim σ φ Unit ℝ EReal) (μ : List Int → ℝ),
      (∀ x, x ∈ Ω ↔ ∃ s, Reaches m s0 s ∧ s.st.occ = x) ∧
      (∀ x ∈ Ω, Reaches m s0 (sims x) ∧ (sims x).st.occ = x) ∧
      (∀ x ∈ Ω, 0 < μ x) ∧ ∑ x ∈ Ω, μ x = 1 ∧
      (∀ r2, Stationary Ω (fun x y => chance m r2 (sims x) y) μ) ∧
      ∃ a, 0 < a ∧ ∀ x ∈ Ω, ∀ r1, 0 ≤ r1 → r1 < 1 → μ x * meanStay r1 (sims x) = a * W x := by
  classical
  obtain ⟨Ω, hΩ⟩ := C90_finitely_many hs ha hi
  let sims : List Int → Sim σ φ Unit ℝ EReal := fun x =>
    if hx : ∃ s, Reaches m s0 s ∧ s.st.occ = x then hx.choose else s0
  have hsims : ∀ x ∈ Ω, Reaches m s0 (sims x) ∧ (sims x).st.occ = x := by
    intro x hx
    have hx' := (hΩ x).1 hx
    simp only [sims, dif_pos hx']
    exact hx'.choose_spec
  have met : ∀ x ∈ Ω, Met o mobile m st s0 (sims x) := fun x hx =>
    met_reaches hs ha hi (met_start hs hi) (hsims x hx).1
  have pos : ∀ x ∈ Ω, 0 < (sims x).prob.sum := fun x hx => reaches_sum_pos hs ha hi hb hW hns (hsims x hx).1
  have hne : Ω.Nonempty := ⟨s0.st.occ, (hΩ _).2 ⟨s0, .refl, rfl⟩⟩
  have hZ : 0 < ∑ x ∈ Ω, W x * (sims x).prob.sum := Finset.sum_pos (fun x hx => mul_pos (hW x) (pos x hx)) hne
  have hstay : ∀ x ∈ Ω, ∀ r1, 0 ≤ r1 → r1 < 1 →
      W x * (sims x).prob.sum / (∑ x ∈ Ω, W x * (sims x).prob.sum) * meanStay r1 (sims x) =
        1 / (∑ x ∈ Ω, W x * (sims x).prob.sum) * W x := by
    intro x hx r1 h0 h1
    rw [meanStay_eq hs (met x hx) (pos x hx) r1 h0 h1]
    have := (pos x hx).ne'
    field_simp
  refine ⟨Ω, sims, fun x => W x * (sims x).prob.sum / ∑ x ∈ Ω, W x * (sims x).prob.sum, hΩ, hsims,
    fun x hx => div_pos (mul_pos (hW x) (pos x hx)) hZ, ?_, ?_, 1 / ∑ x ∈ Ω, W x * (sims x).prob.sum,
    one_div_pos.2 hZ, hstay⟩
  · rw [← Finset.sum_div, div_self hZ.ne']
  · intro r2
    exact (C90_stationary_iff hs ha hi hns W hW hb Ω hΩ sims hsims 0 r2 le_rfl one_pos _).2
      ⟨_, fun x hx => hstay x hx 0 le_rfl one_pos⟩

/-- C90.  A local barrier model is balanced with the Boltzmann weights of an energy `E` if the barriers of
every possible hop and of its way back differ by the difference of `E`. -/
theorem C90_local_barriers_balanced (lm : LocalBarrierModel) (kB temp ν : ℝ)
    (hs : HopSystem o mobile h Rounding.exact (lm.rateModel kB temp ν) g lib st)
    (hi : Sim.init (realKernel Rounding.exact) (lm.rateModel kB temp ν) lib.generateEventDependencies (some h)
      (some st) = .ok s0) (E : List Int → ℝ)
    (hE : ∀ e, (∃ x ∈ lib.events, e.mobile = x.mobile ∧ e.env = x.env) → ∀ (st1 st2 : State EReal) dt,
      WellLabelled o mobile st1.occ → st1.applyEvent e dt = (.ok (), st2) →
      ∃ b b' : ℚ, lm.compute st1.occ e lm.probabilityProperty = .ok (.fin b) ∧
        lm.compute st2.occ e lm.probabilityProperty = .ok (.fin b') ∧
        (b : ℝ) - (b' : ℝ) = E st2.occ - E st1.occ) :
    Balanced o mobile (lm.rateModel kB temp ν) s0.lib.events fun x => Real.exp (-E x / (kB * temp)) := by
  intro e he st1 st2 dt d p p' hw hd h0 happly hp hp'
  have hlen : st1.occ.length = st.occ.length := hw.length.trans hs.labelled.length.symm
  obtain ⟨b, b', hb, hb', hdiff⟩ := hE e (running_event hi he) st1 st2 dt hw happly
  obtain ⟨hc, t1, t2, t3, t4⟩ := event_twoWay hs hi he hw hlen hd h0
  have hd' := C13_hop_reverses_direction st1 st2 e dt d hc t1 t2 t3 t4 hd h0 happly
  simp only [LocalBarrierModel.rateModel, LocalBarrierModel.computeProbability] at hp hp'
  by_cases hmode : lm.probabilityMode ≠ LocalBarrierModel.supportedMode
  · rw [if_pos hmode] at hp; cases hp
  · rw [if_neg hmode] at hp hp'
    have h0' : -d ≠ 0 := by omega
    simp only [hb, hb', hd, hd', LocalBarrierModel.arrhenius, if_pos h0, if_pos h0', Except.ok.injEq] at hp hp'
    rw [← hp, ← hp', one_mul]
    have key : ∀ a c : ℝ, Real.exp a * (ν * Real.exp c) = ν * Real.exp (a + c) := by
      intro a c; rw [Real.exp_add]; ring
    simp only [key]
    congr 2
    rw [← add_div, ← add_div]
    congr 1
    linarith

/-- C90.  The simplest set-up in full: one barrier for all events at a positive attempt frequency, on a connected
network with an ion and a vacancy.  The simulation can be constructed, it can get into every arrangement of the
network, and it has an equilibrium, in which every arrangement gets the same share of the time. -/
theorem C90_constant_barrier (b : ℚ) (name : String) (kB temp ν : ℝ) (hν : 0 < ν)
    (lookup : HopStateLookup.fromActiveSiteOrder o mobile = .ok h)
    (labelled : WellLabelled o mobile st.occ) (fit : IndicesFit st.occ.length lib.events)
    (endpoints : ∀ e ∈ lib.events, ∃ f t : Nat, e.mobile = [(f : Int), (t : Int)] ∧
      allowedAt o f = allowedAt o t) {S : Nat → Prop} (hn : Network o mobile lib.events st.occ S) :
    ∃ (lm : LocalBarrierModel) (s0 : Sim σ φ Unit ℝ EReal) (Ω : Finset (List Int))
      (sims : List Int → Sim σ φ Unit ℝ EReal) (μ : List Int → ℝ),
      LocalBarrierModel.constantBarrier (.float (.fin b)) name = .ok lm ∧
      Sim.init (realKernel Rounding.exact) (lm.rateModel kB temp ν) lib.generateEventDependencies (some h)
        (some st) = .ok s0 ∧
      (∀ x, x ∈ Ω ↔ SameComposition x st.occ ∧ ∀ i, ¬ S i → x[i]? = st.occ[i]?) ∧
      (∀ x ∈ Ω, Reaches (lm.rateModel kB temp ν) s0 (sims x) ∧ (sims x).st.occ = x) ∧
      (∀ x ∈ Ω, 0 < μ x) ∧ ∑ x ∈ Ω, μ x = 1 ∧
      (∀ r2, Stationary Ω (fun x y => chance (lm.rateModel kB temp ν) r2 (sims x) y) μ) ∧
      ∃ a, 0 < a ∧ ∀ x ∈ Ω, ∀ r1, 0 ≤ r1 → r1 < 1 → μ x * meanStay r1 (sims x) = a := by
  let lm : LocalBarrierModel := ⟨name, "barrier", "barrier_arrhenius", "barrier", [],
    some [("barrier", .fin b)], [], []⟩
  let g : Geometry ℚ := ⟨List.replicate st.occ.length 0, 0, 0⟩
  have hs := C65_hop_system o mobile h lm kB temp ν g lib st hν.le (by simp [lm]) lookup labelled fit endpoints
    (by simp [g])
  have ha : Answers o mobile (lm.rateModel kB temp ν) lib.events st.occ := by
    refine C85_local_barrier_answers lm kB temp ν lib.events st.occ rfl ?_ fit ?_ ?_
    · exact ⟨⟨_, _, rfl, rfl, .inl ⟨b, rfl⟩⟩, by simp [lm]⟩
    · intro e he
      obtain ⟨f, t, h1, -⟩ := endpoints e he
      exact ⟨f, t, h1⟩
    · intro _ _ _ _ _ r hr
      simp [lm] at hr
  have hw : Willing (lm.rateModel kB temp ν) :=
    C85_local_barrier_willing lm kB temp ν hν ⟨⟨_, _, rfl, rfl, b, rfl⟩, by simp [lm]⟩
  obtain ⟨s0, hi⟩ := C85_can_be_constructed hs ha
  have hst : s0.st = st := by
    obtain ⟨i1, -⟩ := init_ok hi
    cases i1; rfl
  have hns := network_not_stuck hs ha hi hw (sim_init_inv hs hi) (by rw [hst]) (by rw [hst]; exact hn)
  have hb := C90_local_barriers_balanced lm kB temp ν hs hi (fun _ => 0) (by
    intro e _ st1 st2 dt _ _
    exact ⟨b, b, rfl, rfl, by simp⟩)
  obtain ⟨Ω, sims, μ, h1, h2, h3, h4, h5, a, h6, h7⟩ := C90_equilibrium_exists hs ha hi hns _
    (fun _ => Real.exp_pos _) hb
  refine ⟨lm, s0, Ω, sims, μ, rfl, hi, fun x => (h1 x).trans (C90_all_arrangements hs ha hw hi hn x), h2, h3, h4,
    h5, a, h6, fun x hx r1 h0 h1' => ?_⟩
  rw [h7 x hx r1 h0 h1']
  simp

end

/-! ### Concrete simulations -/

/-- Non-vacuity: two ions on a chain of five sites, with one barrier for all hops. -/
example : ∃ (lm : LocalBarrierModel) (s0 : Sim Unit Unit Unit ℝ EReal) (Ω : Finset (List Int))
      (sims : List Int → Sim Unit Unit Unit ℝ EReal) (μ : List Int → ℝ),
      LocalBarrierModel.constantBarrier (.float (.fin 3)) "constant" = .ok lm ∧
      Sim.init (realKernel Rounding.exact) (lm.rateModel 1 300 1000) chainLib.generateEventDependencies
        (some ⟨[0, 0, 0, 0, 0], [1, 1, 1, 1, 1]⟩) (some ⟨[0, 1, 0, 1, 1], 0, 0⟩) = .ok s0 ∧
      (∀ x, x ∈ Ω ↔ SameComposition x [0, 1, 0, 1, 1] ∧ ∀ i, ¬ i < 5 → x[i]? = [0, 1, 0, 1, 1][i]?) ∧
      (∀ x ∈ Ω, Reaches (lm.rateModel 1 300 1000) s0 (sims x) ∧ (sims x).st.occ = x) ∧
      (∀ x ∈ Ω, 0 < μ x) ∧ ∑ x ∈ Ω, μ x = 1 ∧
      (∀ r2, Stationary Ω (fun x y => chance (lm.rateModel 1 300 1000) r2 (sims x) y) μ) ∧
      ∃ a, 0 < a ∧ ∀ x ∈ Ω, ∀ r1, 0 ≤ r1 → r1 < 1 → μ x * meanStay r1 (sims x) = a :=
  C90_constant_barrier 3 "constant" 1 300 1000 (by norm_num) chain_hopSystem.lookup chain_hopSystem.labelled
    chain_hopSystem.fit chain_hopSystem.endpoints chain_network

/-- The energy of the first site of the chain: 1 if it holds an ion. -/
noncomputable def firstSiteEnergy (occ : List Int) : ℝ := if occ[0]? = some 0 then 1 else 0

/-- What the ion numbered `v` costs at site `i`. -/
noncomputable def ionCost (i v : Int) : ℝ := if i = 0 ∧ v = 0 then 1 else 0

/-- A site model that reads the two end points of the hop only. -/
noncomputable def firstSiteModel : SiteSource Unit EReal :=
  SiteSource.model (fun _ _ => .ok ()) (fun _ _ _ => (.ok (), ())) fun _ e st =>
    match e.mobile with
    | [f, t] =>
      match pyGet st.occ f, pyGet st.occ t with
      | .ok a, .ok b => .ok (ionCost f b - ionCost f a + (ionCost t a - ionCost t b))
      | _, _ => .error .indexError
    | _ => .error .valueError

theorem chain_mobile {e : Event} (he : ∃ x ∈ chainLib.events, e.mobile = x.mobile ∧ e.env = x.env) :
    (e.mobile = [0, 1] ∧ e.env = [4, 3]) ∨ (e.mobile = [2, 1] ∧ e.env = [4, 3]) ∨
    (e.mobile = [2, 3] ∧ e.env = [0, 1]) ∨ (e.mobile = [3, 4] ∧ e.env = [0, 1]) := by
  obtain ⟨x, hx, h1, h2⟩ := he
  have hx' : x = ⟨[0, 1], [4, 3], none⟩ ∨ x = ⟨[2, 1], [4, 3], none⟩ ∨ x = ⟨[2, 3], [0, 1], none⟩ ∨
      x = ⟨[3, 4], [0, 1], none⟩ := by
    simpa [chainLib, EventLib.addAll_events] using hx
  rcases hx' with rfl | rfl | rfl | rfl <;> simp_all

theorem firstSite_reports : ReportsEnergy firstSiteModel
    (fun _ st' => WellLabelled exampleOrder "Na" st'.occ)
    (fun e => ∃ x ∈ chainLib.events, e.mobile = x.mobile ∧ e.env = x.env) firstSiteEnergy := by
  have h5 : ∀ occ : List Int, occ.length = 5 → ∃ a b c d e, occ = [a, b, c, d, e] := by
    intro occ hlen
    match occ, hlen with
    | [a, b, c, d, e], _ => exact ⟨a, b, c, d, e, rfl⟩
  constructor
  · intro _ _ e st st' dt hg he hap _
    have hperm := applyEvent_perm st e dt
    rw [hap] at hperm
    have hlen : st.occ.length = 5 := hg.length
    refine exampleOrder_wellLabelled _ (hperm.length_eq.trans hlen) ?_
    intro v hv
    have hv' := hperm.mem_iff.1 hv
    obtain ⟨i, hi, rfl⟩ := List.mem_iff_getElem.1 hv'
    obtain ⟨sp, hsp⟩ := hg.valid i hi
    have hall : ∀ i, i < 5 → allowedAt exampleOrder i = some ["Na", "X"] := by decide
    simp only [speciesAt, speciesOf, hall i (by omega), List.getElem?_eq_getElem hi] at hsp
    split at hsp
    · cases hsp
    · have hlt := (List.getElem?_eq_some_iff.1 hsp).1
      simp only [List.length_cons, List.length_nil] at hlt
      omega
  · intro _ e st st' dt d δ hg he hap h
    obtain ⟨a, b, c, d, x, hocc⟩ := h5 st.occ hg.length
    obtain ⟨f, t, i, j, hi, hj, hm, h1, h2, rfl⟩ := applyEvent_ok hap
    simp only [firstSiteModel, SiteSource.model, hm] at h
    have hc := chain_mobile he
    simp only [hocc] at h1 h2 h hi hj ⊢
    rcases hc with ⟨hm', -⟩ | ⟨hm', -⟩ | ⟨hm', -⟩ | ⟨hm', -⟩ <;> rw [hm] at hm' <;> cases hm' <;>
      cases h1 <;> cases h2 <;> simp [pyGet, pyIdx, ionCost] at h <;>
      simp [firstSiteEnergy, ← h]

theorem firstSite_hopSystem : HopSystem exampleOrder "Na" ⟨[0, 0, 0, 0, 0], [1, 1, 1, 1, 1]⟩ Rounding.exact
    ((⟨some chainExpansion, firstSiteModel⟩ : Composite Unit EReal).rateModel 1 300 1000) hopGeometry chainLib
    ⟨[0, 1, 0, 1, 1], 0, 0⟩ := by
  refine ⟨chain_hopSystem.lookup, chain_hopSystem.labelled, chain_hopSystem.fit, chain_hopSystem.endpoints,
    chain_hopSystem.coords, ⟨?_⟩, ?_, ?_⟩
  · intro e s s' hl h
    have henv : AgreeOn e.env s.occ s'.occ := fun i hi => h i (by simp [hi])
    have hdiff : ∀ d, firstSiteModel.difference () e s d = firstSiteModel.difference () e s' d := by
      intro d
      simp only [firstSiteModel, SiteSource.model]
      split
      · rename_i f t hm
        rw [h f (by simp [hm]), h t (by simp [hm])]
      · rfl
    simp only [Composite.rateModel, Composite.computeProbability, eventDirection_congr h, C36_local _ e _ _ henv,
      hdiff]
  · intro e s p hp
    exact ⟨C34_composite_nonneg ⟨some chainExpansion, firstSiteModel⟩ 1 300 1000 (by norm_num) () e s p hp, rfl⟩
  · intro e s p hd hp
    simp only [Composite.rateModel] at hp
    rw [C34_composite_forbidden_is_zero _ 1 300 1000 () e s hd] at hp
    exact (Except.ok.inj hp).symm

theorem firstSite_answers : Answers exampleOrder "Na"
    ((⟨some chainExpansion, firstSiteModel⟩ : Composite Unit EReal).rateModel 1 300 1000) chainLib.events
    [0, 1, 0, 1, 1] := by
  refine ⟨fun _ _ => rfl, fun _ _ => rfl, ?_⟩
  intro e st he hc hw
  have ends : ∀ e ∈ chainLib.events, ∃ f t : Nat, e.mobile = [(f : Int), (t : Int)] := by
    intro e he
    obtain ⟨f, t, h1, -⟩ := chain_hopSystem.endpoints e he
    exact ⟨f, t, h1⟩
  obtain ⟨d, hd⟩ := direction_total (occ := st.occ) (by rw [hc.1]; exact chain_hopSystem.fit) ends he
  obtain ⟨v, hv⟩ := builtLCE_total chainExpansion_built (validSurroundings_of chain_surroundings hw he)
  simp only [Composite.rateModel, Composite.computeProbability, hd, hv]
  by_cases h0 : d = 0
  · exact ⟨0, by rw [if_pos h0]⟩
  · rw [if_neg h0]
    have hlen : st.occ.length = 5 := hc.1
    have hget : ∀ k : Nat, k < 5 → pyGet st.occ (k : Int) = .ok (st.occ.getD k 0) := by
      intro k hk
      rw [pyGet_natCast]
      simp [hlen, hk]
    have : ∃ δ, firstSiteModel.difference () e st d = .ok δ := by
      have e0 := hget 0 (by decide)
      have e1 := hget 1 (by decide)
      have e2 := hget 2 (by decide)
      have e3 := hget 3 (by decide)
      have e4 := hget 4 (by decide)
      rcases chain_mobile he with ⟨hm, -⟩ | ⟨hm, -⟩ | ⟨hm, -⟩ | ⟨hm, -⟩ <;>
        simp only [firstSiteModel, SiteSource.model, hm]
      · exact ⟨_, by rw [show pyGet st.occ 0 = _ from e0, show pyGet st.occ 1 = _ from e1]⟩
      · exact ⟨_, by rw [show pyGet st.occ 2 = _ from e2, show pyGet st.occ 1 = _ from e1]⟩
      · exact ⟨_, by rw [show pyGet st.occ 2 = _ from e2, show pyGet st.occ 3 = _ from e3]⟩
      · exact ⟨_, by rw [show pyGet st.occ 3 = _ from e3, show pyGet st.occ 4 = _ from e4]⟩
    obtain ⟨δ, hδ⟩ := this
    exact ⟨_, by simp only [hδ]; rfl⟩

/-- Non-vacuity for the energy theorems: an ion on the first site of the chain costs energy.  In equilibrium
an arrangement with an ion there gets `exp (-1/300)` times the time of one without. -/
example : ∃ (s0 : Sim Unit Unit Unit ℝ EReal) (Ω : Finset (List Int))
      (sims : List Int → Sim Unit Unit Unit ℝ EReal) (μ : List Int → ℝ),
      Sim.init (realKernel Rounding.exact) ((⟨some chainExpansion, firstSiteModel⟩ :
        Composite Unit EReal).rateModel 1 300 1000) chainLib.generateEventDependencies
        (some ⟨[0, 0, 0, 0, 0], [1, 1, 1, 1, 1]⟩) (some ⟨[0, 1, 0, 1, 1], 0, 0⟩) = .ok s0 ∧
      [1, 0, 0, 1, 1] ∈ Ω ∧ [0, 1, 0, 1, 1] ∈ Ω ∧ ∑ x ∈ Ω, μ x = 1 ∧
      (∀ r2, Stationary Ω (fun x y => chance ((⟨some chainExpansion, firstSiteModel⟩ :
        Composite Unit EReal).rateModel 1 300 1000) r2 (sims x) y) μ) ∧
      ∃ a, 0 < a ∧ μ [1, 0, 0, 1, 1] * meanStay 0 (sims [1, 0, 0, 1, 1]) = a ∧
        μ [0, 1, 0, 1, 1] * meanStay 0 (sims [0, 1, 0, 1, 1]) = a * Real.exp (-1 / 300) := by
  obtain ⟨s0, hi⟩ := C85_can_be_constructed firstSite_hopSystem firstSite_answers
  have hst : s0.st = ⟨[0, 1, 0, 1, 1], 0, 0⟩ := by
    obtain ⟨i1, -⟩ := init_ok hi
    exact (Option.some.inj i1).symm
  have hw := C85_composite_willing (⟨some chainExpansion, firstSiteModel⟩ : Composite Unit EReal) 1 300 1000
    (by norm_num)
  have hap : ∀ e ∈ chainLib.events, SurroundingsApart 5 e := by
    intro e he
    rcases chain_mobile ⟨e, he, rfl, rfl⟩ with ⟨hm, hn⟩ | ⟨hm, hn⟩ | ⟨hm, hn⟩ | ⟨hm, hn⟩ <;>
      · intro i hi j hj
        rw [hn] at hi; rw [hm] at hj
        revert i j
        decide
  have hns := network_not_stuck firstSite_hopSystem firstSite_answers hi hw (sim_init_inv firstSite_hopSystem hi)
    (by rw [hst]) (by rw [hst]; exact chain_network)
  have hb := C90_energy_balanced _ 1 300 1000 (by norm_num) firstSite_hopSystem hi
    (fun e st' => firstSite_answers.commit e st') hap firstSiteEnergy firstSite_reports
  obtain ⟨Ω, sims, μ, h1, h2, h3, h4, h5, a, h6, h7⟩ := C90_equilibrium_exists firstSite_hopSystem
    firstSite_answers hi hns _ (fun _ => Real.exp_pos _) hb
  have hΩ := fun x => (h1 x).trans (C90_all_arrangements firstSite_hopSystem firstSite_answers hw hi chain_network x)
  have m1 : [1, 0, 0, 1, 1] ∈ Ω := (hΩ _).2 ⟨sameComposition_iff_perm.2 (by decide), fun i hi => by
    simp only [List.getElem?_eq_none_iff.2 (show [(1 : Int), 0, 0, 1, 1].length ≤ i by simpa using hi),
      List.getElem?_eq_none_iff.2 (show [(0 : Int), 1, 0, 1, 1].length ≤ i by simpa using hi)]⟩
  have m2 : [0, 1, 0, 1, 1] ∈ Ω := (hΩ _).2 ⟨sameComposition_iff_perm.2 (by decide), fun _ _ => rfl⟩
  refine ⟨s0, Ω, sims, μ, hi, m1, m2, h4, h5, a, h6, ?_, ?_⟩
  · rw [h7 _ m1 0 le_rfl one_pos]
    simp [firstSiteEnergy]
  · rw [h7 _ m2 0 le_rfl one_pos]
    simp [firstSiteEnergy]

end KMC
