import Verif.Lemmas.IonWalk
/-
Mean square displacements in equilibrium (C131).
-/
set_option linter.unusedSectionVars false

namespace KMC
open Spec MeasureTheory Filter Topology ProbabilityTheory

section
variable {σ φ ψ : Type}
variable {o : ActiveSiteOrder String ψ} {mobile : String} {h : HopStateLookup}
  {m : RateModel Unit ℝ EReal} {g : Geometry ℝ} {lib : EventLib σ φ} {st : State EReal}
  {s0 : Sim σ φ Unit ℝ EReal}

/-! ### The chain of configurations -/

/-- How often an event happens in a configuration. -/
noncomputable def hopFlow (m : RateModel Unit ℝ EReal) (W : List Int → ℝ) (x : List Int) (e : Event) : ℝ :=
  W x * rateIn m (inConfig x) e

theorem hopFlow_weight (m : RateModel Unit ℝ EReal) (W : List Int → ℝ) (E : List Event) (x : List Int) :
    Walk.weight E (hopFlow m W) x = W x * totalRate m E (inConfig x) := by
  unfold Walk.weight hopFlow totalRate
  rw [Walk.map_sum_mul]

theorem meanOver_config (hm : LocalModel m) {W : List Int → ℝ} (hW : ∀ x, 0 < W x) (E : List Event) (n : Nat) :
    ∀ (x : List Int) (F : List Event → ℝ),
    Walk.meanOver E (hopFlow m W) hopped n x F = expectedOver m E n (inConfig x) F := by
  induction n with
  | zero => intro x F; rfl
  | succ n ih =>
    intro x F
    simp only [Walk.meanOver, expectedOver, hopFlow_weight]
    refine list_sum_congr fun e _ => ?_
    rw [ih, hopFlow, mul_div_mul_left _ _ (hW x).ne']
    congr 1
    exact (expectedOver_congr (st := inConfig (hopped x e)) (st' := ((inConfig x).applyEvent e 0).2) hm _ n _ rfl).symm

/-- How often an event happens, with an ion picked out. -/
noncomputable def tagFlow (m : RateModel Unit ℝ EReal) (W : List Int → ℝ) (y : (_ : List Int) × Nat) (e : Event) : ℝ :=
  hopFlow m W y.1 e

/-- The configuration and the place of the ion that is picked out, after the event. -/
noncomputable def tagHopped (y : (_ : List Int) × Nat) (e : Event) : (_ : List Int) × Nat :=
  ⟨hopped y.1 e, movedTo y.2 e⟩

theorem tagFlow_weight (m : RateModel Unit ℝ EReal) (W : List Int → ℝ) (E : List Event) (y : (_ : List Int) × Nat) :
    Walk.weight E (tagFlow m W) y = W y.1 * totalRate m E (inConfig y.1) := hopFlow_weight m W E y.1

theorem meanOver_tag (hm : LocalModel m) {W : List Int → ℝ} (hW : ∀ x, 0 < W x) (E : List Event) (n : Nat) :
    ∀ (y : (_ : List Int) × Nat) (F : List Event → ℝ),
    Walk.meanOver E (tagFlow m W) tagHopped n y F = expectedOver m E n (inConfig y.1) F := by
  induction n with
  | zero => intro x F; rfl
  | succ n ih =>
    intro y F
    simp only [Walk.meanOver, expectedOver, tagFlow_weight]
    refine list_sum_congr fun e _ => ?_
    rw [ih, tagFlow, hopFlow, mul_div_mul_left _ _ (hW y.1).ne']
    congr 1
    exact (expectedOver_congr (st := inConfig (hopped y.1 e)) (st' := ((inConfig y.1).applyEvent e 0).2) hm _ n _
      rfl).symm

theorem walk_config (v : Event → Vec3 ℝ) (c : Fin 3) (p : List Event) : ∀ x : List Int,
    Walk.walk hopped (fun x e => wayOf o mobile v x e c) x p = walkOf o mobile v (inConfig x) p c := by
  induction p with
  | nil => intro x; rfl
  | cons e p ih =>
    intro x
    simp only [Walk.walk, walkOf, ih, Pi.add_apply]
    rw [walkOf_congr (st := inConfig (hopped x e)) (st' := ((inConfig x).applyEvent e 0).2) v p rfl]
    rfl

theorem walk_tag (v : Event → Vec3 ℝ) (c : Fin 3) (p : List Event) : ∀ y : (_ : List Int) × Nat,
    Walk.walk tagHopped (fun y e => wayOut v y.2 e c) y p = ionWalk v y.2 p c := by
  induction p with
  | nil => intro x; rfl
  | cons e p ih =>
    intro y
    simp only [Walk.walk, ionWalk, ih, Pi.add_apply]
    rfl

theorem expectedOver_finsum {ι : Type} (m : RateModel Unit ℝ EReal) (events : List Event) (s : Finset ι) (n : Nat) :
    ∀ (st' : State EReal) (F : ι → List Event → ℝ), expectedOver m events n st' (fun p => ∑ i ∈ s, F i p) =
      ∑ i ∈ s, expectedOver m events n st' (F i) := by
  induction n with
  | zero => intro st' F; rfl
  | succ n ih =>
    intro st' F
    simp only [expectedOver, ih]
    rw [Walk.sum_map_swap]
    refine list_sum_congr fun e _ => ?_
    rw [Finset.mul_sum]

theorem expectedOver_zero (m : RateModel Unit ℝ EReal) (events : List Event) (st' : State EReal)
    (F : List Event → ℝ) : expectedOver m events 0 st' F = F [] := rfl

theorem sqLen_nonneg' (u : Vec3 ℝ) : 0 ≤ sqLen u := Finset.sum_nonneg fun c _ => sq_nonneg _

theorem sqLen_wayOf_le {v : Event → Vec3 ℝ} {a : ℝ} {e : Event} (hv : sqLen (v e) ≤ a ^ 2) (x : List Int) :
    sqLen (wayOf o mobile v x e) ≤ a ^ 2 := by
  have h0 : sqLen (0 : Vec3 ℝ) ≤ a ^ 2 := by simpa [sqLen] using sq_nonneg a
  unfold wayOf
  split
  · split_ifs
    · exact hv
    · rw [sqLen_neg]; exact hv
    · exact h0
  · exact h0

theorem sum_hopSquare {α : Type} (S : Finset α) (E : List Event) (q : α → Event → ℝ) (u : α → Event → Vec3 ℝ) :
    ∑ c, Walk.hopSquare S E q (fun x e => u x e c) = ∑ x ∈ S, (E.map fun e => q x e * sqLen (u x e)).sum := by
  unfold Walk.hopSquare
  rw [Walk.sum_map_swap S, Walk.sum_map_swap]
  refine list_sum_congr fun e _ => ?_
  rw [Finset.sum_comm]
  refine Finset.sum_congr rfl fun x _ => ?_
  rw [sqLen, Finset.mul_sum]

/-- In equilibrium nothing ever comes to rest. -/
theorem equilibrium_alive (hs : HopSystem o mobile h Rounding.exact m g lib st)
    (ha : Answers o mobile m lib.events st.occ)
    (hi : Sim.init (realKernel Rounding.exact) m lib.generateEventDependencies (some h) (some st) = .ok s0)
    (hns : ¬ Stuck m s0) {W : List Int → ℝ} (hW : ∀ x, 0 < W x) (hb : Balanced o mobile m s0.lib.events W) :
    ∀ s, Reaches m s0 s → ¬ Stuck m s := by
  intro s hr hst
  have hm := met_reaches hs ha hi (met_start hs hi) hr
  have hp := reaches_sum_pos hs ha hi hb hW hns hr
  obtain ⟨p, h1, h2⟩ := exists_pos_of_sum_pos hp
  obtain ⟨i, hil, rfl⟩ := List.getElem_of_mem h1
  have hil' : i < s.lib.events.length := by rw [← hm.inv.table.length]; exact hil
  obtain ⟨q, h3, h4⟩ := hm.inv.table.fresh i s.lib.events[i] (by simp [hil'])
  rw [List.getElem?_eq_getElem hil, Option.some.injEq] at h3
  have := hst _ (List.getElem_mem hil') q h4
  rw [h3, this] at h2
  exact lt_irrefl _ h2

/-- The mean of a function of the tracker at the end of a run that starts in equilibrium. -/
theorem equilibrium_mean {V Row : Type} (hs : HopSystem o mobile h Rounding.exact m g lib st)
    (ha : Answers o mobile m lib.events st.occ)
    (hi : Sim.init (realKernel Rounding.exact) m lib.generateEventDependencies (some h) (some st) = .ok s0)
    (hns : ¬ Stuck m s0) {W : List Int → ℝ} (hW : ∀ x, 0 < W x) (hb : Balanced o mobile m s0.lib.events W)
    {Ω : Finset (List Int)} (hΩ : ∀ x, x ∈ Ω ↔ ∃ s, Reaches m s0 s ∧ s.st.occ = x)
    (sims : List Int → Sim σ φ Unit ℝ EReal)
    (hsims : ∀ x ∈ Ω, ∃ st', st'.occ = x ∧
      Sim.init (realKernel Rounding.exact) m lib.generateEventDependencies (some h) (some st') = .ok (sims x))
    (r2 : ℝ) (π : List Int → ℝ) (hπ : Stationary Ω (fun x y => chance m r2 (sims x) y) π)
    {Θ : Type} [MeasurableSpace Θ] {μ : Measure Θ} [IsProbabilityMeasure μ] {U : Nat → Θ → ℝ × ℝ}
    (hU : RandomNumbers μ U) {summary : Trajectory ℝ → EReal → List (String × Bool) → Row}
    {plan : PropertyPlan EReal V} {len equil prod : Nat}
    (hok : ∀ x ∈ Ω, ∀ᵐ ω ∂μ, ((sims x).run (realKernel Rounding.exact) m g (some h) summary plan (fun k => U k ω)
      len equil prod).outcome = .ok ()) (f : Trajectory ℝ → ℝ) (F : List Int → List Event → ℝ)
    (hF : ∀ x ∈ Ω, ∀ {st' : State EReal}, HopSystem o mobile h Rounding.exact m g lib st' →
      Answers o mobile m lib.events st'.occ →
      Sim.init (realKernel Rounding.exact) m lib.generateEventDependencies (some h) (some st') = .ok (sims x) →
      (sims x).lib.events = s0.lib.events → ∀ rng : Nat → ℝ × ℝ, (∀ c, 0 ≤ (rng c).1 ∧ (rng c).1 < 1) →
      ((sims x).run (realKernel Rounding.exact) m g (some h) summary plan rng len equil prod).outcome = .ok () →
      ∃ (rs : RunState σ φ Unit ℝ EReal ℝ V Row) (hist1 hist2 : List (Event × EReal))
        (s1 s2 : Sim σ φ Unit ℝ EReal),
        ((sims x).run (realKernel Rounding.exact) m g (some h) summary plan rng len equil prod).tracker = some rs ∧
        Steps (realKernel Rounding.exact) m rng true 0 (sims x) hist1 s1 ∧
        Steps (realKernel Rounding.exact) m rng true (equil * len) s1 hist2 s2 ∧
        hist1.length = equil * len ∧ hist2.length = prod * len ∧
        f rs.traj = F (afterAll (sims x).st (hist1.map (·.1))).occ (hist2.map (·.1))) :
    ∃ D : List Int → ℝ, (∀ x ∈ Ω, MeanAtTheEnd μ U m g (some h) summary plan len equil prod (sims x)
        (fun traj _ => f traj) (D x)) ∧
      ∃ a : ℝ, (∀ x ∈ Ω, π x = a * (W x * totalRate m s0.lib.events (inConfig x))) ∧
        ∑ x ∈ Ω, π x * D x = a * ∑ x ∈ Ω, W x * totalRate m s0.lib.events (inConfig x) *
          expectedOver m s0.lib.events (prod * len) (inConfig x) (F x) := by
  classical
  have hpos : ∀ {s : Sim σ φ Unit ℝ EReal}, Reaches m s0 s → 0 < s.prob.sum := fun hr =>
    reaches_sum_pos hs ha hi hb hW hns hr
  have alive_of : ∀ {s : Sim σ φ Unit ℝ EReal}, Met o mobile m st s0 s → 0 < s.prob.sum → ¬ Stuck m s := by
    intro s hm hp hst
    obtain ⟨p, h1, h2⟩ := exists_pos_of_sum_pos hp
    obtain ⟨i, hil, rfl⟩ := List.getElem_of_mem h1
    have hil' : i < s.lib.events.length := by rw [← hm.inv.table.length]; exact hil
    obtain ⟨q, h3, h4⟩ := hm.inv.table.fresh i s.lib.events[i] (by simp [hil'])
    rw [List.getElem?_eq_getElem hil, Option.some.injEq] at h3
    have := hst _ (List.getElem_mem hil') q h4
    rw [h3, this] at h2
    exact lt_irrefl _ h2
  have alive : ∀ s, Reaches m s0 s → ¬ Stuck m s := fun s hr =>
    alive_of (met_reaches hs ha hi (met_start hs hi) hr) (hpos hr)
  -- a simulation that reaches the configuration
  have hch : ∀ x, ∃ s : Sim σ φ Unit ℝ EReal, x ∈ Ω → Reaches m s0 s ∧ s.st.occ = x := by
    intro x
    by_cases hx : x ∈ Ω
    · obtain ⟨s, hr⟩ := (hΩ x).1 hx
      exact ⟨s, fun _ => hr⟩
    · exact ⟨s0, fun hx' => absurd hx' hx⟩
  choose there hthere using hch
  have hmt : ∀ x ∈ Ω, Met o mobile m st s0 (there x) := fun x hx =>
    met_reaches hs ha hi (met_start hs hi) (hthere x hx).1
  -- the constructed simulations
  have hcon : ∀ x ∈ Ω, ∃ st', st'.occ = x ∧ (sims x).st = st' ∧
      HopSystem o mobile h Rounding.exact m g lib st' ∧ Answers o mobile m lib.events st'.occ ∧
      (sims x).lib.events = s0.lib.events ∧ Met o mobile m st s0 (sims x) ∧
      Sim.init (realKernel Rounding.exact) m lib.generateEventDependencies (some h) (some st') = .ok (sims x) := by
    intro x hx
    obtain ⟨st', h1, h2⟩ := hsims x hx
    obtain ⟨k1, k2, k3, k4, k5⟩ := constructed_met hs ha hi (hmt x hx) (h1.trans (hthere x hx).2.symm) h2
    exact ⟨st', h1, k5, k1, k2, k3, k4, h2⟩
  have hprob : ∀ x ∈ Ω, (sims x).prob = (there x).prob := by
    intro x hx
    obtain ⟨st', h1, h2, -, -, -, hm, -⟩ := hcon x hx
    exact met_prob hs hm (hmt x hx) (by rw [h2, h1, (hthere x hx).2])
  -- the weights
  have hstat : Stationary Ω (fun x y => chance m r2 (there x) y) π := by
    intro y hy
    rw [← hπ y hy]
    refine Finset.sum_congr rfl fun x hx => ?_
    obtain ⟨st', h1, h2, -, -, -, hm, -⟩ := hcon x hx
    simp only
    rw [chance_eq hs ha hi (hmt x hx) (hpos (hthere x hx).1), chance_eq hs ha hi hm
      (by rw [hprob x hx]; exact hpos (hthere x hx).1), hprob x hx, h2, h1, (hthere x hx).2]
  obtain ⟨a, hw⟩ := (C90_stationary_iff hs ha hi hns W hW hb Ω hΩ there hthere 0 r2 le_rfl one_pos π).1 hstat
  have hweight : ∀ x ∈ Ω, π x = a * (W x * totalRate m s0.lib.events (inConfig x)) := by
    intro x hx
    have h1 := hw x hx
    rw [meanStay_eq hs (hmt x hx) (hpos (hthere x hx).1) 0 le_rfl one_pos] at h1
    have h2 : (there x).prob.sum = totalRate m s0.lib.events (inConfig x) := by
      rw [prob_sum (hmt x hx)]
      exact totalRate_congr (st := inConfig x) hs.loc _ (hthere x hx).2
    have h3 := hpos (hthere x hx).1
    rw [← h2]
    field_simp at h1
    linarith
  -- the means
  let D : List Int → ℝ := fun x => expectedOver m s0.lib.events (equil * len) (inConfig x) (fun p =>
      expectedOver m s0.lib.events (prod * len) (inConfig (afterAll (inConfig x) p).occ)
        (F (afterAll (inConfig x) p).occ))
  have hmean : ∀ x ∈ Ω, MeanAtTheEnd μ U m g (some h) summary plan len equil prod (sims x)
      (fun traj _ => f traj) (D x) := by
    intro x hx
    obtain ⟨st', h1, h2, k1, k2, k3, k4, k5⟩ := hcon x hx
    have hnsx : ¬ Stuck m (sims x) := alive_of k4 (by rw [hprob x hx]; exact hpos (hthere x hx).1)
    have alivex : ∀ s, Reaches m (sims x) s → ¬ Stuck m s := by
      intro s hr
      refine alive_of (met_reaches hs ha hi k4 hr) ?_
      exact reaches_sum_pos k1 k2 k5 (by rw [k3]; exact hb) hW hnsx hr
    obtain ⟨Y, T, -, -, hYi, -, hY, hm, -⟩ := expectation_from k1 k2 k5 alivex hU (equil * len + prod * len) 0 (sims x)
      .refl (fun p => F (afterAll (sims x).st (p.take (equil * len))).occ (p.drop (equil * len)))
    have hEnd : MeanAtTheEnd μ U m g (some h) summary plan len equil prod (sims x)
        (fun traj _ => f traj) (∫ ω, Y ω ∂μ) := by
      refine ⟨Y, hYi, ?_, rfl⟩
      filter_upwards [hY, hok x hx, draws_in_range hU] with ω b1 b2 b3
      obtain ⟨hist, s', d1, d2, d3, -, -⟩ := b1
      obtain ⟨rs, hist1, hist2, s1, s2, c1, c2, c3, c4, c5, c6⟩ :=
        hF x hx k1 k2 k5 k3 (fun k => U k ω) (fun c => (b3 c).1) b2
      have c7 := Steps.append c2 (by simpa [c4] using c3)
      obtain ⟨rfl, -⟩ := steps_unique d1 c7 (by simp [d2, c4, c5])
      refine ⟨rs, b2, c1, ?_⟩
      rw [d3, c6]
      simp only [List.map_append]
      rw [List.take_left' (by simpa using c4), List.drop_left' (by simpa using c4)]
    refine (?_ : D x = ∫ ω, Y ω ∂μ) ▸ hEnd
    symm
    rw [hm, k3, expectedOver_add]
    have hocc : (sims x).st.occ = x := by rw [h2, h1]
    have hlist : ∀ (n : Nat) (st1 : State EReal) (F G : List Event → ℝ), (∀ p, p.length = n → F p = G p) →
        expectedOver m s0.lib.events n st1 F = expectedOver m s0.lib.events n st1 G := by
      intro n
      induction n with
      | zero => intro st1 F G hFG; exact hFG [] rfl
      | succ n ih =>
        intro st1 F G hFG
        simp only [expectedOver]
        refine list_sum_congr fun e _ => ?_
        rw [ih _ _ (fun p => G (e :: p)) fun p hp => hFG (e :: p) (by simp [hp])]
    rw [expectedOver_congr (st := inConfig x) (st' := (sims x).st) hs.loc _ _ _ hocc]
    refine hlist _ _ _ _ fun p hp => ?_
    have ho' : (afterAll (sims x).st p).occ = (inConfig (afterAll (inConfig x) p).occ).occ :=
      afterAll_congr (st := inConfig x) p hocc
    rw [expectedOver_congr hs.loc _ _ _ ho']
    congr 1
    funext q
    rw [List.take_left' hp, List.drop_left' hp, ho']
    rfl
  have hsum : ∑ x ∈ Ω, π x * D x = a * ∑ x ∈ Ω, W x * totalRate m s0.lib.events (inConfig x) *
      expectedOver m s0.lib.events (equil * len) (inConfig x) (fun p => (fun y =>
        expectedOver m s0.lib.events (prod * len) (inConfig y) (F y))
          (afterAll (inConfig x) p).occ) := by
    rw [Finset.mul_sum]
    refine Finset.sum_congr rfl fun x hx => ?_
    rw [hweight x hx]
    simp only [D]
    ring
  refine ⟨D, hmean, a, hweight, ?_⟩
  rw [hsum, mean_after hs ha hi hW hb hΩ (equil * len) (fun y => expectedOver m s0.lib.events (prod * len) (inConfig y)
    (F y))]

section equilibrium
variable (hs : HopSystem o mobile h Rounding.exact m g lib st)
    (ha : Answers o mobile m lib.events st.occ)
    (hi : Sim.init (realKernel Rounding.exact) m lib.generateEventDependencies (some h) (some st) = .ok s0)
    {W : List Int → ℝ} (hW : ∀ x, 0 < W x) (hb : Balanced o mobile m s0.lib.events W)
    {Ω : Finset (List Int)} (hΩ : ∀ x, x ∈ Ω ↔ ∃ s, Reaches m s0 s ∧ s.st.occ = x)
include hs ha hi hW hb hΩ

theorem hopFlow_ne {x : List Int} {e : Event} (hq : hopFlow m W x e ≠ 0) : rateIn m (inConfig x) e ≠ 0 :=
  fun h0 => hq (by rw [hopFlow, h0, mul_zero])

theorem config_reversible (v : Event → Vec3 ℝ) (c : Fin 3) :
    Walk.Reversible Ω s0.lib.events (hopFlow m W) hopped (fun x e => wayOf o mobile v x e c) where
  nonneg x _ e _ := mul_nonneg (hW x).le (rateIn_nonneg hs _ _)
  inside x hx e he hq := (hopped_back hs ha hi hW hb hΩ he hx (hopFlow_ne hs ha hi hW hb hΩ hq)).1
  back x hx e he hq := (hopped_back hs ha hi hW hb hΩ he hx (hopFlow_ne hs ha hi hW hb hΩ hq)).2.1
  same x hx e he hq := (hopped_back hs ha hi hW hb hΩ he hx (hopFlow_ne hs ha hi hW hb hΩ hq)).2.2.1.symm
  way x hx e he hq := by
    simp only [(hopped_back hs ha hi hW hb hΩ he hx (hopFlow_ne hs ha hi hW hb hΩ hq)).2.2.2.2 v, Pi.neg_apply]

/-- The ion of an event of positive rate, and where it goes. -/
theorem hop_ions {e : Event} (he : e ∈ s0.lib.events) {x : List Int} (hx : x ∈ Ω)
    (hp : rateIn m (inConfig x) e ≠ 0) :
    ∃ f w : Nat, e.mobile = [(f : Int), (w : Int)] ∧ f ≠ w ∧
      ((f ∈ ionsAt o mobile x ∧ w ∉ ionsAt o mobile x) ∨ (w ∈ ionsAt o mobile x ∧ f ∉ ionsAt o mobile x)) ∧
      ∀ k, k ∈ ionsAt o mobile (hopped x e) ↔ movedTo k e ∈ ionsAt o mobile x := by
  obtain ⟨s, hr, hox⟩ := (hΩ x).1 hx
  have hm := met_reaches hs ha hi (met_start hs hi) hr
  have hrate : rateIn m (inConfig x) e = rateIn m s.st e := rateIn_congr hs.loc hox.symm e
  have hpos : 0 < rateIn m s.st e :=
    lt_of_le_of_ne (rateIn_nonneg hs _ _) (by rw [← hrate]; exact hp.symm)
  obtain ⟨s', hn, hl⟩ := next_of_rateIn hs ha hi hm he hpos
  have hh : hopped x e = s'.st.occ := apply_leads hs ha hi hm he hl _ hox.symm
  obtain ⟨f, w, h1, hf, ht, hall, d, h2, h3, h4, h5⟩ := direction_species hs hi hm.perm.length_eq hm.inv.labelled he
  have hd0 : d ≠ 0 := by
    rintro rfl
    have : rateIn m s.st e = 0 := by
      unfold rateIn
      cases hc : m.computeProbability () e s.st with
      | error => rfl
      | ok p => exact hs.forbidden e s.st p h2 hc
    exact hpos.ne' this
  have hnot : ∀ i, Vacant o s.st.occ i → ¬ speciesAt o s.st.occ i = some mobile := by
    rintro i ⟨v, hv, hv'⟩ hi'
    rw [hi'] at hv'
    cases hv'
    exact hm.inv.labelled.mobileNotVacancy hv
  obtain ⟨f2, w2, g1, g2⟩ := hl
  rw [h1] at g1
  simp only [List.cons.injEq, Nat.cast_inj, and_true] at g1
  obtain ⟨rfl, rfl⟩ := g1
  have sp := speciesAt_exchange hall g2
  have hcase : (f ∈ ionsAt o mobile x ∧ w ∉ ionsAt o mobile x) ∨
      (w ∈ ionsAt o mobile x ∧ f ∉ ionsAt o mobile x) := by
    simp only [mem_ionsAt, ← hox]
    rcases h5 with rfl | rfl | rfl
    · exact .inl ⟨(h3.1 rfl).1, hnot _ (h3.1 rfl).2⟩
    · exact .inr ⟨(h4.1 rfl).1, hnot _ (h4.1 rfl).2⟩
    · exact absurd rfl hd0
  refine ⟨f, w, h1, ?_, hcase, ?_⟩
  · rintro rfl
    rcases hcase with ⟨k1, k2⟩ | ⟨k1, k2⟩ <;> exact k2 k1
  · intro k
    rw [movedTo_pair h1, mem_ionsAt, mem_ionsAt, hh, ← hox]
    by_cases hkf : f = k
    · subst hkf
      rw [if_pos rfl, sp.1]
    · by_cases hkw : w = k
      · subst hkw
        rw [if_neg hkf, if_pos rfl, sp.2.1]
      · rw [if_neg hkf, if_neg hkw, sp.2.2 k (Ne.symm hkf) (Ne.symm hkw)]

theorem tag_reversible (v : Event → Vec3 ℝ) (c : Fin 3) :
    Walk.Reversible (Ω.sigma fun x => ionsAt o mobile x) s0.lib.events (tagFlow m W) tagHopped
      (fun y e => wayOut v y.2 e c) := by
  have H := config_reversible hs ha hi hW hb hΩ v c
  have hmove : ∀ {f w : Nat} {e : Event}, e.mobile = [(f : Int), (w : Int)] → ∀ k, movedTo (movedTo k e) e = k := by
    intro f w e he k
    rw [movedTo_pair he, movedTo_pair he]
    split_ifs <;> omega
  refine ⟨?_, ?_, ?_, ?_, ?_⟩
  · intro y hy e he
    exact H.nonneg y.1 (Finset.mem_sigma.1 hy).1 e he
  · intro y hy e he hq
    obtain ⟨hx, hk⟩ := Finset.mem_sigma.1 hy
    obtain ⟨f, w, h1, h2, h3, h4⟩ := hop_ions hs ha hi hW hb hΩ he hx (hopFlow_ne hs ha hi hW hb hΩ hq)
    refine Finset.mem_sigma.2 ⟨H.inside y.1 hx e he hq, ?_⟩
    simp only [tagHopped]
    rw [h4, hmove h1]
    exact hk
  · intro y hy e he hq
    obtain ⟨hx, hk⟩ := Finset.mem_sigma.1 hy
    obtain ⟨f, w, h1, h2, h3, h4⟩ := hop_ions hs ha hi hW hb hΩ he hx (hopFlow_ne hs ha hi hW hb hΩ hq)
    obtain ⟨x, k⟩ := y
    simp only [tagHopped, H.back x hx e he hq, hmove h1]
  · intro y hy e he hq
    exact H.same y.1 (Finset.mem_sigma.1 hy).1 e he hq
  · intro y hy e he hq
    obtain ⟨hx, hk⟩ := Finset.mem_sigma.1 hy
    obtain ⟨f, w, h1, h2, h3, h4⟩ := hop_ions hs ha hi hW hb hΩ he hx (hopFlow_ne hs ha hi hW hb hΩ hq)
    simp only [tagHopped]
    rw [wayOut_pair h1, wayOut_pair h1, movedTo_pair h1]
    by_cases hkf : f = y.2
    · rw [if_pos hkf, if_pos hkf, if_neg h2, if_pos rfl]; rfl
    · by_cases hkw : w = y.2
      · rw [if_neg hkf, if_pos hkw, if_neg hkf, if_pos hkw, if_pos rfl]; simp
      · rw [if_neg hkf, if_neg hkw, if_neg hkf, if_neg hkw]; simp

/-- All ions together. -/
theorem collective_square (alive : ∀ s, Reaches m s0 s → ¬ Stuck m s) {v : Event → Vec3 ℝ} {a : ℝ}
    (hv : ∀ e ∈ s0.lib.events, sqLen (v e) ≤ a ^ 2) :
    (∀ n : Nat, ∑ x ∈ Ω, W x * totalRate m s0.lib.events (inConfig x) *
        expectedOver m s0.lib.events n (inConfig x) (fun p => sqLen (walkOf o mobile v (inConfig x) p)) ≤
      n * (a ^ 2 * ∑ x ∈ Ω, W x * totalRate m s0.lib.events (inConfig x))) ∧
    ∃ L, 0 ≤ L ∧ L ≤ a ^ 2 * ∑ x ∈ Ω, W x * totalRate m s0.lib.events (inConfig x) ∧
      Tendsto (fun n : Nat => (∑ x ∈ Ω, W x * totalRate m s0.lib.events (inConfig x) *
        expectedOver m s0.lib.events n (inConfig x) (fun p => sqLen (walkOf o mobile v (inConfig x) p))) / n) atTop
        (𝓝 L) := by
  have hw : ∀ x ∈ Ω, 0 < Walk.weight s0.lib.events (hopFlow m W) x := by
    intro x hx
    rw [hopFlow_weight]
    exact mul_pos (hW x) (good_pos hs ha hi alive (config_good hs ha hi hW hb hΩ hx))
  have hB : ∑ c, Walk.hopSquare Ω s0.lib.events (hopFlow m W) (fun x e => wayOf o mobile v x e c) ≤
      a ^ 2 * ∑ x ∈ Ω, W x * totalRate m s0.lib.events (inConfig x) := by
    rw [sum_hopSquare, Finset.mul_sum]
    refine Finset.sum_le_sum fun x _ => ?_
    rw [← hopFlow_weight, Walk.weight, ← Walk.map_sum_mul]
    refine List.sum_le_sum fun e he => ?_
    rw [mul_comm]
    exact mul_le_mul_of_nonneg_right (sqLen_wayOf_le (hv e he) x) (mul_nonneg (hW x).le (rateIn_nonneg hs _ _))
  have key := Walk.vector_square (fun c => config_reversible hs ha hi hW hb hΩ v c) hw hB
  have heq : ∀ n : Nat, ∑ x ∈ Ω, Walk.weight s0.lib.events (hopFlow m W) x * ∑ c, Walk.meanOver s0.lib.events (hopFlow m W)
      hopped n x (fun p => Walk.walk hopped (fun x e => wayOf o mobile v x e c) x p ^ 2) =
      ∑ x ∈ Ω, W x * totalRate m s0.lib.events (inConfig x) *
        expectedOver m s0.lib.events n (inConfig x) (fun p => sqLen (walkOf o mobile v (inConfig x) p)) := by
    intro n
    refine Finset.sum_congr rfl fun x _ => ?_
    simp only [hopFlow_weight, meanOver_config hs.loc hW, walk_config, sqLen, expectedOver_finsum]
  simp only [heq] at key
  exact key

/-- One ion at a time. -/
theorem ions_square (alive : ∀ s, Reaches m s0 s → ¬ Stuck m s) {v : Event → Vec3 ℝ} {a : ℝ}
    (hv : ∀ e ∈ s0.lib.events, sqLen (v e) ≤ a ^ 2) :
    (∀ n : Nat, ∑ x ∈ Ω, W x * totalRate m s0.lib.events (inConfig x) *
        expectedOver m s0.lib.events n (inConfig x) (fun p => ∑ k ∈ ionsAt o mobile x, sqLen (ionWalk v k p)) ≤
      n * (a ^ 2 * ∑ x ∈ Ω, W x * totalRate m s0.lib.events (inConfig x))) ∧
    ∃ L, 0 ≤ L ∧ L ≤ a ^ 2 * ∑ x ∈ Ω, W x * totalRate m s0.lib.events (inConfig x) ∧
      Tendsto (fun n : Nat => (∑ x ∈ Ω, W x * totalRate m s0.lib.events (inConfig x) *
        expectedOver m s0.lib.events n (inConfig x) (fun p => ∑ k ∈ ionsAt o mobile x, sqLen (ionWalk v k p))) / n) atTop
        (𝓝 L) := by
  have hw : ∀ y ∈ Ω.sigma fun x => ionsAt o mobile x, 0 < Walk.weight s0.lib.events (tagFlow m W) y := by
    intro y hy
    rw [tagFlow_weight]
    exact mul_pos (hW _) (good_pos hs ha hi alive (config_good hs ha hi hW hb hΩ (Finset.mem_sigma.1 hy).1))
  have hB : ∑ c, Walk.hopSquare (Ω.sigma fun x => ionsAt o mobile x) s0.lib.events (tagFlow m W)
      (fun y e => wayOut v y.2 e c) ≤ a ^ 2 * ∑ x ∈ Ω, W x * totalRate m s0.lib.events (inConfig x) := by
    rw [sum_hopSquare (u := fun (y : (_ : List Int) × Nat) e => wayOut v y.2 e), Finset.mul_sum, Finset.sum_sigma]
    refine Finset.sum_le_sum fun x hx => ?_
    rw [← hopFlow_weight, Walk.weight, ← Walk.map_sum_mul, Walk.sum_map_swap]
    refine List.sum_le_sum fun e he => ?_
    simp only [tagFlow]
    rw [← Finset.mul_sum, mul_comm]
    by_cases h0 : hopFlow m W x e = 0
    · rw [h0]; simp
    refine mul_le_mul_of_nonneg_right ?_ (mul_nonneg (hW x).le (rateIn_nonneg hs _ _))
    obtain ⟨f, w, h1, h2, h3, -⟩ := hop_ions hs ha hi hW hb hΩ he hx (hopFlow_ne hs ha hi hW hb hΩ h0)
    have hz : sqLen (0 : Vec3 ℝ) = 0 := by simp [sqLen]
    rcases h3 with ⟨k1, k2⟩ | ⟨k1, k2⟩
    · rw [Finset.sum_eq_single_of_mem f k1]
      · rw [wayOut_pair h1, if_pos rfl]; exact hv e he
      · intro k hk hkf
        rw [wayOut_pair h1, if_neg (Ne.symm hkf), if_neg (fun hc : w = k => k2 (hc ▸ hk)), hz]
    · rw [Finset.sum_eq_single_of_mem w k1]
      · rw [wayOut_pair h1, if_neg h2, if_pos rfl, sqLen_neg]; exact hv e he
      · intro k hk hkf
        rw [wayOut_pair h1, if_neg (fun hc : f = k => k2 (hc ▸ hk)), if_neg (Ne.symm hkf), hz]
  have key := Walk.vector_square (fun c => tag_reversible hs ha hi hW hb hΩ v c) hw hB
  have heq : ∀ n : Nat, ∑ y ∈ Ω.sigma (fun x => ionsAt o mobile x), Walk.weight s0.lib.events (tagFlow m W) y *
      ∑ c, Walk.meanOver s0.lib.events (tagFlow m W) tagHopped n y
        (fun p => Walk.walk tagHopped (fun y e => wayOut v y.2 e c) y p ^ 2) =
      ∑ x ∈ Ω, W x * totalRate m s0.lib.events (inConfig x) *
        expectedOver m s0.lib.events n (inConfig x) (fun p => ∑ k ∈ ionsAt o mobile x, sqLen (ionWalk v k p)) := by
    intro n
    rw [Finset.sum_sigma]
    refine Finset.sum_congr rfl fun x _ => ?_
    simp only [tagFlow_weight, meanOver_tag hs.loc hW, walk_tag, sqLen, expectedOver_finsum]
    rw [Finset.mul_sum]
  simp only [heq] at key
  exact key

end equilibrium

end
end KMC
