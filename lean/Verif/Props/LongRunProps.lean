import Verif.Lemmas.LongRun
import Verif.Props.EquilibriumProps
/-
C91: time averages over long simulations are ensemble averages.
-/
set_option linter.unusedSectionVars false

namespace KMC
open Spec MeasureTheory Filter Topology

section
variable {σ φ ψ K : Type} [Field K] [LinearOrder K] [FloorRing K]
variable {o : ActiveSiteOrder String ψ} {mobile : String} {h : HopStateLookup}
  {m : RateModel Unit ℝ EReal} {g : Geometry K} {lib : EventLib σ φ} {st : State EReal}
  {s0 : Sim σ φ Unit ℝ EReal}

/-- The step probabilities of the configurations a simulation can get into. -/
theorem chances_kernel (hs : HopSystem o mobile h Rounding.exact m g lib st)
    (ha : Answers o mobile m lib.events st.occ)
    (hi : Sim.init (realKernel Rounding.exact) m lib.generateEventDependencies (some h) (some st) = .ok s0)
    (hns : ¬ Stuck m s0) (W : List Int → ℝ) (hW : ∀ x, 0 < W x)
    (hb : Balanced o mobile m s0.lib.events W)
    (Ω : Finset (List Int)) (hΩ : ∀ x, x ∈ Ω ↔ ∃ s, Reaches m s0 s ∧ s.st.occ = x) :
    ∃ sims : List Int → Sim σ φ Unit ℝ EReal,
      (∀ x ∈ Ω, Reaches m s0 (sims x) ∧ (sims x).st.occ = x) ∧
      (∀ x ∈ Ω, ∀ y ∈ Ω, 0 ≤ chance m 0 (sims x) y) ∧ (∀ x ∈ Ω, ∑ y ∈ Ω, chance m 0 (sims x) y = 1) ∧
      (∀ x ∈ Ω, 0 < (sims x).prob.sum) ∧
      ∀ (s : Sim σ φ Unit ℝ EReal), Reaches m s0 s → ∀ (c : ℝ) (F : Sim σ φ Unit ℝ EReal → ℝ)
        (G : List Int → ℝ), (∀ s', Reaches m s0 s' → F s' = G s'.st.occ) →
        ∫ r1 in Set.Ico (0 : ℝ) 1, ∫ r2 in (0 : ℝ)..1, (c * stay s r1 r2 + F (oneStep m s r1 r2)) =
          c * (1 / (sims s.st.occ).prob.sum) + ∑ y ∈ Ω, chance m 0 (sims s.st.occ) y * G y := by
  classical
  let sims : List Int → Sim σ φ Unit ℝ EReal := fun x =>
    if hx : ∃ s, Reaches m s0 s ∧ s.st.occ = x then hx.choose else s0
  have hsims : ∀ x ∈ Ω, Reaches m s0 (sims x) ∧ (sims x).st.occ = x := by
    intro x hx
    have hx' := (hΩ x).1 hx
    simp only [sims, dif_pos hx']
    exact hx'.choose_spec
  have met : ∀ x ∈ Ω, Met o mobile m st s0 (sims x) := fun x hx =>
    met_reaches hs ha hi (met_start hs hi) (hsims x hx).1
  have pos : ∀ x ∈ Ω, 0 < (sims x).prob.sum := fun x hx => reaches_sum_pos hs ha hi hb hW hns (hsims x hx).1
  refine ⟨sims, hsims, ?_, ?_, pos, ?_⟩
  · intro x hx y _
    exact ENNReal.toReal_nonneg
  · intro x hx
    simp only [chance_eq hs ha hi (met x hx) (pos x hx)]
    rw [← Finset.sum_div, ← flow_total hs ha hi (met x hx) Ω
      (fun s' hn => (hΩ _).2 ⟨s', (hsims x hx).1.tail hn, rfl⟩), div_self (pos x hx).ne']
  · intro s hr c F G hF
    have hx : s.st.occ ∈ Ω := (hΩ _).2 ⟨s, hr, rfl⟩
    have hm := met_reaches hs ha hi (met_start hs hi) hr
    have hp := met_prob hs (met _ hx) hm (hsims _ hx).2
    have hpos : 0 < s.prob.sum := by rw [← hp]; exact pos _ hx
    rw [step_average hs ha hi hm hpos Ω (fun s' hn => (hΩ _).2 ⟨s', hr.tail hn, rfl⟩) c F G
      (fun s' hn => hF s' (hr.tail hn))]
    simp only [chance_eq hs ha hi (met _ hx) (pos _ hx), hp, (hsims _ hx).2]

/-- C91.  Time averages are ensemble averages.  Let the model be balanced with positive weights `W`, and let `Ω`
be the configurations that the simulation can get into.  Then for every quantity `f` of the configuration, the
mean of `f` integrated over the time of the first `n` steps, over the mean time of these steps, tends to the
average of `f` over `Ω` with the weights `W`. -/
theorem C91_ensemble_average (hs : HopSystem o mobile h Rounding.exact m g lib st)
    (ha : Answers o mobile m lib.events st.occ)
    (hi : Sim.init (realKernel Rounding.exact) m lib.generateEventDependencies (some h) (some st) = .ok s0)
    (hns : ¬ Stuck m s0) (W : List Int → ℝ) (hW : ∀ x, 0 < W x)
    (hb : Balanced o mobile m s0.lib.events W)
    (Ω : Finset (List Int)) (hΩ : ∀ x, x ∈ Ω ↔ ∃ s, Reaches m s0 s ∧ s.st.occ = x) (f : List Int → ℝ) :
    Tendsto (fun n => accumulated m f n s0 / meanTime m n s0) atTop
      (𝓝 ((∑ x ∈ Ω, f x * W x) / ∑ x ∈ Ω, W x)) := by
  classical
  obtain ⟨sims, hsims, hP, hP1, pos, avg⟩ := chances_kernel hs ha hi hns W hW hb Ω hΩ
  have met : ∀ x ∈ Ω, Met o mobile m st s0 (sims x) := fun x hx =>
    met_reaches hs ha hi (met_start hs hi) (hsims x hx).1
  have hx0 : s0.st.occ ∈ Ω := (hΩ _).2 ⟨s0, .refl, rfl⟩
  have hacc : ∀ (f : List Int → ℝ) (n : Nat) (s : Sim σ φ Unit ℝ EReal), Reaches m s0 s →
      accumulated m f n s = gained Ω (fun x y => chance m 0 (sims x) y)
        (fun x => f x * (1 / (sims x).prob.sum)) n s.st.occ := by
    intro f n
    induction n with
    | zero => intro s _; rfl
    | succ n ih =>
      intro s hr
      simp only [accumulated, gained]
      exact avg s hr (f s.st.occ) (accumulated m f n) _ (fun s' hr' => ih s' hr')
  let Z := ∑ x ∈ Ω, W x * (sims x).prob.sum
  have hZ : 0 < Z := Finset.sum_pos (fun x hx => mul_pos (hW x) (pos x hx)) ⟨_, hx0⟩
  have hWs : 0 < ∑ x ∈ Ω, W x := Finset.sum_pos (fun x _ => hW x) ⟨_, hx0⟩
  let π : List Int → ℝ := fun x => W x * (sims x).prob.sum / Z
  have hπ : ∀ μ : List Int → ℝ, (∀ y ∈ Ω, ∑ x ∈ Ω, μ x * chance m 0 (sims x) y = μ y) → ∑ x ∈ Ω, μ x = 1 →
      ∀ x ∈ Ω, μ x = π x := by
    intro μ hμ hμ1
    obtain ⟨a, hall⟩ := (C90_stationary_iff hs ha hi hns W hW hb Ω hΩ sims hsims 0 0 le_rfl one_pos μ).1 hμ
    have hμx : ∀ x ∈ Ω, μ x = a * (W x * (sims x).prob.sum) := by
      intro x hx
      have h1 := hall x hx
      rw [meanStay_eq hs (met x hx) (pos x hx) 0 le_rfl one_pos] at h1
      have h2 := (pos x hx).ne'
      field_simp at h1
      rw [h1]; ring
    rw [Finset.sum_congr rfl hμx, ← Finset.mul_sum] at hμ1
    intro x hx
    rw [hμx x hx]
    have : a = 1 / Z := by
      rw [eq_div_iff hZ.ne']; exact hμ1
    rw [this]
    simp only [π]
    ring
  have hπf : ∀ f : List Int → ℝ, ∑ y ∈ Ω, π y * (f y * (1 / (sims y).prob.sum)) = (∑ y ∈ Ω, f y * W y) / Z := by
    intro f
    rw [Finset.sum_div]
    refine Finset.sum_congr rfl fun y hy => ?_
    have := (pos y hy).ne'
    simp only [π]
    field_simp
  have hd : ∑ y ∈ Ω, π y * (1 * (1 / (sims y).prob.sum)) ≠ 0 := by
    rw [hπf fun _ => 1]
    simp only [one_mul]
    exact (div_pos hWs hZ).ne'
  have key := gained_ratio hP hP1 π hπ (fun x => f x * (1 / (sims x).prob.sum))
    (fun x => 1 * (1 / (sims x).prob.sum)) hd hx0
  rw [hπf f, hπf fun _ => 1, div_div_div_cancel_right₀ hZ.ne'] at key
  simp only [one_mul] at key
  refine key.congr fun n => ?_
  rw [meanTime, hacc f n s0 .refl, hacc (fun _ => 1) n s0 .refl]
  simp only [one_mul]

/-- C91.  The share of the time that the simulation spends in a configuration tends to its share of the
weight. -/
theorem C91_time_share (hs : HopSystem o mobile h Rounding.exact m g lib st)
    (ha : Answers o mobile m lib.events st.occ)
    (hi : Sim.init (realKernel Rounding.exact) m lib.generateEventDependencies (some h) (some st) = .ok s0)
    (hns : ¬ Stuck m s0) (W : List Int → ℝ) (hW : ∀ x, 0 < W x)
    (hb : Balanced o mobile m s0.lib.events W)
    (Ω : Finset (List Int)) (hΩ : ∀ x, x ∈ Ω ↔ ∃ s, Reaches m s0 s ∧ s.st.occ = x) {y : List Int} (hy : y ∈ Ω) :
    Tendsto (fun n => accumulated m (fun x => indicator (x = y)) n s0 / meanTime m n s0) atTop
      (𝓝 (W y / ∑ x ∈ Ω, W x)) := by
  classical
  have := C91_ensemble_average hs ha hi hns W hW hb Ω hΩ (fun x => indicator (x = y))
  have e : ∑ x ∈ Ω, indicator (x = y) * W x = W y := by
    rw [Finset.sum_eq_single y (fun x _ hx => by simp [indicator, hx]) (fun h => absurd hy h)]
    simp [indicator]
  rw [e] at this
  exact this

/-- C91.  Canonical averages: with a composite model whose site-energy differences are differences of an energy
`E`, on a connected network with an ion and a vacancy, the time average of every quantity of the configuration
tends to its Boltzmann average over all arrangements of the network. -/
theorem C91_canonical_average (c : Composite Unit EReal) (kB temp ν : ℝ) (hν : 0 < ν)
    (hs : HopSystem o mobile h Rounding.exact (c.rateModel kB temp ν) g lib st)
    (ha : Answers o mobile (c.rateModel kB temp ν) lib.events st.occ)
    (hi : Sim.init (realKernel Rounding.exact) (c.rateModel kB temp ν) lib.generateEventDependencies (some h)
      (some st) = .ok s0)
    {S : Nat → Prop} (hn : Network o mobile lib.events st.occ S)
    (hap : ∀ e ∈ lib.events, SurroundingsApart st.occ.length e) (E : List Int → ℝ)
    (hE : ReportsEnergy c.site (fun _ st' => WellLabelled o mobile st'.occ)
      (fun e => ∃ x ∈ lib.events, e.mobile = x.mobile ∧ e.env = x.env) E)
    (Ω : Finset (List Int))
    (hΩ : ∀ x, x ∈ Ω ↔ SameComposition x st.occ ∧ ∀ i, ¬ S i → x[i]? = st.occ[i]?) (f : List Int → ℝ) :
    Tendsto (fun n => accumulated (c.rateModel kB temp ν) f n s0 / meanTime (c.rateModel kB temp ν) n s0) atTop
      (𝓝 ((∑ x ∈ Ω, f x * Real.exp (-E x / (kB * temp))) / ∑ x ∈ Ω, Real.exp (-E x / (kB * temp)))) := by
  have hst : s0.st = st := by
    obtain ⟨i1, -⟩ := init_ok hi
    exact (Option.some.inj i1).symm
  have hw := C85_composite_willing c kB temp ν hν
  have hns : ¬ Stuck (c.rateModel kB temp ν) s0 :=
    network_not_stuck hs ha hi hw (sim_init_inv hs hi) (by rw [hst]) (by rw [hst]; exact hn)
  exact C91_ensemble_average hs ha hi hns (fun x => Real.exp (-E x / (kB * temp))) (fun x => Real.exp_pos _)
    (C90_energy_balanced c kB temp ν hν hs hi (fun e st' => ha.commit e st') hap E hE) Ω
    (fun x => (hΩ x).trans (C90_all_arrangements hs ha hw hi hn x).symm) f

/-- C91.  The clock: the mean simulated time after `n` steps is the time at the start plus the mean time that the
steps take. -/
theorem C91_mean_clock (hs : HopSystem o mobile h Rounding.exact m g lib st)
    (ha : Answers o mobile m lib.events st.occ)
    (hi : Sim.init (realKernel Rounding.exact) m lib.generateEventDependencies (some h) (some st) = .ok s0)
    (hns : ¬ Stuck m s0) (W : List Int → ℝ) (hW : ∀ x, 0 < W x)
    (hb : Balanced o mobile m s0.lib.events W) (t0 : ℝ) (ht : st.time = (t0 : EReal)) (n : Nat) :
    meanOf m (fun s => s.st.time.toReal) n s0 = t0 + meanTime m n s0 := by
  classical
  have hst : s0.st = st := by
    obtain ⟨i1, -⟩ := init_ok hi
    exact (Option.some.inj i1).symm
  obtain ⟨Ω, hΩ⟩ := C90_finitely_many hs ha hi
  obtain ⟨sims, hsims, hP, hP1, pos, avg⟩ := chances_kernel hs ha hi hns W hW hb Ω hΩ
  have hacc : ∀ (n : Nat) (s : Sim σ φ Unit ℝ EReal), Reaches m s0 s →
      accumulated m (fun _ => 1) n s = gained Ω (fun x y => chance m 0 (sims x) y)
        (fun x => 1 * (1 / (sims x).prob.sum)) n s.st.occ := by
    intro n
    induction n with
    | zero => intro s _; rfl
    | succ n ih =>
      intro s hr
      simp only [accumulated, gained]
      exact avg s hr 1 (accumulated m (fun _ => 1) n) _ (fun s' hr' => ih s' hr')
  have key : ∀ (n : Nat) (s : Sim σ φ Unit ℝ EReal) (t : ℝ), Reaches m s0 s → s.st.time = (t : EReal) →
      meanOf m (fun s => s.st.time.toReal) n s = t + meanTime m n s := by
    intro n
    induction n with
    | zero => intro s t _ hts; simp [meanOf, meanTime, accumulated, hts]
    | succ n ih =>
      intro s t hr hts
      have hm := met_reaches hs ha hi (met_start hs hi) hr
      have hpos := reaches_sum_pos hs ha hi hb hW hns hr
      have hstep : ∀ r1 ∈ Set.Ico (0 : ℝ) 1, ∀ r2 ∈ Set.Ioc (0 : ℝ) 1,
          meanOf m (fun s => s.st.time.toReal) n (oneStep m s r1 r2) =
            1 * stay s r1 r2 + (t + accumulated m (fun _ => 1) n (oneStep m s r1 r2)) := by
        intro r1 h1 r2 h2
        have hp := exists_pos_of_sum_pos hpos
        obtain ⟨i, dt, p, a1, a2, -⟩ := C01_selected_event_allowed Rounding.exact s.prob (fun _ _ => rfl)
          (rates_nonneg hs hm.inv) hp r1 r2 h1.1 h1.2
        have hil : i < s.lib.events.length := by
          rw [← hm.inv.table.length]; exact (List.getElem?_eq_some_iff.1 a2).1
        have he : s.lib.events[i]? = some s.lib.events[i] := by simp [hil]
        have hprop := (propose_iff hm.inv.table.cum).2 ⟨i, a1, he⟩
        have hmem : s.lib.events[i] ∈ s0.lib.events := by
          rw [← hm.inv.lib]; exact List.getElem_mem hil
        obtain ⟨s', hu, -, -⟩ := met_update hs ha hi hm hmem dt
        have hone : oneStep m s r1 r2 = s' := by
          unfold oneStep
          rw [hprop]
          simp only [hu]
        have hstay : stay s r1 r2 = dt.toReal := by
          unfold stay
          rw [hprop]
        have hdt : dt = ((stay s r1 r2 : ℝ) : EReal) := by
          rw [stay_eq hs hm hpos r1 h1.1 h1.2]
          have hne : s.prob ≠ [] := by rintro h; rw [h] at hpos; simp at hpos
          unfold propose at a1
          rw [cumsum_exact_last hne] at a1
          simp only at a1
          rw [if_neg (ne_of_gt hpos)] at a1
          simp only [Except.ok.injEq, Prod.mk.injEq] at a1
          rw [← a1.2]
          unfold waitingTime
          rw [if_neg h2.1.ne']
          rfl
        have htime : s'.st.time = ((t + stay s r1 r2 : ℝ) : EReal) := by
          obtain ⟨st1, ms, i1, prob, b1, -, -, -, rfl⟩ := update_ok hu
          obtain ⟨f, t', i, j, hi', hj', -, -, -, rfl⟩ := applyEvent_ok b1
          simp only [hts]
          rw [EReal.coe_add, ← hdt]
        rw [hone]
        rw [ih s' _ (hr.tail ⟨r1, r2, _, dt, h1.1, h1.2, hprop, hu⟩) htime, meanTime]
        ring
      have e1 : meanOf m (fun s => s.st.time.toReal) (n + 1) s = ∫ r1 in Set.Ico (0 : ℝ) 1, ∫ r2 in (0 : ℝ)..1,
          (1 * stay s r1 r2 + (t + accumulated m (fun _ => 1) n (oneStep m s r1 r2))) := by
        simp only [meanOf]
        refine setIntegral_congr_fun measurableSet_Ico fun r1 h1 => ?_
        refine intervalIntegral.integral_congr_ae ?_
        refine Filter.Eventually.of_forall fun r2 h2 => ?_
        rw [Set.uIoc_of_le zero_le_one] at h2
        exact hstep r1 h1 r2 h2
      have hx : s.st.occ ∈ Ω := (hΩ _).2 ⟨s, hr, rfl⟩
      rw [e1, avg s hr 1 (fun s' => t + accumulated m (fun _ => 1) n s')
        (fun x => t + gained Ω (fun x y => chance m 0 (sims x) y) (fun x => 1 * (1 / (sims x).prob.sum)) n x)
        (fun s' hr' => by rw [hacc n s' hr'])]
      rw [meanTime, hacc (n + 1) s hr, gained]
      simp only [mul_add, Finset.sum_add_distrib]
      rw [← Finset.sum_mul, hP1 _ hx]
      ring
  exact key n s0 t0 .refl (by rw [hst]; exact ht)

/-! ### How long a site is occupied -/

/-- Sites joined by hops allow the same species. -/
theorem connected_allowed (hs : HopSystem o mobile h Rounding.exact m g lib st) {i j : Nat}
    (hc : Relation.ReflTransGen (Linked lib.events) i j) : allowedAt o i = allowedAt o j := by
  induction hc with
  | refl => rfl
  | tail _ hl ih =>
    rw [ih]
    obtain ⟨e, he, hm | hm⟩ := hl <;>
    · obtain ⟨f, t, h1, h2⟩ := hs.endpoints e he
      rw [h1] at hm
      simp only [List.cons.injEq, Nat.cast_inj, and_true] at hm
      obtain ⟨rfl, rfl⟩ := hm
      first | exact h2 | exact h2.symm

/-- After an exchange the species on the sites are exchanged. -/
theorem exchanged_species {i j : Nat} {x y : List Int} (he : Exchanged i j x y)
    (hall : allowedAt o i = allowedAt o j) (k : Nat) :
    speciesAt o y (Equiv.swap i j k) = speciesAt o x k := by
  obtain ⟨-, h1, h2, h3⟩ := he
  have hsp : ∀ v, speciesOf o i v = speciesOf o j v := by
    intro v; unfold speciesOf; rw [hall]
  by_cases hki : k = i
  · subst hki
    rw [Equiv.swap_apply_left]
    unfold speciesAt
    rw [h2]
    cases x[k]? with
    | none => rfl
    | some v => exact (hsp v).symm
  · by_cases hkj : k = j
    · subst hkj
      rw [Equiv.swap_apply_right]
      unfold speciesAt
      rw [h1]
      cases x[k]? with
      | none => rfl
      | some v => exact hsp v
    · rw [Equiv.swap_apply_of_ne_of_ne hki hkj]
      unfold speciesAt
      rw [h3 k hki hkj]

/-- Exchanges inside the network keep the number of ions in it. -/
theorem exchanged_count {i j n : Nat} {S : Nat → Prop} {x y : List Int} (he : Exchanged i j x y)
    (hall : allowedAt o i = allowedAt o j) (si : S i) (sj : S j) (hi : i < n) (hj : j < n) :
    countSites n S (fun k => speciesAt o y k = some mobile) =
      countSites n S (fun k => speciesAt o x k = some mobile) := by
  classical
  unfold countSites
  refine Finset.card_bij' (fun k _ => Equiv.swap i j k) (fun k _ => Equiv.swap i j k) ?_ ?_ (by simp) (by simp)
  all_goals
    intro k hk
    simp only [Finset.mem_filter, Finset.mem_range] at hk ⊢
    have hS : Equiv.swap i j k < n ∧ S (Equiv.swap i j k) := by
      by_cases hki : k = i
      · subst hki; rw [Equiv.swap_apply_left]; exact ⟨hj, sj⟩
      · by_cases hkj : k = j
        · subst hkj; rw [Equiv.swap_apply_right]; exact ⟨hi, si⟩
        · rw [Equiv.swap_apply_of_ne_of_ne hki hkj]; exact ⟨hk.1, hk.2.1⟩
    refine ⟨hS.1, hS.2, ?_⟩
  · have := exchanged_species he hall (Equiv.swap i j k)
    rw [Equiv.swap_apply_self] at this
    rw [← this]; exact hk.2.2
  · rw [exchanged_species he hall k]; exact hk.2.2

/-- C91.  How long a site is occupied.  If all configurations have the same weight, then on a connected network
every site holds an ion for the same share of the time, in the long run: the number of ions in the network over
the number of its sites. -/
theorem C91_site_share (hs : HopSystem o mobile h Rounding.exact m g lib st)
    (ha : Answers o mobile m lib.events st.occ) (hw : Willing m)
    (hi : Sim.init (realKernel Rounding.exact) m lib.generateEventDependencies (some h) (some st) = .ok s0)
    (hb : Balanced o mobile m s0.lib.events fun _ => 1)
    {S : Nat → Prop} (hn : Network o mobile lib.events st.occ S) (i : Nat) (si : S i) :
    Tendsto (fun n => accumulated m (fun x => indicator (speciesAt o x i = some mobile)) n s0 / meanTime m n s0)
      atTop (𝓝 ((countSites st.occ.length S (fun k => speciesAt o st.occ k = some mobile) : ℝ) /
        countSites st.occ.length S fun _ => True)) := by
  classical
  have hst : s0.st = st := by
    obtain ⟨i1, -⟩ := init_ok hi
    exact (Option.some.inj i1).symm
  have hns := network_not_stuck hs ha hi hw (sim_init_inv hs hi) (by rw [hst]) (by rw [hst]; exact hn)
  obtain ⟨Ω, hΩ⟩ := C90_finitely_many hs ha hi
  have harr := fun x => (hΩ x).trans (C90_all_arrangements hs ha hw hi hn x)
  have hlt : ∀ k, S k → k < st.occ.length := by
    intro k hk
    by_contra hno
    have : speciesAt o st.occ k = none := by
      unfold speciesAt
      rw [List.getElem?_eq_none (by omega)]
    rcases hn.filled k hk with h1 | ⟨v, -, h1⟩ <;> rw [this] at h1 <;> cases h1
  have key := C91_ensemble_average hs ha hi hns (fun _ => 1) (fun _ => one_pos) hb Ω hΩ
    (fun x => indicator (speciesAt o x i = some mobile))
  have hsame : ∀ j, S j → ∑ x ∈ Ω, indicator (speciesAt o x j = some mobile) =
      ∑ x ∈ Ω, indicator (speciesAt o x i = some mobile) := by
    intro j sj
    have hall := connected_allowed hs (hn.connected i j si sj)
    let sw : List Int → List Int := fun x => (x.set i (x.getD j 0)).set j (x.getD i 0)
    have hsw : ∀ x, x ∈ Ω → Exchanged i j x (sw x) := by
      intro x hx
      have hlen : x.length = st.occ.length := ((harr x).1 hx).1.1
      have h1 : i < x.length := by rw [hlen]; exact hlt i si
      have h2 : j < x.length := by rw [hlen]; exact hlt j sj
      have := set_set_exchanged (l := x) h1 h2
      simpa [sw, List.getD_eq_getElem?_getD, h1, h2] using this
    have hmem : ∀ x, x ∈ Ω → sw x ∈ Ω := by
      intro x hx
      obtain ⟨hcomp, hfix⟩ := (harr x).1 hx
      have hlen : x.length = st.occ.length := hcomp.1
      refine (harr _).2 ⟨?_, ?_⟩
      · have hp := exchanged_perm (by rw [hlen]; exact hlt i si) (by rw [hlen]; exact hlt j sj) (hsw x hx)
        exact sameComposition_iff_perm.2 (hp.trans (sameComposition_iff_perm.1 hcomp))
      · intro k hk
        rw [(hsw x hx).2.2.2 k (by rintro rfl; exact hk si) (by rintro rfl; exact hk sj)]
        exact hfix k hk
    have hinv : ∀ x, x ∈ Ω → sw (sw x) = x := by
      intro x hx
      have h1 := hsw x hx
      have h2 := hsw _ (hmem x hx)
      refine exchanged_unique h2 ⟨h1.1.symm, h1.2.2.1.symm, h1.2.1.symm, fun k a b => (h1.2.2.2 k a b).symm⟩
    refine Finset.sum_bij' (fun x _ => sw x) (fun x _ => sw x) hmem hmem hinv hinv ?_
    intro x hx
    have := exchanged_species (hsw x hx) hall j
    rw [Equiv.swap_apply_right] at this
    rw [this]
  have hcount : ∀ x ∈ Ω, countSites st.occ.length S (fun k => speciesAt o x k = some mobile) =
      countSites st.occ.length S (fun k => speciesAt o st.occ k = some mobile) := by
    intro x hx
    obtain ⟨s, hr, rfl⟩ := (hΩ x).1 hx
    have : ∀ {s : Sim σ φ Unit ℝ EReal}, Reaches m s0 s →
        countSites st.occ.length S (fun k => speciesAt o s.st.occ k = some mobile) =
        countSites st.occ.length S (fun k => speciesAt o st.occ k = some mobile) := by
      intro s hr
      induction hr with
      | refl => rw [hst]
      | tail hu hnx ih =>
        rw [← ih]
        have hmu := met_reaches hs ha hi (met_start hs hi) hu
        obtain ⟨-, k, e, he, ⟨f, t, hm, hex⟩, -⟩ := met_next hs ha hi hmu hnx
        obtain ⟨x, hx, hmx, -⟩ := running_event hi (List.mem_of_getElem? he)
        rw [hm] at hmx
        obtain ⟨sf, stt⟩ := hn.ends x hx f t hmx.symm
        obtain ⟨f', t', h1, h2⟩ := hs.endpoints x hx
        rw [← hmx] at h1
        simp only [List.cons.injEq, Nat.cast_inj, and_true] at h1
        obtain ⟨rfl, rfl⟩ := h1
        exact exchanged_count hex h2 sf stt (hlt _ sf) (hlt _ stt)
    exact this hr
  have hdouble : (countSites st.occ.length S (fun _ => True) : ℝ) *
      ∑ x ∈ Ω, indicator (speciesAt o x i = some mobile) =
      Ω.card * countSites st.occ.length S (fun k => speciesAt o st.occ k = some mobile) := by
    have e1 : ∑ k ∈ (Finset.range st.occ.length).filter (fun k => S k),
        ∑ x ∈ Ω, indicator (speciesAt o x k = some mobile) =
        ∑ x ∈ Ω, (countSites st.occ.length S (fun k => speciesAt o x k = some mobile) : ℝ) := by
      rw [Finset.sum_comm]
      refine Finset.sum_congr rfl fun x _ => ?_
      unfold countSites indicator
      rw [← Finset.filter_filter, Finset.card_filter]
      push_cast
      exact Finset.sum_congr rfl fun k _ => by congr
    have e2 : ∑ x ∈ Ω, (countSites st.occ.length S (fun k => speciesAt o x k = some mobile) : ℝ) =
        Ω.card * countSites st.occ.length S (fun k => speciesAt o st.occ k = some mobile) := by
      rw [Finset.sum_congr rfl (fun x hx => by rw [hcount x hx]), Finset.sum_const, nsmul_eq_mul]
    rw [← e2, ← e1, Finset.sum_congr rfl (fun k hk => hsame k (Finset.mem_filter.1 hk).2), Finset.sum_const,
      nsmul_eq_mul]
    simp only [countSites, and_true]
  have hD : (0 : ℝ) < countSites st.occ.length S fun _ => True := by
    have : 0 < countSites st.occ.length S fun _ => True := by
      unfold countSites
      refine Finset.card_pos.2 ⟨i, ?_⟩
      simp only [Finset.mem_filter, Finset.mem_range]
      exact ⟨hlt i si, si, trivial⟩
    exact_mod_cast this
  have hC : (0 : ℝ) < Ω.card := by
    have : 0 < Ω.card := Finset.card_pos.2 ⟨s0.st.occ, (hΩ _).2 ⟨s0, .refl, rfl⟩⟩
    exact_mod_cast this
  have e2 : (∑ x ∈ Ω, indicator (speciesAt o x i = some mobile) * 1) / ∑ x ∈ Ω, (1 : ℝ) =
      (countSites st.occ.length S (fun k => speciesAt o st.occ k = some mobile) : ℝ) /
        countSites st.occ.length S fun _ => True := by
    simp only [mul_one, Finset.sum_const, nsmul_eq_mul]
    rw [div_eq_div_iff hC.ne' hD.ne', mul_comm, hdouble, mul_comm]
  rw [e2] at key
  exact key

end

/-! ### Concrete simulations -/

theorem chain_apart : ∀ e ∈ chainLib.events, SurroundingsApart 5 e := by
  intro e he
  rcases chain_mobile ⟨e, he, rfl, rfl⟩ with ⟨hm, hn⟩ | ⟨hm, hn⟩ | ⟨hm, hn⟩ | ⟨hm, hn⟩ <;>
    · intro i hi j hj
      rw [hn] at hi; rw [hm] at hj
      revert i j
      decide

/-- Non-vacuity: two ions on a chain of five sites, with a barrier expansion.  The last site, which no ion is at
in the beginning, holds an ion for two fifths of the time in the long run. -/
example : ∃ s0 : Sim Unit Unit Unit ℝ EReal,
    Sim.init (realKernel Rounding.exact) ((⟨some chainExpansion, .none⟩ :
      Composite Unit EReal).rateModel 1 300 1000) chainLib.generateEventDependencies
      (some ⟨[0, 0, 0, 0, 0], [1, 1, 1, 1, 1]⟩) (some ⟨[0, 1, 0, 1, 1], 0, 0⟩) = .ok s0 ∧
    Tendsto (fun n => accumulated ((⟨some chainExpansion, .none⟩ : Composite Unit EReal).rateModel 1 300 1000)
      (fun x => indicator (speciesAt exampleOrder x 4 = some "Na")) n s0 /
      meanTime ((⟨some chainExpansion, .none⟩ : Composite Unit EReal).rateModel 1 300 1000) n s0) atTop
      (𝓝 (2 / 5)) := by
  have hs := C69_hop_system exampleOrder "Na" _ (some chainExpansion) none 1 300 1000 hopGeometry chainLib
    ⟨[0, 1, 0, 1, 1], 0, 0⟩ (by norm_num) chain_hopSystem.lookup chain_hopSystem.labelled chain_hopSystem.fit
    chain_hopSystem.endpoints chain_hopSystem.coords
  have ha : Answers exampleOrder "Na" ((⟨some chainExpansion, .none⟩ : Composite Unit EReal).rateModel 1 300 1000)
      chainLib.events [0, 1, 0, 1, 1] :=
    C85_composite_answers chainExpansion none 1 300 1000 chainLib.events [0, 1, 0, 1, 1] [2, 2] [2, 2]
      chainExpansion_built chain_surroundings (by rintro m ⟨⟩) chain_hopSystem.fit (by
        intro e he
        obtain ⟨f, t, h1, -⟩ := chain_hopSystem.endpoints e he
        exact ⟨f, t, h1⟩)
  obtain ⟨s0, hi⟩ := C85_can_be_constructed hs ha
  refine ⟨s0, hi, ?_⟩
  have key := C91_site_share hs ha (C85_composite_willing _ 1 300 1000 (by norm_num)) hi
    (C90_barriers_balanced chainExpansion 1 300 1000 (by norm_num) hs hi chain_apart) chain_network 4
    (by norm_num)
  have e1 : countSites 5 (fun i => i < 5) (fun k => speciesAt exampleOrder [0, 1, 0, 1, 1] k = some "Na") = 2 := by
    classical
    have : ((Finset.range 5).filter fun k => k < 5 ∧ speciesAt exampleOrder [0, 1, 0, 1, 1] k = some "Na").card =
      2 := by decide
    rw [← this]
    unfold countSites
    congr
  have e2 : countSites 5 (fun i => i < 5) (fun _ => True) = 5 := by
    classical
    have : ((Finset.range 5).filter fun k => k < 5 ∧ True).card = 5 := by decide
    rw [← this]
    unfold countSites
    congr
  have e3 : ([0, 1, 0, 1, 1] : List Int).length = 5 := rfl
  simp only [e3, e1, e2] at key
  norm_num at key
  exact key

/-- Non-vacuity: with an ion on the first site costing energy, the time average of any quantity of the
configuration tends to its Boltzmann average. -/
example (f : List Int → ℝ) : ∃ (s0 : Sim Unit Unit Unit ℝ EReal) (Ω : Finset (List Int)),
    Sim.init (realKernel Rounding.exact) ((⟨some chainExpansion, firstSiteModel⟩ :
      Composite Unit EReal).rateModel 1 300 1000) chainLib.generateEventDependencies
      (some ⟨[0, 0, 0, 0, 0], [1, 1, 1, 1, 1]⟩) (some ⟨[0, 1, 0, 1, 1], 0, 0⟩) = .ok s0 ∧
    [1, 1, 1, 0, 0] ∈ Ω ∧
    Tendsto (fun n => accumulated ((⟨some chainExpansion, firstSiteModel⟩ :
        Composite Unit EReal).rateModel 1 300 1000) f n s0 /
      meanTime ((⟨some chainExpansion, firstSiteModel⟩ : Composite Unit EReal).rateModel 1 300 1000) n s0) atTop
      (𝓝 ((∑ x ∈ Ω, f x * Real.exp (-firstSiteEnergy x / (1 * 300))) /
        ∑ x ∈ Ω, Real.exp (-firstSiteEnergy x / (1 * 300)))) := by
  obtain ⟨s0, hi⟩ := C85_can_be_constructed firstSite_hopSystem firstSite_answers
  have hw := C85_composite_willing (⟨some chainExpansion, firstSiteModel⟩ : Composite Unit EReal) 1 300 1000
    (by norm_num)
  obtain ⟨Ω, hΩ⟩ := C90_finitely_many firstSite_hopSystem firstSite_answers hi
  have harr := fun x => (hΩ x).trans
    (C90_all_arrangements firstSite_hopSystem firstSite_answers hw hi chain_network x)
  refine ⟨s0, Ω, hi, (harr _).2 ⟨sameComposition_iff_perm.2 (by decide), fun i hi => ?_⟩,
    C91_canonical_average _ 1 300 1000 (by norm_num) firstSite_hopSystem firstSite_answers hi chain_network
      chain_apart firstSiteEnergy firstSite_reports Ω harr f⟩
  simp only [List.getElem?_eq_none_iff.2 (show [(1 : Int), 1, 1, 0, 0].length ≤ i by simpa using hi),
    List.getElem?_eq_none_iff.2 (show [(0 : Int), 1, 0, 1, 1].length ≤ i by simpa using hi)]

end KMC
