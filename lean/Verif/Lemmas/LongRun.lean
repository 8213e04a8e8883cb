import Verif.Lemmas.Equilibrium
import Verif.Spec.LongRun
import Mathlib.Topology.Sequences
import Mathlib.Analysis.SpecificLimits.Basic
/-
Lemmas for the long run: averages of the powers of a finite transition matrix.
-/
set_option linter.unusedSectionVars false

namespace KMC
open Spec MeasureTheory Filter Topology

section abstract
variable {α : Type} [DecidableEq α]

/-- The `n`-step transition probabilities. -/
def power (Ω : Finset α) (P : α → α → ℝ) : Nat → α → α → ℝ
  | 0, x, y => if x = y then 1 else 0
  | n + 1, x, y => ∑ z ∈ Ω, P x z * power Ω P n z y

variable {Ω : Finset α} {P : α → α → ℝ}

theorem power_nonneg (hP : ∀ x ∈ Ω, ∀ y ∈ Ω, 0 ≤ P x y) (n : Nat) :
    ∀ x ∈ Ω, ∀ y, 0 ≤ power Ω P n x y := by
  induction n with
  | zero => intro x _ y; simp only [power]; split <;> norm_num
  | succ n ih =>
    intro x hx y
    exact Finset.sum_nonneg fun z hz => mul_nonneg (hP x hx z hz) (ih z hz y)

theorem power_sum (hP1 : ∀ x ∈ Ω, ∑ y ∈ Ω, P x y = 1) (n : Nat) :
    ∀ x ∈ Ω, ∑ y ∈ Ω, power Ω P n x y = 1 := by
  induction n with
  | zero => intro x hx; simp [power, hx]
  | succ n ih =>
    intro x hx
    simp only [power]
    rw [Finset.sum_comm]
    rw [← hP1 x hx]
    refine Finset.sum_congr rfl fun z hz => ?_
    rw [← Finset.mul_sum, ih z hz, mul_one]

theorem power_right (n : Nat) : ∀ x ∈ Ω, ∀ y ∈ Ω,
    power Ω P (n + 1) x y = ∑ z ∈ Ω, power Ω P n x z * P z y := by
  induction n with
  | zero =>
    intro x hx y hy
    simp only [power]
    rw [Finset.sum_eq_single y (fun z _ hz => by simp [hz]) (fun h => absurd hy h)]
    rw [Finset.sum_eq_single x (fun z _ hz => by simp [hz.symm]) (fun h => absurd hx h)]
    simp
  | succ n ih =>
    intro x hx y hy
    rw [power]
    have e1 : ∀ z ∈ Ω, P x z * power Ω P (n + 1) z y = ∑ w ∈ Ω, P x z * (power Ω P n z w * P w y) := by
      intro z hz
      rw [ih z hz y hy, Finset.mul_sum]
    rw [Finset.sum_congr rfl e1, Finset.sum_comm]
    refine Finset.sum_congr rfl fun w _ => ?_
    rw [power, Finset.sum_mul]
    refine Finset.sum_congr rfl fun z _ => ?_
    ring

/-- The averages of the `n`-step transition probabilities tend to the stationary distribution, if there is only
one. -/
theorem average_tendsto (hP : ∀ x ∈ Ω, ∀ y ∈ Ω, 0 ≤ P x y) (hP1 : ∀ x ∈ Ω, ∑ y ∈ Ω, P x y = 1) (π : α → ℝ)
    (hπ : ∀ μ : α → ℝ, (∀ y ∈ Ω, ∑ x ∈ Ω, μ x * P x y = μ y) → ∑ x ∈ Ω, μ x = 1 → ∀ x ∈ Ω, μ x = π x)
    {x : α} (hx : x ∈ Ω) {y : α} (hy : y ∈ Ω) :
    Tendsto (fun n : Nat => (∑ k ∈ Finset.range n, power Ω P k x y) / n) atTop (𝓝 (π y)) := by
  let v : Nat → (Ω → ℝ) := fun n z => (∑ k ∈ Finset.range n, power Ω P k x z) / n
  have hle : ∀ k, ∀ z ∈ Ω, power Ω P k x z ≤ 1 := by
    intro k z hz
    rw [← power_sum hP1 k x hx]
    exact Finset.single_le_sum (fun w _ => power_nonneg hP k x hx w) hz
  have hv : ∀ n, v n ∈ Set.Icc (0 : Ω → ℝ) 1 := by
    intro n
    constructor
    · intro z
      exact div_nonneg (Finset.sum_nonneg fun k _ => power_nonneg hP k x hx z) (Nat.cast_nonneg n)
    · intro z
      refine div_le_one_of_le₀ ?_ (Nat.cast_nonneg n)
      refine (Finset.sum_le_sum fun k _ => hle k z z.2).trans ?_
      simp
  suffices h : Tendsto v atTop (𝓝 fun z => π z) by
    exact (tendsto_pi_nhds.1 h ⟨y, hy⟩)
  refine tendsto_of_subseq_tendsto fun ns hns => ?_
  obtain ⟨q, -, φ, hφ, hq⟩ := isCompact_Icc.tendsto_subseq fun n => hv (ns n)
  refine ⟨φ, ?_⟩
  have hns' : Tendsto (ns ∘ φ) atTop atTop := hns.comp hφ.tendsto_atTop
  let q' : α → ℝ := fun z => if hz : z ∈ Ω then q ⟨z, hz⟩ else 0
  have hq' : ∀ z, z ∈ Ω → Tendsto (fun n => (∑ k ∈ Finset.range (ns (φ n)), power Ω P k x z) / (ns (φ n) : ℝ))
      atTop (𝓝 (q' z)) := by
    intro z hz
    have := tendsto_pi_nhds.1 hq ⟨z, hz⟩
    simp only [q', dif_pos hz]
    exact this
  have hsum : ∑ z ∈ Ω, q' z = 1 := by
    have h1 : Tendsto (fun n => ∑ z ∈ Ω, (∑ k ∈ Finset.range (ns (φ n)), power Ω P k x z) / (ns (φ n) : ℝ)) atTop
        (𝓝 (∑ z ∈ Ω, q' z)) := tendsto_finsetSum _ fun z hz => hq' z hz
    refine tendsto_nhds_unique h1 ?_
    refine tendsto_const_nhds.congr' ?_
    filter_upwards [hns'.eventually (eventually_ge_atTop 1)] with n hn
    rw [← Finset.sum_div, Finset.sum_comm]
    simp only [power_sum hP1 _ x hx, Finset.sum_const, Finset.card_range, nsmul_eq_mul, mul_one]
    have : ((ns (φ n) : Nat) : ℝ) ≠ 0 := by
      have : 1 ≤ ns (φ n) := hn
      positivity
    rw [div_self this]
  have hstat : ∀ w ∈ Ω, ∑ z ∈ Ω, q' z * P z w = q' w := by
    intro w hw
    have h1 : Tendsto (fun n => ∑ z ∈ Ω, (∑ k ∈ Finset.range (ns (φ n)), power Ω P k x z) / (ns (φ n) : ℝ) * P z w)
        atTop (𝓝 (∑ z ∈ Ω, q' z * P z w)) := tendsto_finsetSum _ fun z hz => (hq' z hz).mul_const _
    have h2 : Tendsto (fun n => (∑ k ∈ Finset.range (ns (φ n)), power Ω P k x w) / (ns (φ n) : ℝ) +
        (power Ω P (ns (φ n)) x w - power Ω P 0 x w) / (ns (φ n) : ℝ)) atTop (𝓝 (q' w + 0)) := by
      refine (hq' w hw).add ?_
      have hb : ∀ n : Nat, |power Ω P n x w - power Ω P 0 x w| ≤ 1 := by
        intro n
        have a1 := hle n w hw
        have a2 := hle 0 w hw
        have a3 := power_nonneg hP n x hx w
        have a4 := power_nonneg hP 0 x hx w
        rw [abs_le]; constructor <;> linarith
      have h3 : Tendsto (fun n : Nat => (power Ω P n x w - power Ω P 0 x w) / (n : ℝ)) atTop (𝓝 0) := by
        refine squeeze_zero_norm (a := fun n : Nat => 1 / (n : ℝ)) ?_ tendsto_one_div_atTop_nhds_zero_nat
        intro n
        rw [Real.norm_eq_abs, abs_div, abs_of_nonneg (Nat.cast_nonneg (α := ℝ) n)]
        gcongr
        exact hb n
      exact h3.comp hns'
    rw [add_zero] at h2
    refine tendsto_nhds_unique (h1.congr fun n => ?_) h2
    have e1 : ∀ N : Nat, ∑ z ∈ Ω, (∑ k ∈ Finset.range N, power Ω P k x z) * P z w =
        ∑ k ∈ Finset.range N, power Ω P k x w + (power Ω P N x w - power Ω P 0 x w) := by
      intro N
      have : ∑ z ∈ Ω, (∑ k ∈ Finset.range N, power Ω P k x z) * P z w =
          ∑ k ∈ Finset.range N, power Ω P (k + 1) x w := by
        simp only [Finset.sum_mul]
        rw [Finset.sum_comm]
        exact Finset.sum_congr rfl fun k _ => (power_right k x hx w hw).symm
      rw [this]
      have := Finset.sum_range_succ (fun k => power Ω P k x w) N
      rw [Finset.sum_range_succ'] at this
      linarith
    rw [← add_div, ← e1, Finset.sum_div]
    exact Finset.sum_congr rfl fun z _ => by ring
  have hall := hπ q' hstat hsum
  have hqq : q = fun z : Ω => π z := by
    funext z
    have := hall z z.2
    simp only [q', dif_pos z.2] at this
    exact this
  rw [hqq] at hq
  exact hq

/-- Rewards accumulated along the steps. -/
def gained (Ω : Finset α) (P : α → α → ℝ) (c : α → ℝ) : Nat → α → ℝ
  | 0, _ => 0
  | n + 1, x => c x + ∑ z ∈ Ω, P x z * gained Ω P c n z

theorem gained_eq (c : α → ℝ) (n : Nat) : ∀ x ∈ Ω,
    gained Ω P c n x = ∑ y ∈ Ω, (∑ k ∈ Finset.range n, power Ω P k x y) * c y := by
  induction n with
  | zero => intro x _; simp [gained]
  | succ n ih =>
    intro x hx
    have e1 : ∀ y, ∑ k ∈ Finset.range (n + 1), power Ω P k x y =
        (if x = y then 1 else 0) + ∑ z ∈ Ω, P x z * ∑ k ∈ Finset.range n, power Ω P k z y := by
      intro y
      rw [Finset.sum_range_succ', add_comm]
      congr 1
      simp only [power, Finset.mul_sum]
      rw [Finset.sum_comm]
    simp only [e1, add_mul, Finset.sum_add_distrib, gained]
    congr 1
    · simp [hx]
    · simp only [Finset.sum_mul]
      rw [Finset.sum_comm]
      refine Finset.sum_congr rfl fun z hz => ?_
      rw [ih z hz, Finset.mul_sum]
      refine Finset.sum_congr rfl fun y _ => ?_
      rw [Finset.sum_mul, mul_assoc, Finset.sum_mul]

/-- The ratio of two accumulated rewards tends to the ratio of their means over the stationary distribution. -/
theorem gained_ratio (hP : ∀ x ∈ Ω, ∀ y ∈ Ω, 0 ≤ P x y) (hP1 : ∀ x ∈ Ω, ∑ y ∈ Ω, P x y = 1) (π : α → ℝ)
    (hπ : ∀ μ : α → ℝ, (∀ y ∈ Ω, ∑ x ∈ Ω, μ x * P x y = μ y) → ∑ x ∈ Ω, μ x = 1 → ∀ x ∈ Ω, μ x = π x)
    (c d : α → ℝ) (hd : ∑ y ∈ Ω, π y * d y ≠ 0) {x : α} (hx : x ∈ Ω) :
    Tendsto (fun n : Nat => gained Ω P c n x / gained Ω P d n x) atTop
      (𝓝 ((∑ y ∈ Ω, π y * c y) / ∑ y ∈ Ω, π y * d y)) := by
  have key : ∀ c : α → ℝ, Tendsto (fun n : Nat => gained Ω P c n x / n) atTop (𝓝 (∑ y ∈ Ω, π y * c y)) := by
    intro c
    have : ∀ n : Nat, gained Ω P c n x / n =
        ∑ y ∈ Ω, (∑ k ∈ Finset.range n, power Ω P k x y) / n * c y := by
      intro n
      rw [gained_eq c n x hx, Finset.sum_div]
      exact Finset.sum_congr rfl fun y _ => by ring
    simp only [this]
    exact tendsto_finsetSum _ fun y hy => (average_tendsto hP hP1 π hπ hx hy).mul_const _
  refine ((key c).div (key d) hd).congr' ?_
  filter_upwards [eventually_ge_atTop 1] with n hn
  have : (n : ℝ) ≠ 0 := by positivity
  simp only [Pi.div_apply]
  rw [div_div_div_cancel_right₀ this]

end abstract

/-- The mean over the selection number of a quantity that depends on the selected event only. -/
theorem integral_selected (rates : List ℝ) (hnn : ∀ p ∈ rates, 0 ≤ p) (hpos : 0 < rates.sum) (f : ℝ → ℝ)
    (G : Nat → ℝ) (hf : ∀ i, i < rates.length → ∀ r, 0 ≤ r → r < 1 →
      (∀ r2, ∃ dt, propose Rounding.exact (cumsum Rounding.exact rates) r r2 = .ok (i, dt)) → f r = G i) :
    ∫ r in Set.Ico (0 : ℝ) 1, f r = ∑ i ∈ Finset.range rates.length, rates.getD i 0 / rates.sum * G i := by
  let I : Nat → Set ℝ := fun i => Set.Ico ((rates.take i).sum / rates.sum) ((rates.take (i + 1)).sum / rates.sum)
  have hI0 : ∀ i, ∀ r ∈ I i, 0 ≤ r := fun i r hr =>
    le_trans (div_nonneg (List.sum_nonneg fun a ha => hnn a (List.mem_of_mem_take ha)) hpos.le) hr.1
  have hI1 : ∀ i, ∀ r ∈ I i, r < 1 := fun i r hr => by
    refine lt_of_lt_of_le hr.2 ?_
    rw [div_le_one hpos]
    exact List.Sublist.sum_le_sum (List.take_sublist _ _) hnn
  have hsel : ∀ i, i < rates.length → ∀ r, 0 ≤ r → ∀ r2,
      (∃ dt, propose Rounding.exact (cumsum Rounding.exact rates) r r2 = .ok (i, dt)) ↔ r ∈ I i :=
    fun i hi r h0 r2 => C02_selection_interval rates hnn hpos i hi r r2 h0
  have hset : Set.Ico (0 : ℝ) 1 = ⋃ i ∈ Finset.range rates.length, I i := by
    ext r
    simp only [Set.mem_Ico, Set.mem_iUnion, Finset.mem_range, exists_prop]
    constructor
    · rintro ⟨h0, h1⟩
      obtain ⟨i, dt, p, h2, h3, -⟩ := C01_selected_event_allowed Rounding.exact rates (fun _ _ => rfl) hnn
        (exists_pos_of_sum_pos hpos) r 0 h0 h1
      have hil := (List.getElem?_eq_some_iff.1 h3).1
      exact ⟨i, hil, (hsel i hil r h0 0).1 ⟨dt, h2⟩⟩
    · rintro ⟨i, -, hr⟩
      exact ⟨hI0 i r hr, hI1 i r hr⟩
  have hcst : ∀ i ∈ Finset.range rates.length, ∀ r ∈ I i, f r = G i := by
    intro i hi r hr
    rw [Finset.mem_range] at hi
    exact hf i hi r (hI0 i r hr) (hI1 i r hr) fun r2 => (hsel i hi r (hI0 i r hr) r2).2 hr
  rw [hset, integral_biUnion_finset]
  · refine Finset.sum_congr rfl fun i hi => ?_
    rw [setIntegral_congr_fun measurableSet_Ico (hcst i hi)]
    rw [setIntegral_const, smul_eq_mul]
    congr 1
    rw [Finset.mem_range] at hi
    have hsum : (rates.take (i + 1)).sum = (rates.take i).sum + rates.getD i 0 := by
      rw [List.take_add_one, List.getD_eq_getElem?_getD, List.getElem?_eq_getElem hi]
      simp only [List.sum_append, Option.toList_some, List.sum_singleton, Option.getD_some]
    have hp : 0 ≤ rates.getD i 0 := by
      rw [List.getD_eq_getElem?_getD, List.getElem?_eq_getElem hi]
      exact hnn _ (List.getElem_mem hi)
    rw [Measure.real, Real.volume_Ico, ENNReal.toReal_ofReal]
    · rw [hsum]; ring
    · rw [hsum, ← sub_div, add_sub_cancel_left]
      exact div_nonneg hp hpos.le
  · exact fun i _ => measurableSet_Ico
  · intro i hi j hj hij
    simp only [Finset.coe_range, Set.mem_Iio] at hi hj
    simp only [Function.onFun]
    rw [Set.disjoint_left]
    intro r hr hr'
    obtain ⟨d1, p1⟩ := (hsel i hi r (hI0 i r hr) 0).2 hr
    obtain ⟨d2, p2⟩ := (hsel j hj r (hI0 i r hr) 0).2 hr'
    rw [p1] at p2
    cases p2
    exact hij rfl
  · intro i hi
    refine IntegrableOn.congr_fun (f := fun _ => G i) ?_ (fun r hr => (hcst i hi r hr).symm) measurableSet_Ico
    exact integrableOn_const (by simp [I])

section
variable {σ φ ψ K : Type} [Field K] [LinearOrder K] [FloorRing K]
variable {o : ActiveSiteOrder String ψ} {mobile : String} {h : HopStateLookup}
  {m : RateModel Unit ℝ EReal} {g : Geometry K} {lib : EventLib σ φ} {st : State EReal}
  {s0 : Sim σ φ Unit ℝ EReal}

theorem stay_integrable (hs : HopSystem o mobile h Rounding.exact m g lib st)
    {s : Sim σ φ Unit ℝ EReal} (hm : Met o mobile m st s0 s) (hpos : 0 < s.prob.sum) (r1 : ℝ) (h0 : 0 ≤ r1)
    (h1 : r1 < 1) : IntervalIntegrable (fun r2 => stay s r1 r2) volume 0 1 := by
  simp only [stay_eq hs hm hpos r1 h0 h1]
  exact (intervalIntegral.intervalIntegrable_log').const_mul _

/-- The mean over one step of a cost of staying plus a quantity that depends on the next configuration. -/
theorem step_average (hs : HopSystem o mobile h Rounding.exact m g lib st)
    (ha : Answers o mobile m lib.events st.occ)
    (hi : Sim.init (realKernel Rounding.exact) m lib.generateEventDependencies (some h) (some st) = .ok s0)
    {s : Sim σ φ Unit ℝ EReal} (hm : Met o mobile m st s0 s) (hpos : 0 < s.prob.sum)
    (Ω : Finset (List Int)) (hΩ : ∀ s', Next m s s' → s'.st.occ ∈ Ω) (c : ℝ) (F : Sim σ φ Unit ℝ EReal → ℝ)
    (G : List Int → ℝ) (hF : ∀ s', Next m s s' → F s' = G s'.st.occ) :
    ∫ r1 in Set.Ico (0 : ℝ) 1, ∫ r2 in (0 : ℝ)..1, (c * stay s r1 r2 + F (oneStep m s r1 r2)) =
      c * (1 / s.prob.sum) + ∑ y ∈ Ω, flow s0.lib.events s.prob s.st.occ y / s.prob.sum * G y := by
  classical
  have hlen : s.prob.length = s0.lib.events.length := by rw [hm.inv.table.length, hm.inv.lib]
  have hev : ∀ i, i < s.prob.length → ∃ e, s0.lib.events[i]? = some e := by
    intro i hil
    rw [hlen] at hil
    exact ⟨s0.lib.events[i], by simp [hil]⟩
  -- the configuration after event `i`
  have hnext : ∀ i, i < s.prob.length → ∃ y, ∀ e, s0.lib.events[i]? = some e → Leads e s.st.occ y := by
    intro i hil
    obtain ⟨e, he⟩ := hev i hil
    obtain ⟨s', -, -, hl⟩ := met_update hs ha hi hm (List.mem_of_getElem? he) 0
    refine ⟨s'.st.occ, fun e' he' => ?_⟩
    rw [he, Option.some.injEq] at he'
    rw [← he']; exact hl
  choose! Y hY using hnext
  rw [integral_selected s.prob (rates_nonneg hs hm.inv) hpos _ (fun i => c * (1 / s.prob.sum) + G (Y i))]
  · have hone : ∑ i ∈ Finset.range s.prob.length, s.prob.getD i 0 / s.prob.sum = 1 := by
      rw [← Finset.sum_div, sum_getD, div_self hpos.ne']
    simp only [mul_add, Finset.sum_add_distrib]
    congr 1
    · rw [← Finset.sum_mul, hone, one_mul]
    · unfold flow
      simp only [Finset.sum_div, Finset.sum_mul]
      rw [Finset.sum_comm, hlen]
      refine Finset.sum_congr rfl fun i hil => ?_
      rw [Finset.mem_range, ← hlen] at hil
      obtain ⟨e, he⟩ := hev i hil
      rcases (prob_getD_nonneg hs hm i).lt_or_eq with hp | hp
      · obtain ⟨s', hn, hl⟩ := next_of_rate hs ha hi hm he hp
        have hys : Y i = s'.st.occ := leads_unique (hY i hil e he) hl
        rw [Finset.sum_eq_single (Y i)]
        · rw [if_pos ⟨e, he, hY i hil e he⟩]
        · intro y _ hne
          rw [if_neg]
          · simp
          · rintro ⟨e', he', hl'⟩
            exact hne (leads_unique hl' (hY i hil e' he'))
        · intro hno
          rw [hys] at hno
          exact absurd (hΩ s' hn) hno
      · rw [← hp]
        simp
  · intro i hil r1 h0 h1 hsel
    obtain ⟨e, he⟩ := hev i hil
    have hstep : ∀ r2, F (oneStep m s r1 r2) = G (Y i) := by
      intro r2
      obtain ⟨dt, hdt⟩ := hsel r2
      have hprop := (propose_iff (e := e) hm.inv.table.cum).2 ⟨i, hdt, by rw [hm.inv.lib]; exact he⟩
      obtain ⟨s', hu, -, hl⟩ := met_update hs ha hi hm (List.mem_of_getElem? he) dt
      have hone : oneStep m s r1 r2 = s' := by
        unfold oneStep
        rw [hprop]
        simp only [hu]
      rw [hone, hF s' ⟨r1, r2, e, dt, h0, h1, hprop, hu⟩, leads_unique (hY i hil e he) hl]
    simp only [hstep]
    rw [intervalIntegral.integral_add ((stay_integrable hs hm hpos r1 h0 h1).const_mul c) (by simp),
      intervalIntegral.integral_const_mul]
    have := meanStay_eq hs hm hpos r1 h0 h1
    unfold meanStay at this
    rw [this]
    simp

end
end KMC
