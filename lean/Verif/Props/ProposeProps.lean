import Verif.Lemmas.Propose
import Verif.Props.RunProps
import Mathlib.MeasureTheory.Measure.Lebesgue.Basic
/-
C01-C04: event selection and waiting times; the real-time part of C06.
-/
set_option linter.unusedSectionVars false

namespace KMC
open Spec MeasureTheory

/-- C01.  For non-negative rates of which one is positive and a variate in `[0,1)`, the
selection succeeds with an index inside the rate list whose rate is strictly positive.
This holds for every monotone rounding (the rates being representable). -/
theorem C01_selected_event_allowed (R : Rounding) (rates : List ℝ) (hrep : ∀ p ∈ rates, R.Rep p)
    (hnn : ∀ p ∈ rates, 0 ≤ p) (hpos : ∃ p ∈ rates, 0 < p) (r1 r2 : ℝ) (h0 : 0 ≤ r1) (h1 : r1 < 1) :
    ∃ i dt p, propose R (cumsum R rates) r1 r2 = .ok (i, dt) ∧ rates[i]? = some p ∧ 0 < p := by
  obtain ⟨q, hq, hq0⟩ := hpos
  cases ht : (cumsum R rates).getLast? with
  | none =>
    rw [List.getLast?_eq_none_iff] at ht
    have := cumsum_length R rates
    rw [ht] at this
    rw [List.length_eq_zero_iff.1 this.symm] at hq
    simp at hq
  | some tot =>
    have htot : 0 < tot := lt_of_lt_of_le hq0 (total_ge hrep hnn ht hq)
    obtain ⟨p, hp, hp0⟩ := selected_positive hrep hnn ht htot h0 h1
    refine ⟨_, waitingTime R tot r2, p, ?_, hp, hp0⟩
    unfold propose
    rw [ht]
    simp only
    rw [if_neg (ne_of_gt htot)]

/-- C01 on a simulation object: the proposed event is one of the library's events, and its
entry in the rate table is strictly positive. -/
theorem C01_propose_event {σ φ M : Type} (R : Rounding) (s : Sim σ φ M ℝ EReal)
    (hlen : s.prob.length = s.lib.events.length) (hcum : s.cum = cumsum R s.prob)
    (hrep : ∀ p ∈ s.prob, R.Rep p) (hnn : ∀ p ∈ s.prob, 0 ≤ p) (hpos : ∃ p ∈ s.prob, 0 < p)
    (r1 r2 : ℝ) (h0 : 0 ≤ r1) (h1 : r1 < 1) :
    ∃ (i : Nat) (e : Event) (dt : EReal) (p : ℝ), s.propose (realKernel R) r1 r2 = .ok (e, dt) ∧
      s.lib.events[i]? = some e ∧ s.prob[i]? = some p ∧ 0 < p := by
  obtain ⟨i, dt, p, h2, h3, h4⟩ := C01_selected_event_allowed R s.prob hrep hnn hpos r1 r2 h0 h1
  have hi : i < s.lib.events.length := by
    rw [← hlen]; exact (List.getElem?_eq_some_iff.1 h3).1
  refine ⟨i, s.lib.events[i], dt, p, ?_, by simp [hi], h3, h4⟩
  unfold Sim.propose
  simp only [realKernel]
  rw [hcum, h2]
  simp [hi]

/-- C01 for every simulation whose table is fresh (C08 gives this for every reachable
simulation of a local model): the rate that the model computes for the proposed event in
the current state is strictly positive. -/
theorem C01_proposed_rate_positive {σ φ M : Type} (R : Rounding) (m : RateModel M ℝ EReal)
    (s : Sim σ φ M ℝ EReal) (hf : TableFresh (realKernel R) m s)
    (hm : ∀ e p, m.computeProbability s.ms e s.st = .ok p → 0 ≤ p ∧ R.Rep p)
    (hpos : ∃ e ∈ s.lib.events, ∃ p, m.computeProbability s.ms e s.st = .ok p ∧ 0 < p)
    (r1 r2 : ℝ) (h0 : 0 ≤ r1) (h1 : r1 < 1) :
    ∃ e dt p, s.propose (realKernel R) r1 r2 = .ok (e, dt) ∧ e ∈ s.lib.events ∧
      m.computeProbability s.ms e s.st = .ok p ∧ 0 < p := by
  have hall : ∀ p ∈ s.prob, 0 ≤ p ∧ R.Rep p := by
    intro p hp
    obtain ⟨i, hi, rfl⟩ := List.getElem_of_mem hp
    have hi' : i < s.lib.events.length := by rw [← hf.length]; exact hi
    obtain ⟨q, hq, hq'⟩ := hf.fresh i s.lib.events[i] (by simp [hi'])
    simp only [List.getElem?_eq_getElem hi, Option.some.injEq] at hq
    rw [hq]; exact hm _ _ hq'
  have hpos' : ∃ p ∈ s.prob, 0 < p := by
    obtain ⟨e, he, p, hp, hp0⟩ := hpos
    obtain ⟨i, hi, rfl⟩ := List.getElem_of_mem he
    obtain ⟨q, hq, hq'⟩ := hf.fresh i s.lib.events[i] (by simp [hi])
    rw [hp] at hq'; cases hq'
    exact ⟨p, List.mem_of_getElem? hq, hp0⟩
  obtain ⟨i, e, dt, p, a1, a2, a3, a4⟩ := C01_propose_event R s hf.length hf.cum
    (fun p hp => (hall p hp).2) (fun p hp => (hall p hp).1) hpos' r1 r2 h0 h1
  obtain ⟨q, hq, hq'⟩ := hf.fresh i e a2
  rw [a3] at hq; cases hq
  exact ⟨e, dt, p, a1, List.mem_of_getElem? a2, hq', a4⟩

/-- Non-vacuity of C01: a table with forbidden events at both ends. -/
example : ∃ i dt p, propose Rounding.exact (cumsum Rounding.exact [0, 2, 0, 3, 0]) 0 (1 / 2)
    = .ok (i, dt) ∧ [(0 : ℝ), 2, 0, 3, 0][i]? = some p ∧ 0 < p :=
  C01_selected_event_allowed Rounding.exact [0, 2, 0, 3, 0] (fun _ _ => rfl)
    (by intro p hp; simp at hp; rcases hp with rfl | rfl | rfl | rfl | rfl <;> norm_num)
    ⟨2, by simp, by norm_num⟩ 0 (1 / 2) (le_refl _) (by norm_num)

/-- C02.  Event `i` is selected exactly for the variates from (sum of the earlier
rates)/total (included) to (sum of the rates up to and including `i`)/total (excluded). -/
theorem C02_selection_interval (rates : List ℝ) (hnn : ∀ p ∈ rates, 0 ≤ p) (hpos : 0 < rates.sum)
    (i : Nat) (hi : i < rates.length) (r1 r2 : ℝ) (h0 : 0 ≤ r1) :
    (∃ dt, propose Rounding.exact (cumsum Rounding.exact rates) r1 r2 = .ok (i, dt)) ↔
      (rates.take i).sum / rates.sum ≤ r1 ∧ r1 < (rates.take (i + 1)).sum / rates.sum := by
  have hne : rates ≠ [] := by rintro rfl; simp at hi
  have hrep : ∀ p ∈ rates, Rounding.exact.Rep p := fun _ _ => rfl
  unfold propose
  rw [cumsum_exact_last hne]
  simp only
  rw [if_neg (ne_of_gt hpos)]
  have hs := table_sorted hrep hnn hpos
  have hil : i < ((cumsum Rounding.exact rates).map fun c => Rounding.exact.rnd (c / rates.sum)).length := by
    rw [List.length_map, cumsum_length]; exact hi
  have hentry : ∀ j, j < rates.length →
      ((cumsum Rounding.exact rates).map fun c => Rounding.exact.rnd (c / rates.sum))[j]? =
        some ((rates.take (j + 1)).sum / rates.sum) := by
    intro j hj
    rw [List.getElem?_map, cumsum_exact rates hj]; rfl
  have key := searchsortedRight_eq_iff hs r1 hil
  have hval : ((cumsum Rounding.exact rates).map fun c => Rounding.exact.rnd (c / rates.sum))[i]
      = (rates.take (i + 1)).sum / rates.sum := by
    have := hentry i hi
    rw [List.getElem?_eq_getElem hil] at this
    exact Option.some.inj this
  constructor
  · rintro ⟨dt, h⟩
    simp only [Except.ok.injEq, Prod.mk.injEq] at h
    obtain ⟨ha, hb⟩ := key.1 h.1
    rw [hval] at ha
    refine ⟨?_, ha⟩
    cases i with
    | zero => simpa using h0
    | succ j => exact hb j _ (by omega) (hentry j (by omega))
  · rintro ⟨ha, hb⟩
    refine ⟨waitingTime Rounding.exact rates.sum r2, ?_⟩
    rw [key.2 ⟨by rw [hval]; exact hb, ?_⟩]
    intro j x hj hx
    have hxe : x = (rates.take (j + 1)).sum / rates.sum := by
      rw [hentry j (by omega)] at hx; exact (Option.some.inj hx).symm
    rw [hxe]
    refine le_trans ?_ ha
    gcongr
    refine List.Sublist.sum_le_sum (List.take_sublist_take_left (by omega)) ?_
    intro a ha'
    exact hnn a (List.mem_of_mem_take ha')

/-- C02.  The intervals tile `[0,1)`: every variate selects exactly one index. -/
theorem C02_intervals_tile (rates : List ℝ) (hnn : ∀ p ∈ rates, 0 ≤ p) (hpos : 0 < rates.sum)
    (r1 : ℝ) (h0 : 0 ≤ r1) (h1 : r1 < 1) :
    ∃! i, i < rates.length ∧
      (rates.take i).sum / rates.sum ≤ r1 ∧ r1 < (rates.take (i + 1)).sum / rates.sum := by
  have hp : ∃ p ∈ rates, 0 < p := by
    by_contra h
    push Not at h
    have : rates.sum ≤ 0 := by
      clear hpos hnn
      induction rates with
      | nil => simp
      | cons a l ih =>
        have h1 := h a (by simp)
        have h2 := ih fun p hp => h p (by simp [hp])
        simp only [List.sum_cons]; linarith
    linarith
  obtain ⟨i, dt, p, a1, a2, -⟩ := C01_selected_event_allowed Rounding.exact rates
    (fun _ _ => rfl) hnn hp r1 0 h0 h1
  have hi := (List.getElem?_eq_some_iff.1 a2).1
  refine ⟨i, ⟨hi, (C02_selection_interval rates hnn hpos i hi r1 0 h0).1 ⟨dt, a1⟩⟩, ?_⟩
  rintro j ⟨hj, hj'⟩
  obtain ⟨dt', b⟩ := (C02_selection_interval rates hnn hpos j hj r1 0 h0).2 hj'
  rw [a1] at b
  simp only [Except.ok.injEq, Prod.mk.injEq] at b
  exact b.1.symm

/-- C02.  For a uniform variate the probability (Lebesgue measure of the selecting part of
the unit interval) of event `i` is its rate over the total rate. -/
theorem C02_selection_probability (rates : List ℝ) (hnn : ∀ p ∈ rates, 0 ≤ p)
    (hpos : 0 < rates.sum) (i : Nat) (p : ℝ) (hi : rates[i]? = some p) (r2 : ℝ) :
    volume {r1 : ℝ | 0 ≤ r1 ∧ r1 < 1 ∧
      ∃ dt, propose Rounding.exact (cumsum Rounding.exact rates) r1 r2 = .ok (i, dt)} =
      ENNReal.ofReal (p / rates.sum) := by
  obtain ⟨hl, hp⟩ := List.getElem?_eq_some_iff.1 hi
  have hsum : (rates.take (i + 1)).sum = (rates.take i).sum + p := by
    rw [List.take_add_one, hi]; simp
  have hle : (rates.take (i + 1)).sum ≤ rates.sum :=
    List.Sublist.sum_le_sum (List.take_sublist _ _) hnn
  have h0 : 0 ≤ (rates.take i).sum := List.sum_nonneg fun a ha => hnn a (List.mem_of_mem_take ha)
  have hset : {r1 : ℝ | 0 ≤ r1 ∧ r1 < 1 ∧
      ∃ dt, propose Rounding.exact (cumsum Rounding.exact rates) r1 r2 = .ok (i, dt)} =
      Set.Ico ((rates.take i).sum / rates.sum) ((rates.take (i + 1)).sum / rates.sum) := by
    ext r
    simp only [Set.mem_ofPred_eq, Set.mem_Ico]
    constructor
    · rintro ⟨ha, hb, hc⟩
      exact (C02_selection_interval rates hnn hpos i hl r r2 ha).1 hc
    · rintro ⟨ha, hb⟩
      have hr0 : 0 ≤ r := le_trans (div_nonneg h0 hpos.le) ha
      refine ⟨hr0, lt_of_lt_of_le hb ((div_le_one hpos).2 hle), ?_⟩
      exact (C02_selection_interval rates hnn hpos i hl r r2 hr0).2 ⟨ha, hb⟩
  rw [hset, Real.volume_Ico, hsum]
  congr 1
  ring

/-- Non-vacuity of C02: rates 1 and 3 are selected with probabilities 1/4 and 3/4. -/
example : volume {r1 : ℝ | 0 ≤ r1 ∧ r1 < 1 ∧
    ∃ dt, propose Rounding.exact (cumsum Rounding.exact [1, 3]) r1 0 = .ok (1, dt)} =
    ENNReal.ofReal (3 / 4) := by
  have := C02_selection_probability [1, 3]
    (by intro p hp; simp at hp; rcases hp with rfl | rfl <;> norm_num) (by norm_num) 1 3 rfl 0
  simpa [show (1 : ℝ) + 3 = 4 by norm_num] using this

/-- C03.  With any monotone rounding, a positive total rate and a variate in `(0,1]`, the
waiting time is a non-negative number. -/
theorem C03_waiting_time_nonneg (R : Rounding) (K u : ℝ) (hK : 0 < K) (h0 : 0 < u) (h1 : u ≤ 1) :
    ∃ t : ℝ, waitingTime R K u = (t : EReal) ∧ 0 ≤ t := by
  refine ⟨_, by unfold waitingTime; rw [if_neg (ne_of_gt h0)], ?_⟩
  have e1 : R.rnd (-1 / K) ≤ 0 := by
    rw [← R.zero]
    exact R.mono (div_nonpos_of_nonpos_of_nonneg (by norm_num) hK.le)
  have e2 : R.rnd (Real.log u) ≤ 0 := by
    rw [← R.zero]; exact R.mono (Real.log_nonpos h0.le h1)
  calc (0 : ℝ) = R.rnd 0 := R.zero.symm
    _ ≤ _ := R.mono (mul_nonneg_of_nonpos_of_nonpos e1 e2)

/-- C03.  In exact arithmetic the waiting time is positive unless `u = 1`. -/
theorem C03_waiting_time_pos (K u : ℝ) (hK : 0 < K) (h0 : 0 < u) (h1 : u < 1) :
    0 < waitingTime Rounding.exact K u := by
  unfold waitingTime
  rw [if_neg (ne_of_gt h0)]
  have := Real.log_neg h0 h1
  have e : (0 : ℝ) < -1 / K * Real.log u :=
    mul_pos_of_neg_of_neg (div_neg_of_neg_of_pos (by norm_num) hK) this
  exact_mod_cast e

/-- C03.  The waiting time proposed for rates with positive total exceeds `t` exactly when
the variate is below `exp (-total * t)`: the exponential law of the total rate. -/
theorem C03_waiting_time_law (rates : List ℝ) (hpos : 0 < rates.sum)
    (r1 u t : ℝ) (h0 : 0 < u) (i : Nat) (dt : EReal)
    (h : propose Rounding.exact (cumsum Rounding.exact rates) r1 u = .ok (i, dt)) :
    (t : EReal) < dt ↔ u < Real.exp (-(rates.sum * t)) := by
  have hne : rates ≠ [] := by rintro rfl; simp at hpos
  unfold propose at h
  rw [cumsum_exact_last hne] at h
  simp only at h
  rw [if_neg (ne_of_gt hpos)] at h
  simp only [Except.ok.injEq, Prod.mk.injEq] at h
  rw [← h.2]
  unfold waitingTime
  rw [if_neg (ne_of_gt h0), EReal.coe_lt_coe_iff]
  simp only [Rounding.exact, id]
  rw [← Real.log_lt_iff_lt_exp h0]
  rw [show -1 / rates.sum * Real.log u = (-Real.log u) / rates.sum by ring, lt_div_iff₀ hpos]
  constructor <;> intro h <;> linarith

/-- C03.  For a uniform variate in `(0,1)`, the probability that the waiting time exceeds
`t ≥ 0` is `exp (-total * t)`. -/
theorem C03_waiting_time_probability (rates : List ℝ) (hpos : 0 < rates.sum) (r1 t : ℝ)
    (ht : 0 ≤ t) :
    volume {u : ℝ | 0 < u ∧ u < 1 ∧ ∃ i dt, (t : EReal) < dt ∧
      propose Rounding.exact (cumsum Rounding.exact rates) r1 u = .ok (i, dt)} =
      ENNReal.ofReal (Real.exp (-(rates.sum * t))) := by
  have hne : rates ≠ [] := by rintro rfl; simp at hpos
  have hle : Real.exp (-(rates.sum * t)) ≤ 1 :=
    Real.exp_le_one_iff.2 (by nlinarith)
  have hset : {u : ℝ | 0 < u ∧ u < 1 ∧ ∃ i dt, (t : EReal) < dt ∧
      propose Rounding.exact (cumsum Rounding.exact rates) r1 u = .ok (i, dt)} =
      Set.Ioo 0 (Real.exp (-(rates.sum * t))) := by
    ext u
    simp only [Set.mem_ofPred_eq, Set.mem_Ioo]
    constructor
    · rintro ⟨h0, h1, i, dt, h2, h3⟩
      exact ⟨h0, (C03_waiting_time_law rates hpos r1 u t h0 i dt h3).1 h2⟩
    · rintro ⟨h0, h1⟩
      have hex : ∃ i dt, propose Rounding.exact (cumsum Rounding.exact rates) r1 u = .ok (i, dt) := by
        unfold propose
        rw [cumsum_exact_last hne]
        simp only
        rw [if_neg (ne_of_gt hpos)]
        exact ⟨_, _, rfl⟩
      obtain ⟨i, dt, h3⟩ := hex
      exact ⟨h0, lt_of_lt_of_le h1 hle, i, dt,
        (C03_waiting_time_law rates hpos r1 u t h0 i dt h3).2 h1, h3⟩
  rw [hset, Real.volume_Ioo, sub_zero]

/-- C03, the excluded variate: numpy's uniform variates include 0, and then the waiting
time is infinite, whatever the rates. -/
theorem C03_zero_variate_infinite (R : Rounding) (K : ℝ) : waitingTime R K 0 = ⊤ := by
  simp [waitingTime]

/-- Non-vacuity of C03. -/
example : ∃ i dt, propose Rounding.exact (cumsum Rounding.exact [1, 3]) 0 (1 / 2) = .ok (i, dt) ∧
    0 < dt := by
  obtain ⟨i, dt, p, h, -, -⟩ := C01_selected_event_allowed Rounding.exact [1, 3] (fun _ _ => rfl)
    (by intro p hp; simp at hp; rcases hp with rfl | rfl <;> norm_num) ⟨1, by simp, by norm_num⟩
    0 (1 / 2) (le_refl _) (by norm_num)
  refine ⟨i, dt, h, ?_⟩
  have := (C03_waiting_time_law [1, 3] (by norm_num) 0 (1 / 2) 0 (by norm_num) i dt h).2
    (by norm_num)
  simpa using this

/-- C04.  If every rate is zero (or there is no event at all), proposing raises. -/
theorem C04_frozen_raises (R : Rounding) (rates : List ℝ) (h : ∀ p ∈ rates, p = 0) (r1 r2 : ℝ) :
    ∃ x, propose R (cumsum R rates) r1 r2 = .error x := by
  unfold propose
  cases ht : (cumsum R rates).getLast? with
  | none => exact ⟨_, rfl⟩
  | some tot =>
    have : tot = 0 := cumsum_all_zero R rates h tot (List.mem_of_getLast? ht)
    simp only
    rw [if_pos this]
    exact ⟨_, rfl⟩

section
variable {σ φ M : Type} {K V Row : Type} [Field K] [LinearOrder K] [FloorRing K]

/-- C04.  A run of a frozen system that has to make at least one step stops with an
exception, and the simulation (state, rates, model caches) is what it was. -/
theorem C04_frozen_run_stops (R : Rounding) (m : RateModel M ℝ EReal) (g : Geometry K)
    (lookup : Option HopStateLookup) (summary : Trajectory K → EReal → List (String × Bool) → Row)
    (plan : PropertyPlan EReal V) (rng : Nat → ℝ × ℝ) (len equil prod : Nat)
    (s : Sim σ φ M ℝ EReal) (hcum : s.cum = cumsum R s.prob) (hz : ∀ p ∈ s.prob, p = 0)
    (hsteps : 0 < (equil + prod) * len) :
    ∃ x, (s.run (realKernel R) m g lookup summary plan rng len equil prod).outcome = .error x ∧
      (s.run (realKernel R) m g lookup summary plan rng len equil prod).sim = s := by
  have hprop : ∀ r1 r2, ∃ x, s.propose (realKernel R) r1 r2 = .error x := by
    intro r1 r2
    obtain ⟨x, hx⟩ := C04_frozen_raises R s.prob hz r1 r2
    refine ⟨x, ?_⟩
    unfold Sim.propose
    simp only [realKernel]
    rw [hcum, hx]
  have heq : ∀ n c, s.equilSteps (realKernel R) m rng n c = (.ok (), s) ∧ n = 0 ∨
      ∃ x, s.equilSteps (realKernel R) m rng n c = (.error x, s) := by
    intro n c
    cases n with
    | zero => exact .inl ⟨rfl, rfl⟩
    | succ n =>
      obtain ⟨x, hx⟩ := hprop (rng c).1 (rng c).2
      refine .inr ⟨x, ?_⟩
      simp only [Sim.equilSteps, Sim.equilStep, hx]
  have hpr : ∀ n c (rs : RunState σ φ M ℝ EReal K V Row), rs.sim = s → 0 < n →
      ∃ x, rs.prodSteps (realKernel R) m g summary rng n c = (.error x, rs) := by
    intro n c rs hs hn
    obtain ⟨n, rfl⟩ : ∃ k, n = k + 1 := ⟨n - 1, by omega⟩
    obtain ⟨x, hx⟩ := hprop (rng c).1 (rng c).2
    refine ⟨x, ?_⟩
    simp only [RunState.prodSteps, RunState.prodStep, hs, hx]
  simp only [Sim.run]
  rcases heq (equil * len) 0 with ⟨h, h0⟩ | ⟨x, h⟩
  · rw [h]
    simp only
    cases Trajectory.init g lookup s.st.occ with
    | error x => exact ⟨x, rfl, rfl⟩
    | ok traj =>
      simp only
      rcases ({} : Sampler EReal V Row).applyPropertyPlan plan (some (max len 1 : Nat)) with ⟨r3, sm⟩
      cases r3 with
      | error x => exact ⟨x, rfl, rfl⟩
      | ok u3 =>
        simp only
        have hm : (equil + prod) * len = equil * len + prod * len := by ring
        have hp : 0 < prod * len := by omega
        have hlen : 0 < len := Nat.pos_of_mul_pos_left hp
        obtain ⟨p, rfl⟩ : ∃ k, prod = k + 1 :=
          ⟨prod - 1, by have := Nat.pos_of_mul_pos_right hp; omega⟩
        obtain ⟨x, hx⟩ := hpr len (equil * len) { sim := s, traj := traj, sampler := sm } rfl hlen
        simp only [RunState.passes, hx]
        exact ⟨x, rfl, trivial⟩
  · rw [h]; exact ⟨x, rfl, rfl⟩

/-- Non-vacuity of C04: one event with rate zero. -/
example : ∃ s : Sim Unit Unit Unit ℝ EReal, s.cum = cumsum Rounding.exact s.prob ∧
    (∀ p ∈ s.prob, p = 0) ∧ s.lib.events.length = 1 ∧ 0 < (1 + 2) * 4 :=
  ⟨{ lib := toyLib, st := ⟨[0, 0], 0, 0⟩, ms := (), prob := [0], cum := [0] }, rfl, by simp, rfl,
    by norm_num⟩

theorem recompute_all {M R T : Type} {m : RateModel M R T} {events : List Event} {ms : M}
    {st : State T} {P : R → Prop} (hP : ∀ e p, m.computeProbability ms e st = .ok p → P p)
    (is : List Int) (prob : List R) (h : ∀ p ∈ prob, P p) :
    ∀ p ∈ (recompute m events ms st is prob).2, P p := by
  induction is generalizing prob with
  | nil => exact h
  | cons i is ih =>
    simp only [recompute]
    cases pyGet events i with
    | error x => exact h
    | ok e =>
      simp only
      cases h1 : m.computeProbability ms e st with
      | error x => exact h
      | ok p =>
        simp only
        cases h2 : pySet prob i p with
        | error x => exact h
        | ok prob' =>
          refine ih prob' ?_
          unfold pySet at h2
          split at h2
          · cases h2
          · cases h2
            intro q hq
            rcases List.mem_or_eq_of_mem_set hq with hq | rfl
            · exact h q hq
            · exact hP _ _ h1

/-- C06.  With the real event-selection arithmetic (any monotone rounding), a model whose
rates are non-negative, and variates in `[0,1)`, time never decreases over a run, whether
the run finishes or is stopped by an exception. -/
theorem C06_time_never_decreases (R : Rounding) (m : RateModel M ℝ EReal)
    (hm : ∀ ms e st p, m.computeProbability ms e st = .ok p → 0 ≤ p ∧ R.Rep p) (g : Geometry K)
    (lookup : Option HopStateLookup) (summary : Trajectory K → EReal → List (String × Bool) → Row)
    (plan : PropertyPlan EReal V) (rng : Nat → ℝ × ℝ)
    (hrng : ∀ c, (0 ≤ (rng c).1 ∧ (rng c).1 < 1) ∧ 0 ≤ (rng c).2 ∧ (rng c).2 < 1)
    (len equil prod : Nat) (lib : EventLib σ φ) (st : State EReal)
    (s : Sim σ φ M ℝ EReal) (hinit : Sim.init (realKernel R) m lib lookup (some st) = .ok s) :
    st.time ≤ (s.run (realKernel R) m g lookup summary plan rng len equil prod).sim.st.time := by
  obtain ⟨i1, -, -, -, -, -, -, hf⟩ := init_ok hinit
  cases i1
  refine time_never_decreases (T := EReal) le_refl (fun _ _ _ => le_trans)
    (fun t dt h => le_add_of_nonneg_right h) (realKernel R) m
    (fun s => s.cum = cumsum R s.prob ∧ ∀ p ∈ s.prob, 0 ≤ p ∧ R.Rep p) ?_ g lookup summary plan
    rng ?_ len equil prod s ?_
  · rintro s e dt s' ⟨h1, h2⟩ h
    obtain ⟨st, ms, i, prob, -, -, -, h3, rfl⟩ := update_ok h
    refine ⟨rfl, ?_⟩
    have := recompute_all (m := m) (events := s.lib.events) (ms := ms) (st := st) (P := fun p => 0 ≤ p ∧ R.Rep p)
      (fun e p hp => hm _ _ _ _ hp) (s.lib.getDependentEvents i) s.prob h2
    rw [h3] at this
    exact this
  · rintro s c e dt ⟨h1, h2⟩ hp
    unfold Sim.propose at hp
    simp only [realKernel] at hp
    rw [h1] at hp
    unfold propose at hp
    cases ht : (cumsum R s.prob).getLast? with
    | none => rw [ht] at hp; cases hp
    | some tot =>
      rw [ht] at hp
      simp only at hp
      by_cases h0 : tot = 0
      · rw [if_pos h0] at hp; cases hp
      · rw [if_neg h0] at hp
        simp only at hp
        split at hp
        · cases hp
        · cases hp
          have htn : 0 ≤ tot := by
            rw [List.getLast?_eq_getElem?] at ht
            exact (cumsum_rep (fun p hp => (h2 p hp).2) (fun p hp => (h2 p hp).1) ht).2
          have htp : 0 < tot := lt_of_le_of_ne htn (Ne.symm h0)
          rcases eq_or_lt_of_le (hrng c).2.1 with hu | hu
          · rw [← hu, C03_zero_variate_infinite]; exact le_top
          · obtain ⟨t, ht1, ht2⟩ := C03_waiting_time_nonneg R tot _ htp hu (hrng c).2.2.le
            rw [ht1]; exact_mod_cast ht2
  · refine ⟨hf.cum, ?_⟩
    intro p hp
    obtain ⟨i, hi, rfl⟩ := List.getElem_of_mem hp
    have hi' : i < s.lib.events.length := by rw [← hf.length]; exact hi
    obtain ⟨q, hq, hq'⟩ := hf.fresh i s.lib.events[i] (by simp [hi'])
    simp only [List.getElem?_eq_getElem hi, Option.some.injEq] at hq
    rw [hq]; exact hm _ _ _ _ hq'

end
end KMC
