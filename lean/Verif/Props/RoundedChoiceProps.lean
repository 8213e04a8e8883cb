import Verif.Lemmas.RoundedRun
import Verif.Props.ClockProps
/-
C124: what rounding does to the choice of events, the waiting times and whole runs.
-/
namespace KMC
open Spec MeasureTheory ProbabilityTheory

section
variable (R : Rounding) (u : ℝ) (hu : Accurate R u) (hu1 : u ≤ 1) (rates : List ℝ)
  (hr : ∀ p ∈ rates, 0 ≤ p ∧ R.Rep p) (hpos : ∃ p ∈ rates, 0 < p)
include hu hu1 hr hpos

/-- C124.  The probability of an event, in floating-point arithmetic, is its rate over the sum of the rates up to
`4 * n * u`, with `n` the number of events. -/
theorem C124_probability_error (i : Nat) (p : ℝ) (hi : rates[i]? = some p) :
    ∃ P : ℝ, 0 ≤ P ∧ volume {r1 : ℝ | 0 ≤ r1 ∧ r1 < 1 ∧ Picks R rates r1 i} = ENNReal.ofReal P ∧
      |P - p / rates.sum| ≤ 4 * rates.length * u := by
  obtain ⟨hl, hp⟩ := List.getElem?_eq_some_iff.1 hi
  have hsum := sum_pos_of (fun p hp => (hr p hp).1) hpos
  have hu0 := accurate_nonneg hu
  refine ⟨_, ?_, picks_volume hr hpos i hl, ?_⟩
  · split
    · rw [sub_zero]; exact (edge_range hr hpos hl).1
    · exact sub_nonneg.2 (edge_mono hr hpos (by omega) hl)
  · have h1 := abs_le.1 (edge_error hu hu1 hr hpos hl)
    have e1 := edge_exact hsum hl
    have htake : (rates.take (i + 1)).sum = (rates.take i).sum + p := by
      rw [List.take_add_one, hi]
      simp
    rw [htake, add_div] at e1
    have hnu : 0 ≤ (rates.length : ℝ) * u := by positivity
    rw [abs_le]
    split
    · rename_i h0
      subst h0
      simp only [List.take_zero, List.sum_nil, zero_div, zero_add] at e1
      rw [e1] at h1
      constructor <;> linarith [h1.1, h1.2]
    · rename_i h0
      have h2 := abs_le.1 (edge_error hu hu1 hr hpos (i := i - 1) (by omega))
      have e2 := edge_exact hsum (i := i - 1) (by omega)
      rw [show i - 1 + 1 = i by omega] at e2
      rw [e1] at h1
      rw [e2] at h2
      constructor <;> linarith [h1.1, h1.2, h2.1, h2.2]

/-- C124.  The random numbers for which floating-point arithmetic does not choose the event that exact arithmetic
chooses have at most the probability `2 * n² * u`. -/
theorem C124_same_choice : ∃ B : Set ℝ, volume B ≤ ENNReal.ofReal (2 * rates.length ^ 2 * u) ∧
    ∀ r1, 0 ≤ r1 → r1 < 1 → r1 ∉ B → ∀ i, Picks R rates r1 i ↔ Picks Rounding.exact rates r1 i :=
  ⟨between R rates, between_volume hu hu1 hr hpos, fun _ _ h1 hb i => picks_same hr hpos h1 hb i⟩

/-- C124.  Whatever events are chosen, the waiting time in floating-point arithmetic is the exact one up to one
rounding for each event and three more. -/
theorem C124_wait (r1 r2 : ℝ) (h0 : 0 < r2) (h1 : r2 < 1) (i j : Nat) (w w' : EReal)
    (h : propose R (cumsum R rates) r1 r2 = .ok (i, w))
    (h' : propose Rounding.exact (cumsum Rounding.exact rates) r1 r2 = .ok (j, w')) :
    ∃ x y : ℝ, w = (x : EReal) ∧ w' = (y : EReal) ∧ y = -Real.log r2 / rates.sum ∧
      WithinFactor ((1 - u) ^ (rates.length + 2)) x y := by
  obtain ⟨tot, ht, -, hp⟩ := picks_propose ⟨r2, w, h⟩ r2
  obtain ⟨tot', ht', -, hp'⟩ := picks_propose ⟨r2, w', h'⟩ r2
  rw [h] at hp
  rw [h'] at hp'
  obtain ⟨-, rfl⟩ := Prod.mk.inj (Except.ok.inj hp)
  obtain ⟨-, rfl⟩ := Prod.mk.inj (Except.ok.inj hp')
  have hne : rates ≠ [] := by
    obtain ⟨p, hp, -⟩ := hpos
    exact List.ne_nil_of_mem hp
  rw [cumsum_exact_last hne] at ht'
  obtain rfl := Option.some.inj ht'
  obtain ⟨x, y, hx, hy, -, -, -, hw⟩ := wait_within hu hu1 hr hpos ht h0 h1
  refine ⟨x, y, hx, hy, ?_, hw⟩
  have : waitingTime Rounding.exact rates.sum r2 = ((-1 / rates.sum * Real.log r2 : ℝ) : EReal) := by
    unfold waitingTime
    rw [if_neg h0.ne']
    rfl
  rw [this] at hy
  rw [← EReal.coe_eq_coe_iff.1 hy]
  ring

end

section
variable {σ φ M : Type}

theorem init_beside {R : Rounding} {m : RateModel M ℝ (FloatTime R)} {m' : RateModel M ℝ EReal} (hm : IgnoresClock m m')
    (hr : ∀ ms e st p, m'.computeProbability ms e st = .ok p → 0 ≤ p ∧ R.Rep p) {lookup : Option HopStateLookup}
    {lib : EventLib σ φ} {occ : List Int} {step : Int} {t0 : ℝ} (ht0 : 0 ≤ t0) (hrep : R.Rep t0)
    {s : Sim σ φ M ℝ (FloatTime R)} {s' : Sim σ φ M ℝ EReal}
    (hinit : Sim.init (onClock R (realKernel R)) m lib lookup (some ⟨occ, .of R (t0 : EReal), step⟩) = .ok s)
    (hinit' : Sim.init (realKernel Rounding.exact) m' lib lookup (some ⟨occ, (t0 : EReal), step⟩) = .ok s') :
    Beside R s s' ∧ s'.prob.length = s'.lib.events.length ∧ TimesWithin R 1 s.st.time s'.st.time := by
  have hg : ∀ p ∈ s'.prob, 0 ≤ p ∧ R.Rep p := by
    obtain ⟨-, -, -, -, -, -, -, hf⟩ := init_ok hinit'
    intro p hp
    obtain ⟨i, hi, rfl⟩ := List.getElem_of_mem hp
    have hi' : i < s'.lib.events.length := by rw [← hf.length]; exact hi
    obtain ⟨q, hq, hq'⟩ := hf.fresh i s'.lib.events[i] (by simp [hi'])
    simp only [List.getElem?_eq_getElem hi, Option.some.injEq] at hq
    rw [hq]; exact hr _ _ _ _ hq'
  obtain ⟨i1, -, -, -, -, -, -, hf⟩ := init_ok hinit
  obtain ⟨i1', -, -, -, -, -, -, hf'⟩ := init_ok hinit'
  have hst : s.st = ⟨occ, .of R (t0 : EReal), step⟩ := (Option.some.inj i1).symm
  have hst' : s'.st = ⟨occ, (t0 : EReal), step⟩ := (Option.some.inj i1').symm
  have q := init_sameConfiguration hm (st := ⟨occ, .of R (t0 : EReal), step⟩) (st' := ⟨occ, (t0 : EReal), step⟩) rfl rfl
    hinit hinit'
  refine ⟨⟨q, hf.cum, hf'.cum, hg⟩, hf'.length, t0, t0, ?_, ?_, ht0, ht0, WithinFactor.refl t0⟩
  · rw [hst]
    show roundTime R (t0 : EReal) = _
    rw [roundTime_coe, show R.rnd t0 = t0 from hrep]
  · rw [hst']

variable (R : Rounding) (u : ℝ) (hu : Accurate R u) (hu1 : u ≤ 1)
  (m : RateModel M ℝ (FloatTime R)) (m' : RateModel M ℝ EReal) (hm : IgnoresClock m m')
  (hr : ∀ ms e st p, m'.computeProbability ms e st = .ok p → 0 ≤ p ∧ R.Rep p)
  (lookup : Option HopStateLookup) (lib : EventLib σ φ) (occ : List Int) (step : Int) (t0 : ℝ) (ht0 : 0 ≤ t0)
  (hrep : R.Rep t0) (s : Sim σ φ M ℝ (FloatTime R)) (s' : Sim σ φ M ℝ EReal)
  (hinit : Sim.init (onClock R (realKernel R)) m lib lookup (some ⟨occ, .of R (t0 : EReal), step⟩) = .ok s)
  (hinit' : Sim.init (realKernel Rounding.exact) m' lib lookup (some ⟨occ, (t0 : EReal), step⟩) = .ok s')
  {Θ : Type} [MeasurableSpace Θ] {μ : Measure Θ} [IsProbabilityMeasure μ] {U : Nat → Θ → ℝ × ℝ}
  (hU : RandomNumbers μ U)
include hu hu1 hm hr ht0 hrep hinit hinit' hU

/-- C124.  A simulation in floating-point arithmetic and one in exact arithmetic are given the same random numbers.
With probability at least `1 - N * 2 * n² * u` (`N` steps, `n` events) the first makes all of the `N` steps that
the second makes, with the same hops, and the clocks agree up to `n + 2 + N` roundings. -/
theorem C124_same_hops (N : Nat) :
    μ {ω | ∃ hist' s1', hist'.length = N ∧
      Steps (realKernel Rounding.exact) m' (fun k => U k ω) true 0 s' hist' s1' ∧
      ¬ ∃ hist s1, Steps (onClock R (realKernel R)) m (fun k => U k ω) true 0 s hist s1 ∧
        hist.map (·.1) = hist'.map (·.1) ∧ SameConfiguration s1 s1' ∧
        ∃ t t' : ℝ, s1.st.time.val = (t : EReal) ∧ s1'.st.time = (t' : EReal) ∧
          WithinFactor ((1 - u) ^ (s'.lib.events.length + 2 + N)) t t'} ≤
      N * ENNReal.ofReal (2 * s'.lib.events.length ^ 2 * u) := by
  obtain ⟨hb, hl, ht⟩ := init_beside hm hr ht0 hrep hinit hinit'
  obtain ⟨B, -, b2, b3⟩ := agrees_likely hu hu1 (ignoresClock_exact hm) hr hU N s'.lib.events.length 0 s' hb.cum' hb.rates hl
  refine le_trans (measure_mono_ae ?_) b2
  filter_upwards [b3] with ω h1
  rintro ⟨hist', s1', h2, h3, h4⟩
  by_contra hB
  refine h4 ?_
  have hu0 := accurate_nonneg hu
  have ht' : TimesWithin R ((1 - u) ^ (s'.prob.length + 2 + 0)) s.st.time s'.st.time := by
    obtain ⟨x, y, hx, hy, x0, y0, w⟩ := ht
    exact ⟨x, y, hx, hy, x0, y0, w.weaken (pow_le_one₀ (by linarith) (by linarith)) x0 y0⟩
  obtain ⟨hist, s1, k1, k2, k3, x, y, hx, hy, -, -, w⟩ := steps_beside (m := m) hu hu1 hm hr h3 s 0 hb
    (by rw [h2]; exact h1 hB) ht'
  rw [hl, h2, Nat.zero_add] at w
  exact ⟨hist, s1, k1, k2, k3.same, x, y, hx, hy, w⟩

variable {K V Row V' Row' : Type} [Field K] [LinearOrder K] [FloorRing K] (g : Geometry K)
  (summary : Trajectory K → FloatTime R → List (String × Bool) → Row)
  (summary' : Trajectory K → EReal → List (String × Bool) → Row') (plan : PropertyPlan (FloatTime R) V)
  (plan' : PropertyPlan EReal V')

/-- C124.  The same for whole runs, with equilibration and tracker: two runs that finish report the same
displacements, with at least the probability `1 - (equil + prod) * len * 2 * n² * u`, and the clocks agree up to
`n + 2 + prod * len` roundings. -/
theorem C124_same_run (len equil prod : Nat) :
    μ {ω | (s.run (onClock R (realKernel R)) m g lookup summary plan (fun k => U k ω) len equil prod).outcome = .ok () ∧
      (s'.run (realKernel Rounding.exact) m' g lookup summary' plan' (fun k => U k ω) len equil prod).outcome = .ok () ∧
      ¬ ∃ rs rs',
        (s.run (onClock R (realKernel R)) m g lookup summary plan (fun k => U k ω) len equil prod).tracker = some rs ∧
        (s'.run (realKernel Rounding.exact) m' g lookup summary' plan' (fun k => U k ω) len equil prod).tracker = some rs' ∧
        SameConfiguration rs.sim rs'.sim ∧ rs.traj = rs'.traj ∧
        ∃ t t' : ℝ, rs.sim.st.time.val = (t : EReal) ∧ rs'.sim.st.time = (t' : EReal) ∧
          WithinFactor ((1 - u) ^ (s'.lib.events.length + 2 + prod * len)) t t'} ≤
      ((equil + prod) * len : Nat) * ENNReal.ofReal (2 * s'.lib.events.length ^ 2 * u) := by
  obtain ⟨hb, hl, ht⟩ := init_beside hm hr ht0 hrep hinit hinit'
  obtain ⟨B, -, b2, b3⟩ := agrees_likely hu hu1 (ignoresClock_exact hm) hr hU ((equil + prod) * len)
    s'.lib.events.length 0 s' hb.cum' hb.rates hl
  refine le_trans (measure_mono_ae ?_) b2
  filter_upwards [b3] with ω h1
  rintro ⟨h, h', h4⟩
  by_contra hB
  refine h4 ?_
  have hu0 := accurate_nonneg hu
  have ha := h1 hB
  rw [show (equil + prod) * len = equil * len + prod * len by ring] at ha
  obtain ⟨s1, traj, sampler, rs, a1, a2, -, a4, a5⟩ := run_ok h
  obtain ⟨s1', traj', sampler', rs', c1, c2, -, c4, c5⟩ := run_ok h'
  obtain ⟨q1, q2, q3, q4, q5⟩ := equilSteps_beside hu hu1 hm hr hb ha a1 c1
  rw [q1.same.occ, c2] at a2
  have htr : traj = traj' := (Except.ok.inj a2).symm
  have ht' : TimesWithin R ((1 - u) ^ (s1'.prob.length + 2 + 0)) s1.st.time s1'.st.time := by
    rw [q3, q4]
    obtain ⟨x, y, hx, hy, x0, y0, w⟩ := ht
    exact ⟨x, y, hx, hy, x0, y0, w.weaken (pow_le_one₀ (by linarith) (by linarith)) x0 y0⟩
  rw [Nat.zero_add] at q2
  obtain ⟨z1, z2, x, y, hx, hy, -, -, w⟩ := passes_beside hu hu1 hm hr
    (s := { sim := s1, traj := traj, sampler := sampler }) (s' := { sim := s1', traj := traj', sampler := sampler' })
    q1 q2 htr ht' a4 c4
  rw [a5, c5]
  simp only [q5, hl, Nat.zero_add] at w
  exact ⟨rs, rs', rfl, rfl, z1, z2, x, y, hx, hy, w⟩

end

/-- C124, negative result.  With `p` significant bits an event is never chosen, whatever the random number, when an
event before it has a rate `2⁽ᵖ⁺¹⁾` times as large. -/
theorem C124_rare_event_never_chosen (p : ℕ) (hp : 1 ≤ p) (rates : List ℝ)
    (hr : ∀ x ∈ rates, 0 ≤ x ∧ (Rounding.binary p hp).Rep x) (j i : Nat) (hij : j < i) (fast slow : ℝ)
    (hj : rates[j]? = some fast) (hi : rates[i]? = some slow) (hpos : 0 < fast) (hslow : slow ≤ fast * (1 / 2) ^ (p + 1)) :
    ∀ r1, ¬ Picks (.binary p hp) rates r1 i := by
  intro r1 hpk
  have hrep : ∀ x ∈ rates, (Rounding.binary p hp).Rep x := fun x hx => (hr x hx).2
  have hnn : ∀ x ∈ rates, 0 ≤ x := fun x hx => (hr x hx).1
  obtain ⟨hil, -⟩ := List.getElem?_eq_some_iff.1 hi
  have hex : ∃ x ∈ rates, 0 < x := ⟨fast, List.mem_of_getElem? hj, hpos⟩
  rw [picks_iff hr hex i hil] at hpk
  obtain ⟨h1, h2⟩ := hpk
  have h3 := h2 (i - 1) (by omega)
  obtain ⟨c, hc⟩ := cumsum_get (.binary p hp) (ps := rates) (i := i - 1) (by omega)
  obtain ⟨d, hd⟩ := cumsum_get (.binary p hp) (ps := rates) (i := j) (by omega)
  have hfd : fast ≤ d := rate_le_cumsum hrep hnn hd hj
  have hdc : d ≤ c := cumsum_le_of_le hrep hnn (by omega) hd hc
  have hcr := (cumsum_rep hrep hnn hc).1
  have hnext : (cumsum (.binary p hp) rates)[i - 1 + 1]? = some c := by
    rw [cumsum_succ _ hc (by rw [show i - 1 + 1 = i by omega]; exact hi)]
    congr 1
    refine binaryRnd_absorbs hp (by linarith) hcr (hnn _ (List.mem_of_getElem? hi)) (hslow.trans ?_)
    exact mul_le_mul_of_nonneg_right (by linarith) (by positivity)
  rw [show i - 1 + 1 = i by omega] at hnext
  have he : edge (.binary p hp) rates i = edge (.binary p hp) rates (i - 1) := by
    unfold edge
    rw [hnext, hc]
  rw [he] at h1
  linarith

/-! ### Examples -/

theorem double_rep_pow (e : Nat) : Rounding.double.Rep (2 ^ e) :=
  binaryRnd_fixes (by norm_num) (by positivity) (k := 1) (e := e) (by norm_num) (by simp)

/-- Python floats: rates `2⁶⁰` and one.  Exact arithmetic gives the second event a positive probability, Python floats
never choose it. -/
theorem C124_double_never_chosen :
    volume {r1 : ℝ | 0 ≤ r1 ∧ r1 < 1 ∧ Picks Rounding.exact [2 ^ 60, 1] r1 1} = ENNReal.ofReal (1 / (2 ^ 60 + 1)) ∧
      ∀ r1, ¬ Picks Rounding.double [2 ^ 60, 1] r1 1 := by
  have h1 : Rounding.double.Rep 1 := Rounding.double.one
  constructor
  · have hex : ∃ p ∈ ([2 ^ 60, 1] : List ℝ), 0 < p := ⟨1, by simp, one_pos⟩
    have hnn : ∀ p ∈ ([2 ^ 60, 1] : List ℝ), 0 ≤ p ∧ Rounding.exact.Rep p := by
      intro p hp
      refine ⟨?_, rfl⟩
      simp only [List.mem_cons, List.not_mem_nil, or_false] at hp
      rcases hp with rfl | rfl <;> norm_num
    rw [picks_volume hnn hex 1 (by simp), edge_exact (by norm_num) (by simp), if_neg (by norm_num),
      edge_exact (by norm_num) (by simp)]
    congr 1
    norm_num
  · refine C124_rare_event_never_chosen 53 (by norm_num) _ ?_ 0 1 (by norm_num) (2 ^ 60) 1 rfl rfl (by positivity) ?_
    · intro x hx
      simp only [List.mem_cons, List.not_mem_nil, or_false] at hx
      rcases hx with rfl | rfl
      · exact ⟨by positivity, double_rep_pow 60⟩
      · exact ⟨zero_le_one, h1⟩
    · norm_num

/-- Python floats, four events with rate one: each is chosen with probability one quarter up to `2⁻⁴⁹`. -/
example (i : Nat) (hi : i < 4) : ∃ P : ℝ, 0 ≤ P ∧
    volume {r1 : ℝ | 0 ≤ r1 ∧ r1 < 1 ∧ Picks Rounding.double [1, 1, 1, 1] r1 i} = ENNReal.ofReal P ∧
      |P - 1 / 4| ≤ (1 / 2) ^ 49 := by
  obtain ⟨P, h1, h2, h3⟩ := C124_probability_error Rounding.double _ C123_double_accuracy (by norm_num) [1, 1, 1, 1]
    (by simp [show Rounding.double.Rep 1 from Rounding.double.one]) ⟨1, by simp, one_pos⟩ i 1 (by
      rcases i with _ | _ | _ | _ | i
      all_goals first | rfl | omega)
  refine ⟨P, h1, h2, ?_⟩
  have e1 : ([1, 1, 1, 1] : List ℝ).sum = 4 := by norm_num
  rw [e1] at h3
  refine h3.trans (le_of_eq ?_)
  norm_num

/-- The hypotheses of `C124_same_hops` and `C124_same_run` for Python floats: two sites, one event. -/
example : Accurate Rounding.double ((1 / 2) ^ 53) ∧
    IgnoresClock (steadyModel (FloatTime Rounding.double)) (steadyModel EReal) ∧
    (∀ ms e st p, (steadyModel EReal).computeProbability ms e st = .ok p → 0 ≤ p ∧ Rounding.double.Rep p) ∧
    Sim.init (onClock .double (realKernel .double)) (steadyModel _) toyLib none
      (some ⟨[0, 1], .of .double ((0 : ℝ) : EReal), 0⟩) = .ok (steadySim (.of .double ((0 : ℝ) : EReal))) ∧
    Sim.init (realKernel .exact) (steadyModel _) toyLib none (some ⟨[0, 1], ((0 : ℝ) : EReal), 0⟩) =
      .ok (steadySim ((0 : ℝ) : EReal)) := by
  refine ⟨C123_double_accuracy, ⟨fun _ _ _ _ _ => rfl, fun _ _ _ _ _ _ => rfl, fun _ _ _ _ _ _ => rfl⟩, ?_, rfl, rfl⟩
  rintro ms e st p hp
  obtain rfl := Except.ok.inj hp
  exact ⟨zero_le_one, Rounding.double.one⟩

end KMC
