import Verif.Lemmas.Clock
/-
C123: the clock in floating-point arithmetic.
-/
namespace KMC
open Spec

section
variable {σ φ M : Type} {K V Row V' Row' : Type} [Field K] [LinearOrder K] [FloorRing K]

/-- C123.  A run with a clock that rounds every sum makes the same hops as the run whose clock adds up exactly, and
its clock is right up to one rounding for every production step, however many there are. -/
theorem C123_clock_accuracy (R : Rounding) (u : ℝ) (hu : Accurate R u) (hu1 : u ≤ 1)
    (m : RateModel M ℝ (FloatTime R)) (m' : RateModel M ℝ EReal) (hm : IgnoresClock m m')
    (hr : ∀ ms e st p, m'.computeProbability ms e st = .ok p → 0 ≤ p ∧ R.Rep p) (g : Geometry K)
    (lookup : Option HopStateLookup) (summary : Trajectory K → FloatTime R → List (String × Bool) → Row)
    (summary' : Trajectory K → EReal → List (String × Bool) → Row') (plan : PropertyPlan (FloatTime R) V)
    (plan' : PropertyPlan EReal V') (rng : Nat → ℝ × ℝ) 
    (hrng : ∀ c, (0 ≤ (rng c).1 ∧ (rng c).1 < 1) ∧ 0 < (rng c).2 ∧ (rng c).2 < 1)
    (len equil prod : Nat) (lib : EventLib σ φ) (occ : List Int) (step : Int) (t0 : ℝ) (ht0 : 0 ≤ t0) (hrep : R.Rep t0)
    (s : Sim σ φ M ℝ (FloatTime R)) (s' : Sim σ φ M ℝ EReal)
    (hinit : Sim.init (onClock R (realKernel R)) m lib lookup (some ⟨occ, .of R (t0 : EReal), step⟩) = .ok s)
    (hinit' : Sim.init (realKernel R) m' lib lookup (some ⟨occ, (t0 : EReal), step⟩) = .ok s')
    (h : (s.run (onClock R (realKernel R)) m g lookup summary plan rng len equil prod).outcome = .ok ())
    (h' : (s'.run (realKernel R) m' g lookup summary' plan' rng len equil prod).outcome = .ok ()) :
    ∃ rs rs', (s.run (onClock R (realKernel R)) m g lookup summary plan rng len equil prod).tracker = some rs ∧
      (s'.run (realKernel R) m' g lookup summary' plan' rng len equil prod).tracker = some rs' ∧
      SameButClock rs.sim rs'.sim ∧ rs.traj = rs'.traj ∧
      ∃ t t' : ℝ, rs.sim.st.time.val = (t : EReal) ∧ rs'.sim.st.time = (t' : EReal) ∧ t0 ≤ t' ∧
        (1 - u) ^ (prod * len) * t' ≤ t ∧ t ≤ (1 + u) ^ (prod * len) * t' := by
  obtain ⟨i1, i2, i3⟩ := init_sameClock (k := onClock R (realKernel R)) (k' := realKernel R) rfl hm
    (st := ⟨occ, .of R (t0 : EReal), step⟩) (st' := ⟨occ, (t0 : EReal), step⟩) rfl rfl hinit hinit'
  have hback := C06_time_never_decreases R m' hr g lookup summary' plan' rng
    (fun c => ⟨(hrng c).1, (hrng c).2.1.le, (hrng c).2.2⟩) len equil prod lib _ s' hinit'
  obtain ⟨s1, traj, sampler, rs, a1, a2, -, a4, a5⟩ := run_ok h
  obtain ⟨s1', traj', sampler', rs', b1, b2, -, b4, b5⟩ := run_ok h'
  obtain ⟨q1, q2, q3, q4⟩ := equilSteps_sameClock hm hr i1 (goodTable_init (k := realKernel R) rfl hr hinit') a1 b1
  rw [q1.occ, b2] at a2
  have ht : traj = traj' := (Except.ok.inj a2).symm
  have hc : ClocksAgree R u 0 s1.st.time s1'.st.time := by
    rw [q3, q4, i2, i3]
    refine ⟨t0, t0, rfl, ?_, ht0, by simp, by simp⟩
    show roundTime R (t0 : EReal) = _
    rw [roundTime_coe, show R.rnd t0 = t0 from hrep]
  obtain ⟨z1, z2, t', t, z3, z4, z5, z6, z7⟩ := passes_sameClock hu hu1 hm hr (fun c => (hrng c).2)
    (s := { sim := s1, traj := traj, sampler := sampler }) (s' := { sim := s1', traj := traj', sampler := sampler' })
    q1 q2 ht hc a4 b4
  rw [a5, b5]
  refine ⟨rs, rs', rfl, rfl, z1, z2, t, t', z4, z3, ?_, by simpa using z6, by simpa using z7⟩
  rw [b5] at hback
  simp only [z3] at hback
  exact_mod_cast hback

/-- C123.  A clock that rounds never goes back, whether a run finishes or not. -/
theorem C123_never_goes_back (R : Rounding) (m : RateModel M ℝ (FloatTime R))
    (hr : ∀ ms e st p, m.computeProbability ms e st = .ok p → 0 ≤ p ∧ R.Rep p) (g : Geometry K)
    (lookup : Option HopStateLookup) (summary : Trajectory K → FloatTime R → List (String × Bool) → Row)
    (plan : PropertyPlan (FloatTime R) V) (rng : Nat → ℝ × ℝ)
    (hrng : ∀ c, (0 ≤ (rng c).1 ∧ (rng c).1 < 1) ∧ 0 ≤ (rng c).2 ∧ (rng c).2 < 1) (len equil prod : Nat)
    (lib : EventLib σ φ) (st : State (FloatTime R)) (s : Sim σ φ M ℝ (FloatTime R))
    (hinit : Sim.init (onClock R (realKernel R)) m lib lookup (some st) = .ok s) :
    st.time.val ≤ (s.run (onClock R (realKernel R)) m g lookup summary plan rng len equil prod).sim.st.time.val := by
  obtain ⟨i1, -⟩ := init_ok hinit
  cases i1
  exact time_never_decreases (T := FloatTime R) (fun t => le_refl t.val) (fun a b c => le_trans (a := a.val))
    (fun _ _ h => floatTime_le_add h) (onClock R (realKernel R)) m (GoodTable R)
    (fun _ _ _ _ hs h => goodTable_update (k := onClock R (realKernel R)) rfl hr hs h) g lookup summary plan rng
    (fun _ c _ _ hs h => propose_onClock_nonneg hs (hrng c).2.1 (hrng c).2.2 h) len equil prod s
    (goodTable_init (k := onClock R (realKernel R)) rfl hr hinit)

end

/-- C123.  Python floats without overflow and underflow: one operation is right up to the fraction `2⁻⁵³`. -/
theorem C123_double_accuracy : Accurate Rounding.double ((1 / 2) ^ 53) :=
  fun x => binaryRnd_error 53 (by norm_num) x

/-- C123.  What the bound of `C123_clock_accuracy` means for Python floats: after up to `2⁵²` steps the clock is
right up to the fraction `2⁻⁵²` per step. -/
theorem C123_double_clock (n : Nat) (hn : n ≤ 2 ^ 52) (t t' : ℝ) (h0 : 0 ≤ t')
    (h1 : (1 - (1 / 2 : ℝ) ^ 53) ^ n * t' ≤ t) (h2 : t ≤ (1 + (1 / 2 : ℝ) ^ 53) ^ n * t') :
    |t - t'| ≤ n * (1 / 2) ^ 52 * t' := by
  set u : ℝ := (1 / 2) ^ 53 with hu
  have hu0 : 0 < u := by rw [hu]; positivity
  have hn' : (n : ℝ) ≤ 2 ^ 52 := by exact_mod_cast hn
  have hnu : n * u ≤ 1 / 2 := by
    calc n * u ≤ 2 ^ 52 * u := mul_le_mul_of_nonneg_right hn' hu0.le
      _ = 1 / 2 := by rw [hu]; norm_num
  have hlow : 1 - n * u ≤ (1 - u) ^ n := by
    have := one_add_mul_le_pow (a := -u) (by rw [hu]; norm_num) n
    simpa [sub_eq_add_neg] using this
  have hup : (1 + u) ^ n ≤ 1 + 2 * (n * u) := by
    have e : (1 + u) ^ n * (1 - u) ^ n ≤ 1 := by
      rw [← mul_pow]
      refine pow_le_one₀ ?_ ?_
      · have : u ≤ 1 := by rw [hu]; norm_num
        nlinarith
      · nlinarith
    have p : 0 ≤ (1 + u) ^ n := by positivity
    have e2 : (1 + u) ^ n * (1 - n * u) ≤ 1 := (mul_le_mul_of_nonneg_left hlow p).trans e
    have hx : 0 ≤ (n : ℝ) * u := mul_nonneg (Nat.cast_nonneg n) hu0.le
    generalize (n : ℝ) * u = x at *
    generalize (1 + u) ^ n = y at *
    have q : 1 ≤ (1 + 2 * x) * (1 - x) := by nlinarith [mul_nonneg hx (sub_nonneg.2 hnu)]
    have r : y * (1 - x) ≤ (1 + 2 * x) * (1 - x) := e2.trans q
    exact le_of_mul_le_mul_right r (by linarith)
  have e52 : (n : ℝ) * (1 / 2) ^ 52 = 2 * (n * u) := by rw [hu]; ring
  have hnn : 0 ≤ (n : ℝ) * u := mul_nonneg (Nat.cast_nonneg n) hu0.le
  rw [e52, abs_le]
  constructor
  · nlinarith
  · nlinarith

section
variable {σ φ M ρ U : Type}

/-- C123.  The clock stands still: when it shows a time `t0` and no waiting time exceeds `t0 * 2⁻⁽ᵖ⁺¹⁾` (for Python
floats `t0 * 2⁻⁵⁴`), then it shows `t0` after every number of further steps. -/
theorem C123_stands_still (p : ℕ) (hp : 1 ≤ p) (k : Kernel ρ (FloatTime (.binary p hp)) U)
    (m : RateModel M ρ (FloatTime (.binary p hp))) (rng : Nat → U × U) (c : Nat)
    (s s' : Sim σ φ M ρ (FloatTime (.binary p hp))) (hist : List (Event × FloatTime (.binary p hp)))
    (h : Steps k m rng true c s hist s') (t0 : ℝ) (ht0 : 0 < t0) (ht : s.st.time.val = (t0 : EReal))
    (hw : ∀ w ∈ hist, 0 ≤ w.2.val ∧ w.2.val ≤ ((t0 * (1 / 2) ^ (p + 1) : ℝ) : EReal)) :
    s'.st.time.val = (t0 : EReal) ∧ s'.st.step = s.st.step + hist.length := by
  refine ⟨?_, (steps_accounting floatTime_add_zero h).1⟩
  rw [(steps_accounting floatTime_add_zero h).2, if_pos rfl]
  have hrep : (Rounding.binary p hp).rnd t0 = t0 := by
    have := s.st.time.rep
    rw [ht, roundTime_coe] at this
    exact EReal.coe_eq_coe_iff.1 this
  generalize s.st.time = t at ht
  clear h
  induction hist generalizing t with
  | nil => exact ht
  | cons w ws ih =>
    refine ih (fun x hx => hw x (List.mem_cons_of_mem _ hx)) _ ?_
    obtain ⟨h0, h1⟩ := hw w List.mem_cons_self
    have hfin : ∃ x : ℝ, w.2.val = (x : EReal) := by
      induction hv : w.2.val with
      | bot => rw [hv] at h0; exact absurd h0 (by simp)
      | top => rw [hv] at h1; exact absurd h1 (not_le.2 (EReal.coe_lt_top _))
      | coe x => exact ⟨x, rfl⟩
    obtain ⟨x, hx⟩ := hfin
    rw [hx] at h0 h1
    show roundTime _ (t.val + w.2.val) = _
    rw [ht, hx, ← EReal.coe_add, roundTime_coe]
    congr 1
    exact binaryRnd_absorbs hp ht0 hrep (by exact_mod_cast h0) (by exact_mod_cast h1)

end
/-! ### Examples -/

/-- A model that gives every event the rate one, for any clock. -/
def steadyModel (T : Type) : RateModel Unit ℝ T :=
  { initializeState := fun _ _ => .ok ()
    applyEvent := fun _ _ _ => (.ok (), ())
    computeProbability := fun _ _ _ => .ok 1 }

example : IgnoresClock (steadyModel (FloatTime Rounding.double)) (steadyModel EReal) :=
  ⟨fun _ _ _ _ _ => rfl, fun _ _ _ _ _ _ => rfl, fun _ _ _ _ _ _ => rfl⟩

/-- The one event of the library is chosen. -/
theorem steady_choice : ∃ w : EReal, 0 ≤ w ∧ w ≤ 1 ∧
    (realKernel Rounding.double).propose [1] (1 / 4) (1 / 2) = .ok (0, w) := by
  have hneg : Rounding.double.rnd (-1) = -1 := by
    have h : Rounding.double.rnd (-1) = -Rounding.double.rnd 1 := binaryRnd_neg 53 1
    rw [h, Rounding.double.one]
  refine ⟨waitingTime Rounding.double 1 (1 / 2), ?_, ?_, ?_⟩
  · obtain ⟨t, h1, h2⟩ := C03_waiting_time_nonneg Rounding.double 1 (1 / 2) one_pos (by norm_num) (by norm_num)
    rw [h1]; exact_mod_cast h2
  · have hlog : -1 ≤ Rounding.double.rnd (Real.log (1 / 2)) := by
      rw [← hneg]
      refine Rounding.double.mono ?_
      rw [one_div, Real.log_inv]
      linarith [Real.log_le_sub_one_of_pos (show (0 : ℝ) < 2 by norm_num)]
    have : Rounding.double.rnd (Rounding.double.rnd (-1 / 1) * Rounding.double.rnd (Real.log (1 / 2))) ≤ 1 := by
      rw [div_one, hneg]
      calc _ ≤ Rounding.double.rnd 1 := Rounding.double.mono (by linarith)
        _ = 1 := Rounding.double.one
    unfold waitingTime
    rw [if_neg (by norm_num)]
    exact_mod_cast this
  · simp [realKernel, propose, searchsortedRight, bisectRight, Rounding.double.one]
    norm_num

/-- A simulation with two sites and one event, at a given time. -/
noncomputable def steadyAt {T : Type} (a b z : Int) (t : T) : Sim Unit Unit Unit ℝ T :=
  { lib := toyLib, st := ⟨[a, b], t, z⟩, ms := (), prob := [1], cum := [1] }

/-- The same at the beginning. -/
noncomputable abbrev steadySim {T : Type} (t : T) : Sim Unit Unit Unit ℝ T := steadyAt 0 1 0 t

example (t : FloatTime Rounding.double) :
    Sim.init (onClock .double (realKernel .double)) (steadyModel _) toyLib none (some ⟨[0, 1], t, 0⟩) =
      .ok (steadySim t) := rfl

example (t : EReal) :
    Sim.init (realKernel .double) (steadyModel _) toyLib none (some ⟨[0, 1], t, 0⟩) = .ok (steadySim t) := rfl

/-- A run of two equilibration and two production steps finishes with either clock. -/
theorem steady_finishes {T : Type} [Add T] [Zero T] [Sub T] [LE T] [DecidableLE T] (k : Kernel ℝ T ℝ) (w t : T)
    (hc : k.cumsum [1] = [1]) (hp : k.propose [1] (1 / 4) (1 / 2) = .ok (0, w)) :
    ((steadySim t).run k (steadyModel T) toyGeometry none (fun _ _ _ => ())
      ({} : PropertyPlan T Unit) (fun _ => (1 / 4, 1 / 2)) 1 2 2).outcome = .ok () := by
  have e1 : ∀ (a b z : Int) (t : T), (steadyAt a b z t).propose k (1 / 4) (1 / 2) = .ok (⟨[0, 1], [], none⟩, w) := by
    intro a b z t
    simp only [steadyAt, Sim.propose, hp]
    rfl
  have e2 : ∀ (a b z : Int) (t d : T), (steadyAt a b z t).update k (steadyModel T) ⟨[0, 1], [], none⟩ d =
      (.ok (), steadyAt b a (z + 1) (t + d)) := by
    intro a b z t d
    have h : ∀ cum, cum = [1] →
        ((.ok (), { steadyAt b a (z + 1) (t + d) with cum := cum }) : Py Unit × Sim Unit Unit Unit ℝ T) =
        (.ok (), steadyAt b a (z + 1) (t + d)) := by
      rintro cum rfl; rfl
    exact h _ hc
  obtain ⟨x0, f0, f1, f2⟩ : ∃ x0, Trajectory.init toyGeometry none [0, 1] = .ok x0 ∧
      (x0.update toyGeometry [0, 1] ⟨[0, 1], [], none⟩).1 = .ok () ∧
      ((x0.update toyGeometry [0, 1] ⟨[0, 1], [], none⟩).2.update toyGeometry [1, 0] ⟨[0, 1], [], none⟩).1 = .ok () :=
    ⟨_, rfl, by decide +kernel, by decide +kernel⟩
  rcases g1 : x0.update toyGeometry [0, 1] ⟨[0, 1], [], none⟩ with ⟨r1, x1⟩
  rw [g1] at f1 f2
  rcases g2 : x1.update toyGeometry [1, 0] ⟨[0, 1], [], none⟩ with ⟨r2, x2⟩
  rw [g2] at f2
  simp only at f1 f2
  subst f1 f2
  have quiet : ∀ (sm : Sampler T Unit Unit) (summary : List (String × Bool) → Unit) (st : State T) (z : Int) (t : T),
      sm.properties = [] → ∃ sm', sm.sampleProperties summary st z t = (.ok (), sm') ∧ sm'.properties = [] := by
    intro sm summary st z t h
    have hp : (sm.sampleSummary summary z t).properties = [] := by
      unfold Sampler.sampleSummary
      split <;> exact h
    exact ⟨_, by simp only [Sampler.sampleProperties, hp, List.map_nil, Sampler.sampleLoop], hp⟩
  obtain ⟨sm, hsm, hsp⟩ : ∃ sm, ({} : Sampler T Unit Unit).applyPropertyPlan ({} : PropertyPlan T Unit)
      (some (max 1 1 : Nat)) = (.ok (), sm) ∧ sm.properties = [] := ⟨_, rfl, rfl⟩
  obtain ⟨sm1, k1, k2⟩ := quiet sm (fun _ => ()) ⟨[1, 0], t + 0 + 0 + w, 0 + 1 + 1 + 1⟩ (0 + 1 + 1 + 1)
    (t + 0 + 0 + w) hsp
  obtain ⟨sm2, k3, k4⟩ := quiet sm1 (fun _ => ()) ⟨[0, 1], t + 0 + 0 + w + w, 0 + 1 + 1 + 1 + 1⟩ (0 + 1 + 1 + 1 + 1)
    (t + 0 + 0 + w + w) k2
  have st0 : ∀ a b z (t : T), (steadyAt a b z t).st = ⟨[a, b], t, z⟩ := fun _ _ _ _ => rfl
  simp only [Sim.run, Sim.equilSteps, Sim.equilStep, e1, e2, Nat.mul_one, st0, f0, hsm, RunState.passes,
    RunState.prodSteps, RunState.prodStep, g1, g2, k1, k3]

/-- The hypotheses of `C123_clock_accuracy` for Python floats, from time zero. -/
example : (∀ ms e st p, (steadyModel EReal).computeProbability ms e st = .ok p → 0 ≤ p ∧ Rounding.double.Rep p) ∧
    ((steadySim (FloatTime.of Rounding.double ((0 : ℝ) : EReal))).run (onClock .double (realKernel .double))
      (steadyModel _) toyGeometry none (fun _ _ _ => ()) ({} : PropertyPlan _ Unit) (fun _ => (1 / 4, 1 / 2)) 1 2 2).outcome
      = .ok () ∧
    ((steadySim ((0 : ℝ) : EReal)).run (realKernel .double) (steadyModel _) toyGeometry none (fun _ _ _ => ())
      ({} : PropertyPlan _ Unit) (fun _ => (1 / 4, 1 / 2)) 1 2 2).outcome = .ok () := by
  obtain ⟨w, -, -, hw⟩ := steady_choice
  refine ⟨?_, steady_finishes _ (.of .double w) _ rfl (by simp only [onClock, hw]), steady_finishes _ w _ rfl hw⟩
  rintro ms e st p hp
  obtain rfl := Except.ok.inj hp
  exact ⟨zero_le_one, Rounding.double.one⟩

/-- C123, negative result.  With Python floats the clock can stand still for ever: two sites and one event with
rate one, at time `2⁶⁰`; every number of steps can be made, and the clock still shows `2⁶⁰`. -/
theorem C123_double_can_stand_still (n : Nat) :
    ∃ hist s', hist.length = n ∧
      Steps (onClock .double (realKernel .double)) (steadyModel _) (fun _ => (1 / 4, 1 / 2)) true 0
        (steadySim (.of .double ((2 ^ 60 : ℝ) : EReal))) hist s' ∧
      s'.st.step = n ∧ s'.st.time.val = ((2 ^ 60 : ℝ) : EReal) := by
  obtain ⟨w, w0, w1, hw⟩ := steady_choice
  have hprop : (onClock .double (realKernel .double)).propose [1] (1 / 4) (1 / 2) = .ok (0, .of .double w) := by
    simp only [onClock, hw]
  have key : ∀ (n c : Nat) (a b : Int) (t : FloatTime .double) (z : Int), ∃ hist s', hist.length = n ∧
      Steps (onClock .double (realKernel .double)) (steadyModel _) (fun _ => (1 / 4, 1 / 2)) true c
        (steadyAt a b z t) hist s' ∧
        ∀ x ∈ hist, x.2 = .of .double w := by
    intro n
    induction n with
    | zero => exact fun c a b t z => ⟨[], _, rfl, .nil _ _, by simp⟩
    | succ n ih =>
      intro c a b t z
      obtain ⟨hist, s', h1, h2, h3⟩ := ih (c + 1) b a (t + .of .double w) (z + 1)
      refine ⟨(⟨[0, 1], [], none⟩, .of .double w) :: hist, s', by simp [h1], .cons ?_ ?_ h2, ?_⟩
      · simp only [steadyAt, Sim.propose, hprop]
        rfl
      · rfl
      · simpa using h3
  obtain ⟨hist, s', h1, h2, h3⟩ := key n 0 0 1 (.of .double ((2 ^ 60 : ℝ) : EReal)) 0
  refine ⟨hist, s', h1, h2, ?_⟩
  have hrep : Rounding.double.rnd (2 ^ 60) = 2 ^ 60 :=
    binaryRnd_fixes (by norm_num) (by positivity) (k := 1) (e := 60) (by norm_num) (by norm_num)
  have hval : (FloatTime.of .double ((2 ^ 60 : ℝ) : EReal)).val = ((2 ^ 60 : ℝ) : EReal) := by
    show roundTime Rounding.double ((2 ^ 60 : ℝ) : EReal) = _
    rw [roundTime_coe, hrep]
  have hone : roundTime Rounding.double 1 = 1 := by
    have := roundTime_coe Rounding.double 1
    rw [Rounding.double.one] at this
    exact this
  obtain ⟨e1, e2⟩ := C123_stands_still 53 (by norm_num) _ _ _ _ _ _ _ h2 (2 ^ 60) (by positivity) hval (by
    intro x hx
    rw [h3 x hx]
    constructor
    · show 0 ≤ roundTime Rounding.double w
      rw [← roundTime_zero (R := Rounding.double)]
      exact roundTime_mono w0
    · show roundTime Rounding.double w ≤ _
      refine (roundTime_mono w1).trans ?_
      rw [hone]
      exact_mod_cast (by norm_num : (1 : ℝ) ≤ 2 ^ 60 * (1 / 2) ^ (53 + 1)))
  have e3 : s'.st.step = 0 + (hist.length : Int) := e2
  exact ⟨by rw [e3, h1]; simp, e1⟩

end KMC
