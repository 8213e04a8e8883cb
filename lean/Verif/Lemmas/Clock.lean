import Verif.Lemmas.Binary
import Verif.Spec.Clock
import Verif.Props.ProposeProps
/-
Two runs that differ in their clocks only.
-/
set_option linter.unusedSectionVars false

namespace KMC
open Spec

section
variable {σ φ M ρ T T' U : Type} [Add T] [Add T']

theorem initialProbs_sameClock {m : RateModel M ρ T} {m' : RateModel M ρ T'} (hm : IgnoresClock m m') (ms : M)
    {st : State T} {st' : State T'} (h1 : st.occ = st'.occ) (h2 : st.step = st'.step) (es : List Event) :
    initialProbs m ms st es = initialProbs m' ms st' es := by
  induction es with
  | nil => rfl
  | cons e es ih => simp only [initialProbs, hm.computes ms e st st' h1 h2, ih]

theorem recompute_sameClock {m : RateModel M ρ T} {m' : RateModel M ρ T'} (hm : IgnoresClock m m') (events : List Event)
    (ms : M) {st : State T} {st' : State T'} (h1 : st.occ = st'.occ) (h2 : st.step = st'.step) (is : List Int)
    (prob : List ρ) : recompute m events ms st is prob = recompute m' events ms st' is prob := by
  induction is generalizing prob with
  | nil => rfl
  | cons i is ih =>
    simp only [recompute]
    cases pyGet events i with
    | error x => rfl
    | ok e =>
      simp only [hm.computes ms e st st' h1 h2]
      cases m'.computeProbability ms e st' with
      | error x => rfl
      | ok p =>
        simp only
        cases pySet prob i p with
        | error x => rfl
        | ok prob' => exact ih prob'

theorem init_sameClock {k : Kernel ρ T U} {k' : Kernel ρ T' U} (hk : k.cumsum = k'.cumsum) {m : RateModel M ρ T}
    {m' : RateModel M ρ T'} (hm : IgnoresClock m m') {lib : EventLib σ φ} {lookup : Option HopStateLookup} {st : State T}
    {st' : State T'} (h1 : st.occ = st'.occ) (h2 : st.step = st'.step) {s : Sim σ φ M ρ T} {s' : Sim σ φ M ρ T'}
    (hs : Sim.init k m lib lookup (some st) = .ok s) (hs' : Sim.init k' m' lib lookup (some st') = .ok s') :
    SameButClock s s' ∧ s.st = st ∧ s'.st = st' := by
  have key : ∀ lib' : EventLib σ φ,
      (match m.initializeState st lib'.events with
        | .error e => (.error e : Py (Sim σ φ M ρ T))
        | .ok ms =>
          match initialProbs m ms st lib'.events with
          | .error e => .error e
          | .ok p => .ok { lib := lib', st := st, ms := ms, prob := p, cum := k.cumsum p }) = .ok s →
      (match m'.initializeState st' lib'.events with
        | .error e => (.error e : Py (Sim σ φ M ρ T'))
        | .ok ms =>
          match initialProbs m' ms st' lib'.events with
          | .error e => .error e
          | .ok p => .ok { lib := lib', st := st', ms := ms, prob := p, cum := k'.cumsum p }) = .ok s' →
      SameButClock s s' ∧ s.st = st ∧ s'.st = st' := by
    intro lib' a b
    rw [hm.starts st st' lib'.events h1 h2] at a
    cases e1 : m'.initializeState st' lib'.events with
    | error x => rw [e1] at a; cases a
    | ok ms =>
      rw [e1] at a b
      simp only at a b
      rw [initialProbs_sameClock hm ms h1 h2] at a
      cases e2 : initialProbs m' ms st' lib'.events with
      | error x => rw [e2] at a; cases a
      | ok p =>
        rw [e2] at a b
        cases a
        cases b
        exact ⟨⟨rfl, h1, h2, rfl, rfl, by rw [hk]⟩, rfl, rfl⟩
  unfold Sim.init at hs hs'
  cases lookup with
  | none => exact key lib hs hs'
  | some l =>
    simp only at hs hs'
    cases e : l.annotateEvents lib.events with
    | error x => rw [e] at hs; cases hs
    | ok es => rw [e] at hs hs'; exact key _ hs hs'

theorem update_sameClock {k : Kernel ρ T U} {k' : Kernel ρ T' U} (hk : k.cumsum = k'.cumsum) {m : RateModel M ρ T}
    {m' : RateModel M ρ T'} (hm : IgnoresClock m m') {s s1 : Sim σ φ M ρ T} {s' s1' : Sim σ φ M ρ T'}
    (hs : SameButClock s s') {e : Event} {dt : T} {dt' : T'} (h : s.update k m e dt = (.ok (), s1))
    (h' : s'.update k' m' e dt' = (.ok (), s1')) :
    SameButClock s1 s1' ∧ s1.st.time = s.st.time + dt ∧ s1'.st.time = s'.st.time + dt' := by
  obtain ⟨st, ms, i, prob, a1, a2, a3, a4, rfl⟩ := update_ok h
  obtain ⟨st', ms', i', prob', b1, b2, b3, b4, rfl⟩ := update_ok h'
  obtain ⟨f, t, x, y, hx, hy, he, p1, p2, rfl⟩ := applyEvent_ok a1
  obtain ⟨f', t', x', y', hx', hy', he', q1, q2, rfl⟩ := applyEvent_ok b1
  rw [he] at he'
  simp only [List.cons.injEq, and_true] at he'
  obtain ⟨rfl, rfl⟩ := he'
  rw [← hs.occ] at q1 q2
  have ex : x = x' := Option.some.inj (p1.symm.trans q1)
  have ey : y = y' := Option.some.inj (p2.symm.trans q2)
  subst ex ey
  have hocc : (s.st.occ.set x s.st.occ[y]).set y s.st.occ[x] = (s'.st.occ.set x s'.st.occ[y]).set y s'.st.occ[x] := by
    simp only [hs.occ]
  have hstep : s.st.step + 1 = s'.st.step + 1 := by rw [hs.step]
  have hap := hm.applies s.ms e ⟨(s.st.occ.set x s.st.occ[y]).set y s.st.occ[x], s.st.time + dt, s.st.step + 1⟩
    ⟨(s'.st.occ.set x s'.st.occ[y]).set y s'.st.occ[x], s'.st.time + dt', s'.st.step + 1⟩ hocc hstep
  rw [a2, hs.ms, b2] at hap
  obtain rfl := (Prod.mk.inj hap).2
  rw [hs.lib, b3] at a3
  obtain rfl := Except.ok.inj a3
  rw [recompute_sameClock hm s.lib.events ms
    (st' := ⟨(s'.st.occ.set x s'.st.occ[y]).set y s'.st.occ[x], s'.st.time + dt', s'.st.step + 1⟩) hocc hstep, hs.prob, hs.lib, b4] at a4
  obtain rfl := (Prod.mk.inj a4).2
  exact ⟨⟨hs.lib, hocc, hstep, rfl, rfl, by simp only [hk]⟩, rfl, rfl⟩

end

section
variable {σ φ M : Type} {R : Rounding}

/-- A table of rates that the arithmetic can hold, with its running sums. -/
def GoodTable (R : Rounding) {T : Type} (s : Sim σ φ M ℝ T) : Prop :=
  s.cum = cumsum R s.prob ∧ ∀ p ∈ s.prob, 0 ≤ p ∧ R.Rep p

theorem goodTable_update {T : Type} [Add T] {k : Kernel ℝ T ℝ} (hk : k.cumsum = cumsum R) {m : RateModel M ℝ T}
    (hm : ∀ ms e st p, m.computeProbability ms e st = .ok p → 0 ≤ p ∧ R.Rep p) {s s' : Sim σ φ M ℝ T} {e : Event}
    {dt : T} (hs : GoodTable R s) (h : s.update k m e dt = (.ok (), s')) : GoodTable R s' := by
  obtain ⟨st, ms, i, prob, -, -, -, h3, rfl⟩ := update_ok h
  refine ⟨by simp only [hk], ?_⟩
  have := recompute_all (m := m) (events := s.lib.events) (ms := ms) (st := st) (P := fun p => 0 ≤ p ∧ R.Rep p)
    (fun e p hp => hm _ _ _ _ hp) (s.lib.getDependentEvents i) s.prob hs.2
  rw [h3] at this
  exact this

theorem goodTable_init {T : Type} {k : Kernel ℝ T ℝ} (hk : k.cumsum = cumsum R) {m : RateModel M ℝ T}
    (hm : ∀ ms e st p, m.computeProbability ms e st = .ok p → 0 ≤ p ∧ R.Rep p) {lib : EventLib σ φ}
    {lookup : Option HopStateLookup} {st : Option (State T)} {s : Sim σ φ M ℝ T}
    (h : Sim.init k m lib lookup st = .ok s) : GoodTable R s := by
  obtain ⟨-, -, -, -, -, -, -, hf⟩ := init_ok h
  refine ⟨by rw [hf.cum, hk], ?_⟩
  intro p hp
  obtain ⟨i, hi, rfl⟩ := List.getElem_of_mem hp
  have hi' : i < s.lib.events.length := by rw [← hf.length]; exact hi
  obtain ⟨q, hq, hq'⟩ := hf.fresh i s.lib.events[i] (by simp [hi'])
  simp only [List.getElem?_eq_getElem hi, Option.some.injEq] at hq
  rw [hq]; exact hm _ _ _ _ hq'

/-- The waiting times of such a table are not negative. -/
theorem kernel_wait_nonneg {prob : List ℝ} (hg : ∀ p ∈ prob, 0 ≤ p ∧ R.Rep p) {r1 r2 : ℝ} (h0 : 0 ≤ r2) (h1 : r2 < 1)
    {i : Nat} {dt : EReal} (h : (realKernel R).propose (cumsum R prob) r1 r2 = .ok (i, dt)) : 0 ≤ dt := by
  simp only [realKernel, propose] at h
  cases ht : (cumsum R prob).getLast? with
  | none => rw [ht] at h; cases h
  | some tot =>
    rw [ht] at h
    simp only at h
    by_cases hz : tot = 0
    · rw [if_pos hz] at h; cases h
    · rw [if_neg hz] at h
      cases h
      have htn : 0 ≤ tot := by
        rw [List.getLast?_eq_getElem?] at ht
        exact (cumsum_rep (fun p hp => (hg p hp).2) (fun p hp => (hg p hp).1) ht).2
      have htp : 0 < tot := lt_of_le_of_ne htn (Ne.symm hz)
      rcases eq_or_lt_of_le h0 with hu | hu
      · rw [← hu, C03_zero_variate_infinite]; exact le_top
      · obtain ⟨t, ht1, ht2⟩ := C03_waiting_time_nonneg R tot _ htp hu h1.le
        rw [ht1]; exact_mod_cast ht2

theorem roundTime_mono : Monotone (roundTime R) := by
  intro a b h
  induction a with
  | bot => simp [roundTime]
  | top => obtain rfl := top_le_iff.1 h; exact le_rfl
  | coe x =>
    induction b with
    | bot => simp at h
    | top => simp [roundTime]
    | coe y =>
      rw [roundTime_coe, roundTime_coe]
      exact_mod_cast R.mono (EReal.coe_le_coe_iff.1 h)

theorem roundTime_zero : roundTime R 0 = 0 := by
  have := roundTime_coe R 0
  rw [R.zero] at this
  exact this

theorem propose_onClock_nonneg {s : Sim σ φ M ℝ (FloatTime R)} (hs : GoodTable R s) {r1 r2 : ℝ} (h0 : 0 ≤ r2)
    (h1 : r2 < 1) {e : Event} {dt : FloatTime R} (h : s.propose (onClock R (realKernel R)) r1 r2 = .ok (e, dt)) :
    0 ≤ dt := by
  unfold Sim.propose at h
  simp only [onClock, hs.1] at h
  cases hp : (realKernel R).propose (cumsum R s.prob) r1 r2 with
  | error x => rw [hp] at h; cases h
  | ok p =>
    obtain ⟨i, d⟩ := p
    rw [hp] at h
    simp only at h
    split at h
    · cases h
    · cases h
      show roundTime R 0 ≤ roundTime R d
      exact roundTime_mono (kernel_wait_nonneg hs.2 h0 h1 hp)

theorem floatTime_le_add {t dt : FloatTime R} (h : 0 ≤ dt) : t ≤ t + dt := by
  show t.val ≤ roundTime R (t.val + dt.val)
  have h' : (0 : EReal) ≤ dt.val := by
    have : roundTime R 0 ≤ dt.val := h
    rwa [roundTime_zero] at this
  calc t.val = roundTime R t.val := t.rep.symm
    _ ≤ _ := roundTime_mono (le_add_of_nonneg_right h')

/-- The waiting times of such a table are numbers that the arithmetic can hold. -/
theorem propose_wait {s : Sim σ φ M ℝ EReal} (hs : GoodTable R s) {r1 r2 : ℝ} (h0 : 0 < r2) (h1 : r2 < 1) {e : Event}
    {dt : EReal} (h : s.propose (realKernel R) r1 r2 = .ok (e, dt)) :
    ∃ x : ℝ, dt = (x : EReal) ∧ 0 ≤ x ∧ R.Rep x := by
  unfold Sim.propose at h
  simp only [realKernel] at h
  rw [hs.1] at h
  unfold propose at h
  cases ht : (cumsum R s.prob).getLast? with
  | none => rw [ht] at h; cases h
  | some tot =>
    rw [ht] at h
    simp only at h
    by_cases hz : tot = 0
    · rw [if_pos hz] at h; cases h
    · rw [if_neg hz] at h
      simp only at h
      split at h
      · cases h
      · cases h
        have htn : 0 ≤ tot := by
          rw [List.getLast?_eq_getElem?] at ht
          exact (cumsum_rep (fun p hp => (hs.2 p hp).2) (fun p hp => (hs.2 p hp).1) ht).2
        have htp : 0 < tot := lt_of_le_of_ne htn (Ne.symm hz)
        obtain ⟨t, ht1, ht2⟩ := C03_waiting_time_nonneg R tot _ htp h0 h1.le
        refine ⟨t, ht1, ht2, ?_⟩
        unfold waitingTime at ht1
        rw [if_neg h0.ne'] at ht1
        have := EReal.coe_eq_coe_iff.1 ht1
        rw [← this]
        exact R.idem _

theorem propose_onClock {s : Sim σ φ M ℝ (FloatTime R)} {s' : Sim σ φ M ℝ EReal} (hs : SameButClock s s')
    {k : Kernel ℝ EReal ℝ} {r1 r2 : ℝ} {e e' : Event} {dt : FloatTime R} {dt' : EReal}
    (h : s.propose (onClock R k) r1 r2 = .ok (e, dt)) (h' : s'.propose k r1 r2 = .ok (e', dt')) :
    e = e' ∧ dt = .of R dt' := by
  unfold Sim.propose at h h'
  simp only [onClock, hs.cum] at h
  cases hp : k.propose s'.cum r1 r2 with
  | error x => rw [hp] at h'; cases h'
  | ok p =>
    obtain ⟨i, d⟩ := p
    rw [hp] at h h'
    simp only [hs.lib] at h h'
    cases hi : s'.lib.events[i]? with
    | none => rw [hi] at h'; cases h'
    | some x =>
      rw [hi] at h h'
      simp only at h h'
      obtain ⟨rfl, rfl⟩ := Prod.mk.inj (Except.ok.inj h)
      obtain ⟨rfl, rfl⟩ := Prod.mk.inj (Except.ok.inj h')
      exact ⟨rfl, rfl⟩

theorem floatTime_add_zero (t : FloatTime R) : t + 0 = t := by
  obtain ⟨v, h⟩ := t
  show FloatTime.of R (v + (FloatTime.of R 0).val) = _
  have e : (FloatTime.of R 0).val = 0 := by
    show roundTime R 0 = 0
    have := roundTime_coe R 0
    rw [R.zero] at this
    exact this
  rw [e, add_zero]
  simp only [FloatTime.of]
  congr 1

/-- One more step of a clock keeps the bounds. -/
theorem clock_step {u : ℝ} (hu : Accurate R u) (hu1 : u ≤ 1) {a b x : ℝ} {j : Nat} (ha : 0 ≤ a) (hx : 0 ≤ x)
    (h1 : (1 - u) ^ j * a ≤ b) (h2 : b ≤ (1 + u) ^ j * a) :
    (1 - u) ^ (j + 1) * (a + x) ≤ R.rnd (b + x) ∧ R.rnd (b + x) ≤ (1 + u) ^ (j + 1) * (a + x) := by
  have hu0 : 0 ≤ u := by
    have := hu 1
    rw [R.one] at this
    simpa using this
  have p1 : (1 - u) ^ j ≤ 1 := pow_le_one₀ (by linarith) (by linarith)
  have p0 : 0 ≤ (1 - u) ^ j := pow_nonneg (by linarith) _
  have p2 : 1 ≤ (1 + u) ^ j := one_le_pow₀ (by linarith)
  have hb : 0 ≤ b := (mul_nonneg p0 ha).trans h1
  have q1 : (1 - u) ^ j * (a + x) ≤ b + x := by nlinarith
  have q2 : b + x ≤ (1 + u) ^ j * (a + x) := by nlinarith
  obtain ⟨e1, e2⟩ := abs_le.1 (hu (b + x))
  rw [abs_of_nonneg (by linarith)] at e1 e2
  constructor
  · rw [pow_succ]
    calc (1 - u) ^ j * (1 - u) * (a + x) = (1 - u) * ((1 - u) ^ j * (a + x)) := by ring
      _ ≤ (1 - u) * (b + x) := mul_le_mul_of_nonneg_left q1 (by linarith)
      _ ≤ _ := by linarith
  · rw [pow_succ]
    calc R.rnd (b + x) ≤ (1 + u) * (b + x) := by linarith
      _ ≤ (1 + u) * ((1 + u) ^ j * (a + x)) := mul_le_mul_of_nonneg_left q2 (by linarith)
      _ = _ := by ring

/-- Both clocks show numbers, and the rounded one is right up to `j` roundings. -/
def ClocksAgree (R : Rounding) (u : ℝ) (j : Nat) (t : FloatTime R) (t' : EReal) : Prop :=
  ∃ a b : ℝ, t' = (a : EReal) ∧ t.val = (b : EReal) ∧ 0 ≤ a ∧ (1 - u) ^ j * a ≤ b ∧ b ≤ (1 + u) ^ j * a

theorem clocksAgree_step {u : ℝ} (hu : Accurate R u) (hu1 : u ≤ 1) {j : Nat} {t : FloatTime R} {t' : EReal}
    (h : ClocksAgree R u j t t') {x : ℝ} (hx : 0 ≤ x) (hr : R.Rep x) :
    ClocksAgree R u (j + 1) (t + .of R (x : EReal)) (t' + (x : EReal)) := by
  obtain ⟨a, b, rfl, hb, ha, h1, h2⟩ := h
  obtain ⟨e1, e2⟩ := clock_step hu hu1 ha hx h1 h2
  refine ⟨a + x, R.rnd (b + x), by push_cast; rfl, ?_, by linarith, e1, e2⟩
  show roundTime R (t.val + (FloatTime.of R (x : EReal)).val) = _
  have : (FloatTime.of R (x : EReal)).val = (x : EReal) := by
    show roundTime R (x : EReal) = _
    rw [roundTime_coe, show R.rnd x = x from hr]
  rw [this, hb, ← EReal.coe_add, roundTime_coe]

variable {m : RateModel M ℝ (FloatTime R)} {m' : RateModel M ℝ EReal}

theorem equilSteps_sameClock (hm : IgnoresClock m m')
    (hr : ∀ ms e st p, m'.computeProbability ms e st = .ok p → 0 ≤ p ∧ R.Rep p) {rng : Nat → ℝ × ℝ} {n c : Nat}
    {s s1 : Sim σ φ M ℝ (FloatTime R)} {s' s1' : Sim σ φ M ℝ EReal} (hs : SameButClock s s') (hg : GoodTable R s')
    (h : s.equilSteps (onClock R (realKernel R)) m rng n c = (.ok (), s1))
    (h' : s'.equilSteps (realKernel R) m' rng n c = (.ok (), s1')) :
    SameButClock s1 s1' ∧ GoodTable R s1' ∧ s1.st.time = s.st.time ∧ s1'.st.time = s'.st.time := by
  induction n generalizing c s s' with
  | zero =>
    simp only [Sim.equilSteps, Prod.mk.injEq, true_and] at h h'
    subst h h'
    exact ⟨hs, hg, rfl, rfl⟩
  | succ n ih =>
    unfold Sim.equilSteps at h h'
    rcases e1 : s.equilStep (onClock R (realKernel R)) m (rng c).1 (rng c).2 with ⟨r, s2⟩
    rcases e2 : s'.equilStep (realKernel R) m' (rng c).1 (rng c).2 with ⟨r', s2'⟩
    rw [e1] at h
    rw [e2] at h'
    cases r with
    | error x => cases h
    | ok _ =>
    cases r' with
    | error x => cases h'
    | ok _ =>
      simp only at h h'
      unfold Sim.equilStep at e1 e2
      cases p1 : s.propose (onClock R (realKernel R)) (rng c).1 (rng c).2 with
      | error x => rw [p1] at e1; cases e1
      | ok p =>
      cases p2 : s'.propose (realKernel R) (rng c).1 (rng c).2 with
      | error x => rw [p2] at e2; cases e2
      | ok p' =>
        obtain ⟨e, dt⟩ := p
        obtain ⟨e', dt'⟩ := p'
        rw [p1] at e1
        rw [p2] at e2
        obtain ⟨rfl, -⟩ := propose_onClock hs p1 p2
        simp only at e1 e2
        obtain ⟨q1, q2, q3⟩ := update_sameClock (k := onClock R (realKernel R)) (k' := realKernel R) rfl hm hs e1 e2
        obtain ⟨z1, z2, z3, z4⟩ := ih q1 (goodTable_update (k := realKernel R) rfl hr hg e2) h h'
        exact ⟨z1, z2, by rw [z3, q2, floatTime_add_zero], by rw [z4, q3, add_zero]⟩

variable {K V Row V' Row' : Type} [Field K] [LinearOrder K] [FloorRing K]

theorem prodSteps_sameClock {u : ℝ} (hu : Accurate R u) (hu1 : u ≤ 1) (hm : IgnoresClock m m')
    (hr : ∀ ms e st p, m'.computeProbability ms e st = .ok p → 0 ≤ p ∧ R.Rep p) {rng : Nat → ℝ × ℝ}
    (hrng : ∀ c, 0 < (rng c).2 ∧ (rng c).2 < 1) {g : Geometry K}
    {summary : Trajectory K → FloatTime R → List (String × Bool) → Row}
    {summary' : Trajectory K → EReal → List (String × Bool) → Row'} {n c j : Nat}
    {s s1 : RunState σ φ M ℝ (FloatTime R) K V Row} {s' s1' : RunState σ φ M ℝ EReal K V' Row'}
    (hs : SameButClock s.sim s'.sim) (hg : GoodTable R s'.sim) (ht : s.traj = s'.traj)
    (hc : ClocksAgree R u j s.sim.st.time s'.sim.st.time)
    (h : s.prodSteps (onClock R (realKernel R)) m g summary rng n c = (.ok (), s1))
    (h' : s'.prodSteps (realKernel R) m' g summary' rng n c = (.ok (), s1')) :
    SameButClock s1.sim s1'.sim ∧ GoodTable R s1'.sim ∧ s1.traj = s1'.traj ∧
      ClocksAgree R u (j + n) s1.sim.st.time s1'.sim.st.time := by
  induction n generalizing c s s' j with
  | zero =>
    simp only [RunState.prodSteps, Prod.mk.injEq, true_and] at h h'
    subst h h'
    exact ⟨hs, hg, ht, hc⟩
  | succ n ih =>
    unfold RunState.prodSteps at h h'
    rcases e1 : s.prodStep (onClock R (realKernel R)) m g summary (rng c).1 (rng c).2 with ⟨r, s2⟩
    rcases e2 : s'.prodStep (realKernel R) m' g summary' (rng c).1 (rng c).2 with ⟨r', s2'⟩
    rw [e1] at h
    rw [e2] at h'
    cases r with
    | error x => cases h
    | ok _ =>
    cases r' with
    | error x => cases h'
    | ok _ =>
      simp only at h h'
      obtain ⟨e, dt, p1, t1, u1, -, -⟩ := prodStep_ok e1
      obtain ⟨e', dt', p2, t2, u2, -, -⟩ := prodStep_ok e2
      obtain ⟨rfl, rfl⟩ := propose_onClock hs p1 p2
      obtain ⟨x, rfl, hx, hrep⟩ := propose_wait hg (hrng c).1 (hrng c).2 p2
      obtain ⟨q1, q2, q3⟩ := update_sameClock (k := onClock R (realKernel R)) (k' := realKernel R) rfl hm hs u1 u2
      rw [ht, hs.occ, t2] at t1
      have hc' : ClocksAgree R u (j + 1) s2.sim.st.time s2'.sim.st.time := by
        rw [q2, q3]
        exact clocksAgree_step hu hu1 hc hx hrep
      have := ih q1 (goodTable_update (k := realKernel R) rfl hr hg u2) (Prod.mk.inj t1).2.symm hc' h h'
      rwa [show j + 1 + n = j + (n + 1) by omega] at this

theorem passes_sameClock {u : ℝ} (hu : Accurate R u) (hu1 : u ≤ 1) (hm : IgnoresClock m m')
    (hr : ∀ ms e st p, m'.computeProbability ms e st = .ok p → 0 ≤ p ∧ R.Rep p) {rng : Nat → ℝ × ℝ}
    (hrng : ∀ c, 0 < (rng c).2 ∧ (rng c).2 < 1) {g : Geometry K}
    {summary : Trajectory K → FloatTime R → List (String × Bool) → Row}
    {summary' : Trajectory K → EReal → List (String × Bool) → Row'} {len n p c j : Nat}
    {s s1 : RunState σ φ M ℝ (FloatTime R) K V Row} {s' s1' : RunState σ φ M ℝ EReal K V' Row'}
    (hs : SameButClock s.sim s'.sim) (hg : GoodTable R s'.sim) (ht : s.traj = s'.traj)
    (hc : ClocksAgree R u j s.sim.st.time s'.sim.st.time)
    (h : s.passes (onClock R (realKernel R)) m g summary rng len n p c = (.ok (), s1))
    (h' : s'.passes (realKernel R) m' g summary' rng len n p c = (.ok (), s1')) :
    SameButClock s1.sim s1'.sim ∧ s1.traj = s1'.traj ∧
      ClocksAgree R u (j + n * len) s1.sim.st.time s1'.sim.st.time := by
  induction n generalizing p c s s' j with
  | zero =>
    simp only [RunState.passes, Prod.mk.injEq, true_and] at h h'
    subst h h'
    exact ⟨hs, ht, by simpa using hc⟩
  | succ n ih =>
    unfold RunState.passes at h h'
    rcases e1 : s.prodSteps (onClock R (realKernel R)) m g summary rng len c with ⟨r, s2⟩
    rcases e2 : s'.prodSteps (realKernel R) m' g summary' rng len c with ⟨r', s2'⟩
    rw [e1] at h
    rw [e2] at h'
    cases r with
    | error x => cases h
    | ok _ =>
    cases r' with
    | error x => cases h'
    | ok _ =>
      simp only at h h'
      obtain ⟨q1, q2, q3, q4⟩ := prodSteps_sameClock hu hu1 hm hr hrng hs hg ht hc e1 e2
      have := ih (s := { s2 with currentPass := p }) (s' := { s2' with currentPass := p }) q1 q2 q3 q4 h h'
      rwa [show j + len + n * len = j + (n + 1) * len by ring] at this

end
end KMC
