import Verif.Lemmas.RoundedChoice
/-
A run in floating-point arithmetic beside the run in exact arithmetic with the same random numbers.
-/
set_option linter.unusedSectionVars false

namespace KMC
open Spec MeasureTheory ProbabilityTheory

section
variable {σ φ M ρ T T' U U' : Type} [Add T] [Add T']

theorem sameConfiguration_symm {s : Sim σ φ M ρ T} {s' : Sim σ φ M ρ T'} (h : SameConfiguration s s') :
    SameConfiguration s' s := ⟨h.lib.symm, h.occ.symm, h.step.symm, h.ms.symm, h.prob.symm⟩

/-- What one simulation can execute, the other can. -/
theorem update_follows (k : Kernel ρ T U) {k' : Kernel ρ T' U'} {m : RateModel M ρ T} {m' : RateModel M ρ T'}
    (hm : IgnoresClock m m') {s : Sim σ φ M ρ T} {s' s1' : Sim σ φ M ρ T'} (hs : SameConfiguration s s') {e : Event}
    {dt' : T'} (h' : s'.update k' m' e dt' = (.ok (), s1')) (dt : T) :
    ∃ s1, s.update k m e dt = (.ok (), s1) ∧ SameConfiguration s1 s1' ∧ s1.cum = k.cumsum s1.prob ∧
      s1'.cum = k'.cumsum s1'.prob ∧ s1.st.time = s.st.time + dt ∧ s1'.st.time = s'.st.time + dt' := by
  obtain ⟨st', ms', i', prob', b1, b2, b3, b4, rfl⟩ := update_ok h'
  obtain ⟨st, hst, hocc, hstep, htime, htime'⟩ : ∃ st, s.st.applyEvent e dt = (.ok (), st) ∧ st.occ = st'.occ ∧
      st.step = st'.step ∧ st.time = s.st.time + dt ∧ st'.time = s'.st.time + dt' := by
    obtain ⟨f', t', x', y', hx', hy', he', q1, q2, rfl⟩ := applyEvent_ok b1
    rcases applyEvent_cases s.st e dt with ⟨x, hx⟩ | ⟨f, t, i, j, hi, hj, he, h1, h2, h3⟩
    · exfalso
      have hu : unpack2 e.mobile = .ok (f', t') := unpack2_ok_iff.2 he'
      unfold State.applyEvent at hx
      rw [← hs.occ] at q1 q2
      simp only [hu] at hx
      rw [pyGet_of_idx q1, pyGet_of_idx q2] at hx
      simp [pySet, q1, q2] at hx
    · rw [he] at he'
      simp only [List.cons.injEq, and_true] at he'
      obtain ⟨rfl, rfl⟩ := he'
      rw [← hs.occ] at q1 q2
      have ex : i = x' := Option.some.inj (h1.symm.trans q1)
      have ey : j = y' := Option.some.inj (h2.symm.trans q2)
      subst ex ey
      refine ⟨_, h3, ?_, ?_, rfl, rfl⟩
      · simp only [hs.occ]
      · simp only [hs.step]
  have hap := hm.applies s.ms e st st' hocc hstep
  rw [hs.ms, b2] at hap
  have hrec := recompute_sameClock hm s.lib.events ms' hocc hstep (s.lib.getDependentEvents i') s.prob
  rw [hs.lib, hs.prob, b4] at hrec
  refine ⟨{ lib := s.lib, st := st, ms := ms', prob := prob', cum := k.cumsum prob' }, ?_,
    ⟨hs.lib, hocc, hstep, rfl, rfl⟩, rfl, rfl, htime, htime'⟩
  unfold Sim.update
  simp only [hst]
  rw [hs.ms, hap]
  simp only [hs.lib, b3]
  rw [hs.prob, hrec]

theorem init_sameConfiguration {k : Kernel ρ T U} {k' : Kernel ρ T' U'} {m : RateModel M ρ T}
    {m' : RateModel M ρ T'} (hm : IgnoresClock m m') {lib : EventLib σ φ} {lookup : Option HopStateLookup} {st : State T}
    {st' : State T'} (h1 : st.occ = st'.occ) (h2 : st.step = st'.step) {s : Sim σ φ M ρ T} {s' : Sim σ φ M ρ T'}
    (hs : Sim.init k m lib lookup (some st) = .ok s) (hs' : Sim.init k' m' lib lookup (some st') = .ok s') :
    SameConfiguration s s' := by
  have key : ∀ lib' : EventLib σ φ,
      (match m.initializeState st lib'.events with
        | .error e => (.error e : Py (Sim σ φ M ρ T))
        | .ok ms =>
          match initialProbs m ms st lib'.events with
          | .error e => .error e
          | .ok p => .ok { lib := lib', st := st, ms := ms, prob := p, cum := k.cumsum p }) = .ok s →
      (match m'.initializeState st' lib'.events with
        | .error e => (.error e : Py (Sim σ φ M ρ T'))
        | .ok ms =>
          match initialProbs m' ms st' lib'.events with
          | .error e => .error e
          | .ok p => .ok { lib := lib', st := st', ms := ms, prob := p, cum := k'.cumsum p }) = .ok s' →
      SameConfiguration s s' := by
    intro lib' a b
    rw [hm.starts st st' lib'.events h1 h2] at a
    cases e1 : m'.initializeState st' lib'.events with
    | error x => rw [e1] at a; cases a
    | ok ms =>
      rw [e1] at a b
      simp only at a b
      rw [initialProbs_sameClock hm ms h1 h2] at a
      cases e2 : initialProbs m' ms st' lib'.events with
      | error x => rw [e2] at a; cases a
      | ok p =>
        rw [e2] at a b
        cases a
        cases b
        exact ⟨rfl, h1, h2, rfl, rfl⟩
  unfold Sim.init at hs hs'
  cases lookup with
  | none => exact key lib hs hs'
  | some l =>
    simp only at hs hs'
    cases e : l.annotateEvents lib.events with
    | error x => rw [e] at hs; cases hs
    | ok es => rw [e] at hs hs'; exact key _ hs hs'

theorem recompute_keeps_length {m : RateModel M ρ T} {events : List Event} {ms : M} {st : State T} (is : List Int)
    (prob : List ρ) : (recompute m events ms st is prob).2.length = prob.length := by
  induction is generalizing prob with
  | nil => rfl
  | cons i is ih =>
    simp only [recompute]
    cases pyGet events i with
    | error x => rfl
    | ok e =>
      simp only
      cases m.computeProbability ms e st with
      | error x => rfl
      | ok p =>
        simp only
        cases hp : pySet prob i p with
        | error x => rfl
        | ok prob' =>
          simp only
          rw [ih prob']
          unfold pySet at hp
          split at hp
          · cases hp
          · cases hp
            simp

theorem update_keeps_length {k : Kernel ρ T U} {m : RateModel M ρ T} {s s1 : Sim σ φ M ρ T} {e : Event} {dt : T}
    (h : s.update k m e dt = (.ok (), s1)) : s1.prob.length = s.prob.length := by
  obtain ⟨st, ms, i, prob, -, -, -, h4, rfl⟩ := update_ok h
  have := recompute_keeps_length (m := m) (events := s.lib.events) (ms := ms) (st := st) (s.lib.getDependentEvents i) s.prob
  rw [h4] at this
  exact this

end

section
variable {σ φ M : Type} {R : Rounding} {u : ℝ}

theorem ignoresClock_exact {m : RateModel M ℝ (FloatTime R)} {m' : RateModel M ℝ EReal} (hm : IgnoresClock m m') :
    IgnoresClock m' m' where
  starts st st' es h1 h2 := by
    rw [← hm.starts ⟨st.occ, 0, st.step⟩ st es rfl rfl, ← hm.starts ⟨st.occ, 0, st.step⟩ st' es h1 h2]
  applies ms e st st' h1 h2 := by
    rw [← hm.applies ms e ⟨st.occ, 0, st.step⟩ st rfl rfl, ← hm.applies ms e ⟨st.occ, 0, st.step⟩ st' h1 h2]
  computes ms e st st' h1 h2 := by
    rw [← hm.computes ms e ⟨st.occ, 0, st.step⟩ st rfl rfl, ← hm.computes ms e ⟨st.occ, 0, st.step⟩ st' h1 h2]

/-- In the next `n` steps the rounded arithmetic chooses the events that the exact arithmetic chooses. -/
def Agrees (R : Rounding) (m' : RateModel M ℝ EReal) (draws : Nat → ℝ × ℝ) : Nat → Nat → Sim σ φ M ℝ EReal → Prop
  | 0, _, _ => True
  | n + 1, c, s =>
    (0 < (draws c).2 ∧ (draws c).2 < 1) ∧
    (∀ i, Picks Rounding.exact s.prob (draws c).1 i → Picks R s.prob (draws c).1 i) ∧
    ∀ e dt d s1, s.propose (realKernel Rounding.exact) (draws c).1 (draws c).2 = .ok (e, d) →
      s.update (realKernel Rounding.exact) m' e dt = (.ok (), s1) → Agrees R m' draws n (c + 1) s1

theorem agrees_congr {m' : RateModel M ℝ EReal} (hm : IgnoresClock m' m') (draws : Nat → ℝ × ℝ) (n : Nat) :
    ∀ (c : Nat) (s s' : Sim σ φ M ℝ EReal), SameConfiguration s s' → s.cum = s'.cum → Agrees R m' draws n c s →
      Agrees R m' draws n c s' := by
  induction n with
  | zero => intro c s s' _ _ _; trivial
  | succ n ih =>
    rintro c s s' hs hc ⟨h0, h1, h2⟩
    refine ⟨h0, by rw [← hs.prob]; exact h1, fun e dt d s1' hp hu => ?_⟩
    obtain ⟨s1, u1, c1, k1, k2, -⟩ := update_follows (realKernel Rounding.exact) hm hs hu dt
    refine ih (c + 1) s1 s1' c1 (by rw [k1, k2, c1.prob]) (h2 e dt d s1 ?_ u1)
    rw [← hp]
    unfold Sim.propose
    rw [hs.lib, hc]

/-- The simulations in the two arithmetics. -/
structure Beside (R : Rounding) (s : Sim σ φ M ℝ (FloatTime R)) (s' : Sim σ φ M ℝ EReal) : Prop where
  same : SameConfiguration s s'
  cum : s.cum = cumsum R s.prob
  cum' : s'.cum = cumsum Rounding.exact s'.prob
  rates : ∀ p ∈ s'.prob, 0 ≤ p ∧ R.Rep p

variable {m : RateModel M ℝ (FloatTime R)} {m' : RateModel M ℝ EReal}

theorem propose_picks {s : Sim σ φ M ℝ EReal} (hc : s.cum = cumsum Rounding.exact s.prob) {r1 r2 : ℝ} {e : Event}
    {d : EReal} (h : s.propose (realKernel Rounding.exact) r1 r2 = .ok (e, d)) :
    ∃ i tot, Picks Rounding.exact s.prob r1 i ∧ s.lib.events[i]? = some e ∧
      (cumsum Rounding.exact s.prob).getLast? = some tot ∧ d = waitingTime Rounding.exact tot r2 := by
  unfold Sim.propose at h
  rw [hc] at h
  cases hp : (realKernel Rounding.exact).propose (cumsum Rounding.exact s.prob) r1 r2 with
  | error x => rw [hp] at h; cases h
  | ok p =>
    obtain ⟨i, d'⟩ := p
    rw [hp] at h
    simp only at h
    cases he : s.lib.events[i]? with
    | none => rw [he] at h; cases h
    | some x =>
      rw [he] at h
      obtain ⟨rfl, rfl⟩ := Prod.mk.inj (Except.ok.inj h)
      have hpk : Picks Rounding.exact s.prob r1 i := ⟨r2, d', hp⟩
      obtain ⟨tot, t1, -, t3⟩ := picks_propose hpk r2
      have hp' : propose Rounding.exact (cumsum Rounding.exact s.prob) r1 r2 = .ok (i, d') := hp
      rw [t3] at hp'
      exact ⟨i, tot, hpk, he, t1, ((Prod.mk.inj (Except.ok.inj hp')).2).symm⟩

/-- Two times that are numbers, not negative, and equal up to a factor. -/
def TimesWithin (R : Rounding) (a : ℝ) (t : FloatTime R) (t' : EReal) : Prop :=
  ∃ x y : ℝ, t.val = (x : EReal) ∧ t' = (y : EReal) ∧ 0 ≤ x ∧ 0 ≤ y ∧ WithinFactor a x y

theorem timesWithin_add (hu : Accurate R u) (hu1 : u ≤ 1) {n : Nat} {t d : FloatTime R} {t' d' : EReal}
    {j : Nat} (h : TimesWithin R ((1 - u) ^ (n + j)) t t') (hd : TimesWithin R ((1 - u) ^ n) d d') :
    TimesWithin R ((1 - u) ^ (n + (j + 1))) (t + d) (t' + d') := by
  obtain ⟨x, y, hx, hy, x0, y0, w⟩ := h
  obtain ⟨a, b, ha, hb, a0, b0, v⟩ := hd
  have hu0 := accurate_nonneg hu
  have q0 : 0 ≤ 1 - u := by linarith
  have hle : (1 - u) ^ (n + j) ≤ (1 - u) ^ n := pow_le_pow_of_le_one q0 (by linarith) (by omega)
  have hadd := w.add (v.weaken hle a0 b0)
  refine ⟨R.rnd (x + a), y + b, ?_, by rw [hy, hb]; push_cast; rfl, ?_, by linarith, ?_⟩
  · show roundTime R (t.val + d.val) = _
    rw [hx, ha, ← EReal.coe_add, roundTime_coe]
  · calc (0 : ℝ) = R.rnd 0 := R.zero.symm
      _ ≤ _ := R.mono (by linarith)
  · have := (rnd_within hu hu1 (show 0 ≤ x + a by linarith)).trans hadd q0 (pow_nonneg q0 _)
    rwa [← pow_succ', show n + j + 1 = n + (j + 1) by omega] at this

/-- One step in the two arithmetics. -/
theorem beside_step (hu : Accurate R u) (hu1 : u ≤ 1) (hm : IgnoresClock m m')
    (hr : ∀ ms e st p, m'.computeProbability ms e st = .ok p → 0 ≤ p ∧ R.Rep p) {draws : Nat → ℝ × ℝ} {n c : Nat}
    {s : Sim σ φ M ℝ (FloatTime R)} {s' s1' : Sim σ φ M ℝ EReal} (hs : Beside R s s') (ha : Agrees R m' draws (n + 1) c s')
    {e : Event} {d d' : EReal} (hp : s'.propose (realKernel Rounding.exact) (draws c).1 (draws c).2 = .ok (e, d))
    (hup : s'.update (realKernel Rounding.exact) m' e d' = (.ok (), s1')) :
    Agrees R m' draws n (c + 1) s1' ∧ s1'.prob.length = s'.prob.length ∧
    ∃ w, s.propose (onClock R (realKernel R)) (draws c).1 (draws c).2 = .ok (e, w) ∧
      TimesWithin R ((1 - u) ^ (s'.prob.length + 2)) w d ∧
      ∀ x, ∃ s1, s.update (onClock R (realKernel R)) m e x = (.ok (), s1) ∧ Beside R s1 s1' ∧
        s1.st.time = s.st.time + x ∧ s1'.st.time = s'.st.time + d' := by
  obtain ⟨⟨a1, a2⟩, a3, a4⟩ := ha
  obtain ⟨i, tot', hpk, he, ht', rfl⟩ := propose_picks hs.cum' hp
  have hpos := picks_positive (R := Rounding.exact) (fun p hp => ⟨(hs.rates p hp).1, rfl⟩) hpk
  obtain ⟨tot, ht, hz, hpr⟩ := picks_propose (a3 i hpk) (draws c).2
  obtain ⟨x, y, hx, hy, x0, y0, xr, w⟩ := wait_within hu hu1 hs.rates hpos ht a1 a2
  have htot' : tot' = s'.prob.sum := by
    have hne : s'.prob ≠ [] := by
      obtain ⟨p, hp, -⟩ := hpos
      exact List.ne_nil_of_mem hp
    rw [cumsum_exact_last hne] at ht'
    exact (Option.some.inj ht').symm
  refine ⟨a4 _ _ _ _ hp hup, update_keeps_length hup, .of R (waitingTime R tot (draws c).2), ?_, ?_, fun z => ?_⟩
  · unfold Sim.propose
    rw [hs.cum, hs.same.prob]
    simp only [onClock, realKernel, hpr, hs.same.lib, he]
  · refine ⟨x, y, ?_, by rw [htot', hy], x0, y0, w⟩
    show roundTime R (waitingTime R tot (draws c).2) = _
    rw [hx, roundTime_coe, show R.rnd x = x from xr]
  · obtain ⟨s1, u1, c1, k1, k2, t1, t2⟩ := update_follows (onClock R (realKernel R)) hm hs.same hup z
    refine ⟨s1, u1, ⟨c1, k1, k2, ?_⟩, t1, t2⟩
    obtain ⟨st, ms, j, prob, -, -, -, h3, rfl⟩ := update_ok hup
    have := recompute_all (m := m') (events := s'.lib.events) (ms := ms) (st := st) (P := fun p => 0 ≤ p ∧ R.Rep p)
      (fun e p hp => hr _ _ _ _ hp) (s'.lib.getDependentEvents j) s'.prob hs.rates
    rw [h3] at this
    exact this

/-- Any number of production steps in the two arithmetics. -/
theorem steps_beside (hu : Accurate R u) (hu1 : u ≤ 1) (hm : IgnoresClock m m')
    (hr : ∀ ms e st p, m'.computeProbability ms e st = .ok p → 0 ≤ p ∧ R.Rep p) {draws : Nat → ℝ × ℝ}
    {c : Nat} {s' s1' : Sim σ φ M ℝ EReal} {hist' : List (Event × EReal)}
    (h : Steps (realKernel Rounding.exact) m' draws true c s' hist' s1') :
    ∀ (s : Sim σ φ M ℝ (FloatTime R)) (j : Nat), Beside R s s' → Agrees R m' draws hist'.length c s' →
      TimesWithin R ((1 - u) ^ (s'.prob.length + 2 + j)) s.st.time s'.st.time →
      ∃ hist s1, Steps (onClock R (realKernel R)) m draws true c s hist s1 ∧ hist.map (·.1) = hist'.map (·.1) ∧
        Beside R s1 s1' ∧ TimesWithin R ((1 - u) ^ (s'.prob.length + 2 + (j + hist'.length))) s1.st.time s1'.st.time := by
  induction h with
  | nil c s' => exact fun s j hb _ ht => ⟨[], s, .nil _ _, rfl, hb, by simpa using ht⟩
  | @cons c s' s1' s2' e d hist' hp hup _ ih =>
    intro s j hb ha ht
    simp only [if_true] at hup
    obtain ⟨g1, g2, w, g3, g4, g5⟩ := beside_step hu hu1 hm hr hb ha hp hup
    obtain ⟨s1, f1, f2, f3, f4⟩ := g5 w
    have htime : TimesWithin R ((1 - u) ^ (s1'.prob.length + 2 + (j + 1))) s1.st.time s1'.st.time := by
      rw [f3, f4, g2]
      exact timesWithin_add hu hu1 ht g4
    obtain ⟨hist, s2, k1, k2, k3, k4⟩ := ih s1 (j + 1) f2 g1 htime
    refine ⟨(e, w) :: hist, s2, .cons g3 (by simpa using f1) k1, by simp [k2], k3, ?_⟩
    rw [g2] at k4
    rwa [List.length_cons, show j + (hist'.length + 1) = j + 1 + hist'.length by omega]

theorem equilSteps_beside (hu : Accurate R u) (hu1 : u ≤ 1) (hm : IgnoresClock m m')
    (hr : ∀ ms e st p, m'.computeProbability ms e st = .ok p → 0 ≤ p ∧ R.Rep p) {draws : Nat → ℝ × ℝ} {n r c : Nat}
    {s s1 : Sim σ φ M ℝ (FloatTime R)} {s' s1' : Sim σ φ M ℝ EReal} (hs : Beside R s s')
    (ha : Agrees R m' draws (n + r) c s')
    (h : s.equilSteps (onClock R (realKernel R)) m draws n c = (.ok (), s1))
    (h' : s'.equilSteps (realKernel Rounding.exact) m' draws n c = (.ok (), s1')) :
    Beside R s1 s1' ∧ Agrees R m' draws r (c + n) s1' ∧ s1.st.time = s.st.time ∧ s1'.st.time = s'.st.time ∧
      s1'.prob.length = s'.prob.length := by
  induction n generalizing c s s' with
  | zero =>
    simp only [Sim.equilSteps, Prod.mk.injEq, true_and] at h h'
    subst h h'
    exact ⟨hs, by simpa using ha, rfl, rfl, rfl⟩
  | succ n ih =>
    unfold Sim.equilSteps at h h'
    rcases e1 : s.equilStep (onClock R (realKernel R)) m (draws c).1 (draws c).2 with ⟨q, s2⟩
    rcases e2 : s'.equilStep (realKernel Rounding.exact) m' (draws c).1 (draws c).2 with ⟨q', s2'⟩
    rw [e1] at h
    rw [e2] at h'
    cases q with
    | error x => cases h
    | ok _ =>
    cases q' with
    | error x => cases h'
    | ok _ =>
      simp only at h h'
      unfold Sim.equilStep at e1 e2
      cases p2 : s'.propose (realKernel Rounding.exact) (draws c).1 (draws c).2 with
      | error x => rw [p2] at e2; cases e2
      | ok p' =>
        obtain ⟨e', dt'⟩ := p'
        rw [p2] at e2
        simp only at e2
        rw [show n + 1 + r = n + r + 1 by omega] at ha
        obtain ⟨g1, g2, w, g3, -, g5⟩ := beside_step hu hu1 hm hr hs ha p2 e2
        rw [g3] at e1
        simp only at e1
        obtain ⟨s3, f1, f2, f3, f4⟩ := g5 0
        rw [e1] at f1
        obtain ⟨-, rfl⟩ := Prod.mk.inj f1
        obtain ⟨z1, z2, z3, z4, z5⟩ := ih f2 g1 h h'
        refine ⟨z1, ?_, by rw [z3, f3, floatTime_add_zero], by rw [z4, f4, add_zero], by rw [z5, g2]⟩
        rwa [show c + (n + 1) = c + 1 + n by omega]

variable {K V Row V' Row' : Type} [Field K] [LinearOrder K] [FloorRing K]

theorem prodSteps_beside (hu : Accurate R u) (hu1 : u ≤ 1) (hm : IgnoresClock m m')
    (hr : ∀ ms e st p, m'.computeProbability ms e st = .ok p → 0 ≤ p ∧ R.Rep p) {draws : Nat → ℝ × ℝ} {g : Geometry K}
    {summary : Trajectory K → FloatTime R → List (String × Bool) → Row}
    {summary' : Trajectory K → EReal → List (String × Bool) → Row'} {n r c j : Nat}
    {s s1 : RunState σ φ M ℝ (FloatTime R) K V Row} {s' s1' : RunState σ φ M ℝ EReal K V' Row'}
    (hs : Beside R s.sim s'.sim) (ha : Agrees R m' draws (n + r) c s'.sim) (ht : s.traj = s'.traj)
    (hc : TimesWithin R ((1 - u) ^ (s'.sim.prob.length + 2 + j)) s.sim.st.time s'.sim.st.time)
    (h : s.prodSteps (onClock R (realKernel R)) m g summary draws n c = (.ok (), s1))
    (h' : s'.prodSteps (realKernel Rounding.exact) m' g summary' draws n c = (.ok (), s1')) :
    Beside R s1.sim s1'.sim ∧ Agrees R m' draws r (c + n) s1'.sim ∧ s1.traj = s1'.traj ∧
      s1'.sim.prob.length = s'.sim.prob.length ∧
      TimesWithin R ((1 - u) ^ (s'.sim.prob.length + 2 + (j + n))) s1.sim.st.time s1'.sim.st.time := by
  induction n generalizing c s s' j with
  | zero =>
    simp only [RunState.prodSteps, Prod.mk.injEq, true_and] at h h'
    subst h h'
    exact ⟨hs, by simpa using ha, ht, rfl, hc⟩
  | succ n ih =>
    unfold RunState.prodSteps at h h'
    rcases e1 : s.prodStep (onClock R (realKernel R)) m g summary (draws c).1 (draws c).2 with ⟨q, s2⟩
    rcases e2 : s'.prodStep (realKernel Rounding.exact) m' g summary' (draws c).1 (draws c).2 with ⟨q', s2'⟩
    rw [e1] at h
    rw [e2] at h'
    cases q with
    | error x => cases h
    | ok _ =>
    cases q' with
    | error x => cases h'
    | ok _ =>
      simp only at h h'
      obtain ⟨e, dt, p1, t1, u1, -, -⟩ := prodStep_ok e1
      obtain ⟨e', dt', p2, t2, u2, -, -⟩ := prodStep_ok e2
      rw [show n + 1 + r = n + r + 1 by omega] at ha
      obtain ⟨g1, g2, w, g3, g4, g5⟩ := beside_step hu hu1 hm hr hs ha p2 u2
      rw [p1] at g3
      obtain ⟨rfl, rfl⟩ := Prod.mk.inj (Except.ok.inj g3)
      obtain ⟨s3, f1, f2, f3, f4⟩ := g5 dt
      rw [u1] at f1
      obtain ⟨-, rfl⟩ := Prod.mk.inj f1
      rw [ht, hs.same.occ, t2] at t1
      have hc' : TimesWithin R ((1 - u) ^ (s2'.sim.prob.length + 2 + (j + 1))) s2.sim.st.time s2'.sim.st.time := by
        rw [f3, f4, g2]
        exact timesWithin_add hu hu1 hc g4
      obtain ⟨z1, z2, z3, z4, z5⟩ := ih f2 g1 (Prod.mk.inj t1).2.symm hc' h h'
      rw [g2] at z4 z5
      refine ⟨z1, ?_, z3, z4, ?_⟩
      · rwa [show c + (n + 1) = c + 1 + n by omega]
      · rwa [show j + (n + 1) = j + 1 + n by omega]

theorem passes_beside (hu : Accurate R u) (hu1 : u ≤ 1) (hm : IgnoresClock m m')
    (hr : ∀ ms e st p, m'.computeProbability ms e st = .ok p → 0 ≤ p ∧ R.Rep p) {draws : Nat → ℝ × ℝ} {g : Geometry K}
    {summary : Trajectory K → FloatTime R → List (String × Bool) → Row}
    {summary' : Trajectory K → EReal → List (String × Bool) → Row'} {len n p c j : Nat}
    {s s1 : RunState σ φ M ℝ (FloatTime R) K V Row} {s' s1' : RunState σ φ M ℝ EReal K V' Row'}
    (hs : Beside R s.sim s'.sim) (ha : Agrees R m' draws (n * len) c s'.sim) (ht : s.traj = s'.traj)
    (hc : TimesWithin R ((1 - u) ^ (s'.sim.prob.length + 2 + j)) s.sim.st.time s'.sim.st.time)
    (h : s.passes (onClock R (realKernel R)) m g summary draws len n p c = (.ok (), s1))
    (h' : s'.passes (realKernel Rounding.exact) m' g summary' draws len n p c = (.ok (), s1')) :
    SameConfiguration s1.sim s1'.sim ∧ s1.traj = s1'.traj ∧
      TimesWithin R ((1 - u) ^ (s'.sim.prob.length + 2 + (j + n * len))) s1.sim.st.time s1'.sim.st.time := by
  induction n generalizing p c s s' j with
  | zero =>
    simp only [RunState.passes, Prod.mk.injEq, true_and] at h h'
    subst h h'
    exact ⟨hs.same, ht, by simpa using hc⟩
  | succ n ih =>
    unfold RunState.passes at h h'
    rcases e1 : s.prodSteps (onClock R (realKernel R)) m g summary draws len c with ⟨q, s2⟩
    rcases e2 : s'.prodSteps (realKernel Rounding.exact) m' g summary' draws len c with ⟨q', s2'⟩
    rw [e1] at h
    rw [e2] at h'
    cases q with
    | error x => cases h
    | ok _ =>
    cases q' with
    | error x => cases h'
    | ok _ =>
      simp only at h h'
      rw [show (n + 1) * len = len + n * len by ring] at ha
      obtain ⟨q1, q2, q3, q4, q5⟩ := prodSteps_beside hu hu1 hm hr hs ha ht hc e1 e2
      rw [← q4] at q5
      obtain ⟨z1, z2, z3⟩ := ih (s := { s2 with currentPass := p }) (s' := { s2' with currentPass := p }) q1 q2 q3 q5 h h'
      simp only [q4] at z3
      exact ⟨z1, z2, by rwa [show j + (n + 1) * len = j + len + n * len by ring]⟩

/-- The steps of the two arithmetics differ with small probability. -/
theorem agrees_likely (hu : Accurate R u) (hu1 : u ≤ 1) (hm : IgnoresClock m' m')
    (hr : ∀ ms e st p, m'.computeProbability ms e st = .ok p → 0 ≤ p ∧ R.Rep p) {Θ : Type} [MeasurableSpace Θ]
    {μ : Measure Θ} [IsProbabilityMeasure μ] {U : Nat → Θ → ℝ × ℝ} (hU : RandomNumbers μ U) (N n : Nat) :
    ∀ (c : Nat) (s : Sim σ φ M ℝ EReal), s.cum = cumsum Rounding.exact s.prob → (∀ p ∈ s.prob, 0 ≤ p ∧ R.Rep p) →
      s.prob.length = n →
      ∃ B, MeasurableSet[future U c] B ∧ μ B ≤ N * ENNReal.ofReal (2 * n ^ 2 * u) ∧
        ∀ᵐ ω ∂μ, ω ∉ B → Agrees R m' (fun k => U k ω) N c s := by
  induction N with
  | zero =>
    intro c s _ _ _
    exact ⟨∅, @MeasurableSet.empty _ (future U c), by simp, Filter.Eventually.of_forall fun ω _ => trivial⟩
  | succ N ih =>
    intro c s hc hg hl
    set ε := ENNReal.ofReal (2 * n ^ 2 * u) with hε
    have hg' : ∀ p ∈ s.prob, 0 ≤ p ∧ Rounding.exact.Rep p := fun p hp => ⟨(hg p hp).1, rfl⟩
    by_cases hpos : ∃ p ∈ s.prob, 0 < p
    · -- the sets of the later steps, one for each event
      have hB : ∀ i : Nat, ∃ B, MeasurableSet[future U (c + 1)] B ∧ μ B ≤ N * ε ∧
          ∀ᵐ ω ∂μ, ω ∉ B → ∀ e dt s1, s.lib.events[i]? = some e →
            s.update (realKernel Rounding.exact) m' e dt = (.ok (), s1) → Agrees R m' (fun k => U k ω) N (c + 1) s1 := by
        intro i
        by_cases hex : ∃ e dt s1, s.lib.events[i]? = some e ∧ s.update (realKernel Rounding.exact) m' e dt = (.ok (), s1)
        · obtain ⟨e, dt, s1, he, h1⟩ := hex
          have hk := update_keeps_length h1
          obtain ⟨st, ms, j, prob, -, -, -, h3, hs1⟩ := update_ok h1
          have hg1 := recompute_all (m := m') (events := s.lib.events) (ms := ms) (st := st)
            (P := fun p => 0 ≤ p ∧ R.Rep p) (fun e p hp => hr _ _ _ _ hp) (s.lib.getDependentEvents j) s.prob hg
          rw [h3] at hg1
          obtain ⟨B, b1, b2, b3⟩ := ih (c + 1) s1 (by rw [hs1]; rfl) (by rw [hs1]; exact hg1) (by rw [hk, hl])
          refine ⟨B, b1, b2, ?_⟩
          filter_upwards [b3] with ω hω hb e' dt' s1' he' h1'
          rw [he] at he'
          obtain rfl := Option.some.inj he'
          obtain ⟨s2, u2, c2, k2, k3, -⟩ := update_follows (realKernel Rounding.exact) hm
            (s := s) ⟨rfl, rfl, rfl, rfl, rfl⟩ h1' dt
          rw [h1] at u2
          obtain ⟨-, rfl⟩ := Prod.mk.inj u2
          exact agrees_congr hm _ N _ _ _ c2 (by rw [k2, k3, c2.prob]) (hω hb)
        · refine ⟨∅, @MeasurableSet.empty _ (future U (c + 1)), by simp, ?_⟩
          refine Filter.Eventually.of_forall fun ω _ e dt s1 he h1 => ?_
          exact absurd ⟨e, dt, s1, he, h1⟩ hex
      choose B hB1 hB2 hB3 using hB
      have hfst : Measurable[future U c] fun ω => (U c ω).1 := measurable_fst.comp (future_input U c)
      have hI : ∀ i ∈ Finset.range n, MeasurableSet {r1 | Picks Rounding.exact s.prob r1 i} := by
        intro i hi
        exact picks_measurable hg' hpos i (by rw [hl]; exact Finset.mem_range.1 hi)
      set D := (fun ω => (U c ω).1) ⁻¹' between R s.prob with hD
      set I : Nat → Set Θ := fun i => (fun ω => (U c ω).1) ⁻¹' {r1 | Picks Rounding.exact s.prob r1 i} with hIdef
      have hImeas : ∀ i ∈ Finset.range n, MeasurableSet[future U c] (I i) := fun i hi => hfst (hI i hi)
      refine ⟨D ∪ ⋃ i ∈ Finset.range n, I i ∩ B i, ?_, ?_, ?_⟩
      · refine @MeasurableSet.union _ (future U c) _ _ (hfst (between_measurable R s.prob)) ?_
        refine @Finset.measurableSet_biUnion _ _ (future U c) _ _ fun i hi => ?_
        exact @MeasurableSet.inter _ (future U c) _ _ (hImeas i hi) (future_mono U (Nat.le_succ c) _ (hB1 i))
      · have hDm : μ D ≤ ε := by
          have h1 : μ D = twoUniform (Prod.fst ⁻¹' between R s.prob) := by
            rw [← hU.uniform c, Measure.map_apply (hU.measurable c) (measurable_fst (between_measurable R s.prob))]
            rfl
          rw [h1, ← Measure.map_apply measurable_fst (between_measurable R s.prob)]
          have h2 : twoUniform.map Prod.fst = volume.restrict (Set.Ico (0 : ℝ) 1) :=
            (measurePreserving_fst (μ := volume.restrict (Set.Ico (0 : ℝ) 1))
              (ν := volume.restrict (Set.Ico (0 : ℝ) 1))).map_eq
          rw [h2]
          refine (Measure.restrict_apply_le _ _).trans ?_
          have := between_volume hu hu1 hg hpos
          rwa [hl] at this
        have hsum : ∑ i ∈ Finset.range n, μ (I i) ≤ 1 := by
          have hle := future_le hU.measurable c
          rw [← measure_biUnion_finset ?_ fun i hi => hle _ (hImeas i hi)]
          · exact prob_le_one
          · intro i _ j _ hij
            refine Set.disjoint_left.2 fun ω h1 h2 => hij ?_
            exact picks_unique h1 h2
        have hterm : ∀ i ∈ Finset.range n, μ (I i ∩ B i) ≤ μ (I i) * (N * ε) := by
          intro i hi
          have hind := (Indep_iff _ _ _).1 (future_indep hU.measurable hU.independent c) (I i) (B i)
            ⟨Prod.fst ⁻¹' {r1 | Picks Rounding.exact s.prob r1 i}, measurable_fst (hI i hi), rfl⟩ (hB1 i)
          rw [hind]
          gcongr
          exact hB2 i
        calc μ (D ∪ ⋃ i ∈ Finset.range n, I i ∩ B i) ≤ μ D + μ (⋃ i ∈ Finset.range n, I i ∩ B i) := measure_union_le _ _
          _ ≤ ε + ∑ i ∈ Finset.range n, μ (I i ∩ B i) := add_le_add hDm (measure_biUnion_finset_le _ _)
          _ ≤ ε + ∑ i ∈ Finset.range n, μ (I i) * (N * ε) := by gcongr with i hi; exact hterm i hi
          _ = ε + (∑ i ∈ Finset.range n, μ (I i)) * (N * ε) := by rw [Finset.sum_mul]
          _ ≤ ε + 1 * (N * ε) := by gcongr
          _ = ((N + 1 : Nat) : ENNReal) * ε := by push_cast; ring
      · have hall : ∀ᵐ ω ∂μ, ∀ i, ω ∉ B i → ∀ e dt s1, s.lib.events[i]? = some e →
            s.update (realKernel Rounding.exact) m' e dt = (.ok (), s1) → Agrees R m' (fun k => U k ω) N (c + 1) s1 :=
          ae_all_iff.2 hB3
        filter_upwards [hall, draws_in_range hU] with ω h1 h2 h3
        rw [Set.mem_union, not_or] at h3
        obtain ⟨h4, h5⟩ := h3
        refine ⟨(h2 c).2, fun i hi => ?_, fun e dt d s1 hp hup => ?_⟩
        · exact (picks_same hg hpos (h2 c).1.2 h4 i).2 hi
        · obtain ⟨i, tot, p1, p2, -⟩ := propose_picks hc hp
          refine h1 i (fun hb => h5 ?_) e dt s1 p2 hup
          have hi : i < n := by
            rw [← hl]
            exact picks_lt hg' hpos (h2 c).1.2 p1
          exact Set.mem_biUnion (Finset.mem_coe.2 (Finset.mem_range.2 hi)) ⟨p1, hb⟩
    · refine ⟨∅, @MeasurableSet.empty _ (future U c), by simp, ?_⟩
      filter_upwards [draws_in_range hU] with ω h2 _
      refine ⟨(h2 c).2, fun i hi => absurd (picks_positive hg' hi) hpos, fun e dt d s1 hp _ => ?_⟩
      obtain ⟨i, tot, p1, -⟩ := propose_picks hc hp
      exact absurd (picks_positive hg' p1) hpos

end
end KMC
