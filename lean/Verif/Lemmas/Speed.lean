import Verif.Spec.Speed
import Verif.Lemmas.KMC
import Verif.Lemmas.TrackerRun
import Verif.Props.RestartProps
import Mathlib.Tactic.FieldSimp
/-
The same random numbers with all rates multiplied by a constant.
-/
namespace KMC
open Spec

variable {σ φ M : Type}

/-- The two simulations agree up to the speed. -/
structure SameCourse (c : ℝ) (t0 : EReal) (s s' : Sim σ φ M ℝ EReal) : Prop where
  lib : s'.lib = s.lib
  ms : s'.ms = s.ms
  occ : s'.st.occ = s.st.occ
  step : s'.st.step = s.st.step
  prob : s'.prob = s.prob.map (c * ·)
  cum : s'.cum = s.cum.map (c * ·)
  time : ∃ τ, s.st.time = t0 + τ ∧ s'.st.time = t0 + shorter c τ

theorem cumsumFrom_scale (c a : ℝ) (l : List ℝ) :
    cumsumFrom Rounding.exact (c * a) (l.map (c * ·)) = (cumsumFrom Rounding.exact a l).map (c * ·) := by
  induction l generalizing a with
  | nil => rfl
  | cons x xs ih =>
    simp only [List.map_cons, cumsumFrom]
    have : Rounding.exact.rnd (c * a + c * x) = c * Rounding.exact.rnd (a + x) := by
      show c * a + c * x = c * (a + x)
      ring
    rw [this, ih]

theorem cumsum_scale (c : ℝ) (l : List ℝ) :
    cumsum Rounding.exact (l.map (c * ·)) = (cumsum Rounding.exact l).map (c * ·) := by
  cases l with
  | nil => rfl
  | cons x xs =>
    simp only [List.map_cons, cumsum]
    rw [cumsumFrom_scale]

theorem shorter_add {c : ℝ} (hc : 0 < c) (a b : EReal) : shorter c (a + b) = shorter c a + shorter c b := by
  unfold shorter
  exact EReal.left_distrib_of_nonneg_of_ne_top (by exact_mod_cast (by positivity : (0:ℝ) ≤ 1 / c))
    (EReal.coe_ne_top _) a b

theorem shorter_zero (c : ℝ) : shorter c 0 = 0 := by
  unfold shorter; simp

theorem waitingTime_scale {c : ℝ} (hc : 0 < c) (K u : ℝ) :
    waitingTime Rounding.exact (c * K) u = shorter c (waitingTime Rounding.exact K u) := by
  unfold waitingTime shorter
  by_cases hu : u = 0
  · rw [if_pos hu, if_pos hu, EReal.coe_mul_top_of_pos (by positivity)]
  · rw [if_neg hu, if_neg hu, ← EReal.coe_mul]
    congr 1
    show -1 / (c * K) * Real.log u = 1 / c * (-1 / K * Real.log u)
    by_cases hK : K = 0
    · simp [hK]
    · field_simp

theorem propose_scale {c : ℝ} (hc : 0 < c) (cum : List ℝ) (r1 r2 : ℝ) :
    propose Rounding.exact (cum.map (c * ·)) r1 r2 =
      match propose Rounding.exact cum r1 r2 with
      | .error x => .error x
      | .ok (i, dt) => .ok (i, shorter c dt) := by
  unfold propose
  rw [List.getLast?_map]
  cases cum.getLast? with
  | none => rfl
  | some tot =>
    simp only [Option.map_some]
    by_cases ht : tot = 0
    · rw [if_pos ht, if_pos (by rw [ht, mul_zero])]
    · rw [if_neg ht, if_neg (mul_ne_zero hc.ne' ht), waitingTime_scale hc]
      simp only [List.map_map]
      congr 4
      funext x
      show c * x / (c * tot) = x / tot
      exact mul_div_mul_left _ _ hc.ne'

theorem initialProbs_scale {c : ℝ} {m m' : RateModel M ℝ EReal} (h : SpedUp c m m') (ms : M) (st : State EReal)
    {es : List Event} {ps : List ℝ} (hp : initialProbs m ms st es = .ok ps) :
    initialProbs m' ms st es = .ok (ps.map (c * ·)) := by
  induction es generalizing ps with
  | nil => cases hp; rfl
  | cons e es ih =>
    unfold initialProbs at hp ⊢
    cases h1 : m.computeProbability ms e st with
    | error x => rw [h1] at hp; cases hp
    | ok p =>
      rw [h1] at hp
      simp only at hp
      cases h2 : initialProbs m ms st es with
      | error x => rw [h2] at hp; cases hp
      | ok qs =>
        rw [h2] at hp
        cases hp
        rw [h.rate ms e st st rfl rfl p h1, ih h2]
        rfl

theorem init_scale {c : ℝ} {m m' : RateModel M ℝ EReal} (h : SpedUp c m m') {lib : EventLib σ φ}
    {lookup : Option HopStateLookup} {st : State EReal} {s0 : Sim σ φ M ℝ EReal}
    (hi : Sim.init (realKernel Rounding.exact) m lib lookup (some st) = .ok s0) :
    ∃ s0', Sim.init (realKernel Rounding.exact) m' lib lookup (some st) = .ok s0' ∧ SameCourse c st.time s0 s0' := by
  unfold Sim.init at hi ⊢
  simp only at hi ⊢
  split at hi
  · cases hi
  · rename_i lib' hl
    rw [h.start st st lib'.events rfl rfl]
    cases h1 : m.initializeState st lib'.events with
    | error x => rw [h1] at hi; cases hi
    | ok ms =>
      rw [h1] at hi
      simp only at hi ⊢
      cases h2 : initialProbs m ms st lib'.events with
      | error x => rw [h2] at hi; cases hi
      | ok p =>
        rw [h2] at hi
        have e0 := Except.ok.inj hi
        rw [initialProbs_scale h ms st h2]
        refine ⟨_, rfl, ?_⟩
        subst e0
        refine ⟨rfl, rfl, rfl, rfl, rfl, cumsum_scale c p, 0, ?_, ?_⟩
        · show st.time = st.time + 0
          rw [add_zero]
        · show st.time = st.time + shorter c 0
          rw [shorter_zero, add_zero]

theorem propose_inStep {c : ℝ} (hc : 0 < c) {t0 : EReal} {s s' : Sim σ φ M ℝ EReal} (h : SameCourse c t0 s s')
    {r1 r2 : ℝ} {e : Event} {dt : EReal} (hp : s.propose (realKernel Rounding.exact) r1 r2 = .ok (e, dt)) :
    s'.propose (realKernel Rounding.exact) r1 r2 = .ok (e, shorter c dt) := by
  unfold Sim.propose at hp ⊢
  have h1 : (realKernel Rounding.exact).propose s'.cum r1 r2 = propose Rounding.exact (s.cum.map (c * ·)) r1 r2 := by
    rw [h.cum]; rfl
  rw [h1, propose_scale hc, h.lib]
  have h2 : (realKernel Rounding.exact).propose s.cum r1 r2 = propose Rounding.exact s.cum r1 r2 := rfl
  rw [h2] at hp
  cases h3 : propose Rounding.exact s.cum r1 r2 with
  | error x => rw [h3] at hp; cases hp
  | ok q =>
    obtain ⟨i, dt'⟩ := q
    rw [h3] at hp
    simp only at hp ⊢
    cases h4 : s.lib.events[i]? with
    | none => rw [h4] at hp; cases hp
    | some e' =>
      rw [h4] at hp
      have := Except.ok.inj hp
      cases this
      rfl

theorem pySet_map {α β : Type} (f : α → β) {l l' : List α} {i : Int} {x : α} (h : pySet l i x = .ok l') :
    pySet (l.map f) i (f x) = .ok (l'.map f) := by
  unfold pySet at h ⊢
  simp only [List.length_map]
  split at h
  · cases h
  · rename_i k hk
    cases h
    simp [List.map_set]

theorem recompute_scale {c : ℝ} {m m' : RateModel M ℝ EReal} (h : SpedUp c m m') {events : List Event} {ms : M}
    {st st' : State EReal} (ho : st'.occ = st.occ) (hs : st'.step = st.step) {is : List Int} {l l' : List ℝ}
    (hr : recompute m events ms st is l = (.ok (), l')) :
    recompute m' events ms st' is (l.map (c * ·)) = (.ok (), l'.map (c * ·)) := by
  induction is generalizing l with
  | nil => cases hr; rfl
  | cons i is ih =>
    unfold recompute at hr ⊢
    cases h1 : pyGet events i with
    | error x => rw [h1] at hr; cases hr
    | ok e =>
      rw [h1] at hr
      simp only at hr ⊢
      cases h2 : m.computeProbability ms e st with
      | error x => rw [h2] at hr; cases hr
      | ok p =>
        rw [h2] at hr
        simp only at hr
        rw [h.rate ms e st st' ho hs p h2]
        simp only
        cases h3 : pySet l i p with
        | error x => rw [h3] at hr; cases hr
        | ok l1 =>
          rw [h3] at hr
          simp only at hr
          rw [pySet_map (c * ·) h3]
          exact ih hr

/-- `State.applyEvent` on two states that differ in the clock. -/
theorem applyEvent_clock {st st' st1 : State EReal} (ho : st'.occ = st.occ) (hs : st'.step = st.step) {e : Event}
    {dt dt' : EReal} (h : st.applyEvent e dt = (.ok (), st1)) :
    ∃ st1', st'.applyEvent e dt' = (.ok (), st1') ∧ st1'.occ = st1.occ ∧ st1'.step = st1.step ∧
      st1.time = st.time + dt ∧ st1'.time = st'.time + dt' := by
  unfold State.applyEvent at h ⊢
  rw [ho, hs]
  cases h1 : unpack2 e.mobile with
  | error x => rw [h1] at h; cases h
  | ok ft =>
    obtain ⟨f, t⟩ := ft
    rw [h1] at h
    simp only at h ⊢
    cases h2 : pyGet st.occ t with
    | error x => rw [h2] at h; cases h
    | ok vt =>
      rw [h2] at h
      simp only at h ⊢
      cases h3 : pyGet st.occ f with
      | error x => rw [h3] at h; cases h
      | ok vf =>
        rw [h3] at h
        simp only at h ⊢
        cases h4 : pySet st.occ f vt with
        | error x => rw [h4] at h; cases h
        | ok o1 =>
          rw [h4] at h
          simp only at h ⊢
          cases h5 : pySet o1 t vf with
          | error x => rw [h5] at h; cases h
          | ok o2 =>
            rw [h5] at h
            cases h
            exact ⟨_, rfl, rfl, rfl, rfl, rfl⟩

theorem update_inStep {c : ℝ} (hc : 0 < c) {m m' : RateModel M ℝ EReal} (h : SpedUp c m m') {t0 : EReal}
    {s s' s1 : Sim σ φ M ℝ EReal} (hr : SameCourse c t0 s s') {e : Event} {dt : EReal}
    (hu : s.update (realKernel Rounding.exact) m e dt = (.ok (), s1)) :
    ∃ s1', s'.update (realKernel Rounding.exact) m' e (shorter c dt) = (.ok (), s1') ∧ SameCourse c t0 s1 s1' := by
  unfold Sim.update at hu ⊢
  rcases h1 : s.st.applyEvent e dt with ⟨r, st1⟩
  rw [h1] at hu
  cases r with
  | error x => cases hu
  | ok u =>
    obtain ⟨st1', a1, a2, a3, a4, a5⟩ := applyEvent_clock hr.occ hr.step (dt' := shorter c dt) h1
    rw [a1]
    simp only at hu ⊢
    rw [hr.ms, h.follow s.ms e st1 st1' a2 a3]
    rcases h2 : m.applyEvent s.ms e st1 with ⟨r2, ms⟩
    rw [h2] at hu
    cases r2 with
    | error x => cases hu
    | ok u2 =>
      simp only at hu ⊢
      rw [hr.lib]
      cases h3 : indexOfEvent s.lib.events e with
      | error x => rw [h3] at hu; cases hu
      | ok i =>
        rw [h3] at hu
        simp only at hu ⊢
        rcases h4 : recompute m s.lib.events ms st1 (s.lib.getDependentEvents i) s.prob with ⟨r4, prob⟩
        rw [h4] at hu
        cases r4 with
        | error x => cases hu
        | ok u4 =>
          simp only [Prod.mk.injEq, true_and] at hu
          rw [hr.prob, recompute_scale h a2 a3 h4]
          refine ⟨_, rfl, ?_⟩
          subst hu
          obtain ⟨τ, b1, b2⟩ := hr.time
          refine ⟨rfl, rfl, a2, a3, rfl, cumsum_scale c prob, τ + dt, ?_, ?_⟩
          · show st1.time = _
            rw [a4, b1, add_assoc]
          · show st1'.time = _
            rw [a5, b2, shorter_add hc, add_assoc]

theorem steps_inStep {c : ℝ} (hc : 0 < c) {m m' : RateModel M ℝ EReal} (h : SpedUp c m m') {t0 : EReal}
    {rng : Nat → ℝ × ℝ} {advance : Bool} {n : Nat} {s s1 : Sim σ φ M ℝ EReal} {hist : List (Event × EReal)}
    (hst : Steps (realKernel Rounding.exact) m rng advance n s hist s1) {s' : Sim σ φ M ℝ EReal}
    (hr : SameCourse c t0 s s') :
    ∃ s1', Steps (realKernel Rounding.exact) m' rng advance n s'
      (hist.map fun q => (q.1, shorter c q.2)) s1' ∧ SameCourse c t0 s1 s1' := by
  induction hst generalizing s' with
  | nil n s => exact ⟨s', .nil _ _, hr⟩
  | @cons _ _ _ _ e dt _ hp hu _ ih =>
    obtain ⟨s2', a1, a2⟩ := update_inStep hc h hr hu
    obtain ⟨s1', b1, b2⟩ := ih a2
    refine ⟨s1', .cons (propose_inStep hc hr hp) ?_ b1, b2⟩
    cases advance with
    | true => simpa using a1
    | false => simpa [shorter_zero] using a1

theorem tracked_inStep {c : ℝ} (hc : 0 < c) {m m' : RateModel M ℝ EReal} (h : SpedUp c m m') {t0 : EReal}
    {K : Type} [Field K] [LinearOrder K] [FloorRing K] {g : Geometry K}
    {rng : Nat → ℝ × ℝ} {n : Nat} {s s1 : Sim σ φ M ℝ EReal} {t t1 : Trajectory K}
    {hist : List (List Int × Event)}
    (hst : TrackedSteps (realKernel Rounding.exact) m g rng n s t hist s1 t1) {s' : Sim σ φ M ℝ EReal}
    (hr : SameCourse c t0 s s') :
    ∃ s1', TrackedSteps (realKernel Rounding.exact) m' g rng n s' t hist s1' t1 ∧ SameCourse c t0 s1 s1' := by
  induction hst generalizing s' with
  | nil n s t => exact ⟨s', .nil _ _ _, hr⟩
  | @cons _ _ _ _ _ _ _ e dt _ hp ht hu _ ih =>
    obtain ⟨s2', a1, a2⟩ := update_inStep hc h hr hu
    obtain ⟨s1', b1, b2⟩ := ih a2
    refine ⟨s1', ?_, b2⟩
    rw [← hr.occ]
    rw [← hr.occ] at ht
    exact .cons (propose_inStep hc hr hp) ht a1 b1

theorem tracked_unique {K : Type} [Field K] [LinearOrder K] [FloorRing K] {R T U : Type} [Add T]
    {k : Kernel R T U} {m : RateModel M R T} {g : Geometry K} {rng : Nat → U × U} {n : Nat}
    {s s1 s2 : Sim σ φ M R T} {t t1 t2 : Trajectory K} {h1 h2 : List (List Int × Event)}
    (a : TrackedSteps k m g rng n s t h1 s1 t1) (b : TrackedSteps k m g rng n s t h2 s2 t2)
    (hl : h1.length = h2.length) : h1 = h2 ∧ s1 = s2 ∧ t1 = t2 := by
  induction a generalizing h2 s2 t2 with
  | nil =>
    cases b with
    | nil => exact ⟨rfl, rfl, rfl⟩
    | cons => simp at hl
  | @cons _ _ _ _ _ _ _ e dt _ hp ht hu _ ih =>
    cases b with
    | nil => simp at hl
    | @cons _ _ _ _ _ _ _ e' dt' _ hp' ht' hu' hs' =>
      rw [hp] at hp'
      cases hp'
      rw [ht] at ht'
      cases ht'
      rw [hu] at hu'
      cases hu'
      obtain ⟨c1, c2, c3⟩ := ih hs' (by simpa using hl)
      exact ⟨by rw [c1], c2, c3⟩

theorem spedUp_symm {c : ℝ} (hc : 0 < c) {m m' : RateModel M ℝ EReal} (h : SpedUp c m m') :
    SpedUp (1 / c) m' m := by
  refine ⟨fun st st' es h1 h2 => (h.start st' st es h1.symm h2.symm).symm,
    fun ms e st st' h1 h2 => (h.follow ms e st' st h1.symm h2.symm).symm, ?_, ?_⟩
  · intro ms e st st' h1 h2 p hp
    cases h3 : m.computeProbability ms e st' with
    | error x => rw [h.error ms e st' st h1.symm h2.symm x h3] at hp; cases hp
    | ok q =>
      rw [h.rate ms e st' st h1.symm h2.symm q h3] at hp
      cases hp
      congr 1
      field_simp
  · intro ms e st st' h1 h2 x hx
    cases h3 : m.computeProbability ms e st' with
    | error y =>
      rw [h.error ms e st' st h1.symm h2.symm y h3] at hx
      exact hx
    | ok q => rw [h.rate ms e st' st h1.symm h2.symm q h3] at hx; cases hx

theorem run_inStep {c : ℝ} (hc : 0 < c) {m m' : RateModel M ℝ EReal} (h : SpedUp c m m') {t0 : EReal}
    {K V Row : Type} [Field K] [LinearOrder K] [FloorRing K] {g : Geometry K} {lookup : Option HopStateLookup}
    {summary : Trajectory K → EReal → List (String × Bool) → Row} {plan plan' : PropertyPlan EReal V}
    {rng : Nat → ℝ × ℝ} {len equil prod : Nat} {s s' : Sim σ φ M ℝ EReal} (hr : SameCourse c t0 s s')
    (h1 : (s.run (realKernel Rounding.exact) m g lookup summary plan rng len equil prod).outcome = .ok ())
    (h2 : (s'.run (realKernel Rounding.exact) m' g lookup summary plan' rng len equil prod).outcome = .ok ()) :
    ∃ rs rs' : RunState σ φ M ℝ EReal K V Row,
      (s.run (realKernel Rounding.exact) m g lookup summary plan rng len equil prod).tracker = some rs ∧
      (s'.run (realKernel Rounding.exact) m' g lookup summary plan' rng len equil prod).tracker = some rs' ∧
      rs'.traj = rs.traj ∧ SameCourse c t0 rs.sim rs'.sim := by
  obtain ⟨s1, traj, sm, rs, a1, a2, -, a4, a5⟩ := run_ok h1
  obtain ⟨s1', traj', sm', rs', b1, b2, -, b4, b5⟩ := run_ok h2
  obtain ⟨eq, hl1, heq⟩ := equilSteps_steps a1
  obtain ⟨eq', hl1', heq'⟩ := equilSteps_steps b1
  obtain ⟨x, hx, hin⟩ := steps_inStep hc h heq hr
  have hone : x = s1' := (steps_unique hx heq' (by simp [hl1, hl1'])).2
  subst hone
  have htraj : traj' = traj := by
    rw [hin.occ, a2] at b2
    cases b2; rfl
  subst htraj
  obtain ⟨hist, hl, hh⟩ := passes_tracked a4
  obtain ⟨hist', hl', hh'⟩ := passes_tracked b4
  obtain ⟨y, hy, hin2⟩ := tracked_inStep hc h hh hin
  obtain ⟨-, hs2, ht2⟩ := tracked_unique hy hh' (by rw [hl, hl'])
  subst hs2
  refine ⟨rs, rs', by rw [a5], by rw [b5], ht2.symm, hin2⟩

end KMC
