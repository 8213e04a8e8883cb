import Verif.Lemmas.RoundedRun
import Verif.Spec.FloatRun
/-
A run in floating-point arithmetic, rates included, beside the exact run with the same random numbers.
-/
set_option linter.unusedSectionVars false

namespace KMC
open Spec MeasureTheory ProbabilityTheory

/-! ### Rates that are nearly the same -/

theorem forall2_take_sum {a : ℝ} {qs ps : List ℝ} (h : List.Forall₂ (WithinFactor a) qs ps) (i : Nat) :
    WithinFactor a (qs.take i).sum (ps.take i).sum := by
  induction h generalizing i with
  | nil => simp [WithinFactor]
  | cons h _ ih =>
    cases i with
    | zero => simp [WithinFactor]
    | succ i => simpa using h.add (ih i)

theorem forall2_sum {a : ℝ} {qs ps : List ℝ} (h : List.Forall₂ (WithinFactor a) qs ps) :
    WithinFactor a qs.sum ps.sum := by
  have := forall2_take_sum h qs.length
  rw [List.take_length, h.length_eq, List.take_length] at this
  exact this

section
variable {R : Rounding} {u a : ℝ} {qs ps : List ℝ}

theorem nearRates_within (h : List.Forall₂ (NearRate R a) qs ps) : List.Forall₂ (WithinFactor a) qs ps :=
  h.imp fun _ _ x => x.within

theorem nearRates_good (h : List.Forall₂ (NearRate R a) qs ps) : ∀ q ∈ qs, 0 ≤ q ∧ R.Rep q := by
  induction h with
  | nil => simp
  | cons h _ ih =>
    intro q hq
    rcases List.mem_cons.1 hq with rfl | hq
    · exact ⟨h.nonneg, h.rep⟩
    · exact ih q hq

theorem nearRates_nonneg (h : List.Forall₂ (NearRate R a) qs ps) : ∀ p ∈ ps, 0 ≤ p ∧ Rounding.exact.Rep p := by
  induction h with
  | nil => simp
  | cons h _ ih =>
    intro q hq
    rcases List.mem_cons.1 hq with rfl | hq
    · exact ⟨h.nonneg', rfl⟩
    · exact ih q hq

theorem nearRates_positive (ha : 0 < a) (h : List.Forall₂ (NearRate R a) qs ps) (hp : ∃ p ∈ ps, 0 < p) :
    ∃ q ∈ qs, 0 < q := by
  induction h with
  | nil => obtain ⟨p, hp, -⟩ := hp; cases hp
  | @cons q p qs ps h _ ih =>
    obtain ⟨p', hp', h0⟩ := hp
    rcases List.mem_cons.1 hp' with rfl | hp'
    · exact ⟨q, by simp, lt_of_lt_of_le (mul_pos ha h0) h.within.1⟩
    · obtain ⟨q', hq', h0'⟩ := ih ⟨p', hp', h0⟩
      exact ⟨q', List.mem_cons_of_mem _ hq', h0'⟩

/-- Nearly the same rates have nearly the same edges. -/
theorem edge_near (ha : 0 < a) (ha1 : a ≤ 1) (h : List.Forall₂ (NearRate R a) qs ps) (hpos : ∃ p ∈ ps, 0 < p)
    {i : Nat} (hi : i < ps.length) :
    |edge Rounding.exact qs i - edge Rounding.exact ps i| ≤ 1 - a * a := by
  have hq0 : ∀ q ∈ qs, 0 ≤ q ∧ Rounding.exact.Rep q := fun q hq => ⟨(nearRates_good h q hq).1, rfl⟩
  have hp0 := nearRates_nonneg h
  have hposq := nearRates_positive ha h hpos
  have hsq := sum_pos_of (fun q hq => (hq0 q hq).1) hposq
  have hsp := sum_pos_of (fun p hp => (hp0 p hp).1) hpos
  have hiq : i < qs.length := by rw [h.length_eq]; exact hi
  obtain ⟨r0, r1⟩ := edge_range hq0 hposq hiq
  obtain ⟨s0, s1⟩ := edge_range hp0 hpos hi
  have e1 := edge_exact hsq hiq
  have e2 := edge_exact hsp hi
  have t1 : 0 ≤ (qs.take (i + 1)).sum := List.sum_nonneg fun x hx => (hq0 x (List.mem_of_mem_take hx)).1
  have t2 : 0 ≤ (ps.take (i + 1)).sum := List.sum_nonneg fun x hx => (hp0 x (List.mem_of_mem_take hx)).1
  have w := (forall2_take_sum (nearRates_within h) (i + 1)).mul ((forall2_sum (nearRates_within h)).inv hsq hsp) ha.le
    ha.le t1 t2 (by positivity) (by positivity)
  rw [mul_one_div, mul_one_div, ← e1, ← e2] at w
  have haa : a * a ≤ 1 := by nlinarith
  obtain ⟨w1, w2⟩ := w
  rw [abs_le]
  constructor
  · have := mul_le_of_le_one_right (show 0 ≤ 1 - a * a by linarith) s1
    nlinarith
  · have := mul_le_of_le_one_right (show 0 ≤ 1 - a * a by linarith) r1
    nlinarith

/-- Random numbers clear of the edges choose the same event. -/
theorem picks_clear (hu : Accurate R u) (hu1 : u ≤ 1) (ha : 0 < a) (ha1 : a ≤ 1)
    (h : List.Forall₂ (NearRate R a) qs ps) (hpos : ∃ p ∈ ps, 0 < p) {r1 : ℝ} (h1 : r1 < 1)
    (hc : KeepsClear (margin u a ps.length) ps r1) (i : Nat) (hp : Picks Rounding.exact ps r1 i) : Picks R qs r1 i := by
  have hp0 := nearRates_nonneg h
  have hq0 := nearRates_good h
  have hposq := nearRates_positive ha h hpos
  have hsp := sum_pos_of (fun p hp => (hp0 p hp).1) hpos
  have hi := picks_lt hp0 hpos h1 hp
  have key : ∀ j, j < ps.length → (r1 < edge R qs j ↔ r1 < edge Rounding.exact ps j) := by
    intro j hj
    have hjq : j < qs.length := by rw [h.length_eq]; exact hj
    have e1 := edge_error hu hu1 hq0 hposq hjq
    have e2 := edge_near ha ha1 h hpos hj
    have e3 := hc j hj
    rw [← edge_exact hsp hj] at e3
    rw [h.length_eq] at e1
    unfold margin at e3
    have e4 : |edge R qs j - edge Rounding.exact ps j| < |r1 - edge Rounding.exact ps j| := by
      refine lt_of_le_of_lt ?_ e3
      calc |edge R qs j - edge Rounding.exact ps j| =
          |(edge R qs j - edge Rounding.exact qs j) + (edge Rounding.exact qs j - edge Rounding.exact ps j)| := by
            congr 1; ring
        _ ≤ _ := abs_add_le _ _
        _ ≤ _ := add_le_add e1 e2
    revert e4
    generalize edge R qs j = x
    generalize edge Rounding.exact ps j = y
    intro e4
    rcases lt_or_ge r1 y with hlt | hge
    · rw [abs_of_neg (by linarith : r1 - y < 0)] at e4
      have := (abs_lt.1 e4).1
      exact ⟨fun _ => hlt, fun _ => by linarith⟩
    · rw [abs_of_nonneg (by linarith : 0 ≤ r1 - y)] at e4
      have := (abs_lt.1 e4).2
      exact ⟨fun _ => by linarith, fun _ => by linarith⟩
  rw [picks_iff hp0 hpos i hi] at hp
  rw [picks_iff hq0 hposq i (by rw [h.length_eq]; exact hi)]
  refine ⟨(key i hi).2 hp.1, fun j hj => ?_⟩
  by_contra h'
  exact absurd ((key j (by omega)).1 (not_le.1 h')) (not_lt.2 (hp.2 j hj))

/-- Waiting times. -/
theorem wait_near (hu : Accurate R u) (hu1 : u ≤ 1) (ha : 0 < a) (h : List.Forall₂ (NearRate R a) qs ps)
    (hpos : ∃ p ∈ ps, 0 < p) {tot : ℝ} (ht : (cumsum R qs).getLast? = some tot) {r2 : ℝ} (h0 : 0 < r2) (h1 : r2 < 1) :
    ∃ x y : ℝ, waitingTime R tot r2 = (x : EReal) ∧ waitingTime Rounding.exact ps.sum r2 = (y : EReal) ∧ 0 ≤ x ∧
      0 ≤ y ∧ R.Rep x ∧ WithinFactor (a * (1 - u) ^ (ps.length + 2)) x y := by
  have hp0 := nearRates_nonneg h
  have hq0 := nearRates_good h
  have hposq := nearRates_positive ha h hpos
  have hsp := sum_pos_of (fun p hp => (hp0 p hp).1) hpos
  have hsq := sum_pos_of (fun q hq => (hq0 q hq).1) hposq
  have hu0 := accurate_nonneg hu
  obtain ⟨x, z, hx, hz, x0, z0, xr, w⟩ := wait_within hu hu1 hq0 hposq ht h0 h1
  have ez : z = -Real.log r2 * (1 / qs.sum) := by
    have : waitingTime Rounding.exact qs.sum r2 = ((-1 / qs.sum * Real.log r2 : ℝ) : EReal) := by
      unfold waitingTime; rw [if_neg h0.ne']; rfl
    rw [this] at hz
    rw [← EReal.coe_eq_coe_iff.1 hz]; ring
  have hlog : 0 ≤ -Real.log r2 := by
    have := Real.log_nonpos h0.le h1.le
    linarith
  refine ⟨x, -Real.log r2 * (1 / ps.sum), hx, ?_, x0, mul_nonneg hlog (by positivity), xr, ?_⟩
  · unfold waitingTime
    rw [if_neg h0.ne']
    congr 1
    show -1 / ps.sum * Real.log r2 = _
    ring
  · have w2 := (forall2_sum (nearRates_within h)).inv hsq hsp
    have w3 : WithinFactor a z (-Real.log r2 * (1 / ps.sum)) := by
      rw [ez]
      have := (WithinFactor.refl (-Real.log r2)).mul w2 zero_le_one ha.le hlog hlog (by positivity) (by positivity)
      rwa [one_mul] at this
    have := w.trans w3 (pow_nonneg (by linarith) _) ha.le
    rw [h.length_eq] at this
    rwa [mul_comm]

end

/-! ### Tables -/

theorem forall2_set {r : ℝ → ℝ → Prop} {qs ps : List ℝ} (h : List.Forall₂ r qs ps) (k : Nat) {q p : ℝ} (hr : r q p) :
    List.Forall₂ r (qs.set k q) (ps.set k p) := by
  induction h generalizing k with
  | nil => exact .nil
  | cons h t ih =>
    cases k with
    | zero => exact .cons hr t
    | succ k => exact .cons h (ih k)

section
variable {σ φ M : Type} {R : Rounding} {u a : ℝ} {m : RateModel M ℝ (FloatTime R)} {m' : RateModel M ℝ EReal}
  {events : List Event} {occ : List Int}

theorem recompute_near (hm : RatesWithin R a events occ m m') (ms : M) {st : State (FloatTime R)} {st' : State EReal}
    (h0 : SameComposition st'.occ occ) (h1 : st.occ = st'.occ) (h2 : st.step = st'.step) (is : List Int) :
    ∀ (qs ps ps1 : List ℝ), List.Forall₂ (NearRate R a) qs ps → recompute m' events ms st' is ps = (.ok (), ps1) →
      ∃ qs1, recompute m events ms st is qs = (.ok (), qs1) ∧ List.Forall₂ (NearRate R a) qs1 ps1 := by
  induction is with
  | nil =>
    intro qs ps ps1 h hr
    simp only [recompute, Prod.mk.injEq, true_and] at hr
    subst hr
    exact ⟨qs, rfl, h⟩
  | cons i is ih =>
    intro qs ps ps1 h hr
    simp only [recompute] at hr ⊢
    cases he : pyGet events i with
    | error x => rw [he] at hr; cases hr
    | ok e =>
      rw [he] at hr
      simp only at hr ⊢
      cases hp : m'.computeProbability ms e st' with
      | error x => rw [hp] at hr; cases hr
      | ok p =>
        rw [hp] at hr
        simp only at hr ⊢
        have hmem : e ∈ events := by
          obtain ⟨j, -, hj⟩ := pyGet_ok_iff.1 he
          exact List.mem_of_getElem? hj
        obtain ⟨q, hq, hqp⟩ := hm.computes ms e st st' hmem h0 h1 h2 p hp
        rw [hq]
        simp only
        unfold pySet at hr ⊢
        rw [h.length_eq]
        cases hk : pyIdx ps.length i with
        | none => rw [hk] at hr; cases hr
        | some k =>
          rw [hk] at hr
          simp only at hr ⊢
          exact ih _ _ _ (forall2_set h k hqp) hr

theorem initialProbs_near (hm : RatesWithin R a events occ m m') (ms : M) {st : State (FloatTime R)} {st' : State EReal}
    (h0 : SameComposition st'.occ occ) (h1 : st.occ = st'.occ) (h2 : st.step = st'.step) :
    ∀ (es : List Event) (ps : List ℝ), (∀ e ∈ es, e ∈ events) → initialProbs m' ms st' es = .ok ps →
      ∃ qs, initialProbs m ms st es = .ok qs ∧ List.Forall₂ (NearRate R a) qs ps := by
  intro es
  induction es with
  | nil =>
    intro ps _ h
    cases h
    exact ⟨[], rfl, .nil⟩
  | cons e es ih =>
    intro ps hes h
    simp only [initialProbs] at h ⊢
    cases hp : m'.computeProbability ms e st' with
    | error x => rw [hp] at h; cases h
    | ok p =>
      rw [hp] at h
      simp only at h
      cases hps : initialProbs m' ms st' es with
      | error x => rw [hps] at h; cases h
      | ok ps0 =>
        rw [hps] at h
        cases h
        obtain ⟨q, hq, hqp⟩ := hm.computes ms e st st' (hes e (by simp)) h0 h1 h2 p hp
        obtain ⟨qs, hqs, hall⟩ := ih ps0 (fun x hx => hes x (List.mem_cons_of_mem _ hx)) hps
        exact ⟨q :: qs, by rw [hq, hqs], .cons hqp hall⟩

/-- The two simulations, rates included. -/
structure Tandem (R : Rounding) (a : ℝ) (events : List Event) (occ : List Int) (s : Sim σ φ M ℝ (FloatTime R))
    (s' : Sim σ φ M ℝ EReal) : Prop where
  lib : s.lib = s'.lib
  occs : s.st.occ = s'.st.occ
  step : s.st.step = s'.st.step
  ms : s.ms = s'.ms
  rates : List.Forall₂ (NearRate R a) s.prob s'.prob
  cum : s.cum = cumsum R s.prob
  cum' : s'.cum = cumsum Rounding.exact s'.prob
  events : s'.lib.events = events
  comp : SameComposition s'.st.occ occ

theorem Tandem.samePlace {s : Sim σ φ M ℝ (FloatTime R)} {s' : Sim σ φ M ℝ EReal} (h : Tandem R a events occ s s') :
    SamePlace a s s' := ⟨h.lib, h.occs, h.step, h.ms, nearRates_within h.rates⟩

theorem update_near (hm : RatesWithin R a events occ m m') {s : Sim σ φ M ℝ (FloatTime R)}
    {s' s1' : Sim σ φ M ℝ EReal} (hs : Tandem R a events occ s s') {e : Event}
    {dt' : EReal} (h' : s'.update (realKernel Rounding.exact) m' e dt' = (.ok (), s1')) (dt : FloatTime R) :
    ∃ s1, s.update (onClock R (realKernel R)) m e dt = (.ok (), s1) ∧ Tandem R a events occ s1 s1' ∧
      s1.st.time = s.st.time + dt ∧ s1'.st.time = s'.st.time + dt' := by
  obtain ⟨st', ms', i', prob', b1, b2, b3, b4, rfl⟩ := update_ok h'
  have hcomp : SameComposition st'.occ occ := by
    have := applyEvent_perm s'.st e dt'
    rw [b1] at this
    rw [sameComposition_iff_perm]
    exact this.trans (sameComposition_iff_perm.1 hs.comp)
  obtain ⟨st, hst, hocc, hstep, htime, htime'⟩ : ∃ st, s.st.applyEvent e dt = (.ok (), st) ∧ st.occ = st'.occ ∧
      st.step = st'.step ∧ st.time = s.st.time + dt ∧ st'.time = s'.st.time + dt' := by
    obtain ⟨f', t', x', y', hx', hy', he', q1, q2, rfl⟩ := applyEvent_ok b1
    rcases applyEvent_cases s.st e dt with ⟨x, hx⟩ | ⟨f, t, i, j, hi, hj, he, h1, h2, h3⟩
    · exfalso
      have hu : unpack2 e.mobile = .ok (f', t') := unpack2_ok_iff.2 he'
      unfold State.applyEvent at hx
      rw [← hs.occs] at q1 q2
      simp only [hu] at hx
      rw [pyGet_of_idx q1, pyGet_of_idx q2] at hx
      simp [pySet, q1, q2] at hx
    · rw [he] at he'
      simp only [List.cons.injEq, and_true] at he'
      obtain ⟨rfl, rfl⟩ := he'
      rw [← hs.occs] at q1 q2
      have ex : i = x' := Option.some.inj (h1.symm.trans q1)
      have ey : j = y' := Option.some.inj (h2.symm.trans q2)
      subst ex ey
      refine ⟨_, h3, ?_, ?_, rfl, rfl⟩
      · simp only [hs.occs]
      · simp only [hs.step]
  have hap := hm.applies s.ms e st st' hocc hstep
  rw [hs.ms, b2] at hap
  rw [hs.events] at b3 b4
  obtain ⟨qs1, g1, g2⟩ := recompute_near hm ms' hcomp hocc hstep (s'.lib.getDependentEvents i') s.prob s'.prob prob'
    hs.rates b4
  refine ⟨{ lib := s.lib, st := st, ms := ms', prob := qs1, cum := cumsum R qs1 }, ?_,
    ⟨hs.lib, hocc, hstep, rfl, g2, rfl, rfl, hs.events, hcomp⟩, htime, htime'⟩
  unfold Sim.update
  simp only [hst]
  rw [hs.ms, hap]
  simp only [hs.lib, hs.events, b3]
  rw [g1]
  rfl

/-- The events as the simulation uses them. -/
def annotated (lookup : Option HopStateLookup) (lib : EventLib σ φ) : Py (EventLib σ φ) :=
  match lookup with
  | none => .ok lib
  | some h =>
    match h.annotateEvents lib.events with
    | .error e => .error e
    | .ok es => .ok { lib with events := es }

theorem init_parts {ρ T U : Type} {k : Kernel ρ T U} {m : RateModel M ρ T} {lib : EventLib σ φ}
    {lookup : Option HopStateLookup} {st : State T} {s : Sim σ φ M ρ T} :
    Sim.init k m lib lookup (some st) = .ok s ↔ ∃ lib' ms p, annotated lookup lib = .ok lib' ∧
      m.initializeState st lib'.events = .ok ms ∧ initialProbs m ms st lib'.events = .ok p ∧
      s = { lib := lib', st := st, ms := ms, prob := p, cum := k.cumsum p } := by
  have e : Sim.init k m lib lookup (some st) =
      match annotated lookup lib with
      | .error e => .error e
      | .ok lib' =>
        match m.initializeState st lib'.events with
        | .error e => .error e
        | .ok ms =>
          match initialProbs m ms st lib'.events with
          | .error e => .error e
          | .ok p => .ok { lib := lib', st := st, ms := ms, prob := p, cum := k.cumsum p } := by
    unfold Sim.init annotated
    cases lookup with
    | none => rfl
    | some h => rfl
  rw [e]
  constructor
  · intro h
    split at h
    · cases h
    · rename_i lib' h1
      split at h
      · cases h
      · rename_i ms h2
        split at h
        · cases h
        · rename_i p h3
          exact ⟨lib', ms, p, h1, h2, h3, (Except.ok.inj h).symm⟩
  · rintro ⟨lib', ms, p, h1, h2, h3, rfl⟩
    simp only [h1, h2, h3]

theorem init_near {lib : EventLib σ φ} {lookup : Option HopStateLookup} {st : State (FloatTime R)} {st' : State EReal}
    {s' : Sim σ φ M ℝ EReal} (hm : RatesWithin R a s'.lib.events st'.occ m m')
    (h1 : st.occ = st'.occ) (h2 : st.step = st'.step)
    (hs' : Sim.init (realKernel Rounding.exact) m' lib lookup (some st') = .ok s') :
    ∃ s, Sim.init (onClock R (realKernel R)) m lib lookup (some st) = .ok s ∧ s.st = st ∧ s'.st = st' ∧
      Tandem R a s'.lib.events st'.occ s s' := by
  obtain ⟨lib', ms, p, e1, e2, e3, rfl⟩ := init_parts.1 hs'
  simp only at hm
  obtain ⟨qs, hq, hn⟩ := initialProbs_near hm ms ⟨rfl, fun _ => rfl⟩ h1 h2 lib'.events p (fun e he => he) e3
  exact ⟨_, init_parts.2 ⟨lib', ms, qs, e1, by rw [hm.starts st st' lib'.events h1 h2, e2], hq, rfl⟩, rfl, rfl,
    ⟨rfl, h1, h2, rfl, hn, rfl, rfl, rfl, ⟨rfl, fun _ => rfl⟩⟩⟩

theorem clearAhead_congr {δ : ℝ} (hm : IgnoresClock m' m') (draws : Nat → ℝ × ℝ) (n : Nat) :
    ∀ (c : Nat) (s s' : Sim σ φ M ℝ EReal), SameConfiguration s s' → s.cum = s'.cum → ClearAhead δ m' draws n c s →
      ClearAhead δ m' draws n c s' := by
  induction n with
  | zero => intro c s s' _ _ _; trivial
  | succ n ih =>
    rintro c s s' hs hc ⟨h0, h1, h2⟩
    refine ⟨h0, by rw [← hs.prob]; exact h1, fun e dt d s1' hp hu => ?_⟩
    obtain ⟨s1, u1, c1, k1, k2, -⟩ := update_follows (realKernel Rounding.exact) hm hs hu dt
    refine ih (c + 1) s1 s1' c1 (by rw [k1, k2, c1.prob]) (h2 e dt d s1 ?_ u1)
    rw [← hp]
    unfold Sim.propose
    rw [hs.lib, hc]

theorem timesWithin_add' {b : ℝ} (hb : 0 ≤ b) (hu : Accurate R u) (hu1 : u ≤ 1) {n : Nat} {t d : FloatTime R} {t' d' : EReal}
    {j : Nat} (h : TimesWithin R (b * (1 - u) ^ (n + j)) t t') (hd : TimesWithin R (b * (1 - u) ^ n) d d') :
    TimesWithin R (b * (1 - u) ^ (n + (j + 1))) (t + d) (t' + d') := by
  obtain ⟨x, y, hx, hy, x0, y0, w⟩ := h
  obtain ⟨x2, y2, hx2, hy2, x20, y20, v⟩ := hd
  have hu0 := accurate_nonneg hu
  have q0 : 0 ≤ 1 - u := by linarith
  have hle : b * (1 - u) ^ (n + j) ≤ b * (1 - u) ^ n :=
    mul_le_mul_of_nonneg_left (pow_le_pow_of_le_one q0 (by linarith) (by omega)) hb
  have hadd := w.add (v.weaken hle x20 y20)
  refine ⟨R.rnd (x + x2), y + y2, ?_, by rw [hy, hy2]; push_cast; rfl, ?_, by linarith, ?_⟩
  · show roundTime R (t.val + d.val) = _
    rw [hx, hx2, ← EReal.coe_add, roundTime_coe]
  · calc (0 : ℝ) = R.rnd 0 := R.zero.symm
      _ ≤ _ := R.mono (by linarith)
  · have := (rnd_within hu hu1 (show 0 ≤ x + x2 by linarith)).trans hadd q0 (mul_nonneg hb (pow_nonneg q0 _))
    rwa [mul_left_comm, ← pow_succ', show n + j + 1 = n + (j + 1) by omega] at this

/-- One step of the two simulations. -/
theorem near_step (hu : Accurate R u) (hu1 : u ≤ 1) (ha : 0 < a) (ha1 : a ≤ 1) (hm : RatesWithin R a events occ m m')
    {draws : Nat → ℝ × ℝ} {n c : Nat}
    {s : Sim σ φ M ℝ (FloatTime R)} {s' s1' : Sim σ φ M ℝ EReal} (hs : Tandem R a events occ s s')
    (hc : ClearAhead (margin u a s'.prob.length) m' draws (n + 1) c s')
    {e : Event} {d d' : EReal} (hp : s'.propose (realKernel Rounding.exact) (draws c).1 (draws c).2 = .ok (e, d))
    (hup : s'.update (realKernel Rounding.exact) m' e d' = (.ok (), s1')) :
    ClearAhead (margin u a s1'.prob.length) m' draws n (c + 1) s1' ∧ s1'.prob.length = s'.prob.length ∧
    ∃ w, s.propose (onClock R (realKernel R)) (draws c).1 (draws c).2 = .ok (e, w) ∧
      TimesWithin R (a * (1 - u) ^ (s'.prob.length + 2)) w d ∧
      ∀ x, ∃ s1, s.update (onClock R (realKernel R)) m e x = (.ok (), s1) ∧ Tandem R a events occ s1 s1' ∧
        s1.st.time = s.st.time + x ∧ s1'.st.time = s'.st.time + d' := by
  obtain ⟨⟨a0, a1, a2⟩, a3, a4⟩ := hc
  have hlen := update_keeps_length hup
  obtain ⟨i, tot', hpk, he, ht', rfl⟩ := propose_picks hs.cum' hp
  have hpos := picks_positive (R := Rounding.exact) (nearRates_nonneg hs.rates) hpk
  obtain ⟨tot, ht, hz, hpr⟩ := picks_propose (picks_clear hu hu1 ha ha1 hs.rates hpos a0 a3 i hpk) (draws c).2
  obtain ⟨x, y, hx, hy, x0, y0, xr, w⟩ := wait_near hu hu1 ha hs.rates hpos ht a1 a2
  have htot' : tot' = s'.prob.sum := by
    have hne : s'.prob ≠ [] := by
      obtain ⟨p, hp, -⟩ := hpos
      exact List.ne_nil_of_mem hp
    rw [cumsum_exact_last hne] at ht'
    exact (Option.some.inj ht').symm
  refine ⟨by rw [hlen]; exact a4 _ _ _ _ hp hup, hlen, .of R (waitingTime R tot (draws c).2), ?_, ?_,
    fun z => update_near hm hs hup z⟩
  · unfold Sim.propose
    rw [hs.cum]
    simp only [onClock, realKernel, hpr, hs.lib, he]
  · refine ⟨x, y, ?_, by rw [htot', hy], x0, y0, w⟩
    show roundTime R (waitingTime R tot (draws c).2) = _
    rw [hx, roundTime_coe, show R.rnd x = x from xr]

theorem steps_near (hu : Accurate R u) (hu1 : u ≤ 1) (ha : 0 < a) (ha1 : a ≤ 1) (hm : RatesWithin R a events occ m m')
    {draws : Nat → ℝ × ℝ} {c : Nat} {s' s1' : Sim σ φ M ℝ EReal} {hist' : List (Event × EReal)}
    (h : Steps (realKernel Rounding.exact) m' draws true c s' hist' s1') :
    ∀ (s : Sim σ φ M ℝ (FloatTime R)) (j : Nat), Tandem R a events occ s s' →
      ClearAhead (margin u a s'.prob.length) m' draws hist'.length c s' →
      TimesWithin R (a * (1 - u) ^ (s'.prob.length + 2 + j)) s.st.time s'.st.time →
      ∃ hist s1, Steps (onClock R (realKernel R)) m draws true c s hist s1 ∧ hist.map (·.1) = hist'.map (·.1) ∧
        Tandem R a events occ s1 s1' ∧
        TimesWithin R (a * (1 - u) ^ (s'.prob.length + 2 + (j + hist'.length))) s1.st.time s1'.st.time := by
  induction h with
  | nil c s' => exact fun s j hb _ ht => ⟨[], s, .nil _ _, rfl, hb, by simpa using ht⟩
  | @cons c s' s1' s2' e d hist' hp hup _ ih =>
    intro s j hb hc ht
    simp only [if_true] at hup
    obtain ⟨g1, g2, w, g3, g4, g5⟩ := near_step hu hu1 ha ha1 hm hb hc hp hup
    obtain ⟨s1, f1, f2, f3, f4⟩ := g5 w
    have htime : TimesWithin R (a * (1 - u) ^ (s1'.prob.length + 2 + (j + 1))) s1.st.time s1'.st.time := by
      rw [f3, f4, g2]
      exact timesWithin_add' ha.le hu hu1 ht g4
    obtain ⟨hist, s2, k1, k2, k3, k4⟩ := ih s1 (j + 1) f2 g1 htime
    refine ⟨(e, w) :: hist, s2, .cons g3 (by simpa using f1) k1, by simp [k2], k3, ?_⟩
    rw [g2] at k4
    rwa [List.length_cons, show j + (hist'.length + 1) = j + 1 + hist'.length by omega]

theorem equilSteps_near (hu : Accurate R u) (hu1 : u ≤ 1) (ha : 0 < a) (ha1 : a ≤ 1)
    (hm : RatesWithin R a events occ m m') {draws : Nat → ℝ × ℝ} {n r c : Nat}
    {s s1 : Sim σ φ M ℝ (FloatTime R)} {s' s1' : Sim σ φ M ℝ EReal} (hs : Tandem R a events occ s s')
    (hcl : ClearAhead (margin u a s'.prob.length) m' draws (n + r) c s')
    (h : s.equilSteps (onClock R (realKernel R)) m draws n c = (.ok (), s1))
    (h' : s'.equilSteps (realKernel Rounding.exact) m' draws n c = (.ok (), s1')) :
    Tandem R a events occ s1 s1' ∧ ClearAhead (margin u a s1'.prob.length) m' draws r (c + n) s1' ∧ s1.st.time = s.st.time ∧ s1'.st.time = s'.st.time ∧
      s1'.prob.length = s'.prob.length := by
  induction n generalizing c s s' with
  | zero =>
    simp only [Sim.equilSteps, Prod.mk.injEq, true_and] at h h'
    subst h h'
    exact ⟨hs, by simpa using hcl, rfl, rfl, rfl⟩
  | succ n ih =>
    unfold Sim.equilSteps at h h'
    rcases e1 : s.equilStep (onClock R (realKernel R)) m (draws c).1 (draws c).2 with ⟨q, s2⟩
    rcases e2 : s'.equilStep (realKernel Rounding.exact) m' (draws c).1 (draws c).2 with ⟨q', s2'⟩
    rw [e1] at h
    rw [e2] at h'
    cases q with
    | error x => cases h
    | ok _ =>
    cases q' with
    | error x => cases h'
    | ok _ =>
      simp only at h h'
      unfold Sim.equilStep at e1 e2
      cases p2 : s'.propose (realKernel Rounding.exact) (draws c).1 (draws c).2 with
      | error x => rw [p2] at e2; cases e2
      | ok p' =>
        obtain ⟨e', dt'⟩ := p'
        rw [p2] at e2
        simp only at e2
        rw [show n + 1 + r = n + r + 1 by omega] at hcl
        obtain ⟨g1, g2, w, g3, -, g5⟩ := near_step hu hu1 ha ha1 hm hs hcl p2 e2
        rw [g3] at e1
        simp only at e1
        obtain ⟨s3, f1, f2, f3, f4⟩ := g5 0
        rw [e1] at f1
        obtain ⟨-, rfl⟩ := Prod.mk.inj f1
        obtain ⟨z1, z2, z3, z4, z5⟩ := ih f2 g1 h h'
        refine ⟨z1, ?_, by rw [z3, f3, floatTime_add_zero], by rw [z4, f4, add_zero], by rw [z5, g2]⟩
        rwa [show c + (n + 1) = c + 1 + n by omega]

variable {K V Row V' Row' : Type} [Field K] [LinearOrder K] [FloorRing K]

theorem prodSteps_near (hu : Accurate R u) (hu1 : u ≤ 1) (ha : 0 < a) (ha1 : a ≤ 1)
    (hm : RatesWithin R a events occ m m') {draws : Nat → ℝ × ℝ} {g : Geometry K}
    {summary : Trajectory K → FloatTime R → List (String × Bool) → Row}
    {summary' : Trajectory K → EReal → List (String × Bool) → Row'} {n r c j : Nat}
    {s s1 : RunState σ φ M ℝ (FloatTime R) K V Row} {s' s1' : RunState σ φ M ℝ EReal K V' Row'}
    (hs : Tandem R a events occ s.sim s'.sim) (hcl : ClearAhead (margin u a s'.sim.prob.length) m' draws (n + r) c s'.sim) (ht : s.traj = s'.traj)
    (hc : TimesWithin R (a * (1 - u) ^ (s'.sim.prob.length + 2 + j)) s.sim.st.time s'.sim.st.time)
    (h : s.prodSteps (onClock R (realKernel R)) m g summary draws n c = (.ok (), s1))
    (h' : s'.prodSteps (realKernel Rounding.exact) m' g summary' draws n c = (.ok (), s1')) :
    Tandem R a events occ s1.sim s1'.sim ∧ ClearAhead (margin u a s1'.sim.prob.length) m' draws r (c + n) s1'.sim ∧ s1.traj = s1'.traj ∧
      s1'.sim.prob.length = s'.sim.prob.length ∧
      TimesWithin R (a * (1 - u) ^ (s'.sim.prob.length + 2 + (j + n))) s1.sim.st.time s1'.sim.st.time := by
  induction n generalizing c s s' j with
  | zero =>
    simp only [RunState.prodSteps, Prod.mk.injEq, true_and] at h h'
    subst h h'
    exact ⟨hs, by simpa using hcl, ht, rfl, hc⟩
  | succ n ih =>
    unfold RunState.prodSteps at h h'
    rcases e1 : s.prodStep (onClock R (realKernel R)) m g summary (draws c).1 (draws c).2 with ⟨q, s2⟩
    rcases e2 : s'.prodStep (realKernel Rounding.exact) m' g summary' (draws c).1 (draws c).2 with ⟨q', s2'⟩
    rw [e1] at h
    rw [e2] at h'
    cases q with
    | error x => cases h
    | ok _ =>
    cases q' with
    | error x => cases h'
    | ok _ =>
      simp only at h h'
      obtain ⟨e, dt, p1, t1, u1, -, -⟩ := prodStep_ok e1
      obtain ⟨e', dt', p2, t2, u2, -, -⟩ := prodStep_ok e2
      rw [show n + 1 + r = n + r + 1 by omega] at hcl
      obtain ⟨g1, g2, w, g3, g4, g5⟩ := near_step hu hu1 ha ha1 hm hs hcl p2 u2
      rw [p1] at g3
      obtain ⟨rfl, rfl⟩ := Prod.mk.inj (Except.ok.inj g3)
      obtain ⟨s3, f1, f2, f3, f4⟩ := g5 dt
      rw [u1] at f1
      obtain ⟨-, rfl⟩ := Prod.mk.inj f1
      rw [ht, hs.occs, t2] at t1
      have hc' : TimesWithin R (a * (1 - u) ^ (s2'.sim.prob.length + 2 + (j + 1))) s2.sim.st.time s2'.sim.st.time := by
        rw [f3, f4, g2]
        exact timesWithin_add' ha.le hu hu1 hc g4
      obtain ⟨z1, z2, z3, z4, z5⟩ := ih f2 g1 (Prod.mk.inj t1).2.symm hc' h h'
      rw [g2] at z4 z5
      refine ⟨z1, ?_, z3, z4, ?_⟩
      · rwa [show c + (n + 1) = c + 1 + n by omega]
      · rwa [show j + (n + 1) = j + 1 + n by omega]

theorem passes_near (hu : Accurate R u) (hu1 : u ≤ 1) (ha : 0 < a) (ha1 : a ≤ 1)
    (hm : RatesWithin R a events occ m m') {draws : Nat → ℝ × ℝ} {g : Geometry K}
    {summary : Trajectory K → FloatTime R → List (String × Bool) → Row}
    {summary' : Trajectory K → EReal → List (String × Bool) → Row'} {len n p c j : Nat}
    {s s1 : RunState σ φ M ℝ (FloatTime R) K V Row} {s' s1' : RunState σ φ M ℝ EReal K V' Row'}
    (hs : Tandem R a events occ s.sim s'.sim) (hcl : ClearAhead (margin u a s'.sim.prob.length) m' draws (n * len) c s'.sim) (ht : s.traj = s'.traj)
    (hc : TimesWithin R (a * (1 - u) ^ (s'.sim.prob.length + 2 + j)) s.sim.st.time s'.sim.st.time)
    (h : s.passes (onClock R (realKernel R)) m g summary draws len n p c = (.ok (), s1))
    (h' : s'.passes (realKernel Rounding.exact) m' g summary' draws len n p c = (.ok (), s1')) :
    SamePlace a s1.sim s1'.sim ∧ s1.traj = s1'.traj ∧
      TimesWithin R (a * (1 - u) ^ (s'.sim.prob.length + 2 + (j + n * len))) s1.sim.st.time s1'.sim.st.time := by
  induction n generalizing p c s s' j with
  | zero =>
    simp only [RunState.passes, Prod.mk.injEq, true_and] at h h'
    subst h h'
    exact ⟨hs.samePlace, ht, by simpa using hc⟩
  | succ n ih =>
    unfold RunState.passes at h h'
    rcases e1 : s.prodSteps (onClock R (realKernel R)) m g summary draws len c with ⟨q, s2⟩
    rcases e2 : s'.prodSteps (realKernel Rounding.exact) m' g summary' draws len c with ⟨q', s2'⟩
    rw [e1] at h
    rw [e2] at h'
    cases q with
    | error x => cases h
    | ok _ =>
    cases q' with
    | error x => cases h'
    | ok _ =>
      simp only at h h'
      rw [show (n + 1) * len = len + n * len by ring] at hcl
      obtain ⟨q1, q2, q3, q4, q5⟩ := prodSteps_near hu hu1 ha ha1 hm hs hcl ht hc e1 e2
      rw [← q4] at q5
      obtain ⟨z1, z2, z3⟩ := ih (s := { s2 with currentPass := p }) (s' := { s2' with currentPass := p }) q1 q2 q3 q5 h h'
      simp only [q4] at z3
      exact ⟨z1, z2, by rwa [show j + (n + 1) * len = j + len + n * len by ring]⟩

/-- The random numbers near an edge. -/
noncomputable def nearEdges (δ : ℝ) (ps : List ℝ) : Set ℝ :=
  ⋃ j ∈ Finset.range ps.length, Set.Icc ((ps.take (j + 1)).sum / ps.sum - δ) ((ps.take (j + 1)).sum / ps.sum + δ)

theorem nearEdges_measurable (δ : ℝ) (ps : List ℝ) : MeasurableSet (nearEdges δ ps) :=
  Finset.measurableSet_biUnion _ fun _ _ => measurableSet_Icc

theorem nearEdges_volume {δ : ℝ} (hδ : 0 ≤ δ) (ps : List ℝ) :
    volume (nearEdges δ ps) ≤ ENNReal.ofReal (2 * ps.length * δ) := by
  calc volume (nearEdges δ ps) ≤ ∑ j ∈ Finset.range ps.length,
        volume (Set.Icc ((ps.take (j + 1)).sum / ps.sum - δ) ((ps.take (j + 1)).sum / ps.sum + δ)) :=
        measure_biUnion_finset_le _ _
    _ ≤ ∑ j ∈ Finset.range ps.length, ENNReal.ofReal (2 * δ) := by
        refine Finset.sum_le_sum fun j hj => ?_
        rw [Real.volume_Icc]
        exact ENNReal.ofReal_le_ofReal (by linarith)
    _ = ENNReal.ofReal (2 * ps.length * δ) := by
        rw [Finset.sum_const, Finset.card_range, nsmul_eq_mul, ← ENNReal.ofReal_natCast,
          ← ENNReal.ofReal_mul (by positivity)]
        congr 1
        ring

theorem keepsClear_of {δ : ℝ} {ps : List ℝ} {r1 : ℝ}
    (h : r1 ∉ nearEdges δ ps) : KeepsClear δ ps r1 := by
  intro j hj
  by_contra hc
  refine h (Set.mem_biUnion (Finset.mem_coe.2 (Finset.mem_range.2 hj)) ?_)
  obtain ⟨h1, h2⟩ := abs_le.1 (not_lt.1 hc)
  exact ⟨by linarith, by linarith⟩

/-- Random numbers keep clear of the edges with high probability. -/
theorem clear_likely {δ : ℝ} (hδ : 0 ≤ δ) (hm : IgnoresClock m' m')
    (hr : ∀ ms e st p, m'.computeProbability ms e st = .ok p → 0 ≤ p) {Θ : Type} [MeasurableSpace Θ]
    {μ : Measure Θ} [IsProbabilityMeasure μ] {U : Nat → Θ → ℝ × ℝ} (hU : RandomNumbers μ U) (N n : Nat) :
    ∀ (c : Nat) (s : Sim σ φ M ℝ EReal), s.cum = cumsum Rounding.exact s.prob → (∀ p ∈ s.prob, 0 ≤ p) →
      s.prob.length = n →
      ∃ B, MeasurableSet[future U c] B ∧ μ B ≤ N * ENNReal.ofReal (2 * n * δ) ∧
        ∀ᵐ ω ∂μ, ω ∉ B → ClearAhead δ m' (fun k => U k ω) N c s := by
  induction N with
  | zero =>
    intro c s _ _ _
    exact ⟨∅, @MeasurableSet.empty _ (future U c), by simp, Filter.Eventually.of_forall fun ω _ => trivial⟩
  | succ N ih =>
    intro c s hc hg hl
    set ε := ENNReal.ofReal (2 * n * δ) with hε
    have hg' : ∀ p ∈ s.prob, 0 ≤ p ∧ Rounding.exact.Rep p := fun p hp => ⟨hg p hp, rfl⟩
    have hfst : Measurable[future U c] fun ω => (U c ω).1 := measurable_fst.comp (future_input U c)
    set D := (fun ω => (U c ω).1) ⁻¹' nearEdges δ s.prob with hD
    have hDm : μ D ≤ ε := by
      have h1 : μ D = twoUniform (Prod.fst ⁻¹' nearEdges δ s.prob) := by
        rw [← hU.uniform c, Measure.map_apply (hU.measurable c) (measurable_fst (nearEdges_measurable δ s.prob))]
        rfl
      rw [h1, ← Measure.map_apply measurable_fst (nearEdges_measurable δ s.prob)]
      have h2 : twoUniform.map Prod.fst = volume.restrict (Set.Ico (0 : ℝ) 1) :=
        (measurePreserving_fst (μ := volume.restrict (Set.Ico (0 : ℝ) 1))
          (ν := volume.restrict (Set.Ico (0 : ℝ) 1))).map_eq
      rw [h2]
      refine (Measure.restrict_apply_le _ _).trans ?_
      have := nearEdges_volume hδ s.prob
      rwa [hl] at this
    by_cases hpos : ∃ p ∈ s.prob, 0 < p
    · -- the sets of the later steps, one for each event
      have hB : ∀ i : Nat, ∃ B, MeasurableSet[future U (c + 1)] B ∧ μ B ≤ N * ε ∧
          ∀ᵐ ω ∂μ, ω ∉ B → ∀ e dt s1, s.lib.events[i]? = some e →
            s.update (realKernel Rounding.exact) m' e dt = (.ok (), s1) → ClearAhead δ m' (fun k => U k ω) N (c + 1) s1 := by
        intro i
        by_cases hex : ∃ e dt s1, s.lib.events[i]? = some e ∧ s.update (realKernel Rounding.exact) m' e dt = (.ok (), s1)
        · obtain ⟨e, dt, s1, he, h1⟩ := hex
          have hk := update_keeps_length h1
          obtain ⟨st, ms, j, prob, -, -, -, h3, hs1⟩ := update_ok h1
          have hg1 := recompute_all (m := m') (events := s.lib.events) (ms := ms) (st := st)
            (P := fun p => 0 ≤ p) (fun e p hp => hr _ _ _ _ hp) (s.lib.getDependentEvents j) s.prob hg
          rw [h3] at hg1
          obtain ⟨B, b1, b2, b3⟩ := ih (c + 1) s1 (by rw [hs1]; rfl) (by rw [hs1]; exact hg1) (by rw [hk, hl])
          refine ⟨B, b1, b2, ?_⟩
          filter_upwards [b3] with ω hω hb e' dt' s1' he' h1'
          rw [he] at he'
          obtain rfl := Option.some.inj he'
          obtain ⟨s2, u2, c2, k2, k3, -⟩ := update_follows (realKernel Rounding.exact) hm
            (s := s) ⟨rfl, rfl, rfl, rfl, rfl⟩ h1' dt
          rw [h1] at u2
          obtain ⟨-, rfl⟩ := Prod.mk.inj u2
          exact clearAhead_congr hm _ N _ _ _ c2 (by rw [k2, k3, c2.prob]) (hω hb)
        · refine ⟨∅, @MeasurableSet.empty _ (future U (c + 1)), by simp, ?_⟩
          refine Filter.Eventually.of_forall fun ω _ e dt s1 he h1 => ?_
          exact absurd ⟨e, dt, s1, he, h1⟩ hex
      choose B hB1 hB2 hB3 using hB
      have hI : ∀ i ∈ Finset.range n, MeasurableSet {r1 | Picks Rounding.exact s.prob r1 i} := by
        intro i hi
        exact picks_measurable hg' hpos i (by rw [hl]; exact Finset.mem_range.1 hi)
      set I : Nat → Set Θ := fun i => (fun ω => (U c ω).1) ⁻¹' {r1 | Picks Rounding.exact s.prob r1 i} with hIdef
      have hImeas : ∀ i ∈ Finset.range n, MeasurableSet[future U c] (I i) := fun i hi => hfst (hI i hi)
      refine ⟨D ∪ ⋃ i ∈ Finset.range n, I i ∩ B i, ?_, ?_, ?_⟩
      · refine @MeasurableSet.union _ (future U c) _ _ (hfst (nearEdges_measurable δ s.prob)) ?_
        refine @Finset.measurableSet_biUnion _ _ (future U c) _ _ fun i hi => ?_
        exact @MeasurableSet.inter _ (future U c) _ _ (hImeas i hi) (future_mono U (Nat.le_succ c) _ (hB1 i))
      · have hsum : ∑ i ∈ Finset.range n, μ (I i) ≤ 1 := by
          have hle := future_le hU.measurable c
          rw [← measure_biUnion_finset ?_ fun i hi => hle _ (hImeas i hi)]
          · exact prob_le_one
          · intro i _ j _ hij
            refine Set.disjoint_left.2 fun ω h1 h2 => hij ?_
            exact picks_unique h1 h2
        have hterm : ∀ i ∈ Finset.range n, μ (I i ∩ B i) ≤ μ (I i) * (N * ε) := by
          intro i hi
          have hind := (Indep_iff _ _ _).1 (future_indep hU.measurable hU.independent c) (I i) (B i)
            ⟨Prod.fst ⁻¹' {r1 | Picks Rounding.exact s.prob r1 i}, measurable_fst (hI i hi), rfl⟩ (hB1 i)
          rw [hind]
          gcongr
          exact hB2 i
        calc μ (D ∪ ⋃ i ∈ Finset.range n, I i ∩ B i) ≤ μ D + μ (⋃ i ∈ Finset.range n, I i ∩ B i) := measure_union_le _ _
          _ ≤ ε + ∑ i ∈ Finset.range n, μ (I i ∩ B i) := add_le_add hDm (measure_biUnion_finset_le _ _)
          _ ≤ ε + ∑ i ∈ Finset.range n, μ (I i) * (N * ε) := by gcongr with i hi; exact hterm i hi
          _ = ε + (∑ i ∈ Finset.range n, μ (I i)) * (N * ε) := by rw [Finset.sum_mul]
          _ ≤ ε + 1 * (N * ε) := by gcongr
          _ = ((N + 1 : Nat) : ENNReal) * ε := by push_cast; ring
      · have hall : ∀ᵐ ω ∂μ, ∀ i, ω ∉ B i → ∀ e dt s1, s.lib.events[i]? = some e →
            s.update (realKernel Rounding.exact) m' e dt = (.ok (), s1) → ClearAhead δ m' (fun k => U k ω) N (c + 1) s1 :=
          ae_all_iff.2 hB3
        filter_upwards [hall, draws_in_range hU] with ω h1 h2 h3
        rw [Set.mem_union, not_or] at h3
        obtain ⟨h4, h5⟩ := h3
        refine ⟨⟨(h2 c).1.2, (h2 c).2⟩, keepsClear_of h4, fun e dt d s1 hp hup => ?_⟩
        · obtain ⟨i, tot, p1, p2, -⟩ := propose_picks hc hp
          refine h1 i (fun hb => h5 ?_) e dt s1 p2 hup
          have hi : i < n := by
            rw [← hl]
            exact picks_lt hg' hpos (h2 c).1.2 p1
          exact Set.mem_biUnion (Finset.mem_coe.2 (Finset.mem_range.2 hi)) ⟨p1, hb⟩
    · refine ⟨D, hfst (nearEdges_measurable δ s.prob), hDm.trans ?_, ?_⟩
      · push_cast
        rw [add_mul, one_mul]
        exact le_add_self
      filter_upwards [draws_in_range hU] with ω h2 h3
      refine ⟨⟨(h2 c).1.2, (h2 c).2⟩, keepsClear_of h3, fun e dt d s1 hp _ => ?_⟩
      obtain ⟨i, tot, p1, -⟩ := propose_picks hc hp
      exact absurd (picks_positive hg' p1) hpos

end
end KMC
