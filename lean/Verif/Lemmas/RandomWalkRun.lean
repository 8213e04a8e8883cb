import Verif.Lemmas.RandomWalk
import Verif.Props.TrackerRunProps
import Verif.Lemmas.Transport
import Verif.Props.RestartProps
/-
Lemmas for random walks without drift.
-/
set_option linter.unusedSectionVars false

namespace KMC
open Spec MeasureTheory Filter Topology ProbabilityTheory

/-! ### Hop vectors and the tracker -/

theorem roundHalfEven_near {x : ℝ} {n : ℤ} (h : |x + n| < 1 / 2) : roundHalfEven x = -n := by
  obtain ⟨h1, h2⟩ := roundHalfEven_bounds x
  rw [abs_lt] at h
  have a1 : ((roundHalfEven x + n : ℤ) : ℝ) < 1 := by push_cast; linarith [h.1, h.2]
  have a2 : (-1 : ℝ) < ((roundHalfEven x + n : ℤ) : ℝ) := by push_cast; linarith [h.1, h.2]
  have b1 : roundHalfEven x + n < 1 := by exact_mod_cast a1
  have b2 : -1 < roundHalfEven x + n := by exact_mod_cast a2
  omega

theorem hopVector_displacement {g : Geometry ℝ} {e : Event} {v : Vec3 ℝ} (hv : IsHopVector g e v) {d : Int}
    {disp : Vec3 ℝ} (hw : wrappedHopDisplacement g e d = .ok disp) (hd : d = 1 ∨ d = -1) :
    disp = if d = 1 then v else -v := by
  obtain ⟨f, t, pf, pt, n, e1, e2, e3, e4, rfl⟩ := hv
  have key : ∀ disp, wrappedHopDisplacement g e 1 = .ok disp →
      disp = Matrix.vecMul (fun c => pt c - pf c + n c) g.lattice := by
    intro disp hw
    unfold wrappedHopDisplacement at hw
    rw [e1] at hw
    simp only [unpack2, pyGet_natCast e2, pyGet_natCast e3, Except.ok.injEq] at hw
    rw [← hw]
    unfold Geometry.cart
    congr 1
    funext c
    simp only [wrappedFrac, Int.cast_one, one_mul]
    rw [roundHalfEven_near (e4 c)]
    push_cast
    ring
  rcases hd with rfl | rfl
  · rw [if_pos rfl]; exact key disp hw
  · rw [if_neg (by decide)]
    have h1 := C18_reverse_hop g e (-1) disp hw
    rw [neg_neg] at h1
    rw [← key (-disp) h1, neg_neg]

theorem modify_sum_vec (l : List (Vec3 ℝ)) (i : Nat) (h : i < l.length) (d : Vec3 ℝ) :
    (l.modify i (fun v => v + d)).sum = l.sum + d := by
  induction l generalizing i with
  | nil => simp at h
  | cons a l ih =>
    cases i with
    | zero => simp [List.modify_cons]; abel
    | succ i => simp only [List.modify_succ_cons, List.sum_cons]; rw [ih i (by simpa using h)]; abel

section
variable {σ φ ψ : Type}
variable {o : ActiveSiteOrder String ψ} {mobile : String} {h : HopStateLookup}
  {m : RateModel Unit ℝ EReal} {g : Geometry ℝ} {lib : EventLib σ φ} {st : State EReal}
  {s0 : Sim σ φ Unit ℝ EReal}

/-- The direction of a possible event, and where its ion is. -/
theorem direction_species (hs : HopSystem o mobile h Rounding.exact m g lib st)
    (hi : Sim.init (realKernel Rounding.exact) m lib.generateEventDependencies (some h) (some st) = .ok s0)
    {occ : List Int} (hlen : occ.length = st.occ.length) (hw : WellLabelled o mobile occ) {e : Event}
    (he : e ∈ s0.lib.events) :
    ∃ f t : Nat, e.mobile = [(f : Int), (t : Int)] ∧ f < occ.length ∧ t < occ.length ∧
      allowedAt o f = allowedAt o t ∧
      ∃ d : Int, eventDirection occ e = .ok d ∧
        (d = 1 ↔ speciesAt o occ f = some mobile ∧ Vacant o occ t) ∧
        (d = -1 ↔ speciesAt o occ t = some mobile ∧ Vacant o occ f) ∧ (d = 1 ∨ d = -1 ∨ d = 0) := by
  obtain ⟨f, t, hf, ht, hm', hall, a, b, c1, c2, c3, c4, hc⟩ := event_facts hs hi he
  rw [← hlen] at hf ht
  have hvf : occ[f]? = some occ[f] := by simp [hf]
  have hvt : occ[t]? = some occ[t] := by simp [ht]
  have hd := eventDirection_of hm' (pyIdx_natCast hf) (pyIdx_natCast ht) hvf hvt
  obtain ⟨m1, v1, d1, d2, d3, d4, -⟩ := site_codes hw hs.lookup hvf
  obtain ⟨m2, v2, d1', d2', d3', d4', -⟩ := site_codes hw hs.lookup hvt
  rw [c1] at d1; rw [c3] at d2; rw [c2] at d1'; rw [c4] at d2'
  cases d1; cases d2; cases d1'; cases d2'
  refine ⟨f, t, hm', hf, ht, hall, _, hd, ?_⟩
  rw [hc]
  simp only [Option.getD_some, endpointDirectionFromCodes]
  have hvf' : occ[f] = b ↔ Vacant o occ f :=
    d4.trans ⟨fun ⟨s, h1, h2⟩ => ⟨s, h2, h1⟩, fun ⟨s, h1, h2⟩ => ⟨s, h2, h1⟩⟩
  have hvt' : occ[t] = b ↔ Vacant o occ t :=
    d4'.trans ⟨fun ⟨s, h1, h2⟩ => ⟨s, h2, h1⟩, fun ⟨s, h1, h2⟩ => ⟨s, h2, h1⟩⟩
  have hnot : ∀ i, speciesAt o occ i = some mobile → ¬ Vacant o occ i := by
    rintro i hi' ⟨v, hv, hv'⟩
    rw [hi'] at hv'
    cases hv'
    exact hw.mobileNotVacancy hv
  by_cases k1 : occ[f] = a ∧ occ[t] = b
  · rw [if_pos k1]
    exact ⟨⟨fun _ => ⟨d3.1 k1.1, hvt'.1 k1.2⟩, fun _ => rfl⟩,
      ⟨fun hx => absurd hx (by decide), fun hx => absurd (hvt'.1 k1.2) (hnot t hx.1)⟩, .inl rfl⟩
  · rw [if_neg k1]
    by_cases k2 : occ[f] = b ∧ occ[t] = a
    · rw [if_pos k2]
      exact ⟨⟨fun hx => absurd hx (by decide), fun hx => absurd (hvf'.1 k2.1) (hnot f hx.1)⟩,
        ⟨fun _ => ⟨d3'.1 k2.2, hvf'.1 k2.1⟩, fun _ => rfl⟩, .inr (.inl rfl)⟩
    · rw [if_neg k2]
      exact ⟨⟨fun hx => absurd hx (by decide), fun hx => absurd ⟨d3.2 hx.1, hvt'.2 hx.2⟩ k1⟩,
        ⟨fun hx => absurd hx (by decide), fun hx => absurd ⟨hvf'.2 hx.2, d3'.2 hx.1⟩ k2⟩, .inr (.inr rfl)⟩

theorem wayOf_direction (hs : HopSystem o mobile h Rounding.exact m g lib st)
    (hi : Sim.init (realKernel Rounding.exact) m lib.generateEventDependencies (some h) (some st) = .ok s0)
    {occ : List Int} (hlen : occ.length = st.occ.length) (hw : WellLabelled o mobile occ) {e : Event}
    (he : e ∈ s0.lib.events) (v : Event → Vec3 ℝ) {d : Int} (hd : eventDirection occ e = .ok d) (hd0 : d ≠ 0) :
    wayOf o mobile v occ e = if d = 1 then v e else -v e := by
  obtain ⟨f, t, h1, -, -, -, d', h2, h3, h4, h5⟩ := direction_species hs hi hlen hw he
  rw [hd] at h2
  cases h2
  have hnot : ∀ i, Vacant o occ i → speciesAt o occ i ≠ some mobile := by
    rintro i ⟨v, hv, hv'⟩ hi'
    rw [hi'] at hv'
    cases hv'
    exact hw.mobileNotVacancy hv
  unfold wayOf
  rw [h1]
  simp only [Int.toNat_natCast]
  rcases h5 with rfl | rfl | rfl
  · rw [if_pos (h3.1 rfl).1, if_pos rfl]
  · rw [if_neg (hnot f (h4.1 rfl).2), if_pos (h4.1 rfl).1, if_neg (by decide)]
  · exact absurd rfl hd0

/-- Where a list of events leads the ions, all together. -/
noncomputable def walkOf (o : ActiveSiteOrder String ψ) (mobile : String) (v : Event → Vec3 ℝ) :
    State EReal → List Event → Vec3 ℝ
  | _, [] => 0
  | st, e :: p => wayOf o mobile v st.occ e + walkOf o mobile v (st.applyEvent e 0).2 p

/-- The state after a list of events. -/
noncomputable def afterAll (st : State EReal) : List Event → State EReal
  | [] => st
  | e :: p => afterAll (st.applyEvent e 0).2 p

theorem walkOf_congr (v : Event → Vec3 ℝ) (p : List Event) : ∀ {st st' : State EReal}, st'.occ = st.occ →
    walkOf o mobile v st' p = walkOf o mobile v st p := by
  induction p with
  | nil => intro st st' _; rfl
  | cons e p ih =>
    intro st st' ho
    simp only [walkOf, ho, ih (applyEvent_occ_congr ho e 0 0)]

theorem afterAll_congr (p : List Event) : ∀ {st st' : State EReal}, st'.occ = st.occ →
    (afterAll st' p).occ = (afterAll st p).occ := by
  induction p with
  | nil => intro st st' ho; exact ho
  | cons e p ih =>
    intro st st' ho
    simp only [afterAll, ih (applyEvent_occ_congr ho e 0 0)]

theorem update_after {k : Kernel ℝ EReal ℝ} {s s1 : Sim σ φ Unit ℝ EReal} {e : Event} {dt : EReal}
    (hu : s.update k m e dt = (.ok (), s1)) : (s.st.applyEvent e 0).2.occ = s1.st.occ := by
  obtain ⟨st1, ms, i1, prob, b1, -, -, -, rfl⟩ := update_ok hu
  rw [applyEvent_occ_congr (st := s.st) rfl e dt 0, b1]

theorem steps_after {k : Kernel ℝ EReal ℝ} {draws : Nat → ℝ × ℝ} {b : Bool} {c : Nat}
    {s s1 : Sim σ φ Unit ℝ EReal} {hist : List (Event × EReal)} (hst : Steps k m draws b c s hist s1) :
    (afterAll s.st (hist.map (·.1))).occ = s1.st.occ := by
  induction hst with
  | nil => rfl
  | cons hp hu _ ih =>
    rw [← ih, List.map_cons, afterAll]
    exact afterAll_congr _ (update_after hu)

/-- The tracker adds up the ways of the ions. -/
theorem tracked_walk (hs : HopSystem o mobile h Rounding.exact m g lib st)
    (hi : Sim.init (realKernel Rounding.exact) m lib.generateEventDependencies (some h) (some st) = .ok s0)
    {v : Event → Vec3 ℝ} (hv : ∀ e ∈ s0.lib.events, IsHopVector g e (v e))
    {rng : Nat → ℝ × ℝ} (hr : ∀ c, 0 ≤ (rng c).1 ∧ (rng c).1 < 1) {c : Nat}
    {s s' : Sim σ φ Unit ℝ EReal} {t t' : Trajectory ℝ} {hist : List (List Int × Event)}
    (hts : TrackedSteps (realKernel Rounding.exact) m g rng c s t hist s' t')
    (inv : SimInv o mobile Rounding.exact m s0 s) (htr : Tracks h t s.st.occ) (hal : Aligned t) :
    ∃ hist', Steps (realKernel Rounding.exact) m rng true c s hist' s' ∧ hist'.length = hist.length ∧
      t'.displacement.sum = t.displacement.sum + walkOf o mobile v s.st (hist'.map (·.1)) ∧
      t'.displacement.length = t.displacement.length := by
  have hst : st = s0.st := by
    obtain ⟨i1, -⟩ := init_ok hi
    simpa using i1
  induction hts with
  | nil => exact ⟨[], .nil _ _, rfl, by simp [walkOf], rfl⟩
  | @cons c s s1 s2 t t1 t2 e dt hist hp hut hu _ ih =>
    obtain ⟨he, hd0⟩ := proposed_possible hs inv (hr _).1 (hr _).2 hp
    obtain ⟨-, t', h1, h2⟩ := tracked_step hs hi inv htr (hr _).1 (hr _).2 hp
    rw [hut] at h1
    simp only [Prod.mk.injEq, true_and] at h1
    subst h1
    obtain ⟨hist', j1, j2, j3, j4⟩ := ih (sim_inv_update hs hi inv he hu).1 (h2 _ hu) (aligned_update hal hut)
    refine ⟨(e, dt) :: hist', .cons hp (by simpa using hu) j1, by simp [j2], ?_, ?_⟩
    · rw [j3, List.map_cons, walkOf, walkOf_congr v _ (update_after hu), ← add_assoc]
      congr 1
      obtain ⟨d, hd, ⟨h0, -⟩ | ⟨h0, f, to', i, disp, -, hl, hw, rfl⟩⟩ := traj_update_ok hut
      · exact absurd h0 (hd0 d hd)
      · have hlen : s.st.occ.length = st.occ.length := by rw [inv.len, hst]
        rw [wayOf_direction hs hi hlen inv.labelled he v hd h0]
        simp only
        rw [modify_sum_vec _ _ (by rw [hal.disp]; exact (List.getElem?_eq_some_iff.1 hl).1),
          hopVector_displacement (hv e he) hw (by
            rcases eventDirection_values hd with h | h | h
            · exact .inl h
            · exact .inr h
            · exact absurd h h0)]
    · rw [j4]
      obtain ⟨d, hd, ⟨-, rfl⟩ | ⟨h0, f, to', i, disp, -, hl, hw, rfl⟩⟩ := traj_update_ok hut
      · rfl
      · simp

/-! ### Means along the chain -/

/-- A state with a configuration that the simulation reaches. -/
def GoodState (m : RateModel Unit ℝ EReal) (s0 : Sim σ φ Unit ℝ EReal) (st' : State EReal) : Prop :=
  ∃ s, Reaches m s0 s ∧ s.st.occ = st'.occ

theorem good_step (hs : HopSystem o mobile h Rounding.exact m g lib st)
    (ha : Answers o mobile m lib.events st.occ)
    (hi : Sim.init (realKernel Rounding.exact) m lib.generateEventDependencies (some h) (some st) = .ok s0)
    {st' : State EReal} (hg : GoodState m s0 st') {e : Event} (he : e ∈ s0.lib.events)
    (hp : 0 < rateIn m st' e) : GoodState m s0 (st'.applyEvent e 0).2 := by
  obtain ⟨s, hr, ho⟩ := hg
  have hm := met_reaches hs ha hi (met_start hs hi) hr
  rw [← rateIn_congr hs.loc ho] at hp
  obtain ⟨s', hn, hl⟩ := next_of_rateIn hs ha hi hm he hp
  exact ⟨s', hr.tail hn, (apply_leads hs ha hi hm he hl st' ho.symm).symm⟩

theorem totalRate_congr (hm : LocalModel m) (events : List Event) {st st' : State EReal} (ho : st'.occ = st.occ) :
    totalRate m events st' = totalRate m events st := by
  unfold totalRate
  rw [show rateIn m st' = rateIn m st from funext fun e => rateIn_congr hm ho e]

theorem good_pos (hs : HopSystem o mobile h Rounding.exact m g lib st)
    (ha : Answers o mobile m lib.events st.occ)
    (hi : Sim.init (realKernel Rounding.exact) m lib.generateEventDependencies (some h) (some st) = .ok s0)
    (alive : ∀ s, Reaches m s0 s → ¬ Stuck m s) {st' : State EReal} (hg : GoodState m s0 st') :
    0 < totalRate m s0.lib.events st' := by
  obtain ⟨s, hr, ho⟩ := hg
  have hm := met_reaches hs ha hi (met_start hs hi) hr
  rw [totalRate_congr hs.loc _ ho.symm, ← prob_sum hm]
  exact sum_pos_of_not_stuck hs hm (alive s hr)

theorem sum_weights (events : List Event) (w : Event → ℝ) (c : ℝ) (hc : c ≠ 0) (hw : (events.map w).sum = c)
    (x : ℝ) : (events.map fun e => w e / c * x).sum = x := by
  have : (events.map fun e => w e / c * x) = (events.map w).map fun y => y * (x / c) := by
    rw [List.map_map]
    refine List.map_congr_left fun e _ => ?_
    simp only [Function.comp]
    ring
  rw [this, List.sum_map_mul_right, List.map_id', hw]
  field_simp

theorem list_sum_congr {α : Type} {l : List α} {f g : α → ℝ} (h : ∀ a ∈ l, f a = g a) :
    (l.map f).sum = (l.map g).sum := by rw [List.map_congr_left h]

/-- A function that has the same value after every list of events of positive rate has this value as its mean. -/
theorem expectedOver_value (hs : HopSystem o mobile h Rounding.exact m g lib st)
    (ha : Answers o mobile m lib.events st.occ)
    (hi : Sim.init (realKernel Rounding.exact) m lib.generateEventDependencies (some h) (some st) = .ok s0)
    (alive : ∀ s, Reaches m s0 s → ¬ Stuck m s) (x : ℝ) (n : Nat) : ∀ (st' : State EReal), GoodState m s0 st' →
    ∀ F : List Event → ℝ, (∀ p, p.length = n → GoodState m s0 (afterAll st' p) → F p = x) →
    expectedOver m s0.lib.events n st' F = x := by
  induction n with
  | zero => intro st' hg F hF; exact hF [] rfl hg
  | succ n ih =>
    intro st' hg F hF
    have hpos := good_pos hs ha hi alive hg
    rw [expectedOver, ← sum_weights s0.lib.events (rateIn m st') _ hpos.ne' rfl x]
    refine list_sum_congr fun e he => ?_
    rcases (rateIn_nonneg hs st' e).lt_or_eq with hp | hp
    · congr 1
      exact ih _ (good_step hs ha hi hg he hp) _ fun p hl hgp => hF (e :: p) (by simp [hl]) hgp
    · rw [← hp]; simp

theorem expectedOver_add (m : RateModel Unit ℝ EReal) (events : List Event) (k n : Nat) :
    ∀ (st' : State EReal) (F : List Event → ℝ),
    expectedOver m events (k + n) st' F =
      expectedOver m events k st' (fun p => expectedOver m events n (afterAll st' p) (fun q => F (p ++ q))) := by
  induction k with
  | zero => intro st' F; simp [expectedOver, afterAll]
  | succ k ih =>
    intro st' F
    rw [show k + 1 + n = (k + n) + 1 by omega]
    simp only [expectedOver]
    refine list_sum_congr fun e _ => ?_
    rw [ih]
    rfl

theorem sqLen_add (u w : Vec3 ℝ) : sqLen (u + w) = sqLen u + 2 * ∑ c, u c * w c + sqLen w := by
  unfold sqLen
  rw [Finset.mul_sum, ← Finset.sum_add_distrib, ← Finset.sum_add_distrib]
  refine Finset.sum_congr rfl fun c _ => ?_
  simp only [Pi.add_apply]
  ring

theorem sqLen_neg (u : Vec3 ℝ) : sqLen (-u) = sqLen u := by
  unfold sqLen
  simp

/-- The mean of a linear function of the next way is zero. -/
theorem level_component (hs : HopSystem o mobile h Rounding.exact m g lib st)
    {v : Event → Vec3 ℝ} {a : ℝ} (hub : Unbiased o mobile m g s0 v a) {st' : State EReal}
    (hg : GoodState m s0 st') (c : Fin 3) :
    (s0.lib.events.map fun e => rateIn m st' e * wayOf o mobile v st'.occ e c).sum = 0 := by
  obtain ⟨s, hr, ho⟩ := hg
  have h1 := congrFun (hub.level s hr) c
  have key : ∀ l : List (Vec3 ℝ), l.sum c = (l.map fun x => x c).sum := by
    intro l
    induction l with
    | nil => rfl
    | cons x l ih => simp [ih]
  rw [key, List.map_map] at h1
  rw [show (0 : ℝ) = (0 : Vec3 ℝ) c from rfl, ← h1]
  refine list_sum_congr fun e _ => ?_
  simp only [Function.comp, Pi.smul_apply, smul_eq_mul, ho, rateIn_congr hs.loc ho]

theorem sum_map_sum (events : List Event) (F : Event → Fin 3 → ℝ) :
    (events.map fun e => ∑ c, F e c).sum = ∑ c, (events.map fun e => F e c).sum := by
  induction events with
  | nil => simp
  | cons e l ih => simp only [List.map_cons, List.sum_cons, ih, Finset.sum_add_distrib]

theorem sum_map_add (events : List Event) (F G : Event → ℝ) :
    (events.map fun e => F e + G e).sum = (events.map F).sum + (events.map G).sum := by
  induction events with
  | nil => simp
  | cons e l ih => simp only [List.map_cons, List.sum_cons, ih]; ring

theorem sum_map_const_mul (events : List Event) (x : ℝ) (F : Event → ℝ) :
    (events.map fun e => x * F e).sum = x * (events.map F).sum := by
  induction events with
  | nil => simp
  | cons e l ih => simp only [List.map_cons, List.sum_cons, ih]; ring

/-- The length of a hop with a positive rate. -/
theorem way_length (hs : HopSystem o mobile h Rounding.exact m g lib st)
    (ha : Answers o mobile m lib.events st.occ)
    (hi : Sim.init (realKernel Rounding.exact) m lib.generateEventDependencies (some h) (some st) = .ok s0)
    {v : Event → Vec3 ℝ} {a : ℝ} (hub : Unbiased o mobile m g s0 v a) {st' : State EReal}
    (hg : GoodState m s0 st') {e : Event} (he : e ∈ s0.lib.events) (hp : 0 < rateIn m st' e) :
    sqLen (wayOf o mobile v st'.occ e) = a ^ 2 := by
  obtain ⟨s, hr, ho⟩ := hg
  have hm := met_reaches hs ha hi (met_start hs hi) hr
  have hlen : s.st.occ.length = st.occ.length := hm.perm.length_eq
  obtain ⟨f, t, -, -, -, -, d, h2, -, -, -⟩ := direction_species hs hi hlen hm.inv.labelled he
  have hd0 : d ≠ 0 := by
    rintro rfl
    rw [← rateIn_congr hs.loc ho] at hp
    unfold rateIn at hp
    cases hc : m.computeProbability () e s.st with
    | error x => rw [hc] at hp; exact lt_irrefl _ hp
    | ok p =>
      rw [hc] at hp
      simp only at hp
      rw [hs.forbidden e s.st p h2 hc] at hp
      exact lt_irrefl _ hp
  rw [← ho, wayOf_direction hs hi hlen hm.inv.labelled he v h2 hd0]
  split
  · exact hub.length e he
  · rw [sqLen_neg]; exact hub.length e he

theorem walk_mean (hs : HopSystem o mobile h Rounding.exact m g lib st)
    (ha : Answers o mobile m lib.events st.occ)
    (hi : Sim.init (realKernel Rounding.exact) m lib.generateEventDependencies (some h) (some st) = .ok s0)
    {v : Event → Vec3 ℝ} {a : ℝ} (hub : Unbiased o mobile m g s0 v a) (c : Fin 3) (n : Nat) :
    ∀ (st' : State EReal), GoodState m s0 st' → ∀ w : Vec3 ℝ,
    expectedOver m s0.lib.events n st' (fun p => (w + walkOf o mobile v st' p) c) = w c := by
  induction n with
  | zero => intro st' _ w; simp [expectedOver, walkOf]
  | succ n ih =>
    intro st' hg w
    have hpos := good_pos hs ha hi hub.alive hg
    have hl := level_component hs hub hg c
    rw [expectedOver]
    have e1 : (s0.lib.events.map fun e => rateIn m st' e / totalRate m s0.lib.events st' *
        expectedOver m s0.lib.events n (st'.applyEvent e 0).2
          (fun p => (w + walkOf o mobile v st' (e :: p)) c)).sum =
        (s0.lib.events.map fun e => rateIn m st' e / totalRate m s0.lib.events st' * w c +
          1 / totalRate m s0.lib.events st' * (rateIn m st' e * wayOf o mobile v st'.occ e c)).sum := by
      refine list_sum_congr fun e he => ?_
      rcases (rateIn_nonneg hs st' e).lt_or_eq with hp | hp
      · have := ih _ (good_step hs ha hi hg he hp) (w + wayOf o mobile v st'.occ e)
        simp only [walkOf, ← add_assoc]
        rw [this, Pi.add_apply]
        ring
      · rw [← hp]; simp
    rw [e1, sum_map_add, sum_weights s0.lib.events (rateIn m st') _ hpos.ne' rfl, sum_map_const_mul, hl]
    ring

theorem walk_square (hs : HopSystem o mobile h Rounding.exact m g lib st)
    (ha : Answers o mobile m lib.events st.occ)
    (hi : Sim.init (realKernel Rounding.exact) m lib.generateEventDependencies (some h) (some st) = .ok s0)
    {v : Event → Vec3 ℝ} {a : ℝ} (hub : Unbiased o mobile m g s0 v a) (n : Nat) :
    ∀ (st' : State EReal), GoodState m s0 st' → ∀ w : Vec3 ℝ,
    expectedOver m s0.lib.events n st' (fun p => sqLen (w + walkOf o mobile v st' p)) = sqLen w + n * a ^ 2 := by
  induction n with
  | zero => intro st' _ w; simp [expectedOver, walkOf]
  | succ n ih =>
    intro st' hg w
    have hpos := good_pos hs ha hi hub.alive hg
    rw [expectedOver]
    have e1 : (s0.lib.events.map fun e => rateIn m st' e / totalRate m s0.lib.events st' *
        expectedOver m s0.lib.events n (st'.applyEvent e 0).2
          (fun p => sqLen (w + walkOf o mobile v st' (e :: p)))).sum =
        (s0.lib.events.map fun e => rateIn m st' e / totalRate m s0.lib.events st' *
            (sqLen w + (n + 1) * a ^ 2) +
          2 / totalRate m s0.lib.events st' *
            ∑ c, w c * (rateIn m st' e * wayOf o mobile v st'.occ e c)).sum := by
      refine list_sum_congr fun e he => ?_
      rcases (rateIn_nonneg hs st' e).lt_or_eq with hp | hp
      · have := ih _ (good_step hs ha hi hg he hp) (w + wayOf o mobile v st'.occ e)
        simp only [walkOf, ← add_assoc]
        rw [this, sqLen_add, way_length hs ha hi hub hg he hp]
        have : ∑ c, w c * (rateIn m st' e * wayOf o mobile v st'.occ e c) =
            rateIn m st' e * ∑ c, w c * wayOf o mobile v st'.occ e c := by
          rw [Finset.mul_sum]
          exact Finset.sum_congr rfl fun c _ => by ring
        rw [this]
        ring
      · rw [← hp]; simp
    rw [e1, sum_map_add, sum_weights s0.lib.events (rateIn m st') _ hpos.ne' rfl, sum_map_const_mul, sum_map_sum]
    have : ∀ c, (s0.lib.events.map fun e => w c * (rateIn m st' e * wayOf o mobile v st'.occ e c)).sum = 0 := by
      intro c
      rw [sum_map_const_mul, level_component hs hub hg c, mul_zero]
    simp only [this, Finset.sum_const_zero, mul_zero, add_zero]
    push_cast
    ring

theorem time_uniform (hs : HopSystem o mobile h Rounding.exact m g lib st)
    (ha : Answers o mobile m lib.events st.occ)
    (hi : Sim.init (realKernel Rounding.exact) m lib.generateEventDependencies (some h) (some st) = .ok s0)
    (alive : ∀ s, Reaches m s0 s → ¬ Stuck m s) (r : ℝ)
    (hr : ∀ s, Reaches m s0 s → totalRate m s0.lib.events s.st = r) (n : Nat) :
    ∀ (st' : State EReal), GoodState m s0 st' → expectedTime m s0.lib.events n st' = n / r := by
  induction n with
  | zero => intro st' _; simp [expectedTime]
  | succ n ih =>
    intro st' hg
    have hpos := good_pos hs ha hi alive hg
    have htot : totalRate m s0.lib.events st' = r := by
      obtain ⟨s, hs', ho⟩ := hg
      rw [totalRate_congr hs.loc _ ho.symm, hr s hs']
    rw [expectedTime]
    have : (s0.lib.events.map fun e => rateIn m st' e / totalRate m s0.lib.events st' *
        expectedTime m s0.lib.events n (st'.applyEvent e 0).2).sum = n / r := by
      rw [← sum_weights s0.lib.events (rateIn m st') _ hpos.ne' rfl ((n : ℝ) / r)]
      refine list_sum_congr fun e he => ?_
      rcases (rateIn_nonneg hs st' e).lt_or_eq with hp | hp
      · rw [ih _ (good_step hs ha hi hg he hp)]
      · rw [← hp]; simp
    rw [this, htot]
    push_cast
    ring

theorem met_steps (hs : HopSystem o mobile h Rounding.exact m g lib st)
    (ha : Answers o mobile m lib.events st.occ)
    (hi : Sim.init (realKernel Rounding.exact) m lib.generateEventDependencies (some h) (some st) = .ok s0)
    {draws : Nat → ℝ × ℝ} {b : Bool} {c : Nat} {s s1 : Sim σ φ Unit ℝ EReal} {hist : List (Event × EReal)}
    (hst : Steps (realKernel Rounding.exact) m draws b c s hist s1) (hm : Met o mobile m st s0 s) :
    Met o mobile m st s0 s1 := by
  obtain ⟨-, -, h1, -⟩ := steps_congr hs ha hi b hst s hm hm rfl
  exact h1

theorem update_time {k : Kernel ℝ EReal ℝ} {s s1 : Sim σ φ Unit ℝ EReal} {e : Event} {dt : EReal}
    (hu : s.update k m e dt = (.ok (), s1)) : s1.st.time = s.st.time + dt := by
  obtain ⟨st1, ms, i1, prob, b1, -, -, -, rfl⟩ := update_ok hu
  obtain ⟨_, _, _, _, _, _, _, _, _, h3⟩ := applyEvent_ok b1
  simp only
  rw [h3]

theorem steps_time_quiet {k : Kernel ℝ EReal ℝ} {draws : Nat → ℝ × ℝ} {c : Nat}
    {s s1 : Sim σ φ Unit ℝ EReal} {hist : List (Event × EReal)} (hst : Steps k m draws false c s hist s1) :
    s1.st.time = s.st.time := by
  induction hst with
  | nil => rfl
  | cons hp hu _ ih => rw [ih, update_time hu]; simp

theorem steps_time {k : Kernel ℝ EReal ℝ} {draws : Nat → ℝ × ℝ} {c : Nat}
    {s s1 : Sim σ φ Unit ℝ EReal} {hist : List (Event × EReal)} (hst : Steps k m draws true c s hist s1)
    (hreal : ∀ x ∈ hist, ∃ r : ℝ, x.2 = (r : EReal)) {t0 : ℝ} (ht : s.st.time = (t0 : EReal)) :
    s1.st.time = ((t0 + (hist.map fun x => x.2.toReal).sum : ℝ) : EReal) := by
  induction hst generalizing t0 with
  | nil => simpa using ht
  | @cons c s s1 s2 e dt hist hp hu _ ih =>
    obtain ⟨r, hr⟩ := hreal (e, dt) (by simp)
    simp only at hr
    subst hr
    have h1 := update_time hu
    rw [ht, if_pos rfl, ← EReal.coe_add] at h1
    rw [ih (fun x hx => hreal x (List.mem_cons_of_mem _ hx)) h1]
    simp [add_assoc]

/-- The events of a completed run, and what the tracker and the clock have added up. -/
theorem run_walk {V Row : Type} (hs : HopSystem o mobile h Rounding.exact m g lib st)
    (ha : Answers o mobile m lib.events st.occ)
    (hi : Sim.init (realKernel Rounding.exact) m lib.generateEventDependencies (some h) (some st) = .ok s0)
    {v : Event → Vec3 ℝ} (hv : ∀ e ∈ s0.lib.events, IsHopVector g e (v e))
    {rng : Nat → ℝ × ℝ} (hr : ∀ c, 0 ≤ (rng c).1 ∧ (rng c).1 < 1)
    {summary : Trajectory ℝ → EReal → List (String × Bool) → Row} {plan : PropertyPlan EReal V}
    {len equil prod : Nat}
    (hok : (s0.run (realKernel Rounding.exact) m g (some h) summary plan rng len equil prod).outcome = .ok ()) :
    ∃ (rs : RunState σ φ Unit ℝ EReal ℝ V Row) (hist1 hist2 : List (Event × EReal)) (s1 s2 : Sim σ φ Unit ℝ EReal),
      (s0.run (realKernel Rounding.exact) m g (some h) summary plan rng len equil prod).tracker = some rs ∧
      Steps (realKernel Rounding.exact) m rng true 0 s0 hist1 s1 ∧
      Steps (realKernel Rounding.exact) m rng true (equil * len) s1 hist2 s2 ∧
      hist1.length = equil * len ∧ hist2.length = prod * len ∧
      rs.traj.displacement.sum =
        walkOf o mobile v (afterAll s0.st (hist1.map (·.1))) (hist2.map (·.1)) ∧
      ∀ t0 : ℝ, s0.st.time = (t0 : EReal) → (∀ x ∈ hist2, ∃ r : ℝ, x.2 = (r : EReal)) →
        rs.sim.st.time = ((t0 + (hist2.map fun x => x.2.toReal).sum : ℝ) : EReal) := by
  obtain ⟨s1, traj, sm, rs, a1, a2, -, a4, a5⟩ := run_ok hok
  obtain ⟨eq, hl1, heq⟩ := equilSteps_steps a1
  obtain ⟨hist, hl, hh⟩ := passes_tracked a4
  have inv1 := sim_inv_steps hs hi hr heq (sim_init_inv hs hi)
  obtain ⟨hist2, j1, j2, j3, j4⟩ := tracked_walk hs hi hv hr hh inv1 (traj_init_tracks a2) (traj_init_aligned a2)
  obtain ⟨s1', k1, k2, k3, k4⟩ := steps_congr hs ha hi true heq s0 (met_start hs hi) (met_start hs hi) rfl
  obtain ⟨s2', k5, -, -, -⟩ := steps_congr hs ha hi true j1 s1' k2 k3 k4
  refine ⟨rs, eq, hist2, s1', s2', by rw [a5], k1, k5, hl1, by rw [j2, hl], ?_, ?_⟩
  · have h0 : traj.displacement.sum = 0 := by
      obtain ⟨-, h2, -, -⟩ := traj_init_ok a2
      rw [h2]
      simp
    rw [j3, h0, zero_add]
    exact (walkOf_congr v _ (by rw [steps_after k1, k4])).symm
  · intro t0 ht hreal
    exact steps_time j1 hreal (by rw [steps_time_quiet heq, ht])

/-- The mean over all runs of a function of the configuration at the beginning of the production and of the events
after that. -/
theorem mean_walk {V Row : Type} (hs : HopSystem o mobile h Rounding.exact m g lib st)
    (ha : Answers o mobile m lib.events st.occ)
    (hi : Sim.init (realKernel Rounding.exact) m lib.generateEventDependencies (some h) (some st) = .ok s0)
    {v : Event → Vec3 ℝ} {a : ℝ} (hub : Unbiased o mobile m g s0 v a)
    {Θ : Type} [MeasurableSpace Θ] {μ : Measure Θ} [IsProbabilityMeasure μ] {U : Nat → Θ → ℝ × ℝ}
    (hU : RandomNumbers μ U) {summary : Trajectory ℝ → EReal → List (String × Bool) → Row}
    {plan : PropertyPlan EReal V} {len equil prod : Nat}
    (hok : ∀ᵐ ω ∂μ, (s0.run (realKernel Rounding.exact) m g (some h) summary plan (fun k => U k ω) len equil
      prod).outcome = .ok ()) (G : Vec3 ℝ → ℝ) (x : ℝ)
    (hx : ∀ st', GoodState m s0 st' →
      expectedOver m s0.lib.events (prod * len) st' (fun p => G (walkOf o mobile v st' p)) = x) :
    MeanAtTheEnd μ U m g (some h) summary plan len equil prod s0 (fun traj _ => G traj.displacement.sum) x := by
  obtain ⟨Y, T, -, -, hYi, -, hY, hmean, -⟩ := expectation_from hs ha hi hub.alive hU (equil * len + prod * len) 0 s0
    .refl (fun p => G (walkOf o mobile v (afterAll s0.st (p.take (equil * len))) (p.drop (equil * len))))
  refine ⟨Y, hYi, ?_, ?_⟩
  · filter_upwards [hY, hok, draws_in_range hU] with ω h1 h2 h3
    obtain ⟨hist, s', b1, b2, b3, -, -⟩ := h1
    obtain ⟨rs, hist1, hist2, s1, s2, c1, c2, c3, c4, c5, c6, -⟩ :=
      run_walk hs ha hi hub.vector (fun c => (h3 c).1) h2
    have c7 := Steps.append c2 (by simpa [c4] using c3)
    obtain ⟨rfl, -⟩ := steps_unique b1 c7 (by simp [b2, c4, c5])
    refine ⟨rs, h2, c1, ?_⟩
    rw [b3, c6]
    simp only [List.map_append]
    rw [List.take_left' (by simpa using c4), List.drop_left' (by simpa using c4)]
  · rw [hmean, expectedOver_add]
    refine expectedOver_value hs ha hi hub.alive x _ _ ⟨s0, .refl, rfl⟩ _ ?_
    intro p hp hg
    rw [← hx _ hg]
    congr 1
    funext q
    rw [List.take_left' hp, List.drop_left' hp]

/-- The mean time at the end of the run. -/
theorem mean_clock {V Row : Type} (hs : HopSystem o mobile h Rounding.exact m g lib st)
    (ha : Answers o mobile m lib.events st.occ)
    (hi : Sim.init (realKernel Rounding.exact) m lib.generateEventDependencies (some h) (some st) = .ok s0)
    {v : Event → Vec3 ℝ} (hv : ∀ e ∈ s0.lib.events, IsHopVector g e (v e))
    (alive : ∀ s, Reaches m s0 s → ¬ Stuck m s)
    {Θ : Type} [MeasurableSpace Θ] {μ : Measure Θ} [IsProbabilityMeasure μ] {U : Nat → Θ → ℝ × ℝ}
    (hU : RandomNumbers μ U) {summary : Trajectory ℝ → EReal → List (String × Bool) → Row}
    {plan : PropertyPlan EReal V} {len equil prod : Nat}
    (hok : ∀ᵐ ω ∂μ, (s0.run (realKernel Rounding.exact) m g (some h) summary plan (fun k => U k ω) len equil
      prod).outcome = .ok ()) {t0 : ℝ} (ht0 : s0.st.time = (t0 : EReal)) {r : ℝ}
    (hr : ∀ s, Reaches m s0 s → totalRate m s0.lib.events s.st = r) :
    MeanAtTheEnd μ U m g (some h) summary plan len equil prod s0 (fun _ sim => sim.st.time.toReal)
      (t0 + (prod * len : Nat) / r) := by
  obtain ⟨_Y, T, -, -, -, hTi, hT, -, hmean⟩ := expectation_from hs ha hi alive hU (equil * len + prod * len) 0 s0
    .refl (fun _ => 0)
  obtain ⟨_Y', T', -, -, -, hTi', hT', -, hmean'⟩ := expectation_from hs ha hi alive hU (equil * len) 0 s0
    .refl (fun _ => 0)
  refine ⟨fun ω => t0 + (T ω - T' ω), (integrable_const _).add (hTi.sub hTi'), ?_, ?_⟩
  · filter_upwards [hT, hT', hok, draws_in_range hU] with ω h1 h1' h2 h3
    obtain ⟨hist, s', b1, b2, -, b4, b5⟩ := h1
    obtain ⟨hist', s'', b1', b2', -, b4', b5'⟩ := h1'
    obtain ⟨rs, hist1, hist2, s1, s2, c1, c2, c3, c4, c5, -, c7⟩ :=
      run_walk hs ha hi hv (fun c => (h3 c).1) h2
    have c8 := Steps.append c2 (by simpa [c4] using c3)
    obtain ⟨rfl, -⟩ := steps_unique b1 c8 (by simp [b2, c4, c5])
    obtain ⟨rfl, -⟩ := steps_unique b1' c2 (by simp [b2', c4])
    refine ⟨rs, h2, c1, ?_⟩
    rw [c7 t0 ht0 fun x hx => b4 x (by simp [hx]), EReal.toReal_coe, b5, b5', List.map_append, List.sum_append]
    ring
  · have e1 : ∫ ω, (t0 + (T ω - T' ω)) ∂μ = ∫ _, t0 ∂μ + ∫ ω, (T ω - T' ω) ∂μ :=
      integral_add (integrable_const _) (hTi.sub hTi')
    simp only
    rw [e1, integral_sub hTi hTi', hmean, hmean',
      time_uniform hs ha hi alive r hr _ s0.st ⟨s0, .refl, rfl⟩,
      time_uniform hs ha hi alive r hr _ s0.st ⟨s0, .refl, rfl⟩]
    simp only [integral_const, probReal_univ, smul_eq_mul, one_mul]
    push_cast
    ring

/-! ### One ion alone -/

/-- Exactly one site holds an ion, the others are vacant. -/
def Alone (o : ActiveSiteOrder String ψ) (mobile : String) (occ : List Int) : Prop :=
  ∃ k, k < occ.length ∧ speciesAt o occ k = some mobile ∧ ∀ j, j < occ.length → j ≠ k → Vacant o occ j

theorem alone_exchange {x y : List Int} {f t : Nat} (hf : f < x.length) (ht : t < x.length)
    (hall : allowedAt o f = allowedAt o t) (hx : Exchanged f t x y) (ha : Alone o mobile x) : Alone o mobile y := by
  obtain ⟨h1, h2, h3⟩ := speciesAt_exchange hall hx
  obtain ⟨k, hk, hs, hv⟩ := ha
  have hlen : y.length = x.length := hx.1
  have hvac : ∀ i j, speciesAt o y i = speciesAt o x j → Vacant o x j → Vacant o y i := by
    rintro i j he ⟨w, hw1, hw2⟩
    exact ⟨w, hw1, by rw [he, hw2]⟩
  by_cases hkf : k = f
  · subst hkf
    refine ⟨t, by omega, by rw [h2, hs], fun j hj hne => ?_⟩
    by_cases hjf : j = k
    · subst hjf; exact hvac _ _ h1 (hv t ht (Ne.symm hne))
    · exact hvac _ _ (h3 j hjf hne) (hv j (by omega) hjf)
  · by_cases hkt : k = t
    · subst hkt
      refine ⟨f, by omega, by rw [h1, hs], fun j hj hne => ?_⟩
      by_cases hjt : j = k
      · subst hjt; exact hvac _ _ h2 (hv f hf (Ne.symm hne))
      · exact hvac _ _ (h3 j hne hjt) (hv j (by omega) hjt)
    · refine ⟨k, by omega, by rw [h3 k hkf hkt, hs], fun j hj hne => ?_⟩
      by_cases hjf : j = f
      · subst hjf; exact hvac _ _ h1 (hv t ht (Ne.symm hkt))
      · by_cases hjt : j = t
        · subst hjt; exact hvac _ _ h2 (hv f hf (Ne.symm hkf))
        · exact hvac _ _ (h3 j hjf hjt) (hv j (by omega) hne)

theorem alone_reaches (hs : HopSystem o mobile h Rounding.exact m g lib st)
    (ha : Answers o mobile m lib.events st.occ)
    (hi : Sim.init (realKernel Rounding.exact) m lib.generateEventDependencies (some h) (some st) = .ok s0)
    (h0 : Alone o mobile s0.st.occ) {s : Sim σ φ Unit ℝ EReal} (hr : Reaches m s0 s) : Alone o mobile s.st.occ := by
  induction hr with
  | refl => exact h0
  | @tail b c hb hn ih =>
    have hm := met_reaches hs ha hi (met_start hs hi) hb
    obtain ⟨r1, r2, e, dt, -, -, hp, hu⟩ := hn
    have he := proposed_listed hm hp
    obtain ⟨s', u1, -, l1⟩ := met_update hs ha hi hm he dt
    rw [hu] at u1
    obtain ⟨-, rfl⟩ := Prod.mk.inj u1
    obtain ⟨f, t, e1, e2⟩ := l1
    obtain ⟨f', t', hf, ht, hm', hall, -⟩ := event_facts hs hi he
    rw [e1] at hm'
    simp only [List.cons.injEq, Nat.cast_inj, and_true] at hm'
    obtain ⟨rfl, rfl⟩ := hm'
    have hlen := hm.perm.length_eq
    exact alone_exchange (by omega) (by omega) hall e2 ih

theorem not_vacant_mobile {occ : List Int} (hw : WellLabelled o mobile occ) {i : Nat}
    (hv : Vacant o occ i) : speciesAt o occ i ≠ some mobile := by
  obtain ⟨w, hw1, hw2⟩ := hv
  intro hi
  rw [hi] at hw2
  cases hw2
  exact hw.mobileNotVacancy hw1

/-- The events of a lone ion: their ends differ. -/
theorem lone_ends (hs : HopSystem o mobile h Rounding.exact m g lib st)
    (hi : Sim.init (realKernel Rounding.exact) m lib.generateEventDependencies (some h) (some st) = .ok s0)
    {v : Event → Vec3 ℝ} {a ν : ℝ} {z : Nat} (hl : LoneIon o mobile m g s0 v a ν z) {e : Event}
    (he : e ∈ s0.lib.events) : ∃ f t : Nat, e.mobile = [(f : Int), (t : Int)] ∧ f ≠ t ∧ f < st.occ.length ∧
      t < st.occ.length := by
  obtain ⟨f, t, hf, ht, hm', hall, -⟩ := event_facts hs hi he
  refine ⟨f, t, hm', ?_, hf, ht⟩
  rintro rfl
  obtain ⟨f', t', pf, pt, n, e1, e2, e3, e4, e5⟩ := hl.vector e he
  rw [hm'] at e1
  simp only [List.cons.injEq, Nat.cast_inj, and_true] at e1
  obtain ⟨rfl, rfl⟩ := e1
  rw [e2] at e3
  cases e3
  have hn : ∀ c, n c = 0 := by
    intro c
    have := e4 c
    rw [sub_self, zero_add, abs_lt] at this
    have a1 : (-1 : ℝ) < n c := by linarith [this.1]
    have a2 : (n c : ℝ) < 1 := by linarith [this.2]
    have b1 : -1 < n c := by exact_mod_cast a1
    have b2 : n c < 1 := by exact_mod_cast a2
    omega
  have hv0 : v e = 0 := by
    rw [e5]
    have : (fun c => pf c - pf c + (n c : ℝ)) = 0 := by
      funext c; simp [hn c]
    rw [this, Matrix.zero_vecMul]
  have := hl.length e he
  rw [hv0] at this
  have h0 : sqLen (0 : Vec3 ℝ) = 0 := by simp [sqLen]
  rw [h0] at this
  exact (pow_pos hl.positive.1 2).ne this

/-- The rate of an event for a lone ion on site `k`. -/
theorem lone_rate (hs : HopSystem o mobile h Rounding.exact m g lib st)
    (ha : Answers o mobile m lib.events st.occ)
    (hi : Sim.init (realKernel Rounding.exact) m lib.generateEventDependencies (some h) (some st) = .ok s0)
    {v : Event → Vec3 ℝ} {a ν : ℝ} {z : Nat} (hl : LoneIon o mobile m g s0 v a ν z)
    {s : Sim σ φ Unit ℝ EReal} (hr : Reaches m s0 s) {k : Nat}
    (hsk : speciesAt o s.st.occ k = some mobile) (hv : ∀ j, j < s.st.occ.length → j ≠ k → Vacant o s.st.occ j)
    {e : Event} (he : e ∈ s0.lib.events) :
    rateIn m s.st e = (if (k : Int) ∈ e.mobile then ν else 0) ∧
      rateIn m s.st e • wayOf o mobile v s.st.occ e = ν • wayOut v k e := by
  have hm := met_reaches hs ha hi (met_start hs hi) hr
  have hlen : s.st.occ.length = st.occ.length := hm.perm.length_eq
  obtain ⟨f, t, h1, hne, hf, ht⟩ := lone_ends hs hi hl he
  rw [← hlen] at hf ht
  have hno : ∀ j, j < s.st.occ.length → j ≠ k → speciesAt o s.st.occ j ≠ some mobile := fun j hj hjk =>
    not_vacant_mobile hm.inv.labelled (hv j hj hjk)
  by_cases hkf : k = f
  · subst hkf
    have hrate := hl.rate s hr e he k t h1 (.inl ⟨hsk, hv t ht (Ne.symm hne)⟩)
    refine ⟨by rw [if_pos (by simp [h1])]; exact hrate, ?_⟩
    rw [hrate]
    congr 1
    unfold wayOf wayOut
    rw [h1]
    simp only [Int.toNat_natCast]
    rw [if_pos hsk, if_pos trivial]
  · by_cases hkt : k = t
    · subst hkt
      have hrate := hl.rate s hr e he f k h1 (.inr ⟨hsk, hv f hf hne⟩)
      refine ⟨by rw [if_pos (by simp [h1])]; exact hrate, ?_⟩
      rw [hrate]
      congr 1
      unfold wayOf wayOut
      rw [h1]
      simp only [Int.toNat_natCast, Nat.cast_inj]
      rw [if_neg (hno f hf hne), if_pos hsk, if_neg hne, if_pos trivial]
    · have hz : rateIn m s.st e = 0 := by
        obtain ⟨f', t', g1, -, -, -, d, g2, g3, g4, g5⟩ := direction_species hs hi hlen hm.inv.labelled he
        rw [h1] at g1
        simp only [List.cons.injEq, Nat.cast_inj, and_true] at g1
        obtain ⟨rfl, rfl⟩ := g1
        have hd : d = 0 := by
          rcases g5 with rfl | rfl | rfl
          · exact absurd (g3.1 rfl).1 (hno f hf (Ne.symm hkf))
          · exact absurd (g4.1 rfl).1 (hno t ht (Ne.symm hkt))
          · rfl
        subst hd
        unfold rateIn
        cases hc : m.computeProbability () e s.st with
        | error x => rfl
        | ok p => exact hs.forbidden e s.st p g2 hc
      refine ⟨by rw [if_neg (by simp [h1, hkf, hkt])]; exact hz, ?_⟩
      rw [hz, zero_smul]
      unfold wayOut
      rw [h1]
      simp only [Nat.cast_inj]
      rw [if_neg (Ne.symm hkf), if_neg (Ne.symm hkt), smul_zero]

theorem sum_countP (events : List Event) (q : Event → Prop) [DecidablePred q] (ν : ℝ) :
    (events.map fun e => if q e then ν else 0).sum = events.countP (fun e => decide (q e)) * ν := by
  induction events with
  | nil => simp
  | cons e l ih =>
    rw [List.map_cons, List.sum_cons, ih, List.countP_cons]
    by_cases hq : q e
    · simp [hq]; ring
    · simp [hq]

theorem sum_smul_vec (events : List Event) (ν : ℝ) (w : Event → Vec3 ℝ) :
    (events.map fun e => ν • w e).sum = ν • (events.map w).sum := by
  induction events with
  | nil => simp
  | cons e l ih => simp [ih, smul_add]

theorem lone_unbiased (hs : HopSystem o mobile h Rounding.exact m g lib st)
    (ha : Answers o mobile m lib.events st.occ)
    (hi : Sim.init (realKernel Rounding.exact) m lib.generateEventDependencies (some h) (some st) = .ok s0)
    {v : Event → Vec3 ℝ} {a ν : ℝ} {z : Nat} (hl : LoneIon o mobile m g s0 v a ν z) :
    Unbiased o mobile m g s0 v a ∧ ∀ s, Reaches m s0 s → totalRate m s0.lib.events s.st = z * ν := by
  have htot : ∀ s, Reaches m s0 s → totalRate m s0.lib.events s.st = z * ν := by
    intro s hr
    obtain ⟨k, hk, hsk, hv⟩ := alone_reaches hs ha hi hl.ion hr
    have hm := met_reaches hs ha hi (met_start hs hi) hr
    have hst : s0.st = st := by
      obtain ⟨i1, -⟩ := init_ok hi
      exact (Option.some.inj i1).symm
    have hk' : k < s0.st.occ.length := by rw [hst, ← hm.perm.length_eq]; exact hk
    unfold totalRate
    rw [List.map_congr_left fun e he => (lone_rate hs ha hi hl hr hsk hv he).1, sum_countP, hl.ways k hk']
  refine ⟨⟨hl.vector, hl.length, ?_, ?_⟩, htot⟩
  · intro s hr hstuck
    have hm := met_reaches hs ha hi (met_start hs hi) hr
    have h1 := htot s hr
    have h2 : totalRate m s0.lib.events s.st = 0 := by
      unfold totalRate
      refine List.sum_eq_zero fun x hx => ?_
      obtain ⟨e, he, rfl⟩ := List.mem_map.1 hx
      unfold rateIn
      cases hc : m.computeProbability () e s.st with
      | error x => rfl
      | ok p => exact hstuck e (by rw [hm.inv.lib]; exact he) p hc
    rw [h2] at h1
    have h3 : (0 : ℝ) < z * ν := mul_pos (by exact_mod_cast hl.positive.2.2) hl.positive.2.1
    linarith
  · intro s hr
    obtain ⟨k, hk, hsk, hv⟩ := alone_reaches hs ha hi hl.ion hr
    have hm := met_reaches hs ha hi (met_start hs hi) hr
    have hst : s0.st = st := by
      obtain ⟨i1, -⟩ := init_ok hi
      exact (Option.some.inj i1).symm
    have hk' : k < s0.st.occ.length := by rw [hst, ← hm.perm.length_eq]; exact hk
    rw [List.map_congr_left fun e he => (lone_rate hs ha hi hl hr hsk hv he).2, sum_smul_vec, hl.cancel k hk',
      smul_zero]

end
end KMC
