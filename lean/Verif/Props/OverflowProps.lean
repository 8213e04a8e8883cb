import Verif.Lemmas.Network
import Verif.Lemmas.Overflow
import Verif.Props.RunProps
import Verif.Props.ConfigProps
/-
C119: rates that overflow or are not numbers.
-/
set_option linter.unusedSectionVars false

namespace KMC
open Spec Overflow

variable {F : Format}

/-- C119.  While the running sums and the waiting time stay within the range of the floating-point format, the event
chosen, the waiting time and the errors are those of the model without overflow. -/
theorem C119_in_range_as_before {rates : List ℝ} (hrep : ∀ p ∈ rates, F.Rep p) (hnn : ∀ p ∈ rates, 0 ≤ p)
    {r1 r2 : ℝ} (h0 : 0 ≤ r2) (h1 : r2 < 1) (hr : InRange F rates r2) :
    SameProposal (Overflow.propose (Overflow.cumsum (rates.map (Flt.fin (F := F)))) r1 r2)
      (KMC.propose F.toRounding (KMC.cumsum F.toRounding rates) r1 r2) := by
  rw [cumsum_fin hnn hr.sums]
  unfold Overflow.propose KMC.propose
  rw [List.getLast?_map]
  cases ht : (KMC.cumsum F.toRounding rates).getLast? with
  | none => exact rfl
  | some tot =>
    simp only [Option.map_some]
    by_cases hz : tot = 0
    · subst hz
      simp [SameProposal]
    · have hz' : (Flt.fin tot : Flt F) ≠ .fin 0 := by simpa using hz
      obtain ⟨b1, b2, b3⟩ := hr.total tot ht hz
      have hmem : tot ∈ KMC.cumsum F.toRounding rates := List.mem_of_getLast? ht
      have hpos : 0 < tot := by
        obtain ⟨i, hi, hc⟩ := List.getElem_of_mem hmem
        have := (cumsum_rep hrep hnn (i := i) (c := tot) (by simp [hi, hc])).2
        exact lt_of_le_of_ne this (Ne.symm hz)
      have hlim := limit_pos F
      rw [if_neg hz', if_neg hz]
      have hdiv : ((KMC.cumsum F.toRounding rates).map (Flt.fin (F := F))).map (fun c => c.div (.fin tot)) =
          ((KMC.cumsum F.toRounding rates).map fun c => F.rnd (c / tot)).map (Flt.fin (F := F)) := by
        rw [List.map_map, List.map_map]
        apply List.map_congr_left
        intro c hc
        have hc0 : 0 ≤ c := by
          obtain ⟨i, hi, hc'⟩ := List.getElem_of_mem hc
          exact (cumsum_rep hrep hnn (i := i) (c := c) (by simp [hi, hc'])).2
        have hct : c ≤ tot := by
          obtain ⟨i, hi, hc'⟩ := List.getElem_of_mem hc
          rw [List.getLast?_eq_getElem?] at ht
          exact cumsum_le_of_le hrep hnn (i := i) (by omega) (by simp [hi, hc']) ht
        have u1 : F.rnd (c / tot) ≤ 1 := by
          have := F.mono (show c / tot ≤ 1 from (div_le_one hpos).2 hct)
          rwa [F.one] at this
        have u0 : 0 ≤ F.rnd (c / tot) := rnd_nonneg (div_nonneg hc0 hpos.le)
        simp only [Function.comp_apply, Flt.div, if_neg hz]
        exact round_inRange (le_trans u1 F.one_le) (by linarith)
      rw [hdiv]
      refine ⟨?_, ?_⟩
      · rw [bisectRight_map]
        simp [searchsortedRight]
      · have n1 : F.rnd (-1 / tot) ≤ 0 := rnd_nonpos (by
          rw [neg_div]; have := one_div_pos.2 hpos; linarith)
        have n2 : -F.limit ≤ F.rnd (-1 / tot) := by
          have := F.mono (show -F.limit ≤ -1 / tot by
            rw [neg_div, neg_le_neg_iff, div_le_iff₀ hpos]; linarith)
          rwa [F.neg_limit_rep] at this
        have hd : (Flt.fin (-1) : Flt F).div (.fin tot) = .fin (F.rnd (-1 / tot)) := by
          simp only [Flt.div, if_neg hz]
          exact round_inRange (le_trans n1 hlim.le) n2
        rw [hd]
        by_cases hr2 : r2 = 0
        · subst hr2
          have hneg : F.rnd (-1 / tot) < 0 := lt_of_le_of_ne n1 b2
          simp only [Flt.log, if_true, Flt.mul, waitingTime, Flt.infTimes, neg_eq_zero, if_neg b2,
            Left.neg_pos_iff, if_pos hneg]
          rfl
        · obtain ⟨c1, c2⟩ := b3.resolve_left hr2
          have hlog : Real.log r2 ≤ 0 := Real.log_nonpos h0 h1.le
          have l1 : F.rnd (Real.log r2) ≤ 0 := rnd_nonpos hlog
          have l2 : -F.limit ≤ F.rnd (Real.log r2) := by
            have := F.mono (show -F.limit ≤ Real.log r2 by linarith)
            rwa [F.neg_limit_rep] at this
          have hl : (Flt.log r2 : Flt F) = .fin (F.rnd (Real.log r2)) := by
            simp only [Flt.log, if_neg hr2]
            exact round_inRange (le_trans l1 hlim.le) l2
          rw [hl]
          have hp : 0 ≤ F.rnd (F.rnd (-1 / tot) * F.rnd (Real.log r2)) :=
            rnd_nonneg (mul_nonneg_of_nonpos_of_nonpos n1 l1)
          have hmul : (Flt.fin (F.rnd (-1 / tot)) : Flt F).mul (.fin (F.rnd (Real.log r2))) =
              .fin (F.rnd (F.rnd (-1 / tot) * F.rnd (Real.log r2))) := round_inRange c2 (by linarith)
          rw [hmul]
          simp only [waitingTime, if_neg hr2]
          rfl

/-- C119.  When the running sum of the rates becomes infinite, the event at which this happens is chosen whatever the
draws are, and no time passes (a draw that is exactly zero makes the waiting time NaN). -/
theorem C119_infinite_total {rates : List (Flt F)} (hn : NotNegative F rates) {k : Nat}
    (hk : FirstInfinite rates k) {r1 r2 : ℝ} (h0 : 0 ≤ r1) (h2 : 0 ≤ r2) (h3 : r2 < 1)
    (hlog : r2 ≠ 0 → -Real.log r2 ≤ F.limit) :
    Overflow.propose (Overflow.cumsum rates) r1 r2 = .ok (k, if r2 = 0 then .nan else .fin 0) := by
  obtain ⟨k1, k2⟩ := hk
  have hklt : k < (Overflow.cumsum rates).length := (List.getElem?_eq_some_iff.1 k1).1
  have hlast : (Overflow.cumsum rates).getLast? = some .posInf := by
    have hne : (Overflow.cumsum rates)[(Overflow.cumsum rates).length - 1]? =
        some ((Overflow.cumsum rates)[(Overflow.cumsum rates).length - 1]'(by omega)) :=
      List.getElem?_eq_getElem (by omega)
    rw [List.getLast?_eq_getElem?, hne]
    exact congrArg some (cumsum_stays_inf hn (i := k) (by omega) k1 hne)
  unfold Overflow.propose
  rw [hlast]
  simp only [reduceCtorEq, if_false]
  rw [bisectRight_eq (k := k) ?_ ?_ _ _ _ (by omega) hklt.le (by simp) (by simp)]
  · have hd : (Flt.fin (-1) : Flt F).div .posInf = .fin 0 := rfl
    rw [hd]
    by_cases hr : r2 = 0
    · simp [Flt.log, hr, Flt.mul, Flt.infTimes]
    · have hlim := limit_pos F
      have l1 : F.rnd (Real.log r2) ≤ 0 := rnd_nonpos (Real.log_nonpos h2 h3.le)
      have l2 : -F.limit ≤ F.rnd (Real.log r2) := by
        have := F.mono (show -F.limit ≤ Real.log r2 by have := hlog hr; linarith)
        rwa [F.neg_limit_rep] at this
      have hl : (Flt.log r2 : Flt F) = .fin (F.rnd (Real.log r2)) := by
        simp only [Flt.log, if_neg hr]
        exact round_inRange (le_trans l1 hlim.le) l2
      rw [hl, if_neg hr]
      have : (Flt.fin 0 : Flt F).mul (.fin (F.rnd (Real.log r2))) = .fin (F.rnd 0) := by
        simp only [Flt.mul, zero_mul]
        exact round_inRange (by rw [F.zero]; exact hlim.le) (by rw [F.zero]; linarith)
      rw [this, F.zero]
  · intro j x hj hx
    rw [List.getElem?_map] at hx
    cases hc : (Overflow.cumsum rates)[j]? with
    | none => rw [hc] at hx; simp at hx
    | some c =>
      rw [hc] at hx
      simp only [Option.map_some, Option.some.injEq] at hx
      rcases cumsum_shape hn hc with rfl | ⟨y, rfl, -⟩
      · exact absurd hc (k2 j hj)
      · subst hx; exact h0
  · intro j x hj hx
    rw [List.getElem?_map] at hx
    cases hc : (Overflow.cumsum rates)[j]? with
    | none => rw [hc] at hx; simp at hx
    | some c =>
      rw [hc] at hx
      simp only [Option.map_some, Option.some.injEq] at hx
      rw [cumsum_stays_inf hn hj k1 hc] at hx
      subst hx; exact id

/-- C119.  When one rate is NaN, the first event of the list is chosen whatever the draws and the other rates are, and
the waiting time is NaN. -/
theorem C119_nan_rate_picks_first {rates : List (Flt F)} (h : .nan ∈ rates) (r1 r2 : ℝ) :
    Overflow.propose (Overflow.cumsum rates) r1 r2 = .ok (0, .nan) :=
  propose_nan (cumsum_last_nan h) r1 r2

section run
variable {σ φ M K V Row : Type} [Field K] [LinearOrder K] [FloorRing K]

/-- C119.  A run in which some event never has a rate that is a number executes the first event of the list in every
step, equilibration and production.  After a production step the time is NaN; and since executing an event twice
restores the occupations, they are those of the start or those after one execution. -/
theorem C119_nan_run (m : RateModel M (Flt F) (Flt F)) (g : Geometry K) (lookup : Option HopStateLookup)
    (summary : Trajectory K → Flt F → List (String × Bool) → Row) (plan : PropertyPlan (Flt F) V)
    (rng : Nat → ℝ × ℝ) (len equil prod : Nat) (s : Sim σ φ M (Flt F) (Flt F))
    (hf : TableFresh (Overflow.kernel F) m s) {e : Event} (he : e ∈ s.lib.events) (hnan : NeverANumber m e)
    (hrun : (s.run (Overflow.kernel F) m g lookup summary plan rng len equil prod).outcome = .ok ()) :
    ∃ first s1 before during, s.lib.events[0]? = some first ∧
      before.length = equil * len ∧ during.length = prod * len ∧
      Steps (Overflow.kernel F) m rng false 0 s before s1 ∧
      Steps (Overflow.kernel F) m rng true (equil * len) s1 during
        (s.run (Overflow.kernel F) m g lookup summary plan rng len equil prod).sim ∧
      (∀ p ∈ before ++ during, p = (first, .nan)) ∧
      (0 < prod * len →
        (s.run (Overflow.kernel F) m g lookup summary plan rng len equil prod).sim.st.time = .nan) ∧
      ((equil * len + prod * len) % 2 = 0 →
        (s.run (Overflow.kernel F) m g lookup summary plan rng len equil prod).sim.st.occ = s.st.occ) := by
  obtain ⟨j, hj, hje⟩ := List.getElem_of_mem he
  have hfirst : s.lib.events[0]? = some (s.lib.events[0]'(by omega)) := List.getElem?_eq_getElem (by omega)
  obtain ⟨s1, traj, sm, rs, a1, -, -, a4, a5⟩ := run_ok hrun
  obtain ⟨before, hb, hbs⟩ := equilSteps_steps a1
  obtain ⟨during, hd, hds⟩ := passes_steps a4
  simp only at hds
  let Good : Event → Flt F → Prop := fun e' p => e' = e → p = .nan
  have hm : ∀ ms e' st p, m.computeProbability ms e' st = .ok p → Good e' p := by
    rintro ms e' st p hp rfl
    exact hnan ms st p hp
  have hP : ∀ (s' : Sim σ φ M (Flt F) (Flt F)) (c : Nat) p, s'.lib = s.lib →
      TableGood (Overflow.kernel F) Good s' →
      s'.propose (Overflow.kernel F) (rng c).1 (rng c).2 = .ok p →
      p = (s.lib.events[0]'(by omega), .nan) := by
    intro s' c p hl hg hp
    have hjs : s'.lib.events[j]? = some e := by rw [hl]; simp [hj, hje]
    have hjl : j < s'.prob.length := by rw [hg.length, hl]; exact hj
    have hn : (.nan : Flt F) ∈ s'.prob := by
      have := hg.good j e s'.prob[j] hjs (by simp [hjl]) rfl
      rw [← this]; exact List.getElem_mem _
    have hq : (Overflow.kernel F).propose s'.cum (rng c).1 (rng c).2 = .ok (0, .nan) := by
      rw [hg.cum]; exact C119_nan_rate_picks_first hn _ _
    unfold Sim.propose at hp
    rw [hq] at hp
    simp only [hl, hfirst] at hp
    exact (Except.ok.inj hp).symm
  obtain ⟨b1, b2, b3⟩ := steps_good hm (lib := s.lib) _ hP hbs rfl (fresh_good hm hf)
  obtain ⟨c1, c2, c3⟩ := steps_good hm (lib := s.lib) _ hP hds b2 b3
  have hsim : (s.run (Overflow.kernel F) m g lookup summary plan rng len equil prod).sim = rs.sim := by rw [a5]
  rw [hsim]
  refine ⟨_, s1, before, during, hfirst, hb, hd, hbs, hds, ?_, ?_, ?_⟩
  · intro p hp
    rcases List.mem_append.1 hp with hp | hp
    · exact b1 p hp
    · exact c1 p hp
  · intro hpos
    rw [steps_time hds]
    cases during with
    | nil => rw [List.length_nil] at hd; omega
    | cons p during =>
      have hfold : ∀ l : List (Event × Flt F),
          l.foldl (fun (t : Flt F) p => t + if true then p.2 else 0) .nan = .nan := by
        intro l
        induction l with
        | nil => rfl
        | cons q l ih =>
          rw [List.foldl_cons, Flt.add_def, Flt.nan_add]; exact ih
      rw [List.foldl_cons, c1 p (by simp), Flt.add_def]
      simp only [if_true, Flt.add_nan]
      exact hfold _
  · intro hpar
    obtain ⟨p1, p2⟩ := steps_same_event hbs (fun p hp => congrArg Prod.fst (b1 p hp))
    obtain ⟨q1, q2⟩ := steps_same_event hds (fun p hp => congrArg Prod.fst (c1 p hp))
    rw [hb] at p1 p2
    rw [hd] at q1 q2
    rcases Nat.mod_two_eq_zero_or_one (equil * len) with hh | hh
    · rw [q1 (by omega), p1 hh]
    · obtain ⟨dt, st, h1, h2⟩ := p2 hh
      obtain ⟨dt', st', h3, h4⟩ := q2 (by omega)
      rw [h4]
      obtain ⟨f, t, a1, b1, ha, hb, hm, d1, d2, rfl⟩ := applyEvent_ok h1
      obtain ⟨f', t', a2, b2, ha2, hb2, hm2, d3, d4, rfl⟩ := applyEvent_ok h3
      rw [hm] at hm2
      cases hm2
      simp only at h2
      have hlen : s1.st.occ.length = s.st.occ.length := by rw [h2]; simp
      rw [hlen] at d3 d4
      rw [d1] at d3; rw [d2] at d4
      cases d3; cases d4
      have x1 := set_set_exchanged ha hb
      have x2 := set_set_exchanged ha2 hb2
      rw [← h2] at x1
      exact exchanged_unique x2 (exchanged_symm x1)

/-- C119.  Once the time is NaN it stays NaN, whatever is executed and however the run ends. -/
theorem C119_nan_time_stays (k : Kernel (Flt F) (Flt F) ℝ) (m : RateModel M (Flt F) (Flt F)) (g : Geometry K)
    (lookup : Option HopStateLookup)
    (summary : Trajectory K → Flt F → List (String × Bool) → Row) (plan : PropertyPlan (Flt F) V)
    (rng : Nat → ℝ × ℝ) (len equil prod : Nat) (s : Sim σ φ M (Flt F) (Flt F)) (h : s.st.time = .nan) :
    (s.run k m g lookup summary plan rng len equil prod).sim.st.time = .nan := by
  refine run_inv k m g lookup summary plan rng len equil prod s (fun st => st.time = .nan) ?_ h
  intro st e dt _ hst
  rcases applyEvent_cases st e dt with ⟨x, hx⟩ | ⟨f, t, i, j, hi, hj, he, h1, h2, h3⟩
  · rw [hx]; exact hst
  · rw [h3]; show st.time + dt = .nan
    rw [hst, Flt.add_def, Flt.nan_add]

end run

/-- C119.  A property sampled at time intervals is not sampled any more once the time is NaN. -/
theorem C119_nan_time_not_sampled (step : Int) (timeInterval : Option (Flt F)) (last : Option (Flt F)) :
    shouldTrigger step (.nan : Flt F) none timeInterval last = false := by
  have hle : ∀ a : Flt F, ¬ a ≤ .nan := by intro a; cases a <;> exact id
  unfold shouldTrigger
  cases timeInterval with
  | none => rfl
  | some ti =>
    cases last with
    | none => simp [hle]
    | some l =>
      have : (.nan : Flt F) - l = .nan := by cases l <;> rfl
      simp [this, hle]

/-- C119.  With a temperature that is NaN (which a configuration accepts, `C28_nan_accepted`) no event has a rate that
is a number. -/
theorem C119_nan_temperature (m : LocalBarrierModel) (kB : ℝ) (frequency : Flt F) (e : Event) :
    NeverANumber (barrierModel m kB .nan frequency) e := by
  intro ms st p hp
  simp only [barrierModel] at hp
  split at hp
  · cases hp
  · split at hp
    · cases hp
    · split at hp
      · cases hp
      · cases hp
        simp [barrierRate, Flt.exp]

/-- C119.  The rate of a hop that is possible, for a finite barrier, a positive frequency and a positive temperature,
is never NaN and never negative: it is infinite if the exponential is out of range, and finite otherwise if the product
is within range. -/
theorem C119_possible_hop_rate {kB f b T : ℝ} (hf : F.Rep f) (hfp : 0 < f) (hfl : f ≤ F.limit)
    (hT : 0 < F.rnd (kB * T)) (hTl : F.rnd (kB * T) ≤ F.limit) :
    barrierRate kB true (.fin f) (.fin b) (.fin T) = (.posInf : Flt F) ∨
      ∃ r, barrierRate kB true (.fin f) (.fin b) (.fin T) = (.fin r : Flt F) ∧ 0 ≤ r := by
  have hlim := limit_pos F
  have e1 : (Flt.fin 1 : Flt F).mul (.fin f) = .fin f := by
    have : F.rnd (1 * f) = f := by rw [one_mul]; exact hf
    have := round_inRange (F := F) (x := 1 * f) (by rw [this]; exact hfl) (by rw [this]; linarith)
    simp only [Flt.mul, this]
    rw [one_mul, show F.rnd f = f from hf]
  have e2 : (Flt.fin kB : Flt F).mul (.fin T) = .fin (F.rnd (kB * T)) :=
    round_inRange hTl (by linarith)
  have e3 : ∀ x : Flt F, x ≠ .nan → x.exp = .posInf ∨ ∃ y, x.exp = .fin y ∧ 0 ≤ y := by
    intro x hx
    cases x with
    | fin a =>
      have h0 : 0 ≤ F.rnd (Real.exp a) := rnd_nonneg (Real.exp_pos a).le
      simp only [Flt.exp, Flt.round]
      split
      · exact .inl rfl
      · rw [if_neg (by linarith)]; exact .inr ⟨_, rfl, h0⟩
    | posInf => exact .inl rfl
    | negInf => exact .inr ⟨0, rfl, le_refl _⟩
    | nan => exact absurd rfl hx
  have e4 : ((Flt.fin (-b) : Flt F).div (.fin (F.rnd (kB * T)))) ≠ .nan := by
    simp only [Flt.div, if_neg (ne_of_gt hT), Flt.round]
    split
    · simp
    · split <;> simp
  simp only [barrierRate, if_true, e1, e2, Flt.neg]
  rcases e3 _ e4 with h | ⟨y, h, hy⟩
  · rw [h]
    simp [Flt.mul, Flt.infTimes, hfp, ne_of_gt hfp]
  · rw [h]
    have h0 : 0 ≤ F.rnd (f * y) := rnd_nonneg (by positivity)
    simp only [Flt.mul, Flt.round]
    split
    · exact .inl rfl
    · rw [if_neg (by linarith)]; exact .inr ⟨_, rfl, h0⟩

/-- C119.  The rate of a hop that is not possible should be 0; it is NaN when the exponential of its barrier is out of
range, which happens for a barrier far enough below zero. -/
theorem C119_impossible_hop_can_be_nan {kB f b T : ℝ} (hf : F.Rep f) (hfp : 0 < f) (hfl : f ≤ F.limit)
    (hover : ((Flt.fin (-b) : Flt F).div ((Flt.fin kB).mul (.fin T))).exp = .posInf) :
    barrierRate kB false (.fin f) (.fin b) (.fin T) = (.nan : Flt F) ∧
    barrierRate kB true (.fin f) (.fin b) (.fin T) = (.posInf : Flt F) := by
  have hlim := limit_pos F
  have e0 : (Flt.fin 0 : Flt F).mul (.fin f) = .fin 0 := by
    have h0 : F.rnd (0 * f) = 0 := by rw [zero_mul]; exact F.zero
    have := round_inRange (F := F) (x := 0 * f) (by rw [h0]; exact hlim.le) (by rw [h0]; linarith)
    simp only [Flt.mul, this, h0]
  have e1 : (Flt.fin 1 : Flt F).mul (.fin f) = .fin f := by
    have h1 : F.rnd (1 * f) = f := by rw [one_mul]; exact hf
    have := round_inRange (F := F) (x := 1 * f) (by rw [h1]; exact hfl) (by rw [h1]; linarith)
    simp only [Flt.mul, this, h1]
  constructor
  · simp only [barrierRate, Bool.false_eq_true, if_false, e0, Flt.neg, hover]
    simp [Flt.mul, Flt.infTimes]
  · simp only [barrierRate, if_true, e1, Flt.neg, hover]
    simp [Flt.mul, Flt.infTimes, hfp, ne_of_gt hfp]

/-- C119.  With an attempt frequency that is infinite or NaN, which a configuration accepts, the local barrier model
gives every hop that is not possible a rate that is not a number, whatever the barrier and the temperature are. -/
theorem C119_impossible_hop_odd_frequency (kB : ℝ) {frequency : Flt F} (h : frequency = .posInf ∨ frequency = .nan)
    (barrier temperature : Flt F) : barrierRate kB false frequency barrier temperature = .nan := by
  rcases h with rfl | rfl <;> simp [barrierRate, Flt.mul, Flt.infTimes]

/-- C119.  The composite model gives a hop that is not possible the rate 0, whatever the energies and the
temperature are. -/
theorem C119_composite_impossible_is_zero (kB : ℝ) (frequency kra delta temperature : Flt F) :
    compositeRate kB false frequency kra delta temperature = .fin 0 := rfl

/-- C119.  An event with rate zero can be chosen when another rate is NaN: "no event with rate zero is ever executed"
(C01) needs rates that are numbers. -/
theorem C119_rate_zero_chosen : ¬ ∀ (rates : List (Flt F)) (r1 r2 : ℝ) (i : Nat) (t : Flt F),
    Overflow.propose (Overflow.cumsum rates) r1 r2 = .ok (i, t) → rates[i]? ≠ some (.fin 0) := by
  intro h
  exact h [.fin 0, .fin 1, .nan] 0 0 0 .nan (C119_nan_rate_picks_first (by simp) 0 0) rfl

/-! Samples. -/

/-- Exact arithmetic up to a largest number. -/
def exactUpTo (limit : ℝ) (h : 1 ≤ limit) : Format :=
  { Rounding.exact with limit := limit, one_le := h, limit_rep := rfl, neg_limit_rep := rfl }

/-- A format for the samples. -/
def thousand : Format := exactUpTo 1000 (by norm_num)

/-- Rates 1 and 1 stay in range: the hypotheses of `C119_in_range_as_before` are met. -/
example : SameProposal (Overflow.propose (Overflow.cumsum ([1, 1].map (Flt.fin (F := thousand)))) (1 / 4) (1 / 2))
    (KMC.propose thousand.toRounding (KMC.cumsum thousand.toRounding [1, 1]) (1 / 4) (1 / 2)) := by
  have hlog : -Real.log (1 / 2) ≤ 1 := by
    rw [one_div, Real.log_inv, neg_neg]
    have := Real.log_le_sub_one_of_pos (show (0 : ℝ) < 2 by norm_num)
    linarith
  refine C119_in_range_as_before (F := thousand) (fun p _ => rfl) (by simp) (by norm_num) (by norm_num) ⟨?_, ?_⟩
  · intro c hc
    have : c = 1 ∨ c = 1 + 1 := by
      simpa [KMC.cumsum, KMC.cumsumFrom, thousand, exactUpTo, Rounding.exact] using hc
    show c ≤ 1000
    rcases this with rfl | rfl <;> norm_num
  · intro tot ht _
    have : tot = 1 + 1 := by
      have := ht
      simp [KMC.cumsum, KMC.cumsumFrom, thousand, exactUpTo, Rounding.exact] at this
      linarith
    subst this
    refine ⟨?_, ?_, .inr ⟨?_, ?_⟩⟩
    · show (1 : ℝ) ≤ (1 + 1) * 1000; norm_num
    · show (-1 / (1 + 1) : ℝ) ≠ 0; norm_num
    · show -Real.log (1 / 2) ≤ 1000; linarith
    · show (-1 / (1 + 1) : ℝ) * Real.log (1 / 2) ≤ 1000; linarith

/-- An infinite rate in second place: the hypotheses of `C119_infinite_total` are met. -/
example : Overflow.propose (Overflow.cumsum [.fin 1, .posInf, (.fin 1 : Flt thousand)]) (1 / 4) (1 / 2) =
    .ok (1, .fin 0) := by
  have hlog : -Real.log (1 / 2) ≤ 1 := by
    rw [one_div, Real.log_inv, neg_neg]
    have := Real.log_le_sub_one_of_pos (show (0 : ℝ) < 2 by norm_num)
    linarith
  have := C119_infinite_total (F := thousand) (rates := [.fin 1, .posInf, .fin 1]) (k := 1) (r1 := 1 / 4) (r2 := 1 / 2)
    ?_ ⟨rfl, ?_⟩ (by norm_num) (by norm_num) (by norm_num) (fun _ => show _ ≤ (1000 : ℝ) by linarith)
  · simpa using this
  · intro p hp
    simp only [List.mem_cons, List.not_mem_nil, or_false] at hp
    rcases hp with rfl | rfl | rfl
    · exact .inr ⟨1, rfl, rfl, by norm_num⟩
    · exact .inl rfl
    · exact .inr ⟨1, rfl, rfl, by norm_num⟩
  · intro j hj
    obtain rfl : j = 0 := by omega
    simp [Overflow.cumsum]

/-- Finite rates whose sum is out of range: the second event is always chosen and no time passes. -/
example : FirstInfinite [.fin 600, (.fin 700 : Flt thousand), .fin 1] 1 := by
  have h : (Flt.fin 600 : Flt thousand).add (.fin 700) = .posInf := by
    simp only [Flt.add, Flt.round]
    rw [if_pos]
    show (1000 : ℝ) < 600 + 700
    norm_num
  refine ⟨?_, ?_⟩
  · simp [Overflow.cumsum, Overflow.cumsumFrom, h]
  · intro j hj
    obtain rfl : j = 0 := by omega
    simp [Overflow.cumsum]

/-- A barrier far below zero: the exponential is out of range. -/
example : ((Flt.fin (-(-900)) : Flt thousand).div ((Flt.fin 1).mul (.fin 1))).exp = .posInf := by
  have e : (Flt.fin 1 : Flt thousand).mul (.fin 1) = .fin 1 := by
    have := round_inRange (F := thousand) (x := 1 * 1) (show (1 * 1 : ℝ) ≤ 1000 by norm_num)
      (show (-1000 : ℝ) ≤ 1 * 1 by norm_num)
    simp only [Flt.mul, this]
    exact congrArg Flt.fin (one_mul (1 : ℝ))
  have e2 : (Flt.fin (-(-900)) : Flt thousand).div (.fin 1) = .fin 900 := by
    have := round_inRange (F := thousand) (x := - -900 / 1) (show (- -900 / 1 : ℝ) ≤ 1000 by norm_num)
      (show (-1000 : ℝ) ≤ - -900 / 1 by norm_num)
    simp only [Flt.div, one_ne_zero, if_false, this]
    exact congrArg Flt.fin (show (- -900 / 1 : ℝ) = 900 by norm_num)
  rw [e, e2]
  simp only [Flt.exp, Flt.round]
  rw [if_pos]
  show (1000 : ℝ) < Real.exp 900
  have h1 := Real.add_one_le_exp (450 : ℝ)
  have h2 : Real.exp 900 = Real.exp 450 * Real.exp 450 := by rw [← Real.exp_add]; norm_num
  rw [h2]; nlinarith

/-- A model whose rates are all NaN. -/
noncomputable def nanModel : RateModel Unit (Flt thousand) (Flt thousand) where
  initializeState := fun _ _ => .ok ()
  computeProbability := fun _ _ _ => .ok .nan
  applyEvent := fun _ _ _ => (.ok (), ())

/-- Two sites, one event, its rate NaN. -/
noncomputable def nanSim : Sim Unit Unit Unit (Flt thousand) (Flt thousand) :=
  { lib := toyLib, st := ⟨[0, 1], .fin 0, 0⟩, ms := (), prob := [.nan], cum := [.nan] }

/-- The hypotheses of `C119_nan_run` are met. -/
example : TableFresh (Overflow.kernel thousand) nanModel nanSim ∧
    NeverANumber nanModel ⟨[0, 1], [], none⟩ ∧
    (nanSim.run (Overflow.kernel thousand) nanModel { toyGeometry with nMobileSymbolSites := 2 } none (fun _ _ _ => ())
      ({} : PropertyPlan (Flt thousand) Nat) (fun _ => (0, 0)) 1 1 1).outcome = .ok () := by
  have hprop : Overflow.propose [(.nan : Flt thousand)] 0 0 = .ok (0, .nan) := propose_nan rfl 0 0
  refine ⟨⟨rfl, ?_, rfl⟩, ?_, ?_⟩
  · intro i e he
    match i, he with
    | 0, he => exact ⟨.nan, rfl, rfl⟩
    | i + 1, he => simp [nanSim, toyLib] at he
  · intro ms st p hp; exact (Except.ok.inj hp).symm
  · have h1 : nanSim.equilSteps (Overflow.kernel thousand) nanModel (fun _ => (0, 0)) (1 * 1) 0 =
        (.ok (), { nanSim with st := ⟨[1, 0], (.fin 0 : Flt thousand) + .fin 0, 1⟩ }) := by
      simp only [Nat.mul_one, Sim.equilSteps, Sim.equilStep, Sim.propose, Overflow.kernel, nanSim, hprop]
      rfl
    have h2 : ({ nanSim with st := ⟨[1, 0], (.fin 0 : Flt thousand) + .fin 0, 1⟩ } :
        Sim Unit Unit Unit (Flt thousand) (Flt thousand)).propose (Overflow.kernel thousand) 0 0 =
          .ok (⟨[0, 1], [], none⟩, .nan) := by
      simp only [Sim.propose, Overflow.kernel, nanSim, hprop]
      rfl
    unfold Sim.run
    rw [h1]
    simp only [RunState.passes, RunState.prodSteps, RunState.prodStep, h2]
    decide +kernel

end KMC
