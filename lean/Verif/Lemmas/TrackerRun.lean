import Verif.Lemmas.Tracker
import Verif.Lemmas.Table
import Verif.Spec.HopSystem
import Verif.Props.ProposeProps
/-
Lemmas for the run-level tracker properties.
-/
set_option linter.unusedSectionVars false

namespace KMC
open Spec

theorem mem_set_nodup {l : List Int} {i : Nat} {s q x : Int} (hn : l.Nodup) (hi : l[i]? = some s) :
    x ∈ l.set i q ↔ x = q ∨ (x ∈ l ∧ x ≠ s) := by
  obtain ⟨hl, hv⟩ := List.getElem?_eq_some_iff.1 hi
  constructor
  · intro h
    obtain ⟨j, hj⟩ := List.mem_iff_getElem?.1 h
    by_cases hji : j = i
    · subst hji
      rw [List.getElem?_set_self hl] at hj
      left; simpa using hj.symm
    · rw [List.getElem?_set_ne (Ne.symm hji)] at hj
      right
      refine ⟨List.mem_of_getElem? hj, ?_⟩
      rintro rfl
      obtain ⟨hjl, hjv⟩ := List.getElem?_eq_some_iff.1 hj
      exact hji ((List.Nodup.getElem_inj_iff hn).1 (hjv.trans hv.symm))
  · rintro (rfl | ⟨h, hne⟩)
    · exact List.mem_of_getElem? (List.getElem?_set_self hl)
    · obtain ⟨j, hj⟩ := List.mem_iff_getElem?.1 h
      have : j ≠ i := by rintro rfl; rw [hi] at hj; cases hj; exact hne rfl
      exact List.mem_of_getElem? (by rw [List.getElem?_set_ne (Ne.symm this)]; exact hj)

theorem nodup_set {l : List Int} {i : Nat} {q : Int} (hn : l.Nodup) (hq : q ∉ l) :
    (l.set i q).Nodup := by
  rw [List.nodup_iff_getElem?_ne_getElem?]
  rw [List.nodup_iff_getElem?_ne_getElem?] at hn
  intro a b hab hb heq
  simp only [List.length_set] at hb
  by_cases ha : a = i
  · subst ha
    rw [List.getElem?_set_self (by omega), List.getElem?_set_ne (by omega)] at heq
    exact hq (List.mem_of_getElem? heq.symm)
  · rw [List.getElem?_set_ne (Ne.symm ha)] at heq
    by_cases hb' : b = i
    · subst hb'
      rw [List.getElem?_set_self (by omega)] at heq
      exact hq (List.mem_of_getElem? heq)
    · rw [List.getElem?_set_ne (Ne.symm hb')] at heq
      exact hn a b hab hb heq

section
variable {K : Type} [Field K] [LinearOrder K] [FloorRing K]

/-- One hop between sites with equal codes: the tracker finds the ion and follows it. -/
theorem tracks_hop {g : Geometry K} {h : HopStateLookup} {t : Trajectory K} {occ occ' : List Int}
    {e : Event} {f to' : Nat} {a b d : Int} (ht : Tracks h t occ) (hc : SameCodes h e f to' a b)
    (hf : f < occ.length) (hto : to' < occ.length)
    (hco : g.fracCoords.length = occ.length) (ha : a ≠ -1)
    (hd : eventDirection occ e = .ok d) (hd0 : d ≠ 0) (hx : Exchanged f to' occ occ') :
    ∃ t', t.update g occ e = (.ok (), t') ∧ Tracks h t' occ' := by
  -- source and destination
  have key : ∃ s q : Nat, (if d = 1 then ((f : Int)) else (to' : Int)) = (s : Int) ∧
      (if d = 1 then (to' : Int) else (f : Int)) = (q : Int) ∧
      occ[s]? = some a ∧ occ[q]? = some b ∧ h.mobileStateBySite[s]? = some a ∧
      h.mobileStateBySite[q]? = some a ∧ Exchanged s q occ occ' := by
    have h1 := eventDirection_of hc.mobile (pyIdx_natCast hf) (pyIdx_natCast hto)
      (vf := occ[f]) (vt := occ[to']) (by simp [hf]) (by simp [hto])
    rw [hd, hc.codes] at h1
    simp only [Except.ok.injEq, Option.getD_some, endpointDirectionFromCodes] at h1
    by_cases c1 : occ[f] = a ∧ occ[to'] = b
    · rw [if_pos c1] at h1
      subst h1
      exact ⟨f, to', by simp, by simp, by simp [hf, c1.1], by simp [hto, c1.2], hc.mf, hc.mt, hx⟩
    · rw [if_neg c1] at h1
      by_cases c2 : occ[f] = b ∧ occ[to'] = a
      · rw [if_pos c2] at h1
        subst h1
        exact ⟨to', f, by simp, by simp, by simp [hto, c2.2], by simp [hf, c2.1], hc.mt, hc.mf,
          ⟨hx.1, hx.2.2.1, hx.2.1, fun k h1 h2 => hx.2.2.2 k h2 h1⟩⟩
      · rw [if_neg c2] at h1; exact absurd h1 hd0
  obtain ⟨s, q, es, eq, os, oq, ms, mq, hxs⟩ := key
  have hmem : (s : Int) ∈ t.locations := (ht.sites _).2 ⟨s, rfl, a, ms, ha, os⟩
  have hq : (q : Int) ∉ t.locations := by
    intro hq
    obtain ⟨k, hk, c, hc1, -, hc2⟩ := (ht.sites _).1 hq
    have : k = q := by omega
    subst this
    rw [mq] at hc1; cases hc1
    rw [oq] at hc2; cases hc2
    exact hc.differ rfl
  cases hm : firstMatch (s : Int) 0 t.locations with
  | none => exact absurd hmem (firstMatch_none hm)
  | some i =>
    obtain ⟨k, hk, hl⟩ := firstMatch_some hm
    simp only [Nat.zero_add] at hk
    subst hk
    have hfc : ∃ ff, pyGet g.fracCoords (f : Int) = .ok ff :=
      ⟨_, pyGet_of_idx (pyIdx_natCast (by omega))⟩
    have htc : ∃ ft, pyGet g.fracCoords (to' : Int) = .ok ft :=
      ⟨_, pyGet_of_idx (pyIdx_natCast (by omega))⟩
    obtain ⟨ff, hff⟩ := hfc
    obtain ⟨ft, hft⟩ := htc
    refine ⟨{ locations := t.locations.set i q
              displacement := t.displacement.modify i (fun v => v + g.cart (wrappedFrac d ff ft))
              hopCounter := t.hopCounter.modify i (· + 1)
              r0 := t.r0 }, ?_, ?_⟩
    · unfold Trajectory.update
      rw [hd]
      simp only [hd0, if_false, Trajectory.recordHop, hc.mobile, unpack2, es, eq, hm,
        wrappedHopDisplacement, hff, hft]
    · refine ⟨nodup_set ht.nodup hq, ?_⟩
      intro x
      simp only
      rw [mem_set_nodup ht.nodup hl]
      have hsq : s ≠ q := by
        rintro rfl; rw [os] at oq; cases oq; exact hc.differ rfl
      constructor
      · rintro (rfl | ⟨h1, h2⟩)
        · exact ⟨q, rfl, a, mq, ha, by rw [hxs.2.2.1]; exact os⟩
        · obtain ⟨k, rfl, c, hc1, hc2, hc3⟩ := (ht.sites _).1 h1
          have hks : k ≠ s := by rintro rfl; exact h2 rfl
          have hkq : k ≠ q := by rintro rfl; exact hq h1
          exact ⟨k, rfl, c, hc1, hc2, by rw [hxs.2.2.2 k hks hkq]; exact hc3⟩
      · rintro ⟨k, rfl, c, hc1, hc2, hc3⟩
        by_cases hkq : k = q
        · subst hkq; exact .inl rfl
        · right
          have hks : k ≠ s := by
            rintro rfl
            rw [hxs.2.1, oq] at hc3; cases hc3
            rw [ms] at hc1; cases hc1
            exact hc.differ rfl
          refine ⟨(ht.sites _).2 ⟨k, rfl, c, hc1, hc2, ?_⟩, by omega⟩
          rw [← hxs.2.2.2 k hks hkq]; exact hc3

end

/-- Exchanging the contents of two sites that allow the same species keeps every site in an
allowed state. -/
theorem wellLabelled_exchange {ψ : Type} {o : ActiveSiteOrder String ψ} {mobile : String}
    {occ occ' : List Int} (w : WellLabelled o mobile occ) {i j : Nat} (hi : i < occ.length)
    (hj : j < occ.length) (hall : allowedAt o i = allowedAt o j) (hx : Exchanged i j occ occ') :
    WellLabelled o mobile occ' := by
  refine ⟨hx.1.trans w.length, ?_, w.mobileOnce, w.vacancyOnce, w.mobileNotVacancy⟩
  intro k hk
  rw [hx.1] at hk
  by_cases hki : k = i
  · subst hki
    obtain ⟨s, hs⟩ := w.valid j hj
    refine ⟨s, ?_⟩
    unfold speciesAt at hs ⊢
    rw [hx.2.1]
    simp only [List.getElem?_eq_getElem hj, speciesOf] at hs ⊢
    rw [hall]; exact hs
  · by_cases hkj : k = j
    · subst hkj
      obtain ⟨s, hs⟩ := w.valid i hi
      refine ⟨s, ?_⟩
      unfold speciesAt at hs ⊢
      rw [hx.2.2.1]
      simp only [List.getElem?_eq_getElem hi, speciesOf] at hs ⊢
      rw [← hall]; exact hs
    · obtain ⟨s, hs⟩ := w.valid k hk
      refine ⟨s, ?_⟩
      unfold speciesAt at hs ⊢
      rw [hx.2.2.2 k hki hkj]; exact hs

section
variable {σ φ ψ K V Row : Type} [Field K] [LinearOrder K] [FloorRing K]

/-- What is true in every state a simulation of the system reaches. -/
structure SimInv (o : ActiveSiteOrder String ψ) (mobile : String) (R : Rounding)
    (m : RateModel Unit ℝ EReal) (s0 s : Sim σ φ Unit ℝ EReal) : Prop where
  lib : s.lib = s0.lib
  len : s.st.occ.length = s0.st.occ.length
  table : TableFresh (realKernel R) m s
  labelled : WellLabelled o mobile s.st.occ

variable {o : ActiveSiteOrder String ψ} {mobile : String} {h : HopStateLookup} {R : Rounding}
  {m : RateModel Unit ℝ EReal} {g : Geometry K} {lib : EventLib σ φ} {st : State EReal}
  {s0 : Sim σ φ Unit ℝ EReal}

theorem sim_init_inv (hs : HopSystem o mobile h R m g lib st)
    (hi : Sim.init (realKernel R) m lib.generateEventDependencies (some h) (some st) = .ok s0) :
    SimInv o mobile R m s0 s0 := by
  obtain ⟨i1, -, -, -, -, -, -, hf⟩ := init_ok hi
  cases i1
  exact ⟨rfl, rfl, hf, hs.labelled⟩

/-- Facts about an event of the running simulation. -/
theorem event_facts (hs : HopSystem o mobile h R m g lib st)
    (hi : Sim.init (realKernel R) m lib.generateEventDependencies (some h) (some st) = .ok s0)
    {e : Event} (he : e ∈ s0.lib.events) :
    ∃ f t : Nat, f < st.occ.length ∧ t < st.occ.length ∧ e.mobile = [(f : Int), (t : Int)] ∧
      allowedAt o f = allowedAt o t ∧ ∃ a b : Int,
        h.mobileStateBySite[f]? = some a ∧ h.mobileStateBySite[t]? = some a ∧
        h.vacancyStateBySite[f]? = some b ∧ h.vacancyStateBySite[t]? = some b ∧
        e.codes = some ⟨a, b, b, a⟩ := by
  obtain ⟨i1, -, -, -, -, ha, -, -⟩ := init_ok hi
  obtain ⟨x, hx, hxe⟩ := annotateEvents_mem (ha h rfl) e he
  have hx' : x ∈ lib.events := hx
  obtain ⟨f, t, hm, hall⟩ := hs.endpoints x hx'
  have hf := hs.fit x hx' f (by simp [hm])
  have ht := hs.fit x hx' t (by simp [hm])
  have hf' : f < st.occ.length := by omega
  have ht' : t < st.occ.length := by omega
  obtain ⟨f', t', mf, vt, vf, mt, hm', c1, c2, c3, c4, rfl⟩ := annotateEvent_ok hxe
  rw [hm] at hm'; cases hm'
  obtain ⟨l1, l2, l3⟩ := lookup_spec hs.lookup
  have hfl : f < o.activeToPrimitive.length := by rw [← hs.labelled.length]; exact hf'
  have htl : t < o.activeToPrimitive.length := by rw [← hs.labelled.length]; exact ht'
  obtain ⟨al, e1, -, e2, e3⟩ := l3 f hfl
  obtain ⟨al', e1', -, e2', e3'⟩ := l3 t htl
  rw [← hall, e1] at e1'; cases e1'
  rw [pyGet_natCast e2] at c1; rw [pyGet_natCast e3] at c3
  rw [pyGet_natCast e2'] at c4; rw [pyGet_natCast e3'] at c2
  cases c1; cases c2; cases c3; cases c4
  exact ⟨f, t, hf', ht', hm, hall, _, _, e2, e2', e3, e3', rfl⟩

/-- The proposed event is possible in the current state. -/
theorem proposed_possible (hs : HopSystem o mobile h R m g lib st)
    {s : Sim σ φ Unit ℝ EReal} (inv : SimInv o mobile R m s0 s) {r1 r2 : ℝ} (h0 : 0 ≤ r1)
    (h1 : r1 < 1) {e : Event} {dt : EReal} (hp : s.propose (realKernel R) r1 r2 = .ok (e, dt)) :
    e ∈ s0.lib.events ∧ ∀ d, eventDirection s.st.occ e = .ok d → d ≠ 0 := by
  have hpos : ∃ e ∈ s.lib.events, ∃ p, m.computeProbability s.ms e s.st = .ok p ∧ 0 < p := by
    by_contra hno
    push Not at hno
    have hz : ∀ p ∈ s.prob, p = 0 := by
      intro p hp
      obtain ⟨i, hi, rfl⟩ := List.getElem_of_mem hp
      have hi' : i < s.lib.events.length := by rw [← inv.table.length]; exact hi
      obtain ⟨q, hq, hq'⟩ := inv.table.fresh i s.lib.events[i] (by simp [hi'])
      simp only [List.getElem?_eq_getElem hi, Option.some.injEq] at hq
      rw [hq]
      exact le_antisymm (hno _ (List.getElem_mem hi') q hq') (hs.rates _ _ _ hq').1
    obtain ⟨x, hx⟩ := C04_frozen_raises R s.prob hz r1 r2
    unfold Sim.propose at hp
    rw [inv.table.cum] at hp
    simp only [realKernel] at hp
    rw [hx] at hp
    cases hp
  obtain ⟨e', dt', p, hp', he', hc, hp0⟩ := C01_proposed_rate_positive R m s inv.table
    (fun e p hp => hs.rates e s.st p hp) hpos r1 r2 h0 h1
  rw [hp] at hp'; cases hp'
  rw [inv.lib] at he'
  refine ⟨he', ?_⟩
  rintro d hd rfl
  have := hs.forbidden e s.st p hd hc
  rw [this] at hp0
  exact lt_irrefl _ hp0

/-- Executing an event of the library keeps the invariant. -/
theorem sim_inv_update (hs : HopSystem o mobile h R m g lib st)
    (hi : Sim.init (realKernel R) m lib.generateEventDependencies (some h) (some st) = .ok s0)
    {s s' : Sim σ φ Unit ℝ EReal} (inv : SimInv o mobile R m s0 s) {e : Event} {dt : EReal}
    (he : e ∈ s0.lib.events) (hu : s.update (realKernel R) m e dt = (.ok (), s')) :
    SimInv o mobile R m s0 s' ∧ ∃ f t : Nat, e.mobile = [(f : Int), (t : Int)] ∧
      Exchanged f t s.st.occ s'.st.occ := by
  have hst : st = s0.st := by
    obtain ⟨i1, -⟩ := init_ok hi
    simpa using i1
  have hlib : s'.lib = s.lib := by
    have := update_lib (realKernel R) m s e dt
    rw [hu] at this; exact this
  have hperm := update_perm (realKernel R) m s e dt
  rw [hu] at hperm
  obtain ⟨f, t, hf, ht, hm, hall, -⟩ := event_facts hs hi he
  rw [hst, ← inv.len] at hf ht
  obtain ⟨st1, ms, i, prob, h1, -, -, -, hs'⟩ := update_ok hu
  obtain ⟨f', t', i', j', hi', hj', hm', p1, p2, hst1⟩ := applyEvent_ok h1
  rw [hm] at hm'; cases hm'
  rw [pyIdx_natCast hf] at p1; rw [pyIdx_natCast ht] at p2
  cases p1; cases p2
  have hx : Exchanged f t s.st.occ s'.st.occ := by
    rw [hs', hst1]; exact set_set_exchanged hf ht
  refine ⟨⟨hlib.trans inv.lib, hperm.length_eq.trans inv.len, ?_,
    wellLabelled_exchange inv.labelled hf ht hall hx⟩, f, t, hm, hx⟩
  obtain ⟨i1, i2, i3, i4, -, -, -, -⟩ := init_ok hi
  refine update_fresh ?_ ?_ inv.table hu
  · rw [inv.len, ← hst]
    refine localUpdates_of_local m hs.loc _ _ ?_
    rw [inv.lib]
    exact init_indicesFit hi hs.fit
  · rw [inv.lib, i2, sites_map_eq i3 i4]
    rfl

theorem sim_inv_steps (hs : HopSystem o mobile h R m g lib st)
    (hi : Sim.init (realKernel R) m lib.generateEventDependencies (some h) (some st) = .ok s0)
    {rng : Nat → ℝ × ℝ} (hr : ∀ c, 0 ≤ (rng c).1 ∧ (rng c).1 < 1) {a : Bool} {c : Nat}
    {s s' : Sim σ φ Unit ℝ EReal} {hist : List (Event × EReal)}
    (hst : Steps (realKernel R) m rng a c s hist s') (inv : SimInv o mobile R m s0 s) :
    SimInv o mobile R m s0 s' := by
  induction hst with
  | nil => exact inv
  | cons hp hu _ ih =>
    exact ih (sim_inv_update hs hi inv (proposed_possible hs inv (hr _).1 (hr _).2 hp).1 hu).1

/-- One tracked step: the tracker update succeeds and keeps following the ions. -/
theorem tracked_step (hs : HopSystem o mobile h R m g lib st)
    (hi : Sim.init (realKernel R) m lib.generateEventDependencies (some h) (some st) = .ok s0)
    {s : Sim σ φ Unit ℝ EReal} (inv : SimInv o mobile R m s0 s) {t : Trajectory K}
    (htr : Tracks h t s.st.occ) {r1 r2 : ℝ} (h0 : 0 ≤ r1) (h1 : r1 < 1) {e : Event} {dt : EReal}
    (hp : s.propose (realKernel R) r1 r2 = .ok (e, dt)) :
    (∃ d, eventDirection s.st.occ e = .ok d ∧ d ≠ 0) ∧
    ∃ t', t.update g s.st.occ e = (.ok (), t') ∧
      ∀ s', s.update (realKernel R) m e dt = (.ok (), s') → Tracks h t' s'.st.occ := by
  have hst : st = s0.st := by
    obtain ⟨i1, -⟩ := init_ok hi
    simpa using i1
  obtain ⟨he, hd⟩ := proposed_possible hs inv h0 h1 hp
  obtain ⟨f, to', hf, hto, hm, hall, a, b, c1, c2, c3, c4, hcodes⟩ := event_facts hs hi he
  rw [hst, ← inv.len] at hf hto
  have hdir := eventDirection_of hm (pyIdx_natCast hf) (pyIdx_natCast hto)
      (vf := s.st.occ[f]) (vt := s.st.occ[to']) (by simp [hf]) (by simp [hto])
  have hd0 := hd _ hdir
  refine ⟨⟨_, hdir, hd0⟩, ?_⟩
  -- the codes differ and are valid
  obtain ⟨m1, v1, q1, q2, q3, q4, q5⟩ :=
    site_codes inv.labelled hs.lookup (i := f) (v := s.st.occ[f]) (by simp [hf])
  obtain ⟨m2, v2, w1, w2, w3, w4, w5⟩ :=
    site_codes inv.labelled hs.lookup (i := to') (v := s.st.occ[to']) (by simp [hto])
  rw [c1] at q1; rw [c3] at q2; rw [c2] at w1; rw [c4] at w2
  cases q1; cases q2; cases w1; cases w2
  have hcase : (s.st.occ[f] = a ∧ s.st.occ[to'] = b) ∨ (s.st.occ[f] = b ∧ s.st.occ[to'] = a) := by
    rw [hcodes] at hd0
    simp only [Option.getD_some, endpointDirectionFromCodes] at hd0
    by_contra hno
    push Not at hno
    rw [if_neg (by intro hc; exact hno.1 hc.1 hc.2), if_neg (by intro hc; exact hno.2 hc.1 hc.2)] at hd0
    exact hd0 rfl
  have hne : a ≠ b ∧ a ≠ -1 := by
    rcases hcase with ⟨k1, k2⟩ | ⟨k1, k2⟩
    · refine ⟨?_, by rw [← k1]; exact q5⟩
      rintro rfl
      obtain ⟨x, hx, hv⟩ := q4.1 k1
      rw [q3.1 k1] at hx; cases hx
      exact inv.labelled.mobileNotVacancy hv
    · refine ⟨?_, by rw [← k2]; exact w5⟩
      rintro rfl
      obtain ⟨x, hx, hv⟩ := q4.1 k1
      rw [q3.1 k1] at hx; cases hx
      exact inv.labelled.mobileNotVacancy hv
  have hsc : SameCodes h e f to' a b := ⟨hm, c1, c2, c3, c4, hcodes, hne.1⟩
  obtain ⟨t', ht', htr'⟩ := tracks_hop (g := g) htr hsc hf hto
    (by rw [hs.coords, hst, inv.len]) hne.2 hdir hd0 (set_set_exchanged hf hto)
  refine ⟨t', ht', ?_⟩
  intro s' hu
  obtain ⟨-, f', to'', hm', hx⟩ := sim_inv_update hs hi inv he hu
  rw [hm] at hm'
  simp only [List.cons.injEq, Int.natCast_inj, and_true] at hm'
  obtain ⟨rfl, rfl⟩ := hm'
  rw [exchanged_unique hx (set_set_exchanged hf hto)]
  exact htr'

theorem tracked_steps_inv (hs : HopSystem o mobile h R m g lib st)
    (hi : Sim.init (realKernel R) m lib.generateEventDependencies (some h) (some st) = .ok s0)
    {rng : Nat → ℝ × ℝ} (hr : ∀ c, 0 ≤ (rng c).1 ∧ (rng c).1 < 1) {c : Nat}
    {s s' : Sim σ φ Unit ℝ EReal} {t t' : Trajectory K} {hist : List (List Int × Event)}
    (hts : TrackedSteps (realKernel R) m g rng c s t hist s' t') (inv : SimInv o mobile R m s0 s)
    (htr : Tracks h t s.st.occ) :
    SimInv o mobile R m s0 s' ∧ Tracks h t' s'.st.occ ∧
      ∀ p ∈ hist, ∃ d, eventDirection p.1 p.2 = .ok d ∧ d ≠ 0 := by
  induction hts with
  | nil => exact ⟨inv, htr, by simp⟩
  | @cons c s s1 s2 t t1 t2 e dt hist hp hut hu _ ih =>
    obtain ⟨hd, t', h1, h2⟩ := tracked_step hs hi inv htr (hr _).1 (hr _).2 hp
    rw [hut] at h1
    simp only [Prod.mk.injEq, true_and] at h1
    subst h1
    obtain ⟨j1, j2, j3⟩ := ih
      (sim_inv_update hs hi inv (proposed_possible hs inv (hr _).1 (hr _).2 hp).1 hu).1 (h2 _ hu)
    refine ⟨j1, j2, ?_⟩
    intro p hp
    rcases List.mem_cons.1 hp with rfl | hp
    · exact hd
    · exact j3 p hp

/-! ### Runs as tracked steps -/

variable {M RR T U : Type} [Add T] [Sub T] [LE T] [DecidableLE T]

theorem TrackedSteps.append {k : Kernel RR T U} {m : RateModel M RR T} {rng : Nat → U × U}
    {c : Nat} {s1 s2 s3 : Sim σ φ M RR T} {t1 t2 t3 : Trajectory K}
    {h1 h2 : List (List Int × Event)}
    (p : TrackedSteps k m g rng c s1 t1 h1 s2 t2)
    (q : TrackedSteps k m g rng (c + h1.length) s2 t2 h2 s3 t3) :
    TrackedSteps k m g rng c s1 t1 (h1 ++ h2) s3 t3 := by
  induction p with
  | nil => simpa using q
  | cons hp ht hu _ ih =>
    refine .cons hp ht hu (ih ?_)
    simpa [Nat.add_assoc, Nat.add_comm 1] using q

theorem prodSteps_tracked {k : Kernel RR T U} {m : RateModel M RR T}
    {summary : Trajectory K → T → List (String × Bool) → Row} {rng : Nat → U × U}
    {n c : Nat} {s s' : RunState σ φ M RR T K V Row}
    (h : s.prodSteps k m g summary rng n c = (.ok (), s')) :
    ∃ hist, hist.length = n ∧ TrackedSteps k m g rng c s.sim s.traj hist s'.sim s'.traj := by
  induction n generalizing c s with
  | zero =>
    simp only [RunState.prodSteps, Prod.mk.injEq, true_and] at h
    subst h; exact ⟨[], rfl, .nil _ _ _⟩
  | succ n ih =>
    simp only [RunState.prodSteps] at h
    rcases e1 : s.prodStep k m g summary (rng c).1 (rng c).2 with ⟨r1, a'⟩
    rw [e1] at h
    cases r1 with
    | error x => cases h
    | ok u1 =>
      obtain ⟨e, dt, p1, p2, p3, -, -⟩ := prodStep_ok e1
      obtain ⟨hist, hl, hh⟩ := ih h
      exact ⟨_, by simp [hl], .cons p1 p2 p3 hh⟩

theorem passes_tracked {k : Kernel RR T U} {m : RateModel M RR T}
    {summary : Trajectory K → T → List (String × Bool) → Row} {rng : Nat → U × U}
    {len n p c : Nat} {s s' : RunState σ φ M RR T K V Row}
    (h : s.passes k m g summary rng len n p c = (.ok (), s')) :
    ∃ hist, hist.length = n * len ∧
      TrackedSteps k m g rng c s.sim s.traj hist s'.sim s'.traj := by
  induction n generalizing p c s with
  | zero =>
    simp only [RunState.passes, Prod.mk.injEq, true_and] at h
    subst h; exact ⟨[], by simp, .nil _ _ _⟩
  | succ n ih =>
    simp only [RunState.passes] at h
    rcases e1 : s.prodSteps k m g summary rng len c with ⟨r1, a'⟩
    rw [e1] at h
    cases r1 with
    | error x => cases h
    | ok u1 =>
      obtain ⟨h1, hl1, hh1⟩ := prodSteps_tracked e1
      obtain ⟨h2, hl2, hh2⟩ := ih h
      refine ⟨h1 ++ h2, ?_, TrackedSteps.append hh1 (by rw [hl1]; exact hh2)⟩
      rw [List.length_append, hl1, hl2]; ring

end
end KMC
