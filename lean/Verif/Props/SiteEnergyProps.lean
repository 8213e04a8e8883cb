import Verif.Lemmas.SiteEnergy
import Verif.Lemmas.Table
import Verif.Props.CompositeProps
/-
Properties of `kmcpy/models/site_energy.py`: C39, C40 and C70.
-/
namespace KMC
open Spec SiteEnergy

variable {Rt T : Type}

/-! ### Element types -/

/-- C40.  An array of objects holds every value unchanged. -/
theorem C40_object_fits (m : SiteEnergy Rt T) (occ : List Int) : ValuesFit m .object occ :=
  fun _ _ x _ _ _ => ⟨x, rfl, rfl⟩

/-- C40.  A float array holds every number unchanged. -/
theorem C40_float_fits (m : SiteEnergy Rt T) (occ : List Int)
    (h : ∀ (i : Nat) state x, i < occ.length → state ∈ occ → extValue m i state = some x →
      ∀ s, x ≠ .obj s) :
    ValuesFit m .float64 occ := by
  intro i state x hi hs hx
  cases x with
  | int k => exact ⟨.flt k, rfl, rfl⟩
  | flt q => exact ⟨.flt q, rfl, rfl⟩
  | obj s => exact absurd rfl (h i state _ hi hs hx s)

/-- C40.  An integer array holds every integer unchanged. -/
theorem C40_int_fits (m : SiteEnergy Rt T) (occ : List Int)
    (h : ∀ (i : Nat) state x, i < occ.length → state ∈ occ → extValue m i state = some x →
      ∃ k, x = .int k) :
    ValuesFit m .int64 occ := by
  intro i state x hi hs hx
  obtain ⟨k, rfl⟩ := h i state x hi hs hx
  exact ⟨.int k, rfl, rfl⟩

/-- C40.  Without mappings of single sites, the array type the model picks from the initial
configuration (no type and no initial occupation being given) fits for the whole run, whatever
the mapped values are. -/
theorem C40_chosen_type_fits (m : SiteEnergy Rt T) (hd : MappingsAreDicts m)
    (s s' : SiteEnergyState Rt) (occ : List Int) (events : Option (List Event))
    (order : Option OrderRef) (hby : m.stateMappingBySite = none)
    (h1 : m.externalDtype = none) (h2 : m.initialOccupation = none)
    (h : m.initializeState s occ events order = (.ok (), s')) (d : DType) (ext : List ExtVal)
    (hx : s'.external = some (d, ext)) : ValuesFit m d occ := by
  obtain ⟨lookup, d', ext', bg, values, rt, -, hr, hx', hv, rfl, -, -, -⟩ := initializeState_ok h
  rw [hx] at hx'
  cases hx'
  obtain ⟨hlen, hall⟩ := mappedValues_ok hv
  have hval : ∀ (i : Nat) state x, i < occ.length → state ∈ occ → extValue m i state = some x →
      x ∈ values := by
    intro i state x hi hs hx
    obtain ⟨j, hj⟩ := List.getElem?_of_mem hs
    have hjl : j < occ.length := by
      by_contra hc; rw [List.getElem?_eq_none (by omega)] at hj; cases hj
    obtain ⟨y, hy1, hy2⟩ := hall j state hj
    rw [Nat.zero_add] at hy2
    have hy3 := (externalValue_iff hd hr (pyIdx_natCast hjl) _ _).1 hy2
    have : extValue m i state = extValue m j state := by simp [extValue, hby]
    rw [this, hy3] at hx
    cases hx
    exact List.mem_of_getElem? hy1
  unfold resolveDtype
  rw [h1, h2]
  simp only
  split
  · rename_i hc
    refine C40_int_fits m occ fun i st x hi hs hx => ?_
    have := List.all_eq_true.1 hc.2 x (hval i st x hi hs hx)
    cases x <;> simp [isInt] at this ⊢
  · split
    · rename_i hc
      refine C40_float_fits m occ fun i st x hi hs hx s hxs => ?_
      have := List.all_eq_true.1 hc.2 x (hval i st x hi hs hx)
      rw [hxs] at this
      cases this
    · split
      · rename_i hc
        intro i st x hi hs hx
        have := hval i st x hi hs hx
        rw [hc.2] at this
        cases this
      · exact C40_object_fits m occ

theorem valuesFit_perm {m : SiteEnergy Rt T} {d : DType} {occ occ' : List Int}
    (h : occ'.Perm occ) (hf : ValuesFit m d occ) : ValuesFit m d occ' :=
  fun i state x hi hs hx => hf i state x (by rw [← h.length_eq]; exact hi) (h.mem_iff.1 hs) hx

/-! ### C40: the picture -/

/-- `bg` is what the external array holds outside the active sites: the given initial occupation
converted to the array's type, or the fill value on an array of the requested size (or just
large enough for the mapped sites). -/
def IsBackground (m : SiteEnergy Rt T) (n : Nat) (d : DType) (bg : List ExtVal) : Prop :=
  match m.initialOccupation with
  | some a => bg.length = a.2.length ∧ ∀ (p : Nat) x, a.2[p]? = some x →
      ∃ w, d.store x = .ok w ∧ bg[p]? = some w
  | none => (∃ w, d.store m.fillValue = .ok w ∧ ∀ x ∈ bg, x = w) ∧
      (∀ u, m.externalSize = some u → (bg.length : Int) = u) ∧
      (m.externalSize = none → 0 < n →
        (∀ (i : Nat) p, i < n → extSite m i = some p → p < (bg.length : Int)) ∧
        ∃ (i : Nat) (p : Int), i < n ∧ extSite m i = some p ∧ (bg.length : Int) = p + 1)

theorem storeAll_get {d : DType} {l r : List ExtVal} (h : storeAll d l = .ok r) (p : Nat)
    (x : ExtVal) (hx : l[p]? = some x) : ∃ w, d.store x = .ok w ∧ r[p]? = some w := by
  induction l generalizing r p with
  | nil => simp at hx
  | cons v l ih =>
    unfold storeAll at h
    split at h
    · cases h
    · rename_i w hw
      split at h
      · cases h
      · rename_i ws hws
        cases h
        cases p with
        | zero => simp at hx; subst hx; exact ⟨w, hw, by simp⟩
        | succ p => simpa using ih hws p (by simpa using hx)

theorem maxInt_mem {l : List Int} (h : l ≠ []) : maxInt l ∈ l := by
  induction l with
  | nil => exact absurd rfl h
  | cons a l ih =>
    cases l with
    | nil => simp [maxInt]
    | cons b l =>
      simp only [maxInt]
      rcases le_total a (maxInt (b :: l)) with h1 | h1
      · rw [max_eq_right h1]; exact List.mem_cons_of_mem _ (ih (by simp))
      · rw [max_eq_left h1]; simp

theorem background_ok {m : SiteEnergy Rt T} {n : Nat} {lookup : List Int} {d : DType}
    {bg : List ExtVal} (hl : m.buildSiteLookup n = .ok lookup)
    (h : m.background lookup d n = .ok bg) : IsBackground m n d bg := by
  obtain ⟨hlen, hget, -, -⟩ := buildSiteLookup_ok hl
  unfold background at h
  unfold IsBackground
  cases hi : m.initialOccupation with
  | some a =>
    rw [hi] at h
    exact ⟨storeAll_ok h, fun p x hx => storeAll_get h p x hx⟩
  | none =>
    rw [hi] at h
    simp only at h
    split at h
    · cases h
    · rename_i hs
      split at h
      · cases h
      · rename_i w hw
        cases h
        refine ⟨⟨w, hw, fun x hx => List.eq_of_mem_replicate hx⟩, ?_, ?_⟩
        · intro u hu
          simp only [externalSizeFromLookup, hu] at hs
          simp only [externalSizeFromLookup, hu, List.length_replicate]
          omega
        · intro hu hn
          have hne : lookup ≠ [] := by rintro rfl; simp at hlen; omega
          have hsz : m.externalSizeFromLookup lookup n = maxInt lookup + 1 := by
            simp [externalSizeFromLookup, hu, hne]
          rw [hsz] at hs ⊢
          simp only [List.length_replicate]
          refine ⟨?_, ?_⟩
          · intro i p hi hp
            obtain ⟨q, hq1, hq2⟩ := hget i hi
            rw [hp] at hq2; cases hq2
            have := le_maxInt (List.mem_of_getElem? hq1)
            omega
          · obtain ⟨i, hi⟩ := List.getElem?_of_mem (maxInt_mem hne)
            have hil : i < lookup.length := by
              by_contra hc; rw [List.getElem?_eq_none (by omega)] at hi; cases hi
            obtain ⟨q, hq1, hq2⟩ := hget i (by omega)
            rw [hi] at hq1
            have hq3 := Option.some.inj hq1
            have hq0 : 0 ≤ maxInt lookup := by omega
            refine ⟨i, _, by omega, hq2, ?_⟩
            omega

/-- C40, initialisation.  A successful `initialize_state` leaves a faithful picture of the given
occupations on the configured background, if different sites have different external sites and
the array's type can hold the mapped values. -/
theorem C40_initial_picture (m : SiteEnergy Rt T) (hd : MappingsAreDicts m)
    (s s' : SiteEnergyState Rt) (occ : List Int) (events : Option (List Event))
    (order : Option OrderRef) (hdist : SitesDistinct m occ.length)
    (h : m.initializeState s occ events order = (.ok (), s'))
    (hfit : ∀ d ext, s'.external = some (d, ext) → ValuesFit m d occ) :
    ∃ d ext bg, s'.external = some (d, ext) ∧ IsBackground m occ.length d bg ∧
      Mirrors m bg occ ext := by
  obtain ⟨lookup, d, ext, bg, values, rt, h1, hr, h2, h3, -, h5, h6, -⟩ := initializeState_ok h
  obtain ⟨hlen, hget, -, -⟩ := buildSiteLookup_ok h1
  have hf := hfit d ext h2
  obtain ⟨hv1, hv2⟩ := mappedValues_ok h3
  have hval : ∀ (i : Nat) v, occ[i]? = some v → ∃ x, values[i]? = some x ∧
      extValue m i v = some x := by
    intro i v hv
    obtain ⟨x, hx1, hx2⟩ := hv2 i v hv
    have hil : i < occ.length := by
      by_contra hc; rw [List.getElem?_eq_none (by omega)] at hv; cases hv
    rw [Nat.zero_add] at hx2
    exact ⟨x, hx1, (externalValue_iff hd hr (pyIdx_natCast hil) _ _).1 hx2⟩
  have hnn : ∀ p ∈ lookup, 0 ≤ p := by
    intro p hp
    obtain ⟨i, hi⟩ := List.getElem?_of_mem hp
    have hil : i < lookup.length := by
      by_contra hc; rw [List.getElem?_eq_none (by omega)] at hi; cases hi
    obtain ⟨q, hq1, -⟩ := hget i (by omega)
    rw [hi] at hq1; cases hq1; omega
  have hinj : ∀ (i j : Nat) (p : Int), lookup[i]? = some p → lookup[j]? = some p → i = j := by
    intro i j p hi hj
    have hil : i < lookup.length := by
      by_contra hc; rw [List.getElem?_eq_none (by omega)] at hi; cases hi
    have hjl : j < lookup.length := by
      by_contra hc; rw [List.getElem?_eq_none (by omega)] at hj; cases hj
    obtain ⟨a, ha1, ha2⟩ := hget i (by omega)
    obtain ⟨b, hb1, hb2⟩ := hget j (by omega)
    rw [hi] at ha1; rw [hj] at hb1
    exact hdist i j (by omega) (by omega) (by rw [ha2, hb2, ← ha1, ← hb1])
  have hfit' : ∀ v ∈ values, ∃ w, d.store v = .ok w ∧ SameValue w v := by
    intro v hv
    obtain ⟨i, hi⟩ := List.getElem?_of_mem hv
    have hil : i < occ.length := by
      rw [← hv1]; by_contra hc; rw [List.getElem?_eq_none (by omega)] at hi; cases hi
    obtain ⟨x, hx1, hx2⟩ := hval i occ[i] (by simp [hil])
    rw [hi] at hx1; cases hx1
    exact hf i _ v hil (by simp) hx2
  obtain ⟨w1, w2, w3⟩ := writeValues_ok hnn hinj hfit' h6
  refine ⟨d, ext, bg, h2, background_ok h1 h5, w1, ?_, ?_⟩
  · intro i v hv
    obtain ⟨x, hx1, hx2⟩ := hval i v hv
    obtain ⟨p, w, e1, e2, e3⟩ := w2 i x hx1
    have hil : i < occ.length := by
      by_contra hc; rw [List.getElem?_eq_none (by omega)] at hv; cases hv
    obtain ⟨q, hq1, hq2⟩ := hget i hil
    rw [Nat.zero_add, hq1] at e1
    have hqp : q = p := by have := Option.some.inj e1; omega
    subst hqp
    exact ⟨q, x, w, hq2, hx2, e2, e3⟩
  · intro p hp
    apply w3
    intro i hi
    rw [Nat.zero_add]
    intro hc
    obtain ⟨q, hq1, hq2⟩ := hget i (by omega)
    rw [hc] at hq1
    exact hp i (by omega) (by rw [hq2, hq1])

/-- The invariant of a run: tables built, runtime present, faithful picture. -/
structure Faithful (m : SiteEnergy Rt T) (bg : List ExtVal) (s : SiteEnergyState Rt)
    (st : State T) : Prop where
  ready : Ready m st.occ.length s
  distinct : SitesDistinct m st.occ.length
  runtime : ∃ rt, s.runtime = some rt
  picture : ∃ d ext, s.external = some (d, ext) ∧ ValuesFit m d st.occ ∧
    Mirrors m bg st.occ ext

theorem faithful_step [Add T] {m : SiteEnergy Rt T} (hd : MappingsAreDicts m) {bg : List ExtVal}
    {s s' : SiteEnergyState Rt} {st st' : State T} {e : Event} {dt : T} (hF : Faithful m bg s st)
    (ha : st.applyEvent e dt = (.ok (), st')) (h : m.applyEvent s e st' = (.ok (), s')) :
    Faithful m bg s' st' ∧ ∃ d ext ext', s.external = some (d, ext) ∧ s'.external = some (d, ext') := by
  obtain ⟨rt, hrt⟩ := hF.runtime
  obtain ⟨d, ext, hx, hfit, hM⟩ := hF.picture
  have hperm : st'.occ.Perm st.occ := by
    have := applyEvent_perm st e dt
    rw [ha] at this
    exact this
  have hlen : st'.occ.length = st.occ.length := hperm.length_eq
  obtain ⟨cs, ext', rt', h1, h2, rfl, -, -⟩ := applyEvent_ready hF.ready hx hrt h
  rw [changesPost_eq ha] at h1
  have hdesc := changesPre_describes hd hF.ready h1
  refine ⟨⟨?_, ?_, ⟨rt', rfl⟩, d, ext', rfl, ?_, ?_⟩, d, ext, ext', hx, rfl⟩
  · rw [hlen]; exact ready_congr hF.ready _ _
  · rw [hlen]; exact hF.distinct
  · exact valuesFit_perm hperm hfit
  · exact commit_mirrors hF.distinct hfit hM ha hdesc h2

/-- C40, one hop.  Committing an executed hop turns a faithful picture of the state before into a
faithful picture of the state after. -/
theorem C40_hop_keeps_picture [Add T] (m : SiteEnergy Rt T) (hd : MappingsAreDicts m)
    (bg : List ExtVal) (s s' : SiteEnergyState Rt) (st st' : State T) (e : Event) (dt : T)
    (hF : Faithful m bg s st) (ha : st.applyEvent e dt = (.ok (), st'))
    (h : m.applyEvent s e st' = (.ok (), s')) : Faithful m bg s' st' :=
  (faithful_step hd hF ha h).1

theorem source_init {m : SiteEnergy Rt T} {s0 s : SiteEnergyState Rt} {order : Option OrderRef}
    {st : State T} {events : List Event}
    (h : (m.source s0 order).initializeState st events = .ok s) :
    m.initializeState s0 st.occ (some events) order = (.ok (), s) := by
  simp only [SiteEnergy.source, SiteSource.model] at h
  split at h
  · cases h
  · rename_i s' hs; rw [hs]; cases h; rfl

theorem faithful_init {m : SiteEnergy Rt T} (hd : MappingsAreDicts m)
    {s s' : SiteEnergyState Rt} {st : State T} {events : Option (List Event)}
    {order : Option OrderRef} (hdist : SitesDistinct m st.occ.length)
    (h : m.initializeState s st.occ events order = (.ok (), s'))
    (hfit : ∀ d ext, s'.external = some (d, ext) → ValuesFit m d st.occ) :
    ∃ d ext bg, s'.external = some (d, ext) ∧ IsBackground m st.occ.length d bg ∧
      Faithful m bg s' st := by
  obtain ⟨d, ext, bg, h1, h2, h3⟩ := C40_initial_picture m hd s s' st.occ events order hdist h hfit
  obtain ⟨lookup, _, _, _, _, rt, -, hr, -, -, -, -, -, hrt⟩ := initializeState_ok h
  exact ⟨d, ext, bg, h1, h2, hr, hdist, ⟨rt, hrt⟩, d, ext, h1, hfit d ext h1, h3⟩

section run
variable {σ φ U : Type} [Add T]

theorem faithful_run {k : Kernel ℝ T U} {c : Composite (SiteEnergyState Rt) T}
    {m : SiteEnergy Rt T} {s0 : SiteEnergyState Rt} {order : Option OrderRef}
    (hc : c.site = m.source s0 order) (hd : MappingsAreDicts m) {kB temp ν : ℝ} {bg : List ExtVal}
    {sim sim' : Sim σ φ (SiteEnergyState Rt) ℝ T} {h : List (Event × T)}
    (hF : Faithful m bg sim.ms sim.st)
    (hrun : Executed k (c.rateModel kB temp ν) sim h sim') :
    Faithful m bg sim'.ms sim'.st ∧
      ∃ d ext ext', sim.ms.external = some (d, ext) ∧ sim'.ms.external = some (d, ext') := by
  induction hrun with
  | nil s =>
    obtain ⟨d, ext, hx, -, -⟩ := hF.picture
    exact ⟨hF, d, ext, ext, hx, hx⟩
  | @cons s s1 s2 e dt h hu _ ih =>
    obtain ⟨st, ms, i, prob, h1, h2, -, -, rfl⟩ := update_ok hu
    have h2' : m.applyEvent s.ms e st = (.ok (), ms) := by
      have : (c.rateModel kB temp ν).applyEvent = (m.source s0 order).applyEvent := by
        rw [← hc]; rfl
      rw [this] at h2
      exact h2
    obtain ⟨hF', d, ext, ext1, x1, x2⟩ := faithful_step hd hF h1 h2'
    obtain ⟨hF'', d', ext2, ext3, y1, y2⟩ := ih hF'
    simp only at y1
    rw [x2] at y1
    cases y1
    exact ⟨hF'', d, ext, ext3, x1, y2⟩

/-- C40.  In a simulation with an external site-energy model, after construction and any history
of executed events, the occupation held for the external calculator is the picture of the current
simulation state: every active site shows the value mapped to its current state, every other
entry is still the background. -/
theorem C40_picture_after_any_history (k : Kernel ℝ T U) (kra : Option (LCE ℝ))
    (m : SiteEnergy Rt T) (s0 : SiteEnergyState Rt) (order : Option OrderRef) (kB temp ν : ℝ)
    (hd : MappingsAreDicts m) (lib : EventLib σ φ) (lookup : Option HopStateLookup) (st : State T)
    (sim sim' : Sim σ φ (SiteEnergyState Rt) ℝ T) (history : List (Event × T))
    (hdist : SitesDistinct m st.occ.length)
    (hinit : Sim.init k ((⟨kra, m.source s0 order⟩ : Composite _ T).rateModel kB temp ν) lib lookup
      (some st) = .ok sim)
    (hfit : ∀ d ext, sim.ms.external = some (d, ext) → ValuesFit m d st.occ)
    (hrun : Executed k ((⟨kra, m.source s0 order⟩ : Composite _ T).rateModel kB temp ν) sim history
      sim') :
    ∃ d ext bg, sim'.ms.external = some (d, ext) ∧ IsBackground m st.occ.length d bg ∧
      Mirrors m bg sim'.st.occ ext := by
  obtain ⟨h1, -, -, -, -, -, h7, -⟩ := init_ok hinit
  cases h1
  obtain ⟨d, ext, bg, x1, x2, hF⟩ := faithful_init hd hdist (source_init h7) hfit
  obtain ⟨hF', d', ext0, ext', y1, y2⟩ := faithful_run (c := ⟨kra, m.source s0 order⟩) rfl hd hF hrun
  rw [x1] at y1
  cases y1
  obtain ⟨d2, ext2, z1, -, z3⟩ := hF'.picture
  rw [y2] at z1
  cases z1
  exact ⟨_, _, bg, y2, x2, z3⟩

end run

/-- Two pictures of the same occupations on equal backgrounds agree everywhere. -/
theorem mirrors_unique {m : SiteEnergy Rt T} {bg bg' ext ext' : List ExtVal} {occ : List Int}
    (hb : SameArray bg bg') (h : Mirrors m bg occ ext) (h' : Mirrors m bg' occ ext') :
    SameArray ext ext' := by
  refine ⟨by rw [h.length, h'.length, hb.1], ?_⟩
  intro p x y hx hy
  by_cases hp : ∃ i < occ.length, extSite m i = some (p : Int)
  · obtain ⟨i, hi, hip⟩ := hp
    obtain ⟨p1, x1, w1, a1, a2, a3, a4⟩ := h.active i occ[i] (by simp [hi])
    obtain ⟨p2, x2, w2, b1, b2, b3, b4⟩ := h'.active i occ[i] (by simp [hi])
    rw [hip] at a1 b1
    cases a1; cases b1
    rw [a2] at b2; cases b2
    rw [hx] at a3; cases a3
    rw [hy] at b3; cases b3
    exact a4.trans b4.symm
  · push Not at hp
    have e1 := h.rest p hp
    have e2 := h'.rest p hp
    rw [hx] at e1
    rw [hy] at e2
    exact hb.2 p x y e1.symm e2.symm

/-- The background values are stored unchanged. -/
def BackgroundFits (m : SiteEnergy Rt T) (d : DType) : Prop :=
  match m.initialOccupation with
  | some a => ∀ x ∈ a.2, ∃ w, d.store x = .ok w ∧ SameValue w x
  | none => ∃ w, d.store m.fillValue = .ok w ∧ SameValue w m.fillValue

theorem background_same {m : SiteEnergy Rt T} {n : Nat} (hn : 0 < n) {d d' : DType} {bg bg' : List ExtVal}
    (h : IsBackground m n d bg) (h' : IsBackground m n d' bg')
    (hf : BackgroundFits m d) (hf' : BackgroundFits m d') : SameArray bg bg' := by
  unfold IsBackground at h h'
  unfold BackgroundFits at hf hf'
  cases hi : m.initialOccupation with
  | some a =>
    rw [hi] at h h' hf hf'
    refine ⟨by rw [h.1, h'.1], ?_⟩
    intro p x y hx hy
    have hp : p < a.2.length := by
      rw [← h.1]; by_contra hc; rw [List.getElem?_eq_none (by omega)] at hx; cases hx
    obtain ⟨w, hw, hw2⟩ := h.2 p a.2[p] (by simp [hp])
    obtain ⟨w', hw', hw2'⟩ := h'.2 p a.2[p] (by simp [hp])
    rw [hx] at hw2; cases hw2
    rw [hy] at hw2'; cases hw2'
    obtain ⟨v, hv, hs⟩ := hf a.2[p] (List.getElem_mem hp)
    obtain ⟨v', hv', hs'⟩ := hf' a.2[p] (List.getElem_mem hp)
    rw [hw] at hv; cases hv
    rw [hw'] at hv'; cases hv'
    exact hs.trans hs'.symm
  | none =>
    rw [hi] at h h' hf hf'
    obtain ⟨⟨w, hw, hall⟩, hsz, hsz2⟩ := h
    obtain ⟨⟨w', hw', hall'⟩, hsz', hsz2'⟩ := h'
    refine ⟨?_, ?_⟩
    · cases hu : m.externalSize with
      | some u => have := hsz u hu; have := hsz' u hu; omega
      | none =>
        obtain ⟨a1, i, p, hi1, hi2, hi3⟩ := hsz2 hu hn
        obtain ⟨b1, j, q, hj1, hj2, hj3⟩ := hsz2' hu hn
        have := a1 j q hj1 hj2
        have := b1 i p hi1 hi2
        omega
    · intro p x y hx hy
      have e1 := hall x (List.mem_of_getElem? hx)
      have e2 := hall' y (List.mem_of_getElem? hy)
      obtain ⟨v, hv, hs⟩ := hf
      obtain ⟨v', hv', hs'⟩ := hf'
      rw [hw] at hv; cases hv
      rw [hw'] at hv'; cases hv'
      rw [e1, e2]
      exact hs.trans hs'.symm

section run2
variable {σ φ U : Type} [Add T]

/-- C40.  After any history the external occupation equals, entry by entry, the one a newly
initialised model builds from the current state. -/
theorem C40_same_as_fresh (k : Kernel ℝ T U) (kra : Option (LCE ℝ))
    (m : SiteEnergy Rt T) (s0 s1 : SiteEnergyState Rt) (order order' : Option OrderRef)
    (kB temp ν : ℝ) (hd : MappingsAreDicts m) (lib : EventLib σ φ) (lookup : Option HopStateLookup)
    (st : State T) (sim sim' : Sim σ φ (SiteEnergyState Rt) ℝ T) (history : List (Event × T))
    (fresh : SiteEnergyState Rt) (events : Option (List Event)) (hn : st.occ ≠ [])
    (hdist : SitesDistinct m st.occ.length)
    (hinit : Sim.init k ((⟨kra, m.source s0 order⟩ : Composite _ T).rateModel kB temp ν) lib lookup
      (some st) = .ok sim)
    (hrun : Executed k ((⟨kra, m.source s0 order⟩ : Composite _ T).rateModel kB temp ν) sim history
      sim')
    (hfresh : m.initializeState s1 sim'.st.occ events order' = (.ok (), fresh))
    (hfit : ∀ s d ext, s = sim.ms ∨ s = fresh → s.external = some (d, ext) →
      ValuesFit m d st.occ ∧ BackgroundFits m d) :
    ∃ d ext d' ext', sim'.ms.external = some (d, ext) ∧ fresh.external = some (d', ext') ∧
      SameArray ext ext' := by
  have hperm : sim'.st.occ.Perm st.occ := by
    obtain ⟨h1, -⟩ := init_ok hinit
    cases h1
    clear hinit hfresh hfit hdist hn
    induction hrun with
    | nil => exact List.Perm.refl _
    | @cons a b c e dt h hu _ ih =>
      refine ih.trans ?_
      have := (update_perm k ((⟨kra, m.source s0 order⟩ : Composite _ T).rateModel kB temp ν)
        a e dt)
      rw [hu] at this
      exact this
  have hlen := hperm.length_eq
  have hn' : 0 < st.occ.length := List.length_pos_of_ne_nil hn
  obtain ⟨d, ext, bg, h1, h2, h3⟩ := C40_picture_after_any_history k kra m s0 order kB temp ν hd lib
    lookup st sim sim' history hdist hinit (fun d ext hx => (hfit _ d ext (.inl rfl) hx).1) hrun
  obtain ⟨d', ext', bg', k1, k2, k3⟩ := C40_initial_picture m hd s1 fresh sim'.st.occ events order'
    (by rw [hlen]; exact hdist) hfresh (fun d ext hx =>
      valuesFit_perm hperm (hfit _ d ext (.inr rfl) hx).1)
  rw [hlen] at k2
  have hdd : ∃ ext0, sim.ms.external = some (d, ext0) := by
    obtain ⟨i1, -, -, -, -, -, i7, -⟩ := init_ok hinit
    cases i1
    obtain ⟨d0, ext0, bg0, x1, -, hF⟩ := faithful_init hd hdist (source_init i7)
      (fun d ext hx => (hfit _ d ext (.inl rfl) hx).1)
    obtain ⟨-, d', e0, e1, y1, y2⟩ := faithful_run (c := ⟨kra, m.source s0 order⟩) rfl hd hF hrun
    rw [h1] at y2
    cases y2
    exact ⟨e0, y1⟩
  obtain ⟨ext0, hx0⟩ := hdd
  exact ⟨d, ext, d', ext', h1, k1, mirrors_unique
    (background_same hn' h2 k2 (hfit _ d ext0 (.inl rfl) hx0).2 (hfit _ d' ext' (.inr rfl) k1).2) h3 k3⟩

end run2

/-! ### C40: what the calculator is asked -/

/-- C40.  On a faithful picture, `compute` asks the calculator for exactly the changes of the
proposed hop (and does not ask at all if nothing would change), multiplies by the unit and leaves
the model as it is. -/
theorem C40_compute (m : SiteEnergy Rt T) (hd : MappingsAreDicts m) (bg : List ExtVal)
    (s : SiteEnergyState Rt) (st : State T) (e : Event) (hF : Faithful m bg s st) (δ : ℝ)
    (h : (m.compute s e st).1 = .ok δ) :
    (m.compute s e st).2 = s ∧
    ∃ changes, DescribesHop m e st.occ changes ∧
      ((changes = [] ∧ δ = 0) ∨
       (changes ≠ [] ∧ ∃ fn rt d ext x, m.computeFn = some fn ∧ s.runtime = some rt ∧
        s.external = some (d, ext) ∧ Mirrors m bg st.occ ext ∧
        fn rt ext changes e st = .ok (.number x) ∧ δ = x * m.units.factor)) := by
  obtain ⟨rt, hrt⟩ := hF.runtime
  obtain ⟨d, ext, hx, hfit, hM⟩ := hF.picture
  rw [compute_ready hF.ready hx hrt] at h ⊢
  refine ⟨rfl, ?_⟩
  simp only at h
  cases hc : changesPre s e st.occ with
  | error x => rw [hc] at h; cases h
  | ok changes =>
    rw [hc] at h
    simp only at h
    refine ⟨changes, changesPre_describes hd hF.ready hc, ?_⟩
    split at h
    · rename_i h0; cases h; exact .inl ⟨h0, rfl⟩
    · rename_i h0
      right
      refine ⟨h0, ?_⟩
      split at h
      · cases h
      · rename_i fn hfn
        split at h
        · cases h
        · rename_i raw hraw
          cases raw with
          | number x =>
            simp only [RawEnergy.toMeV, Except.ok.injEq] at h
            exact ⟨fn, rt, d, ext, x, hfn, hrt, hx, hM, hraw, h.symm⟩
          | bool b => cases h
          | other => cases h

theorem commitChanges_object {cs : List OccupationChange} {ext : List ExtVal}
    (h : ∀ c ∈ cs, 0 ≤ c.externalSite ∧ c.externalSite < ext.length) :
    commitChanges .object cs ext = (.ok (), withChanges ext cs) := by
  induction cs generalizing ext with
  | nil => rfl
  | cons c cs ih =>
    have hc := h c (by simp)
    unfold commitChanges storeAt DType.store
    simp only
    rw [pySet_of_idx (pyIdx_nonneg hc.1 hc.2)]
    simp only
    rw [ih (fun c' hc' => by simpa using h c' (by simp [hc']))]
    rfl

/-- C40.  Putting the new values of the changes into the picture gives a picture of the state
after the hop: the calculator is told the whole change and nothing but it. -/
theorem C40_changes_give_next_picture [Add T] (m : SiteEnergy Rt T) (bg : List ExtVal)
    (st st' : State T) (e : Event) (dt : T) (ext : List ExtVal) (changes : List OccupationChange)
    (hdist : SitesDistinct m st.occ.length) (hM : Mirrors m bg st.occ ext)
    (hc : DescribesHop m e st.occ changes) (ha : st.applyEvent e dt = (.ok (), st')) :
    Mirrors m bg st'.occ (withChanges ext changes) := by
  refine commit_mirrors hdist (C40_object_fits m _) hM ha hc (commitChanges_object ?_)
  obtain ⟨f, t, i, j, vf, vt, pf, pt, xf, yf, xt, yt, hm, hi, hj, hvf, hvt, s1, s2, -, -, -, -, rfl⟩ := hc
  obtain ⟨p1, -, w1, a1, -, a3, -⟩ := hM.active i vf hvf
  obtain ⟨p2, -, w2, b1, -, b3, -⟩ := hM.active j vt hvt
  rw [s1] at a1; cases a1
  rw [s2] at b1; cases b1
  have l1 : p1 < ext.length := by
    by_contra hc; rw [List.getElem?_eq_none (by omega)] at a3; cases a3
  have l2 : p2 < ext.length := by
    by_contra hc; rw [List.getElem?_eq_none (by omega)] at b3; cases b3
  intro c hcm
  rcases List.mem_append.1 hcm with h | h
  · split at h
    · cases h
    · rw [List.mem_singleton] at h; subst h; simp; omega
  · split at h
    · cases h
    · rw [List.mem_singleton] at h; subst h; simp; omega

/-- C40.  The changes committed after a hop are the changes asked for before it. -/
theorem C40_committed_is_proposed [Add T] (s : SiteEnergyState Rt) (e : Event) (st st' : State T)
    (dt : T) (ha : st.applyEvent e dt = (.ok (), st')) :
    changesPost s e st'.occ = changesPre s e st.occ := changesPost_eq ha

end KMC
