import Verif.Props.SiteEnergyProps
/-
External energy calculators in a simulation: coverage of the mappings (C71), detailed balance
(C39), freshness of the rate table (C70), and cases where the code departs from them.
-/
namespace KMC
open Spec SiteEnergy

variable {Rt T : Type}

/-! ### C40 with the default settings -/

section run
variable {σ φ U : Type} [Add T]

/-- C40 with default settings.  Without mappings of single sites, an array type or an initial
external occupation, only distinct external sites are needed. -/
theorem C40_default_settings (k : Kernel ℝ T U) (kra : Option (LCE ℝ))
    (m : SiteEnergy Rt T) (s0 : SiteEnergyState Rt) (order : Option OrderRef) (kB temp ν : ℝ)
    (hd : MappingsAreDicts m) (hby : m.stateMappingBySite = none) (hty : m.externalDtype = none)
    (hoc : m.initialOccupation = none) (lib : EventLib σ φ) (lookup : Option HopStateLookup)
    (st : State T) (sim sim' : Sim σ φ (SiteEnergyState Rt) ℝ T) (history : List (Event × T))
    (hdist : SitesDistinct m st.occ.length)
    (hinit : Sim.init k ((⟨kra, m.source s0 order⟩ : Composite _ T).rateModel kB temp ν) lib lookup
      (some st) = .ok sim)
    (hrun : Executed k ((⟨kra, m.source s0 order⟩ : Composite _ T).rateModel kB temp ν) sim history
      sim') :
    ∃ d ext bg, sim'.ms.external = some (d, ext) ∧ IsBackground m st.occ.length d bg ∧
      Mirrors m bg sim'.st.occ ext := by
  obtain ⟨h1, -, -, -, -, -, h7, -⟩ := init_ok hinit
  cases h1
  exact C40_picture_after_any_history k kra m s0 order kB temp ν hd lib lookup _ sim sim' history hdist
    hinit (fun d ext hx => C40_chosen_type_fits m hd s0 _ _ _ _ hby hty hoc (source_init h7) d ext hx)
    hrun

end run

/-! ### C71: no mapping failure during a run -/

theorem mappedChanges_total {m : SiteEnergy Rt T} (hd : MappingsAreDicts m) {n : Nat}
    {s : SiteEnergyState Rt} (hr : Ready m n s) (cs : List (Int × Int × Int))
    (h : ∀ c ∈ cs, ∃ i x y, pyIdx n c.1 = some i ∧ extValue m i c.2.1 = some x ∧
      extValue m i c.2.2 = some y) : ∃ r, mappedChanges s cs = .ok r := by
  induction cs with
  | nil => exact ⟨_, rfl⟩
  | cons c cs ih =>
    obtain ⟨site, old, new⟩ := c
    obtain ⟨i, x, y, hi, hx, hy⟩ := h (site, old, new) (by simp)
    obtain ⟨r, hr'⟩ := ih (fun c hc => h c (by simp [hc]))
    obtain ⟨p, hp, -⟩ := externalSite_of hr hi
    unfold mappedChanges
    rw [hp]
    simp only
    rw [(externalValue_iff hd hr hi old x).2 hx, (externalValue_iff hd hr hi new y).2 hy, hr']
    simp only
    split
    · exact ⟨_, rfl⟩
    · exact ⟨_, rfl⟩

/-- C71.  If every site has a value for every state present, `compute` never fails because of the
mapping: whatever it returns, it reached the calculator with the changes of the hop. -/
theorem C71_compute_reaches_calculator (m : SiteEnergy Rt T) (hd : MappingsAreDicts m)
    (bg : List ExtVal) (s : SiteEnergyState Rt) (st : State T) (e : Event) (f t : Int) (i j : Nat)
    (hF : Faithful m bg s st) (hcov : MappingCovers m st.occ) (hm : e.mobile = [f, t])
    (hi : pyIdx st.occ.length f = some i) (hj : pyIdx st.occ.length t = some j)
    (fn : Rt → List ExtVal → List OccupationChange → Event → State T → Py RawEnergy)
    (hfn : m.computeFn = some fn) :
    ∃ changes rt d ext, DescribesHop m e st.occ changes ∧ s.runtime = some rt ∧
      s.external = some (d, ext) ∧
      (m.compute s e st).1 = if changes = [] then .ok 0 else
        match fn rt ext changes e st with
        | .error x => .error x
        | .ok raw => raw.toMeV m.units := by
  obtain ⟨rt, hrt⟩ := hF.runtime
  obtain ⟨d, ext, hx, hfit, hM⟩ := hF.picture
  have hil := pyIdx_lt hi
  have hjl := pyIdx_lt hj
  have e1 : pyGet st.occ f = .ok st.occ[i] := pyGet_ok_iff.2 ⟨i, hi, by simp [hil]⟩
  have e2 : pyGet st.occ t = .ok st.occ[j] := pyGet_ok_iff.2 ⟨j, hj, by simp [hjl]⟩
  obtain ⟨a, ha⟩ := hcov i st.occ[i] hil (List.getElem_mem hil)
  obtain ⟨b, hb⟩ := hcov i st.occ[j] hil (List.getElem_mem hjl)
  obtain ⟨c, hc⟩ := hcov j st.occ[i] hjl (List.getElem_mem hil)
  obtain ⟨g, hg⟩ := hcov j st.occ[j] hjl (List.getElem_mem hjl)
  obtain ⟨changes, hcs⟩ := mappedChanges_total hd hF.ready
    [(f, st.occ[i], st.occ[j]), (t, st.occ[j], st.occ[i])] (by
      intro z hz
      simp only [List.mem_cons, List.not_mem_nil, or_false] at hz
      rcases hz with rfl | rfl
      · exact ⟨i, a, b, hi, ha, hb⟩
      · exact ⟨j, g, c, hj, hg, hc⟩)
  have hpre : changesPre s e st.occ = .ok changes := by
    simp [changesPre, hm, unpack2, e1, e2, hcs]
  refine ⟨changes, rt, d, ext, changesPre_describes hd hF.ready hpre, hrt, hx, ?_⟩
  rw [compute_ready hF.ready hx hrt]
  simp only [hpre, hfn]
  cases fn rt ext changes e st <;> rfl

/-- C71.  Under the same coverage an executed hop is committed without failure unless the user's own
function for executed hops fails, and coverage and picture hold again afterwards. -/
theorem C71_commit_succeeds [Add T] (m : SiteEnergy Rt T) (hd : MappingsAreDicts m)
    (bg : List ExtVal) (s : SiteEnergyState Rt) (st st' : State T) (e : Event) (dt : T)
    (hF : Faithful m bg s st) (hcov : MappingCovers m st.occ)
    (hok : ∀ fn, m.applyFn = some fn → ∀ rt ext changes e (st : State T), (fn rt ext changes e st).1 = .ok ())
    (ha : st.applyEvent e dt = (.ok (), st')) :
    ∃ s', m.applyEvent s e st' = (.ok (), s') ∧ Faithful m bg s' st' ∧ MappingCovers m st'.occ := by
  obtain ⟨f, t, i, j, hil, hjl, hm, hi, hj, -⟩ := applyEvent_ok ha
  obtain ⟨rt, hrt⟩ := hF.runtime
  obtain ⟨d, ext, hx, hfit, hM⟩ := hF.picture
  have e1 : pyGet st.occ f = .ok st.occ[i] := pyGet_ok_iff.2 ⟨i, hi, by simp [hil]⟩
  have e2 : pyGet st.occ t = .ok st.occ[j] := pyGet_ok_iff.2 ⟨j, hj, by simp [hjl]⟩
  obtain ⟨a, ha'⟩ := hcov i st.occ[i] hil (List.getElem_mem hil)
  obtain ⟨b, hb⟩ := hcov i st.occ[j] hil (List.getElem_mem hjl)
  obtain ⟨c, hc⟩ := hcov j st.occ[i] hjl (List.getElem_mem hil)
  obtain ⟨g, hg⟩ := hcov j st.occ[j] hjl (List.getElem_mem hjl)
  obtain ⟨changes, hcs⟩ := mappedChanges_total hd hF.ready
    [(f, st.occ[i], st.occ[j]), (t, st.occ[j], st.occ[i])] (by
      intro z hz
      simp only [List.mem_cons, List.not_mem_nil, or_false] at hz
      rcases hz with rfl | rfl
      · exact ⟨i, a, b, hi, ha', hb⟩
      · exact ⟨j, g, c, hj, hg, hc⟩)
  have hpre : changesPre s e st.occ = .ok changes := by
    simp [changesPre, hm, unpack2, e1, e2, hcs]
  have hpost : changesPost s e st'.occ = .ok changes := by rw [changesPost_eq ha]; exact hpre
  have hdesc := changesPre_describes hd hF.ready hpre
  have hcommit : ∃ ext', commitChanges d changes ext = (.ok (), ext') := by
    have hin : ∀ x ∈ changes, (∃ p : Nat, x.externalSite = (p : Int) ∧ p < ext.length) ∧
        ∃ w, d.store x.newValue = .ok w := by
      obtain ⟨f', t', i', j', vf, vt, pf, pt, xf, yf, xt, yt, hm', hi', hj', hvf, hvt, s1, s2, v1, v2,
        v3, v4, rfl⟩ := hdesc
      rw [hm] at hm'
      simp only [List.cons.injEq, and_true] at hm'
      obtain ⟨rfl, rfl⟩ := hm'
      rw [hi] at hi'; cases hi'
      rw [hj] at hj'; cases hj'
      obtain ⟨p1, -, w1, a1, -, a3, -⟩ := hM.active i vf hvf
      obtain ⟨p2, -, w2, b1, -, b3, -⟩ := hM.active j vt hvt
      rw [s1] at a1; cases a1
      rw [s2] at b1; cases b1
      have l1 : p1 < ext.length := by
        by_contra hc; rw [List.getElem?_eq_none (by omega)] at a3; cases a3
      have l2 : p2 < ext.length := by
        by_contra hc; rw [List.getElem?_eq_none (by omega)] at b3; cases b3
      obtain ⟨u1, hu1, -⟩ := hfit i vt yf hil (List.mem_of_getElem? hvt) v2
      obtain ⟨u2, hu2, -⟩ := hfit j vf yt hjl (List.mem_of_getElem? hvf) v4
      intro c hcm
      rcases List.mem_append.1 hcm with h | h
      · split at h
        · cases h
        · rw [List.mem_singleton] at h; subst h; exact ⟨⟨p1, rfl, l1⟩, u1, hu1⟩
      · split at h
        · cases h
        · rw [List.mem_singleton] at h; subst h; exact ⟨⟨p2, rfl, l2⟩, u2, hu2⟩
    clear hpre hpost hcs hM hx hdesc
    induction changes generalizing ext with
    | nil => exact ⟨ext, rfl⟩
    | cons c cs ih =>
      obtain ⟨⟨p, hp, hl⟩, w, hw⟩ := hin c (by simp)
      obtain ⟨ext', h'⟩ := ih (ext := ext.set p w) (fun x hx => by simpa using hin x (by simp [hx]))
      refine ⟨ext', ?_⟩
      unfold commitChanges storeAt
      rw [hw, hp]
      simp only
      rw [pySet_of_idx (pyIdx_natCast hl)]
      exact h'
  obtain ⟨ext', hcm⟩ := hcommit
  have happ : ∃ s', m.applyEvent s e st' = (.ok (), s') := by
    unfold SiteEnergy.applyEvent
    rw [ensureInitialized_ready hF.ready hx]
    simp only [hpost, hx]
    cases changes with
    | nil => exact ⟨s, rfl⟩
    | cons c cs =>
      cases hfn : m.applyFn with
      | none => simp only [hcm]; exact ⟨_, rfl⟩
      | some fn =>
        simp only [resolveRuntime, hrt]
        have := hok fn hfn rt ext (c :: cs) e st'
        rcases hc : fn rt ext (c :: cs) e st' with ⟨r, rt'⟩
        rw [hc] at this
        simp only at this
        subst this
        simp only [hcm]
        exact ⟨_, rfl⟩
  obtain ⟨s', hs'⟩ := happ
  have hperm : st'.occ.Perm st.occ := by
    have := applyEvent_perm st e dt
    rw [ha] at this
    exact this
  exact ⟨s', hs', C40_hop_keeps_picture m hd bg s s' st st' e dt hF ha hs', fun i v hi hv =>
    hcov i v (by rw [← hperm.length_eq]; exact hi) (hperm.mem_iff.1 hv)⟩

/-- Mapping with a gap: site 2 has no value for state 1. -/
def gapModel : SiteEnergy Unit EReal where
  stateMappingBySite := some [(2, [(0, .int 0)])]
  makeRuntime := .ok ()
  computeFn := some fun _ _ _ _ _ => .ok (.number 0)

/-- C71, the other way round: the check at initialisation looks at the initial state only.  A
mapping with a gap is accepted at the start and fails after one hop. -/
theorem C71_gap_found_late :
    ∃ (s : SiteEnergyState Unit) (s' : SiteEnergyState Unit) (st st' : State EReal) (e1 e2 : Event),
      gapModel.initializeState {} st.occ (some [e1, e2]) none = (.ok (), s) ∧
      st.applyEvent e1 1 = (.ok (), st') ∧ gapModel.applyEvent s e1 st' = (.ok (), s') ∧
      (gapModel.compute s e2 st).1 = .ok 0 ∧
      (gapModel.compute s' e2 st').1 = .error .valueError := by
  refine ⟨_, _, ⟨[1, 0, 0], 0, 0⟩, _, plainEvent 0 1 [], plainEvent 1 2 [], rfl, rfl, rfl, rfl, rfl⟩

theorem validateEvents_ok {s : SiteEnergyState Rt} {occ : List Int} :
    ∀ {es : List Event}, validateEvents s occ es = .ok () → ∀ e ∈ es, ∃ cs, changesPre s e occ = .ok cs := by
  intro es
  induction es with
  | nil => intro _ e he; cases he
  | cons e es ih =>
    intro h e' he
    unfold validateEvents at h
    split at h
    · cases h
    · cases h
    · cases h
    · cases h
    · rename_i cs hcs
      rcases List.mem_cons.1 he with rfl | he
      · exact ⟨cs, hcs⟩
      · exact ih h e' he

/-- C71.  What the check at initialisation does guarantee: every event of the library, not only the first, can
be evaluated on the initial state. -/
theorem C71_checked_events {m : SiteEnergy Rt T} (hd : MappingsAreDicts m) {s s' : SiteEnergyState Rt}
    {occ : List Int} {es : List Event} {order : Option OrderRef}
    (h : m.initializeState s occ (some es) order = (.ok (), s')) :
    ∀ e ∈ es, ∃ f t i j vf vt, e.mobile = [f, t] ∧ pyIdx occ.length f = some i ∧ pyIdx occ.length t = some j ∧
      occ[i]? = some vf ∧ occ[j]? = some vt ∧
      (∃ a, extValue m i vf = some a) ∧ (∃ a, extValue m i vt = some a) ∧
      (∃ a, extValue m j vf = some a) ∧ (∃ a, extValue m j vt = some a) ∧
      ∃ changes, changesPre s' e occ = .ok changes ∧ DescribesHop m e occ changes := by
  intro e he
  have key : ∃ cs, changesPre s' e occ = .ok cs := by
    unfold initializeState at h
    split at h
    · cases h
    · split at h
      · cases h
      · split at h
        · cases h
        · simp only at h
          split at h
          · cases h
          · split at h
            · cases h
            · rename_i hv
              obtain ⟨cs, hcs⟩ := validateEvents_ok (by simpa using hv) e he
              split at h
              · cases h
              · rename_i r s2 hr
                cases h
                have := resolveRuntime_ok hr
                subst this
                refine ⟨cs, ?_⟩
                rw [← hcs]
                unfold changesPre
                simp only
                rfl
  obtain ⟨cs, hcs⟩ := key
  obtain ⟨-, -, -, -, -, -, -, hr, -⟩ := initializeState_ok h
  obtain ⟨f, t, i, j, vf, vt, hm, hi, hj, hvf, hvt, hc⟩ := changesPre_ok hcs
  obtain ⟨pf, xf, yf, r1, h1, h2, h3, h4, rfl⟩ := mappedChanges_cons hc
  obtain ⟨pt, xt, yt, r2, k1, k2, k3, k4, rfl⟩ := mappedChanges_cons h4
  exact ⟨f, t, i, j, vf, vt, hm, hi, hj, hvf, hvt, ⟨xf, (externalValue_iff hd hr hi _ _).1 h2⟩,
    ⟨yf, (externalValue_iff hd hr hi _ _).1 h3⟩, ⟨yt, (externalValue_iff hd hr hj _ _).1 k3⟩,
    ⟨xt, (externalValue_iff hd hr hj _ _).1 k2⟩, _, hcs, changesPre_describes hd hr hcs⟩

/-- C40.  A model bound to an order of the active sites refuses another order, and an order for another number
of sites; a model not yet bound takes the given one. -/
theorem C40_foreign_order_refused (m : SiteEnergy Rt T) (s : SiteEnergyState Rt) (occ : List Int)
    (events : Option (List Event)) (o : OrderRef) :
    (∀ h, s.orderHash = some h → o.fingerprint ≠ h →
      m.initializeState s occ events (some o) = (.error .valueError, s)) ∧
    (o.count ≠ occ.length → ∃ s', m.initializeState s occ events (some o) = (.error .valueError, s') ∧
      s'.external = s.external) ∧
    ∀ s', m.initializeState s occ events (some o) = (.ok (), s') →
      o.count = occ.length ∧ s'.orderHash = some o.fingerprint ∧ s'.order = some o ∧
      ∀ h, s.orderHash = some h → h = o.fingerprint := by
  refine ⟨?_, ?_, ?_⟩
  · intro h hh hne
    simp only [initializeState, setOrder, hh, if_pos hne]
  · intro hc
    unfold initializeState setOrder
    cases hh : s.orderHash with
    | none =>
      simp only [validateOrder, if_pos hc]
      exact ⟨_, rfl, rfl⟩
    | some h =>
      simp only
      by_cases hne : o.fingerprint ≠ h
      · rw [if_pos hne]; exact ⟨s, rfl, rfl⟩
      · rw [if_neg hne]
        simp only [validateOrder, if_pos hc]
        exact ⟨_, rfl, rfl⟩
  · intro s' h
    have hset : ∃ s1, setOrder s (some o) = .ok s1 := by
      cases hs : setOrder s (some o) with
      | error x => simp only [initializeState, hs] at h; cases h
      | ok s1 => exact ⟨s1, rfl⟩
    obtain ⟨s1, hs1⟩ := hset
    have hs1' : s1.order = some o ∧ s1.orderHash = some o.fingerprint ∧
        ∀ h, s.orderHash = some h → h = o.fingerprint := by
      unfold setOrder at hs1
      simp only at hs1
      split at hs1
      · rename_i h0 hh
        split at hs1
        · cases hs1
        · rename_i hne
          cases hs1
          refine ⟨rfl, rfl, ?_⟩
          intro h1 hh1
          rw [hh] at hh1
          cases hh1
          exact (not_not.1 hne).symm
      · rename_i hh
        cases hs1
        refine ⟨rfl, rfl, ?_⟩
        intro h1 hh1
        rw [hh] at hh1
        cases hh1
    simp only [initializeState, hs1] at h
    split at h
    · cases h
    · rename_i hv
      have hc : o.count = occ.length := by
        by_contra hc
        simp only [validateOrder, hs1'.1, if_pos hc] at hv
        cases hv
      split at h
      · cases h
      · split at h
        · cases h
        · split at h
          · cases h
          · split at h
            · cases h
            · rename_i r s2 hr
              cases h
              have := resolveRuntime_ok hr
              subst this
              exact ⟨hc, hs1'.2.1, hs1'.1, hs1'.2.2⟩

/-! ### C40: where the code departs from it -/

/-- Site 0 shows the integers 0 and 1, site 1 the integer 0 and the float 1/2. -/
def halfModel : SiteEnergy Unit EReal where
  stateMappingBySite := some [(0, [(0, .int 0), (1, .int 1)]), (1, [(0, .int 0), (1, .flt (1 / 2))])]
  makeRuntime := .ok ()

/-- C40 fails with mappings of single sites of mixed types: the array made for the integers of
the initial state silently truncates the float that a hop brings in. -/
theorem C40_truncated_value :
    ∃ (s s' : SiteEnergyState Unit) (st st' : State EReal) (e : Event) (ext : List ExtVal),
      halfModel.initializeState {} st.occ (some [e]) none = (.ok (), s) ∧
      st.applyEvent e 1 = (.ok (), st') ∧ halfModel.applyEvent s e st' = (.ok (), s') ∧
      s'.external = some (.int64, ext) ∧ SitesDistinct halfModel st.occ.length ∧
      ∀ bg, ¬ Mirrors halfModel bg st'.occ ext := by
  let s : SiteEnergyState Unit := (halfModel.initializeState {} [1, 0] none none).2
  refine ⟨s, { s with external := some (.int64, [.int 0, .int 0]) }, ⟨[1, 0], 0, 0⟩,
    ⟨[0, 1], 0 + 1, 1⟩, plainEvent 0 1 [], [.int 0, .int 0], ?_, rfl, ?_, rfl, ?_, ?_⟩
  · have hv : validateEvents ({ siteLookup := some [0, 1]
                                stateLookup := halfModel.stateMapping.map buildStateLookup
                                stateLookupBySite := halfModel.buildStateLookupBySite 2
                                external := some (.int64, [.int 1, .int 0]) } : SiteEnergyState Unit)
        [1, 0] [plainEvent 0 1 []] = .ok () := by
      decide +kernel
    have hb : halfModel.buildSiteLookup 2 = .ok [0, 1] := rfl
    have he : halfModel.buildExternal
        { siteLookup := some [0, 1]
          stateLookup := halfModel.stateMapping.map buildStateLookup
          stateLookupBySite := halfModel.buildStateLookupBySite 2 } [0, 1] [1, 0] =
        .ok (.int64, [.int 1, .int 0]) := rfl
    unfold initializeState
    simp only [setOrder, validateOrder, List.length_cons, List.length_nil, Nat.reduceAdd, hb, he,
      Option.elim, hv]
    rfl
  · have h1 : DType.int64.store (.flt (1 / 2)) = .ok (.int 0) := by decide +kernel
    have h2 : s.external = some (.int64, [.int 1, .int 0]) := rfl
    have h3 : changesPost s (plainEvent 0 1 []) [0, 1] =
        .ok [⟨0, 0, 1, 0, .int 1, .int 0⟩, ⟨1, 1, 0, 1, .int 0, .flt (1 / 2)⟩] := by decide +kernel
    have h4 : halfModel.ensureInitialized s [0, 1] = (.ok (), s) := rfl
    unfold SiteEnergy.applyEvent
    simp only [h4, h3, h2]
    have h5 : commitChanges .int64 [⟨0, 0, 1, 0, .int 1, .int 0⟩, ⟨1, 1, 0, 1, .int 0, .flt (1 / 2)⟩]
        [.int 1, .int 0] = (.ok (), [.int 0, .int 0]) := by
      simp only [commitChanges, storeAt, h1]
      rfl
    simp only [h5]
    rfl
  · intro i j _ _ h
    simpa [extSite, halfModel] using h
  · intro bg hM
    obtain ⟨p, x, w, h1, h2, h3, h4⟩ := hM.active 1 1 rfl
    have hp : p = 1 := by
      have : ((1 : Nat) : Int) = (p : Int) := by simpa [extSite, halfModel] using h1
      omega
    subst hp
    have hx : x = .flt (1 / 2) := by
      have : extValue halfModel 1 1 = some (.flt (1 / 2)) := rfl
      rw [this] at h2
      exact (Option.some.inj h2).symm
    subst hx
    simp at h3
    subst h3
    simp [SameValue, ExtVal.key] at h4

/-- Both active sites are mapped to the same external site. -/
def sharedModel : SiteEnergy Unit EReal where
  siteMapping := some [(0, 0), (1, 0)]
  makeRuntime := .ok ()

/-- C40 fails when two active sites share an external site; the mapping is accepted. -/
theorem C40_shared_site_accepted :
    ∃ (s : SiteEnergyState Unit) (occ : List Int) (d : DType) (ext : List ExtVal),
      sharedModel.initializeState {} occ none none = (.ok (), s) ∧ s.external = some (d, ext) ∧
      ∀ bg, ¬ Mirrors sharedModel bg occ ext := by
  refine ⟨_, [1, 0], .int64, [.int 0], rfl, rfl, ?_⟩
  intro bg hM
  obtain ⟨p, x, w, h1, h2, h3, h4⟩ := hM.active 0 1 rfl
  have hp : p = 0 := by
    have : extSite sharedModel 0 = some 0 := rfl
    rw [this] at h1
    have := Option.some.inj h1
    omega
  subst hp
  have hx : x = .int 1 := by
    have : extValue sharedModel 0 1 = some (.int 1) := rfl
    rw [this] at h2
    exact (Option.some.inj h2).symm
  subst hx
  simp at h3
  subst h3
  simp [SameValue, ExtVal.key] at h4

/-! ### C39 for external calculators -/

/-- The calculator answers with the difference of an energy `Eext` of the external occupation
between the array with the changes and the array as it is. -/
def ReturnsDifference (m : SiteEnergy Rt T) (Eext : List ExtVal → ℝ) : Prop :=
  ∀ fn rt ext changes e (st : State T) x, m.computeFn = some fn →
    fn rt ext changes e st = .ok (.number x) →
    x * m.units.factor = Eext (withChanges ext changes) - Eext ext

/-- The energy only looks at the entries' values. -/
def EnergyOfValues (Eext : List ExtVal → ℝ) : Prop :=
  ∀ a b, SameArray a b → Eext a = Eext b

open Classical in
/-- The energy of an occupation vector: that of its picture. -/
noncomputable def pictureEnergy (m : SiteEnergy Rt T) (bg : List ExtVal) (Eext : List ExtVal → ℝ)
    (occ : List Int) : ℝ :=
  if h : ∃ ext, Mirrors m bg occ ext then Eext h.choose else 0

theorem sameArray_refl (a : List ExtVal) : SameArray a a :=
  ⟨rfl, fun p x y hx hy => by rw [hx] at hy; cases hy; rfl⟩

theorem pictureEnergy_of {m : SiteEnergy Rt T} {bg ext : List ExtVal} {Eext : List ExtVal → ℝ}
    {occ : List Int} (hE : EnergyOfValues Eext) (h : Mirrors m bg occ ext) :
    pictureEnergy m bg Eext occ = Eext ext := by
  have hex : ∃ ext, Mirrors m bg occ ext := ⟨ext, h⟩
  unfold pictureEnergy
  rw [dif_pos hex]
  exact hE _ _ (mirrors_unique (sameArray_refl bg) hex.choose_spec h)

theorem reports_external [Add T] (m : SiteEnergy Rt T) (hd : MappingsAreDicts m)
    (s0 : SiteEnergyState Rt) (order : Option OrderRef) (bg : List ExtVal) (Eext : List ExtVal → ℝ)
    (hE : EnergyOfValues Eext) (hfn : ReturnsDifference m Eext) :
    ReportsEnergy (m.source s0 order) (Faithful m bg) (fun _ => True) (pictureEnergy m bg Eext) := by
  constructor
  · intro ms ms' e st st' dt hF _ ha h
    exact C40_hop_keeps_picture m hd bg ms ms' st st' e dt hF ha h
  · intro ms e st st' dt d δ hF _ ha h
    obtain ⟨-, changes, hdesc, hc⟩ := C40_compute m hd bg ms st e hF δ h
    obtain ⟨d, ext, hx, -, hM⟩ := hF.picture
    have hM' := C40_changes_give_next_picture m bg st st' e dt ext changes hF.distinct hM hdesc ha
    rw [pictureEnergy_of hE hM, pictureEnergy_of hE hM']
    rcases hc with ⟨rfl, rfl⟩ | ⟨-, fn, rt, d', ext', x, h1, -, h3, -, h5, rfl⟩
    · simp [withChanges]
    · rw [hx] at h3
      cases h3
      exact hfn fn rt ext changes e st x h1 h5

/-- C39 for external calculators.  If the calculator returns differences of an energy of the
external occupation, then along every sequence of possible hops, however long, the product of the
forward rates over the product of the backward rates is the Boltzmann factor of the energies of
the external occupations held at the end and at the start. -/
theorem C39_external_calculator [Add T] (kra : Option (LCE ℝ)) (m : SiteEnergy Rt T)
    (hd : MappingsAreDicts m) (s0 : SiteEnergyState Rt) (order : Option OrderRef)
    (Eext : List ExtVal → ℝ) (hE : EnergyOfValues Eext) (hfn : ReturnsDifference m Eext)
    (kB temp ν : ℝ) (hν : 0 < ν) (bg : List ExtVal) (x y : SiteEnergyState Rt × State T)
    (h : List (Event × ℝ × ℝ)) (hF : Faithful m bg x.1 x.2)
    (hev : ∀ z ∈ h, TwoWay z.1 ∧ SurroundingsApart x.2.occ.length z.1)
    (hp : HopPath ((⟨kra, m.source s0 order⟩ : Composite _ T).rateModel kB temp ν) x h y) :
    ∃ d ext d' ext', x.1.external = some (d, ext) ∧ y.1.external = some (d', ext') ∧
      pathRatio h = Real.exp (-(Eext ext' - Eext ext) / (kB * temp)) := by
  have hrep := reports_external m hd s0 order bg Eext hE hfn
  have hpath := C39_path ⟨kra, m.source s0 order⟩ kB temp ν hν (Faithful m bg) (fun _ => True)
    (pictureEnergy m bg Eext) hrep x y h hF (fun z hz => ⟨trivial, (hev z hz).1, (hev z hz).2⟩) hp
  have hFy : Faithful m bg y.1 y.2 := by
    clear hpath hev
    induction hp with
    | nil => exact hF
    | @cons ms ms' st st' y e dt d p p' h _ _ _ ha hms _ _ ih =>
      exact ih (C40_hop_keeps_picture m hd bg ms ms' st st' e dt hF ha hms)
  obtain ⟨d, ext, hx, -, hM⟩ := hF.picture
  obtain ⟨d', ext', hx', -, hM'⟩ := hFy.picture
  refine ⟨d, ext, d', ext', hx, hx', ?_⟩
  rw [hpath, pictureEnergy_of hE hM, pictureEnergy_of hE hM']

/-! ### C70: the rate table with an external calculator -/

/-- The calculator looks only at the changes it is given, at the event, and at the external sites
(and occupations) of the sites the event lists. -/
def LocalCalculator (m : SiteEnergy Rt T) (n : Nat) : Prop :=
  ∀ fn rt rt' ext ext' changes e (st st' : State T), m.computeFn = some fn →
    ext.length = ext'.length →
    (∀ i ∈ e.mobile ++ e.env, ∀ (k p : Nat), pyIdx n i = some k → extSite m k = some (p : Int) →
      ext[p]? = ext'[p]?) →
    (∀ i ∈ e.mobile ++ e.env, pyGet st.occ i = pyGet st'.occ i) →
    fn rt ext changes e st = fn rt' ext' changes e st'

section fresh
variable {σ φ U : Type} [Add T]

/-- Rates of events away from a hop do not change with a local calculator. -/
theorem local_calculator_rate {m : SiteEnergy Rt T} (hd : MappingsAreDicts m) {kra : Option (LCE ℝ)}
    {s0 : SiteEnergyState Rt} {order : Option OrderRef} {kB temp ν : ℝ} {bg : List ExtVal} {n : Nat}
    (hloc : LocalCalculator m n) {s s' : SiteEnergyState Rt} {st st' : State T} {e e2 : Event} {dt : T}
    (hn : st.occ.length = n) (hF : Faithful m bg s st) (ha : st.applyEvent e dt = (.ok (), st'))
    (h : m.applyEvent s e st' = (.ok (), s')) (h0 : ∀ i ∈ e.mobile, 0 ≤ i)
    (h2 : ∀ i ∈ e2.mobile ++ e2.env, 0 ≤ i) (hdis : ∀ i ∈ e.mobile, i ∉ e2.mobile ++ e2.env) :
    ((⟨kra, m.source s0 order⟩ : Composite _ T).rateModel kB temp ν).computeProbability s' e2 st' =
    ((⟨kra, m.source s0 order⟩ : Composite _ T).rateModel kB temp ν).computeProbability s e2 st := by
  subst hn
  have hocc : ∀ i ∈ e2.mobile ++ e2.env, pyGet st'.occ i = pyGet st.occ i := by
    intro i hi
    obtain ⟨f, t, a, b, ha', hb', hm, h1, h3, rfl⟩ := applyEvent_ok ha
    simp only [pyGet, List.length_set]
    cases hx : pyIdx st.occ.length i with
    | none => rfl
    | some x =>
      have hfi : f ≠ i := fun hh => hdis f (by simp [hm]) (hh ▸ hi)
      have hti : t ≠ i := fun hh => hdis t (by simp [hm]) (hh ▸ hi)
      have e1 := pyIdx_some_nonneg h1 (h0 f (by simp [hm]))
      have e3 := pyIdx_some_nonneg h3 (h0 t (by simp [hm]))
      have e4 := pyIdx_some_nonneg hx (h2 i hi)
      simp only
      rw [List.getElem?_set_ne (by omega), List.getElem?_set_ne (by omega)]
  have hF' := C40_hop_keeps_picture m hd bg s s' st st' e dt hF ha h
  have hlen : st'.occ.length = st.occ.length := by
    have := applyEvent_length st e dt
    rw [ha] at this
    exact this
  obtain ⟨rt, hrt⟩ := hF.runtime
  obtain ⟨d, ext, hx, hfit, hM⟩ := hF.picture
  obtain ⟨cs, ext', rt', c1, c2, rfl, -, -⟩ := applyEvent_ready hF.ready hx hrt h
  rw [changesPost_eq ha] at c1
  have hdesc := changesPre_describes hd hF.ready c1
  have hext : ∀ i ∈ e2.mobile ++ e2.env, ∀ (k p : Nat), pyIdx st.occ.length i = some k →
      extSite m k = some (p : Int) → ext'[p]? = ext[p]? := by
    intro i hi k p hk hp
    refine commit_other ?_ c2
    intro c hc
    obtain ⟨i1, hi1, k1, hk1, hp1⟩ := describes_external hdesc c hc
    obtain ⟨q, -, hq⟩ := externalSite_of hF.ready hk1
    have hqc : c.externalSite = (q : Int) := by rw [hp1] at hq; exact Option.some.inj hq
    refine ⟨by omega, ?_⟩
    intro heq
    have hkk : k1 = k := hF.distinct k1 k (pyIdx_lt hk1) (pyIdx_lt hk) (by rw [hp1, hp, heq])
    subst hkk
    have e1 := pyIdx_some_nonneg hk1 (h0 i1 hi1)
    have e3 := pyIdx_some_nonneg hk (h2 i hi)
    exact hdis i1 hi1 (by
      have : i1 = i := by omega
      rw [this]; exact hi)
  have hpre : changesPre { s with external := some (d, ext'), runtime := some rt' } e2 st'.occ =
      changesPre s e2 st.occ := by
    have hmc : ∀ cs, mappedChanges { s with external := some (d, ext'), runtime := some rt' } cs =
        mappedChanges s cs := by
      intro cs
      induction cs with
      | nil => rfl
      | cons c cs ih =>
        obtain ⟨a, b, c⟩ := c
        simp only [mappedChanges, ih]
        rfl
    unfold changesPre
    cases hu : unpack2 e2.mobile with
    | error x => rfl
    | ok ft =>
      obtain ⟨f, t⟩ := ft
      have hm : e2.mobile = [f, t] := by
        unfold unpack2 at hu
        split at hu <;> simp_all
      simp only [hocc f (by simp [hm]), hocc t (by simp [hm]), hmc]
  have hdir : eventDirection st'.occ e2 = eventDirection st.occ e2 := eventDirection_congr hocc
  have hcomp : (m.compute { s with external := some (d, ext'), runtime := some rt' } e2 st').1 =
      (m.compute s e2 st).1 := by
    rw [compute_ready hF.ready hx hrt,
      compute_ready (ready_congr hF.ready _ _) (d := d) (ext := ext') rfl (rt := rt') rfl]
    simp only [hpre]
    cases changesPre s e2 st.occ with
    | error x => rfl
    | ok changes =>
      simp only
      split
      · rfl
      · cases hfn : m.computeFn with
        | none => rfl
        | some fn =>
          simp only
          rw [hloc fn rt' rt ext' ext changes e2 st' st hfn (commit_length c2) hext hocc]
  simp only [Composite.rateModel, Composite.computeProbability, hdir]
  cases eventDirection st.occ e2 with
  | error x => rfl
  | ok dd =>
    simp only
    split
    · rfl
    · cases kra with
      | none => rfl
      | some kra =>
        simp only [C36_local kra e2 st'.occ st.occ (fun i hi => hocc i (by simp [hi]))]
        cases kra.compute st.occ e2 with
        | error x => rfl
        | ok a =>
          simp only [SiteEnergy.source, SiteSource.model, hcomp]

/-- C70.  With an external calculator that is local in this sense, the rate table is up to date
after construction and every executed history: each entry is the model's rate of its event in the
current state, although only dependent events are recomputed. -/
theorem C70_local_calculator_fresh (k : Kernel ℝ T U) (kra : Option (LCE ℝ)) (m : SiteEnergy Rt T)
    (hd : MappingsAreDicts m) (s0 : SiteEnergyState Rt) (order : Option OrderRef) (kB temp ν : ℝ)
    (lib : EventLib σ φ) (lookup : Option HopStateLookup) (st : State T)
    (sim sim' : Sim σ φ (SiteEnergyState Rt) ℝ T) (history : List (Event × T))
    (hind : IndicesFit st.occ.length lib.events)
    (hdist : SitesDistinct m st.occ.length) (hloc : LocalCalculator m st.occ.length)
    (hinit : Sim.init k ((⟨kra, m.source s0 order⟩ : Composite _ T).rateModel kB temp ν)
      lib.generateEventDependencies lookup (some st) = .ok sim)
    (hfit : ∀ d ext, sim.ms.external = some (d, ext) → ValuesFit m d st.occ)
    (hrun : Executed k ((⟨kra, m.source s0 order⟩ : Composite _ T).rateModel kB temp ν) sim history
      sim') :
    TableFresh k ((⟨kra, m.source s0 order⟩ : Composite _ T).rateModel kB temp ν) sim' := by
  obtain ⟨h1, h2, h3, h4, -, -, h7, hfresh⟩ := init_ok hinit
  have hind' : IndicesFit st.occ.length sim.lib.events :=
    init_indicesFit hinit (by simpa [EventLib.generateEventDependencies] using hind)
  cases h1
  have hdeps : sim.lib.deps =
      some (generateEventDependencyMatrix (sim.lib.events.map Event.sites)) := by
    rw [h2, sites_map_eq h3 h4]
    rfl
  obtain ⟨d, ext, bg, x1, x2, hF⟩ := faithful_init hd hdist (source_init h7) hfit
  refine (executed_fresh_inv sim.lib.events
    (fun ms st' => Faithful m bg ms st' ∧ st'.occ.length = sim.st.occ.length) ?_ rfl hdeps ⟨hF, rfl⟩
    hfresh hrun).2
  intro e st1 st2 dt ms ms' hinv hex ha happ
  obtain ⟨x, hx, hxm⟩ := hex
  have hlen : st2.occ.length = st1.occ.length := by
    have := applyEvent_length st1 e dt
    rw [ha] at this
    exact this
  refine ⟨⟨C40_hop_keeps_picture m hd bg ms ms' st1 st2 e dt hinv.1 ha happ, by rw [hlen, hinv.2]⟩, ?_⟩
  intro e2 he2 hdis
  exact local_calculator_rate hd hloc hinv.2 hinv.1 ha happ
    (fun i hi => (hind' x hx i (by rw [← hxm] at hi; simp [hi])).1)
    (fun i hi => (hind' e2 he2 i hi).1) hdis

end fresh

/-- An energy of the first external site, whatever the event. -/
def farEnergy : List ExtVal → ℝ
  | .int 0 :: _ => 0
  | _ => 1

/-- A calculator that looks at the first external site for every event. -/
noncomputable def farModel : SiteEnergy Unit EReal where
  units := .meV
  makeRuntime := .ok ()
  computeFn := some fun _ ext _ _ _ => .ok (.number (farEnergy ext))

/-- C70, the other way round.  With a calculator that looks further than the sites listed by the
event (as a full-lattice or electrostatic calculator does), one hop leaves a rate in the table
that the model no longer gives, with freshly generated dependencies and no error, for every
random number and arithmetic kernel. -/
theorem C70_far_calculator_stale (k : Kernel ℝ EReal Unit) :
    ∃ (lib : EventLib Unit Unit) (st : State EReal)
      (s0 s : Sim Unit Unit (SiteEnergyState Unit) ℝ EReal) (e : Event),
      IndicesFit st.occ.length lib.events ∧ SitesDistinct farModel st.occ.length ∧
      Sim.init k ((⟨some (constantExpansion 0), farModel.source {} none⟩ :
        Composite _ EReal).rateModel 1 1 1) lib.generateEventDependencies none (some st) = .ok s0 ∧
      s0.update k ((⟨some (constantExpansion 0), farModel.source {} none⟩ :
        Composite _ EReal).rateModel 1 1 1) e 1 = (.ok (), s) ∧
      ¬ TableFresh k ((⟨some (constantExpansion 0), farModel.source {} none⟩ :
        Composite _ EReal).rateModel 1 1 1) s := by
  let lib : EventLib Unit Unit := ({} : EventLib Unit Unit).addAll
    [plainEvent 0 1 [], plainEvent 2 3 []]
  have hdeps : lib.generateEventDependencies = { lib with deps := some [[0], [1]] } := by
    simp [EventLib.generateEventDependencies, generateEventDependencyMatrix, lib, EventLib.addAll,
      EventLib.addEvent, Event.sites, npSort, List.mergeSort, List.MergeSort.Internal.splitInTwo,
      arraysIntersect, List.zipIdx, plainEvent]
  let r (x : ℝ) : ℝ := 1 * Real.exp (-((0 + 0) + (x * 1) / 2) / (1 * 1))
  let ms0 : SiteEnergyState Unit := (farModel.initializeState {} [0, 1, 0, 1] none none).2
  let ms1 : SiteEnergyState Unit := { ms0 with
    external := some (.int64, [.int 1, .int 0, .int 0, .int 1]) }
  refine ⟨lib, ⟨[0, 1, 0, 1], 0, 0⟩,
    ⟨lib.generateEventDependencies, ⟨[0, 1, 0, 1], 0, 0⟩, ms0, [r 0, r 0], k.cumsum [r 0, r 0]⟩,
    ⟨lib.generateEventDependencies, ⟨[1, 0, 0, 1], 0 + 1, 1⟩, ms1, [r 1, r 0], k.cumsum [r 1, r 0]⟩,
    plainEvent 0 1 [], ?_, ?_, rfl, ?_, ?_⟩
  · intro e he i hi
    have : e = plainEvent 0 1 [] ∨ e = plainEvent 2 3 [] := by
      simpa [lib, EventLib.addAll_events] using he
    rcases this with rfl | rfl <;> simp [plainEvent] at hi <;> rcases hi with rfl | rfl <;> simp
  · intro i j _ _ h
    simpa [extSite, farModel] using h
  · simp only [hdeps]; rfl
  · intro hf
    obtain ⟨p, hp, hc⟩ := hf.fresh 1 (plainEvent 2 3 []) rfl
    simp only [List.getElem?_cons_succ, List.getElem?_cons_zero, Option.some.injEq] at hp
    subst hp
    have h1 : ((⟨some (constantExpansion 0), farModel.source {} none⟩ :
        Composite _ EReal).rateModel 1 1 1).computeProbability ms1 (plainEvent 2 3 [])
        ⟨[1, 0, 0, 1], 0 + 1, 1⟩ = .ok (r 1) := rfl
    have hc' := h1.symm.trans hc
    have : r 1 = r 0 := Except.ok.inj hc'
    simp only [r, one_mul, mul_one, div_one, Real.exp_eq_exp] at this
    norm_num at this

/-! ### Units -/

/-- C40.  A calculator giving `x` eV and one giving `1000 x` meV are the same model. -/
theorem C40_units (x : ℝ) :
    (RawEnergy.number x).toMeV .eV = (RawEnergy.number (1000 * x)).toMeV .meV := by
  simp [RawEnergy.toMeV, EnergyUnit.factor, mul_comm]

/-! ### Concrete models -/

/-- The energy of the example: 1 if a lithium sits on external site 2. -/
noncomputable def lithiumEnergy (l : List ExtVal) : ℝ :=
  if (l.map ExtVal.key)[2]? = some (.inr "Li") then 1 else 0

/-- Two active sites on an external lattice of four, in the other order, with element names. -/
noncomputable def lithiumModel : SiteEnergy Unit EReal where
  siteMapping := some [(0, 2), (1, 0)]
  stateMapping := some [(0, .obj "Li"), (1, .obj "Va")]
  externalSize := some 4
  fillValue := .obj "O"
  units := .meV
  makeRuntime := .ok ()
  computeFn := some fun _ ext cs _ _ => .ok (.number (lithiumEnergy (withChanges ext cs) - lithiumEnergy ext))

theorem lithium_energy_of_values : EnergyOfValues lithiumEnergy := by
  intro a b h
  have : a.map ExtVal.key = b.map ExtVal.key := by
    apply List.ext_getElem (by simp [h.1])
    intro p h1 h2
    simp only [List.getElem_map]
    exact h.2 p _ _ (List.getElem?_eq_getElem (by simpa using h1))
      (List.getElem?_eq_getElem (by simpa using h2))
  rw [lithiumEnergy, lithiumEnergy, this]

theorem lithium_differences : ReturnsDifference lithiumModel lithiumEnergy := by
  intro fn rt ext changes e st x hfn h
  simp only [lithiumModel, Option.some.injEq] at hfn
  subst hfn
  simp only [Except.ok.injEq, RawEnergy.number.injEq] at h
  subst h
  simp [lithiumModel, EnergyUnit.factor]

theorem lithium_dicts : MappingsAreDicts lithiumModel := by
  constructor
  · intro d hd
    simp only [lithiumModel, Option.some.injEq] at hd
    subst hd
    decide
  · intro ds hds
    cases hds

theorem lithium_distinct : SitesDistinct lithiumModel 2 := by
  intro i j hi hj h
  have hi' : i = 0 ∨ i = 1 := by omega
  have hj' : j = 0 ∨ j = 1 := by omega
  rcases hi' with rfl | rfl <;> rcases hj' with rfl | rfl
  · rfl
  · exact absurd h (by decide)
  · exact absurd h (by decide)
  · rfl

/-- The example starts: the external lattice shows vacancy, oxygen, lithium, oxygen. -/
theorem lithium_start : ∃ s, lithiumModel.initializeState {} [0, 1] (some [plainEvent 0 1 []]) none =
    (.ok (), s) ∧ s.external = some (.object, [.obj "Va", .obj "O", .obj "Li", .obj "O"]) :=
  ⟨_, rfl, rfl⟩

/-- A model bound to an order of two sites takes that order again and no other. -/
example : (∃ s, lithiumModel.initializeState { orderHash := some "a" } [0, 1] none (some ⟨2, "a"⟩) = (.ok (), s)) ∧
    (lithiumModel.initializeState { orderHash := some "a" } [0, 1] none (some ⟨2, "b"⟩)).1 = .error .valueError ∧
    (lithiumModel.initializeState { orderHash := some "a" } [0, 1] none (some ⟨3, "a"⟩)).1 = .error .valueError :=
  ⟨⟨_, rfl⟩, rfl, rfl⟩

/-- The hypotheses of C40, C71 and C39 hold for it: it is faithful after initialisation, its
mapping covers the states, and after the hop it shows lithium, oxygen, vacancy, oxygen. -/
example : ∃ bg s s', Faithful lithiumModel bg s (⟨[0, 1], 0, 0⟩ : State EReal) ∧
    MappingCovers lithiumModel [0, 1] ∧
    lithiumModel.applyEvent s (plainEvent 0 1 []) (⟨[1, 0], 0 + 1, 1⟩ : State EReal) = (.ok (), s') ∧
    s'.external = some (.object, [.obj "Li", .obj "O", .obj "Va", .obj "O"]) ∧
    Faithful lithiumModel bg s' (⟨[1, 0], 0 + 1, 1⟩ : State EReal) := by
  have hfit : ∀ s, lithiumModel.initializeState {} [0, 1] (some [plainEvent 0 1 []]) none = (.ok (), s) →
      ∀ d ext, s.external = some (d, ext) → ValuesFit lithiumModel d [0, 1] := by
    intro s h d ext hx
    exact C40_chosen_type_fits lithiumModel lithium_dicts {} s [0, 1] _ none rfl rfl rfl h d ext hx
  obtain ⟨d, ext, bg, -, -, hF⟩ := faithful_init (st := (⟨[0, 1], 0, 0⟩ : State EReal)) lithium_dicts
    lithium_distinct (s := {}) (s' := (lithiumModel.initializeState {} [0, 1]
      (some [plainEvent 0 1 []]) none).2) (events := some [plainEvent 0 1 []]) (order := none) rfl
      (hfit _ rfl)
  refine ⟨bg, _, _, hF, ?_, rfl, rfl, ?_⟩
  · intro i v hi hv
    simp only [List.mem_cons, List.not_mem_nil, or_false] at hv
    rcases hv with rfl | rfl
    · exact ⟨.obj "Li", rfl⟩
    · exact ⟨.obj "Va", rfl⟩
  · exact C40_hop_keeps_picture lithiumModel lithium_dicts bg _ _ ⟨[0, 1], 0, 0⟩ ⟨[1, 0], 0 + 1, 1⟩
      (plainEvent 0 1 []) 1 hF rfl rfl

/-- A hop of the example with its rates, as in C39. -/
example : ∃ s h y, HopPath ((⟨some (constantExpansion 0), lithiumModel.source {} none⟩ :
    Composite _ EReal).rateModel 1 1 1) (s, (⟨[0, 1], 0, 0⟩ : State EReal)) h y ∧ h.length = 1 := by
  refine ⟨(lithiumModel.initializeState {} [0, 1] (some [plainEvent 0 1 []]) none).2, _, _,
    HopPath.cons (e := plainEvent 0 1 []) (dt := 1) (d := 1) rfl (by decide) rfl rfl rfl rfl
      (HopPath.nil _), rfl⟩

/-- A local calculator: a difference computed from the changes alone. -/
example : LocalCalculator ({ makeRuntime := .ok ()
                             computeFn := some fun _ _ cs _ _ => .ok (.number cs.length) } :
    SiteEnergy Unit EReal) 4 := by
  intro fn rt rt' ext ext' changes e st st' hfn _ _ _
  simp only [Option.some.injEq] at hfn
  subst hfn
  rfl

end KMC
