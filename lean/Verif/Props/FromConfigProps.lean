import Verif.Spec.FromConfig
import Verif.Props.EventProps
import Verif.Props.GeneratorProps
import Verif.Props.ConfigProps
import Verif.Props.ProgressProps
/-
C87: simulations made from a configuration (`KMC.from_config`, `kmcpy.api.run`).
-/
namespace KMC
open Spec FromConfig Config

section
variable {φ M R T U K V Row : Type}

/-- What a successful construction went through. -/
theorem construct_ok [DecidableEq φ] [Zero T] [LE T] [DecidableLE T] {k : Kernel R T U}
    {w : World φ M R T K V} {c : Configuration} {s : Setup} {x : Simulation φ M R T V Row}
    (h : construct k w c s = .ok x) :
    x.setup = s ∧ ∃ template d lib st, OrderOf w s template x.order ∧
      x.order.activeStructure template = .ok x.sites ∧ w.loadModel c = .ok x.model ∧
      w.readEvents s.eventFile = .ok d ∧ EventLib.fromFilePayload d = .ok lib ∧
      lib.validateIndexMetadata x.order = .ok () ∧
      HopStateLookup.fromActiveSiteOrder x.order s.mobile = .ok x.lookup ∧
      initialState w s x.order = .ok st ∧
      Sim.init k x.model lib (some x.lookup) (some st) = .ok x.sim ∧
      ({} : Registry T V Row).configure (w.properties c) = (.ok (), x.registry) := by
  unfold construct at h
  split at h
  · cases h
  rename_i mapping hmap
  split at h
  · cases h
  rename_i template htemp
  split at h
  · cases h
  rename_i order horder
  split at h
  · cases h
  rename_i sites hsites
  split at h
  · cases h
  rename_i model hmodel
  split at h
  · cases h
  rename_i d hd
  split at h
  · cases h
  rename_i lib hlib
  split at h
  · cases h
  rename_i u hval
  split at h
  · cases h
  rename_i lookup hlook
  split at h
  · cases h
  rename_i st hst
  split at h
  · cases h
  rename_i sim hsim
  split at h
  · cases h
  rename_i u' reg hreg
  cases h
  exact ⟨rfl, template, d, lib, st, ⟨mapping, hmap, htemp, horder⟩, hsites, hmodel, hd, hlib, hval, hlook,
    hst, hsim, hreg⟩

theorem fromConfig_ok [DecidableEq φ] [Zero T] [LE T] [DecidableLE T] {k : Kernel R T U}
    {w : World φ M R T K V} {c : Configuration} {x : Simulation φ M R T V Row}
    (h : fromConfig k w c = .ok x) : read c = .ok x.setup ∧ construct k w c x.setup = .ok x := by
  unfold fromConfig at h
  split at h
  · cases h
  · rename_i s hs
    have := (construct_ok h).1
    rw [this]
    exact ⟨hs, h⟩

/-- A construction whose steps all succeed. -/
theorem construct_of [DecidableEq φ] [Zero T] [LE T] [DecidableLE T] {k : Kernel R T U}
    {w : World φ M R T K V} {c : Configuration} {s : Setup} {template : List (LabeledSite String)}
    {order : ActiveSiteOrder String φ} {sites : List (LabeledSite String × Cell)} {model : RateModel M R T}
    {d : EventLib.Dict String φ} {lib : EventLib String φ} {lookup : HopStateLookup} {st : State T}
    {sim : Sim String φ M R T} {reg : Registry T V Row} (h1 : OrderOf w s template order)
    (h2 : order.activeStructure template = .ok sites) (h3 : w.loadModel c = .ok model)
    (h4 : w.readEvents s.eventFile = .ok d) (h5 : EventLib.fromFilePayload d = .ok lib)
    (h6 : lib.validateIndexMetadata order = .ok ())
    (h7 : HopStateLookup.fromActiveSiteOrder order s.mobile = .ok lookup)
    (h8 : initialState w s order = .ok st) (h9 : Sim.init k model lib (some lookup) (some st) = .ok sim)
    (h10 : ({} : Registry T V Row).configure (w.properties c) = (.ok (), reg)) :
    construct k w c s = .ok ⟨s, order, sites, lookup, model, sim, reg⟩ := by
  obtain ⟨mapping, a1, a2, a3⟩ := h1
  simp only [construct, a1, a2, a3, h2, h3, h4, h5, h6, h7, h8, h9, h10]

/-- The initial state as the code finds it. -/
theorem initialState_ok [Zero T] {w : World φ M R T K V} {s : Setup} {o : ActiveSiteOrder String φ}
    {st : State T} (h : initialState w s o = .ok st) :
    (∃ occ v, s.initialOccupations = some occ ∧ o.selectActiveValues occ = .ok v ∧ st = ⟨v, 0, 0⟩) ∨
    (s.initialOccupations = none ∧ s.initialStateFile ≠ "" ∧
      State.fromFile w.files s.initialStateFile (some (s.shape.map Int.toNat)) none (some o) 0 0 = .ok st) := by
  unfold initialState at h
  split at h
  · rename_i occ hocc
    simp only [State.fromOccupations] at h
    split at h
    · cases h
    · rename_i v hv
      cases h
      exact .inl ⟨occ, v, hocc, hv, rfl⟩
  · rename_i hocc
    split at h
    · rename_i hf
      exact .inr ⟨hocc, hf, h⟩
    · cases h

/-- Values selected for the active sites are as many as there are active sites. -/
theorem selected_length {eqv : String → String → Bool}
    {fp : Nat → Nat → List Nat → List Nat → List Nat → Nat × Nat × Nat → List String →
      List (List String) → φ} {template : List String} {mapping : List (String × List String)}
    {shape : Option (List Int)} {o : ActiveSiteOrder String φ}
    (h : ActiveSiteOrder.fromStructureAndMapping eqv fp template mapping shape = .ok o)
    {occ v : List Int} (hv : o.selectActiveValues occ = .ok v) : v.length = o.activeSiteCount := by
  obtain ⟨h1, h2, h3⟩ := C41_select_active_values h occ
  by_cases ha : occ.length = o.activeSiteCount
  · rw [h1 ha] at hv
    cases hv
    exact ha
  · by_cases hb : occ.length = o.originalSiteCount
    · obtain ⟨vs, e1, e2, -⟩ := h2 hb
      rw [e1] at hv
      cases hv
      exact e2
    · rw [h3 ha hb] at hv
      cases hv

/-- An initial state that does not come from an HDF5 file has one entry per active site. -/
theorem initialState_length [Zero T] {w : World φ M R T K V} {s : Setup} {o : ActiveSiteOrder String φ}
    {template : List (LabeledSite String)} (ho : OrderOf w s template o)
    {st : State T} (h : initialState w s o = .ok st)
    (h5 : s.initialOccupations = none → ¬ IsH5 s.initialStateFile) : st.occ.length = o.activeSiteCount := by
  obtain ⟨mapping, -, -, ho⟩ := ho
  rcases initialState_ok h with ⟨occ, v, -, hv, rfl⟩ | ⟨hn, -, hf⟩
  · exact selected_length ho hv
  · have h5 := h5 hn
    unfold State.fromFile at hf
    split at hf
    · split at hf
      · rename_i hend
        exfalso
        apply h5
        simp only [endsWith, List.isSuffixOf_iff_suffix] at hend
        obtain ⟨stem, hstem⟩ := hend
        exact ⟨stem, hstem.symm⟩
      · cases hf
    · split at hf
      · cases hf
      · split at hf
        · cases hf
        · rename_i p hp
          unfold State.fromPayload at hf
          split at hf
          · rename_i occ hocc
            simp only [State.fromOccupations] at hf
            split at hf
            · cases hf
            · rename_i v hv
              cases hf
              exact selected_length ho hv
          · split at hf
            · rename_i raw hraw
              simp only at hf
              split at hf
              · cases hf
              · rename_i v hv
                cases hf
                unfold State.initialOccupationActive at hv
                split at hv
                · rename_i hl
                  cases hv
                  exact hl
                · exact selected_length ho hv
            · cases hf
        · cases hf

/-- The active structure has one site per active site. -/
theorem sites_length {eqv : String → String → Bool}
    {fp : Nat → Nat → List Nat → List Nat → List Nat → Nat × Nat × Nat → List String →
      List (List String) → φ} {template : List (LabeledSite String)} {mapping : List (String × List String)}
    {shape : Option (List Int)} {o : ActiveSiteOrder String φ}
    (h : ActiveSiteOrder.fromStructureAndMapping eqv fp (template.map LabeledSite.species) mapping shape =
      .ok o) {sites : List (LabeledSite String × Cell)} (hs : o.activeStructure template = .ok sites) :
    ∃ full, fullStructure template o.supercellShape = .ok full ∧
      full.length = o.originalSiteCount ∧ sites.length = o.activeSiteCount ∧
      ∀ (n i : Nat), o.activeToOriginal[n]? = some i → sites[n]? = full[i]? := by
  unfold ActiveSiteOrder.activeStructure at hs
  split at hs
  · cases hs
  · rename_i full hfull
    refine ⟨full, hfull, ?_⟩
    have hl : full.length = o.originalSiteCount := by
      rw [(C41_numbering h).1]
      unfold fullStructure makeKmcSupercell at hfull
      simp only at hfull
      split at hfull
      · cases hfull
      · cases hfull
        simp [latticePoints, cellCount, Nat.mul_assoc]
    obtain ⟨h1, h2⟩ := (pickAll_ok_iff _ _ _).1 hs
    refine ⟨hl, h1, ?_⟩
    intro n i hn
    obtain ⟨v, e1, e2⟩ := h2 n i hn
    rw [e1, e2]

/-- What reading a configuration found. -/
theorem read_ok {c : Configuration} {s : Setup} (h : read c = .ok s) :
    ∃ f r, c = ⟨.cfg f, .cfg r⟩ ∧ readStr (field f "structure_file") = .ok s.structureFile ∧
      readOptMapping (field f "site_mapping") = .ok s.siteMapping ∧
      readInts (field f "supercell_shape") = .ok s.shape ∧
      readStr (field f "event_file") = .ok s.eventFile ∧
      readStr (field f "mobile_ion_specie") = .ok s.mobile ∧
      readOptInts (field f "initial_occupations") = .ok s.initialOccupations ∧
      readPath (field f "initial_state_file") = .ok s.initialStateFile ∧
      readCount (field r "equilibration_passes") = .ok s.equilibrationPasses ∧
      readCount (field r "kmc_passes") = .ok s.kmcPasses := by
  obtain ⟨sys, run⟩ := c
  unfold FromConfig.read at h
  split at h
  · rename_i f r hf hr
    simp only at hf hr
    subst hf hr
    split at h
    · rename_i h1 h2 h3 h4 h5 h6 h7 h8 h9
      cases h
      exact ⟨f, r, rfl, h1, h2, h3, h4, h5, h6, h7, h8, h9⟩
    · cases h
  · cases h

/-- The value of a system field. -/
theorem field_of_valueOf {f r : Fields} {k : String} {v : PyVal}
    (h : valueOf ⟨.cfg f, .cfg r⟩ k = some v) : field f k = v ∨ dictGet f k = none := by
  simp only [valueOf] at h
  cases hd : dictGet f k with
  | none => exact .inr rfl
  | some u =>
    rw [hd] at h
    cases h
    exact .inl (by simp [field, hd])

/-! ### C87 -/

/-- C87.  In a simulation made from a configuration, structure, hop states, events and initial state use one
numbering: that of the active sites of the configuration's structure, mapping and supercell.  Every site an
event names is a site of the structure, and the state has one entry per site (unless it was read from an HDF5
file, see below). -/
theorem C87_one_numbering [DecidableEq φ] [Zero T] [LE T] [DecidableLE T] {k : Kernel R T U}
    {w : World φ M R T K V} {c : Configuration} {x : Simulation φ M R T V Row}
    (h : fromConfig k w c = .ok x) :
    ∃ template, OrderOf w x.setup template x.order ∧ x.order.activeStructure template = .ok x.sites ∧
      x.sites ≠ [] ∧
      x.lookup.mobileStateBySite.length = x.sites.length ∧
      x.lookup.vacancyStateBySite.length = x.sites.length ∧
      (∀ e ∈ x.sim.lib.events, ∀ i ∈ e.mobile ++ e.env, 0 ≤ i ∧ i < (x.sites.length : Int)) ∧
      ((x.setup.initialOccupations = none → ¬ IsH5 x.setup.initialStateFile) →
        x.sim.st.occ.length = x.sites.length) := by
  obtain ⟨-, hc⟩ := fromConfig_ok h
  obtain ⟨-, template, d, lib, st, ho, ha, hm, hd, hl, hv, hk, hst, hsim, hreg⟩ := construct_ok hc
  obtain ⟨mapping, hmap, htemp, ho'⟩ := ho
  obtain ⟨full, -, -, hlen, -⟩ := sites_length ho' ha
  obtain ⟨-, -, -, -, -, c6, c7⟩ := C41_numbering ho'
  obtain ⟨l1, l2, -⟩ := lookup_spec hk
  obtain ⟨i1, -, i3, i4, -⟩ := init_ok hsim
  have hcount : x.order.activeToPrimitive.length = x.sites.length := by
    rw [c6, hlen, List.length_map]; rfl
  refine ⟨template, ⟨mapping, hmap, htemp, ho'⟩, ha, ?_, l1.trans hcount, l2.trans hcount, ?_, ?_⟩
  · intro hnil
    rw [hnil] at hlen
    exact c7 (List.length_eq_zero_iff.1 hlen.symm)
  · have hval : EventLib.validateEventIndices x.order lib.events = .ok () := by
      unfold EventLib.validateIndexMetadata at hv
      split at hv
      · cases hv
      · split at hv
        · cases hv
        · exact hv
    rcases validateEventIndices_cases x.order lib.events with ⟨-, hv'⟩ | ⟨hv', -⟩
    · intro e he i hi
      obtain ⟨n, hn⟩ := List.getElem?_of_mem he
      have e3 := congrArg (·[n]?) i3
      have e4 := congrArg (·[n]?) i4
      simp only [List.getElem?_map, hn, Option.map_some] at e3 e4
      cases hb : lib.events[n]? with
      | none => rw [hb] at e3; cases e3
      | some b =>
        rw [hb] at e3 e4
        simp only [Option.map_some, Option.some.injEq] at e3 e4
        have := hv' b (List.mem_of_getElem? hb) i (by rw [Event.sites, ← e3, ← e4]; exact hi)
        rw [hlen]
        exact this
    · rw [hval] at hv'; cases hv'
  · intro h5
    have := initialState_length ⟨mapping, hmap, htemp, ho'⟩ hst h5
    cases i1
    rw [this, hlen]

/-- C87.  An event library is only used with the order of sites it was made for: if the digest has no
collisions, a library recorded for another structure, mapping or supercell, with another resulting order, is
refused; so is a library that does not record an order. -/
theorem C87_foreign_library_refused [DecidableEq φ] [Zero T] [LE T] [DecidableLE T] {k : Kernel R T U}
    {w : World φ M R T K V} (hfp : NoCollisions w.fp) {c : Configuration} {x : Simulation φ M R T V Row}
    (h : fromConfig k w c = .ok x) {d : EventLib.Dict String φ}
    (hd : w.readEvents x.setup.eventFile = .ok d) :
    d.indexMetadata ≠ none ∧
    ∀ {eqv' : String → String → Bool} {template' : List String} {mapping' : List (String × List String)}
      {shape' : Option (List Int)} {o' : ActiveSiteOrder String φ},
      ActiveSiteOrder.fromStructureAndMapping eqv' w.fp template' mapping' shape' = .ok o' →
      d.indexMetadata = some o'.asDict → o' = x.order := by
  obtain ⟨-, hc⟩ := fromConfig_ok h
  obtain ⟨-, template, d', lib, st, ⟨mapping, -, -, ho⟩, -, -, hd', hl, hv, -, -, -, -⟩ := construct_ok hc
  rw [hd] at hd'
  cases hd'
  have hmeta : ∃ m, d.indexMetadata = some m ∧ lib.meta? = some m := by
    unfold EventLib.fromFilePayload at hl
    split at hl
    · cases hl
    · rename_i lib0 h0
      have : ∃ m, d.indexMetadata = some m ∧ lib0.meta? = some m := by
        unfold EventLib.fromDict at h0
        split at h0
        · cases h0
        · rename_i m hm
          split at h0
          · cases h0
          · simp only at h0
            split at h0
            · cases h0
            · split at h0
              · cases h0
              · cases h0
                exact ⟨m, hm, rfl⟩
      split at hl <;> cases hl
      · exact this
      · exact this
  obtain ⟨m, hm1, hm2⟩ := hmeta
  refine ⟨by rw [hm1]; simp, ?_⟩
  intro eqv' template' mapping' shape' o' ho' hm'
  rw [hm1] at hm'
  cases hm'
  simp only [EventLib.validateIndexMetadata, hm2] at hv
  split at hv
  · cases hv
  · rename_i u hu
    exact ((C62_same_order_iff_equal hfp ho ho').1.1 hu).symm

/-- C87.  Without a site mapping no simulation is made, whatever the files contain. -/
theorem C87_mapping_required [DecidableEq φ] [Zero T] [LE T] [DecidableLE T] (k : Kernel R T U)
    (w : World φ M R T K V) {c : Configuration} (hm : valueOf c "site_mapping" = some .none) :
    ∃ e, (fromConfig k w c : Py (Simulation φ M R T V Row)) = .error e := by
  cases h : (fromConfig k w c : Py (Simulation φ M R T V Row)) with
  | error e => exact ⟨e, rfl⟩
  | ok x =>
    exfalso
    obtain ⟨hr, hc⟩ := fromConfig_ok h
    obtain ⟨-, template, d, lib, st, ⟨mapping, hmap, -⟩, -⟩ := construct_ok hc
    obtain ⟨f, r, rfl, -, h2, -⟩ := read_ok hr
    have hf : field f "site_mapping" = .none := by
      rcases field_of_valueOf hm with h | h
      · exact h
      · simp [field, h]
    rw [hf, hmap] at h2
    cases h2

/-- C87.  Without initial occupations and without a state file no simulation is made. -/
theorem C87_initial_state_required [DecidableEq φ] [Zero T] [LE T] [DecidableLE T] (k : Kernel R T U)
    (w : World φ M R T K V) {c : Configuration} (hocc : valueOf c "initial_occupations" = some .none)
    (hfile : valueOf c "initial_state_file" = some .none ∨ valueOf c "initial_state_file" = some (.str "")) :
    ∃ e, (fromConfig k w c : Py (Simulation φ M R T V Row)) = .error e := by
  cases h : (fromConfig k w c : Py (Simulation φ M R T V Row)) with
  | error e => exact ⟨e, rfl⟩
  | ok x =>
    exfalso
    obtain ⟨hr, hc⟩ := fromConfig_ok h
    obtain ⟨-, template, d, lib, st, -, -, -, -, -, -, -, hst, -⟩ := construct_ok hc
    obtain ⟨f, r, rfl, -, -, -, -, -, h6, h7, -⟩ := read_ok hr
    have hf : field f "initial_occupations" = .none := by
      rcases field_of_valueOf hocc with h | h
      · exact h
      · simp [field, h]
    have hp : x.setup.initialStateFile = "" := by
      have : field f "initial_state_file" = .none ∨ field f "initial_state_file" = .str "" := by
        rcases hfile with hfile | hfile <;> rcases field_of_valueOf hfile with h | h
        · exact .inl h
        · exact .inl (by simp [field, h])
        · exact .inr h
        · exact .inl (by simp [field, h])
      rcases this with h | h <;> rw [h] at h7 <;> exact (Except.ok.inj h7).symm
    have hn : x.setup.initialOccupations = none := by
      rw [hf] at h6
      exact (Except.ok.inj h6).symm
    rcases initialState_ok hst with ⟨occ, v, ho, -⟩ | ⟨-, hne, -⟩
    · rw [hn] at ho; cases ho
    · exact hne hp

/-- C87.  Listed initial occupations are used whether or not a state file is given as well: entry for entry
when there is one per active site, and when there is one per site of the full supercell each active site gets
the entry of the site it is.  The clock and the step counter start at zero.  Lists of other lengths are
refused. -/
theorem C87_occupations_win [DecidableEq φ] [Zero T] [LE T] [DecidableLE T] {k : Kernel R T U}
    {w : World φ M R T K V} {c : Configuration} {x : Simulation φ M R T V Row}
    (h : fromConfig k w c = .ok x) {occ : List Int} (hocc : x.setup.initialOccupations = some occ) :
    x.sim.st.time = 0 ∧ x.sim.st.step = 0 ∧
    ∃ template full, OrderOf w x.setup template x.order ∧
      fullStructure template x.order.supercellShape = .ok full ∧
      ((occ.length = x.sites.length ∧ x.sim.st.occ = occ) ∨
       (occ.length = full.length ∧ x.sim.st.occ.length = x.sites.length ∧
        ∀ (n : Nat), n < x.sites.length → ∃ i : Nat, x.order.activeToOriginal[n]? = some i ∧
          x.sites[n]? = full[i]? ∧ x.sim.st.occ[n]? = occ[i]?)) := by
  obtain ⟨-, hc⟩ := fromConfig_ok h
  obtain ⟨-, template, d, lib, st, ⟨mapping, hmap, htemp, ho⟩, ha, hm, hd, hl, hv, hk, hst, hsim, hreg⟩ :=
    construct_ok hc
  obtain ⟨full, hfull, hflen, hlen, hsites⟩ := sites_length ho ha
  obtain ⟨i1, -⟩ := init_ok hsim
  cases i1
  rcases initialState_ok hst with ⟨occ', v, ho', hv', hs⟩ | ⟨hn, -⟩
  · rw [hocc] at ho'
    cases ho'
    refine ⟨by rw [hs], by rw [hs], template, full, ⟨mapping, hmap, htemp, ho⟩, hfull, ?_⟩
    obtain ⟨h1, h2, h3⟩ := C41_select_active_values ho occ
    by_cases ha' : occ.length = x.order.activeSiteCount
    · rw [h1 ha'] at hv'
      cases hv'
      exact .inl ⟨by rw [ha', hlen], by rw [hs]⟩
    · by_cases hb : occ.length = x.order.originalSiteCount
      · obtain ⟨vs, e1, e2, e3⟩ := h2 hb
        rw [e1] at hv'
        cases hv'
        refine .inr ⟨by rw [hb, hflen], by rw [hs, hlen]; exact e2, ?_⟩
        intro n hn
        have hn' : n < x.order.activeToOriginal.length := by rw [hlen] at hn; exact hn
        refine ⟨x.order.activeToOriginal[n], List.getElem?_eq_getElem hn',
          hsites n _ (List.getElem?_eq_getElem hn'), ?_⟩
        rw [hs]
        exact e3 n _ (List.getElem?_eq_getElem hn')
      · rw [h3 ha' hb] at hv'
        cases hv'
  · rw [hocc] at hn; cases hn

/-- C87, disagreement.  A state in an HDF5 file is taken as it is: its number of entries is not compared with
the number of sites. -/
theorem C87_h5_state_unchecked [DecidableEq φ] [Zero T] [LE T] [DecidableLE T] {k : Kernel R T U}
    {w : World φ M R T K V} {c : Configuration} {x : Simulation φ M R T V Row}
    (h : fromConfig k w c = .ok x) (hocc : x.setup.initialOccupations = none)
    {d : State.Dict T} (hf : w.files x.setup.initialStateFile = some (.h5 d)) :
    x.sim.st = ⟨d.occupations, d.time, d.step⟩ := by
  obtain ⟨-, hc⟩ := fromConfig_ok h
  obtain ⟨-, template, d', lib, st, -, ha, hm, hd, hl, hv, hk, hst, hsim, hreg⟩ := construct_ok hc
  obtain ⟨i1, -⟩ := init_ok hsim
  cases i1
  rcases initialState_ok hst with ⟨occ', v, ho', hv', hs⟩ | ⟨-, -, hs⟩
  · rw [hocc] at ho'; cases ho'
  · unfold State.fromFile at hs
    split at hs
    · split at hs
      · simp only [State.loadH5, hf, Except.ok.injEq] at hs
        exact hs.symm
      · cases hs
    · split at hs
      · cases hs
      · rw [hf] at hs
        simp only at hs
        cases hs

/-- C87.  `kmcpy.run` accepts nothing but a configuration. -/
theorem C87_only_configurations [DecidableEq φ] [Add T] [Zero T] [Sub T] [LE T] [DecidableLE T] [Field K]
    [LinearOrder K] [FloorRing K] (k : Kernel R T U) (w : World φ M R T K V)
    (summary : Trajectory K → T → List (String × Bool) → Row) (rng : Nat → U × U) :
    apiRun k w summary rng .other = .error .typeError := rfl

theorem containsText_iff (a b : String) : containsText a b = true ↔ OccursIn a b := by
  simp only [containsText, List.any_eq_true, List.mem_tails, List.isPrefixOf_iff_prefix, OccursIn]
  constructor
  · rintro ⟨t, ⟨pre, h1⟩, post, h2⟩
    exact ⟨pre, post, by rw [← h1, ← h2, List.append_assoc]⟩
  · rintro ⟨pre, post, h⟩
    exact ⟨a.toList ++ post, ⟨pre, by rw [h, List.append_assoc]⟩, post, rfl⟩

open Classical in
/-- C87.  A pass has one step for each site whose element symbol contains the name of the mobile species. -/
theorem C87_steps_per_pass (w : World φ M R T K V) (x : Simulation φ M R T V Row) :
    x.stepsPerPass w =
      (x.sites.filter fun p => decide (OccursIn x.setup.mobile (w.symbol p.1.species))).length := by
  simp only [Simulation.stepsPerPass, passLength, List.filter_map, List.length_map]
  congr 1
  apply List.filter_congr
  intro p _
  simp only [Function.comp]
  rw [Bool.eq_iff_iff, containsText_iff]
  simp

theorem readCount_roundedUp {v : PyVal} {n : Nat} (h : readCount v = .ok n) :
    ∃ q, NumberOf v q ∧ RoundedUp q n := by
  have hint : ∀ z : Int, RoundedUp (z : ℚ) z.toNat := fun z =>
    ⟨by exact_mod_cast Int.self_le_toNat z, fun m hm => by
      have : z ≤ (m : Int) := by exact_mod_cast hm
      omega⟩
  unfold readCount at h
  split at h
  · cases h; exact ⟨_, .ofInt _, hint _⟩
  · rename_i b
    cases h
    cases b
    · exact ⟨_, .ofFalse, by simpa using hint 0⟩
    · exact ⟨_, .ofTrue, by simpa using hint 1⟩
  · rename_i q
    cases h
    refine ⟨q, .ofFloat q, ?_, fun m hm => ?_⟩
    · exact (Int.le_ceil q).trans (by exact_mod_cast Int.self_le_toNat _)
    · have : ⌈q⌉ ≤ (m : Int) := Int.ceil_le.2 (by exact_mod_cast hm)
      omega
  · cases h
  · cases h

/-- C87.  A completed run takes as many steps per pass as said above, for the numbers of equilibration and
production passes of the configuration, rounded up; and there is at least one production pass.  The equilibration
steps come first and use the first random numbers; time is the sum of the waiting times of the production steps. -/
theorem C87_number_of_passes [DecidableEq φ] [AddMonoid T] [Sub T] [LE T] [DecidableLE T] [Field K]
    [LinearOrder K] [FloorRing K] {k : Kernel R T U} {w : World φ M R T K V}
    {summary : Trajectory K → T → List (String × Bool) → Row} {rng : Nat → U × U} {c : Configuration}
    (hb : Built c) {x : Simulation φ M R T V Row} (hx : fromConfig k w c = .ok x)
    {r : RunResult String φ M R T K V Row} (h : apiRun k w summary rng (.configuration c) = .ok r) :
    ∃ (v v' : PyVal) (q q' : ℚ) (equil prod : Nat),
      valueOf c "equilibration_passes" = some v ∧ NumberOf v q ∧ RoundedUp q equil ∧
      valueOf c "kmc_passes" = some v' ∧ NumberOf v' q' ∧ RoundedUp q' prod ∧ 1 ≤ prod ∧
      r.sim.st.step = x.sim.st.step + ((equil + prod) * x.stepsPerPass w : Nat) ∧
      ∃ mid before during, before.length = equil * x.stepsPerPass w ∧ during.length = prod * x.stepsPerPass w ∧
        Steps k x.model rng false 0 x.sim before mid ∧
        Steps k x.model rng true (equil * x.stepsPerPass w) mid during r.sim ∧
        r.sim.st.time = during.foldl (fun t p => t + p.2) x.sim.st.time := by
  obtain ⟨s, f, rfl, hs, hf⟩ := C28_built_valid_partial hb
  obtain ⟨hr, -⟩ := fromConfig_ok hx
  obtain ⟨f', r', e, -, -, -, -, -, -, -, h8, h9⟩ := read_ok hr
  cases e
  obtain ⟨v, hv, -⟩ := hf.equilibration
  obtain ⟨v', hv', hpos⟩ := hf.passes
  simp only [field, hv, hv', Option.getD_some] at h8 h9
  obtain ⟨q, hq, hn⟩ := readCount_roundedUp h8
  obtain ⟨q', hq', hn'⟩ := readCount_roundedUp h9
  have hnone : ∀ key ∉ systemFields, dictGet s key = none := fun key hk => by
    rw [← hs.keys] at hk
    exact (dictGet_eq_none_iff _ _).2 hk
  refine ⟨v, v', q, q', _, _, ?_, hq, hn, ?_, hq', hn', ?_, ?_⟩
  · simp only [valueOf, hnone "equilibration_passes" (by decide), hv]
  · simp only [valueOf, hnone "kmc_passes" (by decide), hv']
  · have : 0 < q' := by
      cases hq' with
      | ofTrue => norm_num
      | ofFalse => rcases hpos with h | h <;> cases h
      | ofInt n => rcases hpos with h | h <;> cases h <;> rename_i h; exact_mod_cast h
      | ofFloat q => rcases hpos with h | h <;> cases h; assumption
    have h0 : (0 : ℚ) < x.setup.kmcPasses := this.trans_le hn'.1
    exact_mod_cast h0
  · simp only [apiRun, hx] at h
    split at h
    · cases h
    · rename_i u hu
      cases h
      obtain ⟨mid, before, during, hb, hd, hb', hd', hstep, htime⟩ :=
        C06_run_accounting (fun t => add_zero t) k _ _ _ _ _ _ _ _ _ _ hu
      exact ⟨hstep, mid, before, during, hb, hd, hb', hd', htime⟩

/-- C87.  `kmcpy.run` returns only runs that ended well; the exception of a run that did not is passed on. -/
theorem C87_failed_run_raises [DecidableEq φ] [Add T] [Zero T] [Sub T] [LE T] [DecidableLE T] [Field K]
    [LinearOrder K] [FloorRing K] {k : Kernel R T U} {w : World φ M R T K V}
    {summary : Trajectory K → T → List (String × Bool) → Row} {rng : Nat → U × U} {c : Configuration}
    {x : Simulation φ M R T V Row} (hx : fromConfig k w c = .ok x) :
    (∀ e, (x.run k w summary rng).outcome = .error e → apiRun k w summary rng (.configuration c) = .error e) ∧
    (∀ r, apiRun k w summary rng (.configuration c) = .ok r → r.outcome = .ok () ∧ r = x.run k w summary rng) := by
  constructor
  · intro e he
    simp only [apiRun, hx, he]
  · intro r hr
    simp only [apiRun, hx] at hr
    split at hr
    · cases hr
    · rename_i u hu
      cases hr
      exact ⟨hu, rfl⟩

/-- C87, disagreement.  Sites of another element are counted when its symbol contains the name of the mobile
species: iron and francium sites count as fluorine sites. -/
theorem C87_pass_counts_other_elements : passLength containsText "F" ["F", "Fe", "Fr", "O"] = 3 := by
  decide

/-! ### Generated libraries -/

theorem eventLoop_codes {γ σ : Type} {sites : List (LabeledSite σ × Cell)} {index : List (SiteKey × Nat)}
    {shape : Cell} {isTarget : LabeledSite σ → Bool} {envInfo : List (Int × List (Neighbor γ))} :
    ∀ {l : List Nat} {events : List Event}, eventLoop sites index shape isTarget envInfo l = .ok events →
      ∀ e ∈ events, e.codes = none := by
  intro l
  induction l with
  | nil => intro events h e he; cases h; cases he
  | cons i is ih =>
    intro events h e he
    unfold eventLoop at h
    split at h
    · cases h
    · split at h
      · cases h
      · split at h
        · cases h
        · split at h
          · cases h
          · rename_i rest hrest
            cases h
            rcases List.mem_append.1 he with he | he
            · simp only [eventsToTargets, List.mem_map] at he
              obtain ⟨t, -, rfl⟩ := he
              rfl
            · exact ih hrest e he

/-- A generated library is what adding its events, generating the dependencies and recording the order
gives. -/
theorem generated_library {σ κ γ : Type} [DecidableEq κ] {eqv : σ → σ → Bool}
    {fp : Nat → Nat → List Nat → List Nat → List Nat → Nat × Nat × Nat → List σ → List (List σ) → φ}
    {signature : List (Neighbor γ) → κ}
    {matcher : List (Neighbor γ) → List (Neighbor γ) → Py (List Nat)}
    {neighbors : Nat → List (Neighbor γ)} {isOrigin isTarget : LabeledSite σ → Bool}
    {template : List (LabeledSite σ)} {mapping : List (σ × List σ)} {shape : Option (List Int)}
    {lib : EventLib σ φ}
    (h : generateEvents eqv fp signature matcher neighbors isOrigin isTarget template mapping shape =
      .ok lib) :
    ∃ order, ActiveSiteOrder.fromStructureAndMapping eqv fp (template.map LabeledSite.species) mapping
        (some (shape.getD [2, 1, 1])) = .ok order ∧
      (∀ e ∈ lib.events, e.codes = none) ∧
      lib = { (({} : EventLib σ φ).addAll lib.events).generateEventDependencies with
        meta? := some order.asDict } := by
  unfold generateEvents at h
  simp only at h
  split at h
  · cases h
  split at h
  · cases h
  rename_i order horder
  split at h
  · cases h
  split at h
  · cases h
  split at h
  · cases h
  split at h
  · cases h
  split at h
  · cases h
  · cases h
  · rename_i events hne hev
    split at h
    · cases h
    · rename_i u lib' hset
      cases h
      simp only [EventLib.setIndexMetadata, Prod.mk.injEq] at hset
      obtain ⟨-, rfl⟩ := hset
      have hevs : (events.foldl EventLib.addEvent ({} : EventLib σ φ)).events = events :=
        C11_events_added events
      refine ⟨order, horder, ?_, ?_⟩
      · intro e he
        simp only [EventLib.generateEventDependencies] at he
        rw [hevs] at he
        exact eventLoop_codes hev e he
      · simp only [EventLib.generateEventDependencies, C11_events_added, hevs]
        rfl

/-- A generated library comes back from its file and is accepted with its order. -/
theorem generated_loads {σ κ γ : Type} [DecidableEq κ] [DecidableEq φ] {eqv : σ → σ → Bool}
    {fp : Nat → Nat → List Nat → List Nat → List Nat → Nat × Nat × Nat → List σ → List (List σ) → φ}
    {signature : List (Neighbor γ) → κ}
    {matcher : List (Neighbor γ) → List (Neighbor γ) → Py (List Nat)}
    {neighbors : Nat → List (Neighbor γ)} {isOrigin isTarget : LabeledSite σ → Bool}
    {template : List (LabeledSite σ)} {mapping : List (σ × List σ)} {shape : List Int}
    {lib : EventLib σ φ} {order : ActiveSiteOrder σ φ}
    (horder : ActiveSiteOrder.fromStructureAndMapping eqv fp (template.map LabeledSite.species) mapping
        (some shape) = .ok order)
    (hgen : generateEvents eqv fp signature matcher neighbors isOrigin isTarget template mapping
      (some shape) = .ok lib) :
    EventLib.fromFilePayload lib.asDict = .ok lib ∧ lib.generateEventDependencies = lib ∧
      lib.validateIndexMetadata order = .ok () := by
  obtain ⟨order', ho', hcodes, hlib⟩ := generated_library hgen
  simp only [Option.getD_some] at ho'
  rw [horder] at ho'
  cases ho'
  have hfit : ∀ e ∈ lib.events, ∀ i ∈ e.mobile ++ e.env, 0 ≤ i ∧ i < (order.activeSiteCount : Int) := by
    obtain ⟨o2, g1, -, g3⟩ := C45_indices_valid hgen
    simp only [Option.getD_some] at g1
    rw [horder] at g1
    cases g1
    exact g3
  have hload : EventLib.fromFilePayload lib.asDict = .ok lib := by
    have := C11_file_round_trip lib.events order hcodes hfit
    simp only at this
    rw [← hlib] at this
    exact this
  have hdeps : lib.generateEventDependencies = lib := by
    rw [hlib]
    rfl
  have hmeta : lib.meta? = some order.asDict := by rw [hlib]
  have hval : lib.validateIndexMetadata order = .ok () := by
    simp only [EventLib.validateIndexMetadata, hmeta, ActiveSiteOrder.assertSameOrder, C41_dict_round_trip,
      ne_eq, not_true, if_false]
    rcases validateEventIndices_cases order lib.events with ⟨h1, -⟩ | ⟨-, h1⟩
    · exact h1
    · exact absurd hfit h1
  exact ⟨hload, hdeps, hval⟩

/-- Properties configured on a new simulation are a sequence of registration calls. -/
theorem configure_plan [Zero T] [LE T] [DecidableLE T] {p : RuntimeProps T V} {reg : Registry T V Row}
    {u : Unit} (h : ({} : Registry T V Row).configure p = (.ok u, reg)) :
    ∃ ops : List (PlanOp T V), reg.plan = planAfter ops := by
  have step : ∀ (ops : List (PlanOp T V)) (op : PlanOp T V), (op.call (planAfter ops)).2 = planAfter (ops ++ [op]) := by
    intro ops op
    simp [planAfter, List.foldl_append]
  have freq : ∀ (r r' : Registry T V Row) i t, r.active = none → (∃ ops, r.plan = planAfter ops) →
      r.setFrequency i t = (.ok (), r') → r'.active = none ∧ ∃ ops, r'.plan = planAfter ops := by
    rintro r r' i t ha ⟨ops, hp⟩ h
    unfold Registry.setFrequency at h
    split at h
    · cases h
    · rename_i u q hq
      rw [ha] at h
      simp only [Prod.mk.injEq, true_and] at h
      subst h
      refine ⟨rfl, ops ++ [.setFrequency i t], ?_⟩
      rw [← step, ← hp]
      simp only [PlanOp.call, hq]
  have flags : ∀ (l : List (String × Bool)) (r r' : Registry T V Row) u, r.active = none →
      (∃ ops, r.plan = planAfter ops) → Registry.enableAll l r = (.ok u, r') →
      r'.active = none ∧ ∃ ops, r'.plan = planAfter ops := by
    intro l
    induction l with
    | nil =>
      intro r r' u ha hp h
      simp only [Registry.enableAll, Prod.mk.injEq] at h
      rw [← h.2]
      exact ⟨ha, hp⟩
    | cons nb rest ih =>
      rintro r r' u ha ⟨ops, hp⟩ h
      obtain ⟨n, b⟩ := nb
      unfold Registry.enableAll at h
      split at h
      · cases h
      · rename_i u' r1 h1
        unfold Registry.setPropertyEnabled at h1
        split at h1
        · cases h1
        · rename_i u q hq
          rw [ha] at h1
          simp only [Prod.mk.injEq, true_and] at h1
          subst h1
          refine ih _ r' _ rfl ⟨ops ++ [.setEnabled n b], ?_⟩ h
          rw [← step, ← hp]
          simp only [PlanOp.call, hq]
  have calls : ∀ (l : List (Py (AttachArgs T V))) (r r' : Registry T V Row) u, r.active = none →
      (∃ ops, r.plan = planAfter ops) → Registry.attachAll l r = (.ok u, r') →
      ∃ ops, r'.plan = planAfter ops := by
    intro l
    induction l with
    | nil =>
      intro r r' u ha hp h
      simp only [Registry.attachAll, Prod.mk.injEq] at h
      rw [← h.2]
      exact hp
    | cons a rest ih =>
      rintro r r' u ha ⟨ops, hp⟩ h
      cases a with
      | error e => simp only [Registry.attachAll, Prod.mk.injEq] at h; cases h.1
      | ok a =>
        simp only [Registry.attachAll] at h
        split at h
        · cases h
        · rename_i u' r1 h1
          unfold Registry.attach at h1
          split at h1
          · cases h1
          · rename_i u q hq
            rw [ha] at h1
            simp only [Prod.mk.injEq] at h1
            obtain ⟨-, h1⟩ := h1
            subst h1
            refine ih _ r' _ rfl ⟨ops ++ [.attach a], ?_⟩ h
            rw [← step, ← hp]
            simp only [PlanOp.call, hq]
  have h0 : ∃ ops : List (PlanOp T V), ({} : Registry T V Row).plan = planAfter ops := ⟨[], rfl⟩
  unfold Registry.configure at h
  simp only at h
  split at h
  · cases h
  · rename_i u1 r1 h1
    have hr1 : r1.active = none ∧ ∃ ops, r1.plan = planAfter ops := by
      split at h1
      · exact freq _ _ _ _ rfl h0 h1
      · simp only [Prod.mk.injEq, true_and] at h1
        rw [← h1]
        exact ⟨rfl, h0⟩
    split at h
    · cases h
    · rename_i u2 r2 h2
      obtain ⟨a2, p2⟩ := flags _ _ _ _ hr1.1 hr1.2 h2
      exact calls _ _ _ _ a2 p2 h

end

section
variable {φ κ γ K V Row : Type} [DecidableEq φ] [DecidableEq κ] [Field K] [LinearOrder K] [FloorRing K]

/-- C87.  From structure to finished run.  Generate an event library for the structure, mapping and supercell
of a configuration and store it where the configuration says.  Then a simulation can be made from the
configuration, provided the configured system is an ordinary hopping system whose model answers and whose
property settings are accepted; and if the events connect the sites of the mobile species, the model gives
possible hops a positive rate and no callback can stop the run, the run completes for all random numbers. -/
theorem C87_generate_then_run {Rd : Rounding} {w : World φ Unit ℝ EReal K V} {c : Configuration} {s : Setup}
    (hread : read c = .ok s) {template : List (LabeledSite String)} {order : ActiveSiteOrder String φ}
    (ho : OrderOf w s template order) {sites : List (LabeledSite String × Cell)}
    (hsites : order.activeStructure template = .ok sites)
    {signature : List (Neighbor γ) → κ} {matcher : List (Neighbor γ) → List (Neighbor γ) → Py (List Nat)}
    {neighbors : Nat → List (Neighbor γ)} {isOrigin isTarget : LabeledSite String → Bool}
    {lib : EventLib String φ} {mapping : List (String × List String)} (hmap : s.siteMapping = some mapping)
    (hgen : generateEvents w.eqv w.fp signature matcher neighbors isOrigin isTarget template
      (mapping.map fun kv => (w.label kv.1, kv.2.map w.label)) (some s.shape) = .ok lib)
    (hfile : w.readEvents s.eventFile = .ok lib.asDict)
    {m : RateModel Unit ℝ EReal} (hmodel : w.loadModel c = .ok m)
    {occ v : List Int} (hocc : s.initialOccupations = some occ) (hv : order.selectActiveValues occ = .ok v)
    {h : HopStateLookup} (hs : HopSystem order s.mobile h Rd m (w.geometry sites) lib ⟨v, 0, 0⟩)
    (ha : Answers order s.mobile m lib.events v)
    (hprops : (({} : Registry EReal V Row).configure (w.properties c)).1 = .ok ()) :
    ∃ x : Simulation φ Unit ℝ EReal V Row, fromConfig (realKernel Rd) w c = .ok x ∧
      x.order = order ∧ x.sim.st = ⟨v, 0, 0⟩ ∧
      ∀ S, Network order s.mobile lib.events v S → Willing m →
        (∀ n spec, dictGet x.registry.plan.attached n = some spec → Tolerant spec) →
        ∀ (summary : Trajectory K → EReal → List (String × Bool) → Row) (rng : Nat → ℝ × ℝ),
          (∀ n, 0 ≤ (rng n).1 ∧ (rng n).1 < 1) →
          ∃ r, apiRun (realKernel Rd) w summary rng (.configuration c) = .ok r ∧ r.outcome = .ok () := by
  obtain ⟨mapping', hmap', htemp, horder⟩ := ho
  rw [hmap] at hmap'
  cases hmap'
  obtain ⟨hload, hdeps, hval⟩ := generated_loads horder hgen
  obtain ⟨s0, hi⟩ := C85_can_be_constructed hs ha
  rw [hdeps] at hi
  cases hcfg : (({} : Registry EReal V Row).configure (w.properties c)) with
  | mk res reg =>
    rw [hcfg] at hprops
    simp only at hprops
    subst hprops
    have hst : initialState w s order = .ok ⟨v, 0, 0⟩ := by
      simp only [initialState, hocc, State.fromOccupations, hv]
    have hx : fromConfig (realKernel Rd) w c = .ok ⟨s, order, sites, h, m, s0, reg⟩ := by
      simp only [fromConfig, hread]
      exact construct_of ⟨mapping, hmap, htemp, horder⟩ hsites hmodel hfile hload hval hs.lookup hst hi hcfg
    refine ⟨_, hx, rfl, ?_, ?_⟩
    · have := (init_ok hi).1
      exact (Option.some.inj this).symm
    · intro S hn hw ht summary rng hr
      simp only at ht
      obtain ⟨ops, hops⟩ := configure_plan hcfg
      have hrun : ((⟨s, order, sites, h, m, s0, reg⟩ : Simulation φ Unit ℝ EReal V Row).run (realKernel Rd) w
          summary rng).outcome = .ok () := by
        simp only [Simulation.run]
        rw [hops]
        rw [hops] at ht
        rw [← hdeps] at hi
        exact C85_connected_completes hs ha hw hn hi summary ops ht rng hr _ _ _
      refine ⟨_, ?_, hrun⟩
      simp only [apiRun, hx, hrun]

end

/-! ### Non-vacuity: a ring of six sites -/

namespace Ring

/-- Events of three cells of the chain `chainNeighbors`. -/
def events : Py (EventLib String (Payload String)) :=
  generateEvents (fun a b => a == b) payloadFingerprint (fun nbrs => nbrs.map Neighbor.label) keepMatcher
    chainNeighbors (fun s => s.label == "Na1") (fun s => s.label == "Na2") exampleTemplate exampleMapping
    (some [3, 1, 1])

/-- The generated library. -/
def lib : EventLib String (Payload String) := events.toOption.getD {}

theorem events_eq : events = .ok lib := by
  have : events.toOption.isSome = true := by decide +kernel
  unfold lib
  cases h : events with
  | error e => rw [h] at this; cases this
  | ok l => rfl

theorem lib_events : lib.events =
    [⟨[0, 3], [3, 5], none⟩, ⟨[0, 5], [3, 5], none⟩, ⟨[1, 4], [4, 3], none⟩, ⟨[1, 3], [4, 3], none⟩,
     ⟨[2, 5], [5, 4], none⟩, ⟨[2, 4], [5, 4], none⟩] := by decide +kernel

/-- The keywords of the configuration. -/
def keywords : Fields :=
  [("structure_file", .str "chain.cif"), ("supercell_shape", .list [.int 3, .int 1, .int 1]),
   ("mobile_ion_specie", .str "Na"), ("event_file", .str "events.json"),
   ("site_mapping", .dict [("Na", .list [.str "Na", .str "X"]), ("Zr", .str "Zr")]),
   ("initial_occupations", .list [.int 0, .int 1, .int 1, .int 0, .int 1, .int 1]),
   ("equilibration_passes", .int 10), ("kmc_passes", .int 1000)]

/-- The same with a state file instead of occupations. -/
def fileKeywords : Fields :=
  dictSet (dictSet keywords "initial_occupations" .none) "initial_state_file" (.str "start.h5")

/-- Files and loaders. -/
noncomputable def world : World (Payload String) Unit ℝ EReal ℚ Unit where
  loadStructure := fun f _ => if f = "chain.cif" then .ok exampleTemplate else .error .osError
  label := id
  eqv := fun a b => a == b
  fp := payloadFingerprint
  loadModel := fun _ => .ok hopModel
  readEvents := fun f => if f = "events.json" then .ok lib.asDict else .error .osError
  files := fun f => if f = "start.h5" then some (.h5 ⟨[0, 1, 1, 0, 1, 1, 1, 0], 5, 7⟩) else none
  properties := fun _ => {}
  geometry := fun sites => ⟨sites.map fun _ => fun _ => 0, 1, 6⟩
  symbol := id

/-- What is read from the configuration. -/
def setup : Setup :=
  ⟨"chain.cif", false, some exampleMapping, [3, 1, 1], "events.json", "Na", some [0, 1, 1, 0, 1, 1], "", 10,
    1000⟩

theorem configured : ∃ c, Configuration.init none none keywords = .ok c ∧ read c = .ok setup := by
  refine ⟨_, rfl, ?_⟩
  rfl

/-- The order of the active sites. -/
def order : ActiveSiteOrder String (Payload String) :=
  ((ActiveSiteOrder.fromStructureAndMapping (fun a b => a == b) payloadFingerprint
    (exampleTemplate.map LabeledSite.species) exampleMapping (some [3, 1, 1])).toOption.getD
    ⟨0, 0, [], [], [], [], (1, 1, 1), [], [], ⟨0, 0, [], [], [], (1, 1, 1), [], []⟩⟩)

theorem order_eq : ActiveSiteOrder.fromStructureAndMapping (fun a b => a == b) payloadFingerprint
    (exampleTemplate.map LabeledSite.species) exampleMapping (some [3, 1, 1]) = .ok order := by
  decide +kernel

/-- The sites of the simulation. -/
def sites : List (LabeledSite String × Cell) := (order.activeStructure exampleTemplate).toOption.getD []

theorem sites_eq : order.activeStructure exampleTemplate = .ok sites := by decide +kernel

theorem mem_lib {e : Event} : e ∈ lib.events ↔ e = ⟨[0, 3], [3, 5], none⟩ ∨ e = ⟨[0, 5], [3, 5], none⟩ ∨
    e = ⟨[1, 4], [4, 3], none⟩ ∨ e = ⟨[1, 3], [4, 3], none⟩ ∨ e = ⟨[2, 5], [5, 4], none⟩ ∨
    e = ⟨[2, 4], [5, 4], none⟩ := by
  rw [lib_events]
  simp

theorem endpoints {e : Event} (he : e ∈ lib.events) : ∃ f t : Nat, f < 6 ∧ t < 6 ∧
    e.mobile = [(f : Int), (t : Int)] := by
  rcases mem_lib.1 he with rfl | rfl | rfl | rfl | rfl | rfl
  · exact ⟨0, 3, by omega, by omega, rfl⟩
  · exact ⟨0, 5, by omega, by omega, rfl⟩
  · exact ⟨1, 4, by omega, by omega, rfl⟩
  · exact ⟨1, 3, by omega, by omega, rfl⟩
  · exact ⟨2, 5, by omega, by omega, rfl⟩
  · exact ⟨2, 4, by omega, by omega, rfl⟩

theorem allowed : ∀ i, i < 6 → allowedAt order i = some ["Na", "X"] := by decide +kernel

/-- The occupations of the example. -/
def occ : List Int := [0, 1, 1, 0, 1, 1]

theorem wellLabelled : WellLabelled order "Na" occ := by
  have two : ∀ (a : List String) (_ : a ∈ order.allowedSpeciesByPrimitiveSite),
      a = ["Na", "X"] ∨ a = ["Zr"] := by decide +kernel
  have small : ∀ (a : List String) (n : Nat) s, (a = ["Na", "X"] ∨ a = ["Zr"]) → a[n]? = some s →
      (a = ["Na", "X"] ∧ ((n = 0 ∧ s = "Na") ∨ (n = 1 ∧ s = "X"))) ∨ (a = ["Zr"] ∧ n = 0 ∧ s = "Zr") := by
    rintro a n s (rfl | rfl) h
    · rcases n with _ | _ | n
      · exact .inl ⟨rfl, .inl ⟨rfl, by simpa [eq_comm] using h⟩⟩
      · exact .inl ⟨rfl, .inr ⟨rfl, by simpa [eq_comm] using h⟩⟩
      · simp at h
    · rcases n with _ | n
      · exact .inr ⟨rfl, rfl, by simpa [eq_comm] using h⟩
      · simp at h
  refine ⟨by decide +kernel, ?_, ?_, ?_, by simp [IsVacancyLabel]⟩
  · intro i hi
    have hi : i < 6 := hi
    have h1 := allowed i hi
    have h2 : ∀ i, i < 6 → occ[i]? = some 0 ∨ occ[i]? = some 1 := by decide
    simp only [speciesAt, Spec.speciesOf, h1]
    rcases h2 i hi with h | h <;> simp [h]
  · intro a ha n l h1 h2
    rcases small a n _ (two a ha) h1 with ⟨-, ⟨rfl, -⟩ | ⟨-, h⟩⟩ | ⟨-, -, h⟩
    · rcases small a l _ (two a ha) h2 with ⟨-, ⟨rfl, -⟩ | ⟨-, h⟩⟩ | ⟨-, -, h⟩
      · rfl
      · exact absurd h (by decide)
      · exact absurd h (by decide)
    · exact absurd h (by decide)
    · exact absurd h (by decide)
  · intro a ha n l s t h1 h2 hs ht
    have no : ∀ s, IsVacancyLabel s → s ≠ "Na" ∧ s ≠ "Zr" := by
      rintro s (h | h | h | h | h) <;> subst h <;> decide
    rcases small a n _ (two a ha) h1 with ⟨-, ⟨-, h⟩ | ⟨rfl, -⟩⟩ | ⟨-, -, h⟩
    · exact absurd h (no _ hs).1
    · rcases small a l _ (two a ha) h2 with ⟨-, ⟨-, h⟩ | ⟨rfl, -⟩⟩ | ⟨-, -, h⟩
      · exact absurd h (no _ ht).1
      · rfl
      · exact absurd h (no _ ht).2
    · exact absurd h (no _ hs).2

theorem hopSystem : HopSystem order "Na" ⟨[0, 0, 0, 0, 0, 0], [1, 1, 1, 1, 1, 1]⟩ Rounding.exact hopModel
    (world.geometry sites) lib ⟨occ, 0, 0⟩ := by
  have h0 := hopSystem_example
  refine ⟨by decide +kernel, wellLabelled, ?_, ?_, ?_, h0.loc, h0.rates, h0.forbidden⟩
  · intro e he i hi
    show 0 ≤ i ∧ i < 6
    rcases mem_lib.1 he with rfl | rfl | rfl | rfl | rfl | rfl <;> simp at hi <;> omega
  · intro e he
    obtain ⟨f, t, hf, ht, hm⟩ := endpoints he
    exact ⟨f, t, hm, by rw [allowed f hf, allowed t ht]⟩
  · have : sites.length = 6 := by decide +kernel
    simp [world, occ, this]

theorem rate_exists {e : Event} {f t : Nat} (he : e.mobile = [(f : Int), (t : Int)]) {st : State EReal}
    (hf : f < st.occ.length) (ht : t < st.occ.length) : ∃ p, hopModel.computeProbability () e st = .ok p := by
  have := eventDirection_of he (pyIdx_natCast hf) (pyIdx_natCast ht)
    (List.getElem?_eq_getElem hf) (List.getElem?_eq_getElem ht)
  simp only [hopModel, this]
  exact ⟨_, rfl⟩

theorem answers : Answers order "Na" hopModel lib.events occ := by
  refine ⟨fun _ _ => rfl, fun _ _ => rfl, ?_⟩
  rintro e st ⟨y, hy, hm, -⟩ hc -
  have hl : st.occ.length = 6 := hc.1
  obtain ⟨f, t, hf, ht, he⟩ := endpoints hy
  rw [← hm] at he
  exact rate_exists he (by omega) (by omega)

theorem network : Network order "Na" lib.events occ (fun i => i < 6) := by
  have hsym : ∀ i j, Linked lib.events i j → Linked lib.events j i := by
    rintro i j ⟨e, he, h1 | h1⟩
    · exact ⟨e, he, .inr h1⟩
    · exact ⟨e, he, .inl h1⟩
  have l03 : Linked lib.events 0 3 := ⟨_, mem_lib.2 (.inl rfl), .inl rfl⟩
  have l05 : Linked lib.events 0 5 := ⟨_, mem_lib.2 (.inr (.inl rfl)), .inl rfl⟩
  have l41 : Linked lib.events 4 1 := ⟨_, mem_lib.2 (.inr (.inr (.inl rfl))), .inr rfl⟩
  have l31 : Linked lib.events 3 1 := ⟨_, mem_lib.2 (.inr (.inr (.inr (.inl rfl)))), .inr rfl⟩
  have l52 : Linked lib.events 5 2 := ⟨_, mem_lib.2 (.inr (.inr (.inr (.inr (.inl rfl))))), .inr rfl⟩
  have up : ∀ j, j < 6 → Relation.ReflTransGen (Linked lib.events) 0 j := by
    intro j hj
    have r3 := Relation.ReflTransGen.single l03
    have r5 := Relation.ReflTransGen.single l05
    have r1 := r3.tail l31
    interval_cases j
    · exact .refl
    · exact r1
    · exact r5.tail l52
    · exact r3
    · exact r1.tail (hsym _ _ l41)
    · exact r5
  refine ⟨?_, ?_, ?_, ⟨0, by decide, by decide +kernel⟩, ⟨1, by decide, "X", .inl rfl, by decide +kernel⟩⟩
  · intro e he f t hm
    rcases mem_lib.1 he with rfl | rfl | rfl | rfl | rfl | rfl <;> simp at hm <;> omega
  · intro i j hi hj
    refine Relation.ReflTransGen.trans ?_ (up j hj)
    have := up i hi
    clear hi
    induction this with
    | refl => exact .refl
    | tail _ hl ih => exact .head (hsym _ _ hl) ih
  · intro i hi
    have h1 : ∀ i, i < 6 → speciesAt order occ i = some "Na" ∨ speciesAt order occ i = some "X" := by
      decide +kernel
    rcases h1 i hi with h | h
    · exact .inl h
    · exact .inr ⟨"X", .inl rfl, h⟩

theorem orderOf : OrderOf world setup exampleTemplate order := by
  refine ⟨exampleMapping, rfl, rfl, ?_⟩
  exact order_eq

/-- What is read from the configuration with a state file. -/
def fileSetup : Setup :=
  ⟨"chain.cif", false, some exampleMapping, [3, 1, 1], "events.json", "Na", none, "start.h5", 10, 1000⟩

theorem fileOrderOf : OrderOf world fileSetup exampleTemplate order := orderOf

/-- Non-vacuity of C87: a configuration made from keywords, an event library generated for its structure, and
a run of ten equilibration and a thousand production passes completes; one event file serves the site order it
was made for and no other. -/
example : ∃ c, Configuration.init none none keywords = .ok c ∧ Built c ∧ NoCollisions world.fp ∧
    ∃ r, apiRun (Row := Unit) (realKernel Rounding.exact) world (fun _ _ _ => ())
      (fun n => (1 / (n + 2), 1 / 2)) (.configuration c) = .ok r ∧ r.outcome = .ok () := by
  obtain ⟨c, hc, hr⟩ := configured
  refine ⟨c, hc, .new hc, fun _ _ _ _ _ _ _ _ _ _ _ _ _ _ _ _ h => h, ?_⟩
  obtain ⟨x, hx, -, -, hrun⟩ := C87_generate_then_run (Row := Unit) (w := world) hr orderOf sites_eq rfl events_eq
    rfl rfl (v := occ) rfl rfl hopSystem answers rfl
  refine hrun _ network hopModel_willing ?_ _ _ ?_
  · intro n spec hs
    have : x.registry.plan = {} := by
      obtain ⟨-, h2⟩ := fromConfig_ok hx
      obtain ⟨-, -, -, -, -, -, -, -, -, -, -, -, -, -, h3⟩ := construct_ok h2
      have h4 : ({} : Registry EReal Unit Unit).configure {} = (.ok (), {}) := rfl
      have h5 := h4.symm.trans h3
      rw [← (Prod.mk.inj h5).2]
    rw [this] at hs
    cases hs
  · intro n
    have : (0 : ℝ) ≤ n := Nat.cast_nonneg n
    constructor
    · positivity
    · show (1 : ℝ) / (n + 2) < 1
      rw [div_lt_one (by linarith)]
      linarith

end Ring

/-- C87, disagreement.  A simulation with six sites is made from an HDF5 state with eight entries, and the run
goes on from there. -/
theorem C87_h5_state_wrong_length : ∃ (c : Configuration) (x : Simulation (Payload String) Unit ℝ EReal Unit Unit),
    Configuration.init none none Ring.fileKeywords = .ok c ∧
    fromConfig (realKernel Rounding.exact) Ring.world c = .ok x ∧ x.sites.length = 6 ∧
    x.sim.st.occ.length = 8 := by
  obtain ⟨c, hc, hr⟩ : ∃ c, Configuration.init none none Ring.fileKeywords = .ok c ∧ read c = .ok Ring.fileSetup :=
    ⟨_, rfl, rfl⟩
  obtain ⟨s0, hi⟩ := C85_can_be_constructed Ring.hopSystem Ring.answers
  obtain ⟨-, -, i3, -, -, i6, -⟩ := init_ok hi
  have hann := i6 _ rfl
  obtain ⟨ps, hps⟩ := initialProbs_total hopModel () (⟨[0, 1, 1, 0, 1, 1, 1, 0], 5, 7⟩ : State EReal)
    s0.lib.events (by
      intro e he
      have : e.mobile ∈ s0.lib.events.map Event.mobile := List.mem_map_of_mem he
      rw [i3] at this
      obtain ⟨b, hb, hbe⟩ := List.mem_map.1 this
      obtain ⟨f, t, hf, ht, hm⟩ := Ring.endpoints hb
      rw [hbe] at hm
      exact Ring.rate_exists hm (by simp; omega) (by simp; omega))
  obtain ⟨x, hx⟩ : ∃ x : Simulation (Payload String) Unit ℝ EReal Unit Unit,
      fromConfig (realKernel Rounding.exact) Ring.world c = .ok x := by
    obtain ⟨hload, hdeps, hval⟩ := generated_loads Ring.order_eq Ring.events_eq
    have hi' : Sim.init (realKernel Rounding.exact) hopModel Ring.lib
        (some ⟨[0, 0, 0, 0, 0, 0], [1, 1, 1, 1, 1, 1]⟩) (some ⟨[0, 1, 1, 0, 1, 1, 1, 0], 5, 7⟩) =
        .ok ⟨{ Ring.lib with events := s0.lib.events }, ⟨[0, 1, 1, 0, 1, 1, 1, 0], 5, 7⟩, (), ps,
          cumsum Rounding.exact ps⟩ := by
      have hann' : HopStateLookup.annotateEvents ⟨[0, 0, 0, 0, 0, 0], [1, 1, 1, 1, 1, 1]⟩ Ring.lib.events =
        .ok s0.lib.events := hann
      have hinit : hopModel.initializeState ⟨[0, 1, 1, 0, 1, 1, 1, 0], 5, 7⟩ s0.lib.events = .ok () := rfl
      simp only [Sim.init, hann', hinit, hps, realKernel]
    have hx := construct_of (Row := Unit) (k := realKernel Rounding.exact) (c := c) (w := Ring.world)
      (s := Ring.fileSetup) (reg := {}) Ring.fileOrderOf Ring.sites_eq rfl rfl
      hload hval Ring.hopSystem.lookup rfl hi' rfl
    have hc' : (fromConfig (realKernel Rounding.exact) Ring.world c :
        Py (Simulation (Payload String) Unit ℝ EReal Unit Unit)) =
        construct (realKernel Rounding.exact) Ring.world c Ring.fileSetup := by
      simp only [fromConfig, hr]
    exact ⟨_, hc'.trans hx⟩
  refine ⟨c, x, hc, hx, ?_, ?_⟩
  · obtain ⟨hr', h'⟩ := fromConfig_ok hx
    rw [hr] at hr'
    obtain ⟨-, template, d, lib, st, ⟨mapping, hm, ht, ho⟩, hs, -⟩ := construct_ok h'
    rw [← Except.ok.inj hr'] at hm ht ho
    have ht' : (Except.ok exampleTemplate : Py _) = .ok template := ht
    have hm' : some exampleMapping = some mapping := hm
    cases ht'
    cases hm'
    have ho' := Ring.order_eq.symm.trans ho
    rw [← Except.ok.inj ho', Ring.sites_eq] at hs
    rw [← Except.ok.inj hs]
    decide +kernel
  · obtain ⟨hr', -⟩ := fromConfig_ok hx
    rw [hr] at hr'
    have hr'' := Except.ok.inj hr'
    rw [C87_h5_state_unchecked hx (d := ⟨[0, 1, 1, 0, 1, 1, 1, 0], 5, 7⟩) (by rw [← hr'']; rfl) (by rw [← hr'']; rfl)]
    rfl

end KMC
