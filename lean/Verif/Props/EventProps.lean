import Verif.Lemmas.Event
/-
C10, C11 and C42.
-/
namespace KMC
open Spec

section
variable {σ φ : Type}

/-- C10.  After `generate_event_dependencies`, event `j` is listed for event `i` exactly
when both are events of the library and share a site. -/
theorem C10_dependencies_are_overlaps (lib : EventLib σ φ) (i : Nat) (j : Int) :
    j ∈ lib.generateEventDependencies.getDependentEvents i ↔
      ∃ (ei : Event) (k : Nat) (ej : Event), j = (k : Int) ∧ lib.events[i]? = some ei ∧ lib.events[k]? = some ej ∧
        ShareSite (ei.mobile ++ ei.env) (ej.mobile ++ ej.env) := by
  simp only [EventLib.getDependentEvents, EventLib.generateEventDependencies, generate_getElem?,
    List.getElem?_map]
  cases h : lib.events[i]? with
  | none => simp
  | some ei =>
    simp only [Option.map_some, mem_depRow, List.getElem?_map, Option.map_eq_some_iff]
    constructor
    · rintro ⟨k, b, hj, ⟨ej, hk, rfl⟩, hs⟩
      exact ⟨ei, k, ej, hj, rfl, hk, hs⟩
    · rintro ⟨e, k, ej, hj, he, hk, hs⟩
      cases he
      exact ⟨k, _, hj, ⟨ej, hk, rfl⟩, hs⟩

/-- C10.  Each dependency list is strictly increasing (in particular duplicate free). -/
theorem C10_dependencies_increasing (lib : EventLib σ φ) (i : Nat) :
    (lib.generateEventDependencies.getDependentEvents i).Pairwise (· < ·) := by
  simp only [EventLib.getDependentEvents, EventLib.generateEventDependencies, generate_getElem?]
  cases h : (List.map Event.sites lib.events)[i]? with
  | none => simp
  | some a => simpa using depRow_sorted _ _

/-- C10.  The dependency relation is symmetric. -/
theorem C10_dependencies_symmetric (lib : EventLib σ φ) (i j : Nat)
    (h : (j : Int) ∈ lib.generateEventDependencies.getDependentEvents i) :
    (i : Int) ∈ lib.generateEventDependencies.getDependentEvents j := by
  rw [C10_dependencies_are_overlaps] at *
  obtain ⟨ei, k, ej, hj, h1, h2, s, h3, h4⟩ := h
  have : j = k := by exact_mod_cast hj
  subst this
  exact ⟨ej, i, ei, rfl, h2, h1, s, h4, h3⟩

/-- C10.  Every event with a site depends on itself. -/
theorem C10_dependencies_reflexive (lib : EventLib σ φ) (i : Nat) (e : Event)
    (h : lib.events[i]? = some e) (hs : e.mobile ++ e.env ≠ []) :
    (i : Int) ∈ lib.generateEventDependencies.getDependentEvents i := by
  rw [C10_dependencies_are_overlaps]
  obtain ⟨a, l, hal⟩ := List.exists_cons_of_ne_nil hs
  exact ⟨e, i, e, rfl, h, h, a, by simp [hal], by simp [hal]⟩

/-- C11.  After adding any sequence of events to an empty library, the site query returns
exactly the indices of the events that involve the site. -/
theorem C11_site_query (es : List Event) (s : Int) (i : Nat) :
    i ∈ (({} : EventLib σ φ).addAll es).getEventsInvolvingSite s ↔
      ∃ e, es[i]? = some e ∧ s ∈ e.mobile ++ e.env := by
  rw [EventLib.addAll_query_mem]
  simp only [EventLib.getEventsInvolvingSite, dictGet, List.not_mem_nil, List.length_nil, zero_add,
    false_or]
  constructor
  · rintro ⟨k, e, rfl, h1, h2⟩; exact ⟨e, h1, h2⟩
  · rintro ⟨e, h1, h2⟩; exact ⟨i, e, rfl, h1, h2⟩

/-- C11.  The library holds exactly the events added, in order. -/
theorem C11_events_added (es : List Event) : (({} : EventLib σ φ).addAll es).events = es := by
  rw [EventLib.addAll_events]; simp

/-- C11.  An index outside the library has no dependents. -/
theorem C11_outside_has_no_dependents (lib : EventLib σ φ) (i : Nat)
    (h : lib.events.length ≤ i) : lib.generateEventDependencies.getDependentEvents i = [] := by
  rw [List.eq_nil_iff_forall_not_mem]
  intro j hj
  rw [C10_dependencies_are_overlaps] at hj
  obtain ⟨ei, k, ej, -, h1, -⟩ := hj
  rw [List.getElem?_eq_none h] at h1; cases h1

/-- C11.  `as_dict` then `from_dict` reproduces a library built with `add_event` and
carrying the metadata of an order its indices fit: same events (runtime hop codes are
not part of an event's identity), same dependencies, same site index, same metadata.
The one exception, an empty but generated dependency table, is
`C11_empty_dependencies_lost`. -/
theorem C11_dict_round_trip_partial (es : List Event) (o : ActiveSiteOrder σ φ)
    (deps : Option (List (List Int))) (hdeps : deps ≠ some [])
    (hcodes : ∀ e ∈ es, e.codes = none)
    (hv : ∀ e ∈ es, ∀ i ∈ e.mobile ++ e.env, 0 ≤ i ∧ i < o.activeSiteCount) :
    let lib : EventLib σ φ :=
      { ({} : EventLib σ φ).addAll es with deps := deps, meta? := some o.asDict }
    EventLib.fromDict lib.asDict = .ok lib := by
  intro lib
  have hev : lib.events = es := C11_events_added es
  have hn : (dictKeys lib.siteToEvents).Nodup :=
    EventLib.addAll_nodup ({} : EventLib σ φ) es (by simp [dictKeys])
  have hevs : (lib.asDict.events.map fun p => ({ mobile := p.1, env := p.2 } : Event)) = es := by
    simp only [EventLib.asDict, hev, List.map_map]
    conv_rhs => rw [← List.map_id es]
    apply List.map_congr_left
    intro e he
    have := hcodes e he
    cases e; simp_all
  have ho : ActiveSiteOrder.fromDict o.asDict = .ok o := by
    simp [ActiveSiteOrder.fromDict, ActiveSiteOrder.asDict]
  have hval : EventLib.validateEventIndices o es = .ok () := by
    rcases validateEventIndices_cases o es with ⟨h, -⟩ | ⟨-, h⟩
    · exact h
    · exact absurd hv h
  have hkeys := EventLib.readSiteKeys_append [] lib.siteToEvents (by simpa using hn)
  have hmeta : lib.asDict.indexMetadata = some o.asDict := rfl
  have hsite : lib.asDict.siteToEvents = lib.siteToEvents.map fun kv => (toString kv.1, kv.2) := rfl
  have hdep : lib.asDict.eventDependencies = deps := rfl
  simp only [EventLib.fromDict, hmeta, ho, hevs, hval, hsite, hkeys, hdep, List.nil_append]
  have : lib = ⟨es, deps, lib.siteToEvents, some o.asDict⟩ := by rw [← hev]
  refine congrArg Except.ok (Eq.trans ?_ this.symm)
  congr 1
  clear_value lib
  clear hdep this
  rcases deps with _ | (_ | ⟨r, rs⟩)
  · rfl
  · exact absurd rfl hdeps
  · rfl

/-- C11.  Through the file layer, which regenerates missing dependencies, a library whose
dependencies were generated always comes back equal, also when it is empty. -/
theorem C11_file_round_trip (es : List Event) (o : ActiveSiteOrder σ φ)
    (hcodes : ∀ e ∈ es, e.codes = none)
    (hv : ∀ e ∈ es, ∀ i ∈ e.mobile ++ e.env, 0 ≤ i ∧ i < o.activeSiteCount) :
    let lib : EventLib σ φ :=
      { (({} : EventLib σ φ).addAll es).generateEventDependencies with meta? := some o.asDict }
    EventLib.fromFilePayload lib.asDict = .ok lib := by
  intro lib
  have hev : lib.events = es := C11_events_added es
  by_cases hnil : es = []
  · subst hnil
    simp [lib, EventLib.fromFilePayload, EventLib.asDict, EventLib.fromDict, EventLib.addAll,
      EventLib.generateEventDependencies, generateEventDependencyMatrix,
      ActiveSiteOrder.fromDict, ActiveSiteOrder.asDict, EventLib.validateEventIndices,
      EventLib.readSiteKeys]
  · have hd : lib.deps = some (generateEventDependencyMatrix (es.map Event.sites)) := by
      simp only [lib, EventLib.generateEventDependencies, C11_events_added]
    have hne : lib.deps ≠ some [] := by
      rw [hd]
      intro h
      have h1 := generate_length (es.map Event.sites)
      rw [Option.some.inj h] at h1
      simp at h1
      exact hnil (List.length_eq_zero_iff.1 h1.symm)
    have := C11_dict_round_trip_partial (σ := σ) (φ := φ) es o lib.deps hne hcodes hv
    simp only at this
    have hlib : lib = { ({} : EventLib σ φ).addAll es with
        deps := lib.deps, meta? := some o.asDict } := rfl
    rw [← hlib] at this
    simp only [EventLib.fromFilePayload, this, hd]

/-- C11, disagreement.  `from_dict` turns a generated but empty dependency table into a
missing one, so the dictionary round trip is not exact for an empty library. -/
theorem C11_empty_dependencies_lost (o : ActiveSiteOrder σ φ) :
    ∃ lib lib' : EventLib σ φ, lib.meta? = some o.asDict ∧ lib.deps = some [] ∧
      EventLib.fromDict lib.asDict = .ok lib' ∧ lib'.deps = none := by
  refine ⟨{ (({} : EventLib σ φ)).generateEventDependencies with meta? := some o.asDict },
    { events := [], deps := none, siteToEvents := [], meta? := some o.asDict }, rfl, ?_, ?_, rfl⟩
  · simp [EventLib.generateEventDependencies, generateEventDependencyMatrix]
  · simp [EventLib.asDict, EventLib.fromDict,
      EventLib.generateEventDependencies, generateEventDependencyMatrix,
      ActiveSiteOrder.fromDict, ActiveSiteOrder.asDict, EventLib.validateEventIndices,
      EventLib.readSiteKeys]

/-- C42.  If validating a library against an active-site order succeeds, then every index
of every event is a valid active index, so that every occupation vector of the right
length can be read at it, at exactly that position (no wrap-around). -/
theorem C42_validated_indices_fit [DecidableEq φ] (lib : EventLib σ φ) (o : ActiveSiteOrder σ φ)
    (h : lib.validateIndexMetadata o = .ok ()) (e : Event) (he : e ∈ lib.events) (i : Int)
    (hi : i ∈ e.mobile ∨ i ∈ e.env) (occ : List Int) (hocc : occ.length = o.activeSiteCount) :
    ∃ k : Nat, i = (k : Int) ∧ k < o.activeSiteCount ∧ ∃ v, occ[k]? = some v ∧ pyGet occ i = .ok v := by
  unfold EventLib.validateIndexMetadata at h
  split at h
  · cases h
  · split at h
    · cases h
    · rcases validateEventIndices_cases o lib.events with ⟨-, h2⟩ | ⟨h1, -⟩
      · have := h2 e he i (by simpa [Event.sites] using hi)
        refine ⟨i.toNat, by omega, by omega, occ[i.toNat]'(by omega), by simp, ?_⟩
        have hidx : pyIdx occ.length i = some i.toNat := pyIdx_nonneg this.1 (by omega)
        exact pyGet_of_idx hidx
      · rw [h1] at h; cases h

/-- C42.  Any out-of-range index in any event makes setting or checking the metadata, and
loading the file, raise `IndexError` (when the stored order itself is readable and is the
same order). -/
theorem C42_bad_index_raises [DecidableEq φ] (lib : EventLib σ φ) (o : ActiveSiteOrder σ φ)
    (e : Event) (he : e ∈ lib.events) (i : Int) (hi : i ∈ e.mobile ∨ i ∈ e.env)
    (hbad : i < 0 ∨ (o.activeSiteCount : Int) ≤ i) :
    (lib.setIndexMetadata o).1 = .error .indexError ∧
    (lib.meta? = some o.asDict → lib.validateIndexMetadata o = .error .indexError) ∧
    (lib.meta? = some o.asDict → ∃ x, EventLib.fromDict lib.asDict = .error x) := by
  have hne : EventLib.validateEventIndices o lib.events = .error .indexError := by
    rcases validateEventIndices_cases o lib.events with ⟨-, h2⟩ | ⟨h1, -⟩
    · have := h2 e he i (by simpa [Event.sites] using hi); omega
    · exact h1
  refine ⟨?_, ?_, ?_⟩
  · simp [EventLib.setIndexMetadata, hne]
  · intro hm
    simp [EventLib.validateIndexMetadata, hm, ActiveSiteOrder.assertSameOrder,
      ActiveSiteOrder.fromDict, ActiveSiteOrder.asDict, hne]
  · intro hm
    refine ⟨.indexError, ?_⟩
    have h2 : EventLib.validateEventIndices o
        (List.map (fun p => ({ mobile := p.1, env := p.2 } : Event)) lib.asDict.events) =
        .error .indexError := by
      rcases validateEventIndices_cases o
        (List.map (fun p => ({ mobile := p.1, env := p.2 } : Event)) lib.asDict.events) with
        ⟨-, h2⟩ | ⟨h1, -⟩
      · exfalso
        have := h2 ⟨e.mobile, e.env, none⟩ (by
          simp only [EventLib.asDict, List.map_map, List.mem_map, Function.comp]
          exact ⟨e, he, rfl⟩) i (by simpa [Event.sites] using hi)
        omega
      · exact h1
    have ho : ActiveSiteOrder.fromDict o.asDict = .ok o := by
      simp [ActiveSiteOrder.fromDict, ActiveSiteOrder.asDict]
    have hmeta : lib.asDict.indexMetadata = some o.asDict := hm
    simp only [EventLib.fromDict, hmeta, ho, h2]

/-- C42.  A library without metadata, or with the metadata of a different order (another
fingerprint), does not validate. -/
theorem C42_wrong_order_raises [DecidableEq φ] (lib : EventLib σ φ) (o : ActiveSiteOrder σ φ)
    (h : lib.meta? = none ∨ ∃ d, lib.meta? = some d ∧ d.fingerprint ≠ o.fingerprint) :
    lib.validateIndexMetadata o = .error .valueError := by
  unfold EventLib.validateIndexMetadata
  rcases h with h | ⟨d, h, hf⟩
  · simp [h]
  · simp only [h, ActiveSiteOrder.assertSameOrder, ActiveSiteOrder.fromDict]
    by_cases hfmt : d.format = ActiveSiteOrder.formatTag
    · simp [hfmt, Ne.symm hf]
    · simp [hfmt]

end

/-- A small library used in the examples: three hops on a ring of five sites; hops 0 and
1 share site 1, hop 2 is apart from hop 0 but shares site 3 with hop 1's environment. -/
def exampleEvents : List Event :=
  [⟨[0, 1], [4], none⟩, ⟨[1, 2], [3], none⟩, ⟨[3, 3], [], none⟩]

/-- Non-vacuity of C10: the generated table of the example library. -/
example : ((({} : EventLib String String).addAll exampleEvents).generateEventDependencies).deps =
    some [[0, 1], [0, 1, 2], [1, 2]] := by
  simp [EventLib.addAll, exampleEvents, EventLib.addEvent, EventLib.generateEventDependencies,
    generateEventDependencyMatrix, Event.sites, npSort, List.mergeSort,
    List.MergeSort.Internal.splitInTwo, arraysIntersect, List.zipIdx]

/-- An order with five active sites for the examples. -/
def exampleOrder : ActiveSiteOrder String String :=
  { primitiveSiteCount := 1, originalSiteCount := 5, primitiveActiveIndices := [0],
    activeToOriginal := [0, 1, 2, 3, 4], activeToPrimitive := [0, 0, 0, 0, 0],
    fixedOriginalIndices := [], supercellShape := (5, 1, 1), speciesByPrimitiveSite := ["Na"],
    allowedSpeciesByPrimitiveSite := [["Na", "X"]], fingerprint := "f" }

/-- Non-vacuity of C11 and C42: the example indices fit the example order, and an index 5
does not. -/
example : (∀ e ∈ exampleEvents, ∀ i ∈ e.mobile ++ e.env, 0 ≤ i ∧ i < exampleOrder.activeSiteCount) ∧
    (∀ e ∈ exampleEvents, e.codes = none) := by decide
example : ({ ({} : EventLib String String).addAll exampleEvents with
    meta? := some exampleOrder.asDict }).validateIndexMetadata exampleOrder = .ok () := by decide
example : ({ ({} : EventLib String String).addAll (exampleEvents ++ [(⟨[0, 5], [], none⟩ : Event)]) with
    meta? := some exampleOrder.asDict }).validateIndexMetadata exampleOrder =
      .error .indexError := by decide

end KMC
