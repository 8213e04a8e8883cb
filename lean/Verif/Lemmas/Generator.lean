import Verif.Props.StructureProps
import Verif.Lemmas.Event
/-
Lemmas about event generation.
-/
namespace KMC
open Spec

section
variable {σ φ κ γ : Type} [DecidableEq κ]

/-- Picking along a permutation of the positions permutes the list. -/
theorem pickAll_perm {α : Type} {l vs : List α} {perm : List Nat}
    (hp : perm.Perm (List.range l.length)) (h : ActiveSiteOrder.pickAll l perm = .ok vs) :
    vs.Perm l := by
  have h1 : ∀ is ws, ActiveSiteOrder.pickAll l is = .ok ws → ws.map some = is.map fun i => l[i]? := by
    intro is
    induction is with
    | nil => intro ws h; simp only [ActiveSiteOrder.pickAll, Except.ok.injEq] at h; subst h; rfl
    | cons i is ih =>
      intro ws h
      simp only [ActiveSiteOrder.pickAll] at h
      split at h
      · cases h
      · rename_i v hv
        split at h
        · cases h
        · rename_i vs' hvs
          cases h
          simp [hv, ih _ hvs]
  have h2 := h1 _ _ h
  have h3 : (perm.map fun i => l[i]?).Perm ((List.range l.length).map fun i => l[i]?) := hp.map _
  have h4 : ((List.range l.length).map fun i => l[i]?) = l.map some := by
    apply List.ext_getElem?
    intro i
    rw [List.getElem?_map, List.getElem?_map]
    by_cases hi : i < l.length
    · rw [List.getElem?_range hi]; simp [hi]
    · rw [List.getElem?_eq_none (by simpa using hi), List.getElem?_eq_none (by simpa using hi)]; rfl
  rw [← h2, h4] at h3
  have h5 := h3.filterMap id
  simpa [List.filterMap_map] using h5

/-- Matcher results are reorderings of the neighbour positions. -/
def MatcherPermutes (matcher : List (Neighbor γ) → List (Neighbor γ) → Py (List Nat)) : Prop :=
  ∀ ref nbrs perm, matcher ref nbrs = .ok perm → perm.Perm (List.range nbrs.length)

theorem matchOrRegister_ok {signature : List (Neighbor γ) → κ}
    {matcher : List (Neighbor γ) → List (Neighbor γ) → Py (List Nat)} (hm : MatcherPermutes matcher)
    {l : Int} {nbrs : List (Neighbor γ)} {t t' : EnvTables κ γ}
    (h : matchOrRegister signature matcher l nbrs t = .ok t') :
    ∃ o, o.Perm nbrs ∧ t'.envInfo = dictSet t.envInfo l o := by
  unfold matchOrRegister at h
  split at h
  · cases h; exact ⟨nbrs, List.Perm.refl _, rfl⟩
  · split at h
    · cases h
    · rename_i perm hp
      split at h
      · cases h
      · rename_i o ho
        cases h
        exact ⟨o, pickAll_perm (hm _ _ _ hp) ho, rfl⟩

theorem collectEnvironments_ok {signature : List (Neighbor γ) → κ}
    {matcher : List (Neighbor γ) → List (Neighbor γ) → Py (List Nat)} (hm : MatcherPermutes matcher)
    {neighbors : Nat → List (Neighbor γ)} {l : List (Nat × LabeledSite σ)} {t t' : EnvTables κ γ}
    (hn : (l.map fun p => p.2.localIndex).Nodup)
    (h : collectEnvironments signature matcher neighbors l t = .ok t') :
    (∀ p ∈ l, ∃ o, dictGet t'.envInfo p.2.localIndex = some o ∧ o.Perm (neighbors p.1)) ∧
    (∀ k, k ∉ l.map (fun p => p.2.localIndex) → dictGet t'.envInfo k = dictGet t.envInfo k) := by
  induction l generalizing t with
  | nil => simp only [collectEnvironments, Except.ok.injEq] at h; subst h; simp
  | cons p l ih =>
    obtain ⟨i, s⟩ := p
    simp only [collectEnvironments] at h
    split at h
    · cases h
    · rename_i t1 h1
      simp only [List.map_cons, List.nodup_cons] at hn
      obtain ⟨g1, g2⟩ := ih hn.2 h
      obtain ⟨o, ho, he⟩ := matchOrRegister_ok hm h1
      constructor
      · intro p hp
        rcases List.mem_cons.1 hp with rfl | hp
        · refine ⟨o, ?_, ho⟩
          rw [g2 _ hn.1, he, dictGet_dictSet_self]
        · exact g1 p hp
      · intro k hk
        simp only [List.map_cons, List.mem_cons, not_or] at hk
        rw [g2 k hk.2, he, dictGet_dictSet_ne _ _ hk.1]

theorem mem_findAtomIndices {α : Type} (accept : α → Bool) (sites : List α) (i : Nat) :
    i ∈ findAtomIndices accept sites ↔ ∃ s, sites[i]? = some s ∧ accept s = true :=
  mem_filter_zipIdx sites accept i

theorem findAtomIndices_nodup {α : Type} (accept : α → Bool) (sites : List α) :
    (findAtomIndices accept sites).Nodup :=
  (filter_zipIdx_sorted _ _ _).imp (fun {_ _} h => Nat.ne_of_lt h)

/-- The neighbour loop looks up every neighbour. -/
theorem envIndices_ok_iff (index : List (SiteKey × Nat)) (shape cell : Cell) (nbrs : List (Neighbor γ))
    (env : List Nat) :
    envIndices index shape cell nbrs = .ok env ↔
      List.Forall₂ (fun n i => dictGet index (siteIndexKey
        (normalizeSupercellTuple cell n.image shape) n.label n.localIndex) = some i) nbrs env := by
  induction nbrs generalizing env with
  | nil => simp [envIndices, List.forall₂_nil_left_iff, eq_comm]
  | cons n ns ih =>
    rw [List.forall₂_cons_left_iff]
    simp only [envIndices]
    constructor
    · intro h
      split at h
      · cases h
      · rename_i i hi
        split at h
        · cases h
        · rename_i is his
          cases h
          exact ⟨i, is, hi, (ih _).1 his, rfl⟩
    · rintro ⟨i, is, hi, his, rfl⟩
      rw [hi]
      simp only
      rw [(ih _).2 his]

/-- The events of one origin site. -/
def eventsOf (sites : List (LabeledSite σ × Cell)) (index : List (SiteKey × Nat)) (shape : Cell)
    (isTarget : LabeledSite σ → Bool) (envInfo : List (Int × List (Neighbor γ))) (i : Nat) :
    List Event :=
  match sites[i]? with
  | none => []
  | some p =>
    match dictGet envInfo p.1.localIndex with
    | none => []
    | some nbrs =>
      match envIndices index shape p.2 nbrs with
      | .error _ => []
      | .ok env => eventsToTargets sites isTarget i env

theorem eventLoop_ok_iff (sites : List (LabeledSite σ × Cell)) (index : List (SiteKey × Nat))
    (shape : Cell) (isTarget : LabeledSite σ → Bool) (envInfo : List (Int × List (Neighbor γ)))
    (is : List Nat) (evs : List Event) :
    eventLoop sites index shape isTarget envInfo is = .ok evs ↔
      evs = is.flatMap (eventsOf sites index shape isTarget envInfo) ∧
      ∀ i ∈ is, ∃ s t nbrs env, sites[i]? = some (s, t) ∧
        dictGet envInfo s.localIndex = some nbrs ∧ envIndices index shape t nbrs = .ok env := by
  induction is generalizing evs with
  | nil => simp [eventLoop, eq_comm]
  | cons i is ih =>
    simp only [eventLoop, List.flatMap_cons, List.mem_cons, forall_eq_or_imp]
    constructor
    · intro h
      split at h
      · cases h
      · rename_i s t hs
        split at h
        · cases h
        · rename_i nbrs hn
          split at h
          · cases h
          · rename_i env he
            split at h
            · cases h
            · rename_i rest hr
              cases h
              obtain ⟨r1, r2⟩ := (ih _).1 hr
              refine ⟨?_, ⟨s, t, nbrs, env, hs, hn, he⟩, r2⟩
              rw [r1]
              congr 1
              simp only [eventsOf, hs, hn, he]
    · rintro ⟨h1, ⟨s, t, nbrs, env, hs, hn, he⟩, h2⟩
      have hr := (ih _).2 ⟨rfl, h2⟩
      rw [hs]
      simp only
      rw [hn]
      simp only
      rw [he]
      simp only
      rw [hr]
      simp only [Except.ok.injEq]
      rw [h1]
      congr 1
      simp only [eventsOf, hs, hn, he]

/-- The pieces of a successful generation. -/
theorem generateEvents_ok {eqv : σ → σ → Bool}
    {fp : Nat → Nat → List Nat → List Nat → List Nat → Nat × Nat × Nat → List σ →
      List (List σ) → φ}
    {signature : List (Neighbor γ) → κ}
    {matcher : List (Neighbor γ) → List (Neighbor γ) → Py (List Nat)}
    {neighbors : Nat → List (Neighbor γ)} {isOrigin isTarget : LabeledSite σ → Bool}
    {template : List (LabeledSite σ)} {mapping : List (σ × List σ)} {shape : Option (List Int)}
    {lib : EventLib σ φ}
    (h : generateEvents eqv fp signature matcher neighbors isOrigin isTarget template mapping shape =
      .ok lib) :
    ∃ order tables index events,
      ActiveSiteOrder.fromStructureAndMapping eqv fp (template.map LabeledSite.species) mapping
        (some (shape.getD [2, 1, 1])) = .ok order ∧
      (let cell := activeSitesOf order.primitiveActiveIndices template
       let sites := supercellList cell
        (latticePoints order.supercellShape.1 order.supercellShape.2.1 order.supercellShape.2.2)
       order.activeStructure template = .ok sites ∧
       collectEnvironments signature matcher neighbors
        ((cell.zipIdx.filter fun p => isOrigin p.1).map fun p => (p.2, p.1)) {} = .ok tables ∧
       buildSiteIndex sites false = .ok index ∧
       eventLoop sites index (shapeCell order.supercellShape) isTarget tables.envInfo
        (findAtomIndices (fun s => isOrigin s.1) sites) = .ok events ∧
       events ≠ [] ∧ lib.events = events ∧
       lib.deps = some (generateEventDependencyMatrix (events.map Event.sites)) ∧
       lib.meta? = some order.asDict ∧ EventLib.validateEventIndices order events = .ok ()) := by
  unfold generateEvents at h
  simp only at h
  split at h
  · cases h
  · rename_i prim hprim
    split at h
    · cases h
    · rename_i order horder
      obtain ⟨cell0, sites0, full, c1, c2, c3, c4, c5⟩ := C60_generator_and_simulator_number_alike hprim horder
      have ha := activeStructure_eq horder
      have hp1 := activeStructure_eq hprim
      have hsh : prim.supercellShape = (1, 1, 1) := by
        have := (fromStructureAndMapping_ok hprim).1
        simp only [normalizeSupercellShape, Except.ok.injEq] at this
        exact this.symm
      have hact : prim.primitiveActiveIndices = order.primitiveActiveIndices := by
        obtain ⟨-, pa, pact, -⟩ := fromStructureAndMapping_ok hprim
        obtain ⟨-, oa, oact, -⟩ := fromStructureAndMapping_ok horder
        rw [pact, oact]
        rw [pa] at oa
        rw [Except.ok.inj oa]
      rw [hsh] at hp1
      rw [hp1] at h
      simp only at h
      rw [supercellList_unit, hact] at h
      split at h
      · cases h
      · rename_i tables htab
        split at h
        · cases h
        · rename_i sites hsites
          have hse := makeKmcSupercell_ok hsites
          subst hse
          split at h
          · cases h
          · rename_i index hindex
            split at h
            · cases h
            · cases h
            · rename_i events hne hloop
              split at h
              · cases h
              · rename_i u lib' hmeta
                cases h
                refine ⟨order, tables, index, _, horder, ha, htab, hindex, hloop, hne, ?_, ?_, ?_, ?_⟩
                · have := congrArg Prod.snd hmeta
                  simp only [EventLib.setIndexMetadata] at this
                  rw [← this]
                  have := EventLib.addAll_events ({} : EventLib σ φ) events
                  simpa [EventLib.addAll, EventLib.generateEventDependencies] using this
                · have := congrArg Prod.snd hmeta
                  simp only [EventLib.setIndexMetadata] at this
                  rw [← this]
                  have := EventLib.addAll_events ({} : EventLib σ φ) events
                  simp only [EventLib.addAll, List.nil_append] at this
                  simp only [EventLib.generateEventDependencies, this]
                · have := congrArg Prod.snd hmeta
                  simp only [EventLib.setIndexMetadata] at this
                  rw [← this]
                  rfl
                · have h1 := congrArg Prod.fst hmeta
                  simp only [EventLib.setIndexMetadata] at h1
                  have := EventLib.addAll_events ({} : EventLib σ φ) events
                  simp only [EventLib.addAll, List.nil_append] at this
                  rw [this] at h1
                  exact h1

end
end KMC
