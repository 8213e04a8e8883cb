import Verif.Lemmas.Generator
/-
C45, C61: generated events.
-/
namespace KMC
open Spec

section
variable {σ φ κ γ : Type} [DecidableEq κ]

/-! ### Periodic images -/

theorem SameImage.symm {shape : Nat × Nat × Nat} {t u : Cell} (h : SameImage shape t u) :
    SameImage shape u t := by
  obtain ⟨i, j, k, h1, h2, h3⟩ := h
  exact ⟨-i, -j, -k, by linarith, by linarith, by linarith⟩

theorem SameImage.trans {shape : Nat × Nat × Nat} {t u v : Cell} (h : SameImage shape t u)
    (h' : SameImage shape u v) : SameImage shape t v := by
  obtain ⟨i, j, k, h1, h2, h3⟩ := h
  obtain ⟨i', j', k', g1, g2, g3⟩ := h'
  exact ⟨i + i', j + j', k + k', by linarith, by linarith, by linarith⟩

theorem sameImage_shift {shape : Nat × Nat × Nat} {t u v : Cell} :
    SameImage shape (shift t v) (shift u v) ↔ SameImage shape t u := by
  constructor
  · rintro ⟨i, j, k, h1, h2, h3⟩
    simp only [shift] at h1 h2 h3
    exact ⟨i, j, k, by linarith, by linarith, by linarith⟩
  · rintro ⟨i, j, k, h1, h2, h3⟩
    exact ⟨i, j, k, by simp only [shift]; linarith, by simp only [shift]; linarith,
      by simp only [shift]; linarith⟩

/-- Two cells inside the supercell that are images of each other are equal. -/
theorem inside_eq_of_sameImage {shape : Nat × Nat × Nat} (h1 : 0 < shape.1) (h2 : 0 < shape.2.1)
    (h3 : 0 < shape.2.2) {t u : Cell} (ht : Inside shape t) (hu : Inside shape u)
    (h : SameImage shape t u) : t = u := by
  rw [← (C43_compose shape h1 h2 h3 t (0, 0, 0) (0, 0, 0)).2 ht,
    ← (C43_compose shape h1 h2 h3 u (0, 0, 0) (0, 0, 0)).2 hu, C43_unique shape h1 h2 h3]
  exact sameImage_shift.2 h

/-! ### What a generation produces -/

/-- The facts about a successful generation used below. -/
structure Generated (neighbors : Nat → List (Neighbor γ)) (isOrigin isTarget : LabeledSite σ → Bool)
    (shape : Nat × Nat × Nat) (cell : List (LabeledSite σ)) (sites : List (LabeledSite σ × Cell))
    (index : List (SiteKey × Nat)) (envInfo : List (Int × List (Neighbor γ)))
    (events : List Event) : Prop where
  p1 : 0 < shape.1
  p2 : 0 < shape.2.1
  p3 : 0 < shape.2.2
  hcell : (cell.map LabeledSite.localIndex).Nodup
  hsites : sites = supercellList cell (latticePoints shape.1 shape.2.1 shape.2.2)
  look : ∀ t l x n, dictGet index (siteIndexKey t l x) = some n ↔
    ∃ s, sites[n]? = some (s, t) ∧ s.label = l ∧ s.localIndex = x
  env : ∀ (p : Nat) s, cell[p]? = some s → isOrigin s = true →
    ∃ o, dictGet envInfo s.localIndex = some o ∧ o.Perm (neighbors p)
  all : events = (findAtomIndices (fun s => isOrigin s.1) sites).flatMap
    (eventsOf sites index (shapeCell shape) isTarget envInfo)
  each : ∀ i ∈ findAtomIndices (fun s => isOrigin s.1) sites, ∃ s t nbrs env,
    sites[i]? = some (s, t) ∧ dictGet envInfo s.localIndex = some nbrs ∧
      envIndices index (shapeCell shape) t nbrs = .ok env

theorem activeSitesOf_sublist {α : Type} (act : List Nat) (template : List α) :
    (activeSitesOf act template).Sublist template := by
  unfold activeSitesOf
  have := (List.filter_sublist (p := fun p : α × Nat => decide (p.2 ∈ act)) (l := template.zipIdx)).map
    Prod.fst
  rwa [List.zipIdx_map_fst] at this

/-- Successful generation, unpacked. -/
theorem generated {eqv : σ → σ → Bool}
    {fp : Nat → Nat → List Nat → List Nat → List Nat → Nat × Nat × Nat → List σ →
      List (List σ) → φ}
    {signature : List (Neighbor γ) → κ}
    {matcher : List (Neighbor γ) → List (Neighbor γ) → Py (List Nat)}
    {neighbors : Nat → List (Neighbor γ)} {isOrigin isTarget : LabeledSite σ → Bool}
    {template : List (LabeledSite σ)} {mapping : List (σ × List σ)} {shape : Option (List Int)}
    {lib : EventLib σ φ} (hm : MatcherPermutes matcher)
    (hd : (template.map LabeledSite.localIndex).Nodup)
    (h : generateEvents eqv fp signature matcher neighbors isOrigin isTarget template mapping shape =
      .ok lib) {order : ActiveSiteOrder σ φ}
    (ho : ActiveSiteOrder.fromStructureAndMapping eqv fp (template.map LabeledSite.species) mapping
      (some (shape.getD [2, 1, 1])) = .ok order) :
    ∃ sites index envInfo, order.activeStructure template = .ok sites ∧
      Generated neighbors isOrigin isTarget order.supercellShape
        (activeSitesOf order.primitiveActiveIndices template) sites index envInfo lib.events ∧
      lib.meta? = some order.asDict ∧
      lib.deps = some (generateEventDependencyMatrix (lib.events.map Event.sites)) ∧
      EventLib.validateEventIndices order lib.events = .ok () := by
  obtain ⟨order', tables, index, events, g1, g2, g3, g4, g5, g6, g7, g8, g9, g10⟩ := generateEvents_ok h
  rw [g1] at ho
  cases ho
  obtain ⟨p1, p2, p3⟩ := normalizeSupercellShape_ok (fromStructureAndMapping_ok g1).1
  have hcell : ((activeSitesOf order.primitiveActiveIndices template).map
      LabeledSite.localIndex).Nodup :=
    List.Nodup.sublist ((activeSitesOf_sublist _ _).map _) hd
  have hdl : ((activeSitesOf order.primitiveActiveIndices template).map
      fun s => (s.label, s.localIndex)).Nodup := by
    apply List.Nodup.of_map Prod.snd
    rw [List.map_map]
    exact hcell
  have hk := keys_nodup hdl (latticePoints_nodup order.supercellShape.1 order.supercellShape.2.1
    order.supercellShape.2.2)
  obtain ⟨e1, e2⟩ := (eventLoop_ok_iff _ _ _ _ _ _ _).1 g5
  have hz : (((activeSitesOf order.primitiveActiveIndices template).zipIdx.filter
      fun p => isOrigin p.1).map fun p => (p.2, p.1)).map (fun p => p.2.localIndex) |>.Nodup := by
    rw [List.map_map]
    have : List.map ((fun p : Nat × LabeledSite σ => p.2.localIndex) ∘ fun p : LabeledSite σ × Nat =>
        (p.2, p.1)) ((activeSitesOf order.primitiveActiveIndices template).zipIdx.filter
        fun p => isOrigin p.1) = (((activeSitesOf order.primitiveActiveIndices template).zipIdx.filter
        fun p => isOrigin p.1).map Prod.fst).map LabeledSite.localIndex := by
      rw [List.map_map]; rfl
    rw [this]
    refine List.Nodup.sublist (List.Sublist.map _ ?_) hcell
    have h0 := (List.filter_sublist (p := fun p : LabeledSite σ × Nat => isOrigin p.1)
      (l := (activeSitesOf order.primitiveActiveIndices template).zipIdx)).map Prod.fst
    rwa [List.zipIdx_map_fst] at h0
  obtain ⟨c1, c2⟩ := collectEnvironments_ok hm hz g3
  refine ⟨_, index, tables.envInfo, g2, ⟨p1, p2, p3, hcell, rfl, ?_, ?_, ?_, e2⟩, g9, ?_, ?_⟩
  · intro t l x n
    rw [siteIndex_get hk g4]
    constructor
    · rintro ⟨⟨s, t'⟩, h1, h2⟩
      have : keyOf (s, t') = keyOf ((⟨s.species, l, x⟩ : LabeledSite σ), t) := h2
      rw [keyOf_eq_iff] at this
      simp only at this
      obtain ⟨rfl, a, b⟩ := this
      exact ⟨s, h1, a, b⟩
    · rintro ⟨s, h1, rfl, rfl⟩
      exact ⟨(s, t), h1, rfl⟩
  · intro p s hp hs
    exact c1 (p, s) (List.mem_map.2 ⟨(s, p), List.mem_filter.2
      ⟨by rw [List.mem_zipIdx_iff_getElem?]; simpa using hp, hs⟩, rfl⟩)
  · rw [g7]; exact e1
  · rw [g8, g7]
  · rw [g7]; exact g10

namespace Generated
variable {neighbors : Nat → List (Neighbor γ)} {isOrigin isTarget : LabeledSite σ → Bool}
    {shape : Nat × Nat × Nat} {cell : List (LabeledSite σ)} {sites : List (LabeledSite σ × Cell)}
    {index : List (SiteKey × Nat)} {envInfo : List (Int × List (Neighbor γ))}
    {events : List Event}

omit [DecidableEq κ] in
theorem mem_sites (g : Generated neighbors isOrigin isTarget shape cell sites index envInfo events)
    (s : LabeledSite σ) (t : Cell) : (s, t) ∈ sites ↔ s ∈ cell ∧ Inside shape t := by
  rw [g.hsites, mem_supercellList, mem_latticePoints]; rfl

theorem site_inj (g : Generated neighbors isOrigin isTarget shape cell sites index envInfo events)
    {s s' : LabeledSite σ} (hs : s ∈ cell) (hs' : s' ∈ cell) (h : s.localIndex = s'.localIndex) :
    s = s' := List.inj_on_of_nodup_map g.hcell hs hs' h

theorem pos_inj (g : Generated neighbors isOrigin isTarget shape cell sites index envInfo events)
    {i j : Nat} {p : LabeledSite σ × Cell} (hi : sites[i]? = some p) (hj : sites[j]? = some p) :
    i = j := by
  obtain ⟨s, t⟩ := p
  have h1 := (g.look t s.label s.localIndex i).2 ⟨s, hi, rfl, rfl⟩
  have h2 := (g.look t s.label s.localIndex j).2 ⟨s, hj, rfl, rfl⟩
  rw [h1] at h2
  exact Option.some.inj h2

/-- Site of the key of a neighbour. -/
theorem neighbor_site
    (g : Generated neighbors isOrigin isTarget shape cell sites index envInfo events)
    {t : Cell} {nb : Neighbor γ} {n : Nat}
    (h : dictGet index (siteIndexKey (normalizeSupercellTuple t nb.image (shapeCell shape)) nb.label
      nb.localIndex) = some n) :
    ∃ s' t', sites[n]? = some (s', t') ∧ s'.label = nb.label ∧ s'.localIndex = nb.localIndex ∧
      SameImage shape t' (shift t nb.image) := by
  obtain ⟨s', h1, h2, h3⟩ := (g.look _ _ _ _).1 h
  exact ⟨s', _, h1, h2, h3, (C43_normalized_cell shape g.p1 g.p2 g.p3 t nb.image).2⟩

/-- Membership in the generated events. -/
theorem mem_events (g : Generated neighbors isOrigin isTarget shape cell sites index envInfo events)
    (e : Event) : e ∈ events ↔ ∃ (i : Nat), ∃ s t nbrs env, ∃ (j : Nat), ∃ s' t',
      sites[i]? = some (s, t) ∧ isOrigin s = true ∧ dictGet envInfo s.localIndex = some nbrs ∧
      envIndices index (shapeCell shape) t nbrs = .ok env ∧ j ∈ env ∧ sites[j]? = some (s', t') ∧
      isTarget s' = true ∧
      e = { mobile := [(i : Int), (j : Int)], env := env.map fun (k : Nat) => (k : Int) } := by
  rw [g.all, List.mem_flatMap]
  constructor
  · rintro ⟨i, hi, he⟩
    obtain ⟨s, t, nbrs, env, h1, h2, h3⟩ := g.each i hi
    obtain ⟨p, hp, hpo⟩ := (mem_findAtomIndices _ _ _).1 hi
    rw [h1] at hp; cases hp
    simp only [eventsOf, h1, h2, h3, eventsToTargets, List.mem_map, List.mem_filter] at he
    obtain ⟨j, ⟨hj, hjt⟩, rfl⟩ := he
    cases hs : sites[j]? with
    | none => rw [hs] at hjt; cases hjt
    | some q =>
      obtain ⟨s', t'⟩ := q
      rw [hs] at hjt
      exact ⟨i, s, t, nbrs, env, j, s', t', h1, hpo, h2, h3, hj, hs, hjt, rfl⟩
  · rintro ⟨i, s, t, nbrs, env, j, s', t', h1, h2, h3, h4, h5, h6, h7, rfl⟩
    refine ⟨i, (mem_findAtomIndices _ _ _).2 ⟨(s, t), h1, h2⟩, ?_⟩
    simp only [eventsOf, h1, h3, h4, eventsToTargets, List.mem_map, List.mem_filter]
    exact ⟨j, ⟨h5, by rw [h6]; exact h7⟩, rfl⟩

end Generated

/-! ### C45 -/

/-- C45.  Every generated event moves a mobile species from a site accepted as origin to a site
accepted as target that is one of its neighbours, and its environment lists exactly the
neighbours of the origin site, wrapped into the supercell.  Sites are numbered as in the active
structure of the order stored in the library. -/
theorem C45_events_describe_hops {eqv : σ → σ → Bool}
    {fp : Nat → Nat → List Nat → List Nat → List Nat → Nat × Nat × Nat → List σ →
      List (List σ) → φ}
    {signature : List (Neighbor γ) → κ}
    {matcher : List (Neighbor γ) → List (Neighbor γ) → Py (List Nat)}
    {neighbors : Nat → List (Neighbor γ)} {isOrigin isTarget : LabeledSite σ → Bool}
    {template : List (LabeledSite σ)} {mapping : List (σ × List σ)} {shape : Option (List Int)}
    {lib : EventLib σ φ} (hm : MatcherPermutes matcher)
    (hd : (template.map LabeledSite.localIndex).Nodup)
    (h : generateEvents eqv fp signature matcher neighbors isOrigin isTarget template mapping shape =
      .ok lib) :
    ∃ order sites,
      ActiveSiteOrder.fromStructureAndMapping eqv fp (template.map LabeledSite.species) mapping
        (some (shape.getD [2, 1, 1])) = .ok order ∧
      order.activeStructure template = .ok sites ∧ lib.meta? = some order.asDict ∧
      ∀ e ∈ lib.events, ∃ i j s t s' t', e.mobile = [((i : Nat) : Int), ((j : Nat) : Int)] ∧
        sites[i]? = some (s, t) ∧ isOrigin s = true ∧
        sites[j]? = some (s', t') ∧ isTarget s' = true ∧ (j : Int) ∈ e.env ∧
        ∃ (p : Nat) (nbrs : List (Neighbor γ)),
          (activeSitesOf order.primitiveActiveIndices template)[p]? = some s ∧
          nbrs.Perm (neighbors p) ∧
          List.Forall₂ (fun nb (k : Int) => ∃ (n : Nat) (s₂ : LabeledSite σ) (t₂ : Cell), k = (n : Int) ∧
            sites[n]? = some (s₂, t₂) ∧ s₂.label = nb.label ∧ s₂.localIndex = nb.localIndex ∧
            SameImage order.supercellShape t₂ (shift t nb.image)) nbrs e.env := by
  obtain ⟨order, tables, index0, events0, g1, -⟩ := generateEvents_ok h
  obtain ⟨sites, index, envInfo, ha, g, hmeta, -, -⟩ := generated hm hd h g1
  refine ⟨order, sites, g1, ha, hmeta, ?_⟩
  intro e he
  obtain ⟨i, s, t, nbrs, env, j, s', t', h1, h2, h3, h4, h5, h6, h7, rfl⟩ := (g.mem_events e).1 he
  have hsc := ((g.mem_sites s t).1 (List.mem_of_getElem? h1)).1
  obtain ⟨p, hp⟩ := List.getElem?_of_mem hsc
  obtain ⟨o, ho, hperm⟩ := g.env p s hp h2
  rw [h3] at ho; cases ho
  refine ⟨i, j, s, t, s', t', rfl, h1, h2, h6, h7, List.mem_map_of_mem h5, p, nbrs, hp, hperm, ?_⟩
  rw [List.forall₂_map_right_iff]
  refine ((envIndices_ok_iff _ _ _ _ _).1 h4).imp ?_
  intro nb n hn
  obtain ⟨s2, t2, q1, q2, q3, q4⟩ := g.neighbor_site hn
  exact ⟨n, s2, t2, rfl, q1, q2, q3, q4⟩

/-- C45.  No hop is missing: every origin site of the supercell has an event to each of its
neighbours that is accepted as target. -/
theorem C45_no_hop_missing {eqv : σ → σ → Bool}
    {fp : Nat → Nat → List Nat → List Nat → List Nat → Nat × Nat × Nat → List σ →
      List (List σ) → φ}
    {signature : List (Neighbor γ) → κ}
    {matcher : List (Neighbor γ) → List (Neighbor γ) → Py (List Nat)}
    {neighbors : Nat → List (Neighbor γ)} {isOrigin isTarget : LabeledSite σ → Bool}
    {template : List (LabeledSite σ)} {mapping : List (σ × List σ)} {shape : Option (List Int)}
    {lib : EventLib σ φ} (hm : MatcherPermutes matcher)
    (hd : (template.map LabeledSite.localIndex).Nodup)
    (h : generateEvents eqv fp signature matcher neighbors isOrigin isTarget template mapping shape =
      .ok lib) {order : ActiveSiteOrder σ φ}
    (ho : ActiveSiteOrder.fromStructureAndMapping eqv fp (template.map LabeledSite.species) mapping
      (some (shape.getD [2, 1, 1])) = .ok order)
    {sites : List (LabeledSite σ × Cell)} (hs : order.activeStructure template = .ok sites)
    {i p j : Nat} {s s' : LabeledSite σ} {t t' : Cell} (hi : sites[i]? = some (s, t))
    (hio : isOrigin s = true)
    (hp : (activeSitesOf order.primitiveActiveIndices template)[p]? = some s)
    {nb : Neighbor γ} (hnb : nb ∈ neighbors p) (hj : sites[j]? = some (s', t'))
    (hl : s'.label = nb.label) (hx : s'.localIndex = nb.localIndex)
    (hc : SameImage order.supercellShape t' (shift t nb.image)) (hjt : isTarget s' = true) :
    ∃ e ∈ lib.events, e.mobile = [(i : Int), (j : Int)] := by
  obtain ⟨sites0, index, envInfo, ha, g, -⟩ := generated hm hd h ho
  rw [hs] at ha; cases ha
  obtain ⟨s0, t0, nbrs, env, h1, h2, h3⟩ := g.each i ((mem_findAtomIndices _ _ _).2 ⟨(s, t), hi, hio⟩)
  rw [hi] at h1; cases h1
  obtain ⟨o, ho', hperm⟩ := g.env p s hp hio
  rw [h2] at ho'; cases ho'
  have hmem : nb ∈ nbrs := hperm.mem_iff.2 hnb
  have hf := (envIndices_ok_iff _ _ _ _ _).1 h3
  obtain ⟨m, hm'⟩ := List.getElem?_of_mem hmem
  have hml : m < nbrs.length := (List.getElem?_eq_some_iff.1 hm').1
  have hme : m < env.length := by rw [← hf.length_eq]; exact hml
  have hlook := List.Forall₂.get hf hml hme
  simp only [List.get_eq_getElem] at hlook
  rw [List.getElem?_eq_some_iff] at hm'
  obtain ⟨_, hm'⟩ := hm'
  rw [hm'] at hlook
  obtain ⟨s2, q1, q2, q3⟩ := (g.look _ _ _ _).1 hlook
  have c1 := (g.mem_sites _ _).1 (List.mem_of_getElem? q1)
  have c2 := (g.mem_sites _ _).1 (List.mem_of_getElem? hj)
  have es : s2 = s' := g.site_inj c1.1 c2.1 (by rw [q3, hx])
  subst es
  have et := inside_eq_of_sameImage g.p1 g.p2 g.p3 c2.2 c1.2
    (SameImage.trans hc (SameImage.symm (C43_normalized_cell _ g.p1 g.p2 g.p3 t nb.image).2))
  rw [← et] at q1
  have ej : env[m] = j := g.pos_inj q1 hj
  refine ⟨_, (g.mem_events _).2 ⟨i, s, t, nbrs, env, j, s2, t', hi, hio, h2, h3, ?_, hj, hjt, rfl⟩, rfl⟩
  rw [← ej]
  exact List.getElem_mem hme

/-- C45.  All site numbers of generated events are valid active sites. -/
theorem C45_indices_valid {eqv : σ → σ → Bool}
    {fp : Nat → Nat → List Nat → List Nat → List Nat → Nat × Nat × Nat → List σ →
      List (List σ) → φ}
    {signature : List (Neighbor γ) → κ}
    {matcher : List (Neighbor γ) → List (Neighbor γ) → Py (List Nat)}
    {neighbors : Nat → List (Neighbor γ)} {isOrigin isTarget : LabeledSite σ → Bool}
    {template : List (LabeledSite σ)} {mapping : List (σ × List σ)} {shape : Option (List Int)}
    {lib : EventLib σ φ}
    (h : generateEvents eqv fp signature matcher neighbors isOrigin isTarget template mapping shape =
      .ok lib) :
    ∃ order, ActiveSiteOrder.fromStructureAndMapping eqv fp (template.map LabeledSite.species) mapping
        (some (shape.getD [2, 1, 1])) = .ok order ∧ lib.meta? = some order.asDict ∧
      ∀ e ∈ lib.events, ∀ k ∈ e.mobile ++ e.env, 0 ≤ k ∧ k < order.activeSiteCount := by
  obtain ⟨order, tables, index, events, g1, g2, g3, g4, g5, g6, g7, g8, g9, g10⟩ := generateEvents_ok h
  refine ⟨order, g1, g9, ?_⟩
  rcases validateEventIndices_cases order events with ⟨-, hv⟩ | ⟨hv, -⟩
  · rw [g7]; exact hv
  · rw [g10] at hv; cases hv

/-! ### C45: periodic translations -/

/-- Number of a site from its properties and cell. -/
def siteNumber (index : List (SiteKey × Nat)) (s : LabeledSite σ) (t : Cell) : Nat :=
  (dictGet index (siteIndexKey t s.label s.localIndex)).getD 0

/-- The translation by `v` as a map of site numbers. -/
def translate (sites : List (LabeledSite σ × Cell)) (index : List (SiteKey × Nat))
    (shape : Nat × Nat × Nat) (v : Cell) (n : Nat) : Nat :=
  match sites[n]? with
  | none => n
  | some p => siteNumber index p.1 (normalizeSupercellTuple p.2 v (shapeCell shape))

namespace Generated
variable {neighbors : Nat → List (Neighbor γ)} {isOrigin isTarget : LabeledSite σ → Bool}
    {shape : Nat × Nat × Nat} {cell : List (LabeledSite σ)} {sites : List (LabeledSite σ × Cell)}
    {index : List (SiteKey × Nat)} {envInfo : List (Int × List (Neighbor γ))}
    {events : List Event}

theorem translate_site
    (g : Generated neighbors isOrigin isTarget shape cell sites index envInfo events) (v : Cell)
    {n : Nat} {s : LabeledSite σ} {t : Cell} (h : sites[n]? = some (s, t)) :
    sites[translate sites index shape v n]? =
      some (s, normalizeSupercellTuple t v (shapeCell shape)) := by
  have hm := (g.mem_sites s t).1 (List.mem_of_getElem? h)
  have hm' := (g.mem_sites s _).2 ⟨hm.1, (C43_normalized_cell shape g.p1 g.p2 g.p3 t v).1⟩
  obtain ⟨m, hm'⟩ := List.getElem?_of_mem hm'
  have hl := (g.look _ s.label s.localIndex m).2 ⟨s, hm', rfl, rfl⟩
  unfold translate
  rw [h]
  simp only [siteNumber, hl, Option.getD_some]
  exact hm'

theorem translate_inj
    (g : Generated neighbors isOrigin isTarget shape cell sites index envInfo events) (v : Cell)
    {i j : Nat} (hi : i < sites.length) (hj : j < sites.length)
    (h : translate sites index shape v i = translate sites index shape v j) : i = j := by
  obtain ⟨⟨s, t⟩, e1⟩ : ∃ p, sites[i]? = some p := ⟨_, List.getElem?_eq_getElem hi⟩
  obtain ⟨⟨s', t'⟩, e2⟩ : ∃ p, sites[j]? = some p := ⟨_, List.getElem?_eq_getElem hj⟩
  have h1 := g.translate_site v e1
  have h2 := g.translate_site v e2
  rw [h, h2] at h1
  simp only [Option.some.injEq, Prod.mk.injEq] at h1
  obtain ⟨rfl, hc⟩ := h1
  rw [C43_unique shape g.p1 g.p2 g.p3] at hc
  have := inside_eq_of_sameImage g.p1 g.p2 g.p3 ((g.mem_sites _ _).1 (List.mem_of_getElem? e2)).2
    ((g.mem_sites _ _).1 (List.mem_of_getElem? e1)).2 (sameImage_shift.1 hc)
  subst this
  exact g.pos_inj e1 e2

theorem translate_isTranslation
    (g : Generated neighbors isOrigin isTarget shape cell sites index envInfo events) (v : Cell) :
    IsTranslation shape sites v (translate sites index shape v) := by
  refine ⟨fun i j hi hj h => g.translate_inj v hi hj h, fun i s t h => ?_⟩
  exact ⟨_, g.translate_site v h, (C43_normalized_cell shape g.p1 g.p2 g.p3 t v).2⟩

/-- Looking up a neighbour commutes with translating. -/
theorem translate_env
    (g : Generated neighbors isOrigin isTarget shape cell sites index envInfo events) (v : Cell)
    {t : Cell} {nbrs : List (Neighbor γ)} {env : List Nat}
    (h : envIndices index (shapeCell shape) t nbrs = .ok env) :
    envIndices index (shapeCell shape) (normalizeSupercellTuple t v (shapeCell shape)) nbrs =
      .ok (env.map (translate sites index shape v)) := by
  rw [envIndices_ok_iff] at h ⊢
  rw [List.forall₂_map_right_iff]
  refine h.imp ?_
  intro nb n hn
  obtain ⟨s, h1, h2, h3⟩ := (g.look _ _ _ _).1 hn
  rw [g.look]
  refine ⟨s, ?_, h2, h3⟩
  rw [g.translate_site v h1, (C43_compose shape g.p1 g.p2 g.p3 t nb.image v).1,
    (C43_compose shape g.p1 g.p2 g.p3 t v nb.image).1]
  congr 3
  simp only [shift]
  rw [add_comm nb.image.1, add_comm nb.image.2.1, add_comm nb.image.2.2]

theorem translate_events
    (g : Generated neighbors isOrigin isTarget shape cell sites index envInfo events) (v : Cell)
    {i : Nat} (hi : i ∈ findAtomIndices (fun s => isOrigin s.1) sites) :
    eventsOf sites index (shapeCell shape) isTarget envInfo (translate sites index shape v i) =
      (eventsOf sites index (shapeCell shape) isTarget envInfo i).map
        (relabel (translate sites index shape v)) := by
  obtain ⟨s, t, nbrs, env, h1, h2, h3⟩ := g.each i hi
  have h1' := g.translate_site v h1
  have h3' := g.translate_env v h3
  simp only [eventsOf, h1, h2, h3, h1', h3', eventsToTargets, List.map_map]
  rw [List.filter_map, List.map_map]
  have hf : env.filter ((fun t => match sites[t]? with
        | some s => isTarget s.1
        | none => false) ∘ translate sites index shape v) =
      env.filter (fun t => match sites[t]? with
        | some s => isTarget s.1
        | none => false) := by
    apply List.filter_congr
    intro k hk
    have hlt : ∃ p, sites[k]? = some p := by
      obtain ⟨m, hm⟩ := List.getElem?_of_mem hk
      have hf := (envIndices_ok_iff _ _ _ _ _).1 h3
      have hml := (List.getElem?_eq_some_iff.1 hm).1
      have hl := List.Forall₂.get hf (by rw [hf.length_eq]; exact hml) hml
      simp only [List.get_eq_getElem] at hl
      rw [(List.getElem?_eq_some_iff.1 hm).2] at hl
      obtain ⟨s, q, -⟩ := (g.look _ _ _ _).1 hl
      exact ⟨_, q⟩
    obtain ⟨⟨s', t'⟩, hk'⟩ := hlt
    simp only [Function.comp_apply, g.translate_site v hk', hk']
  refine Eq.trans (congrArg _ hf) ?_
  apply List.map_congr_left
  intro k hk
  simp only [Function.comp_apply, relabel, List.map_cons, List.map_nil, List.map_map, Int.toNat_natCast]
  congr 1

/-- The origins are permuted by a translation. -/
theorem translate_origins
    (g : Generated neighbors isOrigin isTarget shape cell sites index envInfo events) (v : Cell) :
    ((findAtomIndices (fun s => isOrigin s.1) sites).map (translate sites index shape v)).Perm
      (findAtomIndices (fun s => isOrigin s.1) sites) := by
  have hlt : ∀ i ∈ findAtomIndices (fun s => isOrigin s.1) sites, i < sites.length := by
    intro i hi
    obtain ⟨p, hp, -⟩ := (mem_findAtomIndices _ _ _).1 hi
    exact (List.getElem?_eq_some_iff.1 hp).1
  have hnd : ((findAtomIndices (fun s => isOrigin s.1) sites).map
      (translate sites index shape v)).Nodup := by
    refine List.Nodup.map_on ?_ (findAtomIndices_nodup _ _)
    intro i hi j hj h
    exact g.translate_inj v (hlt i hi) (hlt j hj) h
  have hsub : (findAtomIndices (fun s => isOrigin s.1) sites).map (translate sites index shape v) ⊆
      findAtomIndices (fun s => isOrigin s.1) sites := by
    intro m hm
    obtain ⟨i, hi, rfl⟩ := List.mem_map.1 hm
    obtain ⟨⟨s, t⟩, hp, ho⟩ := (mem_findAtomIndices _ _ _).1 hi
    exact (mem_findAtomIndices _ _ _).2 ⟨_, g.translate_site v hp, ho⟩
  exact (List.subperm_of_subset hnd hsub).perm_of_length_le (by simp)

end Generated

/-- C45.  The generated events are invariant under the translations of the supercell: moving all
site numbers of all events by a lattice vector gives the same events in another order. -/
theorem C45_translation_invariant {eqv : σ → σ → Bool}
    {fp : Nat → Nat → List Nat → List Nat → List Nat → Nat × Nat × Nat → List σ →
      List (List σ) → φ}
    {signature : List (Neighbor γ) → κ}
    {matcher : List (Neighbor γ) → List (Neighbor γ) → Py (List Nat)}
    {neighbors : Nat → List (Neighbor γ)} {isOrigin isTarget : LabeledSite σ → Bool}
    {template : List (LabeledSite σ)} {mapping : List (σ × List σ)} {shape : Option (List Int)}
    {lib : EventLib σ φ} (hm : MatcherPermutes matcher)
    (hd : (template.map LabeledSite.localIndex).Nodup)
    (h : generateEvents eqv fp signature matcher neighbors isOrigin isTarget template mapping shape =
      .ok lib) (v : Cell) :
    ∃ order sites π,
      ActiveSiteOrder.fromStructureAndMapping eqv fp (template.map LabeledSite.species) mapping
        (some (shape.getD [2, 1, 1])) = .ok order ∧
      order.activeStructure template = .ok sites ∧
      IsTranslation order.supercellShape sites v π ∧
      (lib.events.map (relabel π)).Perm lib.events := by
  obtain ⟨order, tables, index0, events0, g1, -⟩ := generateEvents_ok h
  obtain ⟨sites, index, envInfo, ha, g, -⟩ := generated hm hd h g1
  refine ⟨order, sites, _, g1, ha, g.translate_isTranslation v, ?_⟩
  rw [g.all, List.map_flatMap]
  have : (findAtomIndices (fun s => isOrigin s.1) sites).flatMap (fun i =>
      (eventsOf sites index (shapeCell order.supercellShape) isTarget envInfo i).map
        (relabel (translate sites index order.supercellShape v))) =
      ((findAtomIndices (fun s => isOrigin s.1) sites).map
        (translate sites index order.supercellShape v)).flatMap
        (eventsOf sites index (shapeCell order.supercellShape) isTarget envInfo) := by
    rw [List.flatMap_map]
    apply List.flatMap_congr
    intro i hi
    exact (g.translate_events v hi).symm
  rw [this]
  exact (g.translate_origins v).flatMap_right _

/-! ### C61 -/

/-- Neighbour `nb` and neighbour `nb'` are the same site of the supercell. -/
def SameSite (shape : Nat × Nat × Nat) (nb nb' : Neighbor γ) : Prop :=
  nb.localIndex = nb'.localIndex ∧ SameImage shape nb.image nb'.image

/-- C61.  When no origin site has its own periodic image among its neighbours, every event has two
different end points. -/
theorem C61_end_points_differ {eqv : σ → σ → Bool}
    {fp : Nat → Nat → List Nat → List Nat → List Nat → Nat × Nat × Nat → List σ →
      List (List σ) → φ}
    {signature : List (Neighbor γ) → κ}
    {matcher : List (Neighbor γ) → List (Neighbor γ) → Py (List Nat)}
    {neighbors : Nat → List (Neighbor γ)} {isOrigin isTarget : LabeledSite σ → Bool}
    {template : List (LabeledSite σ)} {mapping : List (σ × List σ)} {shape : Option (List Int)}
    {lib : EventLib σ φ} (hm : MatcherPermutes matcher)
    (hd : (template.map LabeledSite.localIndex).Nodup)
    (h : generateEvents eqv fp signature matcher neighbors isOrigin isTarget template mapping shape =
      .ok lib) {order : ActiveSiteOrder σ φ}
    (ho : ActiveSiteOrder.fromStructureAndMapping eqv fp (template.map LabeledSite.species) mapping
      (some (shape.getD [2, 1, 1])) = .ok order)
    (hself : ∀ (p : Nat) s, (activeSitesOf order.primitiveActiveIndices template)[p]? = some s →
      isOrigin s = true → ∀ nb ∈ neighbors p,
        ¬ (nb.localIndex = s.localIndex ∧ SameImage order.supercellShape nb.image (0, 0, 0)))
    (e : Event) (he : e ∈ lib.events) (i j : Int) (hij : e.mobile = [i, j]) : i ≠ j := by
  obtain ⟨sites, index, envInfo, ha, g, -⟩ := generated hm hd h ho
  obtain ⟨i', s, t, nbrs, env, j', s', t', h1, h2, h3, h4, h5, h6, h7, rfl⟩ := (g.mem_events e).1 he
  simp only [List.cons.injEq, and_true] at hij
  obtain ⟨rfl, rfl⟩ := hij
  intro hij
  have hij' : i' = j' := by exact_mod_cast hij
  subst hij'
  rw [h1] at h6; cases h6
  have hsc := (g.mem_sites s t).1 (List.mem_of_getElem? h1)
  obtain ⟨p, hp⟩ := List.getElem?_of_mem hsc.1
  obtain ⟨o, ho', hperm⟩ := g.env p s hp h2
  rw [h3] at ho'; cases ho'
  have hf := (envIndices_ok_iff _ _ _ _ _).1 h4
  obtain ⟨m, hm'⟩ := List.getElem?_of_mem h5
  have hml := (List.getElem?_eq_some_iff.1 hm').1
  have hnl : m < nbrs.length := by rw [hf.length_eq]; exact hml
  have hl := List.Forall₂.get hf hnl hml
  simp only [List.get_eq_getElem] at hl
  rw [(List.getElem?_eq_some_iff.1 hm').2] at hl
  obtain ⟨s2, t2, q1, q2, q3, q4⟩ := g.neighbor_site hl
  rw [h1] at q1; cases q1
  refine hself p s hp h2 _ (hperm.mem_iff.1 (List.getElem_mem hnl)) ⟨q3.symm, ?_⟩
  obtain ⟨a, b, c, e1, e2, e3⟩ := q4
  simp only [shift] at e1 e2 e3
  exact ⟨-a, -b, -c, by linarith, by linarith, by linarith⟩

/-- Two lists related pointwise, where unrelated entries are sent to different values. -/
theorem nodup_of_forall₂ {α β : Type} {R : α → β → Prop} {S : α → α → Prop} {l : List α} {l' : List β}
    (h : List.Forall₂ R l l') (hp : l.Pairwise fun a b => ¬ S a b)
    (hs : ∀ a a' b, R a b → R a' b → S a a') : l'.Nodup := by
  induction h with
  | nil => exact List.nodup_nil
  | @cons a b l l' h1 h2 ih =>
    rw [List.pairwise_cons] at hp
    refine List.nodup_cons.2 ⟨?_, ih hp.2⟩
    intro hb
    obtain ⟨m, hm⟩ := List.getElem?_of_mem hb
    have hml := (List.getElem?_eq_some_iff.1 hm).1
    have hnl : m < l.length := by rw [h2.length_eq]; exact hml
    have hl := List.Forall₂.get h2 hnl hml
    simp only [List.get_eq_getElem] at hl
    rw [(List.getElem?_eq_some_iff.1 hm).2] at hl
    exact hp.1 _ (List.getElem_mem hnl) (hs _ _ _ h1 hl)

/-- C61.  When no two neighbours of an origin site are the same site of the supercell, every hop is
listed once: no two events have the same end points. -/
theorem C61_each_hop_listed_once {eqv : σ → σ → Bool}
    {fp : Nat → Nat → List Nat → List Nat → List Nat → Nat × Nat × Nat → List σ →
      List (List σ) → φ}
    {signature : List (Neighbor γ) → κ}
    {matcher : List (Neighbor γ) → List (Neighbor γ) → Py (List Nat)}
    {neighbors : Nat → List (Neighbor γ)} {isOrigin isTarget : LabeledSite σ → Bool}
    {template : List (LabeledSite σ)} {mapping : List (σ × List σ)} {shape : Option (List Int)}
    {lib : EventLib σ φ} (hm : MatcherPermutes matcher)
    (hd : (template.map LabeledSite.localIndex).Nodup)
    (h : generateEvents eqv fp signature matcher neighbors isOrigin isTarget template mapping shape =
      .ok lib) {order : ActiveSiteOrder σ φ}
    (ho : ActiveSiteOrder.fromStructureAndMapping eqv fp (template.map LabeledSite.species) mapping
      (some (shape.getD [2, 1, 1])) = .ok order)
    (hdis : ∀ (p : Nat) s, (activeSitesOf order.primitiveActiveIndices template)[p]? = some s →
      isOrigin s = true →
        (neighbors p).Pairwise fun a b => ¬ SameSite order.supercellShape a b) :
    (lib.events.map Event.mobile).Nodup := by
  obtain ⟨sites, index, envInfo, ha, g, -⟩ := generated hm hd h ho
  rw [g.all, List.map_flatMap, List.nodup_flatMap]
  constructor
  · intro i hi
    obtain ⟨s, t, nbrs, env, h1, h2, h3⟩ := g.each i hi
    obtain ⟨q, hq, hio⟩ := (mem_findAtomIndices _ _ _).1 hi
    rw [h1] at hq; cases hq
    have hsc := (g.mem_sites s t).1 (List.mem_of_getElem? h1)
    obtain ⟨p, hp⟩ := List.getElem?_of_mem hsc.1
    obtain ⟨o, ho', hperm⟩ := g.env p s hp hio
    rw [h2] at ho'; cases ho'
    have hf := (envIndices_ok_iff _ _ _ _ _).1 h3
    have hpw : nbrs.Pairwise fun a b => ¬ SameSite order.supercellShape a b := by
      refine (hperm.pairwise_iff ?_).2 (hdis p s hp hio)
      intro a b hab hba
      exact hab ⟨hba.1.symm, SameImage.symm hba.2⟩
    have hnd : env.Nodup := by
      refine nodup_of_forall₂ hf hpw ?_
      intro a b n ha hb
      obtain ⟨s1, t1, a1, a2, a3, a4⟩ := g.neighbor_site ha
      obtain ⟨s2, t2, b1, b2, b3, b4⟩ := g.neighbor_site hb
      rw [a1] at b1; cases b1
      refine ⟨by rw [← a3, b3], ?_⟩
      have := SameImage.trans (SameImage.symm a4) b4
      obtain ⟨x, y, z, e1, e2, e3⟩ := this
      simp only [shift] at e1 e2 e3
      exact ⟨x, y, z, by linarith, by linarith, by linarith⟩
    simp only [eventsOf, h1, h2, h3, eventsToTargets, List.map_map]
    refine List.Nodup.map ?_ (hnd.filter _)
    intro a b hab
    simpa using hab
  · refine (findAtomIndices_nodup _ _).imp_of_mem ?_
    intro i j hi hj hij
    rw [Function.onFun, List.disjoint_left]
    intro m hmi hmj
    have hfirst : ∀ k, m ∈ (eventsOf sites index (shapeCell order.supercellShape) isTarget envInfo k).map
        Event.mobile → m.head? = some (k : Int) := by
      intro k hk
      obtain ⟨e, he, rfl⟩ := List.mem_map.1 hk
      unfold eventsOf at he
      split at he
      · cases he
      · split at he
        · cases he
        · split at he
          · cases he
          · simp only [eventsToTargets, List.mem_map] at he
            obtain ⟨t, -, rfl⟩ := he
            rfl
    have h1 := hfirst i hmi
    have h2 := hfirst j hmj
    rw [h1] at h2
    apply hij
    simpa using h2

/-! ### C45: success -/

theorem pickAll_isOk {α : Type} (l : List α) (is : List Nat) (h : ∀ i ∈ is, i < l.length) :
    ∃ vs, ActiveSiteOrder.pickAll l is = .ok vs := by
  induction is with
  | nil => exact ⟨[], rfl⟩
  | cons i is ih =>
    obtain ⟨vs, hv⟩ := ih fun j hj => h j (List.mem_cons_of_mem _ hj)
    refine ⟨l[i]'(h i List.mem_cons_self) :: vs, ?_⟩
    simp [ActiveSiteOrder.pickAll, hv, List.getElem?_eq_getElem (h i List.mem_cons_self)]

theorem collectEnvironments_isOk {signature : List (Neighbor γ) → κ}
    {matcher : List (Neighbor γ) → List (Neighbor γ) → Py (List Nat)} (hm : MatcherPermutes matcher)
    (ht : ∀ ref nbrs, signature ref = signature nbrs → ∃ perm, matcher ref nbrs = .ok perm)
    {neighbors : Nat → List (Neighbor γ)} (l : List (Nat × LabeledSite σ)) (t : EnvTables κ γ)
    (hrefs : ∀ k ref, dictGet t.refs k = some ref → signature ref = k) :
    ∃ t', collectEnvironments signature matcher neighbors l t = .ok t' := by
  induction l generalizing t with
  | nil => exact ⟨t, rfl⟩
  | cons p l ih =>
    obtain ⟨i, s⟩ := p
    have h1 : ∃ t1, matchOrRegister signature matcher s.localIndex (neighbors i) t = .ok t1 ∧
        ∀ k ref, dictGet t1.refs k = some ref → signature ref = k := by
      unfold matchOrRegister
      split
      · refine ⟨_, rfl, ?_⟩
        intro k ref hk
        rw [dictGet_dictSet] at hk
        split at hk
        · rename_i he
          cases hk; exact he.symm
        · exact hrefs k ref hk
      · rename_i ref hr
        obtain ⟨perm, hp⟩ := ht ref (neighbors i) (hrefs _ _ hr)
        obtain ⟨vs, hv⟩ := pickAll_isOk (neighbors i) perm fun k hk => by
          have := (hm _ _ _ hp).mem_iff.1 hk
          simpa using this
        rw [hp]
        simp only
        rw [hv]
        exact ⟨_, rfl, hrefs⟩
    obtain ⟨t1, h1, hrefs1⟩ := h1
    obtain ⟨t2, h2⟩ := ih t1 hrefs1
    refine ⟨t2, ?_⟩
    simp only [collectEnvironments, h1, h2]

theorem prim_of_order {eqv : σ → σ → Bool}
    {fp : Nat → Nat → List Nat → List Nat → List Nat → Nat × Nat × Nat → List σ →
      List (List σ) → φ}
    {template : List σ} {mapping : List (σ × List σ)} {shape : Option (List Int)}
    {o : ActiveSiteOrder σ φ}
    (h : ActiveSiteOrder.fromStructureAndMapping eqv fp template mapping shape = .ok o) :
    ∃ prim, ActiveSiteOrder.fromStructureAndMapping eqv fp template mapping none = .ok prim := by
  obtain ⟨-, h2, h3, h4, -⟩ := fromStructureAndMapping_ok h
  unfold ActiveSiteOrder.fromStructureAndMapping
  simp only [normalizeSupercellShape, h2]
  rw [if_neg (by rw [← h3]; exact h4)]
  exact ⟨_, rfl⟩

/-- C45.  Generation succeeds when the order exists, the neighbours of origin sites are sites of the
active cell, environments can be matched, and at least one origin site has a target neighbour. -/
theorem C45_generation_succeeds {eqv : σ → σ → Bool}
    {fp : Nat → Nat → List Nat → List Nat → List Nat → Nat × Nat × Nat → List σ →
      List (List σ) → φ}
    {signature : List (Neighbor γ) → κ}
    {matcher : List (Neighbor γ) → List (Neighbor γ) → Py (List Nat)}
    {neighbors : Nat → List (Neighbor γ)} {isOrigin isTarget : LabeledSite σ → Bool}
    {template : List (LabeledSite σ)} {mapping : List (σ × List σ)} {shape : Option (List Int)}
    (hm : MatcherPermutes matcher)
    (ht : ∀ ref nbrs, signature ref = signature nbrs → ∃ perm, matcher ref nbrs = .ok perm)
    (hd : (template.map LabeledSite.localIndex).Nodup) {order : ActiveSiteOrder σ φ}
    (ho : ActiveSiteOrder.fromStructureAndMapping eqv fp (template.map LabeledSite.species) mapping
      (some (shape.getD [2, 1, 1])) = .ok order)
    (hnb : ∀ (p : Nat) s, (activeSitesOf order.primitiveActiveIndices template)[p]? = some s →
      isOrigin s = true → ∀ nb ∈ neighbors p,
        ∃ s' ∈ activeSitesOf order.primitiveActiveIndices template,
          s'.label = nb.label ∧ s'.localIndex = nb.localIndex)
    {p₀ : Nat} {s₀ s₁ : LabeledSite σ}
    (h0 : (activeSitesOf order.primitiveActiveIndices template)[p₀]? = some s₀)
    (h0o : isOrigin s₀ = true) {nb₀ : Neighbor γ} (h0n : nb₀ ∈ neighbors p₀)
    (h1 : s₁ ∈ activeSitesOf order.primitiveActiveIndices template) (h1l : s₁.label = nb₀.label)
    (h1x : s₁.localIndex = nb₀.localIndex) (h1t : isTarget s₁ = true) :
    ∃ lib, generateEvents eqv fp signature matcher neighbors isOrigin isTarget template mapping shape =
      .ok lib := by
  obtain ⟨prim, hprim⟩ := prim_of_order ho
  have hp1 := activeStructure_eq hprim
  have ha := activeStructure_eq ho
  have hsh : prim.supercellShape = (1, 1, 1) := by
    have := (fromStructureAndMapping_ok hprim).1
    simp only [normalizeSupercellShape, Except.ok.injEq] at this
    exact this.symm
  have hact : prim.primitiveActiveIndices = order.primitiveActiveIndices := by
    obtain ⟨-, pa, pact, -⟩ := fromStructureAndMapping_ok hprim
    obtain ⟨-, oa, oact, -⟩ := fromStructureAndMapping_ok ho
    rw [pact, oact]
    rw [pa] at oa
    rw [Except.ok.inj oa]
  obtain ⟨q1, q2, q3⟩ := normalizeSupercellShape_ok (fromStructureAndMapping_ok ho).1
  rw [hsh] at hp1
  have hcell : ((activeSitesOf order.primitiveActiveIndices template).map
      LabeledSite.localIndex).Nodup :=
    List.Nodup.sublist ((activeSitesOf_sublist _ _).map _) hd
  have hcn : activeSitesOf order.primitiveActiveIndices template ≠ [] := List.ne_nil_of_mem h1
  obtain ⟨sites, index, c1, c2, c3, c4, c5, c6⟩ :=
    siteIndex_bijection _ hcn hcell order.supercellShape q1 q2 q3
  have hsites := makeKmcSupercell_ok c1
  rw [← hsites] at ha
  obtain ⟨tables, htab⟩ := collectEnvironments_isOk (signature := signature) hm ht
    (neighbors := neighbors)
    (((activeSitesOf order.primitiveActiveIndices template).zipIdx.filter
      fun p => isOrigin p.1).map fun p => (p.2, p.1)) {} (by intro k ref hk; cases hk)
  have hz : ((((activeSitesOf order.primitiveActiveIndices template).zipIdx.filter
      fun p => isOrigin p.1).map fun p => (p.2, p.1)).map (fun p => p.2.localIndex)).Nodup := by
    rw [List.map_map]
    have : List.map ((fun p : Nat × LabeledSite σ => p.2.localIndex) ∘ fun p : LabeledSite σ × Nat =>
        (p.2, p.1)) ((activeSitesOf order.primitiveActiveIndices template).zipIdx.filter
        fun p => isOrigin p.1) = (((activeSitesOf order.primitiveActiveIndices template).zipIdx.filter
        fun p => isOrigin p.1).map Prod.fst).map LabeledSite.localIndex := by
      rw [List.map_map]; rfl
    rw [this]
    refine List.Nodup.sublist (List.Sublist.map _ ?_) hcell
    have h0 := (List.filter_sublist (p := fun p : LabeledSite σ × Nat => isOrigin p.1)
      (l := (activeSitesOf order.primitiveActiveIndices template).zipIdx)).map Prod.fst
    rwa [List.zipIdx_map_fst] at h0
  have henv : ∀ (p : Nat) s, (activeSitesOf order.primitiveActiveIndices template)[p]? = some s →
      isOrigin s = true → ∃ o, dictGet tables.envInfo s.localIndex = some o ∧ o.Perm (neighbors p) := by
    intro p s hp hs
    exact (collectEnvironments_ok hm hz htab).1 (p, s) (List.mem_map.2 ⟨(s, p), List.mem_filter.2
      ⟨by rw [List.mem_zipIdx_iff_getElem?]; simpa using hp, hs⟩, rfl⟩)
  -- every lookup succeeds
  have hidx : ∀ nbrs : List (Neighbor γ), ∀ t : Cell,
      (∀ nb ∈ nbrs, ∃ s' ∈ activeSitesOf order.primitiveActiveIndices template,
        s'.label = nb.label ∧ s'.localIndex = nb.localIndex) →
      ∃ env, envIndices index (shapeCell order.supercellShape) t nbrs = .ok env ∧
        ∀ k ∈ env, k < sites.length := by
    intro nbrs t
    induction nbrs with
    | nil => intro _; exact ⟨[], rfl, by simp⟩
    | cons nb nbrs ih =>
      intro hall
      obtain ⟨env, e1, e2⟩ := ih fun nb hnb => hall nb (List.mem_cons_of_mem _ hnb)
      obtain ⟨s', hs', hl, hx⟩ := hall nb List.mem_cons_self
      obtain ⟨n, n1, n2⟩ := c5 s' hs' _ (C43_normalized_cell order.supercellShape q1 q2 q3 t nb.image).1
      rw [hl, hx] at n1
      refine ⟨n :: env, ?_, ?_⟩
      · simp only [envIndices, n1, e1]
      · intro k hk
        rcases List.mem_cons.1 hk with rfl | hk
        · exact (List.getElem?_eq_some_iff.1 n2).1
        · exact e2 k hk
  have hor : ∀ i ∈ findAtomIndices (fun s => isOrigin s.1) sites, ∃ s t nbrs env,
      sites[i]? = some (s, t) ∧ dictGet tables.envInfo s.localIndex = some nbrs ∧
      envIndices index (shapeCell order.supercellShape) t nbrs = .ok env ∧
      ∀ k ∈ env, k < sites.length := by
    intro i hi
    obtain ⟨⟨s, t⟩, hs, hso⟩ := (mem_findAtomIndices _ _ _).1 hi
    obtain ⟨hsc, -, -⟩ := c6 _ _ _ hs
    obtain ⟨p, hp⟩ := List.getElem?_of_mem hsc
    obtain ⟨o, ho1, ho2⟩ := henv p s hp hso
    obtain ⟨env, e1, e2⟩ := hidx o t fun nb h => hnb p s hp hso nb (ho2.mem_iff.1 h)
    exact ⟨s, t, o, env, hs, ho1, e1, e2⟩
  obtain ⟨events, hev⟩ : ∃ events, eventLoop sites index (shapeCell order.supercellShape) isTarget
      tables.envInfo (findAtomIndices (fun s => isOrigin s.1) sites) = .ok events := by
    refine ⟨_, (eventLoop_ok_iff _ _ _ _ _ _ _).2 ⟨rfl, ?_⟩⟩
    intro i hi
    obtain ⟨s, t, nbrs, env, a1, a2, a3, -⟩ := hor i hi
    exact ⟨s, t, nbrs, env, a1, a2, a3⟩
  have hev' := ((eventLoop_ok_iff _ _ _ _ _ _ _).1 hev).1
  -- some event exists
  have hne : events ≠ [] := by
    have hin : Inside order.supercellShape (0, 0, 0) := by
      refine ⟨⟨le_refl _, ?_⟩, ⟨le_refl _, ?_⟩, le_refl _, ?_⟩ <;> simp only <;> omega
    obtain ⟨n, -, n2⟩ := c5 s₀ (List.mem_of_getElem? h0) _ hin
    have hn : n ∈ findAtomIndices (fun s => isOrigin s.1) sites :=
      (mem_findAtomIndices _ _ _).2 ⟨_, n2, h0o⟩
    obtain ⟨s, t, nbrs, env, a1, a2, a3, -⟩ := hor n hn
    rw [n2] at a1; cases a1
    obtain ⟨o, ho1, ho2⟩ := henv p₀ s₀ h0 h0o
    rw [a2] at ho1; cases ho1
    obtain ⟨m, hm1⟩ := List.getElem?_of_mem (ho2.mem_iff.2 h0n)
    have hf := (envIndices_ok_iff _ _ _ _ _).1 a3
    have hml := (List.getElem?_eq_some_iff.1 hm1).1
    have hme : m < env.length := by rw [← hf.length_eq]; exact hml
    have hl := List.Forall₂.get hf hml hme
    simp only [List.get_eq_getElem] at hl
    rw [(List.getElem?_eq_some_iff.1 hm1).2] at hl
    obtain ⟨n', d1, d2⟩ := c5 s₁ h1 _ (C43_normalized_cell order.supercellShape q1 q2 q3
      (0, 0, 0) nb₀.image).1
    rw [h1l, h1x, hl] at d1
    simp only [Option.some.injEq] at d1
    subst d1
    intro hnil
    rw [hnil] at hev'
    have := (List.flatMap_eq_nil_iff.1 hev'.symm) n hn
    simp only [eventsOf, n2, a2, a3, eventsToTargets, List.map_eq_nil_iff,
      List.filter_eq_nil_iff] at this
    have := this env[m] (List.getElem_mem hme)
    rw [d2] at this
    exact this h1t
  -- indices are valid
  have hlen : sites.length = order.activeSiteCount := by
    obtain ⟨cell', sites', full', -, b2, -, b4, -⟩ := C60_generator_and_simulator_number_alike hprim ho
    rw [← b4]
    unfold ActiveSiteOrder.activeStructure fullStructure at ha
    split at ha
    · cases ha
    · rw [((pickAll_ok_iff _ _ _).1 ha).1, b4]; rfl
  have hval : EventLib.validateEventIndices order events = .ok () := by
    rcases validateEventIndices_cases order events with ⟨hv, -⟩ | ⟨-, hv⟩
    · exact hv
    · exfalso
      apply hv
      intro e he k hk
      rw [hev'] at he
      obtain ⟨i, hi, he⟩ := List.mem_flatMap.1 he
      obtain ⟨s, t, nbrs, env, a1, a2, a3, a4⟩ := hor i hi
      simp only [eventsOf, a1, a2, a3, eventsToTargets, List.mem_map, List.mem_filter] at he
      obtain ⟨j, ⟨hj, -⟩, rfl⟩ := he
      simp only [Event.sites, List.cons_append, List.nil_append, List.mem_cons, List.mem_map] at hk
      have hi' : i < sites.length := (List.getElem?_eq_some_iff.1 a1).1
      have hj' := a4 j hj
      rw [hlen] at hi' hj'
      rcases hk with rfl | rfl | ⟨k', hk', rfl⟩
      · omega
      · omega
      · have := a4 k' hk'
        rw [hlen] at this
        omega
  unfold generateEvents
  simp only [hprim, ho, hp1, supercellList_unit, hact, htab, c1, c2, hev]
  cases events with
  | nil => exact absurd rfl hne
  | cons e es =>
    have hadd := EventLib.addAll_events ({} : EventLib σ φ) (e :: es)
    simp only [EventLib.addAll, List.nil_append] at hadd
    simp only [EventLib.setIndexMetadata, hadd, hval]
    exact ⟨_, rfl⟩

end

/-! ### A concrete chain -/

/-- Two sublattices on a chain: each `Na1` site has the `Na2` site of its own cell and that of the
cell to the left as neighbours, and each `Na2` the two `Na1` sites around it. -/
def chainNeighbors : Nat → List (Neighbor Unit)
  | 0 => [⟨(0, 0, 0), 2, "Na2", ()⟩, ⟨(-1, 0, 0), 2, "Na2", ()⟩]
  | _ => [⟨(0, 0, 0), 0, "Na1", ()⟩, ⟨(1, 0, 0), 0, "Na1", ()⟩]

def keepMatcher (_ nbrs : List (Neighbor Unit)) : Py (List Nat) := .ok (List.range nbrs.length)

theorem keepMatcher_permutes : MatcherPermutes keepMatcher := by
  intro ref nbrs perm h
  simp only [keepMatcher, Except.ok.injEq] at h
  subst h
  exact List.Perm.refl _

/-- Generation on the chain with a given supercell. -/
def chainEvents (shape : List Int) : Py (EventLib String Nat) :=
  generateEvents (fun a b => a == b) (fun _ _ _ _ _ _ _ _ => 0)
    (fun nbrs => nbrs.map Neighbor.label) keepMatcher chainNeighbors
    (fun s => s.label == "Na1") (fun s => s.label == "Na2") exampleTemplate exampleMapping
    (some shape)

/- The hypotheses of the C45 and C61 theorems are met by three cells of the chain. -/
example : (chainEvents [3, 1, 1]).toOption.map (fun lib => lib.events.map Event.mobile) =
    some [[0, 3], [0, 5], [1, 4], [1, 3], [2, 5], [2, 4]] ∧
    (exampleTemplate.map LabeledSite.localIndex).Nodup := by decide

/- Distinct neighbours of the chain are distinct sites in two or more cells. -/
example : (chainNeighbors 0).Pairwise fun a b => ¬ SameSite (3, 1, 1) a b := by
  refine List.Pairwise.cons ?_ (List.pairwise_singleton _ _)
  intro b hb
  simp only [chainNeighbors, List.mem_singleton] at hb
  subst hb
  rintro ⟨-, i, j, k, h1, -⟩
  simp only at h1
  omega

/-- C61.  In a supercell of one cell the two neighbours are the same site: the same hop is listed
twice, so its rate is counted twice. -/
theorem C61_small_supercell_lists_twice :
    ∃ lib, chainEvents [1, 1, 1] = .ok lib ∧ lib.events.map Event.mobile = [[0, 1], [0, 1]] :=
  ⟨_, rfl, by decide⟩

/-- C61.  A site that is its own neighbour through the boundary gets an event onto itself. -/
theorem C61_small_supercell_self_hop :
    ∃ lib : EventLib String Nat, generateEvents (fun a b => a == b) (fun _ _ _ _ _ _ _ _ => 0)
      (fun nbrs : List (Neighbor Unit) => nbrs.map Neighbor.label) keepMatcher
      (fun _ => [⟨(1, 0, 0), 0, "Na1", ()⟩])
      (fun s => s.label == "Na1") (fun s => s.label == "Na1") [⟨"Na", "Na1", 0⟩] exampleMapping
      (some [1, 1, 1]) = .ok lib ∧ lib.events.map Event.mobile = [[0, 0]] :=
  ⟨_, rfl, by decide⟩

end KMC
