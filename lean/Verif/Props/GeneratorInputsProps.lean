import Mathlib.Data.Rat.Floor
import Verif.Lemmas.GeneratorInputs
/-
C84: which hops `generate_events` produces for the arguments a user passes.
-/
namespace KMC
open Spec Generate

section
variable {σ φ S K R : Type} [LinearOrder S] [Field K] [LinearOrder K] [LinearOrder R]

theorem uniformRadius_some_four (four r : K) :
    UniformRadius four (some four) r ↔ UniformRadius four none r := by
  rw [← orDefault_iff, ← orDefault_iff]
  simp only [orDefault]
  split <;> rfl

theorem kind_iff (given : Option Ident) (mobile : Ident) :
    (match given with
      | none => Kind.species
      | some i => inferKind i mobile) = .species ↔ ChosenBySpecies given mobile := by
  cases given with
  | none => simp [ChosenBySpecies]
  | some i => exact inferKind_species i mobile

theorem ends_iff (given : Option Ident) (mobile o t : Ident) :
    pair (given.getD (.group [mobile, mobile])) = .ok (o, t) ↔ EndsAre given mobile o t := by
  rw [pair_ok]
  cases given with
  | none =>
    simp only [Option.getD_none, EndsAre, List.cons.injEq, and_true]
    exact ⟨fun ⟨h1, h2⟩ => ⟨h1.symm, h2.symm⟩, fun ⟨h1, h2⟩ => ⟨h1.symm, h2.symm⟩⟩
  | some i =>
    cases i <;> simp [EndsAre]

variable {eqv : σ → σ → Bool}
    {fp : Nat → Nat → List Nat → List Nat → List Nat → Nat × Nat × Nat → List σ →
      List (List σ) → φ}
    {render : List Ident → String} {name : σ → String} {tokens : σ → List String} {parse : String → σ}
    {dist : LocalSites.Point K → LocalSites.Point K → K} {row : Matcher.Cluster String K → Nat → R}
    {search : List (LabeledSite σ) → Nat → K → List (K × Neighbor (LocalSites.Site S K))}
    {four rtol atol : K} {nearest : Bool} {template : List (LabeledSite σ)} {a : Args K}

/-- The arguments after `_normalize_generate_events_inputs`. -/
def inputsOf (four : K) (a : Args K) (mapping : List (String × List String)) (mobile : Ident) :
    Inputs K where
  kind := match a.identifiers with
    | none => .species
    | some i => inferKind i mobile
  identifiers := a.identifiers.getD (.group [mobile, mobile])
  mobile := mobile
  mapping := mapping
  shape := a.shape.getD [2, 1, 1]
  cutoffs := a.cutoffs
  cutoff := if a.cutoff.isNone && a.cutoffs.isNone then some four else a.cutoff

omit [Field K] [LinearOrder K] in
theorem normalize_ok (i : Inputs K) : normalize four a = .ok i ↔
    ∃ mapping mobile, a.mapping = some mapping ∧ MobileIs a.mobile mapping mobile ∧
      i = inputsOf four a mapping mobile := by
  unfold normalize
  cases ha : a.mapping with
  | none => simp
  | some mapping =>
    simp only
    cases hm : mobileFor a.mobile mapping with
    | error e =>
      simp only [reduceCtorEq, false_iff]
      rintro ⟨m', mobile, h1, h2, -⟩
      cases h1
      rw [← mobileFor_ok, hm] at h2
      cases h2
    | ok mobile =>
      simp only [Except.ok.injEq]
      constructor
      · rintro rfl
        exact ⟨mapping, mobile, rfl, (mobileFor_ok _ _ _).1 hm, rfl⟩
      · rintro ⟨m', mobile', h1, h2, rfl⟩
        cases h1
        rw [← mobileFor_ok, hm] at h2
        cases h2
        rfl

theorem radius_inputs {mapping : List (String × List String)} {mobile : Ident}
    {cell : List (LabeledSite σ)} (s s' : LabeledSite σ) (r : K) :
    Radius render name tokens cell (inputsOf four a mapping mobile).cutoffs
        (inputsOf four a mapping mobile).mobile four (inputsOf four a mapping mobile).cutoff s s' r ↔
      Radius render name tokens cell a.cutoffs mobile four a.cutoff s s' r := by
  unfold Radius inputsOf
  simp only
  cases a.cutoffs with
  | some t => rfl
  | none =>
    cases hc : a.cutoff with
    | none =>
      simp only [Option.isNone_none, Bool.and_self, if_true, uniformRadius_some_four]
    | some c => simp

/-- A call of `generate_events`, taken apart. -/
theorem generate_eq {lib : EventLib σ φ} :
    generate eqv fp render name tokens parse dist row search four rtol atol nearest template a = .ok lib ↔
    ∃ mapping mobile origin target, a.mapping = some mapping ∧ MobileIs a.mobile mapping mobile ∧
      EndsAre a.identifiers mobile origin target ∧
      (let m := mapping.map fun kv => (parse kv.1, kv.2.map parse)
       let cell := activeCell eqv m template
       ∃ prim table, ActiveSiteOrder.fromStructureAndMapping eqv fp
          (template.map LabeledSite.species) m none = .ok prim ∧
        cutoffsFor four render name tokens cell (inputsOf four a mapping mobile) = .ok table ∧
        generateEvents eqv fp speciesSignature (matcherOf dist row rtol atol nearest)
          (neighborList name search cell (Neighbors.prepareCutoff (some table)))
          (accepts render tokens (inputsOf four a mapping mobile).kind origin)
          (accepts render tokens (inputsOf four a mapping mobile).kind target) template m
          (some (a.shape.getD [2, 1, 1])) = .ok lib) := by
  have hact : ∀ {m : List (σ × List σ)} {prim : ActiveSiteOrder σ φ},
      ActiveSiteOrder.fromStructureAndMapping eqv fp (template.map LabeledSite.species) m none = .ok prim →
      ∃ active, prim.activeStructure template = .ok active ∧
        active.map Prod.fst = activeCell eqv m template := by
    intro m prim hprim
    have hsh : prim.supercellShape = (1, 1, 1) := by
      have := (fromStructureAndMapping_ok hprim).1
      simp only [normalizeSupercellShape, Except.ok.injEq] at this
      exact this.symm
    refine ⟨_, activeStructure_eq hprim, ?_⟩
    rw [hsh, ← activeSites_eq hprim]
    exact supercellList_unit _
  constructor
  · intro h
    unfold generate at h
    split at h
    · cases h
    rename_i i hi
    obtain ⟨mapping, mobile, h1, h2, rfl⟩ := (normalize_ok i).1 hi
    split at h
    · cases h
    rename_i origin target hp
    simp only at h
    split at h
    · cases h
    rename_i prim hprim
    obtain ⟨active, ha1, ha2⟩ := hact hprim
    rw [ha1] at h
    simp only at h
    rw [ha2] at h
    split at h
    · cases h
    rename_i table ht
    exact ⟨mapping, mobile, origin, target, h1, h2, (ends_iff _ _ _ _).1 hp, prim, table, hprim, ht, h⟩
  · rintro ⟨mapping, mobile, origin, target, h1, h2, h3, prim, table, hprim, ht, h⟩
    obtain ⟨active, ha1, ha2⟩ := hact hprim
    unfold generate
    rw [(normalize_ok _).2 ⟨mapping, mobile, h1, h2, rfl⟩]
    simp only
    rw [show pair (inputsOf four a mapping mobile).identifiers = .ok (origin, target) from
      (ends_iff _ _ _ _).2 h3]
    simp only
    rw [show (inputsOf four a mapping mobile).mapping = mapping from rfl, hprim]
    simp only
    rw [ha1]
    simp only
    rw [ha2, ht]
    exact h

/-- C84.  The events generated are exactly the hops the arguments describe: from a site chosen by the
origin identifier to a site chosen by the target identifier, in any cell, closer than the radius for
their two species.  The mobile species, the identifiers and the way sites are chosen follow from the
arguments as specified; sites are numbered as in the active structure of the stored order. -/
theorem C84_hops (hdist : ∀ x y, dist x y = dist y x)
    (hd : (template.map LabeledSite.localIndex).Nodup) {lib : EventLib σ φ}
    (h : generate eqv fp render name tokens parse dist row search four rtol atol nearest template a =
      .ok lib)
    {mapping : List (String × List String)} (hmap : a.mapping = some mapping)
    {cell : List (LabeledSite σ)}
    (hcell : cell = activeCell eqv (mapping.map fun kv => (parse kv.1, kv.2.map parse)) template)
    {d : Nat → Nat → Cell → K} {place : Nat → Cell → LocalSites.Site S K}
    (hx : ExactNeighbors name (search cell) cell d place) :
    ∃ mobile origin target order sites, MobileIs a.mobile mapping mobile ∧
      EndsAre a.identifiers mobile origin target ∧
      ActiveSiteOrder.fromStructureAndMapping eqv fp (template.map LabeledSite.species)
        (mapping.map fun kv => (parse kv.1, kv.2.map parse)) (some (a.shape.getD [2, 1, 1])) =
        .ok order ∧
      order.activeStructure template = .ok sites ∧ lib.meta? = some order.asDict ∧
      (∀ e ∈ lib.events, ∃ i j : Nat, e.mobile = [(i : Int), (j : Int)]) ∧
      ∀ i j : Nat, (∃ e ∈ lib.events, e.mobile = [(i : Int), (j : Int)]) ↔
        ∃ (s s' : LabeledSite σ) (t t' : Cell) (p q : Nat) (v : Cell) (r : K),
          sites[i]? = some (s, t) ∧ sites[j]? = some (s', t') ∧ cell[p]? = some s ∧ cell[q]? = some s' ∧
          (p ≠ q ∨ v ≠ (0, 0, 0)) ∧ SameImage order.supercellShape t' (shift t v) ∧
          Chooses render tokens (ChosenBySpecies a.identifiers mobile) origin s ∧
          Chooses render tokens (ChosenBySpecies a.identifiers mobile) target s' ∧
          Radius render name tokens cell a.cutoffs mobile four a.cutoff s s' r ∧ d p q v < r := by
  obtain ⟨mapping', mobile, origin, target, h1, h2, h3, prim, table, h4, h5, h6⟩ := generate_eq.1 h
  rw [hmap] at h1; cases h1
  rw [← hcell] at h5 h6
  have hmp := matcherOf_permutes (S := S) hdist row rtol atol nearest
  obtain ⟨order, sites, ho, hs, hmeta, hev⟩ := C45_events_describe_hops hmp hd h6
  have hac := activeSites_eq ho
  rw [← hcell] at hac
  have hk := kind_iff a.identifiers mobile
  have hch : ∀ (i : Ident) s, accepts render tokens (inputsOf four a mapping mobile).kind i s = true ↔
      Chooses render tokens (ChosenBySpecies a.identifiers mobile) i s := fun i s =>
    accepts_iff _ _ _ _ _ _ hk
  have hrad : ∀ {s s' : LabeledSite σ}, s ∈ cell → s' ∈ cell → ∀ r,
      pairEntry table (name s.species) (name s'.species) = some r ↔
        Radius render name tokens cell a.cutoffs mobile four a.cutoff s s' r := by
    intro s s' hs hs' r
    rw [cutoffsFor_radius h5 hs hs', radius_inputs]
  have hcd : (cell.map LabeledSite.localIndex).Nodup := by
    rw [← hac]
    exact List.Nodup.sublist ((activeSitesOf_sublist _ _).map _) hd
  refine ⟨mobile, origin, target, order, sites, h2, h3, ho, hs, hmeta, ?_, ?_⟩
  · intro e he
    obtain ⟨i, j, -, -, -, -, h, -⟩ := hev e he
    exact ⟨i, j, h⟩
  · intro i j
    constructor
    · rintro ⟨e, he, hij⟩
      obtain ⟨i', j', s, t, s', t', g1, g2, g3, g4, g5, g6, p, nbrs, g7, g8, g9⟩ := hev e he
      rw [hij] at g1
      simp only [List.cons.injEq, Nat.cast_inj, and_true] at g1
      obtain ⟨rfl, rfl⟩ := g1
      rw [hac] at g7
      obtain ⟨m, hm⟩ := List.getElem?_of_mem g6
      have hml := (List.getElem?_eq_some_iff.1 hm).1
      have hnl : m < nbrs.length := by rw [g9.length_eq]; exact hml
      have hl := List.Forall₂.get g9 hnl hml
      simp only [List.get_eq_getElem] at hl
      rw [(List.getElem?_eq_some_iff.1 hm).2] at hl
      obtain ⟨n, s2, t2, e1, e2, e3, e4, e5⟩ := hl
      have e1 : j = n := by exact_mod_cast e1
      subst e1
      rw [g4] at e2
      simp only [Option.some.injEq, Prod.mk.injEq] at e2
      obtain ⟨rfl, rfl⟩ := e2
      obtain ⟨c, s3, q, v, r, f1, f2, f3, f4, f5, f6⟩ := (mem_neighborList hx table p _).1
        (g8.mem_iff.1 (List.getElem_mem hnl))
      rw [g7] at f1; cases f1
      rw [f4] at e3 e4 e5
      simp only at e3 e4 e5
      have hsc := List.mem_of_getElem? g7
      have hs3 := List.mem_of_getElem? f2
      have hs' : s' ∈ cell := by
        rw [← hac]
        have := activeStructure_eq ho
        rw [hs] at this
        cases this
        exact ((mem_supercellList _ _ _).1 (List.mem_of_getElem? g4)).1
      have es : s' = s3 := List.inj_on_of_nodup_map hcd hs' hs3 e4
      subst es
      exact ⟨s, s', t, t', p, q, v, r, g2, g4, g7, f2, f3, e5, (hch _ _).1 g3, (hch _ _).1 g5,
        (hrad hsc hs3 r).1 f5, f6⟩
    · rintro ⟨s, s', t, t', p, q, v, r, g1, g2, g3, g4, g5, g6, g7, g8, g9, g10⟩
      refine C45_no_hop_missing hmp hd h6 ho hs g1 ((hch _ _).2 g7) (by rw [hac]; exact g3)
        ((mem_neighborList hx table p ⟨v, s'.localIndex, s'.label, place q v⟩).2
          ⟨s, s', q, v, r, g3, g4, g5, rfl, (hrad (List.mem_of_getElem? g3) (List.mem_of_getElem? g4) r).2 g9,
            g10⟩) g2 rfl rfl g6 ((hch _ _).2 g8)

/-- C84.  With the nearest-match option, generation succeeds exactly when the arguments are complete, the
order exists and there is at least one hop in the unit cell. -/
theorem C84_succeeds_iff (hdist : ∀ x y, dist x y = dist y x)
    (hd : (template.map LabeledSite.localIndex).Nodup)
    {d : List (LabeledSite σ) → Nat → Nat → Cell → K}
    {place : List (LabeledSite σ) → Nat → Cell → LocalSites.Site S K}
    (hx : ∀ cell, ExactNeighbors name (search cell) cell (d cell) (place cell)) :
    (∃ lib, generate eqv fp render name tokens parse dist row search four rtol atol true template a =
      .ok lib) ↔
    ∃ mapping mobile origin target, a.mapping = some mapping ∧ MobileIs a.mobile mapping mobile ∧
      EndsAre a.identifiers mobile origin target ∧
      (let m := mapping.map fun kv => (parse kv.1, kv.2.map parse)
       let cell := activeCell eqv m template
       (∃ order, ActiveSiteOrder.fromStructureAndMapping eqv fp (template.map LabeledSite.species) m
          (some (a.shape.getD [2, 1, 1])) = .ok order) ∧
       ∃ (s s' : LabeledSite σ) (p q : Nat) (v : Cell) (r : K),
          cell[p]? = some s ∧ cell[q]? = some s' ∧ (p ≠ q ∨ v ≠ (0, 0, 0)) ∧
          Chooses render tokens (ChosenBySpecies a.identifiers mobile) origin s ∧
          Chooses render tokens (ChosenBySpecies a.identifiers mobile) target s' ∧
          Radius render name tokens cell a.cutoffs mobile four a.cutoff s s' r ∧ d cell p q v < r) := by
  constructor
  · rintro ⟨lib, h⟩
    obtain ⟨mapping, mobile, origin, target, h1, h2, h3, prim, table, h4, h5, h6⟩ := generate_eq.1 h
    obtain ⟨mobile', origin', target', order, sites, k2, k3, k4, k5, k6, k7, k8⟩ :=
      C84_hops hdist hd h h1 rfl (hx _)
    have e2 : mobile' = mobile := by
      rw [← mobileFor_ok] at h2 k2
      rw [h2] at k2; cases k2; rfl
    subst e2
    have e3 : origin' = origin ∧ target' = target := by
      rw [← ends_iff] at h3 k3
      rw [h3] at k3; cases k3; exact ⟨rfl, rfl⟩
    obtain ⟨rfl, rfl⟩ := e3
    obtain ⟨-, -, -, events, -, -, -, -, -, hne, hev, -⟩ := generateEvents_ok h6
    obtain ⟨e, he⟩ := List.exists_mem_of_ne_nil _ (hev ▸ hne)
    obtain ⟨i, j, hij⟩ := k7 e he
    obtain ⟨s, s', t, t', p, q, v, r, g1, g2, g3, g4, g5, g6, g7, g8, g9, g10⟩ := (k8 i j).1 ⟨e, he, hij⟩
    exact ⟨mapping, mobile', origin', target', h1, h2, h3, ⟨order, k4⟩, s, s', p, q, v, r, g3, g4, g5, g7,
      g8, g9, g10⟩
  · rintro ⟨mapping, mobile, origin, target, h1, h2, h3, ⟨order, ho⟩, s, s', p, q, v, r, g3, g4, g5, g7,
      g8, g9, g10⟩
    obtain ⟨prim, hprim⟩ := prim_of_order ho
    obtain ⟨table, ht⟩ := cutoffsFor_isOk ((radius_inputs (mapping := mapping) s s' r).2 g9)
    have hk := kind_iff a.identifiers mobile
    have hch : ∀ (i : Ident) s, accepts render tokens (inputsOf four a mapping mobile).kind i s = true ↔
        Chooses render tokens (ChosenBySpecies a.identifiers mobile) i s := fun i s =>
      accepts_iff _ _ _ _ _ _ hk
    have hac := activeSites_eq ho
    obtain ⟨lib, hlib⟩ := C45_generation_succeeds (signature := speciesSignature)
      (matcherOf_permutes (S := S) hdist row rtol atol true)
      (fun ref nbrs hsig => matcherOf_isOk hdist row rtol atol ref nbrs hsig) hd
      (shape := some (a.shape.getD [2, 1, 1])) ho
      (neighbors := neighborList name search _ (Neighbors.prepareCutoff (some table)))
      (isOrigin := accepts render tokens (inputsOf four a mapping mobile).kind origin)
      (isTarget := accepts render tokens (inputsOf four a mapping mobile).kind target)
      (by
        intro p s _ _ nb hnb
        obtain ⟨c, s3, q, v, r, -, f2, -, rfl, -⟩ := (mem_neighborList (hx _) table p _).1 hnb
        exact ⟨s3, by rw [hac]; exact List.mem_of_getElem? f2, rfl, rfl⟩)
      (p₀ := p) (s₀ := s) (s₁ := s') (by rw [hac]; exact g3) ((hch _ _).2 g7)
      (nb₀ := ⟨v, s'.localIndex, s'.label, place _ q v⟩)
      ((mem_neighborList (hx _) table p _).2 ⟨s, s', q, v, r, g3, g4, g5, rfl, by
        rw [cutoffsFor_radius ht (List.mem_of_getElem? g3) (List.mem_of_getElem? g4), radius_inputs]
        exact g9, g10⟩)
      (by rw [hac]; exact List.mem_of_getElem? g4) rfl rfl ((hch _ _).2 g8)
    exact ⟨lib, generate_eq.2 ⟨mapping, mobile, origin, target, h1, h2, h3, prim, table, hprim, ht, hlib⟩⟩

/-- C84.  With a mapping only (and perhaps a cutoff and a shape), the events are exactly the hops between
sites whose species may become vacant, closer than the cutoff. -/
theorem C84_default_hops (hdist : ∀ x y, dist x y = dist y x)
    (hd : (template.map LabeledSite.localIndex).Nodup) {lib : EventLib σ φ}
    (h : generate eqv fp render name tokens parse dist row search four rtol atol nearest template a =
      .ok lib)
    {mapping : List (String × List String)} (hmap : a.mapping = some mapping)
    (h1 : a.identifiers = none) (h2 : a.mobile = none) (h3 : a.cutoffs = none)
    {cell : List (LabeledSite σ)}
    (hcell : cell = activeCell eqv (mapping.map fun kv => (parse kv.1, kv.2.map parse)) template)
    {d : Nat → Nat → Cell → K} {place : Nat → Cell → LocalSites.Site S K}
    (hx : ExactNeighbors name (search cell) cell d place) :
    ∃ order sites,
      ActiveSiteOrder.fromStructureAndMapping eqv fp (template.map LabeledSite.species)
        (mapping.map fun kv => (parse kv.1, kv.2.map parse)) (some (a.shape.getD [2, 1, 1])) =
        .ok order ∧
      order.activeStructure template = .ok sites ∧ lib.meta? = some order.asDict ∧
      ∀ i j : Nat, (∃ e ∈ lib.events, e.mobile = [(i : Int), (j : Int)]) ↔
        ∃ (s s' : LabeledSite σ) (t t' : Cell) (p q : Nat) (v : Cell) (r : K),
          sites[i]? = some (s, t) ∧ sites[j]? = some (s', t') ∧ cell[p]? = some s ∧ cell[q]? = some s' ∧
          (p ≠ q ∨ v ≠ (0, 0, 0)) ∧ SameImage order.supercellShape t' (shift t v) ∧
          CanMove tokens mapping s ∧ CanMove tokens mapping s' ∧
          UniformRadius four a.cutoff r ∧ d p q v < r := by
  obtain ⟨mobile, origin, target, order, sites, g1, g2, g3, g4, g5, -, g7⟩ :=
    C84_hops hdist hd h hmap hcell hx
  rw [h2] at g1
  rw [h1] at g2
  obtain ⟨-, rfl⟩ := g1
  obtain ⟨rfl, rfl⟩ := g2
  have hw : ∀ s : LabeledSite σ, (∃ w ∈ tokens s.species, IsWord render
      (.group ((mapping.filter fun e => allowsVacancy e.2).map fun e => .text e.1)) w) ↔
      CanMove tokens mapping s := by
    intro s
    simp only [IsWord, CanMove, List.mem_map, List.mem_filter]
    constructor
    · rintro ⟨w, hw, x, ⟨e, ⟨he, hv⟩, rfl⟩, rfl⟩
      exact ⟨e, he, hv, hw⟩
    · rintro ⟨e, he, hv, hw⟩
      exact ⟨e.1, hw, _, ⟨e, ⟨he, hv⟩, rfl⟩, rfl⟩
  have hch : ∀ s, Chooses render tokens (ChosenBySpecies a.identifiers
      (.group ((mapping.filter fun e => allowsVacancy e.2).map fun e => .text e.1)))
      (.group ((mapping.filter fun e => allowsVacancy e.2).map fun e => .text e.1)) s ↔
      CanMove tokens mapping s := by
    intro s
    rw [h1]
    simp only [Chooses, ChosenBySpecies, true_and, not_true_eq_false, false_and, or_false]
    exact hw s
  refine ⟨order, sites, g3, g4, g5, fun i j => ?_⟩
  rw [g7 i j]
  constructor
  · rintro ⟨s, s', t, t', p, q, v, r, a1, a2, a3, a4, a5, a6, a7, a8, a9, a10⟩
    rw [h3] at a9
    exact ⟨s, s', t, t', p, q, v, r, a1, a2, a3, a4, a5, a6, (hch _).1 a7, (hch _).1 a8, a9.1, a10⟩
  · rintro ⟨s, s', t, t', p, q, v, r, a1, a2, a3, a4, a5, a6, a7, a8, a9, a10⟩
    refine ⟨s, s', t, t', p, q, v, r, a1, a2, a3, a4, a5, a6, (hch _).2 a7, (hch _).2 a8, ?_, a10⟩
    rw [h3]
    exact ⟨a9, s, List.mem_of_getElem? a3, .inl rfl, (hw _).2 a7⟩

/-- C84.  With a mapping only, every hop has its reverse: distances being symmetric, there is an event
from `i` to `j` exactly when there is one from `j` to `i`. -/
theorem C84_hops_reversible (hdist : ∀ x y, dist x y = dist y x)
    (hd : (template.map LabeledSite.localIndex).Nodup) {lib : EventLib σ φ}
    (h : generate eqv fp render name tokens parse dist row search four rtol atol nearest template a =
      .ok lib)
    {mapping : List (String × List String)} (hmap : a.mapping = some mapping)
    (h1 : a.identifiers = none) (h2 : a.mobile = none) (h3 : a.cutoffs = none)
    {cell : List (LabeledSite σ)}
    (hcell : cell = activeCell eqv (mapping.map fun kv => (parse kv.1, kv.2.map parse)) template)
    {d : Nat → Nat → Cell → K} {place : Nat → Cell → LocalSites.Site S K}
    (hx : ExactNeighbors name (search cell) cell d place)
    (hsym : ∀ p q v, d p q v = d q p (-v.1, -v.2.1, -v.2.2)) (i j : Nat)
    (he : ∃ e ∈ lib.events, e.mobile = [(i : Int), (j : Int)]) :
    ∃ e ∈ lib.events, e.mobile = [(j : Int), (i : Int)] := by
  obtain ⟨order, sites, g1, g2, g3, g4⟩ := C84_default_hops hdist hd h hmap h1 h2 h3 hcell hx
  obtain ⟨s, s', t, t', p, q, v, r, a1, a2, a3, a4, a5, a6, a7, a8, a9, a10⟩ := (g4 i j).1 he
  refine (g4 j i).2 ⟨s', s, t', t, q, p, (-v.1, -v.2.1, -v.2.2), r, a2, a1, a4, a3, ?_, ?_, a8, a7, a9, ?_⟩
  · rcases a5 with h | h
    · exact .inl (Ne.symm h)
    · right
      intro hv
      apply h
      obtain ⟨x, y, z⟩ := v
      simp only [Prod.mk.injEq, neg_eq_zero] at hv ⊢
      exact hv
  · obtain ⟨x, y, z, e1, e2, e3⟩ := a6
    simp only [shift] at e1 e2 e3
    exact ⟨-x, -y, -z, by simp only [shift]; linarith, by simp only [shift]; linarith,
      by simp only [shift]; linarith⟩
  · rw [← hsym]; exact a10

/-- C84.  Without mobile species and without a mapping entry that allows a vacancy, the call is refused. -/
theorem C84_no_vacancy_refused {mapping : List (String × List String)} (hmap : a.mapping = some mapping)
    (h2 : a.mobile = none) (hv : ∀ e ∈ mapping, allowsVacancy e.2 = false) :
    generate eqv fp render name tokens parse dist row search four rtol atol nearest template a =
      .error .valueError := by
  have hm : mobileFor a.mobile mapping = .error .valueError := by
    cases hc : mobileFor a.mobile mapping with
    | ok m =>
      obtain ⟨⟨e, he, h⟩, -⟩ := h2 ▸ (mobileFor_ok _ _ _).1 hc
      rw [hv e he] at h; cases h
    | error e =>
      rw [h2] at hc
      simp only [mobileFor, mobileSpecies] at hc
      split at hc
      · cases hc; rfl
      · cases hc
  unfold generate normalize
  rw [hmap]
  simp only [hm]

/-- C84.  Identifiers that are not two are refused with a `ValueError`, be they a list or a text read
character by character; identifiers that have no length are refused with a `TypeError`. -/
theorem C84_not_two_refused {mapping : List (String × List String)} {mobile : Ident}
    (hmap : a.mapping = some mapping) (hmob : a.mobile = some mobile) :
    (∀ l : List Ident, a.identifiers = some (.group l) → l.length ≠ 2 →
      generate eqv fp render name tokens parse dist row search four rtol atol nearest template a =
        .error .valueError) ∧
    (∀ s : String, a.identifiers = some (.text s) → s.toList.length ≠ 2 →
      generate eqv fp render name tokens parse dist row search four rtol atol nearest template a =
        .error .valueError) ∧
    (∀ x, a.identifiers = some (.other x) →
      generate eqv fp render name tokens parse dist row search four rtol atol nearest template a =
        .error .typeError) := by
  have key : ∀ i e, a.identifiers = some i → pair i = .error e →
      generate eqv fp render name tokens parse dist row search four rtol atol nearest template a =
        .error e := by
    intro i e hi he
    unfold generate normalize
    simp only [hmap, hmob, mobileFor, hi, Option.getD_some, he]
  refine ⟨fun l hl hn => key _ _ hl ?_, fun s hs hn => key _ _ hs ?_, fun x hx => key _ _ hx rfl⟩
  · match l, hn with
    | [], _ => rfl
    | [_], _ => rfl
    | [_, _], h => exact absurd rfl h
    | _ :: _ :: _ :: _, _ => rfl
  · simp only [pair]
    split
    · rename_i h; rw [h] at hn; exact absurd rfl hn
    · rfl

/-- C84 (vacancies by another name): the names `X`, `x` and `vacancy` are understood, `Va` is not, so the
mapping of a vacancy by that name is refused unless the mobile species is given. -/
theorem C84_va_not_understood (h2 : a.mobile = none) (hmap : a.mapping = some [("Na", ["Na", "Va"])]) :
    allowsVacancy ["Na", "X"] = true ∧ allowsVacancy ["Na", "x"] = true ∧
    allowsVacancy ["Na", "vacancy"] = true ∧
    generate eqv fp render name tokens parse dist row search four rtol atol nearest template a =
      .error .valueError := by
  refine ⟨by decide +kernel, by decide +kernel, by decide +kernel, C84_no_vacancy_refused hmap h2 ?_⟩
  intro e he
  rw [List.mem_singleton] at he
  subst he
  decide +kernel

/-- C84 (a cutoff of zero): it is taken as no cutoff, so the events are those of the default cutoff. -/
theorem C84_zero_cutoff_ignored :
    generate eqv fp render name tokens parse dist row search four rtol atol nearest template
      { a with cutoff := some 0 } =
    generate eqv fp render name tokens parse dist row search four rtol atol nearest template
      { a with cutoff := none } := by
  have hc : ∀ mapping mobile cell,
      cutoffsFor four render name tokens cell (inputsOf four { a with cutoff := some 0 } mapping mobile) =
      cutoffsFor four render name tokens cell (inputsOf four { a with cutoff := none } mapping mobile) := by
    intro mapping mobile cell
    unfold cutoffsFor inputsOf
    simp only
    cases a.cutoffs with
    | some t => rfl
    | none =>
      simp only [orDefault, Option.isNone_some, Option.isNone_none, Bool.false_and, Bool.and_self,
        Bool.false_eq_true, if_false, if_true]
      split <;> rfl
  unfold generate normalize
  cases a.mapping with
  | none => rfl
  | some mapping =>
    simp only
    cases mobileFor a.mobile mapping with
    | error e => rfl
    | ok mobile =>
      have := hc mapping mobile
      unfold inputsOf at this
      simp only at this
      cases hi : a.identifiers <;> simp only [hi] at this ⊢ <;> simp only [this]

/-- C84 (one label among species): identifiers that all name mobile species choose sites by species, but
one label among them makes all of them labels. -/
theorem C84_one_label_switches :
    ChosenBySpecies (some (.group [.text "Na", .text "Na+"])) (.group [.text "Na"]) ∧
    ¬ ChosenBySpecies (some (.group [.text "Na", .text "Na2"])) (.group [.text "Na"]) := by
  rw [← inferKind_species, ← inferKind_species]
  decide +kernel

/-- C84 (charges must be spelled alike): the identifier `Na1+` counts as a name of the mobile species `Na`,
but chooses no site of a species that is called `Na+`, so nothing can be generated. -/
theorem C84_charge_spelling (hdist : ∀ x y, dist x y = dist y x)
    (hd : (template.map LabeledSite.localIndex).Nodup)
    (h1 : a.identifiers = some (.group [.text "Na1+", .text "Na1+"])) (h2 : a.mobile = some (.text "Na"))
    {d : List (LabeledSite σ) → Nat → Nat → Cell → K}
    {place : List (LabeledSite σ) → Nat → Cell → LocalSites.Site S K}
    (hx : ∀ cell, ExactNeighbors name (search cell) cell (d cell) (place cell))
    (ht : ∀ s ∈ template, "Na1+" ∉ tokens s.species) :
    ChosenBySpecies a.identifiers (.text "Na") ∧
    ¬ ∃ lib, generate eqv fp render name tokens parse dist row search four rtol atol true template a =
      .ok lib := by
  have hk : ChosenBySpecies a.identifiers (.text "Na") := by
    rw [h1, ← inferKind_species]
    decide +kernel
  refine ⟨hk, ?_⟩
  rw [C84_succeeds_iff hdist hd hx]
  rintro ⟨mapping, mobile, origin, target, -, g2, g3, -, s, s', p, q, v, r, g4, -, -, g7, -⟩
  rw [h2] at g2
  simp only [MobileIs] at g2
  subst g2
  rw [h1] at g3
  simp only [EndsAre, List.cons.injEq, and_true] at g3
  obtain ⟨rfl, -⟩ := g3
  rcases g7 with ⟨-, w, hw, hw'⟩ | ⟨hn, -⟩
  · simp only [IsWord] at hw'
    subst hw'
    have hm := List.mem_of_mem_filter (List.mem_of_getElem? g4)
    exact ht s hm hw
  · exact hn hk

end

/-! ### A concrete cell -/
namespace HopSamples
open LocalSamples

/-- Sites of a cell are three apart on a line; the cell is a cube with edge ten. -/
def gap (p q : Nat) (v : Cell) : Int :=
  max ((3 * ((q : Int) - p) + 10 * v.1).natAbs : Int) (max ((10 * v.2.1).natAbs : Int) ((10 * v.2.2).natAbs : Int))

/-- See `gap`. -/
def place (cell : List (LabeledSite String)) (q : Nat) (v : Cell) : LocalSites.Site String ℚ :=
  ⟨(cell[q]?.map LabeledSite.species).getD "", (cell[q]?.map LabeledSite.species).getD "",
    (((3 * (q : Int) + 10 * v.1 : Int) : ℚ), ((10 * v.2.1 : Int) : ℚ), ((10 * v.2.2 : Int) : ℚ))⟩

/-- An exact search. -/
def search (cell : List (LabeledSite String)) (p : Nat) (r : ℚ) :
    List (ℚ × Neighbor (LocalSites.Site String ℚ)) :=
  cell.zipIdx.flatMap fun x =>
    let n := ⌊r⌋.natAbs + 3 * x.2 + 3 * p
    (((ints n) ×ˢ ((ints n) ×ˢ (ints n))).filter fun v =>
      decide (((gap p x.2 v : Int) : ℚ) ≤ r) && decide (p ≠ x.2 ∨ v ≠ (0, 0, 0))).map fun v =>
        (((gap p x.2 v : Int) : ℚ), ⟨v, x.1.localIndex, x.1.label, place cell x.2 v⟩)

theorem search_exact (cell : List (LabeledSite String)) :
    ExactNeighbors id (search cell) cell (fun p q v => ((gap p q v : Int) : ℚ)) (place cell) := by
  refine ⟨?_, ?_, ?_⟩
  · intro p r x
    simp only [search, List.mem_flatMap, List.mem_map, List.mem_filter, Bool.and_eq_true,
      decide_eq_true_eq]
    constructor
    · rintro ⟨⟨s, q⟩, hs, v, ⟨-, h1, h2⟩, rfl⟩
      exact ⟨q, s, v, List.mk_mem_zipIdx_iff_getElem?.1 hs, h2, h1, rfl⟩
    · rintro ⟨q, s, v, hs, h2, h1, rfl⟩
      refine ⟨(s, q), List.mk_mem_zipIdx_iff_getElem?.2 hs, v, ⟨?_, h1, h2⟩, rfl⟩
      have hf : gap p q v ≤ ⌊r⌋ := Int.le_floor.2 h1
      obtain ⟨a, b, c⟩ := v
      unfold gap at hf
      simp only [max_le_iff] at hf
      obtain ⟨f1, f2, f3⟩ := hf
      refine List.pair_mem_product.2 ⟨(mem_ints _ _).2 ?_,
        List.pair_mem_product.2 ⟨(mem_ints _ _).2 ?_, (mem_ints _ _).2 ?_⟩⟩
      · omega
      · omega
      · omega
  · intro q s v hs
    simp [place, hs]
  · intro p q v
    have : (0 : Int) ≤ gap p q v := le_max_of_le_left (Int.natCast_nonneg _)
    exact_mod_cast this

/-- A frame atom, two sodium sites and a site for silicon or phosphorus. -/
def template : List (LabeledSite String) :=
  [⟨"Zr", "Zr", 0⟩, ⟨"Na", "Na1", 1⟩, ⟨"Na", "Na2", 2⟩, ⟨"Si", "Si1", 3⟩]

/-- See `template`. -/
def mapping : List (String × List String) := [("Zr", ["Zr"]), ("Na", ["Na", "X"]), ("Si", ["Si", "P"])]

/-- A call on the sample cell. -/
def call (a : Args ℚ) : Py (EventLib String Unit) :=
  generate (R := ℚ) (fun x y => x == y) (fun _ _ _ _ _ _ _ _ => ()) (fun _ => "") id (fun s => [s]) id
    (fun x y => |x.1 - y.1|) (fun _ _ => 0) search 4 0 0 true template a

theorem dist_symm (x y : LocalSites.Point ℚ) : |x.1 - y.1| = |y.1 - x.1| := abs_sub_comm _ _

end HopSamples
open HopSamples

/-- The hypotheses can hold: with a mapping only, the two sodium sites of the sample, three apart, give
events. -/
example : ∃ lib, call ⟨none, none, none, some mapping, none, none⟩ = .ok lib := by
  unfold call
  rw [C84_succeeds_iff dist_symm (by decide +kernel) search_exact]
  refine ⟨mapping, .group [.text "Na"], .group [.text "Na"], .group [.text "Na"], rfl,
    ⟨⟨("Na", ["Na", "X"]), by simp [mapping], by decide +kernel⟩, ?_⟩, ⟨rfl, rfl⟩, ⟨_, rfl⟩,
    ⟨"Na", "Na1", 1⟩, ⟨"Na", "Na2", 2⟩, 0, 1, (0, 0, 0), 4, by decide +kernel, by decide +kernel, .inl (by decide), ?_, ?_, ?_, ?_⟩
  · have : mapping.filter (fun e => allowsVacancy e.2) = [("Na", ["Na", "X"])] := by decide +kernel
    rw [this]; rfl
  · exact .inl ⟨trivial, "Na", by simp, .text "Na", by simp, rfl⟩
  · exact .inl ⟨trivial, "Na", by simp, .text "Na", by simp, rfl⟩
  · exact ⟨.inl ⟨.inl rfl, rfl⟩, ⟨"Na", "Na1", 1⟩, by decide +kernel, .inl rfl, "Na", by simp, .text "Na", by simp, rfl⟩
  · have : gap 0 1 (0, 0, 0) = 3 := by decide +kernel
    rw [this]; norm_num

/-- Labels: from `Na1` to `Na2` only. -/
example : ∃ lib, call ⟨none, some (.group [.text "Na1", .text "Na2"]), none, some mapping, some 5,
    some [3, 2, 1]⟩ = .ok lib := by
  unfold call
  rw [C84_succeeds_iff dist_symm (by decide +kernel) search_exact]
  have hk : ¬ ChosenBySpecies (some (.group [.text "Na1", .text "Na2"])) (.group [.text "Na"]) := by
    rw [← inferKind_species]
    decide +kernel
  refine ⟨mapping, .group [.text "Na"], .text "Na1", .text "Na2", rfl,
    ⟨⟨("Na", ["Na", "X"]), by simp [mapping], by decide +kernel⟩, ?_⟩, rfl, ⟨_, rfl⟩,
    ⟨"Na", "Na1", 1⟩, ⟨"Na", "Na2", 2⟩, 0, 1, (0, 0, 0), 5, by decide +kernel, by decide +kernel, .inl (by decide), ?_, ?_, ?_, ?_⟩
  · have : mapping.filter (fun e => allowsVacancy e.2) = [("Na", ["Na", "X"])] := by decide +kernel
    rw [this]; rfl
  · exact .inr ⟨hk, rfl⟩
  · exact .inr ⟨hk, rfl⟩
  · exact ⟨.inr ⟨rfl, by norm_num⟩, ⟨"Na", "Na1", 1⟩, by decide +kernel, .inl rfl, "Na", by simp, .text "Na", by simp, rfl⟩
  · have : gap 0 1 (0, 0, 0) = 3 := by decide +kernel
    rw [this]; norm_num

/-- Distances of the sample are symmetric. -/
example : ∀ p q v, ((gap p q v : Int) : ℚ) = ((gap q p (-v.1, -v.2.1, -v.2.2) : Int) : ℚ) := by
  intro p q v
  have : gap p q v = gap q p (-v.1, -v.2.1, -v.2.2) := by
    unfold gap
    simp only
    congr 1
    · omega
    · congr 1 <;> omega
  rw [this]

/-- Three labels, and a text that is not two characters, are refused. -/
example :
    call ⟨none, some (.group [.text "Na1", .text "Na2", .text "Na1"]), some (.text "Na"), some mapping, none, none⟩ =
      .error .valueError ∧
    call ⟨none, some (.text "Na1"), some (.text "Na"), some mapping, none, none⟩ = .error .valueError :=
  ⟨(C84_not_two_refused rfl rfl).1 _ rfl (by decide), (C84_not_two_refused rfl rfl).2.1 _ rfl (by decide +kernel)⟩

end KMC
