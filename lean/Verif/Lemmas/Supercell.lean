import Verif.Model.Generator
import Verif.Lemmas.Py
import Mathlib.Data.List.Nodup
import Mathlib.Data.List.Basic
import Mathlib.Data.List.ProdSigma
import Mathlib.Tactic.Ring
import Mathlib.Tactic.Linarith
/-
Lemmas about active-site numbering, supercells and site indices.
-/
namespace KMC

/-! ### Splitting active and fixed sites -/

theorem splitSites_eq (act : List Nat) (ps : List Nat) (i : Nat) (acc : SiteSplit) :
    splitSites act i ps acc =
      { activeToOriginal := acc.activeToOriginal ++
          ((ps.zipIdx i).filter fun p => decide (p.1 ∈ act)).map Prod.snd
        activeToPrimitive := acc.activeToPrimitive ++ ps.filter fun p => decide (p ∈ act)
        fixedOriginal := acc.fixedOriginal ++
          ((ps.zipIdx i).filter fun p => !decide (p.1 ∈ act)).map Prod.snd } := by
  induction ps generalizing i acc with
  | nil => simp [splitSites]
  | cons p ps ih =>
    unfold splitSites
    split
    · rename_i h
      rw [ih]
      simp [List.zipIdx_cons, h]
    · rename_i h
      rw [ih]
      simp [List.zipIdx_cons, h]

theorem filter_zipIdx_sorted {α : Type} (l : List α) (i : Nat) (q : α × Nat → Bool) :
    (((l.zipIdx i).filter q).map Prod.snd).Pairwise (· < ·) := by
  apply List.Pairwise.sublist (List.Sublist.map _ List.filter_sublist)
  rw [List.zipIdx_map_snd]
  exact List.pairwise_lt_range'

theorem mem_filter_zipIdx {α : Type} (l : List α) (q : α → Bool) (k : Nat) :
    k ∈ ((l.zipIdx).filter fun p => q p.1).map Prod.snd ↔ ∃ a, l[k]? = some a ∧ q a = true := by
  simp only [List.mem_map, List.mem_filter, Prod.exists, exists_eq_right]
  constructor
  · rintro ⟨a, h, hq⟩
    rw [List.mem_zipIdx_iff_getElem?] at h
    exact ⟨a, by simpa using h, hq⟩
  · rintro ⟨a, h, hq⟩
    refine ⟨a, ?_, hq⟩
    rw [List.mem_zipIdx_iff_getElem?]
    simpa using h

theorem pickAll_filter {α β : Type} (f : α → β) (q : α → Bool) (pre : List β) (l : List α) :
    ActiveSiteOrder.pickAll (pre ++ l.map f)
      (((l.zipIdx pre.length).filter fun p => q p.1).map Prod.snd) = .ok ((l.filter q).map f) := by
  induction l generalizing pre with
  | nil => simp [ActiveSiteOrder.pickAll]
  | cons a l ih =>
    have := ih (pre ++ [f a])
    simp only [List.length_append, List.length_singleton, List.append_assoc, List.cons_append,
      List.nil_append] at this
    simp only [List.zipIdx_cons, List.map_cons]
    by_cases h : q a
    · simp only [List.filter_cons, h, if_true, List.map_cons]
      unfold ActiveSiteOrder.pickAll
      simp only [List.getElem?_append_right (le_refl _), Nat.sub_self, List.getElem?_cons_zero]
      rw [this]
    · simp only [List.filter_cons, h]
      exact this

theorem pickAll_ok_iff {α : Type} (values : List α) (is : List Nat) (vs : List α) :
    ActiveSiteOrder.pickAll values is = .ok vs ↔
      vs.length = is.length ∧ ∀ (k i : Nat), is[k]? = some i → ∃ v, values[i]? = some v ∧ vs[k]? = some v := by
  induction is generalizing vs with
  | nil =>
    simp only [ActiveSiteOrder.pickAll, Except.ok.injEq]
    constructor
    · rintro rfl; simp
    · intro h; exact (List.eq_nil_of_length_eq_zero h.1).symm
  | cons i is ih =>
    simp only [ActiveSiteOrder.pickAll]
    cases hv : values[i]? with
    | none =>
      simp only [reduceCtorEq, false_iff, not_and]
      intro _ h
      obtain ⟨v, h1, -⟩ := h 0 i rfl
      rw [hv] at h1; cases h1
    | some v =>
      simp only
      cases hp : ActiveSiteOrder.pickAll values is with
      | error e =>
        simp only [reduceCtorEq, false_iff, not_and]
        intro hl h
        cases vs with
        | nil => simp at hl
        | cons w ws =>
          have := (ih ws).2 ⟨by simpa using hl, fun k j hk => by
            simpa using h (k + 1) j (by simpa using hk)⟩
          rw [hp] at this; cases this
      | ok ws =>
        simp only [Except.ok.injEq]
        have h1 := (ih ws).1 hp
        constructor
        · rintro rfl
          refine ⟨by simp [h1.1], ?_⟩
          intro k j hk
          cases k with
          | zero => simp at hk; subst hk; exact ⟨v, hv, rfl⟩
          | succ k => simpa using h1.2 k j (by simpa using hk)
        · rintro ⟨hl, h⟩
          cases vs with
          | nil => simp at hl
          | cons w ws' =>
            obtain ⟨v', e1, e2⟩ := h 0 i rfl
            rw [hv] at e1; cases e1
            simp at e2; subst e2
            have := (ih ws').2 ⟨by simpa using hl, fun k j hk => by
              simpa using h (k + 1) j (by simpa using hk)⟩
            rw [hp] at this; cases this; rfl

/-! ### Lattice points -/

/-- A cell lies in the box. -/
def InBox (shape : Nat × Nat × Nat) (t : Cell) : Prop :=
  (0 ≤ t.1 ∧ t.1 < shape.1) ∧ (0 ≤ t.2.1 ∧ t.2.1 < shape.2.1) ∧ (0 ≤ t.2.2 ∧ t.2.2 < shape.2.2)

theorem mem_latticePoints (a b c : Nat) (t : Cell) :
    t ∈ latticePoints a b c ↔ InBox (a, b, c) t := by
  obtain ⟨x, y, z⟩ := t
  simp only [latticePoints, List.mem_flatMap, List.mem_range, List.mem_map, Prod.mk.injEq, InBox]
  constructor
  · rintro ⟨i, hi, j, hj, k, hk, rfl, rfl, rfl⟩
    omega
  · rintro ⟨⟨h1, h2⟩, ⟨h3, h4⟩, h5, h6⟩
    exact ⟨x.toNat, by omega, y.toNat, by omega, z.toNat, by omega, by omega, by omega, by omega⟩

theorem latticePoints_length (a b c : Nat) : (latticePoints a b c).length = a * b * c := by
  simp [latticePoints, List.length_flatMap, Nat.mul_assoc]

theorem latticePoints_nodup (a b c : Nat) : (latticePoints a b c).Nodup := by
  unfold latticePoints
  rw [List.nodup_flatMap]
  refine ⟨fun i _ => ?_, ?_⟩
  · rw [List.nodup_flatMap]
    refine ⟨fun j _ => ?_, ?_⟩
    · refine List.Nodup.map ?_ List.nodup_range
      intro x y h
      simp only [Prod.mk.injEq, Nat.cast_inj] at h
      exact h.2.2
    · refine List.Pairwise.imp ?_ List.nodup_range
      intro x y h
      simp only [Function.onFun, List.disjoint_left, List.mem_map, List.mem_range, not_exists, not_and]
      rintro _ ⟨k, hk, rfl⟩ k' hk' e
      simp only [Prod.mk.injEq, Nat.cast_inj] at e
      exact h e.2.1.symm
  · refine List.Pairwise.imp ?_ List.nodup_range
    intro x y h
    simp only [Function.onFun, List.disjoint_left, List.mem_flatMap, List.mem_map, List.mem_range,
      not_exists, not_and]
    rintro _ ⟨j, hj, k, hk, rfl⟩ j' hj' k' hk' e
    simp only [Prod.mk.injEq, Nat.cast_inj] at e
    exact h e.1.symm

/-! ### Supercells -/

/-- The list built by `makeKmcSupercell`. -/
def supercellList {α : Type} (sites : List α) (cells : List Cell) : List (α × Cell) :=
  sites.flatMap fun s => cells.map fun t => (s, t)

theorem makeKmcSupercell_eq {α : Type} (sites : List α) (shape : Nat × Nat × Nat) :
    makeKmcSupercell sites shape =
      if (supercellList sites (latticePoints shape.1 shape.2.1 shape.2.2)).length < 1 then
        .error .valueError
      else .ok (supercellList sites (latticePoints shape.1 shape.2.1 shape.2.2)) := rfl

theorem supercellList_length {α : Type} (sites : List α) (cells : List Cell) :
    (supercellList sites cells).length = sites.length * cells.length := by
  simp [supercellList, List.length_flatMap]

theorem makeKmcSupercell_ok {α : Type} {sites : List α} {shape : Nat × Nat × Nat}
    {full : List (α × Cell)} (h : makeKmcSupercell sites shape = .ok full) :
    full = supercellList sites (latticePoints shape.1 shape.2.1 shape.2.2) := by
  rw [makeKmcSupercell_eq] at h
  split at h
  · cases h
  · cases h; rfl

theorem mem_supercellList {α : Type} (sites : List α) (cells : List Cell) (p : α × Cell) :
    p ∈ supercellList sites cells ↔ p.1 ∈ sites ∧ p.2 ∈ cells := by
  obtain ⟨s, t⟩ := p
  simp only [supercellList, List.mem_flatMap, List.mem_map, Prod.mk.injEq]
  constructor
  · rintro ⟨s', hs, t', ht, rfl, rfl⟩; exact ⟨hs, ht⟩
  · rintro ⟨hs, ht⟩; exact ⟨s, hs, t, ht, rfl, rfl⟩

theorem supercellList_map {α β : Type} (f : α → β) (sites : List α) (cells : List Cell) :
    supercellList (sites.map f) cells = (supercellList sites cells).map fun p => (f p.1, p.2) := by
  simp [supercellList, List.flatMap_map, List.map_flatMap, Function.comp_def]

theorem supercellList_filter {α : Type} (q : α → Bool) (sites : List α) (cells : List Cell) :
    supercellList (sites.filter q) cells = (supercellList sites cells).filter fun p => q p.1 := by
  induction sites with
  | nil => rfl
  | cons s sites ih =>
    simp only [supercellList] at ih
    by_cases h : q s
    · simp [supercellList, h, ih, List.filter_map, Function.comp_def]
    · simp [supercellList, h, ih, List.filter_map, Function.comp_def]

theorem supercellList_getElem? {α : Type} (sites : List α) (cells : List Cell) (n : Nat) :
    (supercellList sites cells)[n]? =
      (sites[n / cells.length]?).bind fun s => (cells[n % cells.length]?).map fun t => (s, t) := by
  induction sites generalizing n with
  | nil => simp [supercellList]
  | cons s sites ih =>
    simp only [supercellList, List.flatMap_cons] at ih ⊢
    by_cases h : n < cells.length
    · rw [List.getElem?_append_left (by simpa using h), Nat.div_eq_of_lt h, Nat.mod_eq_of_lt h]
      simp
    · push Not at h
      rw [List.getElem?_append_right (by simpa using h), List.length_map, ih]
      by_cases h0 : cells.length = 0
      · have : cells = [] := List.eq_nil_of_length_eq_zero h0
        subst this
        cases hs : sites[0]? <;> simp [hs]
      · have h1 : n / cells.length = (n - cells.length) / cells.length + 1 := by
          rw [← Nat.div_eq_sub_div (by omega) h]
        have h2 : n % cells.length = (n - cells.length) % cells.length := Nat.mod_eq_sub_mod h
        rw [h1, h2, List.getElem?_cons_succ]

/-- The site of a supercell entry has the primitive index of its position. -/
theorem supercellPrimitiveIndex_eq (n : Nat) (cells : List Cell) :
    supercellPrimitiveIndex n cells.length = (supercellList (List.range n) cells).map Prod.fst := by
  simp [supercellPrimitiveIndex, supercellList, List.map_flatMap, Function.comp_def, List.map_const']

theorem supercellList_nodup {α : Type} {sites : List α} {cells : List Cell} (h1 : sites.Nodup)
    (h2 : cells.Nodup) : (supercellList sites cells).Nodup := by
  have : supercellList sites cells = sites ×ˢ cells := rfl
  rw [this]
  exact h1.product h2

/-! ### The site index -/

/-- Key of a site. -/
def keyOf {σ : Type} (p : LabeledSite σ × Cell) : SiteKey :=
  siteIndexKey p.2 p.1.label p.1.localIndex

theorem keyOf_eq_iff {σ : Type} (p q : LabeledSite σ × Cell) :
    keyOf p = keyOf q ↔ p.2 = q.2 ∧ p.1.label = q.1.label ∧ p.1.localIndex = q.1.localIndex := by
  obtain ⟨s, x, y, z⟩ := p
  obtain ⟨s', x', y', z'⟩ := q
  simp only [keyOf, siteIndexKey, Prod.mk.injEq]
  tauto

/-- Reading an index that was built over `sites` from position `i` on. -/
theorem buildSiteIndexFrom_ok {σ : Type} (skip : Bool) (sites : List (LabeledSite σ × Cell)) (i : Nat)
    (d d' : List (SiteKey × Nat)) (hn : (sites.map keyOf).Nodup)
    (h : buildSiteIndexFrom skip i sites d = .ok d') (key : SiteKey) :
    dictGet d' key =
      match (sites.zipIdx i).find? (fun p => decide (keyOf p.1 = key)) with
      | some p => some p.2
      | none => dictGet d key := by
  induction sites generalizing i d with
  | nil =>
    simp only [buildSiteIndexFrom, Except.ok.injEq] at h
    subst h; simp
  | cons p sites ih =>
    obtain ⟨s, cell⟩ := p
    simp only [buildSiteIndexFrom] at h
    split at h
    · cases h
    · simp only [List.map_cons, List.nodup_cons] at hn
      rw [ih (i + 1) _ hn.2 h]
      simp only [List.zipIdx_cons, List.find?_cons]
      by_cases hk : keyOf (s, cell) = key
      · have h0 : (sites.zipIdx (i + 1)).find? (fun p => decide (keyOf p.1 = key)) = none := by
          rw [List.find?_eq_none]
          intro q hq
          simp only [decide_eq_true_eq]
          intro e
          apply hn.1
          rw [hk, ← e]
          exact List.mem_map_of_mem (List.fst_mem_of_mem_zipIdx hq)
        rw [h0]
        simp only [hk, decide_true]
        rw [← hk]
        exact dictGet_dictSet_self _ _ _
      · simp only [hk, decide_false]
        have : siteIndexKey cell s.label s.localIndex ≠ key := hk
        rw [dictGet_dictSet_ne _ _ (Ne.symm this)]

theorem buildSiteIndexFrom_isOk {σ : Type} (skip : Bool) (sites : List (LabeledSite σ × Cell)) (i : Nat)
    (d : List (SiteKey × Nat)) (hn : (sites.map keyOf).Nodup)
    (hd : ∀ p ∈ sites, keyOf p ∉ dictKeys d) :
    ∃ d', buildSiteIndexFrom skip i sites d = .ok d' ∧
      dictKeys d' = dictKeys d ++ sites.map keyOf := by
  induction sites generalizing i d with
  | nil => exact ⟨d, rfl, by simp⟩
  | cons p sites ih =>
    obtain ⟨s, cell⟩ := p
    simp only [List.map_cons, List.nodup_cons] at hn
    have h0 : dictGet d (siteIndexKey cell s.label s.localIndex) = none := by
      rw [dictGet_eq_none_iff]
      exact hd (s, cell) List.mem_cons_self
    have hk : siteIndexKey cell s.label s.localIndex ∉ dictKeys d := hd (s, cell) List.mem_cons_self
    obtain ⟨d', h1, h2⟩ := ih (i + 1) (dictSet d (siteIndexKey cell s.label s.localIndex) i) hn.2 (by
      intro q hq
      rw [dictSet_keys_mem]
      rintro (e | e)
      · apply hn.1
        have : keyOf (s, cell) = keyOf q := e.symm
        rw [this]
        exact List.mem_map_of_mem hq
      · exact hd q (List.mem_cons_of_mem _ hq) e)
    refine ⟨d', ?_, ?_⟩
    · simp [buildSiteIndexFrom, h0, h1]
    · rw [h2, dictKeys_dictSet_of_not_mem _ _ hk]
      simp [keyOf, dictKeys]

theorem buildSiteIndexFrom_dup {σ : Type} (sites : List (LabeledSite σ × Cell)) (i : Nat)
    (d : List (SiteKey × Nat))
    (h : ¬ (sites.map keyOf).Nodup ∨ ∃ p ∈ sites, keyOf p ∈ dictKeys d) :
    buildSiteIndexFrom false i sites d = .error .keyError := by
  induction sites generalizing i d with
  | nil => simp at h
  | cons p sites ih =>
    obtain ⟨s, cell⟩ := p
    simp only [buildSiteIndexFrom, Bool.not_false, Bool.true_and]
    split
    · rfl
    · rename_i h0
      apply ih
      have h0' : keyOf (s, cell) ∉ dictKeys d := by
        rw [← dictGet_eq_none_iff]
        show dictGet d (siteIndexKey cell s.label s.localIndex) = none
        simpa using h0
      rcases h with h | ⟨q, hq, hqd⟩
      · simp only [List.map_cons, List.nodup_cons, not_and_or, not_not] at h
        rcases h with h | h
        · right
          obtain ⟨q, hq, e⟩ := List.mem_map.1 h
          refine ⟨q, hq, ?_⟩
          rw [dictSet_keys_mem, e]; left; rfl
        · exact Or.inl h
      · right
        rcases List.mem_cons.1 hq with rfl | hq
        · exact absurd hqd h0'
        · exact ⟨q, hq, by rw [dictSet_keys_mem]; exact Or.inr hqd⟩

/-- The index as a function: position of a key. -/
theorem siteIndex_get {σ : Type} {sites : List (LabeledSite σ × Cell)} {index : List (SiteKey × Nat)}
    {skip : Bool} (hn : (sites.map keyOf).Nodup) (h : buildSiteIndex sites skip = .ok index)
    (key : SiteKey) (n : Nat) :
    dictGet index key = some n ↔ ∃ p, sites[n]? = some p ∧ keyOf p = key := by
  rw [buildSiteIndexFrom_ok skip sites 0 [] index hn h key]
  cases hf : (sites.zipIdx).find? (fun p => decide (keyOf p.1 = key)) with
  | none =>
    simp only [dictGet, reduceCtorEq, false_iff, not_exists, not_and]
    rw [List.find?_eq_none] at hf
    intro p hp e
    have := hf (p, n) (by rw [List.mem_zipIdx_iff_getElem?]; simpa using hp)
    simp [e] at this
  | some p =>
    obtain ⟨q, m⟩ := p
    have h1 := List.find?_some hf
    have h2 := List.mem_of_find?_eq_some hf
    simp only [decide_eq_true_eq] at h1
    rw [List.mem_zipIdx_iff_getElem?] at h2
    simp only at h2
    simp only [Option.some.injEq]
    constructor
    · rintro rfl; exact ⟨q, by simpa using h2, h1⟩
    · rintro ⟨p, hp, e⟩
      have hm : (sites.map keyOf)[m]? = some key := by simp [h2, h1]
      have hn' : (sites.map keyOf)[n]? = some key := by simp [hp, e]
      have hlt : m < (sites.map keyOf).length := (List.getElem?_eq_some_iff.1 hm).1
      exact (List.getElem?_inj hlt hn).1 (hm.trans hn'.symm)

theorem keys_nodup {σ : Type} {sites : List (LabeledSite σ)} {cells : List Cell}
    (h1 : (sites.map fun s => (s.label, s.localIndex)).Nodup) (h2 : cells.Nodup) :
    ((supercellList sites cells).map keyOf).Nodup := by
  have : (supercellList sites cells).map keyOf =
      (supercellList (sites.map fun s => (s.label, s.localIndex)) cells).map
        fun p => siteIndexKey p.2 p.1.1 p.1.2 := by
    rw [supercellList_map, List.map_map]; rfl
  rw [this]
  refine List.Nodup.map ?_ (supercellList_nodup h1 h2)
  rintro ⟨⟨l, i⟩, x, y, z⟩ ⟨⟨l', i'⟩, x', y', z'⟩ e
  simp only [siteIndexKey, Prod.mk.injEq] at e ⊢
  tauto

/-! ### Labels -/

theorem labelGroups_localIndex {σ : Type} (start : Int) (groups : List (σ × String × Nat)) :
    ∃ n : Nat, (labelGroups start groups).map LabeledSite.localIndex =
      (List.range n).map fun (k : Nat) => start + (k : Int) := by
  induction groups generalizing start with
  | nil => exact ⟨0, rfl⟩
  | cons g groups ih =>
    obtain ⟨s, l, m⟩ := g
    obtain ⟨n, hn⟩ := ih (start + m)
    refine ⟨m + n, ?_⟩
    simp only [labelGroups, List.map_append, hn, List.map_map, List.range_add]
    congr 1
    apply List.map_congr_left
    intro k _
    simp only [Function.comp]
    push_cast; ring

/-! ### Modular arithmetic of cells -/

theorem npMod_pos {m : Int} (hm : 0 < m) (x : Int) : npMod x m = x % m := by
  unfold npMod
  rw [if_neg hm.ne', Int.fmod_eq_emod_of_nonneg _ hm.le]

end KMC
