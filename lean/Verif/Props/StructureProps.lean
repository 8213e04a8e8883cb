import Verif.Lemmas.Supercell
import Verif.Spec.Supercell
/-
C41, C43, C44, C60: active-site numbering, periodic cells, the supercell site index.
-/
namespace KMC
open Spec

/-! ### C41 -/

section
variable {σ φ : Type}

theorem normalizeSupercellShape_ok {shape : Option (List Int)} {s : Nat × Nat × Nat}
    (h : normalizeSupercellShape shape = .ok s) : 0 < s.1 ∧ 0 < s.2.1 ∧ 0 < s.2.2 := by
  unfold normalizeSupercellShape at h
  split at h
  · cases h; simp
  · split at h
    · cases h
    · rename_i hp
      push Not at hp
      cases h
      simp only
      omega
  · cases h

theorem allowedSpeciesBySite_ok {eqv : σ → σ → Bool} {mapping : List (σ × List σ)} {t : List σ}
    {allowed : List (List σ)} (h : allowedSpeciesBySite eqv mapping t = .ok allowed) :
    allowed.length = t.length ∧ ∀ (p : Nat) s, t[p]? = some s →
      ∃ kv, mapping.find? (fun kv => eqv s kv.1) = some kv ∧ allowed[p]? = some kv.2 := by
  induction t generalizing allowed with
  | nil => simp only [allowedSpeciesBySite, Except.ok.injEq] at h; subst h; simp
  | cons s t ih =>
    simp only [allowedSpeciesBySite] at h
    split at h
    · cases h
    · rename_i a rest ha
      split at h
      · cases h
      · rename_i as has
        cases h
        obtain ⟨h1, h2⟩ := ih has
        refine ⟨by simp [h1], ?_⟩
        intro p s' hp
        cases p with
        | zero =>
          simp only [List.getElem?_cons_zero, Option.some.injEq] at hp
          subst hp
          cases hf : mapping.filter (fun kv => eqv s kv.1) with
          | nil => rw [hf] at ha; cases ha
          | cons kv kvs =>
            rw [hf] at ha
            simp only [List.map_cons, List.cons.injEq] at ha
            refine ⟨kv, ?_, by simp [ha.1]⟩
            rw [← List.head?_filter, hf]; rfl
        | succ p => simpa using h2 p s' (by simpa using hp)

/-- What a successful construction gives, in one place. -/
theorem fromStructureAndMapping_ok {eqv : σ → σ → Bool}
    {fp : Nat → Nat → List Nat → List Nat → List Nat → Nat × Nat × Nat → List σ →
      List (List σ) → φ}
    {template : List σ} {mapping : List (σ × List σ)} {shape : Option (List Int)}
    {o : ActiveSiteOrder σ φ}
    (h : ActiveSiteOrder.fromStructureAndMapping eqv fp template mapping shape = .ok o) :
    normalizeSupercellShape shape = .ok o.supercellShape ∧
    allowedSpeciesBySite eqv mapping template = .ok o.allowedSpeciesByPrimitiveSite ∧
    o.primitiveActiveIndices = activePrimitives o.allowedSpeciesByPrimitiveSite ∧
    o.primitiveActiveIndices ≠ [] ∧
    o.primitiveSiteCount = template.length ∧ o.speciesByPrimitiveSite = template ∧
    (let full := supercellPrimitiveIndex template.length (cellCount o.supercellShape)
     let sp := splitSites o.primitiveActiveIndices 0 full {}
     o.originalSiteCount = full.length ∧ o.activeToOriginal = sp.activeToOriginal ∧
     o.activeToPrimitive = sp.activeToPrimitive ∧ o.fixedOriginalIndices = sp.fixedOriginal ∧
     o.fingerprint = fp template.length full.length o.primitiveActiveIndices sp.activeToOriginal
      sp.activeToPrimitive o.supercellShape template o.allowedSpeciesByPrimitiveSite) := by
  unfold ActiveSiteOrder.fromStructureAndMapping at h
  split at h
  · cases h
  · rename_i a b c hs
    split at h
    · cases h
    · rename_i allowed ha
      simp only at h
      split at h
      · cases h
      · rename_i hne
        cases h
        exact ⟨hs, ha, rfl, hne, rfl, rfl, rfl, rfl, rfl, rfl, rfl⟩

theorem mem_activePrimitives (allowed : List (List σ)) (i : Nat) :
    i ∈ activePrimitives allowed ↔ ∃ a, allowed[i]? = some a ∧ 1 < a.length := by
  simp only [activePrimitives, List.mem_filter, List.mem_range]
  constructor
  · rintro ⟨h1, h2⟩
    cases ha : allowed[i]? with
    | none => rw [ha] at h2; cases h2
    | some a => rw [ha] at h2; exact ⟨a, rfl, by simpa using h2⟩
  · rintro ⟨a, h1, h2⟩
    refine ⟨(List.getElem?_eq_some_iff.1 h1).1, ?_⟩
    rw [h1]; simpa using h2

theorem supercellPrimitiveIndex_length (n L : Nat) : (supercellPrimitiveIndex n L).length = n * L := by
  simp [supercellPrimitiveIndex, List.length_flatMap]

theorem supercellPrimitiveIndex_getElem? (n L k : Nat) (h : k < n * L) :
    (supercellPrimitiveIndex n L)[k]? = some (k / L) := by
  have hL : 0 < L := by
    rcases Nat.eq_zero_or_pos L with rfl | h0
    · simp at h
    · exact h0
  have e := supercellPrimitiveIndex_eq n (List.replicate L (0, 0, 0))
  rw [List.length_replicate] at e
  rw [e, List.getElem?_map, supercellList_getElem?, List.length_replicate]
  have h1 : k / L < n := by rwa [Nat.div_lt_iff_lt_mul hL]
  rw [List.getElem?_range h1]
  simp [Nat.mod_lt _ hL]

/-- C41.  A constructed order numbers the active sites of the supercell: active and fixed sites
together are all sites, each once; both lists are increasing; a site is active exactly when its
template site allows more than one species; and the primitive index of an active site is that of
its position. -/
theorem C41_numbering {eqv : σ → σ → Bool}
    {fp : Nat → Nat → List Nat → List Nat → List Nat → Nat × Nat × Nat → List σ →
      List (List σ) → φ}
    {template : List σ} {mapping : List (σ × List σ)} {shape : Option (List Int)}
    {o : ActiveSiteOrder σ φ}
    (h : ActiveSiteOrder.fromStructureAndMapping eqv fp template mapping shape = .ok o) :
    o.originalSiteCount = template.length * cellCount o.supercellShape ∧
    (o.activeToOriginal ++ o.fixedOriginalIndices).Perm (List.range o.originalSiteCount) ∧
    o.activeToOriginal.Pairwise (· < ·) ∧ o.fixedOriginalIndices.Pairwise (· < ·) ∧
    (∀ i, i ∈ o.activeToOriginal ↔ i < o.originalSiteCount ∧
      ∃ s kv, template[i / cellCount o.supercellShape]? = some s ∧
        mapping.find? (fun kv => eqv s kv.1) = some kv ∧ 1 < kv.2.length) ∧
    o.activeToPrimitive = o.activeToOriginal.map (· / cellCount o.supercellShape) ∧
    o.activeToOriginal ≠ [] := by
  obtain ⟨h1, h2, h3, h4, h5, h6, h7, h8, h9, h10, h11⟩ := fromStructureAndMapping_ok h
  obtain ⟨p1, p2, p3⟩ := normalizeSupercellShape_ok h1
  have hL : 0 < cellCount o.supercellShape := Nat.mul_pos (Nat.mul_pos p1 p2) p3
  obtain ⟨q1, q2⟩ := allowedSpeciesBySite_ok h2
  rw [splitSites_eq] at h8 h9 h10
  simp only [List.nil_append] at h8 h9 h10
  generalize hL' : cellCount o.supercellShape = L at *
  have hlen := supercellPrimitiveIndex_length template.length L
  have hmem : ∀ i, i ∈ o.activeToOriginal ↔ i < template.length * L ∧
      i / L ∈ o.primitiveActiveIndices := by
    intro i
    rw [h8, mem_filter_zipIdx (supercellPrimitiveIndex template.length L)
      (fun p => decide (p ∈ o.primitiveActiveIndices)) i]
    constructor
    · rintro ⟨a, ha, hq⟩
      have hi : i < template.length * L := by
        rw [← hlen]; exact (List.getElem?_eq_some_iff.1 ha).1
      rw [supercellPrimitiveIndex_getElem? _ _ _ hi] at ha
      cases ha
      exact ⟨hi, by simpa using hq⟩
    · rintro ⟨hi, hq⟩
      exact ⟨_, supercellPrimitiveIndex_getElem? _ _ _ hi, by simpa using hq⟩
  refine ⟨by rw [h7, hlen], ?_, ?_, ?_, ?_, ?_, ?_⟩
  · rw [h8, h10, ← List.map_append, h7]
    have := (List.filter_append_perm
      (fun p : Nat × Nat => decide (p.1 ∈ o.primitiveActiveIndices))
      (supercellPrimitiveIndex template.length L).zipIdx).map Prod.snd
    refine this.trans ?_
    rw [List.zipIdx_map_snd, List.range_eq_range']
  · rw [h8]; exact filter_zipIdx_sorted _ _ _
  · rw [h10]; exact filter_zipIdx_sorted _ _ _
  · intro i
    rw [hmem, h7, hlen, h3, mem_activePrimitives]
    refine and_congr_right ?_
    intro hi
    have hi' : i / L < template.length := by rwa [Nat.div_lt_iff_lt_mul hL]
    constructor
    · rintro ⟨a, ha, hl⟩
      obtain ⟨kv, hf, he⟩ := q2 _ _ (List.getElem?_eq_getElem hi')
      rw [he] at ha; cases ha
      exact ⟨_, kv, List.getElem?_eq_getElem hi', hf, hl⟩
    · rintro ⟨s, kv, hs, hf, hl⟩
      obtain ⟨kv', hf', he⟩ := q2 _ _ hs
      rw [hf] at hf'; cases hf'
      exact ⟨_, he, hl⟩
  · rw [h9, h8, List.map_map]
    have e : (supercellPrimitiveIndex template.length L).filter
        (fun p => decide (p ∈ o.primitiveActiveIndices)) =
        ((supercellPrimitiveIndex template.length L).zipIdx.filter
          (fun p => decide (p.1 ∈ o.primitiveActiveIndices))).map Prod.fst := by
      rw [show (fun p : Nat × Nat => decide (p.1 ∈ o.primitiveActiveIndices)) =
        (fun p => decide (p ∈ o.primitiveActiveIndices)) ∘ Prod.fst from rfl, ← List.filter_map,
        List.zipIdx_map_fst]
    rw [e]
    apply List.map_congr_left
    rintro ⟨p, k⟩ hp
    have := (List.mem_filter.1 hp).1
    rw [List.mem_zipIdx_iff_getElem?] at this
    simp only at this ⊢
    have hk : k < template.length * L := by
      rw [← hlen]; exact (List.getElem?_eq_some_iff.1 (by simpa using this)).1
    rw [supercellPrimitiveIndex_getElem? _ _ _ hk] at this
    simpa using this.symm
  · obtain ⟨p, hp⟩ := List.exists_mem_of_ne_nil _ h4
    have hp' := hp
    rw [h3, mem_activePrimitives] at hp'
    obtain ⟨a, ha, -⟩ := hp'
    have hpl : p < template.length := by rw [← q1]; exact (List.getElem?_eq_some_iff.1 ha).1
    intro hnil
    have : p * L ∈ o.activeToOriginal := by
      rw [hmem]
      refine ⟨Nat.mul_lt_mul_of_pos_right hpl hL, ?_⟩
      rw [Nat.mul_div_cancel _ hL]; exact hp
    rw [hnil] at this; cases this

/-- Reading a dictionary built from an enumeration. -/
theorem foldl_dictSet_get (l : List (Nat × Nat)) (hn : (l.map Prod.fst).Nodup)
    (d : List (Nat × Nat)) (i : Nat) :
    dictGet (l.foldl (fun d p => dictSet d p.1 p.2) d) i =
      match l.find? (fun p => decide (p.1 = i)) with
      | some p => some p.2
      | none => dictGet d i := by
  induction l generalizing d with
  | nil => rfl
  | cons p l ih =>
    simp only [List.map_cons, List.nodup_cons] at hn
    rw [List.foldl_cons, ih hn.2, List.find?_cons]
    by_cases h : p.1 = i
    · have h0 : l.find? (fun p => decide (p.1 = i)) = none := by
        rw [List.find?_eq_none]
        intro q hq
        simp only [decide_eq_true_eq]
        intro e
        apply hn.1
        rw [h, ← e]
        exact List.mem_map_of_mem hq
      rw [h0]
      simp [h]
    · simp only [h, decide_false]
      rw [dictGet_dictSet_ne _ _ (Ne.symm h)]

/-- The dictionary `original_to_active` inverts a list without repetitions. -/
theorem originalToActive_iff {o : ActiveSiteOrder σ φ} (hn : o.activeToOriginal.Nodup) (i k : Nat) :
    dictGet o.originalToActive i = some k ↔ o.activeToOriginal[k]? = some i := by
  unfold ActiveSiteOrder.originalToActive
  rw [foldl_dictSet_get _ (by rw [List.zipIdx_map_fst]; exact hn)]
  cases hf : o.activeToOriginal.zipIdx.find? (fun p => decide (p.1 = i)) with
  | none =>
    simp only [dictGet, reduceCtorEq, false_iff]
    rw [List.find?_eq_none] at hf
    intro hk
    have := hf (i, k) (by rw [List.mem_zipIdx_iff_getElem?]; simpa using hk)
    simp at this
  | some p =>
    obtain ⟨q, m⟩ := p
    have h1 := List.find?_some hf
    have h2 := List.mem_of_find?_eq_some hf
    simp only [decide_eq_true_eq] at h1
    subst h1
    rw [List.mem_zipIdx_iff_getElem?] at h2
    simp only at h2
    simp only [Option.some.injEq]
    constructor
    · rintro rfl; simpa using h2
    · intro hk
      have hlt : m < o.activeToOriginal.length := (List.getElem?_eq_some_iff.1 (by simpa using h2)).1
      exact (List.getElem?_inj hlt hn).1 (h2.trans hk.symm)

/-- C41.  `original_to_active` and `active_to_original` are inverse to each other. -/
theorem C41_inverse {eqv : σ → σ → Bool}
    {fp : Nat → Nat → List Nat → List Nat → List Nat → Nat × Nat × Nat → List σ →
      List (List σ) → φ}
    {template : List σ} {mapping : List (σ × List σ)} {shape : Option (List Int)}
    {o : ActiveSiteOrder σ φ}
    (h : ActiveSiteOrder.fromStructureAndMapping eqv fp template mapping shape = .ok o)
    (i k : Nat) :
    dictGet o.originalToActive i = some k ↔ o.activeToOriginal[k]? = some i := by
  exact originalToActive_iff ((C41_numbering h).2.2.1.imp (fun {a b} h => Nat.ne_of_lt h)) i k

/-- C41.  Selecting active values from a full list keeps exactly the active entries in order;
a compact list is returned unchanged, any other length is rejected. -/
theorem C41_select_active_values {eqv : σ → σ → Bool}
    {fp : Nat → Nat → List Nat → List Nat → List Nat → Nat × Nat × Nat → List σ →
      List (List σ) → φ}
    {template : List σ} {mapping : List (σ × List σ)} {shape : Option (List Int)}
    {o : ActiveSiteOrder σ φ}
    (h : ActiveSiteOrder.fromStructureAndMapping eqv fp template mapping shape = .ok o)
    {α : Type} (values : List α) :
    (values.length = o.activeSiteCount → o.selectActiveValues values = .ok values) ∧
    (values.length = o.originalSiteCount → ∃ vs, o.selectActiveValues values = .ok vs ∧
      vs.length = o.activeSiteCount ∧
      ∀ (k i : Nat), o.activeToOriginal[k]? = some i → vs[k]? = values[i]?) ∧
    (values.length ≠ o.activeSiteCount → values.length ≠ o.originalSiteCount →
      o.selectActiveValues values = .error .valueError) := by
  obtain ⟨h1, h2, h3, -, h5, -, -⟩ := C41_numbering h
  refine ⟨?_, ?_, ?_⟩
  · intro hl; simp [ActiveSiteOrder.selectActiveValues, hl]
  · intro hl
    by_cases he : values.length = o.activeSiteCount
    · refine ⟨values, by simp [ActiveSiteOrder.selectActiveValues, he], he, ?_⟩
      -- all sites are active, so the numbering is the identity
      have hid : o.activeToOriginal = List.range o.originalSiteCount := by
        have hlen : o.activeToOriginal.length = o.originalSiteCount := by
          rw [← hl, he]; rfl
        have hf : o.fixedOriginalIndices = [] := by
          have := h2.length_eq
          rw [List.length_append, List.length_range, hlen] at this
          exact List.eq_nil_of_length_eq_zero (by omega)
        rw [hf, List.append_nil] at h2
        exact h2.eq_of_pairwise (fun a b _ _ h1 h2 => absurd h1 (by omega)) h3 List.pairwise_lt_range
      intro k i hk
      rw [hid] at hk
      have hk' := List.getElem?_eq_some_iff.1 hk
      obtain ⟨hk1, hk2⟩ := hk'
      simp at hk2; subst hk2; rfl
    · have key : ∃ vs, ActiveSiteOrder.pickAll values o.activeToOriginal = .ok vs := by
        have hb : ∀ i ∈ o.activeToOriginal, i < values.length := by
          intro i hi; rw [hl]; exact ((h5 i).1 hi).1
        generalize o.activeToOriginal = is at hb
        induction is with
        | nil => exact ⟨[], rfl⟩
        | cons i is ih =>
          obtain ⟨vs, hv⟩ := ih fun j hj => hb j (List.mem_cons_of_mem _ hj)
          refine ⟨values[i]'(hb i List.mem_cons_self) :: vs, ?_⟩
          simp [ActiveSiteOrder.pickAll, hv, List.getElem?_eq_getElem (hb i List.mem_cons_self)]
      obtain ⟨vs, hv⟩ := key
      have hk := (pickAll_ok_iff _ _ _).1 hv
      refine ⟨vs, ?_, hk.1, ?_⟩
      · unfold ActiveSiteOrder.selectActiveValues
        rw [if_neg he, if_pos hl, hv]
      · intro k i hki
        obtain ⟨v, e1, e2⟩ := hk.2 k i hki
        rw [e1, e2]
  · intro ha hb
    simp [ActiveSiteOrder.selectActiveValues, ha, hb]

/-- C41.  Serialised metadata restores the order. -/
theorem C41_dict_round_trip (o : ActiveSiteOrder σ φ) :
    ActiveSiteOrder.fromDict o.asDict = .ok o := by
  cases o; simp [ActiveSiteOrder.fromDict, ActiveSiteOrder.asDict]

/-! ### C43 -/

theorem inside_iff (shape : Nat × Nat × Nat) (t : Cell) : Inside shape t ↔ InBox shape t := Iff.rfl

/-- Normalisation with the shape of a supercell. -/
theorem normalize_eq (shape : Nat × Nat × Nat) (h1 : 0 < shape.1) (h2 : 0 < shape.2.1)
    (h3 : 0 < shape.2.2) (t v : Cell) :
    normalizeSupercellTuple t v (shapeCell shape) =
      ((t.1 + v.1) % (shape.1 : Int), (t.2.1 + v.2.1) % (shape.2.1 : Int),
        (t.2.2 + v.2.2) % (shape.2.2 : Int)) := by
  simp only [normalizeSupercellTuple, shapeCell]
  rw [npMod_pos (by omega), npMod_pos (by omega), npMod_pos (by omega)]

/-- C43.  The normalised cell lies inside the supercell and differs from the requested one by
whole supercell translations. -/
theorem C43_normalized_cell (shape : Nat × Nat × Nat) (h1 : 0 < shape.1) (h2 : 0 < shape.2.1)
    (h3 : 0 < shape.2.2) (t v : Cell) :
    Inside shape (normalizeSupercellTuple t v (shapeCell shape)) ∧
    SameImage shape (normalizeSupercellTuple t v (shapeCell shape)) (shift t v) := by
  rw [normalize_eq shape h1 h2 h3]
  have hb : ∀ (x : Int) (m : Nat), 0 < m → (0 ≤ x % (m : Int) ∧ x % (m : Int) < m) := by
    intro x m hm
    have : (0 : Int) < m := by omega
    exact ⟨Int.emod_nonneg _ this.ne', Int.emod_lt_of_pos _ this⟩
  refine ⟨⟨hb _ _ h1, hb _ _ h2, hb _ _ h3⟩, -((t.1 + v.1) / shape.1), -((t.2.1 + v.2.1) / shape.2.1),
    -((t.2.2 + v.2.2) / shape.2.2), ?_, ?_, ?_⟩
  · simp only [shift]; have := Int.emod_add_mul_ediv (t.1 + v.1) shape.1; linarith
  · simp only [shift]; have := Int.emod_add_mul_ediv (t.2.1 + v.2.1) shape.2.1; linarith
  · simp only [shift]; have := Int.emod_add_mul_ediv (t.2.2 + v.2.2) shape.2.2; linarith

/-- C43.  Periodic images have the same normal form, so the result depends only on the class of
the requested cell; conversely equal normal forms are periodic images. -/
theorem C43_unique (shape : Nat × Nat × Nat) (h1 : 0 < shape.1) (h2 : 0 < shape.2.1)
    (h3 : 0 < shape.2.2) (t v t' v' : Cell) :
    normalizeSupercellTuple t v (shapeCell shape) = normalizeSupercellTuple t' v' (shapeCell shape) ↔
      SameImage shape (shift t v) (shift t' v') := by
  rw [normalize_eq shape h1 h2 h3, normalize_eq shape h1 h2 h3]
  have key : ∀ (x y : Int) (m : Nat), (x % (m : Int) = y % m ↔ ∃ i : Int, x = y + i * m) := by
    intro x y m
    rw [Int.emod_eq_emod_iff_emod_sub_eq_zero]
    constructor
    · intro h
      obtain ⟨c, hc⟩ := Int.dvd_of_emod_eq_zero h
      exact ⟨c, by linarith [mul_comm c (m : Int)]⟩
    · rintro ⟨i, rfl⟩
      apply Int.emod_eq_zero_of_dvd
      exact ⟨i, by ring⟩
  simp only [Prod.mk.injEq, key, SameImage, shift]
  constructor
  · rintro ⟨⟨i, hi⟩, ⟨j, hj⟩, k, hk⟩; exact ⟨i, j, k, hi, hj, hk⟩
  · rintro ⟨i, j, k, hi, hj, hk⟩; exact ⟨⟨i, hi⟩, ⟨j, hj⟩, k, hk⟩

/-- C43.  Normalising twice by `v` and `w` is normalising once by `v + w`; a cell inside the
supercell is its own normal form. -/
theorem C43_compose (shape : Nat × Nat × Nat) (h1 : 0 < shape.1) (h2 : 0 < shape.2.1)
    (h3 : 0 < shape.2.2) (t v w : Cell) :
    normalizeSupercellTuple (normalizeSupercellTuple t v (shapeCell shape)) w (shapeCell shape) =
      normalizeSupercellTuple t (shift v w) (shapeCell shape) ∧
    (Inside shape t → normalizeSupercellTuple t (0, 0, 0) (shapeCell shape) = t) := by
  constructor
  · rw [C43_unique shape h1 h2 h3]
    obtain ⟨-, i, j, k, e1, e2, e3⟩ := C43_normalized_cell shape h1 h2 h3 t v
    exact ⟨i, j, k, by simp only [shift] at *; linarith, by simp only [shift] at *; linarith,
      by simp only [shift] at *; linarith⟩
  · rintro ⟨⟨a1, a2⟩, ⟨b1, b2⟩, c1, c2⟩
    rw [normalize_eq shape h1 h2 h3]
    simp only [add_zero]
    rw [Int.emod_eq_of_lt a1 a2, Int.emod_eq_of_lt b1 b2, Int.emod_eq_of_lt c1 c2]

/- The hypotheses of C43 and a wrapped value: the example of the docstring. -/
example : normalizeSupercellTuple (5, 1, 7) (0, -1, 1) (shapeCell (5, 6, 7)) = (0, 0, 1) := by decide
example : normalizeSupercellTuple (0, 0, 0) (-1, -1, 8) (shapeCell (5, 6, 7)) = (4, 5, 1) := by decide

/-! ### C44 -/

/-- For a unit cell whose sites have different local indices, the supercell has one site
per unit-cell site and cell, the index is built without complaint, and it is exactly the inverse
of the site list. -/
theorem siteIndex_bijection (sites : List (LabeledSite σ)) (hne : sites ≠ [])
    (hd : (sites.map LabeledSite.localIndex).Nodup) (shape : Nat × Nat × Nat) (h1 : 0 < shape.1)
    (h2 : 0 < shape.2.1) (h3 : 0 < shape.2.2) :
    ∃ full index, makeKmcSupercell sites shape = .ok full ∧
      buildSiteIndex full false = .ok index ∧
      full.length = sites.length * cellCount shape ∧ index.length = full.length ∧
      (∀ s ∈ sites, ∀ t, Inside shape t →
        ∃ n, dictGet index (siteIndexKey t s.label s.localIndex) = some n ∧
          full[n]? = some (s, t)) ∧
      (∀ (n : Nat) s t, full[n]? = some (s, t) → s ∈ sites ∧ Inside shape t ∧
        dictGet index (siteIndexKey t s.label s.localIndex) = some n) := by
  have hlp := latticePoints_length shape.1 shape.2.1 shape.2.2
  have hlen : (supercellList sites (latticePoints shape.1 shape.2.1 shape.2.2)).length =
      sites.length * cellCount shape := by
    rw [supercellList_length, hlp]; rfl
  have hpos : 0 < sites.length * cellCount shape :=
    Nat.mul_pos (List.length_pos_iff.2 hne) (Nat.mul_pos (Nat.mul_pos h1 h2) h3)
  have hdl : (sites.map fun s => (s.label, s.localIndex)).Nodup := by
    have : sites.map LabeledSite.localIndex =
      (sites.map fun s => (s.label, s.localIndex)).map Prod.snd := by simp [Function.comp_def]
    rw [this] at hd
    exact List.Nodup.of_map _ hd
  have hk := keys_nodup hdl (latticePoints_nodup shape.1 shape.2.1 shape.2.2)
  obtain ⟨index, hi, hik⟩ := buildSiteIndexFrom_isOk false _ 0 [] hk (by simp [dictKeys])
  have hget := fun key n => siteIndex_get hk hi key n
  refine ⟨_, index, ?_, hi, hlen, ?_, ?_, ?_⟩
  · rw [makeKmcSupercell_eq, if_neg]
    rw [hlen]; omega
  · have := congrArg List.length hik
    simpa [dictKeys] using this
  · intro s hs t ht
    have hm : (s, t) ∈ supercellList sites (latticePoints shape.1 shape.2.1 shape.2.2) := by
      rw [mem_supercellList]
      exact ⟨hs, (mem_latticePoints _ _ _ _).2 ht⟩
    obtain ⟨n, hn⟩ := List.getElem?_of_mem hm
    exact ⟨n, (hget _ _).2 ⟨(s, t), hn, rfl⟩, hn⟩
  · intro n s t hn
    have hm := (mem_supercellList _ _ _).1 (List.mem_of_getElem? hn)
    exact ⟨hm.1, (mem_latticePoints _ _ _ _).1 hm.2, (hget _ _).2 ⟨(s, t), hn, rfl⟩⟩

/-- C44.  For a unit cell whose sites have different local indices, the supercell has one site
per unit-cell site and cell, the index is built without complaint, and it is exactly the inverse
of the site list. -/
theorem C44_site_index_bijection (sites : List (LabeledSite σ)) (hne : sites ≠ [])
    (hd : (sites.map LabeledSite.localIndex).Nodup) (shape : Nat × Nat × Nat) (h1 : 0 < shape.1)
    (h2 : 0 < shape.2.1) (h3 : 0 < shape.2.2) :
    ∃ full index, makeKmcSupercell sites shape = .ok full ∧
      buildSiteIndex full false = .ok index ∧
      full.length = sites.length * cellCount shape ∧ index.length = full.length ∧
      (∀ s ∈ sites, ∀ t, Inside shape t →
        ∃ n, dictGet index (t.1, t.2.1, t.2.2, s.label, s.localIndex) = some n ∧
          full[n]? = some (s, t)) ∧
      (∀ (n : Nat) s t, full[n]? = some (s, t) → s ∈ sites ∧ Inside shape t ∧
        dictGet index (t.1, t.2.1, t.2.2, s.label, s.localIndex) = some n) :=
  siteIndex_bijection sites hne hd shape h1 h2 h3

/-- C44.  The loader gives every site of a CIF file its own local index. -/
theorem C44_loader_labels_distinct (groups : List (σ × String × Nat)) :
    ((labelGroups 0 groups).map LabeledSite.localIndex).Nodup := by
  obtain ⟨n, hn⟩ := labelGroups_localIndex 0 groups
  rw [hn]
  exact List.Nodup.map (fun a b h => by simpa using h) List.nodup_range

/-- C44.  Checked construction of the index raises exactly when two sites share their key. -/
theorem C44_duplicates_rejected (full : List (LabeledSite σ × Cell)) :
    (buildSiteIndex full false = .error .keyError ↔ ¬ (full.map keyOf).Nodup) ∧
    ((full.map keyOf).Nodup → ∃ index, buildSiteIndex full false = .ok index) := by
  have hok : (full.map keyOf).Nodup → ∃ index, buildSiteIndex full false = .ok index := by
    intro h
    obtain ⟨d, hd, -⟩ := buildSiteIndexFrom_isOk false full 0 [] h (by simp [dictKeys])
    exact ⟨d, hd⟩
  refine ⟨⟨?_, ?_⟩, hok⟩
  · intro h hn
    obtain ⟨d, hd⟩ := hok hn
    rw [hd] at h; cases h
  · intro h
    exact buildSiteIndexFrom_dup full 0 [] (Or.inl h)

/-- Two groups of sites as the loader labels them. -/
def exampleCell : List (LabeledSite String) := labelGroups 0 [("Na", "Na1", 2), ("Si", "Si1", 1)]

example : exampleCell.length = 3 ∧
    (buildSiteIndex (supercellList exampleCell (latticePoints 2 1 1)) false).toOption.map
      (fun d => dictGet d (siteIndexKey (1, 0, 0) "Na1" 1)) = some (some 3) := by decide

/-! ### C60 -/

/-- Sites of the template that belong to the active positions. -/
def activeSitesOf {α : Type} (act : List Nat) (template : List α) : List α :=
  (template.zipIdx.filter fun p => decide (p.2 ∈ act)).map Prod.fst

/-- The active structure of an order is the supercell of the active unit-cell sites. -/
theorem activeStructure_eq {eqv : σ → σ → Bool}
    {fp : Nat → Nat → List Nat → List Nat → List Nat → Nat × Nat × Nat → List σ →
      List (List σ) → φ}
    {template : List (LabeledSite σ)} {mapping : List (σ × List σ)} {shape : Option (List Int)}
    {o : ActiveSiteOrder σ φ}
    (h : ActiveSiteOrder.fromStructureAndMapping eqv fp (template.map LabeledSite.species) mapping
      shape = .ok o) :
    o.activeStructure template = .ok (supercellList (activeSitesOf o.primitiveActiveIndices template)
      (latticePoints o.supercellShape.1 o.supercellShape.2.1 o.supercellShape.2.2)) := by
  obtain ⟨hcount, hperm, -, -, -, -, hne⟩ := C41_numbering h
  obtain ⟨-, -, -, -, -, -, h7, h8, -⟩ := fromStructureAndMapping_ok h
  rw [splitSites_eq] at h8
  simp only [List.nil_append, List.length_map] at h8
  generalize hcs : latticePoints o.supercellShape.1 o.supercellShape.2.1 o.supercellShape.2.2 = cells
  have hcl : cells.length = cellCount o.supercellShape := by
    rw [← hcs, latticePoints_length]; rfl
  have hsp : supercellPrimitiveIndex template.length cells.length =
      (supercellList template.zipIdx cells).map fun p => p.1.2 := by
    rw [supercellPrimitiveIndex_eq]
    have : List.range template.length = template.zipIdx.map Prod.snd := by
      rw [List.zipIdx_map_snd, List.range_eq_range']
    rw [this, supercellList_map, List.map_map]
    rfl
  have hfull : supercellList template cells =
      (supercellList template.zipIdx cells).map fun p => (p.1.1, p.2) := by
    conv_lhs => rw [← List.zipIdx_map_fst 0 template]
    rw [supercellList_map]
  rw [← hcl, hsp, List.zipIdx_map] at h8
  rw [List.filter_map, List.map_map] at h8
  have hpos : ¬ (supercellList template cells).length < 1 := by
    rw [supercellList_length, hcl]
    have : template.length * cellCount o.supercellShape = o.originalSiteCount := by
      rw [hcount, List.length_map]
    rw [this]
    intro hlt
    have h0 : o.originalSiteCount = 0 := by omega
    rw [h0] at hperm
    have := hperm.length_eq
    simp only [List.length_append, List.length_range] at this
    exact hne (List.eq_nil_of_length_eq_zero (by omega))
  unfold ActiveSiteOrder.activeStructure fullStructure
  rw [makeKmcSupercell_eq, hcs, if_neg hpos]
  simp only
  rw [hfull, h8]
  have := pickAll_filter (fun p : (LabeledSite σ × Nat) × Cell => (p.1.1, p.2))
    (fun p => decide (p.1.2 ∈ o.primitiveActiveIndices)) [] (supercellList template.zipIdx cells)
  simp only [List.nil_append, List.length_nil] at this
  refine Eq.trans ?_ (this.trans ?_)
  · rfl
  · rw [← supercellList_filter (fun p : LabeledSite σ × Nat =>
      decide (p.2 ∈ o.primitiveActiveIndices)), activeSitesOf, supercellList_map]

theorem supercellList_unit {α : Type} (sites : List α) :
    (supercellList sites (latticePoints 1 1 1)).map Prod.fst = sites := by
  have : latticePoints 1 1 1 = [(0, 0, 0)] := by decide
  rw [this]
  simp [supercellList, List.map_flatMap]

/-- C60.  The event generator numbers sites by building a supercell of the active part of the
unit cell, the simulator by dropping the fixed sites of the full supercell.  The two numberings
are the same: site `k` of the one is site `k` of the other. -/
theorem C60_generator_and_simulator_number_alike {eqv : σ → σ → Bool}
    {fp : Nat → Nat → List Nat → List Nat → List Nat → Nat × Nat × Nat → List σ →
      List (List σ) → φ}
    {template : List (LabeledSite σ)} {mapping : List (σ × List σ)} {shape : Option (List Int)}
    {prim order : ActiveSiteOrder σ φ}
    (hp : ActiveSiteOrder.fromStructureAndMapping eqv fp (template.map LabeledSite.species) mapping
      none = .ok prim)
    (ho : ActiveSiteOrder.fromStructureAndMapping eqv fp (template.map LabeledSite.species) mapping
      shape = .ok order) :
    ∃ cell sites full, prim.activeStructure template = .ok cell ∧
      makeKmcSupercell (cell.map Prod.fst) order.supercellShape = .ok sites ∧
      makeKmcSupercell template order.supercellShape = .ok full ∧
      sites.length = order.activeSiteCount ∧
      (∀ (k i : Nat), order.activeToOriginal[k]? = some i → sites[k]? = full[i]?) := by
  have h1 := activeStructure_eq hp
  have h2 := activeStructure_eq ho
  obtain ⟨ps, pa, pact, -, -, -, -⟩ := fromStructureAndMapping_ok hp
  obtain ⟨-, oa, oact, -, -, -, -⟩ := fromStructureAndMapping_ok ho
  have hact : prim.primitiveActiveIndices = order.primitiveActiveIndices := by
    rw [pact, oact]
    rw [pa] at oa
    rw [Except.ok.inj oa]
  have hshape : prim.supercellShape = (1, 1, 1) := by
    simp only [normalizeSupercellShape, Except.ok.injEq] at ps
    exact ps.symm
  rw [hshape] at h1
  have hne := (C41_numbering ho).2.2.2.2.2.2
  unfold ActiveSiteOrder.activeStructure fullStructure at h2
  split at h2
  · cases h2
  · rename_i full hfull
    have hk := (pickAll_ok_iff _ _ _).1 h2
    refine ⟨_, _, full, h1, ?_, hfull, hk.1, ?_⟩
    · rw [supercellList_unit, makeKmcSupercell_eq, if_neg, hact]
      rw [hact, hk.1]
      have := List.length_pos_iff.2 hne
      omega
    · intro k i hki
      obtain ⟨v, e1, e2⟩ := hk.2 k i hki
      rw [e1, e2]

/-! ### C62 -/

/-- Equality of species labels on a template with two active and one fixed site. -/
def exampleTemplate : List (LabeledSite String) :=
  [⟨"Na", "Na1", 0⟩, ⟨"Zr", "Zr1", 1⟩, ⟨"Na", "Na2", 2⟩]

def exampleMapping : List (String × List String) := [("Na", ["Na", "X"]), ("Zr", ["Zr"])]

/-- The digested payload, `active_site_order.py:109-122`. -/
structure Payload (σ : Type) where
  primitiveSiteCount : Nat
  originalSiteCount : Nat
  primitiveActiveIndices : List Nat
  activeToOriginal : List Nat
  activeToPrimitive : List Nat
  supercellShape : Nat × Nat × Nat
  species : List σ
  allowed : List (List σ)
  deriving DecidableEq, Repr

/-- Collision-free stand-in for the SHA-256 digest: the payload itself. -/
def payloadFingerprint (a b : Nat) (c d e : List Nat) (f : Nat × Nat × Nat) (g : List σ)
    (h : List (List σ)) : Payload σ :=
  ⟨a, b, c, d, e, f, g, h⟩

/-- The fingerprint function has no collisions. -/
def NoCollisions (fp : Nat → Nat → List Nat → List Nat → List Nat → Nat × Nat × Nat → List σ →
      List (List σ) → φ) : Prop :=
  ∀ a b c d e f g h a' b' c' d' e' f' g' h',
    fp a b c d e f g h = fp a' b' c' d' e' f' g' h' →
      payloadFingerprint a b c d e f g h = payloadFingerprint a' b' c' d' e' f' g' h'

/-- C62.  Provided the digest has no collisions, comparing two constructed orders succeeds
exactly when they are equal in every field, otherwise it raises. -/
theorem C62_same_order_iff_equal [DecidableEq φ] {eqv eqv' : σ → σ → Bool}
    {fp : Nat → Nat → List Nat → List Nat → List Nat → Nat × Nat × Nat → List σ →
      List (List σ) → φ} (hfp : NoCollisions fp)
    {template template' : List σ} {mapping mapping' : List (σ × List σ)}
    {shape shape' : Option (List Int)} {o o' : ActiveSiteOrder σ φ}
    (h : ActiveSiteOrder.fromStructureAndMapping eqv fp template mapping shape = .ok o)
    (h' : ActiveSiteOrder.fromStructureAndMapping eqv' fp template' mapping' shape' = .ok o') :
    (o.assertSameOrder o'.asDict = .ok () ↔ o = o') ∧
    (o ≠ o' → o.assertSameOrder o'.asDict = .error .valueError) := by
  have key : o.fingerprint = o'.fingerprint → o = o' := by
    intro he
    obtain ⟨p1, p2, p3, p4, p5, p6, p7, p8, p9, p10, p11⟩ := fromStructureAndMapping_ok h
    obtain ⟨q1, q2, q3, q4, q5, q6, q7, q8, q9, q10, q11⟩ := fromStructureAndMapping_ok h'
    have hf := he
    rw [p11, q11] at hf
    have := hfp _ _ _ _ _ _ _ _ _ _ _ _ _ _ _ _ hf
    simp only [payloadFingerprint, Payload.mk.injEq] at this
    obtain ⟨e1, e2, e3, e4, e5, es, e9, e10⟩ := this
    have ef : o.fixedOriginalIndices = o'.fixedOriginalIndices := by
      rw [p10, q10, e3, e1, es]
    have f1 : o.primitiveSiteCount = o'.primitiveSiteCount := by rw [p5, q5, e1]
    have f2 : o.originalSiteCount = o'.originalSiteCount := by rw [p7, q7, e2]
    have f3 : o.activeToOriginal = o'.activeToOriginal := by rw [p8, q8, e4]
    have f4 : o.activeToPrimitive = o'.activeToPrimitive := by rw [p9, q9, e5]
    have f5 : o.speciesByPrimitiveSite = o'.speciesByPrimitiveSite := by rw [p6, q6, e9]
    clear h h' p1 p2 p3 p4 p5 p6 p7 p8 p9 p10 p11 q1 q2 q3 q4 q5 q6 q7 q8 q9 q10 q11 hf e1 e2 e4 e5 e9
    obtain ⟨⟩ := o
    obtain ⟨⟩ := o'
    simp only at f1 f2 f3 f4 f5 es ef e3 e10 he
    subst f1 f2 f3 f4 f5 es ef e3 e10 he
    rfl
  have hd := C41_dict_round_trip o'
  unfold ActiveSiteOrder.assertSameOrder
  rw [hd]
  simp only
  refine ⟨⟨?_, ?_⟩, ?_⟩
  · intro hh
    split at hh
    · cases hh
    · rename_i hne
      exact key (by simpa using hne)
  · rintro rfl; simp
  · intro hne
    rw [if_pos]
    intro he
    exact hne (key he)

/-- C62.  The comparison looks at the stored digest only: even when the digest function has no
collisions, metadata whose numbering was altered but whose digest was kept is accepted. -/
theorem C62_altered_metadata_accepted :
    ∃ o d, ActiveSiteOrder.fromStructureAndMapping (fun a b => a == b) payloadFingerprint
        ["Na", "Zr", "Na"] exampleMapping none = .ok o ∧
      o.assertSameOrder d = .ok () ∧ ActiveSiteOrder.fromDict d ≠ .ok o ∧
      d.activeToOriginal ≠ o.activeToOriginal := by
  refine ⟨_, { (⟨3, 3, [0, 2], [0, 2], [0, 2], [1], (1, 1, 1), ["Na", "Zr", "Na"],
    [["Na", "X"], ["Zr"], ["Na", "X"]],
    payloadFingerprint 3 3 [0, 2] [0, 2] [0, 2] (1, 1, 1) ["Na", "Zr", "Na"]
      [["Na", "X"], ["Zr"], ["Na", "X"]]⟩ : ActiveSiteOrder String _).asDict with
      activeToOriginal := [2, 0] }, rfl, by decide, by decide, by decide⟩

/- A supercell of the example: two cells, four active sites. -/
example : (ActiveSiteOrder.fromStructureAndMapping (fun a b => a == b) payloadFingerprint
    (exampleTemplate.map LabeledSite.species) exampleMapping (some [2, 1, 1])).toOption.map
      (fun o => (o.activeToOriginal, o.fixedOriginalIndices, o.activeToPrimitive, o.originalSiteCount))
    = some ([0, 1, 4, 5], [2, 3], [0, 0, 2, 2], 6) := by decide

example : NoCollisions (σ := String) payloadFingerprint := fun _ _ _ _ _ _ _ _ _ _ _ _ _ _ _ _ h => h

end
end KMC
