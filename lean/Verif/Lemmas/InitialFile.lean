import Verif.Spec.InitialFile
import Verif.Lemmas.State
import Verif.Props.StructureProps
import Verif.Model.Checkpoint
import Mathlib.Data.List.Sort
/-
Lemmas about initial-state files.
-/
namespace KMC
open Spec

/-- One block of the raw data. -/
theorem block_get {raw : List Int} {size n i j : Nat} (hl : raw.length = n * size) (hi : i < n) (hj : j < size) :
    ∃ v, raw[i * size + j]? = some v ∧ ((raw.drop (i * size)).take size)[j]? = some v := by
  have hlt : i * size + j < raw.length := by
    rw [hl]
    calc i * size + j < i * size + size := by omega
      _ = (i + 1) * size := by ring
      _ ≤ n * size := Nat.mul_le_mul_right _ hi
  refine ⟨raw[i * size + j], List.getElem?_eq_getElem hlt, ?_⟩
  rw [List.getElem?_take_of_lt hj, List.getElem?_drop, List.getElem?_eq_getElem hlt]

theorem block_length {raw : List Int} {size n i : Nat} (hl : raw.length = n * size) (hi : i < n) :
    ((raw.drop (i * size)).take size).length = size := by
  rw [List.length_take, List.length_drop, hl]
  have : (i + 1) * size ≤ n * size := Nat.mul_le_mul_right _ hi
  have : (i + 1) * size = i * size + size := by ring
  omega

theorem selectBlocks_ok {raw : List Int} {size n : Nat} (hs : 0 < size) (hl : raw.length = n * size) :
    ∀ (sel out : List Int), State.selectBlocks size n raw sel = .ok out ↔ TakesSites size sel raw out
  | [], out => by
    simp only [State.selectBlocks, Except.ok.injEq]
    constructor
    · rintro rfl
      exact ⟨by simp, by simp⟩
    · intro h
      have := h.length
      simp only [List.length_nil, Nat.zero_mul, List.length_eq_zero_iff] at this
      exact this.symm
  | b :: bs, out => by
    have hn : raw.length / size = n := by rw [hl]; exact Nat.mul_div_cancel _ hs
    have ih := selectBlocks_ok (raw := raw) hs hl bs
    simp only [State.selectBlocks]
    constructor
    · intro h
      cases hb : pyIdx n b with
      | none => rw [hb] at h; cases h
      | some i =>
        have hin : i < n := (denotes_iff.2 hb).1
        rw [hb] at h
        simp only at h
        cases hr : State.selectBlocks size n raw bs with
        | error x => rw [hr] at h; cases h
        | ok rest =>
          rw [hr] at h
          simp only [Except.ok.injEq] at h
          subst h
          have ht := (ih rest).1 hr
          have hlen := block_length (raw := raw) hl hin
          refine ⟨by rw [List.length_append, hlen, ht.length, List.length_cons]; ring, ?_⟩
          intro k c hk
          cases k with
          | zero =>
            simp only [List.getElem?_cons_zero, Option.some.injEq] at hk
            subst hk
            refine ⟨i, by rw [hn]; exact denotes_iff.2 hb, fun j hj => ?_⟩
            obtain ⟨v, h1, h2⟩ := block_get (raw := raw) hl hin hj
            refine ⟨v, h1, ?_⟩
            rw [Nat.zero_mul, Nat.zero_add, List.getElem?_append_left (by rw [hlen]; exact hj), h2]
          | succ k =>
            obtain ⟨i', h1, h2⟩ := ht.entry k c (by simpa using hk)
            refine ⟨i', h1, fun j hj => ?_⟩
            obtain ⟨v, h3, h4⟩ := h2 j hj
            refine ⟨v, h3, ?_⟩
            have e : (k + 1) * size + j = size + (k * size + j) := by ring
            rw [e, List.getElem?_append_right (by rw [hlen]; omega), hlen, Nat.add_sub_cancel_left, h4]
    · intro h
      obtain ⟨i, h1, h2⟩ := h.entry 0 b rfl
      rw [hn] at h1
      have hb := denotes_iff.1 h1
      have hin : i < n := h1.1
      have hlen := block_length (raw := raw) hl hin
      have hout : size ≤ out.length := by
        rw [h.length, List.length_cons]
        exact Nat.le_mul_of_pos_left _ (by omega)
      have htail : TakesSites size bs raw (out.drop size) := by
        refine ⟨by rw [List.length_drop, h.length, List.length_cons, Nat.add_mul, Nat.one_mul, Nat.add_sub_cancel], ?_⟩
        intro k c hk
        obtain ⟨i', h3, h4⟩ := h.entry (k + 1) c (by simpa using hk)
        refine ⟨i', h3, fun j hj => ?_⟩
        obtain ⟨v, h5, h6⟩ := h4 j hj
        refine ⟨v, h5, ?_⟩
        rw [List.getElem?_drop, ← h6]
        congr 1
        ring
      rw [hb]
      simp only [(ih _).2 htail, Except.ok.injEq]
      have hblock : (raw.drop (i * size)).take size = out.take size := by
        refine List.ext_getElem? fun j => ?_
        by_cases hj : j < size
        · obtain ⟨v, h3, h4⟩ := h2 j hj
          obtain ⟨v', h5, h6⟩ := block_get (raw := raw) hl hin hj
          rw [h3] at h5; cases h5
          rw [h6, List.getElem?_take_of_lt hj, ← h4]
          simp
        · rw [List.getElem?_eq_none (by rw [hlen]; omega), List.getElem?_eq_none (by rw [List.length_take]; omega)]
      rw [hblock, List.take_append_drop]

/-- The active sites of a supercell: all copies of the first active unit-cell site, then of the next. -/
theorem activeToOriginal_blocks {σ φ : Type} {eqv : σ → σ → Bool}
    {fp : Nat → Nat → List Nat → List Nat → List Nat → Nat × Nat × Nat → List σ → List (List σ) → φ}
    {template : List σ} {mapping : List (σ × List σ)} {shape : Option (List Int)} {o : ActiveSiteOrder σ φ}
    (h : ActiveSiteOrder.fromStructureAndMapping eqv fp template mapping shape = .ok o) :
    0 < cellCount o.supercellShape ∧ (∀ p ∈ o.primitiveActiveIndices, p < template.length) ∧
    o.activeToOriginal = o.primitiveActiveIndices.flatMap fun p =>
      (List.range (cellCount o.supercellShape)).map fun j => p * cellCount o.supercellShape + j := by
  obtain ⟨h1, h2, h3, -, -, -, h7, h8, -⟩ := fromStructureAndMapping_ok h
  obtain ⟨p1, p2, p3⟩ := normalizeSupercellShape_ok h1
  have hL : 0 < cellCount o.supercellShape := Nat.mul_pos (Nat.mul_pos p1 p2) p3
  obtain ⟨q1, -⟩ := allowedSpeciesBySite_ok h2
  obtain ⟨-, -, hsort, -⟩ := C41_numbering h
  have hact : ∀ p ∈ o.primitiveActiveIndices, p < template.length := by
    intro p hp
    rw [h3, activePrimitives, List.mem_filter, List.mem_range, q1] at hp
    exact hp.1
  refine ⟨hL, hact, ?_⟩
  rw [splitSites_eq] at h8
  simp only [List.nil_append] at h8
  generalize cellCount o.supercellShape = L at *
  have hlen := supercellPrimitiveIndex_length template.length L
  have hmem : ∀ i, i ∈ o.activeToOriginal ↔ i < template.length * L ∧ i / L ∈ o.primitiveActiveIndices := by
    intro i
    rw [h8, mem_filter_zipIdx (supercellPrimitiveIndex template.length L)
      (fun p => decide (p ∈ o.primitiveActiveIndices)) i]
    constructor
    · rintro ⟨a, ha, hq⟩
      have hi : i < template.length * L := by
        rw [← hlen]; exact (List.getElem?_eq_some_iff.1 ha).1
      rw [supercellPrimitiveIndex_getElem? _ _ _ hi] at ha
      cases ha
      exact ⟨hi, by simpa using hq⟩
    · rintro ⟨hi, hq⟩
      exact ⟨_, supercellPrimitiveIndex_getElem? _ _ _ hi, by simpa using hq⟩
  have hasort : o.primitiveActiveIndices.Pairwise (· < ·) := by
    rw [h3, activePrimitives]
    exact List.Pairwise.sublist List.filter_sublist List.pairwise_lt_range
  refine hsort.eq_of_mem_iff ?_ ?_
  · rw [List.pairwise_flatMap]
    refine ⟨fun p _ => ?_, hasort.imp ?_⟩
    · rw [List.pairwise_map]
      exact List.pairwise_lt_range.imp (by intro a b hab; omega)
    · intro p q hpq x hx y hy
      simp only [List.mem_map, List.mem_range] at hx hy
      obtain ⟨j, hj, rfl⟩ := hx
      obtain ⟨j', hj', rfl⟩ := hy
      have : (p + 1) * L ≤ q * L := Nat.mul_le_mul_right _ hpq
      have e : (p + 1) * L = p * L + L := by ring
      omega
  · intro i
    rw [hmem]
    simp only [List.mem_flatMap, List.mem_map, List.mem_range]
    constructor
    · rintro ⟨-, hq⟩
      exact ⟨i / L, hq, i % L, Nat.mod_lt _ hL, by rw [Nat.mul_comm]; exact Nat.div_add_mod i L⟩
    · rintro ⟨p, hp, j, hj, rfl⟩
      have hd : (p * L + j) / L = p := by
        rw [Nat.mul_comm, Nat.mul_add_div hL, Nat.div_eq_of_lt hj, Nat.add_zero]
      refine ⟨?_, by rw [hd]; exact hp⟩
      have : (p + 1) * L ≤ template.length * L := Nat.mul_le_mul_right _ (hact p hp)
      have e : (p + 1) * L = p * L + L := by ring
      omega

/-- Entry `k*L+j` of a list of blocks. -/
theorem flatMap_block_get (act : List Nat) (L : Nat) : ∀ (k j p : Nat), act[k]? = some p → j < L →
    (act.flatMap fun p => (List.range L).map fun j => p * L + j)[k * L + j]? = some (p * L + j) := by
  induction act with
  | nil => intro k j p hk; simp at hk
  | cons a act ih =>
    intro k j p hk hj
    rw [List.flatMap_cons]
    have hlen : ((List.range L).map fun j => a * L + j).length = L := by simp
    cases k with
    | zero =>
      simp only [List.getElem?_cons_zero, Option.some.injEq] at hk
      subst hk
      rw [Nat.zero_mul, Nat.zero_add, List.getElem?_append_left (by rw [hlen]; exact hj)]
      simp [hj]
    | succ k =>
      have e : (k + 1) * L + j = L + (k * L + j) := by ring
      rw [e, List.getElem?_append_right (by rw [hlen]; omega), hlen, Nat.add_sub_cancel_left]
      exact ih k j p (by simpa using hk) hj

theorem flatMap_block_length (act : List Nat) (L : Nat) :
    (act.flatMap fun p => (List.range L).map fun j => p * L + j).length = act.length * L := by
  induction act with
  | nil => simp
  | cons a act ih => rw [List.flatMap_cons, List.length_append, ih]; simp; ring

end KMC
