import Mathlib.Data.List.Basic
import Mathlib.Logic.Function.Iterate
import Mathlib.Tactic.Common
import Verif.Model.Basis
import Verif.Lemmas.Py
/-
C46: the two binary occupation encodings and the `Occupation` container.
-/
namespace KMC

/-- The two binary encodings: "occupation" (1 = template species) and two-state "chebyshev"
(state numbers, 0 = template species). -/
def TwoState (b : Basis) : Prop := b = .occupation ∨ b = .chebyshev 2

/-- Every value is one the encoding allows. -/
def Occupation.Valid (o : Occupation) : Prop := ∀ v ∈ o.data, o.basis.validValue v = true

theorem twoState_valid {b : Basis} (hb : TwoState b) {v : Int} :
    b.validValue v = true ↔ v = 0 ∨ v = 1 := by
  rcases hb with rfl | rfl
  · simp [Basis.validValue]
  · simp only [Basis.validValue, decide_eq_true_eq]; omega

theorem twoState_occ {b : Basis} (hb : TwoState b) {v : Int} (hv : b.validValue v = true) :
    v = b.occupiedValue ∨ v = b.vacantValue := by
  have h := (twoState_valid hb).1 hv
  rcases hb with rfl | rfl <;> simp [Basis.occupiedValue, Basis.vacantValue, Basis.matchValue,
    Basis.mismatchValue] <;> tauto

theorem occupied_ne_vacant (b : Basis) : b.occupiedValue ≠ b.vacantValue := by
  cases b <;> simp [Basis.occupiedValue, Basis.vacantValue, Basis.matchValue, Basis.mismatchValue]

/-- C46.  A vector is accepted exactly if every value is allowed in the encoding, and is stored
as given; otherwise `ValueError`. -/
theorem C46_validation (data : List Int) (b : Basis) :
    ((∀ v ∈ data, b.validValue v = true) ∧ Occupation.mk' data b true = .ok ⟨b, data⟩) ∨
    ((∃ v ∈ data, b.validValue v = false) ∧ Occupation.mk' data b true = .error .valueError) := by
  by_cases h : ∀ v ∈ data, b.validValue v = true
  · left
    refine ⟨h, ?_⟩
    have : data.all b.validValue = true := by rw [List.all_eq_true]; exact h
    simp [Occupation.mk', Occupation.validate, this]
  · right
    have h' : ∃ v ∈ data, b.validValue v = false := by push Not at h; simpa using h
    refine ⟨h', ?_⟩
    have : data.all b.validValue = false := by
      rw [List.all_eq_false]
      obtain ⟨v, h1, h2⟩ := h'
      exact ⟨v, h1, by simp [h2]⟩
    simp [Occupation.mk', Occupation.validate, this]

/-- The allowed values: 0 and 1, or the state numbers below `max_states`. -/
theorem C46_allowed_values (v : Int) :
    (Basis.occupation.validValue v = true ↔ v = 0 ∨ v = 1) ∧
    ∀ m, (Basis.chebyshev m).validValue v = true ↔ 0 ≤ v ∧ v < m := by
  refine ⟨twoState_valid (.inl rfl), fun m => by simp [Basis.validValue]⟩

theorem convert_occ {b t : Basis} (hb : TwoState b) (ht : TwoState t) {v : Int}
    (hv : b.validValue v = true) :
    (b.convertTo v t = t.occupiedValue ↔ v = b.occupiedValue) ∧
    t.validValue (b.convertTo v t) = true ∧ t.convertTo (b.convertTo v t) b = v := by
  have h := (twoState_valid hb).1 hv
  rcases hb with rfl | rfl <;> rcases ht with rfl | rfl <;> rcases h with rfl | rfl <;> decide

theorem sameClass_twoState {b t : Basis} (hb : TwoState b) (ht : TwoState t)
    (h : Occupation.sameClass t b = true) : t = b := by
  rcases hb with rfl | rfl <;> rcases ht with rfl | rfl <;> first | rfl | cases h

theorem sameClass_comm (b t : Basis) : Occupation.sameClass b t = Occupation.sameClass t b := by
  cases b <;> cases t <;> rfl

/-- C46.  Converting to the other encoding and back gives the vector one started from. -/
theorem C46_round_trip (o : Occupation) (t : Basis) (hb : TwoState o.basis) (ht : TwoState t)
    (hv : o.Valid) : (o.toBasis t).toBasis o.basis = o := by
  obtain ⟨b, d⟩ := o
  simp only [Occupation.Valid] at hb hv ⊢
  by_cases hc : Occupation.sameClass t b = true
  · have := sameClass_twoState hb ht hc
    subst this
    simp [Occupation.toBasis, hc]
  · have hc' : ¬ Occupation.sameClass b t = true := by rw [sameClass_comm]; exact hc
    simp only [Occupation.toBasis, hc, hc', if_false, Bool.false_eq_true, List.map_map,
      Occupation.mk.injEq, true_and]
    conv_rhs => rw [← List.map_id d]
    apply List.map_congr_left
    intro v hvd
    exact (convert_occ hb ht (hv v hvd)).2.2

/-- C46.  Conversion keeps the meaning: the same sites are occupied, the others vacant, and the
result is valid. -/
theorem C46_same_occupied_sites (o : Occupation) (t : Basis) (hb : TwoState o.basis)
    (ht : TwoState t) (hv : o.Valid) :
    (o.toBasis t).basis = t ∧ (o.toBasis t).Valid ∧ (o.toBasis t).data.length = o.data.length ∧
    (∀ k : Nat, (o.toBasis t).data[k]? = some t.occupiedValue ↔
      o.data[k]? = some o.basis.occupiedValue) ∧
    (∀ k : Nat, (o.toBasis t).data[k]? = some t.vacantValue ↔
      o.data[k]? = some o.basis.vacantValue) := by
  obtain ⟨b, d⟩ := o
  simp only [Occupation.Valid] at hb hv ⊢
  by_cases hc : Occupation.sameClass t b = true
  · have := sameClass_twoState hb ht hc
    subst this
    simp only [Occupation.toBasis, hc, if_true]
    exact ⟨trivial, hv, trivial, fun _ => trivial, fun _ => trivial⟩
  · simp only [Occupation.toBasis, hc, if_false, Bool.false_eq_true, List.length_map,
      List.getElem?_map, true_and]
    refine ⟨?_, ?_, ?_⟩
    · intro v hvd
      obtain ⟨w, hw, rfl⟩ := List.mem_map.1 hvd
      exact (convert_occ hb ht (hv w hw)).2.1
    · intro k
      cases hk : d[k]? with
      | none => simp
      | some w =>
        simp only [Option.map_some, Option.some.injEq]
        exact (convert_occ hb ht (hv w (List.mem_of_getElem? hk))).1
    · intro k
      cases hk : d[k]? with
      | none => simp
      | some w =>
        simp only [Option.map_some, Option.some.injEq]
        obtain ⟨h1, h2, -⟩ := convert_occ hb ht (hv w (List.mem_of_getElem? hk))
        have h3 := twoState_occ ht h2
        have h4 := twoState_occ hb (hv w (List.mem_of_getElem? hk))
        have h5 := occupied_ne_vacant b
        have h6 := occupied_ne_vacant t
        constructor
        · intro h
          rcases h4 with h4 | h4
          · rw [h1.2 h4] at h; exact absurd h h6
          · exact h4
        · intro h
          rcases h3 with h3 | h3
          · rw [h1.1 h3] at h; exact absurd h h5
          · exact h3

/-! ### Flipping -/

/-- How many of the indices denote position `k` in a vector of length `n`. -/
def hits (n k : Nat) (is : List Int) : Nat := is.countP fun i => pyIdx n i == some k

theorem flipLoop_spec (b : Basis) (is : List Int) : ∀ (d : List Int),
    ((∀ i ∈ is, ∃ k, pyIdx d.length i = some k) → ∃ d', Occupation.flipLoop b is d = (.ok (), d') ∧
      d'.length = d.length ∧ ∀ k : Nat, d'[k]? = d[k]?.map ((b.flip)^[hits d.length k is])) ∧
    ((∃ i ∈ is, pyIdx d.length i = none) → ∃ d', Occupation.flipLoop b is d =
      (.error .indexError, d')) := by
  induction is with
  | nil =>
    intro d
    refine ⟨fun _ => ⟨d, rfl, rfl, ?_⟩, ?_⟩
    · intro k
      simp [hits]
    · rintro ⟨i, hi, -⟩; cases hi
  | cons i is ih =>
    intro d
    cases hi : pyIdx d.length i with
    | none =>
      refine ⟨fun h => ?_, fun _ => ⟨d, ?_⟩⟩
      · obtain ⟨k, hk⟩ := h i List.mem_cons_self
        rw [hi] at hk; cases hk
      · simp [Occupation.flipLoop, pyGet, hi]
    | some p =>
      have hp : p < d.length := by
        unfold pyIdx at hi
        split at hi
        · split at hi
          · cases hi; omega
          · cases hi
        · split at hi
          · cases hi; omega
          · cases hi
      have hget : pyGet d i = .ok d[p] := by simp [pyGet, hi, hp]
      have hset : pySet d i (b.flip d[p]) = .ok (d.set p (b.flip d[p])) := by simp [pySet, hi]
      have hstep : Occupation.flipLoop b (i :: is) d =
          Occupation.flipLoop b is (d.set p (b.flip d[p])) := by
        simp [Occupation.flipLoop, hget, hset]
      obtain ⟨ih1, ih2⟩ := ih (d.set p (b.flip d[p]))
      rw [List.length_set] at ih1 ih2
      rw [hstep]
      refine ⟨fun h => ?_, fun h => ?_⟩
      · obtain ⟨d', h1, h2, h3⟩ := ih1 fun j hj => h j (List.mem_cons_of_mem _ hj)
        refine ⟨d', h1, h2, fun k => ?_⟩
        rw [h3 k]
        by_cases hkp : p = k
        · subst hkp
          have hh : hits d.length p (i :: is) = hits d.length p is + 1 := by
            simp [hits, hi]
          rw [hh, List.getElem?_set_self hp, List.getElem?_eq_getElem hp]
          simp
        · have hh : hits d.length k (i :: is) = hits d.length k is := by
            simp [hits, hi, hkp]
          rw [hh, List.getElem?_set_ne hkp]
      · apply ih2
        obtain ⟨j, hj, hj'⟩ := h
        rcases List.mem_cons.1 hj with rfl | hj
        · rw [hi] at hj'; cases hj'
        · exact ⟨j, hj, hj'⟩

theorem flip_flip {b : Basis} (hb : TwoState b) {v : Int} (hv : b.validValue v = true) :
    b.flip (b.flip v) = v ∧ b.validValue (b.flip v) = true := by
  have h := (twoState_valid hb).1 hv
  rcases hb with rfl | rfl <;> rcases h with rfl | rfl <;> decide

theorem flip_iterate_two {b : Basis} (hb : TwoState b) (n : Nat) {v : Int}
    (hv : b.validValue v = true) :
    (b.flip)^[n] ((b.flip)^[n] v) = v ∧ b.validValue ((b.flip)^[n] v) = true := by
  induction n generalizing v with
  | zero => exact ⟨rfl, hv⟩
  | succ n ih =>
    obtain ⟨h1, h2⟩ := flip_flip hb hv
    obtain ⟨h3, h4⟩ := ih h2
    refine ⟨?_, ?_⟩
    · rw [Function.iterate_succ_apply, Function.iterate_succ_apply',
        (flip_flip hb (ih hv).2).1, (ih hv).1]
    · rw [Function.iterate_succ_apply]; exact h4

theorem flip_iterate {b : Basis} (hb : TwoState b) (n : Nat) {v : Int}
    (hv : b.validValue v = true) : (b.flip)^[n] v = if n % 2 = 0 then v else b.flip v := by
  induction n with
  | zero => rfl
  | succ n ih =>
    rw [Function.iterate_succ_apply', ih]
    rcases Nat.mod_two_eq_zero_or_one n with h | h
    · rw [if_pos h, if_neg (by omega)]
    · rw [if_neg (by omega), if_pos (by omega), (flip_flip hb hv).1]

/-- C46.  Flipping with valid indices changes exactly the sites listed an odd number of times,
each to the opposite value; an invalid index is an `IndexError`. -/
theorem C46_flip_sites (o : Occupation) (is : List Int) (hb : TwoState o.basis) (hv : o.Valid) :
    ((∀ i ∈ is, ∃ k, pyIdx o.data.length i = some k) → ∃ p, o.flip is = .ok p ∧
      p.basis = o.basis ∧ p.Valid ∧ p.data.length = o.data.length ∧
      ∀ (k : Nat) v, o.data[k]? = some v → p.data[k]? = some
        (if (is.countP fun i => pyIdx o.data.length i == some k) % 2 = 0 then v
         else if v = o.basis.occupiedValue then o.basis.vacantValue else o.basis.occupiedValue)) ∧
    ((∃ i ∈ is, pyIdx o.data.length i = none) → o.flip is = .error .indexError) := by
  obtain ⟨h1, h2⟩ := flipLoop_spec o.basis is o.data
  refine ⟨fun h => ?_, fun h => ?_⟩
  · obtain ⟨d', h3, h4, h5⟩ := h1 h
    refine ⟨⟨o.basis, d'⟩, by simp [Occupation.flip, h3], rfl, ?_, h4, ?_⟩
    · intro v hvd
      simp only at hvd
      obtain ⟨k, hk⟩ := List.mem_iff_getElem?.1 hvd
      rw [h5 k] at hk
      cases hd : o.data[k]? with
      | none => rw [hd] at hk; cases hk
      | some w =>
        rw [hd, Option.map_some, Option.some.injEq] at hk
        rw [← hk]
        exact (flip_iterate_two hb _ (hv w (List.mem_of_getElem? hd))).2
    · intro k v hk
      have hval := hv v (List.mem_of_getElem? hk)
      simp only
      rw [h5 k, hk, Option.map_some, flip_iterate hb _ hval]
      have hflip : o.basis.flip v = if v = o.basis.occupiedValue then o.basis.vacantValue
          else o.basis.occupiedValue := by
        have h := (twoState_valid hb).1 hval
        rcases hb with hb | hb <;> rw [hb] <;> rcases h with rfl | rfl <;> decide
      rw [hflip]
      rfl
  · obtain ⟨d', h3⟩ := h2 h
    simp [Occupation.flip, h3]

/-- C46.  Flipping the same sites twice restores the vector. -/
theorem C46_flip_twice (o p : Occupation) (is : List Int) (hb : TwoState o.basis) (hv : o.Valid)
    (h : o.flip is = .ok p) : p.flip is = .ok o := by
  have hok : ∀ i ∈ is, ∃ k, pyIdx o.data.length i = some k := by
    intro i hi
    by_contra hcon
    have hnone : pyIdx o.data.length i = none := by
      cases hk : pyIdx o.data.length i with
      | none => rfl
      | some k => exact absurd ⟨k, hk⟩ hcon
    obtain ⟨d', h3⟩ := (flipLoop_spec o.basis is o.data).2 ⟨i, hi, hnone⟩
    simp [Occupation.flip, h3] at h
  obtain ⟨d', h1, h2, h3⟩ := (flipLoop_spec o.basis is o.data).1 hok
  simp only [Occupation.flip, h1, Except.ok.injEq] at h
  subst h
  obtain ⟨d'', h4, h5, h6⟩ := (flipLoop_spec o.basis is d').1 (by rw [h2]; exact hok)
  simp only [Occupation.flip, h4, Except.ok.injEq]
  have : d'' = o.data := by
    apply List.ext_getElem?
    intro k
    rw [h6 k, h3 k, h2]
    cases hd : o.data[k]? with
    | none => rfl
    | some v =>
      simp only [Option.map_some, Option.some.injEq]
      exact (flip_iterate_two hb _ (hv v (List.mem_of_getElem? hd))).1
  rw [this]

theorem convert_flip {b t : Basis} (hb : TwoState b) (ht : TwoState t) {v : Int}
    (hv : b.validValue v = true) : b.convertTo (b.flip v) t = t.flip (b.convertTo v t) := by
  have h := (twoState_valid hb).1 hv
  rcases hb with rfl | rfl <;> rcases ht with rfl | rfl <;> rcases h with rfl | rfl <;> decide

theorem convert_iterate {b t : Basis} (hb : TwoState b) (ht : TwoState t) (n : Nat) {v : Int}
    (hv : b.validValue v = true) :
    b.convertTo ((b.flip)^[n] v) t = (t.flip)^[n] (b.convertTo v t) := by
  induction n with
  | zero => rfl
  | succ n ih =>
    rw [Function.iterate_succ_apply', Function.iterate_succ_apply',
      convert_flip hb ht (flip_iterate_two hb n hv).2, ih]

/-- C46.  Flipping and converting commute. -/
theorem C46_flip_commutes (o : Occupation) (t : Basis) (is : List Int) (hb : TwoState o.basis)
    (ht : TwoState t) (hv : o.Valid) :
    (o.toBasis t).flip is = (o.flip is).map fun p => p.toBasis t := by
  by_cases hc : Occupation.sameClass t o.basis = true
  · have := sameClass_twoState hb ht hc
    have h1 : ∀ d, Occupation.toBasis ⟨o.basis, d⟩ t = ⟨o.basis, d⟩ := by
      intro d; rw [Occupation.toBasis, if_pos hc, this]
    have h2 : o.toBasis t = o := h1 o.data
    rw [h2]
    cases hf : Occupation.flipLoop o.basis is o.data with
    | mk r d =>
      cases r with
      | error e => simp [Occupation.flip, hf, Except.map]
      | ok u => simp [Occupation.flip, hf, Except.map, h1]
  · have h1 : ∀ d, Occupation.toBasis ⟨o.basis, d⟩ t =
        ⟨t, d.map fun v => o.basis.convertTo v t⟩ := by
      intro d; simp [Occupation.toBasis, hc]
    have h2 : o.toBasis t = ⟨t, o.data.map fun v => o.basis.convertTo v t⟩ := h1 o.data
    rw [h2]
    obtain ⟨a1, a2⟩ := flipLoop_spec o.basis is o.data
    obtain ⟨b1, b2⟩ := flipLoop_spec t is (o.data.map fun v => o.basis.convertTo v t)
    rw [List.length_map] at b1 b2
    by_cases hok : ∀ i ∈ is, ∃ k, pyIdx o.data.length i = some k
    · obtain ⟨d, c1, c2, c3⟩ := a1 hok
      obtain ⟨d', e1, e2, e3⟩ := b1 hok
      simp only [Occupation.flip, c1, e1, Except.map, h1, Except.ok.injEq, Occupation.mk.injEq,
        true_and]
      apply List.ext_getElem?
      intro k
      rw [e3 k, List.getElem?_map, List.getElem?_map, c3 k]
      cases hd : o.data[k]? with
      | none => rfl
      | some v =>
        simp only [Option.map_some, Option.some.injEq]
        exact (convert_iterate hb ht _ (hv v (List.mem_of_getElem? hd))).symm
    · have hbad : ∃ i ∈ is, pyIdx o.data.length i = none := by
        push Not at hok
        obtain ⟨i, hi, h⟩ := hok
        refine ⟨i, hi, ?_⟩
        cases hk : pyIdx o.data.length i with
        | none => rfl
        | some k => exact absurd hk (h k)
      obtain ⟨d, c1⟩ := a2 hbad
      obtain ⟨d', e1⟩ := b2 hbad
      simp [Occupation.flip, c1, e1, Except.map]

/-- C46.  The in-place variant leaves behind what `flip` returns. -/
theorem C46_flip_inplace (o p : Occupation) (is : List Int) :
    o.flip is = .ok p ↔ o.flipInplace is = (.ok (), p) := by
  unfold Occupation.flip Occupation.flipInplace
  cases Occupation.flipLoop o.basis is o.data with
  | mk r d => cases r <;> simp

/-! ### Counting and listing -/

theorem indicesFrom_spec (v : Int) (d : List Int) : ∀ k : Nat,
    (Occupation.indicesFrom v k d).Pairwise (· < ·) ∧
    (Occupation.indicesFrom v k d).length = d.count v ∧
    ∀ j : Nat, j ∈ Occupation.indicesFrom v k d ↔ k ≤ j ∧ d[j - k]? = some v := by
  induction d with
  | nil => intro k; simp [Occupation.indicesFrom]
  | cons x d ih =>
    intro k
    obtain ⟨h1, h2, h3⟩ := ih (k + 1)
    have hsub : ∀ j : Nat, k < j → j - k = (j - (k + 1)) + 1 := fun j hj => by omega
    unfold Occupation.indicesFrom
    split
    · rename_i hx
      subst hx
      refine ⟨?_, by simp [h2], ?_⟩
      · rw [List.pairwise_cons]
        exact ⟨fun j hj => by have := ((h3 j).1 hj).1; omega, h1⟩
      · intro j
        rw [List.mem_cons, h3]
        constructor
        · rintro (rfl | ⟨h4, h5⟩)
          · simp
          · refine ⟨by omega, ?_⟩
            rw [hsub j (by omega), List.getElem?_cons_succ]; exact h5
        · rintro ⟨h4, h5⟩
          by_cases hjk : j = k
          · exact .inl hjk
          · right
            rw [hsub j (by omega), List.getElem?_cons_succ] at h5
            exact ⟨by omega, h5⟩
    · rename_i hx
      refine ⟨h1, by rw [h2, List.count_cons_of_ne hx], ?_⟩
      intro j
      rw [h3]
      constructor
      · rintro ⟨h4, h5⟩
        refine ⟨by omega, ?_⟩
        rw [hsub j (by omega), List.getElem?_cons_succ]; exact h5
      · rintro ⟨h4, h5⟩
        by_cases hjk : j = k
        · subst hjk
          simp only [Nat.sub_self, List.getElem?_cons_zero, Option.some.injEq] at h5
          exact absurd h5 hx
        · rw [hsub j (by omega), List.getElem?_cons_succ] at h5
          exact ⟨by omega, h5⟩

/-- C46.  The index lists name exactly the occupied (vacant) sites in increasing order, the
counts are their lengths, and together they cover every site of a valid binary vector. -/
theorem C46_counts (o : Occupation) (hb : TwoState o.basis) (hv : o.Valid) :
    (∀ k : Nat, k ∈ o.occupiedIndices ↔ o.data[k]? = some o.basis.occupiedValue) ∧
    (∀ k : Nat, k ∈ o.vacantIndices ↔ o.data[k]? = some o.basis.vacantValue) ∧
    o.occupiedIndices.Pairwise (· < ·) ∧ o.vacantIndices.Pairwise (· < ·) ∧
    o.countOccupied = o.occupiedIndices.length ∧ o.countVacant = o.vacantIndices.length ∧
    o.countOccupied + o.countVacant = o.data.length := by
  obtain ⟨a1, a2, a3⟩ := indicesFrom_spec o.basis.occupiedValue o.data 0
  obtain ⟨b1, b2, b3⟩ := indicesFrom_spec o.basis.vacantValue o.data 0
  refine ⟨fun k => (a3 k).trans (by simp), fun k => (b3 k).trans (by simp), a1, b1, a2.symm, b2.symm, ?_⟩
  have key : ∀ d : List Int, (∀ v ∈ d, v = o.basis.occupiedValue ∨ v = o.basis.vacantValue) →
      d.count o.basis.occupiedValue + d.count o.basis.vacantValue = d.length := by
    intro d
    induction d with
    | nil => intro _; rfl
    | cons x d ih =>
      intro h
      have h1 := ih fun v hv => h v (List.mem_cons_of_mem _ hv)
      have hne := occupied_ne_vacant o.basis
      rcases h x List.mem_cons_self with rfl | rfl
      · rw [List.count_cons_self, List.count_cons_of_ne hne, List.length_cons]; omega
      · rw [List.count_cons_self, List.count_cons_of_ne hne.symm, List.length_cons]; omega
  exact key _ fun v hvd => twoState_occ hb (hv v hvd)

/-- C46.  In every basis the match and mismatch lists name exactly the sites with those values, in
increasing order, and the counts are their lengths; no site is in both.  Sites in a third state are
in neither: only in a two-state basis do the counts add up to the number of sites. -/
theorem C46_match_counts (o : Occupation) :
    (∀ k : Nat, k ∈ o.matchIndices ↔ o.data[k]? = some o.basis.matchValue) ∧
    (∀ k : Nat, k ∈ o.mismatchIndices ↔ o.data[k]? = some o.basis.mismatchValue) ∧
    o.matchIndices.Pairwise (· < ·) ∧ o.mismatchIndices.Pairwise (· < ·) ∧
    o.countMatch = o.matchIndices.length ∧ o.countMismatch = o.mismatchIndices.length ∧
    (∀ k ∈ o.matchIndices, k ∉ o.mismatchIndices) ∧
    o.matchIndices = o.occupiedIndices ∧ o.mismatchIndices = o.vacantIndices ∧
    o.countMatch + o.countMismatch +
      (o.data.filter fun v => decide (v ≠ 0 ∧ v ≠ 1)).length = o.data.length := by
  obtain ⟨a1, a2, a3⟩ := indicesFrom_spec o.basis.matchValue o.data 0
  obtain ⟨b1, b2, b3⟩ := indicesFrom_spec o.basis.mismatchValue o.data 0
  have hA : ∀ k : Nat, k ∈ o.matchIndices ↔ o.data[k]? = some o.basis.matchValue :=
    fun k => (a3 k).trans (by simp)
  have hB : ∀ k : Nat, k ∈ o.mismatchIndices ↔ o.data[k]? = some o.basis.mismatchValue :=
    fun k => (b3 k).trans (by simp)
  refine ⟨hA, hB, a1, b1, a2.symm, b2.symm, ?_, ?_, ?_, ?_⟩
  · intro k h1 h2
    rw [hA] at h1
    rw [hB, h1, Option.some.injEq] at h2
    cases hb : o.basis <;> rw [hb] at h2 <;> simp [Basis.matchValue, Basis.mismatchValue] at h2
  · unfold Occupation.matchIndices Occupation.occupiedIndices
    cases o.basis <;> rfl
  · unfold Occupation.mismatchIndices Occupation.vacantIndices
    cases o.basis <;> rfl
  · have key : ∀ d : List Int, d.count 0 + d.count 1 +
        (d.filter fun v => decide (v ≠ 0 ∧ v ≠ 1)).length = d.length := by
      intro d
      induction d with
      | nil => rfl
      | cons x d ih =>
        simp only [List.count_cons, List.filter_cons, List.length_cons]
        by_cases h0 : x = 0
        · subst h0; simp; simp at ih; omega
        · by_cases h1 : x = 1
          · subst h1; simp; simp at ih; omega
          · simp [h0, h1]; simp at ih; omega
    have := key o.data
    unfold Occupation.countMatch Occupation.countMismatch
    cases o.basis
    · simp only [Basis.matchValue, Basis.mismatchValue]; omega
    · simp only [Basis.matchValue, Basis.mismatchValue]; omega

/-- A site in a third state is neither a match nor a mismatch. -/
example : (Occupation.mk (.chebyshev 3) [0, 2, 1, 0]).matchIndices = [0, 3] ∧
    (Occupation.mk (.chebyshev 3) [0, 2, 1, 0]).mismatchIndices = [2] := by decide

/-- C46.  `equivalent_to` holds exactly for vectors of the same length with the same occupied
sites, whatever their encodings. -/
theorem C46_equivalent (o p : Occupation) (ho : TwoState o.basis) (hp : TwoState p.basis)
    (hvo : o.Valid) (hvp : p.Valid) :
    o.equivalentTo p = true ↔ o.data.length = p.data.length ∧
      ∀ k : Nat, o.data[k]? = some o.basis.occupiedValue ↔
        p.data[k]? = some p.basis.occupiedValue := by
  have ht : TwoState .occupation := .inl rfl
  obtain ⟨-, a1, a2, a3, a4⟩ := C46_same_occupied_sites o .occupation ho ht hvo
  obtain ⟨-, b1, b2, b3, b4⟩ := C46_same_occupied_sites p .occupation hp ht hvp
  unfold Occupation.equivalentTo
  rw [beq_iff_eq]
  constructor
  · intro h
    refine ⟨by rw [← a2, h, b2], fun k => ?_⟩
    rw [← a3 k, h, b3 k]
  · rintro ⟨h1, h2⟩
    apply List.ext_getElem?
    intro k
    by_cases hk : k < o.data.length
    · obtain ⟨v, hv⟩ : ∃ v, (o.toBasis .occupation).data[k]? = some v :=
        ⟨_, List.getElem?_eq_getElem (by rw [a2]; exact hk)⟩
      obtain ⟨w, hw⟩ : ∃ w, (p.toBasis .occupation).data[k]? = some w :=
        ⟨_, List.getElem?_eq_getElem (by rw [b2, ← h1]; exact hk)⟩
      have h3 : (v = Basis.occupation.occupiedValue ↔ w = Basis.occupation.occupiedValue) := by
        have := h2 k
        rw [← a3 k, ← b3 k, hv, hw] at this
        simpa using this
      have hbas : (o.toBasis .occupation).basis = .occupation :=
        (C46_same_occupied_sites o .occupation ho ht hvo).1
      have hbas' : (p.toBasis .occupation).basis = .occupation :=
        (C46_same_occupied_sites p .occupation hp ht hvp).1
      have h4 := (twoState_valid ht).1 (hbas ▸ a1 v (List.mem_of_getElem? hv))
      have h5 := (twoState_valid ht).1 (hbas' ▸ b1 w (List.mem_of_getElem? hw))
      rw [hv, hw, Option.some.injEq]
      simp only [Basis.occupiedValue] at h3
      omega
    · rw [List.getElem?_eq_none (by rw [a2]; omega), List.getElem?_eq_none (by rw [b2]; omega)]

/-! ### Fresh vectors -/

/-- C46.  `zeros(n)` has all `n` sites vacant, `ones(n)` all `n` sites occupied, and `random` occupies
exactly the sites whose draw was below the fill fraction: 1 stands for occupied and 0 for vacant in the
'occupation' encoding, and the other way round in the 'chebyshev' encoding.  All three are valid. -/
theorem C46_fresh_vectors (n : Nat) (draws : List Bool) (m : Int) (hm : 2 ≤ m) :
    (Occupation.zeros n .occupation).data = List.replicate n 0 ∧
    (Occupation.zeros n (.chebyshev m)).data = List.replicate n 1 ∧
    (Occupation.ones n .occupation).data = List.replicate n 1 ∧
    (Occupation.ones n (.chebyshev m)).data = List.replicate n 0 ∧
    (Occupation.random draws .occupation).data = draws.map (fun d => if d then 1 else 0) ∧
    (Occupation.random draws (.chebyshev m)).data = draws.map (fun d => if d then 0 else 1) ∧
    ∀ b, b = .occupation ∨ b = .chebyshev m → (Occupation.zeros n b).Valid ∧ (Occupation.ones n b).Valid ∧
      (Occupation.random draws b).Valid ∧ (Occupation.zeros n b).basis = b ∧
      (Occupation.ones n b).basis = b ∧ (Occupation.random draws b).basis = b := by
  refine ⟨rfl, rfl, rfl, rfl, rfl, rfl, ?_⟩
  intro b hb
  have h1 : b.validValue b.occupiedValue = true := by
    rcases hb with rfl | rfl
    · rfl
    · simp [Basis.validValue, Basis.occupiedValue, Basis.matchValue]; omega
  have h2 : b.validValue b.vacantValue = true := by
    rcases hb with rfl | rfl
    · rfl
    · simp [Basis.validValue, Basis.vacantValue, Basis.mismatchValue]; omega
  refine ⟨?_, ?_, ?_, rfl, rfl, rfl⟩
  · intro v hv
    rw [(List.mem_replicate.1 hv).2]; exact h2
  · intro v hv
    rw [(List.mem_replicate.1 hv).2]; exact h1
  · intro v hv
    obtain ⟨d, -, rfl⟩ := List.mem_map.1 hv
    cases d
    · exact h2
    · exact h1

/-- C46.  The conversions of single values are inverse to each other on the two values of each encoding, turn
the occupied value (1 or 0) into the occupied value (0 or 1) and agree with the conversion of vectors. -/
theorem C46_single_values :
    Basis.toChebyshev 1 = 0 ∧ Basis.toChebyshev 0 = 1 ∧ Basis.fromChebyshev 0 = 1 ∧ Basis.fromChebyshev 1 = 0 ∧
    Basis.toOccupation 0 = 1 ∧ Basis.toOccupation 1 = 0 ∧ Basis.fromOccupation 1 = 0 ∧ Basis.fromOccupation 0 = 1 ∧
    (∀ v, Basis.occupation.validValue v = true →
      Basis.fromChebyshev (Basis.toChebyshev v) = v ∧ Basis.toOccupation (Basis.fromOccupation v) = v ∧
      Basis.toChebyshev v = Basis.occupation.convertTo v (.chebyshev 2) ∧
      Basis.fromOccupation v = Basis.occupation.convertTo v (.chebyshev 2)) ∧
    ∀ v, (Basis.chebyshev 2).validValue v = true →
      Basis.toChebyshev (Basis.fromChebyshev v) = v ∧ Basis.fromOccupation (Basis.toOccupation v) = v ∧
      Basis.fromChebyshev v = (Basis.chebyshev 2).convertTo v .occupation ∧
      Basis.toOccupation v = (Basis.chebyshev 2).convertTo v .occupation := by
  refine ⟨by decide, by decide, by decide, by decide, by decide, by decide, by decide, by decide, ?_, ?_⟩
  · intro v hv
    have : v = 0 ∨ v = 1 := by simpa [Basis.validValue] using hv
    rcases this with rfl | rfl <;> decide
  · intro v hv
    have h2 : 0 ≤ v ∧ v < 2 := by simpa [Basis.validValue] using hv
    have : v = 0 ∨ v = 1 := by omega
    rcases this with rfl | rfl <;> decide

/-- C46.  A Chebyshev basis is made exactly for two or more states; the two names give the two bases and any
other name is refused. -/
theorem C46_making_a_basis :
    (∀ m b, Basis.mkChebyshev m = .ok b ↔ 2 ≤ m ∧ b = .chebyshev m) ∧
    (∀ m e, Basis.mkChebyshev m = .error e ↔ m < 2 ∧ e = .valueError) ∧
    ∀ name b, Basis.getBasis name = .ok b ↔
      (name = "occupation" ∧ b = .occupation) ∨ (name = "chebyshev" ∧ b = .chebyshev 2) := by
  refine ⟨fun m b => ?_, fun m e => ?_, fun name b => ?_⟩
  · unfold Basis.mkChebyshev
    split
    · simp; omega
    · simp only [Except.ok.injEq]
      exact ⟨fun h => ⟨by omega, h.symm⟩, fun h => h.2.symm⟩
  · unfold Basis.mkChebyshev
    split
    · rename_i h
      simp only [Except.error.injEq]
      exact ⟨fun he => ⟨h, he.symm⟩, fun he => he.2.symm⟩
    · simp; omega
  · unfold Basis.getBasis
    split
    · rename_i h
      subst h
      simp [eq_comm]
    · rename_i h
      split
      · rename_i h2
        subst h2
        have : Basis.mkChebyshev 2 = .ok (.chebyshev 2) := by decide
        simp [this, eq_comm]
      · rename_i h2
        simp [h, h2]

/-- C46.  Two occupations are equal exactly when both have the same encoding, by name, and the same data; the
numbers of states are not compared. -/
theorem C46_equality (o p : Occupation) :
    o.eq p = true ↔ o.data = p.data ∧
      ((o.basis = .occupation ∧ p.basis = .occupation) ∨ ∃ m n, o.basis = .chebyshev m ∧ p.basis = .chebyshev n) := by
  obtain ⟨b, d⟩ := o
  obtain ⟨c, e⟩ := p
  cases b <;> cases c <;> simp [Occupation.eq, Basis.name]

/-- C46.  The table of site functions has one row for each state and one column for each function; a site with
at most one state has the single function one, in a Chebyshev basis, and the occupation basis has one
function that is one for the first state and zero for all others. -/
theorem C46_site_functions (b : Basis) (n : Nat) :
    (b.siteBasisValues ℚ n).length = n ∧
    (∀ row ∈ b.siteBasisValues ℚ n, row.length = b.numSiteBasisFunctions n) ∧
    (Basis.occupation.siteBasisValues ℚ n = (List.range n).map fun i => [if i = 0 then 1 else 0]) ∧
    (∀ m, n < 2 → (Basis.chebyshev m).siteBasisValues ℚ n = List.replicate n [1] ∧
      (Basis.chebyshev m).numSiteBasisFunctions n = 1) ∧
    ∀ m, 2 ≤ n → (Basis.chebyshev m).numSiteBasisFunctions n = n - 1 := by
  refine ⟨?_, ?_, ?_, fun m h => ?_, fun m h => ?_⟩
  · cases b with
    | occupation => simp [Basis.siteBasisValues]
    | chebyshev m => simp only [Basis.siteBasisValues]; split <;> simp
  · cases b with
    | occupation =>
      intro row hrow
      simp only [Basis.siteBasisValues, List.mem_map] at hrow
      obtain ⟨i, -, rfl⟩ := hrow
      rfl
    | chebyshev m =>
      intro row hrow
      simp only [Basis.siteBasisValues, Basis.numSiteBasisFunctions] at hrow ⊢
      by_cases h : n < 2
      · rw [if_pos h] at hrow ⊢
        rw [(List.mem_replicate.1 hrow).2]; rfl
      · rw [if_neg h] at hrow ⊢
        obtain ⟨i, -, rfl⟩ := List.mem_map.1 hrow
        simp
  · simp only [Basis.siteBasisValues]
    refine List.map_congr_left fun i _ => ?_
    by_cases h : i = 0
    · subst h; simp [Basis.stateValue, Basis.matchValue]
    · simp [Basis.stateValue, Basis.mismatchValue, h]
  · simp [Basis.siteBasisValues, Basis.numSiteBasisFunctions, h]
  · simp [Basis.numSiteBasisFunctions, Nat.not_lt.2 h]

example : Basis.mkChebyshev 1 = .error .valueError ∧ Basis.mkChebyshev 3 = .ok (.chebyshev 3) ∧
    (Occupation.mk (.chebyshev 2) [0, 1]).eq ⟨.chebyshev 3, [0, 1]⟩ = true ∧
    (Occupation.mk .occupation [0, 1]).eq ⟨.chebyshev 2, [0, 1]⟩ = false := by decide

/-! ### Where the claim stops -/

/-- C46 does not extend to a third state: the generic conversion calls it "occupied" (template
species) although the basis' own `to_occupation` calls it vacant, and converting back does not
restore it. -/
theorem C46_third_state_lost :
    (Occupation.mk (.chebyshev 3) [0, 1, 2]).Valid ∧
    ((Occupation.mk (.chebyshev 3) [0, 1, 2]).toBasis .occupation).data = [1, 0, 1] ∧
    [0, 1, 2].map Basis.toOccupation = [1, 0, 0] ∧
    (((Occupation.mk (.chebyshev 3) [0, 1, 2]).toBasis .occupation).toBasis (.chebyshev 3)).data =
      [0, 1, 0] := by
  refine ⟨?_, by decide, by decide, by decide⟩
  intro v hv
  simp only [List.mem_cons, List.not_mem_nil, or_false] at hv
  rcases hv with rfl | rfl | rfl <;> decide

/-- C46.  Assigning a value the encoding does not allow raises, but the value stays in the
object. -/
theorem C46_rejected_assignment_stays (o : Occupation) (k : Nat) (v : Int)
    (hk : k < o.data.length) (hv : o.basis.validValue v = false) :
    ∃ p, o.setItem k v = (.error .valueError, p) ∧ p.data = o.data.set k v ∧ ¬ p.Valid := by
  have hidx : pyIdx o.data.length (k : Int) = some k := by
    unfold pyIdx
    rw [if_pos (by omega), if_pos (by omega)]
    rfl
  have hmem : v ∈ o.data.set k v := List.mem_set hk v
  refine ⟨⟨o.basis, o.data.set k v⟩, ?_, rfl, fun h => ?_⟩
  · have : (o.data.set k v).all o.basis.validValue = false := by
      rw [List.all_eq_false]
      exact ⟨v, hmem, by simp [hv]⟩
    simp [Occupation.setItem, pySet, hidx, Occupation.validate, this]
  · have := h v hmem
    simp only at this
    rw [hv] at this
    cases this

/-- Three sites, two of them occupied, in both encodings. -/
example : (Occupation.mk .occupation [1, 0, 1]).toBasis (.chebyshev 2) = ⟨.chebyshev 2, [0, 1, 0]⟩ ∧
    (Occupation.mk (.chebyshev 2) [0, 1, 0]).flip [-1, 1] = .ok ⟨.chebyshev 2, [0, 0, 1]⟩ ∧
    (Occupation.mk .occupation [1, 0, 1]).equivalentTo ⟨.chebyshev 2, [0, 1, 0]⟩ = true ∧
    (Occupation.mk .occupation [1, 0, 1]).occupiedIndices = [0, 2] ∧
    Occupation.mk' [0, 2] .occupation true = .error .valueError := by
  decide

end KMC
