import Verif.Lemmas.InitialFile
/-
C142: the state that a file gives a simulation to start from.
-/
namespace KMC
open Spec State

variable {σ φ T : Type}

/-- What `from_file` does with a JSON file. -/
theorem fromFile_json {fs : FileSystem T} {path : String} {p : FilePayload T}
    (hp : suffixLower path = ".json".toList) (hf : fs path = some (.json p)) (shape : Option (List Nat))
    (select : Option (List Int)) (o : Option (ActiveSiteOrder σ φ)) (time : T) (step : Int) :
    fromFile fs path shape select o time step = fromPayload o shape select time step p := by
  unfold fromFile
  rw [hp, if_neg (by decide), if_neg (by simp), hf]

/-- C142.  An initial-state file (`occupation`) read with `select_sites` and without an active-site order.  It gives
a state exactly if sites are selected, the shape has three components, none of them zero, the number of values is a
multiple of the number of cells, and all selected numbers are sites of the unit cell; the state then holds, in the
order of the selection, the values of all copies of each selected site, and the time and step the caller gave. -/
theorem C142_selection (fs : FileSystem T) (path : String) (p : FilePayload T) (raw : List Int)
    (hp : suffixLower path = ".json".toList) (hf : fs path = some (.json p)) (h1 : p.occupations = none)
    (h2 : p.occupation = some raw) (shape : Option (List Nat)) (select : Option (List Int)) (time : T) (step : Int)
    (s : State T) :
    fromFile (σ := σ) (φ := φ) fs path shape select none time step = .ok s ↔
      ∃ sel a b c, select = some sel ∧ shape = some [a, b, c] ∧ 0 < a ∧ 0 < b ∧ 0 < c ∧
        a * b * c ∣ raw.length ∧ TakesSites (a * b * c) sel raw s.occ ∧ s.time = time ∧ s.step = step := by
  rw [fromFile_json hp hf, fromPayload, h1, h2]
  simp only
  unfold initialOccupationSelect
  cases select with
  | none => simp
  | some sel =>
    cases shape with
    | none => simp
    | some l =>
      match l with
      | [] | [_] | [_, _] | _ :: _ :: _ :: _ :: _ => simp
      | [a, b, c] =>
        simp only
        by_cases hz : a * b * c = 0
        · rw [if_pos hz]
          simp only [reduceCtorEq, false_iff]
          rintro ⟨sel', a', b', c', -, hs, ha, hb, hc, -⟩
          simp only [Option.some.injEq, List.cons.injEq, and_true] at hs
          obtain ⟨rfl, rfl, rfl⟩ := hs
          exact (Nat.mul_pos (Nat.mul_pos ha hb) hc).ne' hz
        · rw [if_neg hz]
          have hpos : 0 < a * b * c := Nat.pos_of_ne_zero hz
          have ha : 0 < a := Nat.pos_of_ne_zero (by rintro rfl; simp at hz)
          have hb : 0 < b := Nat.pos_of_ne_zero (by rintro rfl; simp at hz)
          have hc : 0 < c := Nat.pos_of_ne_zero (by rintro rfl; simp at hz)
          by_cases hm : raw.length % (a * b * c) ≠ 0
          · rw [if_pos hm]
            simp only [reduceCtorEq, false_iff]
            rintro ⟨sel', a', b', c', -, hs, -, -, -, hd, -⟩
            simp only [Option.some.injEq, List.cons.injEq, and_true] at hs
            obtain ⟨rfl, rfl, rfl⟩ := hs
            exact hm (Nat.mod_eq_zero_of_dvd hd)
          · rw [if_neg hm]
            have hd : a * b * c ∣ raw.length := Nat.dvd_of_mod_eq_zero (not_not.1 hm)
            have hl : raw.length = raw.length / (a * b * c) * (a * b * c) := (Nat.div_mul_cancel hd).symm
            have key := selectBlocks_ok (raw := raw) hpos hl sel
            constructor
            · intro h
              split at h
              · cases h
              · rename_i v hv
                cases h
                exact ⟨sel, a, b, c, rfl, rfl, ha, hb, hc, hd, (key v).1 hv, rfl, rfl⟩
            · rintro ⟨sel', a', b', c', hs1, hs, -, -, -, -, ht, rfl, rfl⟩
              simp only [Option.some.injEq, List.cons.injEq, and_true] at hs hs1
              obtain ⟨rfl, rfl, rfl⟩ := hs
              subst hs1
              rw [(key s.occ).2 ht]

/-- C142.  Both ways to choose the sites agree: for the active-site order of a structure, reading a list with one value
per site of the supercell gives the same state with the order as with the numbers of its active unit-cell sites and its
shape. -/
theorem C142_selection_as_order {eqv : σ → σ → Bool}
    {fp : Nat → Nat → List Nat → List Nat → List Nat → Nat × Nat × Nat → List σ → List (List σ) → φ}
    {template : List σ} {mapping : List (σ × List σ)} {shape : Option (List Int)} {o : ActiveSiteOrder σ φ}
    (ho : ActiveSiteOrder.fromStructureAndMapping eqv fp template mapping shape = .ok o)
    (fs : FileSystem T) (path : String) (p : FilePayload T) (raw : List Int)
    (hp : suffixLower path = ".json".toList) (hf : fs path = some (.json p)) (h1 : p.occupations = none)
    (h2 : p.occupation = some raw) (hraw : raw.length = o.originalSiteCount) (time : T) (step : Int)
    (shape' : Option (List Nat)) (select' : Option (List Int)) :
    ∃ s, fromFile fs path shape' select' (some o) time step = .ok s ∧
      fromFile (σ := σ) (φ := φ) fs path
        (some [o.supercellShape.1, o.supercellShape.2.1, o.supercellShape.2.2])
        (some (o.primitiveActiveIndices.map Int.ofNat)) none time step = .ok s := by
  obtain ⟨hL, hact, hblocks⟩ := activeToOriginal_blocks ho
  obtain ⟨hn, -⟩ := C41_numbering ho
  obtain ⟨hn1, -⟩ := fromStructureAndMapping_ok ho
  obtain ⟨p1, p2, p3⟩ := normalizeSupercellShape_ok hn1
  obtain ⟨hall, hfull, -⟩ := C41_select_active_values ho raw
  obtain ⟨vs, hvs, hvl, hve⟩ := hfull hraw
  refine ⟨⟨vs, time, step⟩, ?_, ?_⟩
  · rw [fromFile_json hp hf, fromPayload, h1, h2]
    simp only [initialOccupationActive]
    by_cases hc : raw.length = o.activeSiteCount
    · rw [if_pos hc]
      rw [hall hc] at hvs
      cases hvs
      rfl
    · rw [if_neg hc, hvs]
  · rw [C142_selection fs path p raw hp hf h1 h2]
    refine ⟨_, _, _, _, rfl, rfl, p1, p2, p3, ?_, ⟨?_, ?_⟩, rfl, rfl⟩
    · rw [hraw, hn]
      exact Dvd.intro_left _ rfl
    · simp only [hvl, ActiveSiteOrder.activeSiteCount, hblocks, flatMap_block_length, List.length_map]
      rfl
    · intro k b hk
      rw [List.getElem?_map] at hk
      cases hq : o.primitiveActiveIndices[k]? with
      | none => rw [hq] at hk; cases hk
      | some q =>
        rw [hq] at hk
        simp only [Option.map_some, Option.some.injEq] at hk
        subst hk
        have hq' := hact q (List.mem_of_getElem? hq)
        refine ⟨q, ⟨?_, .inl ⟨by simp, rfl⟩⟩, fun j hj => ?_⟩
        · show q < raw.length / cellCount o.supercellShape
          rw [hraw, hn, Nat.mul_div_cancel _ hL]
          exact hq'
        · have hj' : j < cellCount o.supercellShape := hj
          have hidx := flatMap_block_get o.primitiveActiveIndices (cellCount o.supercellShape) k j q hq hj'
          rw [← hblocks] at hidx
          have := hve _ _ hidx
          have hlt : q * cellCount o.supercellShape + j < raw.length := by
            rw [hraw, hn]
            have : (q + 1) * cellCount o.supercellShape ≤ template.length * cellCount o.supercellShape :=
              Nat.mul_le_mul_right _ hq'
            have e : (q + 1) * cellCount o.supercellShape = q * cellCount o.supercellShape + cellCount o.supercellShape := by
              ring
            omega
          refine ⟨raw[q * cellCount o.supercellShape + j], List.getElem?_eq_getElem hlt, ?_⟩
          rw [List.getElem?_eq_getElem hlt] at this
          exact this

/-- C142.  The values under `occupations` come first: if a file has them, nothing else in the file and none of the
selection arguments has an effect, except the time and the step in the file, which replace those of the caller. -/
theorem C142_occupations_first (fs : FileSystem T) (path : String) (p : FilePayload T) (occ : List Int)
    (hp : suffixLower path = ".json".toList) (hf : fs path = some (.json p)) (h1 : p.occupations = some occ)
    (shape : Option (List Nat)) (select : Option (List Int)) (o : Option (ActiveSiteOrder σ φ)) (time : T) (step : Int)
    (s : State T) :
    fromFile fs path shape select o time step = .ok s ↔
      s.time = p.time.getD time ∧ s.step = p.step.getD step ∧
        (o = none ∧ s.occ = occ ∨ ∃ order, o = some order ∧ order.selectActiveValues occ = .ok s.occ) := by
  rw [fromFile_json hp hf, fromPayload, h1]
  simp only [fromOccupations]
  cases o with
  | none =>
    simp only [Except.ok.injEq, reduceCtorEq, false_and, exists_false, or_false, true_and]
    constructor
    · rintro rfl; exact ⟨rfl, rfl, rfl⟩
    · rintro ⟨a, b, c⟩; cases s; simp only at a b c; subst a b c; rfl
  | some order =>
    simp only [reduceCtorEq, false_and, false_or, Option.some.injEq, exists_eq_left']
    cases hv : order.selectActiveValues occ with
    | error x => simp
    | ok v =>
      simp only [Except.ok.injEq]
      constructor
      · rintro rfl; exact ⟨rfl, rfl, rfl⟩
      · rintro ⟨a, b, c⟩; cases s; simp only at a b c; subst a b c; rfl

/-- C142, limit.  In an initial-state file (`occupation`) a time and a step have no effect: the simulation starts at
those of the caller. -/
theorem C142_initial_file_time_ignored (fs fs' : FileSystem T) (path : String) (p : FilePayload T)
    (hp : suffixLower path = ".json".toList) (hf : fs path = some (.json p)) (h1 : p.occupations = none)
    (t : Option T) (n : Option Int) (hf' : fs' path = some (.json { p with time := t, step := n }))
    (shape : Option (List Nat)) (select : Option (List Int)) (o : Option (ActiveSiteOrder σ φ)) (time : T) (step : Int) :
    fromFile fs' path shape select o time step = fromFile fs path shape select o time step ∧
    ∀ s, fromFile fs path shape select o time step = .ok s → s.time = time ∧ s.step = step := by
  rw [fromFile_json hp hf, fromFile_json hp hf']
  simp only [fromPayload, h1]
  refine ⟨trivial, fun s hs => ?_⟩
  cases hr : p.occupation with
  | none => rw [hr] at hs; cases hs
  | some raw =>
    rw [hr] at hs
    simp only at hs
    cases o with
    | none =>
      simp only at hs
      split at hs
      · cases hs
      · cases hs; exact ⟨rfl, rfl⟩
    | some order =>
      simp only at hs
      split at hs
      · cases hs
      · cases hs; exact ⟨rfl, rfl⟩

/-- C142.  An initial-state file read with an active-site order: a list with one value per active site is taken as it
is, a list with one value per site of the supercell is reduced to the active sites in their order, and any other
length is refused. -/
theorem C142_with_order {eqv : σ → σ → Bool}
    {fp : Nat → Nat → List Nat → List Nat → List Nat → Nat × Nat × Nat → List σ → List (List σ) → φ}
    {template : List σ} {mapping : List (σ × List σ)} {shape : Option (List Int)} {o : ActiveSiteOrder σ φ}
    (ho : ActiveSiteOrder.fromStructureAndMapping eqv fp template mapping shape = .ok o)
    (fs : FileSystem T) (path : String) (p : FilePayload T) (raw : List Int)
    (hp : suffixLower path = ".json".toList) (hf : fs path = some (.json p)) (h1 : p.occupations = none)
    (h2 : p.occupation = some raw) (time : T) (step : Int) (shape' : Option (List Nat)) (select' : Option (List Int)) :
    (raw.length = o.activeSiteCount → fromFile fs path shape' select' (some o) time step = .ok ⟨raw, time, step⟩) ∧
    (raw.length = o.originalSiteCount → ∃ vs, fromFile fs path shape' select' (some o) time step = .ok ⟨vs, time, step⟩ ∧
      vs.length = o.activeSiteCount ∧ ∀ (k i : Nat), o.activeToOriginal[k]? = some i → vs[k]? = raw[i]?) ∧
    (raw.length ≠ o.activeSiteCount → raw.length ≠ o.originalSiteCount →
      fromFile fs path shape' select' (some o) time step = .error .valueError) := by
  obtain ⟨hall, hfull, hbad⟩ := C41_select_active_values ho raw
  rw [fromFile_json hp hf, fromPayload, h1, h2]
  simp only [initialOccupationActive]
  refine ⟨fun h => by rw [if_pos h], fun h => ?_, fun ha hb => by rw [if_neg ha, hbad ha hb]⟩
  obtain ⟨vs, hvs, hvl, hve⟩ := hfull h
  refine ⟨vs, ?_, hvl, hve⟩
  by_cases hc : raw.length = o.activeSiteCount
  · rw [if_pos hc]
    rw [hall hc] at hvs
    cases hvs
    rfl
  · rw [if_neg hc, hvs]

/-- C142.  A file without values, JSON that is no object, an incomplete file and a name with another ending are
refused; a file that does not exist is reported as missing. -/
theorem C142_refused (fs : FileSystem T) (path : String) (shape : Option (List Nat)) (select : Option (List Int))
    (o : Option (ActiveSiteOrder σ φ)) (time : T) (step : Int) :
    (suffixLower path ≠ ".json".toList → suffixLower path ≠ ".h5".toList →
      fromFile fs path shape select o time step = .error .valueError) ∧
    (suffixLower path = ".json".toList →
      (fs path = none → fromFile fs path shape select o time step = .error .osError) ∧
      (fs path = some .otherJson ∨ fs path = some .torn ∨ (∃ d, fs path = some (.h5 d)) ∨
        (∃ p, fs path = some (.json p) ∧ p.occupations = none ∧ p.occupation = none) →
        fromFile fs path shape select o time step = .error .valueError)) := by
  refine ⟨fun h1 h2 => by rw [fromFile, if_neg h2, if_pos h1], fun hp => ⟨fun h => ?_, ?_⟩⟩
  · rw [fromFile, hp, if_neg (by decide), if_neg (by simp), h]
  · rintro (h | h | ⟨d, h⟩ | ⟨p, h, h1, h2⟩)
    · rw [fromFile, hp, if_neg (by decide), if_neg (by simp), h]
    · rw [fromFile, hp, if_neg (by decide), if_neg (by simp), h]
    · rw [fromFile, hp, if_neg (by decide), if_neg (by simp), h]
    · rw [fromFile_json hp h, fromPayload, h1, h2]

/-! ### Examples -/

/-- Non-vacuity: a unit cell of three sites in a supercell of two cells; sites 2 and 0 are selected, the last one by a
negative number. -/
example : fromFile (σ := Unit) (φ := Unit) (fun q => if q = "initial.json" then
      some (.json { occupation := some [10, 11, 20, 21, 30, 31] }) else none) "initial.json" (some [2, 1, 1])
      (some [-1, 0]) none (0 : Int) 0 = .ok ⟨[30, 31, 10, 11], 0, 0⟩ ∧
    TakesSites 2 [-1, 0] [10, 11, 20, 21, 30, 31] [30, 31, 10, 11] := by
  have h : fromFile (σ := Unit) (φ := Unit) (fun q => if q = "initial.json" then
      some (.json { occupation := some [10, 11, 20, 21, 30, 31] }) else none) "initial.json" (some [2, 1, 1])
      (some [-1, 0]) none (0 : Int) 0 = .ok ⟨[30, 31, 10, 11], 0, 0⟩ := by decide
  refine ⟨h, ?_⟩
  obtain ⟨sel, a, b, c, h1, h2, -, -, -, -, h3, -⟩ :=
    (C142_selection _ _ _ _ (by decide) rfl rfl rfl _ _ _ _ _).1 h
  cases h1
  cases h2
  exact h3

/-- Non-vacuity of the agreement: an order with a fixed site. -/
example : ∃ o : ActiveSiteOrder Nat Unit,
    ActiveSiteOrder.fromStructureAndMapping (fun a b => a == b) (fun _ _ _ _ _ _ _ _ => ()) [1, 2, 1]
      [(1, [1, 0]), (2, [2])] (some [2, 1, 1]) = .ok o ∧ o.primitiveActiveIndices = [0, 2] ∧
      o.originalSiteCount = 6 := ⟨_, rfl, rfl, rfl⟩

end KMC
