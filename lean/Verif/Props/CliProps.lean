import Verif.Spec.Cli
import Verif.Lemmas.Text
import Verif.Props.FromConfigProps
/-
C88: the command line (`run_kmc`, `kmcpy init`, the simulation form).
-/
namespace KMC
open Spec FromConfig Config Cli

/-! ### The supercell shape -/

theorem splitCommas_none {l : List Char} (h : ',' ∉ l) : splitCommas l = [l] := by
  induction l with
  | nil => rfl
  | cons c cs ih =>
    rw [List.mem_cons, not_or] at h
    simp only [splitCommas, if_neg (Ne.symm h.1), ih h.2]

theorem splitCommas_append {l r : List Char} (h : ',' ∉ l) :
    splitCommas (l ++ ',' :: r) = l :: splitCommas r := by
  induction l with
  | nil => simp [splitCommas]
  | cons c cs ih =>
    rw [List.mem_cons, not_or] at h
    simp only [List.cons_append, splitCommas, if_neg (Ne.symm h.1), ih h.2]

theorem intStr_chars (n : Int) : ∀ c ∈ (intStr n).toList, IsDigit c ∨ c = '-' := by
  intro c hc
  unfold intStr at hc
  split at hc
  · rw [String.toList_ofList] at hc
    exact .inl (natDigits_digit _ c hc)
  · rw [String.toList_ofList, List.mem_cons] at hc
    rcases hc with rfl | hc
    · exact .inr rfl
    · exact .inl (natDigits_digit _ c hc)

theorem intStr_no_comma (n : Int) : ',' ∉ (intStr n).toList := by
  intro h
  rcases intStr_chars n _ h with hd | hd
  · exact absurd hd.range.1 (by decide)
  · cases hd

theorem pyStrip_intStr (n : Int) : pyStrip (intStr n) = intStr n := by
  have := pyStrip_ofList (l := (intStr n).toList) (by
    intro c hc
    rcases intStr_chars n c hc with hd | rfl
    · exact hd.not_white
    · decide)
  rwa [String.ofList_toList] at this

theorem intStr_ne_empty (n : Int) : intStr n ≠ "" := by
  intro h
  have := parseInt_intStr n
  rw [h] at this
  cases this

theorem splitCommas_shape (a b c : Int) : splitCommas (shapeText a b c).toList =
    [(intStr a).toList, (intStr b).toList, (intStr c).toList] := by
  have : (shapeText a b c).toList =
      (intStr a).toList ++ ',' :: ((intStr b).toList ++ ',' :: (intStr c).toList) := by
    simp [shapeText, String.toList_append]
  rw [this, splitCommas_append (intStr_no_comma a), splitCommas_append (intStr_no_comma b),
    splitCommas_none (intStr_no_comma c)]

theorem pieces_shape (a b c : Int) :
    pieces (shapeText a b c) = [.str (intStr a), .str (intStr b), .str (intStr c)] := by
  simp only [pieces, splitCommas_shape, List.map_cons, List.map_nil, String.ofList_toList, pyStrip_intStr,
    List.filterMap_cons, List.filterMap_nil, if_neg (intStr_ne_empty _)]

theorem toInts_length {vs : List PyVal} {ns : List Int} (h : toInts vs = .ok ns) : ns.length = vs.length := by
  induction vs generalizing ns with
  | nil => cases h; rfl
  | cons v vs ih =>
    unfold toInts at h
    split at h
    · cases h
    · cases h
    · split at h
      · cases h
      · rename_i n _ ns' hn
        cases h
        simp [ih hn]

theorem toInts_ints (ns : List Int) : toInts (ns.map .int) = .ok ns := by
  induction ns with
  | nil => rfl
  | cons n ns ih => simp only [List.map_cons, toInts, toInt, ih]

/-- C88.  `run_kmc` accepts a supercell shape only if it is absent or three whole numbers, and parsing what was
parsed (as the command does) changes nothing. -/
theorem C88_shape_three_integers {lit : String → Py PyVal} {str : PyVal → String} {v p : PyVal}
    (h : parseShape lit str v = .ok p) :
    (p = .none ↔ v = .none) ∧ (p ≠ .none → ThreeIntegers p) ∧ parseShape lit str p = .ok p := by
  unfold parseShape at h
  split at h
  · cases h
  rename_i q hq
  split at h
  · rename_i hnone
    cases h
    have hv : v = .none := by
      cases q with
      | none =>
        cases v with
        | none => rfl
        | list l => cases hq
        | tuple l => cases hq
        | str s =>
          simp only [parseSequence, parseText] at hq
          split at hq
          · split at hq
            · rename_i v' _ hs
              cases hq
              cases hs
            · cases hq
          · cases hq
          · cases hq
        | bool b => cases hq
        | int n => cases hq
        | float f => cases hq
        | dict d => cases hq
      | bool b => cases hnone
      | int n => cases hnone
      | float f => cases hnone
      | str s => cases hnone
      | list l => cases hnone
      | tuple l => cases hnone
      | dict d => cases hnone
    exact ⟨⟨fun _ => hv, fun _ => rfl⟩, fun h => absurd rfl h, rfl⟩
  · rename_i hnone
    split at h
    · cases h
    rename_i ns hns
    split at h
    · cases h
    rename_i hlen
    cases h
    have hl : ns.length = 3 := by simpa using hlen
    refine ⟨⟨fun h => (PyVal.noConfusion h), ?_⟩, ?_, ?_⟩
    · rintro rfl
      cases hq
      exact absurd rfl hnone
    · intro _
      match ns, hl with
      | [a, b, c], _ => exact ⟨a, b, c, rfl⟩
    · simp only [parseShape, parseSequence, PyVal.isNone, entries, toInts_ints]
      simp [hl]

/-- C88.  The text `a,b,c` is read as the three numbers, whether `literal_eval` reads it as a tuple or rejects it. -/
theorem C88_shape_text (lit : String → Py PyVal) (str : PyVal → String) (a b c : Int)
    (hlit : lit (shapeText a b c) = .error .valueError ∨
      lit (shapeText a b c) = .ok (.tuple [.int a, .int b, .int c])) :
    parseShape lit str (.str (shapeText a b c)) = .ok (.tuple [.int a, .int b, .int c]) := by
  rcases hlit with h | h
  · simp only [parseShape, parseSequence, parseText, h, PyVal.isNone, entries, pieces_shape, toInts, toInt,
      parseInt_intStr]
    rfl
  · simp only [parseShape, parseSequence, parseText, h, isSequence, PyVal.isNone, entries]
    rfl

/-- C88.  Too few or too many numbers are refused. -/
theorem C88_shape_length {lit : String → Py PyVal} {str : PyVal → String} {s : String} {l : List PyVal}
    (hlit : lit s = .ok (.list l) ∨ lit s = .ok (.tuple l)) (hl : l.length ≠ 3) :
    ∃ e, parseShape lit str (.str s) = .error e := by
  cases h : parseShape lit str (.str s) with
  | error e => exact ⟨e, rfl⟩
  | ok p =>
    exfalso
    unfold parseShape at h
    rcases hlit with h' | h' <;>
    · simp only [parseSequence, parseText, h', isSequence, if_true, entries] at h
      rw [if_neg (by simp [PyVal.isNone])] at h
      split at h
      · cases h
      · rename_i ns hns
        split at h
        · cases h
        · rename_i hlen
          rw [toInts_length hns] at hlen
          exact hlen hl

/-- C88, disagreement.  Numbers that are not whole are accepted and cut off. -/
theorem C88_shape_truncated (lit : String → Py PyVal) (str : PyVal → String) (s : String) (q : ℚ) (hq : 0 ≤ q)
    (b c : Int) (hlit : lit s = .ok (.list [.float (.fin q), .int b, .int c])) :
    parseShape lit str (.str s) = .ok (.tuple [.int ⌊q⌋, .int b, .int c]) := by
  have h1 : parseSequence lit str (.str s) = .ok (.list [.float (.fin q), .int b, .int c]) := by
    simp only [parseSequence, parseText, hlit]; rfl
  have h2 : toInts [.float (.fin q), .int b, .int c] = .ok [⌊q⌋, b, c] := by
    simp only [toInts, toInt, truncate, if_pos hq]
  unfold parseShape
  rw [h1]
  simp only [entries, h2]
  rfl

/-- C88.  Three numbers are accepted as a shape; digits after the point are dropped, also of negative numbers. -/
theorem C88_shape_numbers (lit : String → Py PyVal) (str : PyVal → String) {x y z : PyVal} {p q r : ℚ}
    (hx : NumberOf x p) (hy : NumberOf y q) (hz : NumberOf z r) (v : PyVal)
    (hv : v = .list [x, y, z] ∨ v = .tuple [x, y, z] ∨
      ∃ s, v = .str s ∧ (lit s = .ok (.list [x, y, z]) ∨ lit s = .ok (.tuple [x, y, z]))) :
    ∃ a b c : Int, WithoutDecimals p a ∧ WithoutDecimals q b ∧ WithoutDecimals r c ∧
      parseShape lit str v = .ok (.tuple [.int a, .int b, .int c]) := by
  have key : ∀ {x : PyVal} {p : ℚ}, NumberOf x p → ∃ a, WithoutDecimals p a ∧ toInt x = some (.ok a) := by
    intro x p h
    cases h with
    | ofTrue => exact ⟨1, by simp [WithoutDecimals], rfl⟩
    | ofFalse => exact ⟨0, by simp [WithoutDecimals], rfl⟩
    | ofInt n => exact ⟨n, by unfold WithoutDecimals; split <;> simp, rfl⟩
    | ofFloat =>
      refine ⟨truncate p, ?_, rfl⟩
      unfold WithoutDecimals truncate
      split
      · exact ⟨Int.floor_le p, Int.lt_floor_add_one p⟩
      · exact ⟨Int.le_ceil p, Int.ceil_lt_add_one p⟩
  obtain ⟨a, ha, ta⟩ := key hx
  obtain ⟨b, hb, tb⟩ := key hy
  obtain ⟨c, hc, tc⟩ := key hz
  refine ⟨a, b, c, ha, hb, hc, ?_⟩
  have h2 : toInts [x, y, z] = .ok [a, b, c] := by simp only [toInts, ta, tb, tc]
  have h1 : parseSequence lit str v = .ok (.list [x, y, z]) ∨ parseSequence lit str v = .ok (.tuple [x, y, z]) := by
    rcases hv with rfl | rfl | ⟨s, rfl, h | h⟩
    · exact .inl rfl
    · exact .inr rfl
    · left; simp only [parseSequence, parseText, h]; rfl
    · right; simp only [parseSequence, parseText, h]; rfl
  unfold parseShape
  rcases h1 with h1 | h1 <;>
  · rw [h1]
    simp only [entries, h2]
    rfl

/-- C88.  A site mapping is accepted only if it is absent or a dictionary, and parsing it again changes
nothing. -/
theorem C88_mapping_dictionary {lit : String → Py PyVal} {v p : PyVal} (h : parseMapping lit v = .ok p) :
    (p = .none ∧ v = .none ∨ ∃ d, p = .dict d) ∧ parseMapping lit p = .ok p := by
  unfold parseMapping at h
  split at h
  · cases h; exact ⟨.inl ⟨rfl, rfl⟩, rfl⟩
  · cases h; exact ⟨.inr ⟨_, rfl⟩, rfl⟩
  · split at h
    · cases h; exact ⟨.inr ⟨_, rfl⟩, rfl⟩
    · cases h
    · cases h
    · cases h
  · cases h

/-! ### Running from arguments -/

/-- The names of the arguments. -/
theorem rest_keys (a : Args) (p : PyVal → Bool) {k : String}
    (h : k ∈ dictKeys (a.rest.filter fun kv => p kv.2)) : k ∈ ["supercell_shape", "model_file",
      "structure_file", "event_file", "site_mapping", "attempt_frequency", "temperature",
      "convert_to_primitive_cell"] := by
  obtain ⟨kv, hkv, rfl⟩ := List.mem_map.1 h
  have := List.mem_map_of_mem (f := Prod.fst) (List.mem_filter.1 hkv).1
  exact this

theorem rewriteKey_ok {f : PyVal → Except CliErr PyVal} {d d' : Fields} {k : String}
    (h : rewriteKey f d k = .ok d') :
    (∀ j, j ≠ k → dictGet d' j = dictGet d j) ∧
    (dictGet d k = none → dictGet d' k = none) ∧
    ∀ v, dictGet d k = some v → ∃ v', f v = .ok v' ∧ dictGet d' k = some v' := by
  unfold rewriteKey at h
  split at h
  · rename_i hn
    cases h
    exact ⟨fun _ _ => rfl, fun h => h, fun v hv => by rw [hn] at hv; cases hv⟩
  · rename_i v hv
    split at h
    · cases h
    · rename_i v' hv'
      cases h
      refine ⟨fun j hj => dictGet_dictSet_ne _ _ hj, ?_, ?_⟩
      · intro hn
        rw [hv] at hn
        cases hn
      intro w hw
      rw [hv] at hw
      cases hw
      exact ⟨v', hv', by simp⟩

theorem dictGet_filter_val {d : Fields} (p : PyVal → Bool) (hd : (dictKeys d).Nodup) (k : String) :
    dictGet (d.filter fun kv => p kv.2) k = (dictGet d k).filter p := by
  induction d with
  | nil => rfl
  | cons kv d ih =>
    obtain ⟨k', v⟩ := kv
    simp only [dictKeys, List.map_cons, List.nodup_cons] at hd
    have ih := ih hd.2
    by_cases hk : k' = k
    · subst hk
      have hn : dictGet d k' = none := (dictGet_eq_none_iff d k').2 hd.1
      by_cases hp : p v = true
      · simp [dictGet, hp, Option.filter]
      · rw [List.filter_cons, if_neg hp, ih, hn]
        simp [dictGet, Option.filter, hp]
    · by_cases hp : p v = true
      · simp [dictGet, hp, hk, ih]
      · rw [List.filter_cons, if_neg hp, ih]
        simp [dictGet, hk]

/-- What the values given to `run_kmc` become. -/
theorem inputDict_ok {lit : String → Py PyVal} {str : PyVal → String} {a : Args} {d : Fields}
    (h : a.inputDict lit str = .ok d) :
    (∀ k, k ≠ "supercell_shape" → k ≠ "site_mapping" →
      dictGet d k = (dictGet a.rest k).filter fun v => !v.isNone) ∧
    (if a.shape.isNone then dictGet d "supercell_shape" = none
      else ∃ v, parseShape lit str a.shape = .ok v ∧ dictGet d "supercell_shape" = some v) ∧
    (if a.mapping.isNone then dictGet d "site_mapping" = none
      else ∃ v, parseMapping lit a.mapping = .ok v ∧ dictGet d "site_mapping" = some v) := by
  have hnd : (dictKeys a.rest).Nodup := by
    show ["supercell_shape", "model_file", "structure_file", "event_file", "site_mapping",
      "attempt_frequency", "temperature", "convert_to_primitive_cell"].Nodup
    decide
  have hf := dictGet_filter_val (d := a.rest) (fun v => !v.isNone) hnd
  unfold Args.inputDict at h
  split at h
  · cases h
  rename_i d1 h1
  obtain ⟨r1, r2, r3⟩ := rewriteKey_ok h1
  obtain ⟨q1, q2, q3⟩ := rewriteKey_ok h
  have hs : dictGet a.rest "supercell_shape" = some a.shape := rfl
  have hm : dictGet a.rest "site_mapping" = some a.mapping := rfl
  refine ⟨?_, ?_, ?_⟩
  · intro k hk1 hk2
    rw [q1 k hk2, r1 k hk1, hf k]
  · rw [q1 _ (by decide)]
    have hfs := hf "supercell_shape"
    rw [hs] at hfs
    split
    · rename_i hn
      exact r2 (by rw [hfs]; simp [Option.filter, hn])
    · rename_i hn
      exact r3 a.shape (by rw [hfs]; simp [Option.filter, hn])
  · have hfs := hf "site_mapping"
    rw [hm] at hfs
    have e1 := r1 "site_mapping" (by decide)
    split
    · rename_i hn
      exact q2 (by rw [e1, hfs]; simp [Option.filter, hn])
    · rename_i hn
      exact q3 a.mapping (by rw [e1, hfs]; simp [Option.filter, hn])

/-- The value of a field of a configuration made from keywords. -/
theorem valueOf_init {kwargs : Fields} {c : Configuration} (h : Configuration.init none none kwargs = .ok c)
    (k : String) (hk : k ∈ Spec.systemFields ∨ k ∈ Spec.runtimeFields) :
    valueOf c k = some ((dictGet kwargs k).getD
      (if k ∈ Spec.systemFields then systemDefault k else runtimeDefault k)) := by
  obtain ⟨s, r, hs, hr, hsk, hrk, h1, h2⟩ :=
    C27_keywords_routed (sys := none) (run := none) (by simp) (by simp) h
  obtain ⟨sys, run⟩ := c
  simp only at hs hr
  subst hs hr
  simp only [valueOf]
  cases hv : dictGet kwargs k with
  | some v =>
    rcases h1 k v hv with ⟨e1, -⟩ | ⟨e1, e2⟩
    · rw [e1]; rfl
    · rw [e1, e2]; rfl
  | none =>
    obtain ⟨g1, g2⟩ := h2 k hv
    by_cases hks : k ∈ Spec.systemFields
    · rw [g1 hks]; simp [hks]
    · rw [dictGet_none_of_keys hsk hks]
      simp only
      rw [g2 (hk.resolve_left hks)]
      simp [hks]

/-- C88.  Without `--input`, the configuration has exactly the given values: the six plain arguments as they are,
shape and mapping as parsed, and the default everywhere else. -/
theorem C88_argument_values {lit : String → Py PyVal} {str : PyVal → String} {files : String → Py PyVal}
    {a : Args} {c : Configuration} (hin : a.input = .none ∨ a.input = .str "") (h : a.configuration lit str files = .ok c) :
    valueOf c "model_file" = some (if a.modelFile.isNone then .str "" else a.modelFile) ∧
    valueOf c "structure_file" = some (if a.structureFile.isNone then .str "" else a.structureFile) ∧
    valueOf c "event_file" = some (if a.eventFile.isNone then .str "" else a.eventFile) ∧
    valueOf c "temperature" = some (if a.temperature.isNone then .float (.fin 300) else a.temperature) ∧
    valueOf c "attempt_frequency" =
      some (if a.frequency.isNone then .float (.fin 10000000000000) else a.frequency) ∧
    valueOf c "convert_to_primitive_cell" = some (if a.primitive.isNone then .bool false else a.primitive) ∧
    (if a.shape.isNone then valueOf c "supercell_shape" = some (.tuple [.int 1, .int 1, .int 1])
      else ∃ v, parseShape lit str a.shape = .ok v ∧ valueOf c "supercell_shape" = some v) ∧
    (if a.mapping.isNone then valueOf c "site_mapping" = some .none
      else ∃ v, parseMapping lit a.mapping = .ok v ∧ valueOf c "site_mapping" = some v) ∧
    ∀ k, k ∈ Spec.systemFields ∨ k ∈ Spec.runtimeFields →
      k ∉ ["supercell_shape", "model_file", "structure_file", "event_file", "site_mapping",
        "attempt_frequency", "temperature", "convert_to_primitive_cell"] →
      valueOf c k = some (if k ∈ Spec.systemFields then systemDefault k else runtimeDefault k) := by
  unfold Args.configuration at h
  rw [if_neg (by rcases hin with hin | hin <;> simp [hin, ModelChoice.truthy])] at h
  split at h
  · cases h
  rename_i d hd
  obtain ⟨i1, i2, i3⟩ := inputDict_ok hd
  have hc : Configuration.init none none d = .ok c := by
    cases hc : Configuration.init none none d with
    | error e => rw [hc] at h; cases h
    | ok c' => rw [hc] at h; cases h; rfl
  have hv := valueOf_init hc
  have plain : ∀ (k : String) (v df : PyVal), k ≠ "supercell_shape" → k ≠ "site_mapping" →
      dictGet a.rest k = some v → k ∈ Spec.systemFields ∨ k ∈ Spec.runtimeFields →
      (if k ∈ Spec.systemFields then systemDefault k else runtimeDefault k) = df →
      valueOf c k = some (if v.isNone then df else v) := by
    intro k v df h1 h2 h3 h4 h5
    rw [hv k h4, i1 k h1 h2, h3, h5]
    cases hn : v.isNone <;> simp [Option.filter, hn]
  refine ⟨plain _ _ _ (by decide) (by decide) rfl (by decide) rfl,
    plain _ _ _ (by decide) (by decide) rfl (by decide) rfl,
    plain _ _ _ (by decide) (by decide) rfl (by decide) rfl,
    plain _ _ _ (by decide) (by decide) rfl (by decide) rfl,
    plain _ _ _ (by decide) (by decide) rfl (by decide) rfl,
    plain _ _ _ (by decide) (by decide) rfl (by decide) rfl, ?_, ?_, ?_⟩
  · have e := hv "supercell_shape" (by decide)
    split
    · rename_i hn
      rw [if_pos hn] at i2
      rw [e, i2]; rfl
    · rename_i hn
      rw [if_neg hn] at i2
      obtain ⟨v, p1, p2⟩ := i2
      exact ⟨v, p1, by rw [e, p2]; rfl⟩
  · have e := hv "site_mapping" (by decide)
    split
    · rename_i hn
      rw [if_pos hn] at i3
      rw [e, i3]; rfl
    · rename_i hn
      rw [if_neg hn] at i3
      obtain ⟨v, p1, p2⟩ := i3
      exact ⟨v, p1, by rw [e, p2]; rfl⟩
  · intro k hk hnot
    have hn : dictGet a.rest k = none := (dictGet_eq_none_iff _ _).2 hnot
    rw [hv k hk, i1 k (by rintro rfl; exact hnot (by decide)) (by rintro rfl; exact hnot (by decide)), hn]
    rfl

section
variable {φ M R T U K V Row : Type} [DecidableEq φ] [Add T] [Zero T] [Sub T] [LE T] [DecidableLE T] [Field K]
  [LinearOrder K] [FloorRing K]

theorem apiRun_error {k : Kernel R T U} {w : World φ M R T K V}
    {summary : Trajectory K → T → List (String × Bool) → Row} {rng : Nat → U × U} {c : Configuration}
    {e : PyErr} (h : (fromConfig k w c : Py (Simulation φ M R T V Row)) = .error e) :
    apiRun k w summary rng (.configuration c) = .error e := by
  simp only [apiRun, h]

/-- C88, disagreement.  `run_kmc` without `--input` never runs a simulation: there is no argument for an initial
state, so whatever values are given and whatever files there are, it ends with an error. -/
theorem C88_arguments_never_run (k : Kernel R T U) (w : World φ M R T K V)
    (summary : Trajectory K → T → List (String × Bool) → Row) (rng : Nat → U × U)
    (lit : String → Py PyVal) (str : PyVal → String) (files : String → Py PyVal) (a : Args)
    (hin : a.input = .none ∨ a.input = .str "") :
    ∃ e, runKmc k w summary rng lit str files a = .error e := by
  unfold runKmc
  cases h : a.configuration lit str files with
  | error e => exact ⟨e, rfl⟩
  | ok c =>
    obtain ⟨-, -, -, -, -, -, -, -, hrest⟩ := C88_argument_values hin h
    obtain ⟨e, he⟩ := C87_initial_state_required (Row := Row) k w (c := c)
      (hrest "initial_occupations" (by decide) (by decide))
      (.inl (hrest "initial_state_file" (by decide) (by decide)))
    simp only [apiRun_error he]
    exact ⟨.py e, rfl⟩

/-- C88.  With `--input`, only the file matters: the other arguments have no influence. -/
theorem C88_input_alone (k : Kernel R T U) (w : World φ M R T K V)
    (summary : Trajectory K → T → List (String × Bool) → Row) (rng : Nat → U × U)
    (lit lit' : String → Py PyVal) (str str' : PyVal → String) (files : String → Py PyVal) (a a' : Args)
    (path : String) (hp : path ≠ "") (ha : a.input = .str path) (ha' : a'.input = .str path) :
    runKmc k w summary rng lit str files a = runKmc k w summary rng lit' str' files a' := by
  have ht : ModelChoice.truthy (.str path) = true := by simp [ModelChoice.truthy, hp]
  simp only [runKmc, Args.configuration, ha, ha', ht, if_true]

/-- C88.  With `--input`, the run is that of the configuration in the file; when the file cannot be read, is no
valid configuration or lacks a proper section, the error is a `ValueError`. -/
theorem C88_input_file (k : Kernel R T U) (w : World φ M R T K V)
    (summary : Trajectory K → T → List (String × Bool) → Row) (rng : Nat → U × U)
    (lit : String → Py PyVal) (str : PyVal → String) (files : String → Py PyVal) (a : Args)
    (path : String) (hp : path ≠ "") (ha : a.input = .str path) :
    (∃ raw c, files path = .ok raw ∧ Configuration.fromFile raw none none = .ok c ∧
      runKmc k w summary rng lit str files a = ofPy (apiRun k w summary rng (.configuration c))) ∨
    (runKmc k w summary rng lit str files a = .error (.py .valueError) ∧
      ¬ ∃ raw c, files path = .ok raw ∧ Configuration.fromFile raw none none = .ok c ∧
        ∃ f, c.runtime = .cfg f) := by
  have ht : ModelChoice.truthy (.str path) = true := by simp [ModelChoice.truthy, hp]
  have hr : runKmc k w summary rng lit str files a = match loadInput (files path) with
      | .error e => .error e
      | .ok c => ofPy (apiRun k w summary rng (.configuration c)) := by
    simp only [runKmc, Args.configuration, ha, ht, if_true]
    cases loadInput (files path) <;> rfl
  rw [hr]
  unfold loadInput
  cases hf : files path with
  | error e =>
    refine .inr ⟨rfl, ?_⟩
    rintro ⟨raw, c, h, -⟩
    cases h
  | ok raw =>
    simp only
    cases hc : Configuration.fromFile raw none none with
    | error e =>
      refine .inr ⟨rfl, ?_⟩
      rintro ⟨raw', c, h, h', -⟩
      cases h
      rw [hc] at h'
      cases h'
    | ok c =>
      simp only
      cases hrun : c.runtime with
      | cfg f => exact .inl ⟨raw, c, rfl, hc, rfl⟩
      | other v =>
        refine .inr ⟨rfl, ?_⟩
        rintro ⟨raw', c', h, h', f, hf'⟩
        cases h
        rw [hc] at h'
        cases h'
        rw [hrun] at hf'
        cases hf'

end

/-! ### The template -/

/-- C88.  The template written by `kmcpy init` is a valid configuration: its paths and site mapping are the
examples of the template and every other field has its default value (the shape as a list). -/
theorem C88_template_loads : ∃ c, Configuration.fromFile templateData none none = .ok c ∧
    valueOf c "structure_file" = some (.str "path/to/structure.cif") ∧
    valueOf c "event_file" = some (.str "path/to/event.json") ∧
    valueOf c "model_file" = some (.str "path/to/model.json") ∧
    valueOf c "site_mapping" = some (.dict [("Li", .list [.str "Li", .str "X"])]) ∧
    valueOf c "supercell_shape" = some (.list [.int 1, .int 1, .int 1]) ∧
    (∀ k ∈ Spec.systemFields, k ∉ ["structure_file", "event_file", "model_file", "site_mapping",
      "supercell_shape"] → valueOf c k = some (systemDefault k)) ∧
    ∀ k ∈ Spec.runtimeFields, valueOf c k = some (runtimeDefault k) := by
  refine ⟨_, rfl, rfl, rfl, rfl, rfl, rfl, ?_, ?_⟩
  · intro k hk hn
    simp only [Spec.systemFields, List.mem_cons, List.not_mem_nil, or_false] at hk
    rcases hk with rfl | rfl | rfl | rfl | rfl | rfl | rfl | rfl | rfl | rfl | rfl | rfl | rfl <;>
      first | rfl | exact absurd (by decide) hn
  · intro k hk
    simp only [Spec.runtimeFields, List.mem_cons, List.not_mem_nil, or_false] at hk
    rcases hk with rfl | rfl | rfl | rfl | rfl | rfl | rfl | rfl | rfl | rfl <;> rfl

/-- C88.  The template mentions every field of a configuration once. -/
theorem C88_template_complete : ∃ fields, templateData =
      .dict [("kmc", .dict [("type", .str "default"), ("default", .dict fields)])] ∧
    (dictKeys fields).Perm (Spec.systemFields ++ Spec.runtimeFields) := by
  refine ⟨_, rfl, ?_⟩
  decide

/-- C88, disagreement.  With the two paths of files and the values of the template, but neither an initial state
file nor initial occupations (both are called optional), no simulation is ever made. -/
theorem C88_template_needs_initial_state {φ M R T U K V Row : Type} [DecidableEq φ] [Zero T] [LE T]
    [DecidableLE T] (k : Kernel R T U) (w : World φ M R T K V) {c c' : Configuration} {changes : Fields}
    (hc : Configuration.fromFile templateData none none = .ok c)
    (h1 : "initial_state_file" ∉ dictKeys changes) (h2 : "initial_occupations" ∉ dictKeys changes)
    (hch : c.withSystemChanges changes = .ok c') :
    ∃ e, (fromConfig k w c' : Py (Simulation φ M R T V Row)) = .error e := by
  have hsys : ∃ s r, c = ⟨.cfg s, .cfg r⟩ ∧ dictGet s "initial_state_file" = some .none ∧
      dictGet s "initial_occupations" = some .none := by
    cases hc
    exact ⟨_, _, rfl, rfl, rfl⟩
  obtain ⟨s, r, rfl, e1, e2⟩ := hsys
  simp only [Configuration.withSystemChanges] at hch
  split at hch
  · cases hch
  rename_i s' hb
  have hc' : c' = ⟨.cfg s', .cfg r⟩ := by
    simp only [Configuration.init] at hch
    exact (Except.ok.inj hch).symm
  subst hc'
  have hget : ∀ j, j ∉ dictKeys changes → dictGet s' j = dictGet s j := by
    intro j hj
    have hn : dictGet changes j = none := (dictGet_eq_none_iff _ _).2 hj
    unfold build at hb
    split at hb
    · cases hb
    · simp only at hb
      split at hb
      · cases hb
      · cases hb
        rw [dictGet_mapVal (fun k v => (dictGet changes k).getD v), hn]
        cases dictGet s j <;> rfl
  refine C87_initial_state_required k w ?_ (.inl ?_)
  · simp only [valueOf, hget _ h2, e2]
  · simp only [valueOf, hget _ h1, e1]

/-! ### `kmcpy init` -/

theorem mkdirs_keeps : ∀ (ps : List (List String)) (t : Tree) (q : List String) (n : Node),
    t q = some n → (mkdirs t ps).2 q = some n := by
  intro ps
  induction ps with
  | nil => intro t q n h; exact h
  | cons p ps ih =>
    intro t q n h
    unfold mkdirs
    split
    · exact ih t q n h
    · exact h
    · rename_i hp
      apply ih
      simp only [Tree.set]
      rw [if_neg]
      · exact h
      · rintro rfl
        rw [hp] at h
        cases h

theorem mkdirs_elsewhere : ∀ (ps : List (List String)) (t : Tree) (q : List String), q ∉ ps →
    (mkdirs t ps).2 q = t q := by
  intro ps
  induction ps with
  | nil => intro t q _; rfl
  | cons p ps ih =>
    intro t q h
    rw [List.mem_cons, not_or] at h
    unfold mkdirs
    split
    · exact ih t q h.2
    · rfl
    · rw [ih _ q h.2]
      simp [Tree.set, h.1]

theorem mkdirs_ok : ∀ (ps : List (List String)) (t : Tree),
    (∀ p ∈ ps, ∀ x, t p ≠ some (.file x)) →
    (mkdirs t ps).1 = .ok () ∧ ∀ p ∈ ps, (mkdirs t ps).2 p = some .dir := by
  intro ps
  induction ps with
  | nil => intro t _; exact ⟨rfl, by simp⟩
  | cons p ps ih =>
    intro t h
    unfold mkdirs
    split
    · rename_i hp
      obtain ⟨h1, h2⟩ := ih t fun q hq => h q (by simp [hq])
      refine ⟨h1, ?_⟩
      intro q hq
      rcases List.mem_cons.1 hq with rfl | hq
      · exact mkdirs_keeps _ _ _ _ hp
      · exact h2 q hq
    · rename_i x hx
      exact absurd hx (h p (by simp) x)
    · rename_i hp
      have hset : ∀ q ∈ ps, ∀ x, (t.set p .dir) q ≠ some (.file x) := by
        intro q hq x
        simp only [Tree.set]
        split
        · simp
        · exact h q (by simp [hq]) x
      obtain ⟨h1, h2⟩ := ih _ hset
      refine ⟨h1, ?_⟩
      intro q hq
      rcases List.mem_cons.1 hq with rfl | hq
      · exact mkdirs_keeps _ _ _ _ (by simp [Tree.set])
      · exact h2 q hq

theorem not_mem_inits (parent : List String) (name : String) : parent ++ [name] ∉ parent.inits := by
  rw [List.mem_inits]
  intro h
  have := h.length_le
  simp at this

theorem mkdirs_same : ∀ (ps : List (List String)) (t : Tree), (∀ p ∈ ps, t p = some .dir) →
    mkdirs t ps = (.ok (), t) := by
  intro ps
  induction ps with
  | nil => intro t _; rfl
  | cons p ps ih =>
    intro t h
    unfold mkdirs
    rw [h p (by simp)]
    exact ih t fun q hq => h q (by simp [hq])

/-- C88.  `kmcpy init` changes no existing file or directory, except the named file when `--force` is given:
whether it succeeds or fails, whatever the directory tree looks like. -/
theorem C88_init_keeps_files (text : String) (t : Tree) (parent : List String) (name : String) (force : Bool)
    (q : List String) (n : Node) (hq : t q = some n) :
    (writeTemplate text t parent name force).2 q = some n ∨
    (force = true ∧ q = parent ++ [name] ∧ (writeTemplate text t parent name force).1 = .ok q) := by
  have hk := mkdirs_keeps parent.inits t q n hq
  unfold writeTemplate
  cases hm : mkdirs t parent.inits with
  | mk r t' =>
    rw [hm] at hk
    cases r with
    | error e => exact .inl hk
    | ok u =>
      simp only
      split
      · exact .inl hk
      · rename_i hno
        split
        · exact .inl hk
        · by_cases he : q = parent ++ [name]
          · subst he
            refine .inr ⟨?_, rfl, rfl⟩
            have hk' : t' (parent ++ [name]) = some n := hk
            rw [hk'] at hno
            simpa using hno
          · left
            show (if q = parent ++ [name] then _ else t' q) = _
            rw [if_neg he]
            exact hk

/-- C88.  Without `--force` an existing file or directory is refused, and then nothing at all has changed. -/
theorem C88_init_refuses (text : String) (t : Tree) (hw : WellFormed t) (parent : List String) (name : String)
    (h : (t (parent ++ [name])).isSome) :
    writeTemplate text t parent name false = (.error .fileExistsError, t) := by
  have hd : ∀ p ∈ parent.inits, t p = some .dir := by
    intro p hp
    obtain ⟨r, hr⟩ := (List.mem_inits _ _).1 hp
    apply hw p (r ++ [name]) (by simp)
    rw [← List.append_assoc, hr]
    exact h
  unfold writeTemplate
  rw [mkdirs_same _ _ hd]
  simp [h]

/-- C88.  In every other case `kmcpy init` works: if no part of the directory path is a file and the named entry is
absent (or a file, with `--force`), the template is written there and the directories on the way exist. -/
theorem C88_init_writes (text : String) (t : Tree) (parent : List String) (name : String) (force : Bool)
    (hp : ∀ p, p <+: parent → ∀ x, t p ≠ some (.file x))
    (hn : t (parent ++ [name]) = none ∨ force = true ∧ t (parent ++ [name]) ≠ some .dir) :
    ∃ t', writeTemplate text t parent name force = (.ok (parent ++ [name]), t') ∧
      t' (parent ++ [name]) = some (.file text) ∧ (∀ p, p <+: parent → t' p = some .dir) ∧
      ∀ q, ¬ q <+: parent → q ≠ parent ++ [name] → t' q = t q := by
  obtain ⟨h1, h2⟩ := mkdirs_ok parent.inits t fun p hp' => hp p ((List.mem_inits _ _).1 hp')
  have h3 := mkdirs_elsewhere parent.inits t (parent ++ [name]) (not_mem_inits parent name)
  have h4 := fun q hq => mkdirs_elsewhere parent.inits t q hq
  unfold writeTemplate
  cases hm : mkdirs t parent.inits with
  | mk r t' =>
    rw [hm] at h1 h2 h3 h4
    simp only at h1 h2 h3 h4
    subst h1
    simp only [h3]
    have hne : ∀ p, p <+: parent → p ≠ parent ++ [name] := by
      rintro p hp rfl
      exact not_mem_inits parent name ((List.mem_inits _ _).2 hp)
    have fin : ∀ (o : Py (List String) × Tree), o = (.ok (parent ++ [name]), t'.set (parent ++ [name]) (.file text)) →
        ∃ t'', o = (.ok (parent ++ [name]), t'') ∧ t'' (parent ++ [name]) = some (.file text) ∧
        (∀ p, p <+: parent → t'' p = some .dir) ∧
        ∀ q, ¬ q <+: parent → q ≠ parent ++ [name] → t'' q = t q := by
      rintro o rfl
      refine ⟨_, rfl, by simp [Tree.set], ?_, ?_⟩
      · intro p hp'
        simp only [Tree.set, if_neg (hne p hp')]
        exact h2 p ((List.mem_inits _ _).2 hp')
      · intro q hq hq'
        simp only [Tree.set, if_neg hq']
        exact h4 q (fun h => hq ((List.mem_inits _ _).1 h))
    rcases hn with hn | ⟨rfl, hn⟩
    · apply fin
      simp [hn]
    · apply fin
      simp only [Bool.not_true, Bool.and_false, Bool.false_eq_true, if_false]

/-- A tree with a directory holding one file. -/
def sampleTree : Tree := fun p =>
  if p = [] ∨ p = ["work"] then some .dir else if p = ["work", "input.yaml"] then some (.file "mine") else none

example : WellFormed sampleTree := by
  intro p q hq h
  have hpq : p ++ q = [] ∨ p ++ q = ["work"] ∨ p ++ q = ["work", "input.yaml"] := by
    unfold sampleTree at h
    split at h
    · rename_i h'; tauto
    · split at h
      · rename_i h'; tauto
      · cases h
  match p, q, hq with
  | [], _, _ => rfl
  | [a], b :: q, _ =>
    have : a = "work" := by
      rcases hpq with h | h | h
      · cases h
      · cases h
      · exact (List.cons.inj h).1
    subst this
    rfl
  | a :: b :: p, c :: q, _ =>
    exfalso
    rcases hpq with h | h | h <;> simp at h

example : writeTemplate "t" sampleTree ["work"] "input.yaml" false = (.error .fileExistsError, sampleTree) := rfl
example : (writeTemplate "t" sampleTree ["work"] "input.yaml" true).2 ["work", "input.yaml"] = some (.file "t") := rfl
example : (writeTemplate "t" sampleTree ["work", "new"] "input.yaml" false).2 ["work", "new"] = some .dir := rfl

/-! ### The simulation form -/

theorem configParams_get : ∀ (vars acc : Fields) (k : String),
    (dictKeys (vars.map fun kv => ((dictGet legacyNames kv.1).getD kv.1, kv.2))).Nodup →
    dictGet (configParams vars acc) k =
      match (dictGet (vars.map fun kv => ((dictGet legacyNames kv.1).getD kv.1, kv.2)) k).filter
        (fun v => decide (k ∈ validKeys) && !v.isNone) with
      | some v => some v
      | none => dictGet acc k := by
  intro vars
  induction vars with
  | nil => intro acc k _; rfl
  | cons kv vars ih =>
    intro acc k hnd
    obtain ⟨k', v⟩ := kv
    simp only [dictKeys, List.map_cons, List.nodup_cons] at hnd
    have hn := (dictGet_eq_none_iff
      (vars.map fun kv : String × PyVal => ((dictGet legacyNames kv.1).getD kv.1, kv.2))
      ((dictGet legacyNames k').getD k')).2 hnd.1
    simp only [configParams]
    rw [ih _ _ hnd.2]
    simp only [List.map_cons, dictGet]
    by_cases hk : (dictGet legacyNames k').getD k' = k
    · rw [if_pos hk]
      rw [hk] at hn ⊢
      rw [hn]
      simp only [Option.filter]
      by_cases hv : k ∈ validKeys ∧ (!v.isNone) = true
      · simp [hv]
      · rw [if_neg hv, if_neg (by simpa using hv)]
    · rw [if_neg hk]
      cases (dictGet (vars.map fun kv => ((dictGet legacyNames kv.1).getD kv.1, kv.2)) k).filter
        (fun v => decide (k ∈ validKeys) && !v.isNone) with
      | some u => rfl
      | none =>
        simp only
        split
        · exact dictGet_dictSet_ne _ _ (fun h => hk h.symm)
        · rfl

/-- C88.  The simulation form passes its values on under the names of the configuration; the fields that are not
on the form have their defaults.  In particular the mobile species is always lithium. -/
theorem C88_form_values {lit : String → Py PyVal} {f : Form} {c : Configuration}
    (h : f.configuration lit = .ok c) :
    (∀ p ∈ [("model_file", f.lce), ("structure_file", f.prim), ("event_file", f.event),
        ("initial_state_file", f.initialState), ("kmc_passes", f.passes), ("temperature", f.temperature),
        ("mobile_ion_charge", f.charge), ("elementary_hop_distance", f.hop), ("dimension", f.dimension),
        ("random_seed", f.seed), ("attempt_frequency", f.frequency), ("equilibration_passes", f.equilibration)],
      valueOf c p.1 = some (if p.2.isNone then
        (if p.1 ∈ Spec.systemFields then systemDefault p.1 else runtimeDefault p.1) else p.2)) ∧
    (∃ shape, formShape (splitCommas f.shape.toList) = .ok shape ∧
      valueOf c "supercell_shape" = some (.list (shape.map .int))) ∧
    (∃ mapping, lit f.mapping = .ok mapping ∧ valueOf c "site_mapping" = some mapping) ∧
    valueOf c "convert_to_primitive_cell" = some (.bool (f.primitive == "yes")) ∧
    valueOf c "mobile_ion_specie" = some (.str "Li") ∧
    valueOf c "initial_occupations" = some .none ∧ valueOf c "model_type" = some (.str "composite_lce") ∧
    valueOf c "name" = some (.str "DefaultSimulation") := by
  unfold Form.configuration at h
  split at h
  · cases h
  rename_i shape hshape
  split at h
  · cases h
  rename_i mapping hmap
  have hv := valueOf_init h
  have hnd : (dictKeys ((f.vars shape mapping).map fun kv =>
      ((dictGet legacyNames kv.1).getD kv.1, kv.2))).Nodup := by
    show ["command", "work_dir", "fitting_results", "fitting_results_site", "model_file", "lce_site_fname",
      "structure_file", "event_file", "initial_state_file", "site_mapping", "supercell_shape",
      "convert_to_primitive_cell", "attempt_frequency", "kmc_passes", "temperature", "mobile_ion_charge",
      "elementary_hop_distance", "dimension", "random_seed", "structure_idx", "comp",
      "equilibration_passes"].Nodup
    decide
  have hg := fun k => configParams_get (f.vars shape mapping) [] k hnd
  have hin : ∀ (k : String) (v : PyVal), k ∈ validKeys →
      dictGet ((f.vars shape mapping).map fun kv => ((dictGet legacyNames kv.1).getD kv.1, kv.2)) k = some v →
      dictGet (configParams (f.vars shape mapping) []) k = if v.isNone then none else some v := by
    intro k v hk hval
    rw [hg k, hval]
    cases hn : v.isNone <;> simp [Option.filter, hn, hk, dictGet]
  have hout : ∀ (k : String),
      dictGet ((f.vars shape mapping).map fun kv => ((dictGet legacyNames kv.1).getD kv.1, kv.2)) k = none →
      dictGet (configParams (f.vars shape mapping) []) k = none := by
    intro k hval
    rw [hg k, hval]
    rfl
  refine ⟨?_, ⟨shape, hshape, ?_⟩, ⟨mapping, hmap, ?_⟩, ?_, ?_, ?_, ?_, ?_⟩
  · have go : ∀ (k : String) (v : PyVal), k ∈ validKeys →
        k ∈ Spec.systemFields ∨ k ∈ Spec.runtimeFields →
        dictGet ((f.vars shape mapping).map fun kv => ((dictGet legacyNames kv.1).getD kv.1, kv.2)) k = some v →
        valueOf c k = some (if v.isNone then
          (if k ∈ Spec.systemFields then systemDefault k else runtimeDefault k) else v) := by
      intro k v h1 h2 h3
      rw [hv k h2, hin k v h1 h3]
      cases v.isNone <;> rfl
    intro p hp
    simp only [List.mem_cons, List.not_mem_nil, or_false] at hp
    rcases hp with rfl | rfl | rfl | rfl | rfl | rfl | rfl | rfl | rfl | rfl | rfl | rfl <;>
      exact go _ _ (by simp only; decide) (by simp only; decide) rfl
  · rw [hv _ (by decide), hin _ _ (by decide) rfl]; rfl
  · rw [hv _ (by decide), hin "site_mapping" mapping (by decide) rfl]
    cases hn : mapping.isNone with
    | false => rfl
    | true =>
      cases mapping with
      | none => rfl
      | _ => cases hn
  · rw [hv _ (by decide), hin _ _ (by decide) rfl]; rfl
  · rw [hv _ (by decide), hout _ rfl]; rfl
  · rw [hv _ (by decide), hout _ rfl]; rfl
  · rw [hv _ (by decide), hout _ rfl]; rfl
  · rw [hv _ (by decide), hout _ rfl]; rfl

theorem allowed_of_mapping {σ : Type} {eqv : σ → σ → Bool} {mapping : List (σ × List σ)} :
    ∀ {template : List σ} {allowed : List (List σ)}, allowedSpeciesBySite eqv mapping template = .ok allowed →
      ∀ a ∈ allowed, ∃ kv ∈ mapping, a = kv.2 := by
  intro template
  induction template with
  | nil => intro allowed h a ha; cases h; cases ha
  | cons s rest ih =>
    intro allowed h a ha
    unfold allowedSpeciesBySite at h
    split at h
    · cases h
    · rename_i b l hb
      split at h
      · cases h
      · rename_i as has
        cases h
        rcases List.mem_cons.1 ha with rfl | ha
        · have : a ∈ (mapping.filter fun kv => eqv s kv.1).map Prod.snd := by rw [hb]; simp
          obtain ⟨kv, hkv, rfl⟩ := List.mem_map.1 this
          exact ⟨kv, (List.mem_filter.1 hkv).1, rfl⟩
        · exact ih has a ha

/-- C88, disagreement.  With a site mapping in which no species is labelled as the mobile one, a simulation is
still made, but in it no event can ever happen. -/
theorem C88_absent_mobile_species {φ M R T U K V Row : Type} [DecidableEq φ] [Zero T] [LE T] [DecidableLE T]
    {k : Kernel R T U} {w : World φ M R T K V} {c : Configuration} {x : Simulation φ M R T V Row}
    (h : fromConfig k w c = .ok x) {mapping : List (String × List String)}
    (hmap : x.setup.siteMapping = some mapping)
    (hab : ∀ kv ∈ mapping, ∀ s ∈ kv.2, w.label s ≠ x.setup.mobile)
    {occ : List Int} (hocc : ∀ v ∈ occ, 0 ≤ v) {e : Event} (he : e ∈ x.sim.lib.events) {d : Int}
    (hd : eventDirection occ e = .ok d) : d = 0 := by
  obtain ⟨-, hc⟩ := fromConfig_ok h
  obtain ⟨-, template, -, lib, st, ⟨mapping', hmap', -, ho⟩, -, -, -, -, -, hk, -, hsim, -⟩ := construct_ok hc
  rw [hmap] at hmap'
  cases hmap'
  obtain ⟨-, -, -, -, -, i6, -⟩ := init_ok hsim
  obtain ⟨e0, -, he0⟩ := annotateEvents_mem (i6 _ rfl) e he
  obtain ⟨f, t, mf, vt, vf, mt, hm, g1, g2, g3, g4, rfl⟩ := annotateEvent_ok he0
  have hall : ∀ m ∈ x.lookup.mobileStateBySite, m = invalidState := by
    obtain ⟨l1, -, l3⟩ := lookup_spec hk
    intro m hm
    obtain ⟨i, hi, rfl⟩ := List.getElem_of_mem hm
    obtain ⟨a, -, ha, hma, -⟩ := l3 i (by rw [← l1]; exact hi)
    rw [List.getElem?_eq_getElem hi, Option.some.injEq] at hma
    rw [hma]
    obtain ⟨-, hal, -⟩ := fromStructureAndMapping_ok ho
    obtain ⟨kv, hkv, rfl⟩ := allowed_of_mapping hal a ha
    obtain ⟨kv', hkv', rfl⟩ := List.mem_map.1 hkv
    rcases lastMatchingState_spec (fun s => isMobileLabel s x.setup.mobile) (kv'.2.map w.label) 0
      invalidState with ⟨h1, -⟩ | ⟨j, s, -, h2, h3⟩
    · exact h1
    · exfalso
      obtain ⟨s', hs', rfl⟩ := List.mem_map.1 (List.mem_of_getElem? h2)
      exact hab kv' hkv' s' hs' ((isMobileLabel_iff _ _).1 h3)
  have hget : ∀ (l : List Int) (i v : Int), pyGet l i = .ok v → v ∈ l := by
    intro l i v hv
    obtain ⟨j, -, hj⟩ := pyGet_ok_iff.1 hv
    exact List.mem_of_getElem? hj
  have e1 := hall _ (hget _ _ _ g1)
  have e2 := hall _ (hget _ _ _ g4)
  subst e1 e2
  unfold eventDirection at hd
  simp only [hm, unpack2] at hd
  split at hd
  · cases hd
  rename_i fo hfo
  split at hd
  · cases hd
  rename_i to' hto
  have p1 := hocc _ (hget _ _ _ hfo)
  have p2 := hocc _ (hget _ _ _ hto)
  have hd' := Except.ok.inj hd
  rw [← hd']
  have hinv : invalidState = -1 := rfl
  simp only [Option.getD_some]
  unfold endpointDirectionFromCodes
  split
  · rename_i hx
    have := hx.1
    simp only at this
    omega
  · split
    · rename_i hx
      have := hx.2
      simp only at this
      omega
    · rfl

/-- C88, disagreement.  A simulation made by the form for another ion than lithium (as with the values the form
proposes: sodium) has no possible event. -/
theorem C88_form_moves_only_lithium {φ M R T U K V Row : Type} [DecidableEq φ] [Zero T] [LE T] [DecidableLE T]
    {k : Kernel R T U} {w : World φ M R T K V} {lit : String → Py PyVal} {form : Form} {c : Configuration}
    (hc : form.configuration lit = .ok c) {x : Simulation φ M R T V Row} (h : fromConfig k w c = .ok x)
    {mapping : List (String × List String)} (hmap : x.setup.siteMapping = some mapping)
    (hab : ∀ kv ∈ mapping, ∀ s ∈ kv.2, w.label s ≠ "Li")
    {occ : List Int} (hocc : ∀ v ∈ occ, 0 ≤ v) {e : Event} (he : e ∈ x.sim.lib.events) {d : Int}
    (hd : eventDirection occ e = .ok d) : d = 0 := by
  obtain ⟨-, -, -, -, hli, -⟩ := C88_form_values hc
  obtain ⟨hr, -⟩ := fromConfig_ok h
  obtain ⟨f, r, rfl, -, -, -, -, h5, -⟩ := read_ok hr
  have hm : x.setup.mobile = "Li" := by
    have hf : field f "mobile_ion_specie" = .str "Li" ∨ field f "mobile_ion_specie" = .none := by
      rcases field_of_valueOf hli with h | h
      · exact .inl h
      · exact .inr (by simp [field, h])
    rcases hf with hf | hf <;> rw [hf] at h5
    · exact (Except.ok.inj h5).symm
    · cases h5
  exact C88_absent_mobile_species h hmap (by rw [hm]; exact hab) hocc he hd

namespace Ring

/-- The form filled in for the ring of sodium sites. -/
def sodium : Form where
  workDir := .str "./"
  fittingResults := .str "fit.json"
  fittingResultsSite := .str "site.json"
  lce := .str "model.json"
  lceSite := .str "site_model.json"
  prim := .str "chain.cif"
  event := .str "events.json"
  initialState := .str "start.h5"
  mapping := "{'Na': ['Na', 'X'], 'Zr': 'Zr'}"
  shape := "3,1,1"
  primitive := "no"
  frequency := .float (.fin 5000000000000)
  passes := .int 1000
  temperature := .float (.fin 298)
  charge := .float (.fin 1)
  hop := .float (.fin (7 / 2))
  dimension := .int 3
  seed := .none
  structureIdx := .int 1
  comp := .float (.fin 1)
  equilibration := .int 10

/-- What is read from it. -/
def sodiumSetup : Setup :=
  ⟨"chain.cif", false, some exampleMapping, [3, 1, 1], "events.json", "Li", none, "start.h5", 10, 1000⟩

end Ring

open Ring in
/-- C88, disagreement.  A complete example: the form for sodium gives a simulation that meets the hypotheses of
`C88_form_moves_only_lithium`. -/
theorem C88_sodium_form (lit : String → Py PyVal)
    (hlit : lit sodium.mapping = .ok (.dict [("Na", .list [.str "Na", .str "X"]), ("Zr", .str "Zr")])) :
    ∃ (c : Configuration) (x : Simulation (Payload String) Unit ℝ EReal Unit Unit),
      sodium.configuration lit = .ok c ∧ fromConfig (realKernel Rounding.exact) world c = .ok x ∧
      x.setup.siteMapping = some exampleMapping ∧ x.sim.lib.events.length = 6 ∧
      (∀ v ∈ x.sim.st.occ, 0 ≤ v) ∧ ∀ kv ∈ exampleMapping, ∀ s ∈ kv.2, world.label s ≠ "Li" := by
  obtain ⟨c, hc, hr⟩ : ∃ c, sodium.configuration lit = .ok c ∧ read c = .ok sodiumSetup := by
    have h1 : formShape (splitCommas sodium.shape.toList) = .ok [3, 1, 1] := by decide +kernel
    simp only [Form.configuration, h1, hlit]
    exact ⟨_, rfl, rfl⟩
  have hlk : HopStateLookup.fromActiveSiteOrder order "Li" =
      .ok ⟨[-1, -1, -1, -1, -1, -1], [1, 1, 1, 1, 1, 1]⟩ := by decide +kernel
  obtain ⟨es, hann, hlen, hmob⟩ : ∃ es, HopStateLookup.annotateEvents
      ⟨[-1, -1, -1, -1, -1, -1], [1, 1, 1, 1, 1, 1]⟩ lib.events = .ok es ∧ es.length = 6 ∧
      es.map Event.mobile = lib.events.map Event.mobile := by
    rw [lib_events]
    exact ⟨_, rfl, rfl, rfl⟩
  obtain ⟨ps, hps⟩ := initialProbs_total hopModel () (⟨[0, 1, 1, 0, 1, 1, 1, 0], 5, 7⟩ : State EReal) es (by
    intro e he
    have : e.mobile ∈ es.map Event.mobile := List.mem_map_of_mem he
    rw [hmob] at this
    obtain ⟨b, hb, hbe⟩ := List.mem_map.1 this
    obtain ⟨f, t, hf, ht, hm⟩ := endpoints hb
    rw [hbe] at hm
    exact rate_exists hm (by simp; omega) (by simp; omega))
  obtain ⟨hload, hdeps, hval⟩ := generated_loads order_eq events_eq
  have hi : Sim.init (realKernel Rounding.exact) hopModel lib
      (some ⟨[-1, -1, -1, -1, -1, -1], [1, 1, 1, 1, 1, 1]⟩) (some ⟨[0, 1, 1, 0, 1, 1, 1, 0], 5, 7⟩) =
      .ok ⟨{ lib with events := es }, ⟨[0, 1, 1, 0, 1, 1, 1, 0], 5, 7⟩, (), ps,
        cumsum Rounding.exact ps⟩ := by
    have hinit : hopModel.initializeState ⟨[0, 1, 1, 0, 1, 1, 1, 0], 5, 7⟩ es = .ok () := rfl
    simp only [Sim.init, hann, hinit, hps, realKernel]
  have hx := construct_of (Row := Unit) (k := realKernel Rounding.exact) (c := c) (w := world)
    (s := sodiumSetup) (reg := {}) orderOf sites_eq rfl rfl hload hval hlk rfl hi rfl
  have hc' : (fromConfig (realKernel Rounding.exact) world c :
      Py (Simulation (Payload String) Unit ℝ EReal Unit Unit)) =
      construct (realKernel Rounding.exact) world c sodiumSetup := by
    simp only [fromConfig, hr]
  refine ⟨c, _, hc, hc'.trans hx, rfl, hlen, ?_, ?_⟩
  · show ∀ v ∈ [0, 1, 1, 0, 1, 1, 1, 0], (0 : Int) ≤ v
    decide
  · show ∀ kv ∈ exampleMapping, ∀ s ∈ kv.2, s ≠ "Li"
    decide

end KMC
