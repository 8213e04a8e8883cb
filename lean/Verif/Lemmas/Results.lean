import Verif.Spec.Results
import Verif.Lemmas.Text
import Verif.Lemmas.SamplerRun
/-
Facts about result files.
-/
namespace KMC
namespace Results
open Spec.Results
variable {O K C T : Type}

/-! ### File names -/

theorem passText_no_bar (n : Nat) : '_' ∉ (intStr n).toList := by
  show '_' ∉ (String.ofList (natDigits n)).toList
  rw [String.toList_ofList]
  intro h
  have := (natDigits_digit n '_' h).range
  revert this
  decide

/-- The part before the last bar is determined. -/
theorem before_last_bar {a b p q : List Char} (hp : '_' ∉ p) (hq : '_' ∉ q)
    (h : a ++ '_' :: p = b ++ '_' :: q) : a = b ∧ p = q := by
  induction a generalizing b with
  | nil =>
    cases b with
    | nil => simpa using h
    | cons c b =>
      simp only [List.nil_append, List.cons_append, List.cons.injEq] at h
      exact absurd (h.2 ▸ (by simp : '_' ∈ b ++ '_' :: q)) hp
  | cons c a ih =>
    cases b with
    | nil =>
      simp only [List.nil_append, List.cons_append, List.cons.injEq] at h
      exact absurd (h.2 ▸ (by simp : '_' ∈ a ++ '_' :: p)) hq
    | cons d b =>
      simp only [List.cons_append, List.cons.injEq] at h
      obtain ⟨h1, h2⟩ := ih h.2
      exact ⟨by rw [h.1, h1], h2⟩

theorem prefixOf_injective {l l' : String} {p p' : Nat} (h : prefixOf l p = prefixOf l' p') :
    l = l' ∧ p = p' := by
  have key : ∀ {m : String} {q q' : Nat}, intStr q = m ++ "_" ++ intStr q' → False := by
    intro m q q' h
    have := passText_no_bar q
    rw [h] at this
    simp [String.toList_append] at this
  simp only [prefixOf] at h
  split at h <;> split at h
  · rename_i h1 h2
    exact ⟨h1.trans h2.symm, by simpa using intStr_injective h⟩
  · exact absurd h (fun h => key h)
  · exact absurd h.symm (fun h => key h)
  · have h' := congrArg String.toList h
    simp only [String.toList_append, List.append_assoc] at h'
    obtain ⟨h1, h2⟩ := before_last_bar (passText_no_bar p) (passText_no_bar p') h'
    exact ⟨String.toList_inj.1 h1, by simpa using intStr_injective (String.toList_inj.1 h2)⟩

theorem suffixOf_injective {l l' : String} (h : suffixOf l = suffixOf l') : l = l' := by
  have h' := congrArg String.toList h
  simp only [suffixOf] at h'
  split at h' <;> split at h'
  · rename_i h1 h2; exact h1.trans h2.symm
  · simp [String.toList_append] at h'
  · simp [String.toList_append] at h'
  · simp only [String.toList_append, List.append_cancel_left_eq] at h'
    exact String.toList_inj.1 h'

theorem around_injective {a c x y : String} (h : a ++ x ++ c = a ++ y ++ c) : x = y := by
  have h' := congrArg String.toList h
  simp only [String.toList_append, List.append_assoc, List.append_cancel_left_eq,
    List.append_cancel_right_eq] at h'
  exact String.toList_inj.1 h'

theorem names_eq (label : String) (pass : Nat) : fileNames label pass =
    [displacementName label pass, hopCounterName label pass, occupationsName label pass,
     resultsName label, unitsName label, propertiesName label] := by
  simp only [fileNames, displacementName, hopCounterName, occupationsName, resultsName, unitsName,
    propertiesName, prefixOf, suffixOf]
  split
  · simp
  · simp only [String.append_assoc, List.cons.injEq, and_true, true_and]
    refine ⟨?_, ?_, ?_⟩ <;> simp [← String.append_assoc]

/-- The first character of a name. -/
theorem head_ne {a b x y : String} (h : a.toList.head? ≠ b.toList.head?) (ha : a.toList ≠ [])
    (hb : b.toList ≠ []) : a ++ x ≠ b ++ y := by
  intro e
  have e' := congrArg (fun s => s.toList.head?) e
  simp only [String.toList_append] at e'
  rcases List.exists_cons_of_ne_nil ha with ⟨c, l, hc⟩
  rcases List.exists_cons_of_ne_nil hb with ⟨d, m, hd⟩
  rw [hc, hd] at e' h
  exact h (by simpa using e')

/-- The endings of a name. -/
theorem ending_ne {x y : String} : x ++ ".csv.gz" ≠ y ++ ".json.gz" := by
  intro e
  have e' := congrArg (fun s => s.toList.reverse) e
  simp [String.toList_append] at e'

/-! ### Files -/

theorem writeAll_get (fs : Files K C T) (ws : Files K C T) (hn : (dictKeys ws).Nodup) (n : String) :
    dictGet (writeAll fs ws) n = match dictGet ws n with
      | some c => some c
      | none => dictGet fs n := by
  induction ws generalizing fs with
  | nil => rfl
  | cons w ws ih =>
    obtain ⟨k, c⟩ := w
    simp only [dictKeys, List.map_cons, List.nodup_cons] at hn
    rw [writeAll, ih _ hn.2, dictGet]
    by_cases hk : k = n
    · subst hk
      have : dictGet ws k = none := (dictGet_eq_none_iff ws k).2 hn.1
      rw [this, if_pos rfl]
      simp
    · rw [if_neg hk, dictGet_dictSet_ne _ _ (Ne.symm hk)]

/-! ### The summary table -/

theorem storeOf_eq (rows : List (C × Metrics C)) : storeOf rows =
    [("time", rows.map fun r => r.1), ("jump_diffusivity", rows.map fun r => r.2.jump),
     ("tracer_diffusivity", rows.map fun r => r.2.tracer),
     ("conductivity", rows.map fun r => r.2.conductivity),
     ("correlation_factor", rows.map fun r => r.2.correlation),
     ("havens_ratio", rows.map fun r => r.2.havens), ("msd", rows.map fun r => r.2.msd)] := by
  induction rows using List.reverseRecOn with
  | nil => rfl
  | append_singleton rows r ih =>
    rw [storeOf, List.foldl_append, ← storeOf, ih]
    simp only [List.foldl_cons, List.foldl_nil, List.map_append, List.map_cons, List.map_nil]
    rfl

theorem dataFrame_storeOf (rows : List (C × Metrics C)) :
    dataFrame (storeOf rows) = .ok (resultFields, rows.map tableLine) := by
  rw [storeOf_eq]
  simp only [dataFrame, List.all_cons, List.length_map, beq_self_eq_true, List.all_nil, Bool.and_self,
    if_true, dictKeys, List.map_cons, List.map_nil, Except.ok.injEq, Prod.mk.injEq]
  refine ⟨rfl, ?_⟩
  apply List.ext_getElem
  · simp
  · intro i h1 h2
    simp only [List.length_map] at h2
    simp [line, h2, tableLine]

/-! ### Values -/

mutual
theorem safe_ofPy (z : Sanitizer O) : ∀ v : PyVal, WellKeyed v → toJsonSafe z (ofPy v) = v.json
  | .none, _ => by simp [ofPy, toJsonSafe, PyVal.json]
  | .bool _, _ => by simp [ofPy, toJsonSafe, PyVal.json]
  | .int _, _ => by simp [ofPy, toJsonSafe, PyVal.json]
  | .float _, _ => by simp [ofPy, toJsonSafe, PyVal.json]
  | .str _, _ => by simp [ofPy, toJsonSafe, PyVal.json]
  | .list l, h => by
    simp only [ofPy, toJsonSafe, PyVal.json]
    rw [safe_ofPyList z l (by simpa only [WellKeyed] using h)]
  | .tuple l, h => by
    simp only [ofPy, toJsonSafe, PyVal.json]
    rw [safe_ofPyList z l (by simpa only [WellKeyed] using h)]
  | .dict d, h => by
    simp only [WellKeyed] at h
    simp only [ofPy, toJsonSafe, PyVal.json]
    rw [safe_ofPyDict z d [] h.2 (by simpa using h.1)]
    simp
theorem safe_ofPyList (z : Sanitizer O) : ∀ l : List PyVal, WellKeyedList l →
    safeList z (ofPyList l) = PyVal.jsonList l
  | [], _ => by simp [ofPyList, safeList, PyVal.jsonList]
  | v :: vs, h => by
    simp only [WellKeyedList] at h
    simp only [ofPyList, safeList, PyVal.jsonList]
    rw [safe_ofPy z v h.1, safe_ofPyList z vs h.2]
theorem safe_ofPyDict (z : Sanitizer O) : ∀ (d : List (String × PyVal)) (acc : List (String × PyVal)),
    WellKeyedDict d → (dictKeys (acc ++ d)).Nodup →
    safeDict z (ofPyDict d) acc = acc ++ PyVal.jsonDict d
  | [], acc, _, _ => by simp [ofPyDict, safeDict, PyVal.jsonDict]
  | (k, v) :: d, acc, h, hn => by
    simp only [WellKeyedDict] at h
    simp only [ofPyDict, safeDict, PyVal.jsonDict, Key.text]
    have hk : k ∉ dictKeys acc := by
      simp only [dictKeys, List.map_append, List.map_cons] at hn
      exact fun hc => (List.nodup_append.1 hn).2.2 _ hc _ (by simp) rfl
    have hs : ∀ w, dictSet acc k w = acc ++ [(k, w)] := by
      intro w
      clear hn
      induction acc with
      | nil => rfl
      | cons a acc ih =>
        simp only [dictKeys, List.map_cons, List.mem_cons, not_or] at hk
        simp [dictSet, Ne.symm hk.1, ih hk.2]
    rw [hs, safe_ofPyDict z d _ h.2 (by simpa [dictKeys] using hn), safe_ofPy z v h.1]
    simp
end

/-! ### Records -/

section
variable {V Row : Type}

/-- Each stored record carries the name it is stored under. -/
def Named (recs : List (String × List (PropertyRecord T V))) : Prop :=
  ∀ n l, dictGet recs n = some l → ∀ r ∈ l, r.name = n

theorem named_append {recs : List (String × List (PropertyRecord T V))} (h : Named recs)
    {spec : PropertySpec T V} {l : List (PropertyRecord T V)} (hl : dictGet recs spec.name = some l)
    (step : Int) (time : T) (v : V) :
    Named (dictSet recs spec.name (appendRecord l spec step time v)) := by
  intro n l' hl' r hr
  rw [dictGet_dictSet] at hl'
  split at hl'
  · rename_i hn
    cases hl'
    have hm : r ∈ l ++ [⟨spec.name, step, time, v⟩] := by
      unfold appendRecord at hr
      simp only at hr
      split at hr
      · exact hr
      · split at hr
        · exact List.mem_of_mem_drop hr
        · exact hr
    rcases List.mem_append.1 hm with hm | hm
    · rw [h _ _ hl r hm, hn]
    · rw [List.mem_singleton] at hm
      rw [hm, hn]
  · exact h n l' hl' r hr

variable [Sub T] [LE T] [DecidableLE T]

theorem sampleOne_named {st : State T} {step : Int} {time : T} {spec : PropertySpec T V}
    {s s' : Sampler T V Row} {r : Py Unit} (h : Sampler.sampleOne st step time spec s = (r, s'))
    (hn : Named s.records) : Named s'.records ∧ dictKeys s'.records = dictKeys s.records := by
  unfold Sampler.sampleOne at h
  split at h
  · split at h
    · split at h
      · cases h; exact ⟨hn, rfl⟩
      · cases h; exact ⟨hn, rfl⟩
    · split at h
      · split at h
        · cases h; exact ⟨hn, rfl⟩
        · cases h
          rename_i hg
          refine ⟨named_append hn hg step time _, ?_⟩
          exact dictKeys_dictSet_of_mem _ _
            ((dictGet_isSome_iff _ _).1 ⟨_, hg⟩)
      · cases h; exact ⟨hn, rfl⟩
  · cases h; exact ⟨hn, rfl⟩

theorem sampleLoop_named {st : State T} {step : Int} {time : T} {specs : List (PropertySpec T V)}
    {s s' : Sampler T V Row} {r : Py Unit} (h : Sampler.sampleLoop st step time specs s = (r, s'))
    (hn : Named s.records) : Named s'.records ∧ dictKeys s'.records = dictKeys s.records := by
  induction specs generalizing s with
  | nil => cases h; exact ⟨hn, rfl⟩
  | cons spec rest ih =>
    unfold Sampler.sampleLoop at h
    rcases h1 : Sampler.sampleOne st step time spec s with ⟨r1, s1⟩
    rw [h1] at h
    obtain ⟨a, b⟩ := sampleOne_named h1 hn
    cases r1 with
    | error e => cases h; exact ⟨a, b⟩
    | ok u =>
      obtain ⟨c, d⟩ := ih h a
      exact ⟨c, d.trans b⟩

theorem sampled_named {s s' : Sampler T V Row} {ticks : List (Spec.Tick T)} (h : Spec.Sampled s ticks s')
    (hn : Named s.records) : Named s'.records ∧ dictKeys s'.records = dictKeys s.records := by
  induction h with
  | nil => exact ⟨hn, rfl⟩
  | @cons s s1 s2 tk ticks summary h1 _ ih =>
    have hs : (s.sampleSummary summary tk.step tk.time).records = s.records := by
      unfold Sampler.sampleSummary
      split <;> rfl
    simp only [Sampler.sampleProperties] at h1
    obtain ⟨a, b⟩ := sampleLoop_named h1 (by rw [hs]; exact hn)
    obtain ⟨c, d⟩ := ih a
    exact ⟨c, d.trans (b.trans (by rw [hs]))⟩

end

theorem storedPayload_absent (z : Sanitizer O) {recs : List (String × List (PropertyRecord T (Val O)))}
    {n : String} (h : ∀ p ∈ recs, ∀ r ∈ p.2, r.name ≠ n) :
    (storedPayload z recs).filter (fun e => e.name = n) = [] := by
  induction recs with
  | nil => rfl
  | cons p recs ih =>
    obtain ⟨k, l⟩ := p
    simp only [storedPayload, List.filter_append]
    rw [ih fun p hp => h p (List.mem_cons_of_mem _ hp), List.append_nil, List.filter_eq_nil_iff]
    intro e he
    simp only [storedRecords, List.mem_map] at he
    obtain ⟨r, hr, rfl⟩ := he
    simpa using h (k, l) (by simp) r hr

theorem storedPayload_filter (z : Sanitizer O) {recs : List (String × List (PropertyRecord T (Val O)))}
    (hk : (dictKeys recs).Nodup) (hn : Named recs) {n : String} {l : List (PropertyRecord T (Val O))}
    (hl : dictGet recs n = some l) :
    (storedPayload z recs).filter (fun e => e.name = n) = storedRecords z l := by
  induction recs with
  | nil => cases hl
  | cons p recs ih =>
    obtain ⟨k, l'⟩ := p
    simp only [dictKeys, List.map_cons, List.nodup_cons] at hk
    have hn' : Named recs := by
      intro m w hw
      have hm : k ≠ m := by
        rintro rfl
        exact hk.1 ((dictGet_isSome_iff _ _).1 ⟨_, hw⟩)
      exact hn m w (by simp [dictGet, hm, hw])
    simp only [storedPayload, List.filter_append]
    simp only [dictGet] at hl
    split at hl
    · rename_i hkn
      have hl := Option.some.inj hl
      subst hl
      subst hkn
      have h1 : (storedRecords z l').filter (fun e => e.name = k) = storedRecords z l' := by
        rw [List.filter_eq_self]
        intro e he
        simp only [storedRecords, List.mem_map] at he
        obtain ⟨r, hr, rfl⟩ := he
        simpa using hn k l' (by simp [dictGet]) r hr
      rw [h1, storedPayload_absent, List.append_nil]
      intro p hp r hr hrn
      have : dictGet recs p.1 = some p.2 := dictGet_of_mem hk.2 hp
      have := hn' _ _ this r hr
      exact hk.1 (by rw [← hrn, this]; exact List.mem_map_of_mem hp)
    · rename_i hkn
      rw [ih hk.2 hn' hl]
      have h1 : (storedRecords z l').filter (fun e => e.name = n) = [] := by
        rw [List.filter_eq_nil_iff]
        intro e he
        simp only [storedRecords, List.mem_map] at he
        obtain ⟨r, hr, rfl⟩ := he
        have := hn k l' (by simp [dictGet]) r hr
        simpa [this] using hkn
      rw [h1, List.nil_append]

end Results
end KMC
