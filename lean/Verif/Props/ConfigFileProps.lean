import Verif.Props.ConfigProps
/-
Properties of configuration dictionaries and files: round trips (C29) and section files (C63).
-/
namespace KMC
open Spec Config Configuration

/-! ### Sections as tables -/

theorem fields_table {f : Fields} (hnd : (dictKeys f).Nodup) :
    f = (dictKeys f).map fun k => (k, field f k) := by
  unfold dictKeys
  rw [List.map_map]
  conv_lhs => rw [← List.map_id f]
  apply List.map_congr_left
  rintro ⟨k, v⟩ hkv
  simp [field, dictGet_of_mem hnd hkv]

/-- Fields written to a dictionary: all, or all but the paths. -/
def written (b : Bool) : List String :=
  Spec.systemFields.filter fun k => b || decide (k ∉ Spec.pathFields)

/-- A dictionary with the two class tags and one entry per written field. -/
def flat (m₁ m₂ : PyVal) (b : Bool) (g h : String → PyVal) : Fields :=
  [("@module", m₁), ("@class", m₂)] ++ ((written b).map fun k => (k, g k)) ++
    (Spec.runtimeFields.map fun k => (k, h k))

theorem systemDefaults_table :
    systemDefaults = Spec.systemFields.map fun k => (k, systemDefault k) := rfl

theorem runtimeDefaults_table :
    runtimeDefaults = Spec.runtimeFields.map fun k => (k, runtimeDefault k) := rfl

theorem asDict_flat (b : Bool) (g h : String → PyVal) (l : List PyVal)
    (hl : (g "supercell_shape").toList = .ok l) :
    asDict ⟨.cfg (Spec.systemFields.map fun k => (k, g k)),
      .cfg (Spec.runtimeFields.map fun k => (k, h k))⟩ b =
    .ok (flat (.str "kmcpy.simulator.config") (.str "Configuration") b
      (fun k => if k = "supercell_shape" then .list l else g k) h) := by
  have hf : field (Spec.systemFields.map fun k => (k, g k)) "supercell_shape" =
      g "supercell_shape" := by
    unfold field
    rw [dictGet_table, if_pos (by decide)]
    rfl
  have hr : runtimeAsDict (Spec.runtimeFields.map fun k => (k, h k)) =
      Spec.runtimeFields.map fun k => (k, h k) := by
    unfold runtimeAsDict
    show Spec.runtimeFields.map _ = _
    apply List.map_congr_left
    intro k hk
    unfold field
    rw [dictGet_table, if_pos hk]
    rfl
  have hs : systemAsDict (Spec.systemFields.map fun k => (k, g k)) b =
      .ok ((written b).map fun k => (k, if k = "supercell_shape" then .list l else g k)) := by
    unfold systemAsDict
    rw [hf, hl]
    simp only
    rw [dictSet_table (by decide) g (by decide)]
    cases b with
    | true => rfl
    | false =>
      simp only [loaderNames, List.foldl_cons, List.foldl_nil, dictDel_table, Bool.false_eq_true,
        if_false]
      rfl
  unfold asDict
  simp only
  rw [hs, hr]
  simp only
  rw [dictUpdate_append, dictUpdate_append]
  · rfl
  · rw [dictKeys_table]
    cases b <;> decide
  · rw [dictKeys_table]
    cases b <;> decide
  · rw [dictUpdate_append]
    · unfold dictKeys
      rw [List.map_append]
      have e1 := dictKeys_table (written b)
        (fun k => if k = "supercell_shape" then .list l else g k)
      have e2 := dictKeys_table Spec.runtimeFields h
      unfold dictKeys at e1 e2
      rw [e1, e2]
      cases b <;> decide
    · rw [dictKeys_table]
      cases b <;> decide
    · rw [dictKeys_table]
      cases b <;> decide
  · rw [dictKeys_table]
    decide

theorem fromDict_flat (m₁ m₂ : PyVal) (b : Bool) (g h : String → PyVal)
    (hs : validateSystem (Spec.systemFields.map fun k =>
      (k, if b = false ∧ k ∈ Spec.pathFields then systemDefault k else g k)) = .ok ())
    (hr : validateRuntime (Spec.runtimeFields.map fun k => (k, h k)) = .ok ()) :
    fromDict (flat m₁ m₂ b g h) =
      .ok ⟨.cfg (Spec.systemFields.map fun k =>
        (k, if b = false ∧ k ∈ Spec.pathFields then systemDefault k else g k)),
        .cfg (Spec.runtimeFields.map fun k => (k, h k))⟩ := by
  have hkept : (flat m₁ m₂ b g h).filter (fun kv => !(kv.1.toList.head? == some '@')) =
      ((written b).map fun k => (k, g k)) ++ (Spec.runtimeFields.map fun k => (k, h k)) := by
    unfold flat
    rw [List.append_assoc, List.filter_append, List.filter_append,
      filter_table _ _ (fun k => !(k.toList.head? == some '@')),
      filter_table _ _ (fun k => !(k.toList.head? == some '@'))]
    have e1 : (written b).filter (fun k => !(k.toList.head? == some '@')) = written b := by
      cases b <;> decide
    have e2 : Spec.runtimeFields.filter (fun k => !(k.toList.head? == some '@')) =
        Spec.runtimeFields := by decide
    have a1 : ("@module".toList.head? == some '@') = true := by decide
    have a2 : ("@class".toList.head? == some '@') = true := by decide
    rw [e1, e2, List.filter_cons, List.filter_cons, a1, a2]
    rfl
  have hany : ∀ q : String → Bool, (∀ k ∈ written b ++ Spec.runtimeFields, q k = false) →
      (((written b).map fun k => (k, g k)) ++ (Spec.runtimeFields.map fun k => (k, h k))).any
        (fun kv => q kv.1) = false := by
    intro q hq
    rw [List.any_eq_false]
    intro kv hkv
    rw [List.mem_append, List.mem_map, List.mem_map] at hkv
    rcases hkv with ⟨k, hk, rfl⟩ | ⟨k, hk, rfl⟩
    · simp [hq k (List.mem_append_left _ hk)]
    · simp [hq k (List.mem_append_right _ hk)]
  have hget : ∀ k, k ∉ written b → k ∉ Spec.runtimeFields →
      sectionArg (((written b).map fun k => (k, g k)) ++
        (Spec.runtimeFields.map fun k => (k, h k))) k = none := by
    intro k h1 h2
    unfold sectionArg
    have : dictGet (((written b).map fun k => (k, g k)) ++
        (Spec.runtimeFields.map fun k => (k, h k))) k = none := by
      rw [dictGet_eq_none_iff]
      unfold dictKeys
      rw [List.map_append, List.mem_append]
      have e1 := dictKeys_table (written b) g
      have e2 := dictKeys_table Spec.runtimeFields h
      unfold dictKeys at e1 e2
      rw [e1, e2]
      tauto
    rw [this]
  have hfil : ∀ q : String → Bool,
      (((written b).map fun k => (k, g k)) ++ (Spec.runtimeFields.map fun k => (k, h k))).filter
        (fun kv => q kv.1) =
      (((written b).filter q).map fun k => (k, g k)) ++
        ((Spec.runtimeFields.filter q).map fun k => (k, h k)) := by
    intro q
    rw [List.filter_append, filter_table, filter_table]
  unfold fromDict
  simp only
  rw [hkept, hany (fun k => decide (k = "self")) (by cases b <;> decide),
    hget "system_config" (by cases b <;> decide) (by decide),
    hget "runtime_config" (by cases b <;> decide) (by decide),
    hfil (fun k => decide (k ≠ "system_config") && decide (k ≠ "runtime_config"))]
  have e1 : (written b).filter
      (fun k => decide (k ≠ "system_config") && decide (k ≠ "runtime_config")) = written b := by
    cases b <;> decide
  have e2 : Spec.runtimeFields.filter
      (fun k => decide (k ≠ "system_config") && decide (k ≠ "runtime_config")) =
        Spec.runtimeFields := by decide
  rw [e1, e2]
  simp only [Bool.false_eq_true, if_false]
  unfold init
  rw [if_neg (by cases b <;> simp [Spec.runtimeFields])]
  simp only
  rw [hfil (fun k => decide (k ∈ systemNames)),
    hfil (fun k => decide (k ∉ systemNames) && decide (k ∈ runtimeNames)),
    hfil (fun k => decide (k ∉ systemNames) && decide (k ∉ runtimeNames))]
  have f1 : (written b).filter (fun k => decide (k ∈ systemNames)) = written b := by
    cases b <;> decide
  have f2 : Spec.runtimeFields.filter (fun k => decide (k ∈ systemNames)) = [] := by decide
  have f3 : (written b).filter (fun k => decide (k ∉ systemNames) && decide (k ∈ runtimeNames)) =
      [] := by cases b <;> decide
  have f4 : Spec.runtimeFields.filter
      (fun k => decide (k ∉ systemNames) && decide (k ∈ runtimeNames)) = Spec.runtimeFields := by
    decide
  have f5 : (written b).filter (fun k => decide (k ∉ systemNames) && decide (k ∉ runtimeNames)) =
      [] := by cases b <;> decide
  have f6 : Spec.runtimeFields.filter
      (fun k => decide (k ∉ systemNames) && decide (k ∉ runtimeNames)) = [] := by decide
  rw [f1, f2, f3, f4, f5, f6]
  simp only [List.map_nil, List.append_nil, List.nil_append, List.length_nil, ne_eq,
    not_true_eq_false, if_false]
  have g1 : systemDefaults.map (fun kv => (kv.1,
      (dictGet ((written b).map fun k => (k, g k)) kv.1).getD kv.2)) =
      Spec.systemFields.map fun k =>
        (k, if b = false ∧ k ∈ Spec.pathFields then systemDefault k else g k) := by
    rw [systemDefaults_table, List.map_map]
    apply List.map_congr_left
    intro k hk
    simp only [Function.comp_apply, dictGet_table, written, List.mem_filter, hk, true_and]
    cases b <;> by_cases hp : k ∈ Spec.pathFields <;> simp [hp]
  have g2 : runtimeDefaults.map (fun kv => (kv.1,
      (dictGet (Spec.runtimeFields.map fun k => (k, h k)) kv.1).getD kv.2)) =
      Spec.runtimeFields.map fun k => (k, h k) := by
    rw [runtimeDefaults_table, List.map_map]
    apply List.map_congr_left
    intro k hk
    simp only [Function.comp_apply, dictGet_table, hk, if_true, Option.getD_some]
  unfold section'
  simp only
  rw [build_isOk _ (by rw [g1]; exact hs), g1]
  · simp only
    rw [build_isOk _ (by rw [g2]; exact hr), g2]
    intro kv hkv
    rw [List.mem_map] at hkv
    obtain ⟨k, hk, rfl⟩ := hkv
    exact hk
  · intro kv hkv
    rw [List.mem_map] at hkv
    obtain ⟨k, hk, rfl⟩ := hkv
    exact List.mem_of_mem_filter hk

/-! ### Validity of the reread values -/

theorem field_table {ks : List String} {g : String → PyVal} {k : String} (hk : k ∈ ks) :
    field (ks.map fun k => (k, g k)) k = g k := by
  unfold field
  rw [dictGet_table, if_pos hk]
  rfl

theorem json_positive {v : PyVal} (h : Positive v ∨ IsNaN v) :
    Positive v.json ∨ IsNaN v.json := by
  rcases h with h | h
  · left
    cases h with
    | ofTrue => exact .ofTrue
    | ofInt h => exact .ofInt h
    | ofFloat h => exact .ofFloat h
    | ofInf => exact .ofInf
  · right
    rw [h]
    rfl

theorem json_nonNegative {v : PyVal} (h : NonNegative v ∨ IsNaN v) :
    NonNegative v.json ∨ IsNaN v.json := by
  rcases h with h | h
  · left
    cases h with
    | ofBool => exact .ofBool
    | ofInt h => exact .ofInt h
    | ofFloat h => exact .ofFloat h
    | ofInf => exact .ofInf
  · right
    rw [h]
    rfl

theorem json_positiveInt {v : PyVal} (h : PositiveInt v) : PositiveInt v.json := by
  cases h with
  | ofTrue => exact .ofTrue
  | ofInt h => exact .ofInt h

theorem json_dimension {v : PyVal} (h : IsDimension v) : IsDimension v.json := by
  cases h with
  | ofTrue => exact .ofTrue
  | ofInt h => exact .ofInt h
  | ofFloat h => exact .ofFloat h

theorem jsonDict_eq (d : List (String × PyVal)) :
    PyVal.jsonDict d = d.map fun kv => (kv.1, kv.2.json) := by
  induction d with
  | nil => rfl
  | cons kv d ih =>
    obtain ⟨k, v⟩ := kv
    simp [PyVal.jsonDict, ih]

theorem jsonList_eq (l : List PyVal) : PyVal.jsonList l = l.map PyVal.json := by
  induction l with
  | nil => rfl
  | cons v l ih => simp [PyVal.jsonList, ih]

theorem dictGet_jsonDict (d : List (String × PyVal)) (k : String) :
    dictGet (PyVal.jsonDict d) k = (dictGet d k).map PyVal.json := by
  rw [jsonDict_eq]
  exact dictGet_mapVal (fun _ v => v.json) d k

theorem json_optional {P : PyVal → Prop} (hP : ∀ v, P v → P v.json) {o : Option PyVal}
    (h : Optional P o) : Optional P (o.map PyVal.json) := by
  rcases h with rfl | rfl | ⟨w, rfl, hw⟩
  · exact Or.inl rfl
  · exact Or.inr (Or.inl rfl)
  · exact Or.inr (Or.inr ⟨w.json, rfl, hP w hw⟩)

theorem json_callback {v : PyVal} (h : CallbackEntry v) : CallbackEntry v.json := by
  obtain ⟨d, rfl, h1, ⟨s, h2, h2'⟩, h3, h4, h5, h6, h7⟩ := h
  refine ⟨PyVal.jsonDict d, rfl, ?_, ⟨s, ?_, h2'⟩, ?_, ?_, ?_, ?_, ?_⟩
  · intro kv hkv
    rw [jsonDict_eq, List.mem_map] at hkv
    obtain ⟨kv', hkv', rfl⟩ := hkv
    exact h1 kv' hkv'
  · rw [dictGet_jsonDict, h2]
    rfl
  · rw [dictGet_jsonDict]
    exact json_optional (fun v hv => json_positiveInt hv) h3
  · rw [dictGet_jsonDict]
    exact json_optional (P := fun w => Positive w ∨ IsNaN w) (fun v hv => json_positive hv) h4
  · rw [dictGet_jsonDict]
    exact json_optional (fun v hv => json_positiveInt hv) h5
  · intro w hw
    rw [dictGet_jsonDict] at hw
    cases hd : dictGet d "store" with
    | none => rw [hd] at hw; cases hw
    | some u =>
      rw [hd] at hw
      cases hw
      obtain ⟨b, rfl⟩ := h6 u hd
      exact ⟨b, rfl⟩
  · intro w hw
    rw [dictGet_jsonDict] at hw
    cases hd : dictGet d "enabled" with
    | none => rw [hd] at hw; cases hw
    | some u =>
      rw [hd] at hw
      cases hw
      obtain ⟨b, rfl⟩ := h7 u hd
      exact ⟨b, rfl⟩

/-- A rereading of values that keeps them acceptable: nothing, or a passage through JSON. -/
inductive Reread : (PyVal → PyVal) → Prop
  | same : Reread (fun v => v)
  | json : Reread PyVal.json

theorem reread_runtime {t : PyVal → PyVal} (ht : Reread t) {h : String → PyVal}
    (hv : validateRuntime (Spec.runtimeFields.map fun k => (k, h k)) = .ok ()) :
    validateRuntime (Spec.runtimeFields.map fun k => (k, t (h k))) = .ok () := by
  cases ht with
  | same => exact hv
  | json =>
    rw [validateRuntime_iff] at hv ⊢
    rw [field_table (by decide), field_table (by decide), field_table (by decide),
      field_table (by decide), field_table (by decide), field_table (by decide),
      field_table (by decide), field_table (by decide)] at hv ⊢
    obtain ⟨a1, a2, a3, a4, a5, a6, ⟨d, a7, a7'⟩, l, a8, a8'⟩ := hv
    refine ⟨json_positive a1, json_positive a2, json_nonNegative a3, json_positive a4, ?_, ?_,
      ⟨PyVal.jsonDict d, by rw [a7]; rfl, ?_⟩, PyVal.jsonList l, by rw [a8]; rfl, ?_⟩
    · rcases a5 with a5 | a5
      · left; rw [a5]; rfl
      · right; exact json_positiveInt a5
    · rcases a6 with a6 | a6
      · left; rw [a6]; rfl
      · right; exact json_positive a6
    · intro kv hkv
      rw [jsonDict_eq, List.mem_map] at hkv
      obtain ⟨kv', hkv', rfl⟩ := hkv
      obtain ⟨b1, b, b2⟩ := a7' kv' hkv'
      refine ⟨b1, b, ?_⟩
      rw [b2]
      rfl
    · intro v hv
      rw [jsonList_eq, List.mem_map] at hv
      obtain ⟨v', hv', rfl⟩ := hv
      exact json_callback (a8' v' hv')

theorem reread_shape {t : PyVal → PyVal} (ht : Reread t) {l : List PyVal} (hl : l.length = 3) :
    HasThreeEntries (t (.list l)) := by
  obtain ⟨a, b, c, rfl⟩ := list_three hl
  cases ht with
  | same => exact .ofList a b c
  | json => exact .ofList _ _ _

theorem reread_dimension {t : PyVal → PyVal} (ht : Reread t) {v : PyVal} (hv : IsDimension v) :
    IsDimension (t v) := by
  cases ht with
  | same => exact hv
  | json => exact json_dimension hv

theorem toList_iff (v : PyVal) (l : List PyVal) : v.toList = .ok l ↔ EntriesOf v l := by
  constructor
  · intro h
    cases v <;> simp only [PyVal.toList, reduceCtorEq, Except.ok.injEq] at h <;> subst h
    · exact .ofStr _
    · exact .ofList _
    · exact .ofTuple _
    · exact .ofDict _
  · intro h
    cases h <;> rfl

theorem three_entries {v : PyVal} (h : HasThreeEntries v) : ∃ l, EntriesOf v l ∧ l.length = 3 := by
  cases h with
  | ofList a b c => exact ⟨_, .ofList _, rfl⟩
  | ofTuple a b c => exact ⟨_, .ofTuple _, rfl⟩
  | @ofStr s h => exact ⟨_, .ofStr s, by simpa using h⟩
  | ofDict a b c => exact ⟨_, .ofDict _, rfl⟩

theorem valueOf_tables (g h : String → PyVal) (k : String) :
    valueOf ⟨.cfg (Spec.systemFields.map fun k => (k, g k)),
      .cfg (Spec.runtimeFields.map fun k => (k, h k))⟩ k =
    if k ∈ Spec.systemFields then some (g k)
    else if k ∈ Spec.runtimeFields then some (h k) else none := by
  unfold valueOf
  simp only [dictGet_table]
  by_cases hk : k ∈ Spec.systemFields <;> simp [hk]

/-- A built configuration as two tables. -/
theorem built_tables {c : Configuration} (hc : Built c) : ∃ g h : String → PyVal, ∃ l,
    c = ⟨.cfg (Spec.systemFields.map fun k => (k, g k)),
      .cfg (Spec.runtimeFields.map fun k => (k, h k))⟩ ∧
    EntriesOf (g "supercell_shape") l ∧ l.length = 3 ∧ IsDimension (g "dimension") ∧
    validateRuntime (Spec.runtimeFields.map fun k => (k, h k)) = .ok () := by
  obtain ⟨s, r, rfl, hs, hr⟩ := C28_built_valid_partial hc
  have es := fields_table (f := s) (by rw [hs.keys]; decide)
  have er := fields_table (f := r) (by rw [hr.keys]; decide)
  rw [hs.keys] at es
  rw [hr.keys] at er
  obtain ⟨v, hv, hv'⟩ := hs.shape
  obtain ⟨u, hu, hu'⟩ := hs.dimension
  obtain ⟨l, h1, h2⟩ := three_entries hv'
  refine ⟨field s, field r, l, by rw [← es, ← er], by rw [field_eq hv]; exact h1, h2,
    by rw [field_eq hu]; exact hu', ?_⟩
  rw [← er]
  exact (validRuntime_iff hr.keys).2 hr

/-- Reading back a dictionary written from a built configuration, possibly through a file. -/
theorem reread_built {t : PyVal → PyVal} (ht : Reread t) (b : Bool) {c : Configuration}
    (hc : Built c) : ∃ d c', c.asDict b = .ok d ∧
      fromDict (d.map fun kv => (kv.1, t kv.2)) = .ok c' ∧
      (∀ k, k ≠ "supercell_shape" → ¬ (b = false ∧ k ∈ Spec.pathFields) →
        valueOf c' k = (valueOf c k).map t) ∧
      (b = false → ∀ k ∈ Spec.pathFields, valueOf c' k = some (systemDefault k)) ∧
      (∃ v l, valueOf c "supercell_shape" = some v ∧ EntriesOf v l ∧
        valueOf c' "supercell_shape" = some (t (.list l))) ∧
      (∃ s r, c' = ⟨.cfg s, .cfg r⟩ ∧ dictKeys s = Spec.systemFields ∧
        dictKeys r = Spec.runtimeFields) := by
  obtain ⟨g, h, l, rfl, hl, hlen, hdim, hrun⟩ := built_tables hc
  refine ⟨_, ⟨.cfg (Spec.systemFields.map fun k =>
        (k, if b = false ∧ k ∈ Spec.pathFields then systemDefault k
          else t (if k = "supercell_shape" then .list l else g k))),
        .cfg (Spec.runtimeFields.map fun k => (k, t (h k)))⟩,
    asDict_flat b g h l ((toList_iff _ _).2 hl), ?_, ?_, ?_, ?_, ?_⟩
  · have e : (flat (.str "kmcpy.simulator.config") (.str "Configuration") b
        (fun k => if k = "supercell_shape" then .list l else g k) h).map
          (fun kv => (kv.1, t kv.2)) =
        flat (t (.str "kmcpy.simulator.config")) (t (.str "Configuration")) b
          (fun k => t (if k = "supercell_shape" then .list l else g k)) (fun k => t (h k)) := by
      simp [flat, List.map_map, Function.comp_def]
    rw [e]
    refine fromDict_flat _ _ b _ _ ?_ (reread_runtime ht hrun)
    rw [validateSystem_iff, field_table (by decide), field_table (by decide)]
    rw [if_neg (by rintro ⟨-, hh⟩; revert hh; decide), if_neg (by decide),
      if_neg (by rintro ⟨-, hh⟩; revert hh; decide), if_pos rfl]
    exact ⟨reread_dimension ht hdim, reread_shape ht hlen⟩
  · intro k h1 h2
    rw [valueOf_tables, valueOf_tables g h, if_neg h2, if_neg h1]
    by_cases hk : k ∈ Spec.systemFields
    · simp [hk]
    · by_cases hk' : k ∈ Spec.runtimeFields <;> simp [hk, hk']
  · intro hb k hk
    have hks : k ∈ Spec.systemFields := by
      simp only [Spec.pathFields, List.mem_cons, List.not_mem_nil, or_false] at hk
      rcases hk with rfl | rfl | rfl | rfl <;> decide
    rw [valueOf_tables _ (fun k => t (h k)), if_pos hks, if_pos ⟨hb, hk⟩]
  · refine ⟨g "supercell_shape", l, ?_, hl, ?_⟩
    · rw [valueOf_tables, if_pos (by decide)]
    · rw [valueOf_tables _ (fun k => t (h k)), if_pos (by decide),
        if_neg (by rintro ⟨-, hh⟩; revert hh; decide), if_pos rfl]
  · exact ⟨_, _, rfl, dictKeys_table _ _, dictKeys_table _ _⟩

/-! ### C29: round trips -/

/-- C29.  The dictionary written from a built configuration is accepted and gives every field
back; the supercell shape comes back as a list of the same three entries.  The form without
paths (the default) resets the path fields to their defaults. -/
theorem C29_dict_round_trip (b : Bool) {c : Configuration} (hc : Built c) :
    ∃ d c', c.asDict b = .ok d ∧ fromDict d = .ok c' ∧
      (∀ k, k ≠ "supercell_shape" → (b = true ∨ k ∉ Spec.pathFields) →
        valueOf c' k = valueOf c k) ∧
      (b = false → ∀ k ∈ Spec.pathFields, valueOf c' k = some (systemDefault k)) ∧
      (∃ v l, valueOf c "supercell_shape" = some v ∧ EntriesOf v l ∧
        valueOf c' "supercell_shape" = some (.list l)) := by
  obtain ⟨d, c', h1, h2, h3, h4, h5, -⟩ := reread_built .same b hc
  refine ⟨d, c', h1, by simpa using h2, ?_, h4, h5⟩
  intro k hk hb
  have := h3 k hk (by
    rintro ⟨e1, e2⟩
    rcases hb with hb | hb
    · rw [hb] at e1; cases e1
    · exact hb e2)
  simpa using this

example : ∃ c, Built c ∧ valueOf c "temperature" = some (.int 400) :=
  ⟨_, .new (kwargs := [("temperature", .int 400)]) rfl, rfl⟩

/-- Two configurations with the fields of the two sections and equal values are equal. -/
theorem configuration_ext {s r s' r' : Fields} (hs : dictKeys s = Spec.systemFields)
    (hr : dictKeys r = Spec.runtimeFields) (hs' : dictKeys s' = Spec.systemFields)
    (hr' : dictKeys r' = Spec.runtimeFields)
    (h : ∀ k, valueOf ⟨.cfg s', .cfg r'⟩ k = valueOf ⟨.cfg s, .cfg r⟩ k) :
    (⟨.cfg s', .cfg r'⟩ : Configuration) = ⟨.cfg s, .cfg r⟩ := by
  have es := fields_table (f := s) (by rw [hs]; decide)
  have er := fields_table (f := r) (by rw [hr]; decide)
  have es' := fields_table (f := s') (by rw [hs']; decide)
  have er' := fields_table (f := r') (by rw [hr']; decide)
  rw [hs] at es
  rw [hr] at er
  rw [hs'] at es'
  rw [hr'] at er'
  have e1 : s' = s := by
    rw [es, es']
    apply List.map_congr_left
    intro k hk
    have := h k
    rw [es, er, es', er', valueOf_tables, valueOf_tables, if_pos hk, if_pos hk] at this
    rw [Option.some.inj this]
  have e2 : r' = r := by
    rw [er, er']
    apply List.map_congr_left
    intro k hk
    have hks : k ∉ Spec.systemFields := fun hh => fields_disjoint hh hk
    have := h k
    rw [es, er, es', er', valueOf_tables, valueOf_tables, if_neg hks, if_neg hks, if_pos hk,
      if_pos hk] at this
    rw [Option.some.inj this]
  rw [e1, e2]

/-- C29.  With the paths included and the shape given as a list, the round trip is exact. -/
theorem C29_exact_for_list_shape {c : Configuration} (hc : Built c) {l : List PyVal}
    (hl : valueOf c "supercell_shape" = some (.list l)) :
    ∃ d, c.asDict true = .ok d ∧ fromDict d = .ok c := by
  obtain ⟨d, c', h1, h2, h3, -, ⟨v, l', hv, he, h5⟩, s', r', rfl, hs', hr'⟩ :=
    reread_built .same true hc
  refine ⟨d, h1, ?_⟩
  have h2' : fromDict d = .ok ⟨.cfg s', .cfg r'⟩ := by simpa using h2
  rw [h2']
  obtain ⟨s, r, rfl, hs, hr⟩ := C28_built_valid_partial hc
  congr 1
  refine configuration_ext hs.keys hr.keys hs' hr' ?_
  intro k
  by_cases hk : k = "supercell_shape"
  · subst hk
    rw [hl] at hv
    cases hv
    cases he
    rw [h5, hl]
  · have := h3 k hk (by rintro ⟨e, -⟩; cases e)
    rw [this]
    simp

example : ∃ c l, Built c ∧ valueOf c "supercell_shape" = some (.list l) :=
  ⟨_, _, .new (kwargs := [("supercell_shape", .list [.int 2, .int 1, .int 1])]) rfl, rfl⟩

/-- C29.  A reread configuration is itself built, so its own round trips are exact. -/
theorem C29_reread_is_stable {c c' : Configuration} (hc : Built c) {d : Fields}
    (h : c.asDict true = .ok d) (h' : fromDict d = .ok c') :
    c'.asDict true = .ok d := by
  obtain ⟨g, hh, l, rfl, hl, hlen, hdim, hrun⟩ := built_tables hc
  rw [asDict_flat true g hh l ((toList_iff _ _).2 hl)] at h
  cases h
  rw [fromDict_flat] at h'
  · cases h'
    simp only [Bool.true_eq_false, false_and, if_false]
    rw [asDict_flat true _ hh l (by simp [PyVal.toList])]
    congr 2
    funext k
    by_cases hk : k = "supercell_shape" <;> simp [hk]
  · rw [validateSystem_iff, field_table (by decide), field_table (by decide)]
    simp only [Bool.true_eq_false, false_and, if_false, if_true]
    exact ⟨by simpa using hdim, reread_shape .same hlen⟩
  · exact hrun

/-- C29 does not hold literally: the default shape is a tuple and comes back as a list. -/
theorem C29_default_shape_changes : ∃ c d c', Built c ∧ c.asDict true = .ok d ∧
    fromDict d = .ok c' ∧
    valueOf c "supercell_shape" = some (.tuple [.int 1, .int 1, .int 1]) ∧
    valueOf c' "supercell_shape" = some (.list [.int 1, .int 1, .int 1]) := by
  have hc : Built (⟨.cfg systemDefaults,
      .cfg (dictSet runtimeDefaults "temperature" (.int 400))⟩ : Configuration) :=
    .new (kwargs := [("temperature", .int 400)]) rfl
  obtain ⟨d, c', h1, h2, -, -, v, l, h3, h4, h5⟩ := C29_dict_round_trip true hc
  cases h3
  cases h4
  exact ⟨_, d, c', hc, h1, h2, rfl, h5⟩

/-- C29.  Writing a built configuration to a JSON file and reading it gives every field back up
to tuples becoming lists. -/
theorem C29_file_round_trip (b : Bool) {c : Configuration} (hc : Built c)
    (taskType : Option String) :
    ∃ file c', c.toFile b = .ok file ∧ fromFile file none taskType = .ok c' ∧
      (∀ k, k ≠ "supercell_shape" → (b = true ∨ k ∉ Spec.pathFields) →
        valueOf c' k = (valueOf c k).map PyVal.json) ∧
      (b = false → ∀ k ∈ Spec.pathFields, valueOf c' k = some (systemDefault k)) ∧
      (∃ v l, valueOf c "supercell_shape" = some v ∧ EntriesOf v l ∧
        valueOf c' "supercell_shape" = some (PyVal.json (.list l))) := by
  obtain ⟨d, c', h1, h2, h3, h4, h5, -⟩ := reread_built .json b hc
  refine ⟨.dict (PyVal.jsonDict d), c', ?_, ?_, ?_, h4, h5⟩
  · unfold toFile
    rw [h1]
    rfl
  · unfold fromFile extractFileData
    simp only
    have hany : ((PyVal.jsonDict d).any fun kv => decide (kv.1 ∈ systemNames ++ runtimeNames)) =
        true := by
      obtain ⟨g, h, l, rfl, hl, -⟩ := built_tables hc
      rw [asDict_flat b g h l ((toList_iff _ _).2 hl)] at h1
      cases h1
      rw [List.any_eq_true, jsonDict_eq]
      refine ⟨("temperature", (h "temperature").json), ?_, ?_⟩
      · rw [List.mem_map]
        refine ⟨("temperature", h "temperature"), ?_, rfl⟩
        unfold flat
        rw [List.mem_append]
        right
        rw [List.mem_map]
        exact ⟨"temperature", by decide, rfl⟩
      · exact decide_eq_true (by decide : "temperature" ∈ systemNames ++ runtimeNames)
    rw [hany]
    simp only [if_true]
    rw [jsonDict_eq]
    exact h2
  · intro k hk hb
    exact h3 k hk (by
      rintro ⟨e1, e2⟩
      rcases hb with hb | hb
      · rw [hb] at e1; cases e1
      · exact hb e2)

/-! ### C63: section files -/

/-- C63.  Writing a configuration as one section of a workflow file and reading that section
gives the same configuration as writing and reading a file of its own, and every other section
of the file keeps its content (tuples written as lists). -/
theorem C63_section_round_trip (b : Bool) {c : Configuration} (hc : Built c)
    (old : List (String × PyVal)) (sec taskType : String) (ht : taskType ≠ "type") :
    ∃ own file c', c.toFile b = .ok own ∧ fromFile own none none = .ok c' ∧
      c.toFileSection b (.dict old) sec taskType = .ok (.dict file) ∧
      fromFile (.dict file) (some sec) none = .ok c' ∧
      fromFile (.dict file) (some sec) (some taskType) = .ok c' ∧
      ∀ k, k ≠ sec → dictGet file k = (dictGet old k).map PyVal.json := by
  obtain ⟨own, c', h1, h2, -⟩ := C29_file_round_trip b hc none
  have h1' := h1
  unfold toFile at h1
  cases hd : c.asDict b with
  | error e => rw [hd] at h1; cases h1
  | ok d =>
    rw [hd] at h1
    simp only at h1
    have h1 := Except.ok.inj h1
    have key : dictSet [("type", PyVal.str taskType)] taskType (.dict d) =
        [("type", .str taskType), (taskType, .dict d)] := by
      simp only [dictSet]
      rw [if_neg (fun e => ht e.symm)]
    have hown : fromFile own none none = fromDict (PyVal.jsonDict d) := by
      obtain ⟨g, h, l, rfl, hl, -⟩ := built_tables hc
      rw [asDict_flat b g h l ((toList_iff _ _).2 hl)] at hd
      cases hd
      rw [← h1]
      unfold fromFile extractFileData
      simp only [PyVal.json]
      rw [if_pos]
      rw [List.any_eq_true, jsonDict_eq]
      refine ⟨("temperature", (h "temperature").json), ?_, ?_⟩
      · rw [List.mem_map]
        refine ⟨("temperature", h "temperature"), ?_, rfl⟩
        unfold flat
        rw [List.mem_append]
        right
        rw [List.mem_map]
        exact ⟨"temperature", by decide, rfl⟩
      · exact decide_eq_true (by decide : "temperature" ∈ systemNames ++ runtimeNames)
    have hsec : ∀ tt : Option String, (tt = none ∨ tt = some taskType) →
        extractSection (PyVal.jsonDict (dictSet old sec
          (.dict [("type", .str taskType), (taskType, .dict d)]))) sec tt =
          .ok (PyVal.jsonDict d) := by
      intro tt htt
      unfold extractSection
      rw [dictGet_jsonDict, dictGet_dictSet_self]
      simp only [Option.map_some, PyVal.json, PyVal.jsonDict, dictGet, if_true]
      have hne : ¬ "type" = taskType := fun e => ht e.symm
      rcases htt with rfl | rfl <;> simp [hne]
    refine ⟨own, PyVal.jsonDict (dictSet old sec
      (.dict [("type", .str taskType), (taskType, .dict d)])), c', h1', h2, ?_, ?_, ?_, ?_⟩
    · unfold toFileSection
      rw [hd]
      simp only [key]
      rfl
    · unfold fromFile extractFileData
      simp only
      rw [hsec none (Or.inl rfl)]
      rw [← h2, hown]
    · unfold fromFile extractFileData
      simp only
      rw [hsec _ (Or.inr rfl)]
      rw [← h2, hown]
    · intro k hk
      rw [dictGet_jsonDict, dictGet_dictSet_ne _ _ hk]

/-- C63 fails for the task name `type`: the configuration overwrites the tag of its section and
the section cannot be read back without naming the task. -/
theorem C63_task_named_type : ∃ c file, Built c ∧
    c.toFileSection true (.dict []) "kmc" "type" = .ok file ∧
    fromFile file (some "kmc") none = .error .typeError := by
  have hc : Built (⟨.cfg systemDefaults,
      .cfg (dictSet runtimeDefaults "temperature" (.int 400))⟩ : Configuration) :=
    .new (kwargs := [("temperature", .int 400)]) rfl
  obtain ⟨d, c', h1, -⟩ := C29_dict_round_trip true hc
  refine ⟨_, PyVal.json (.dict [("kmc", .dict [("type", .dict d)])]), hc, ?_, ?_⟩
  · unfold toFileSection
    rw [h1]
    rfl
  · rfl

end KMC
