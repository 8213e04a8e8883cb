import Verif.Lemmas.Py
import Verif.Spec.Config
import Mathlib.Tactic.NormNum
import Mathlib.Data.Rat.Cast.Order
/-
Lemmas about configurations.
-/
namespace KMC
open Spec Config

/-! ### Numbers -/

theorem leZero_false_iff (v : PyVal) : v.leZero = .ok false ↔ Positive v ∨ IsNaN v := by
  constructor
  · intro h
    cases v with
    | bool b => cases b <;> simp [PyVal.leZero] at h; exact Or.inl .ofTrue
    | int n => simp [PyVal.leZero] at h; exact Or.inl (.ofInt h)
    | float f =>
      cases f with
      | fin q => simp [PyVal.leZero] at h; exact Or.inl (.ofFloat h)
      | posInf => exact Or.inl .ofInf
      | negInf => simp [PyVal.leZero] at h
      | nan => exact Or.inr rfl
    | _ => simp [PyVal.leZero] at h
  · rintro (h | h)
    · cases h with
      | ofTrue => rfl
      | ofInt h => simp [PyVal.leZero, h]
      | ofFloat h => simp [PyVal.leZero, h]
      | ofInf => rfl
    · rw [h]; rfl

theorem ltZero_false_iff (v : PyVal) : v.ltZero = .ok false ↔ NonNegative v ∨ IsNaN v := by
  constructor
  · intro h
    cases v with
    | bool b => exact Or.inl .ofBool
    | int n => simp [PyVal.ltZero] at h; exact Or.inl (.ofInt h)
    | float f =>
      cases f with
      | fin q => simp [PyVal.ltZero] at h; exact Or.inl (.ofFloat h)
      | posInf => exact Or.inl .ofInf
      | negInf => simp [PyVal.ltZero] at h
      | nan => exact Or.inr rfl
    | _ => simp [PyVal.ltZero] at h
  · rintro (h | h)
    · cases h with
      | ofBool => rfl
      | ofInt h => simp [PyVal.ltZero, h]
      | ofFloat h => simp [PyVal.ltZero, h]
      | ofInf => rfl
    · rw [h]; rfl

theorem isDimension_iff (v : PyVal) :
    (v.eqInt 1 || v.eqInt 2 || v.eqInt 3) = true ↔ IsDimension v := by
  constructor
  · intro h
    cases v with
    | bool b => cases b <;> simp [PyVal.eqInt] at h; exact .ofTrue
    | int n => simp [PyVal.eqInt] at h; exact .ofInt (by tauto)
    | float f =>
      cases f with
      | fin q => simp [PyVal.eqInt] at h; exact .ofFloat (by tauto)
      | _ => simp [PyVal.eqInt] at h
    | _ => simp [PyVal.eqInt] at h
  · intro h
    cases h with
    | ofTrue => simp [PyVal.eqInt]
    | ofInt h => simp [PyVal.eqInt]; tauto
    | ofFloat h => simp [PyVal.eqInt]; tauto

theorem list_three {α : Type} {l : List α} (h : l.length = 3) : ∃ a b c, l = [a, b, c] := by
  match l, h with
  | [a, b, c], _ => exact ⟨a, b, c, rfl⟩

theorem hasThree_iff (v : PyVal) : v.len = .ok 3 ↔ HasThreeEntries v := by
  constructor
  · intro h
    cases v with
    | str s => simp only [PyVal.len, Except.ok.injEq] at h; exact .ofStr h
    | list l =>
      simp only [PyVal.len, Except.ok.injEq] at h
      obtain ⟨a, b, c, rfl⟩ := list_three h
      exact .ofList a b c
    | tuple l =>
      simp only [PyVal.len, Except.ok.injEq] at h
      obtain ⟨a, b, c, rfl⟩ := list_three h
      exact .ofTuple a b c
    | dict l =>
      simp only [PyVal.len, Except.ok.injEq] at h
      obtain ⟨a, b, c, rfl⟩ := list_three h
      exact .ofDict a b c
    | _ => simp [PyVal.len] at h
  · intro h
    cases h with
    | ofList => rfl
    | ofTuple => rfl
    | ofStr h => simp [PyVal.len, h]
    | ofDict => rfl

/-! ### Validation -/

theorem validateSystem_iff (f : Fields) :
    validateSystem f = .ok () ↔
      IsDimension (field f "dimension") ∧ HasThreeEntries (field f "supercell_shape") := by
  rw [← isDimension_iff, ← hasThree_iff]
  unfold validateSystem
  simp only
  split
  · rename_i h
    simp only [Bool.not_eq_true'] at h
    simp [h]
  · rename_i h
    simp only [Bool.not_eq_true', Bool.not_eq_false] at h
    rw [h]
    cases hl : (field f "supercell_shape").len with
    | error e => simp
    | ok n =>
      by_cases hn : n = 3
      · simp [hn]
      · simp [hn]

theorem positiveInt_iff (v : PyVal) : (v.isInt = true ∧ v.leZero = .ok false) ↔ PositiveInt v := by
  constructor
  · rintro ⟨h1, h2⟩
    cases v with
    | bool b => cases b <;> simp [PyVal.leZero] at h2; exact .ofTrue
    | int n => simp [PyVal.leZero] at h2; exact .ofInt h2
    | _ => simp [PyVal.isInt] at h1
  · intro h
    cases h with
    | ofTrue => exact ⟨rfl, rfl⟩
    | ofInt h => exact ⟨rfl, by simp [PyVal.leZero, h]⟩

theorem isNone_iff (v : PyVal) : v.isNone = true ↔ v = .none := by
  cases v <;> simp [PyVal.isNone]

theorem validateSchedule_iff (a b : PyVal) :
    validateSchedule a b = .ok () ↔
      (a = .none ∨ PositiveInt a) ∧ (b = .none ∨ Positive b ∨ IsNaN b) := by
  rw [← leZero_false_iff, ← positiveInt_iff, ← isNone_iff, ← isNone_iff]
  have hs : ∀ b : PyVal, (if b.isNone = true then (.ok () : Py Unit) else
      match b.leZero with
      | .error e => .error e
      | .ok true => .error .valueError
      | .ok false => .ok ()) = .ok () ↔ (b.isNone = true ∨ b.leZero = .ok false) := by
    intro b
    cases hb : b.isNone with
    | true => simp
    | false =>
      simp only [Bool.false_eq_true, if_false, false_or]
      cases b.leZero with
      | error e => simp
      | ok x => cases x <;> simp
  unfold validateSchedule
  simp only
  cases ha : a.isNone with
  | true => simp only [if_true, true_or, true_and]; exact hs b
  | false =>
    simp only [Bool.false_eq_true, if_false, false_or]
    cases hi : a.isInt with
    | false => simp
    | true =>
      simp only [Bool.not_true, Bool.false_eq_true, if_false, true_and]
      cases hl : a.leZero with
      | error e => simp
      | ok x =>
        cases x with
        | true => simp
        | false => simp only [true_and]; exact hs b

theorem validateFlags_iff (d : List (String × PyVal)) :
    validateFlags d = .ok () ↔ ∀ kv ∈ d, kv.1 ∈ builtinNames ∧ ∃ b, kv.2 = .bool b := by
  induction d with
  | nil => simp [validateFlags]
  | cons kv d ih =>
    obtain ⟨k, v⟩ := kv
    simp only [validateFlags, List.mem_cons, forall_eq_or_imp]
    have hb : v.isBool = true ↔ ∃ b, v = .bool b := by
      cases v <;> simp [PyVal.isBool]
    by_cases h1 : k ∈ builtinNames
    · by_cases h2 : v.isBool = true
      · simp only [h1, not_true, if_false, h2, Bool.not_true, Bool.false_eq_true, ih, true_and]
        rw [hb] at h2
        simp [h2]
      · have h2' : v.isBool = false := by simpa using h2
        simp only [h1, not_true, if_false, h2', Bool.not_false, if_true, reduceCtorEq, true_and,
          false_iff, not_and]
        intro h
        exact absurd (hb.2 h) h2
    · simp [h1]

theorem validateMax_iff (v : PyVal) : validateMax v = .ok () ↔ v = .none ∨ PositiveInt v := by
  rw [← positiveInt_iff, ← isNone_iff]
  unfold validateMax
  cases v.isNone with
  | true => simp
  | false =>
    cases v.isInt with
    | false => simp
    | true =>
      cases v.leZero with
      | error e => simp
      | ok x => cases x <;> simp

theorem validateBoolKey_iff (d : List (String × PyVal)) (k : String) :
    validateBoolKey d k = .ok () ↔ ∀ w, dictGet d k = some w → ∃ b, w = .bool b := by
  unfold validateBoolKey
  cases dictGet d k with
  | none => simp
  | some v =>
    have hb : v.isBool = true ↔ ∃ b, v = .bool b := by
      cases v <;> simp [PyVal.isBool]
    simp only [Option.some.injEq, forall_eq']
    rw [← hb]
    cases v.isBool <;> simp

theorem optional_iff {P : PyVal → Prop} (o : Option PyVal) :
    (o.getD .none = .none ∨ P (o.getD .none)) ↔ Optional P o := by
  cases o with
  | none => simp [Optional]
  | some v => simp [Optional]

theorem callableRefOk_iff (v : PyVal) :
    callableRefOk v = true ↔ ∃ s, v = .str s ∧ ∃ c ∈ s.toList, c.isWhitespace = false := by
  cases v <;> simp [callableRefOk]

theorem validateCallback_iff (v : PyVal) : validateCallback v = .ok () ↔ CallbackEntry v := by
  cases v with
  | dict d =>
    simp only [validateCallback, CallbackEntry, PyVal.dict.injEq, exists_eq_left']
    by_cases h1 : ∀ kv ∈ d, kv.1 ∈ callbackKeys
    · have h1' : (d.any fun kv => decide (kv.1 ∉ callbackKeys)) = false := by
        rw [List.any_eq_false]
        intro kv hkv
        simpa using h1 kv hkv
      rw [h1']
      simp only [Bool.false_eq_true, if_false]
      have hc := callableRefOk_iff ((dictGet d "callable").getD .none)
      by_cases h2 : callableRefOk ((dictGet d "callable").getD .none) = true
      · rw [h2]
        simp only [Bool.not_true, Bool.false_eq_true, if_false]
        obtain ⟨s, hs, hw⟩ := hc.1 h2
        have hs' : dictGet d "callable" = some (.str s) := by
          cases hd : dictGet d "callable" with
          | none => rw [hd] at hs; simp at hs
          | some w => rw [hd] at hs; simp at hs; rw [hs]
        have e1 := validateSchedule_iff ((dictGet d "interval").getD .none)
          ((dictGet d "time_interval").getD .none)
        rw [optional_iff, optional_iff (P := fun w => Positive w ∨ IsNaN w)] at e1
        have e2 := validateMax_iff ((dictGet d "max_records").getD .none)
        rw [optional_iff] at e2
        have e3 := validateBoolKey_iff d "store"
        have e4 := validateBoolKey_iff d "enabled"
        constructor
        · intro h
          split at h
          · cases h
          · rename_i g1
            split at h
            · cases h
            · rename_i g2
              split at h
              · cases h
              · rename_i g3
                exact ⟨h1, ⟨s, hs', hw⟩, (e1.1 g1).1, (e1.1 g1).2, e2.1 g2, e3.1 g3, e4.1 h⟩
        · rintro ⟨-, -, a1, a2, a3, a4, a5⟩
          rw [e1.2 ⟨a1, a2⟩]
          simp only
          rw [e2.2 a3]
          simp only
          rw [e3.2 a4]
          exact e4.2 a5
      · have h2' : callableRefOk ((dictGet d "callable").getD .none) = false := by simpa using h2
        rw [h2']
        simp only [Bool.not_false, if_true, reduceCtorEq, false_iff]
        rintro ⟨-, ⟨s, hs, hw⟩, -⟩
        rw [hs] at h2
        exact h2 ((callableRefOk_iff _).2 ⟨s, rfl, hw⟩)
    · have h1' : (d.any fun kv => decide (kv.1 ∉ callbackKeys)) = true := by
        push Not at h1
        obtain ⟨kv, h1, h2⟩ := h1
        rw [List.any_eq_true]
        exact ⟨kv, h1, by simpa using h2⟩
      rw [h1']
      simp only [if_true, reduceCtorEq, false_iff]
      rintro ⟨h, -⟩
      exact h1 h
  | _ => simp [validateCallback, CallbackEntry]

theorem validateCallbacks_iff (l : List PyVal) :
    validateCallbacks l = .ok () ↔ ∀ v ∈ l, CallbackEntry v := by
  induction l with
  | nil => simp [validateCallbacks]
  | cons v l ih =>
    simp only [validateCallbacks, List.mem_cons, forall_eq_or_imp]
    rw [← validateCallback_iff, ← ih]
    cases validateCallback v with
    | error e => simp
    | ok u => simp

/-- What the runtime checks accept. -/
theorem validateRuntime_iff (f : Fields) :
    validateRuntime f = .ok () ↔
      (Positive (field f "temperature") ∨ IsNaN (field f "temperature")) ∧
      (Positive (field f "attempt_frequency") ∨ IsNaN (field f "attempt_frequency")) ∧
      (NonNegative (field f "equilibration_passes") ∨ IsNaN (field f "equilibration_passes")) ∧
      (Positive (field f "kmc_passes") ∨ IsNaN (field f "kmc_passes")) ∧
      (field f "property_sampling_interval" = .none ∨
        PositiveInt (field f "property_sampling_interval")) ∧
      (field f "property_sampling_time_interval" = .none ∨
        Positive (field f "property_sampling_time_interval") ∨
        IsNaN (field f "property_sampling_time_interval")) ∧
      (∃ d, field f "builtin_property_enabled" = .dict d ∧
        ∀ kv ∈ d, kv.1 ∈ builtinNames ∧ ∃ b, kv.2 = .bool b) ∧
      (∃ l, field f "property_callbacks" = .list l ∧ ∀ v ∈ l, CallbackEntry v) := by
  rw [← leZero_false_iff, ← leZero_false_iff, ← leZero_false_iff, ← ltZero_false_iff]
  have hb : ∀ v : PyVal, validateBuiltin v = .ok () ↔ ∃ d, v = .dict d ∧
      ∀ kv ∈ d, kv.1 ∈ builtinNames ∧ ∃ b, kv.2 = .bool b := by
    intro v
    cases v with
    | dict d => simp only [validateBuiltin, validateFlags_iff, PyVal.dict.injEq, exists_eq_left']
    | _ => simp [validateBuiltin]
  rw [← hb]
  unfold validateRuntime
  generalize (field f "temperature").leZero = x1
  generalize (field f "attempt_frequency").leZero = x2
  generalize (field f "equilibration_passes").ltZero = x3
  generalize (field f "kmc_passes").leZero = x4
  have hsch := validateSchedule_iff (field f "property_sampling_interval")
    (field f "property_sampling_time_interval")
  generalize validateSchedule (field f "property_sampling_interval")
    (field f "property_sampling_time_interval") = x5 at hsch ⊢
  rw [← and_assoc (b := _ ∨ Positive (field f "property_sampling_time_interval") ∨ _), ← hsch]
  generalize validateBuiltin (field f "builtin_property_enabled") = x6
  rcases x1 with e | b1
  · simp
  cases b1 with
  | true => simp
  | false =>
  rcases x2 with e | b2
  · simp
  cases b2 with
  | true => simp
  | false =>
  rcases x3 with e | b3
  · simp
  cases b3 with
  | true => simp
  | false =>
  rcases x4 with e | b4
  · simp
  cases b4 with
  | true => simp
  | false =>
  rcases x5 with e | u5
  · simp
  rcases x6 with e | u6
  · simp
  simp only [true_and]
  generalize field f "property_callbacks" = w
  cases w with
  | list l => simp only [validateCallbacks_iff, PyVal.list.injEq, exists_eq_left']
  | _ => simp

/-! ### Building -/

theorem dictGet_mapVal {α β : Type} (g : String → α → β) (d : List (String × α)) (k : String) :
    dictGet (d.map fun kv => (kv.1, g kv.1 kv.2)) k = (dictGet d k).map (g k) := by
  induction d with
  | nil => rfl
  | cons kv d ih =>
    simp only [List.map_cons, dictGet]
    by_cases h : kv.1 = k
    · simp [h]
    · simp [h, ih]

theorem build_ok {validate : Fields → Py Unit} {base kwargs f : Fields}
    (h : build validate base kwargs = .ok f) :
    dictKeys f = dictKeys base ∧ validate f = .ok () ∧
    (∀ kv ∈ kwargs, kv.1 ∈ dictKeys base) ∧
    (∀ k, dictGet f k = (dictGet base k).map fun v => (dictGet kwargs k).getD v) := by
  unfold build at h
  split at h
  · cases h
  · rename_i hn
    simp only at h
    split at h
    · cases h
    · rename_i u hv
      cases h
      refine ⟨?_, hv, ?_, ?_⟩
      · simp [dictKeys, Function.comp_def]
      · intro kv hkv
        simp only [List.any_eq_true, decide_eq_true_eq, not_exists, not_and, not_not] at hn
        exact hn kv hkv
      · intro k
        exact dictGet_mapVal (fun k v => (dictGet kwargs k).getD v) base k

theorem build_isOk {validate : Fields → Py Unit} {base kwargs : Fields}
    (hk : ∀ kv ∈ kwargs, kv.1 ∈ dictKeys base)
    (hv : validate (base.map fun kv => (kv.1, (dictGet kwargs kv.1).getD kv.2)) = .ok ()) :
    build validate base kwargs = .ok (base.map fun kv => (kv.1, (dictGet kwargs kv.1).getD kv.2)) := by
  unfold build
  rw [if_neg]
  · simp only [hv]
  · simp only [List.any_eq_true, decide_eq_true_eq, not_exists, not_and, not_not]
    exact hk

theorem dictGet_filter {α : Type} (d : List (String × α)) (q : String → Bool) (k : String) :
    dictGet (d.filter fun kv => q kv.1) k = if q k then dictGet d k else none := by
  induction d with
  | nil => simp [dictGet]
  | cons kv d ih =>
    rw [List.filter_cons]
    by_cases h : kv.1 = k
    · subst h
      by_cases hq : q kv.1 = true
      · simp [hq, dictGet]
      · simp only [hq] at ih ⊢
        simpa using ih
    · by_cases hq : q kv.1 = true
      · simp [hq, dictGet, h, ih]
      · simp only [hq, dictGet, h, if_false]
        simpa using ih

theorem dictGet_table {α : Type} (ks : List String) (g : String → α) (k : String) :
    dictGet (ks.map fun k => (k, g k)) k = if k ∈ ks then some (g k) else none := by
  induction ks with
  | nil => rfl
  | cons a ks ih =>
    simp only [List.map_cons, dictGet, List.mem_cons]
    by_cases h : a = k
    · subst h; simp
    · have h' : k ≠ a := fun e => h e.symm
      simp [h, h', ih]

theorem dictSet_table {α : Type} {ks : List String} (hnd : ks.Nodup) (g : String → α) {k : String}
    (hk : k ∈ ks) (v : α) : dictSet (ks.map fun k => (k, g k)) k v =
      ks.map fun k' => (k', if k' = k then v else g k') := by
  induction ks with
  | nil => simp at hk
  | cons a ks ih =>
    rw [List.nodup_cons] at hnd
    simp only [List.map_cons, dictSet]
    by_cases h : a = k
    · subst h
      simp only [if_true, List.cons.injEq, true_and]
      apply List.map_congr_left
      intro k' hk'
      have : k' ≠ a := fun e => hnd.1 (e ▸ hk')
      simp [this]
    · have hk' : k ∈ ks := by
        rcases List.mem_cons.1 hk with e | e
        · exact absurd e.symm h
        · exact e
      simp [h, ih hnd.2 hk']

theorem dictDel_table {α : Type} (ks : List String) (g : String → α) (k : String) :
    dictDel (ks.map fun k => (k, g k)) k = (ks.erase k).map fun k => (k, g k) := by
  induction ks with
  | nil => rfl
  | cons a ks ih =>
    simp only [List.map_cons, dictDel, List.erase_cons]
    by_cases h : a = k
    · simp [h]
    · simp [h, ih]

theorem dictUpdate_append {α : Type} (d e : List (String × α))
    (hd : ∀ k ∈ dictKeys e, k ∉ dictKeys d) (hnd : (dictKeys e).Nodup) : dictUpdate d e = d ++ e := by
  unfold dictUpdate
  induction e generalizing d with
  | nil => simp
  | cons kv e ih =>
    obtain ⟨k, v⟩ := kv
    simp only [dictKeys, List.map_cons, List.nodup_cons] at hnd
    simp only [List.foldl_cons]
    rw [dictKeys_dictSet_of_not_mem d v (hd k (by simp [dictKeys]))]
    rw [ih]
    · simp
    · intro k' hk'
      simp only [dictKeys, List.map_append, List.map_cons, List.map_nil, List.mem_append,
        List.mem_singleton, not_or]
      refine ⟨hd k' ?_, ?_⟩
      · simp only [dictKeys, List.map_cons, List.mem_cons]
        exact Or.inr hk'
      · rintro rfl
        exact hnd.1 hk'
    · exact hnd.2

theorem dictKeys_table {α : Type} (ks : List String) (g : String → α) :
    dictKeys (ks.map fun k => (k, g k)) = ks := by
  simp [dictKeys, Function.comp_def]

theorem filter_table {α : Type} (ks : List String) (g : String → α) (q : String → Bool) :
    (ks.map fun k => (k, g k)).filter (fun kv => q kv.1) =
      (ks.filter q).map fun k => (k, g k) := by
  rw [List.filter_map]
  rfl

theorem field_eq {f : Fields} {k : String} {v : PyVal} (h : dictGet f k = some v) : field f k = v := by
  simp [field, h]

end KMC
