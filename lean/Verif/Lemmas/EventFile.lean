import Verif.Spec.EventFile
import Verif.Lemmas.Py
/-
Lemmas for files of single events.
-/
namespace KMC
namespace EventFile
open KMC.Spec

theorem toList_entries {v : PyVal} {l : List PyVal} : v.toList = .ok l ↔ Entries v l := by
  constructor
  · intro h
    cases v <;> simp only [PyVal.toList, Except.ok.injEq, reduceCtorEq] at h <;> subst h <;> constructor
  · intro h
    cases h <;> rfl

theorem toList_error {v : PyVal} {e : PyErr} :
    v.toList = .error e ↔ e = .typeError ∧ ∀ l, ¬ Entries v l := by
  constructor
  · intro h
    refine ⟨?_, fun l hl => by rw [toList_entries.2 hl] at h; cases h⟩
    cases v <;> simp only [PyVal.toList, Except.error.injEq, reduceCtorEq] at h <;> exact h.symm
  · rintro ⟨rfl, h⟩
    cases v with
    | list l => exact absurd (Entries.list l) (h _)
    | tuple l => exact absurd (Entries.tuple l) (h _)
    | str s => exact absurd (Entries.text s) (h _)
    | dict d => exact absurd (Entries.keys d) (h _)
    | _ => rfl

theorem tupleUnder_ok {d : List (String × PyVal)} {k : String} {v : PyVal} :
    tupleUnder d k = .ok v ↔ ∃ l, FieldEntries d k l ∧ v = .tuple l := by
  unfold tupleUnder FieldEntries
  cases hg : dictGet d k with
  | none => simp [eq_comm]
  | some w =>
    cases hl : w.toList with
    | error e =>
      have := (toList_error.1 hl).2
      simp [hl, this]
    | ok l =>
      have hE := toList_entries.1 hl
      simp only [hl]
      constructor
      · intro h; cases h; exact ⟨l, Or.inr ⟨w, rfl, hE⟩, rfl⟩
      · rintro ⟨l', (⟨h, _⟩ | ⟨v', h, h'⟩), rfl⟩
        · cases h
        · cases h
          rw [← toList_entries, hl] at h'
          cases h'; rfl

theorem tupleUnder_error {d : List (String × PyVal)} {k : String} {e : PyErr} :
    tupleUnder d k = .error e ↔ e = .typeError ∧ ∀ l, ¬ FieldEntries d k l := by
  unfold tupleUnder FieldEntries
  cases hg : dictGet d k with
  | none => simp
  | some w =>
    cases hl : w.toList with
    | error e' =>
      have := toList_error.1 hl
      simp only [hl]
      constructor
      · intro h
        cases h
        refine ⟨this.1, ?_⟩
        rintro l (⟨h, _⟩ | ⟨v', h, h'⟩)
        · cases h
        · cases h; exact this.2 _ h'
      · rintro ⟨rfl, _⟩; rw [this.1]
    | ok l =>
      simp only [hl]
      constructor
      · intro h; cases h
      · rintro ⟨_, h⟩
        exact absurd (Or.inr ⟨w, rfl, toList_entries.1 hl⟩) (h l)

theorem jsonList_map (l : List PyVal) : PyVal.jsonList l = l.map PyVal.json := by
  induction l with
  | nil => rfl
  | cons v vs ih => rw [PyVal.jsonList, ih]; rfl

theorem jsonDict_map (d : List (String × PyVal)) :
    PyVal.jsonDict d = d.map fun kv => (kv.1, kv.2.json) := by
  induction d with
  | nil => rfl
  | cons p d ih => obtain ⟨k, v⟩ := p; rw [PyVal.jsonDict, ih]; rfl

theorem json_ints (l : List Int) : (l.map PyVal.int).map PyVal.json = l.map PyVal.int := by
  rw [List.map_map]; rfl

/-- Iterating over a value read back from a file gives the entries as they are read back. -/
theorem entries_json {v : PyVal} {l : List PyVal} :
    Entries v.json l ↔ ∃ l', Entries v l' ∧ l = l'.map PyVal.json := by
  cases v with
  | list a =>
    rw [PyVal.json, jsonList_map]
    constructor
    · intro h; cases h; exact ⟨a, .list a, rfl⟩
    · rintro ⟨_, h, rfl⟩; cases h; exact .list _
  | tuple a =>
    rw [PyVal.json, jsonList_map]
    constructor
    · intro h; cases h; exact ⟨a, .tuple a, rfl⟩
    · rintro ⟨_, h, rfl⟩; cases h; exact .list _
  | str s =>
    rw [PyVal.json]
    constructor
    · intro h; cases h
      refine ⟨_, .text s, ?_⟩
      rw [List.map_map]; rfl
    · rintro ⟨_, h, rfl⟩; cases h
      rw [List.map_map]; exact .text s
  | dict d =>
    rw [PyVal.json, jsonDict_map]
    have he : ((d.map fun kv => (kv.1, kv.2.json)).map fun kv => PyVal.str kv.1) =
        (d.map fun kv => PyVal.str kv.1).map PyVal.json := by
      rw [List.map_map, List.map_map]; rfl
    constructor
    · intro h; cases h
      exact ⟨_, .keys d, he⟩
    · rintro ⟨_, h, rfl⟩; cases h
      rw [← he]; exact .keys _
  | _ =>
    rw [PyVal.json]
    exact ⟨fun h => (by cases h), fun ⟨_, h, _⟩ => (by cases h)⟩

theorem saves_append (disk : Disk) (a b : List (String × EventObj)) :
    saves disk (a ++ b) = saves (saves disk a) b := by
  induction a generalizing disk with
  | nil => rfl
  | cons p a ih => obtain ⟨n, e⟩ := p; exact ih _

theorem saves_other (disk : Disk) (name : String) (l : List (String × EventObj))
    (h : ∀ p ∈ l, p.1 ≠ name) : dictGet (saves disk l) name = dictGet disk name := by
  induction l generalizing disk with
  | nil => rfl
  | cons p l ih =>
    obtain ⟨n, e⟩ := p
    rw [saves, ih _ fun q hq => h q (List.mem_cons_of_mem _ hq), save,
      dictGet_dictSet_ne _ _ (fun hn => h (n, e) List.mem_cons_self hn.symm)]

theorem saves_last (disk : Disk) {hist : List (String × EventObj)} {name : String} {e : EventObj}
    (h : LastUnder hist name e) :
    dictGet (saves disk hist) name = some (PyVal.json (.dict (asDict e))) := by
  obtain ⟨a, b, rfl, hb⟩ := h
  rw [saves_append, saves, saves_other _ _ _ hb, save, dictGet_dictSet_self]

theorem asDict_json (e : EventObj) : PyVal.json (.dict (asDict e)) =
    .dict [("mobile_ion_indices", e.mobile.json), ("local_env_indices", e.env.json)] := by
  rw [PyVal.json, jsonDict_map]; rfl

theorem fieldEntries_mobile {e : EventObj} {l : List PyVal} :
    FieldEntries [("mobile_ion_indices", e.mobile.json), ("local_env_indices", e.env.json)]
      "mobile_ion_indices" l ↔ ∃ l', Entries e.mobile l' ∧ l = l'.map PyVal.json := by
  simp [FieldEntries, dictGet, entries_json]

theorem fieldEntries_env {e : EventObj} {l : List PyVal} :
    FieldEntries [("mobile_ion_indices", e.mobile.json), ("local_env_indices", e.env.json)]
      "local_env_indices" l ↔ ∃ l', Entries e.env l' ∧ l = l'.map PyVal.json := by
  simp [FieldEntries, dictGet, entries_json]

theorem fromDict_ok {d : List (String × PyVal)} {e : EventObj} : fromDict d = .ok e ↔
    ∃ a b, FieldEntries d "mobile_ion_indices" a ∧ FieldEntries d "local_env_indices" b ∧
      e = ⟨.tuple a, .tuple b⟩ := by
  unfold fromDict
  constructor
  · intro h
    cases hm : tupleUnder d "mobile_ion_indices" with
    | error x => rw [hm] at h; cases h
    | ok m =>
      rw [hm] at h
      cases hv : tupleUnder d "local_env_indices" with
      | error x => rw [hv] at h; cases h
      | ok v =>
        rw [hv] at h; cases h
        obtain ⟨a, ha, rfl⟩ := tupleUnder_ok.1 hm
        obtain ⟨b, hb, rfl⟩ := tupleUnder_ok.1 hv
        exact ⟨a, b, ha, hb, rfl⟩
  · rintro ⟨a, b, ha, hb, rfl⟩
    rw [tupleUnder_ok.2 ⟨a, ha, rfl⟩, tupleUnder_ok.2 ⟨b, hb, rfl⟩]

theorem fromDict_error {d : List (String × PyVal)} {x : PyErr} : fromDict d = .error x ↔
    x = .typeError ∧ ((∀ a, ¬ FieldEntries d "mobile_ion_indices" a) ∨
      ∀ b, ¬ FieldEntries d "local_env_indices" b) := by
  unfold fromDict
  cases hm : tupleUnder d "mobile_ion_indices" with
  | error y =>
    have := tupleUnder_error.1 hm
    constructor
    · intro h; cases h; exact ⟨this.1, Or.inl this.2⟩
    · rintro ⟨rfl, _⟩; rw [this.1]
  | ok m =>
    obtain ⟨a, ha, -⟩ := tupleUnder_ok.1 hm
    cases hv : tupleUnder d "local_env_indices" with
    | error y =>
      have := tupleUnder_error.1 hv
      constructor
      · intro h; cases h; exact ⟨this.1, Or.inr this.2⟩
      · rintro ⟨rfl, _⟩; rw [this.1]
    | ok v =>
      obtain ⟨b, hb, -⟩ := tupleUnder_ok.1 hv
      constructor
      · intro h; cases h
      · rintro ⟨_, h | h⟩
        · exact absurd ha (h a)
        · exact absurd hb (h b)

end EventFile
end KMC
