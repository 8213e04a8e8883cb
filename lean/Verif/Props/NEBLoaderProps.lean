import Verif.Spec.NEBLoader
import Mathlib.Data.List.Basic
/-
C54: the data set of a fit stays rectangular.
-/
namespace KMC
namespace NEBLoader
open Spec
variable {M R S V α β : Type}
variable {featurize : M → Option R → S → Py (List α × List β)}

/-! ### One addition -/

@[simp] theorem withVectors_entries (L : Loader M R S V α β) (id : Nat) (e : Entry S V α β) (o : List α)
    (c : List β) : (withVectors L id e o c).entries = L.entries := rfl

@[simp] theorem withVectors_heap (L : Loader M R S V α β) (id : Nat) (e : Entry S V α β) (o : List α)
    (c : List β) : (withVectors L id e o c).heap
      = Function.update L.heap id (some ⟨e.struct, e.value, some o, some c⟩) := rfl

@[simp] theorem accept_entries (L : Loader M R S V α β) (id : Nat) (m : M) :
    (accept L id m).entries = L.entries ++ [id] := rfl

@[simp] theorem accept_heap (L : Loader M R S V α β) (id : Nat) (m : M) :
    (accept L id m).heap = L.heap := rfl

/-- The four ways an addition can end. -/
theorem add_cases (L : Loader M R S V α β) (id : Nat) (model : Option M) (ref : Option R) :
    (∃ e, add featurize L id model ref = (.error e, L)) ∨
    ∃ entry m o c, L.heap id = some entry ∧ (model.orElse fun _ => L.model) = some m ∧
      featurize m (ref.orElse fun _ => L.reference) entry.struct = .ok (o, c) ∧
      ((∃ e, checkFirst (withVectors L id entry o c) o c = .error e ∧
          add featurize L id model ref = (.error e, (withVectors L id entry o c))) ∨
        (checkFirst (withVectors L id entry o c) o c = .ok () ∧
          add featurize L id model ref = (.ok (), (accept (withVectors L id entry o c) id m)))) := by
  cases h1 : L.heap id with
  | none => exact .inl ⟨.valueError, by simp only [add, h1]⟩
  | some entry =>
    cases h2 : (model.orElse fun _ => L.model) with
    | none => exact .inl ⟨.valueError, by simp only [add, h1, h2]⟩
    | some m =>
      cases h3 : featurize m (ref.orElse fun _ => L.reference) entry.struct with
      | error e => exact .inl ⟨e, by simp only [add, h1, h2, h3]⟩
      | ok oc =>
        obtain ⟨o, c⟩ := oc
        refine .inr ⟨entry, m, o, c, rfl, rfl, h3, ?_⟩
        cases h4 : checkFirst (withVectors L id entry o c) o c with
        | error e => exact .inl ⟨e, rfl, by simp only [add, h1, h2, h3, h4]⟩
        | ok u => exact .inr ⟨rfl, by simp only [add, h1, h2, h3, h4]⟩

theorem lengths_of {L : Loader M R S V α β} {id m n : Nat} (h : HasLengths L id m n) :
    lengths L id = .ok (m, n) := by
  obtain ⟨e, o, c, h1, h2, h3, rfl, rfl⟩ := h
  simp only [lengths, h1, h2, h3]

/-- **C54 (add).** Adding an entry object that is not in the data set yet keeps it rectangular
whatever happens; only a successful addition stores the entry, and the stored ones are untouched.
Missing: adding an object that is stored already, where this is false
(`C54_readd_breaks`, `C54_rejected_readd_breaks`). -/
theorem C54_add_partial {L : Loader M R S V α β} (hR : Rectangular L) {id : Nat} (hid : id ∉ L.entries)
    (model : Option M) (ref : Option R) :
    Rectangular (add featurize L id model ref).2 ∧
    ((add featurize L id model ref).1 = .ok () →
      (add featurize L id model ref).2.entries = L.entries ++ [id]) ∧
    (∀ e, (add featurize L id model ref).1 = .error e →
      (add featurize L id model ref).2.entries = L.entries) ∧
    ∀ j ∈ L.entries, (add featurize L id model ref).2.heap j = L.heap j := by
  obtain ⟨m, n, hmn⟩ := hR
  have hkeep : ∀ (x : Option (Entry S V α β)), ∀ j ∈ L.entries, Function.update L.heap id x j = L.heap j := by
    intro x j hj
    have hne : j ≠ id := by rintro rfl; exact hid hj
    exact Function.update_of_ne hne ..
  rcases add_cases (featurize := featurize) L id model ref with ⟨e, h⟩ | ⟨entry, md, o, c, h1, h2, h3, h4⟩
  · rw [h]
    exact ⟨⟨m, n, hmn⟩, by simp, by simp, by simp⟩
  · rcases h4 with ⟨e, -, h⟩ | ⟨hc, h⟩
    · rw [h]
      refine ⟨⟨m, n, ?_⟩, by simp, by simp, hkeep _⟩
      intro j hj
      obtain ⟨e, o, c, g1, g2⟩ := hmn j hj
      exact ⟨e, o, c, by rw [← g1]; exact hkeep _ j hj, g2⟩
    · rw [h]
      refine ⟨?_, by simp, by simp, hkeep _⟩
      have hold : ∀ j ∈ L.entries, HasLengths (accept (withVectors L id entry o c) id md) j m n := by
        intro j hj
        obtain ⟨e, o, c, g1, g2⟩ := hmn j hj
        exact ⟨e, o, c, by rw [← g1]; exact hkeep _ j hj, g2⟩
      have hnew : HasLengths (accept (withVectors L id entry o c) id md) id o.length c.length :=
        ⟨_, o, c, Function.update_self .., rfl, rfl, rfl, rfl⟩
      cases hL : L.entries with
      | nil =>
        refine ⟨o.length, c.length, ?_⟩
        intro j hj
        simp only [accept_entries, withVectors_entries, hL, List.nil_append, List.mem_singleton] at hj
        subst hj
        exact hnew
      | cons first rest =>
        have hf : HasLengths (withVectors L id entry o c) first m n := by
          obtain ⟨e, o, c, g1, g2⟩ := hmn first (by rw [hL]; simp)
          exact ⟨e, o, c, by rw [← g1]; exact hkeep _ first (by rw [hL]; simp), g2⟩
        unfold checkFirst at hc
        simp only [withVectors_entries, hL, lengths_of hf] at hc
        split at hc
        · cases hc
        · next ho =>
          split at hc
          · cases hc
          · next hcn =>
            rw [ne_eq, not_not] at ho hcn
            refine ⟨m, n, ?_⟩
            intro j hj
            rcases List.mem_append.mp hj with hj | hj
            · exact hold j hj
            · rw [List.mem_singleton] at hj
              subst hj
              rw [← ho, ← hcn]
              exact hnew

/-- **C54 (add, any sequence).** Any sequence of additions of entry objects that are all different
and not stored yet, with any models and references, successful or rejected, keeps the data set
rectangular. -/
theorem C54_adds_partial {L : Loader M R S V α β} (hR : Rectangular L)
    (calls : List (Nat × Option M × Option R)) (hnd : (calls.map Prod.fst).Nodup)
    (hnew : ∀ c ∈ calls, c.1 ∉ L.entries) :
    Rectangular (afterAdds featurize L calls) := by
  induction calls generalizing L with
  | nil => exact hR
  | cons c calls ih =>
    rw [List.map_cons, List.nodup_cons] at hnd
    rw [List.forall_mem_cons] at hnew
    obtain ⟨h1, h2, h3, -⟩ := C54_add_partial (featurize := featurize) hR hnew.1 c.2.1 c.2.2
    show Rectangular (afterAdds featurize (add featurize L c.1 c.2.1 c.2.2).2 calls)
    refine ih h1 hnd.2 ?_
    intro c' hc'
    have hne : c'.1 ≠ c.1 := fun h => hnd.1 (h ▸ List.mem_map_of_mem hc')
    cases hr : (add featurize L c.1 c.2.1 c.2.2).1 with
    | error e => rw [h3 e hr]; exact hnew.2 c' hc'
    | ok u => rw [h2 hr]; simp [hnew.2 c' hc', hne]

/-! ### The interface that takes structures -/

theorem heapOk_newEntry {L : Loader M R S V α β} (h : HeapOk L) (s : S) (v : V) :
    HeapOk (newEntry L s v).2 ∧ (newEntry L s v).1 ∉ (newEntry L s v).2.entries := by
  obtain ⟨h1, h2⟩ := h
  refine ⟨⟨?_, ?_⟩, ?_⟩
  · intro id e he
    simp only [newEntry, Function.update_apply] at he ⊢
    split at he
    · omega
    · have := h1 id e he; omega
  · intro id hid
    have := h2 id hid
    simp only [newEntry]; omega
  · intro hid
    have := h2 _ hid
    simp only [newEntry] at this
    omega

theorem rectangular_newEntry {L : Loader M R S V α β} (h : HeapOk L) (hR : Rectangular L) (s : S) (v : V) :
    Rectangular (newEntry L s v).2 := by
  obtain ⟨m, n, hmn⟩ := hR
  refine ⟨m, n, ?_⟩
  intro id hid
  obtain ⟨e, o, c, g1, g2⟩ := hmn id hid
  refine ⟨e, o, c, ?_, g2⟩
  have := h.2 id hid
  rw [← g1]
  exact Function.update_of_ne (by omega) ..

theorem heapOk_add {L : Loader M R S V α β} (h : HeapOk L) (id : Nat) (model : Option M) (ref : Option R) :
    HeapOk (add featurize L id model ref).2 := by
  rcases add_cases (featurize := featurize) L id model ref with ⟨e, he⟩ | ⟨entry, md, o, c, h1, h2, h3, h4⟩
  · rw [he]; exact h
  · have hid := h.1 id entry h1
    have hheap : ∀ j e, Function.update L.heap id (some ⟨entry.struct, entry.value, some o, some c⟩) j = some e →
        j < L.next := by
      intro j e he
      rw [Function.update_apply] at he
      split at he
      · next hj => rw [hj]; exact hid
      · exact h.1 j e he
    rcases h4 with ⟨e, -, he⟩ | ⟨-, he⟩
    · rw [he]; exact ⟨hheap, h.2⟩
    · rw [he]
      refine ⟨hheap, ?_⟩
      intro j hj
      rcases List.mem_append.mp hj with hj | hj
      · exact h.2 j hj
      · rw [List.mem_singleton] at hj; subst hj; exact hid

/-- The invariant of a loader fed with structures only. -/
def Good (L : Loader M R S V α β) : Prop := HeapOk L ∧ Rectangular L

theorem good_addStructure {L : Loader M R S V α β} (h : Good L) (s : Py S) (v : V) (model : Option M)
    (ref : Option R) : Good (addStructure featurize L s v model ref).2 := by
  unfold addStructure
  cases s with
  | error e => exact h
  | ok s =>
    obtain ⟨h1, h2⟩ := heapOk_newEntry h.1 s v
    exact ⟨heapOk_add h1 .., (C54_add_partial (rectangular_newEntry h.1 h.2 s v) h2 model ref).1⟩

theorem good_addEach {L : Loader M R S V α β} (h : Good L) (model : Option M) (ref : Option R)
    (l : List (Py S × V)) : Good (addEach featurize model ref L l).2 := by
  induction l generalizing L with
  | nil => exact h
  | cons sv l ih =>
    obtain ⟨s, v⟩ := sv
    rw [addEach]
    have hg := good_addStructure (featurize := featurize) h s v model ref
    split
    · next heq => rw [heq] at hg; exact hg
    · next heq => rw [heq] at hg; exact ih hg

theorem good_afterCall {L : Loader M R S V α β} (h : Good L) (c : StructureCall M R S V) :
    Good (afterCall featurize L c) := by
  cases c with
  | one s v m r => exact good_addStructure h ..
  | many s v m r =>
    show Good (addStructures featurize L s v m r).2
    unfold addStructures
    split
    · exact h
    · exact good_addEach h ..

theorem good_empty (model : Option M) (ref : Option R) : Good (empty model ref : Loader M R S V α β) :=
  ⟨⟨by simp [empty], by simp [empty]⟩, 0, 0, by simp [empty]⟩

/-- **C54 (structures).** A loader fed through `add_structure` and `add_structures` is rectangular
after every sequence of calls, with whatever models and references, however many of them failed. -/
theorem C54_structures (model : Option M) (ref : Option R) (calls : List (StructureCall M R S V)) :
    Rectangular (afterCalls featurize (empty model ref) calls) := by
  have : ∀ (L : Loader M R S V α β), Good L → Good (afterCalls featurize L calls) := by
    induction calls with
    | nil => exact fun L h => h
    | cons c calls ih => exact fun L h => ih _ (good_afterCall h c)
  exact (this _ (good_empty model ref)).2

theorem addStructure_entries {L : Loader M R S V α β} (h : Good L) (s : Py S) (v : V) (model : Option M)
    (ref : Option R) :
    match addStructure featurize L s v model ref with
    | (.error _, L') => stored L' = stored L
    | (.ok (), L') => ∃ x m o c, s = .ok x ∧ (model.orElse fun _ => L.model) = some m ∧
        featurize m (ref.orElse fun _ => L.reference) x = .ok (o, c) ∧
        stored L' = stored L ++ [⟨x, v, some o, some c⟩] ∧ L'.reference = L.reference ∧
        L'.model = some m ∧ L'.entries = L.entries ++ [L.next] := by
  cases s with
  | error e => rfl
  | ok x =>
    have hup : ∀ y : Option (Entry S V α β), ∀ l : List Nat, (∀ j ∈ l, j < L.next) →
        l.filterMap (Function.update L.heap L.next y) = l.filterMap L.heap := by
      intro y l hl
      apply List.filterMap_congr
      intro j hj
      exact Function.update_of_ne (by have := hl j hj; omega) ..
    have hheap : (newEntry L x v).2.heap (newEntry L x v).1 = some ⟨x, v, none, none⟩ :=
      Function.update_self ..
    show match add featurize (newEntry L x v).2 (newEntry L x v).1 model ref with
    | (.error _, L') => stored L' = stored L
    | (.ok (), L') => _
    rcases add_cases (featurize := featurize) (newEntry L x v).2 (newEntry L x v).1 model ref with
      ⟨e, he⟩ | ⟨entry, md, o, c, h1, h2, h3, h4⟩
    · rw [he]
      exact hup _ _ h.1.2
    · rw [hheap] at h1
      cases h1
      rcases h4 with ⟨e, -, he⟩ | ⟨-, he⟩
      · rw [he]
        simp only [stored, newEntry, withVectors_heap, withVectors_entries, Function.update_idem]
        exact hup _ _ h.1.2
      · rw [he]
        refine ⟨x, md, o, c, rfl, h2, h3, ?_, rfl, rfl, rfl⟩
        simp only [stored, newEntry, withVectors_heap, withVectors_entries, accept_heap, accept_entries,
          Function.update_idem, List.filterMap_append]
        rw [hup _ _ h.1.2]
        simp

/-- **C54 (one structure).** A successful `add_structure` appends one entry with exactly the given
structure, value and features; a failed one changes nothing that is stored. -/
theorem C54_add_structure (model0 : Option M) (ref0 : Option R) (calls : List (StructureCall M R S V))
    (s : Py S) (v : V) (model : Option M) (ref : Option R) :
    let L := afterCalls featurize (empty model0 ref0) calls
    let r := addStructure featurize L s v model ref
    (∀ e, r.1 = .error e → stored r.2 = stored L) ∧
    (r.1 = .ok () → ∃ x m o c, s = .ok x ∧ (model.orElse fun _ => L.model) = some m ∧
      featurize m (ref.orElse fun _ => L.reference) x = .ok (o, c) ∧
      stored r.2 = stored L ++ [⟨x, v, some o, some c⟩]) := by
  intro L r
  have hg : Good L := by
    have : ∀ (L : Loader M R S V α β), Good L → Good (afterCalls featurize L calls) := by
      induction calls with
      | nil => exact fun L h => h
      | cons c calls ih => exact fun L h => ih _ (good_afterCall h c)
    exact this _ (good_empty model0 ref0)
  have h := addStructure_entries (featurize := featurize) hg s v model ref
  show (∀ e, (addStructure featurize L s v model ref).1 = .error e → _) ∧ _
  constructor
  · intro e he
    show stored (addStructure featurize L s v model ref).2 = _
    split at h
    · next heq => rw [heq]; exact h
    · next heq => rw [heq] at he; cases he
  · intro hok
    split at h
    · next heq => change (addStructure featurize L s v model ref).1 = _ at hok; rw [heq] at hok; cases hok
    · next L' heq =>
      obtain ⟨x, m, o, c, g1, g2, g3, g4, -⟩ := h
      refine ⟨x, m, o, c, g1, g2, g3, ?_⟩
      show stored (addStructure featurize L s v model ref).2 = _
      rw [heq]
      exact g4

/-! ### The matrices of a fit -/

theorem toMatrix_ok {γ : Type} {l : List (Option (List γ))} {n : Nat}
    (h : ∀ o ∈ l, ∃ r, o = some r ∧ r.length = n) :
    ∃ m, toMatrix l = .ok m ∧ m.map some = l ∧ ∀ r ∈ m, r.length = n := by
  induction l with
  | nil => exact ⟨[], rfl, rfl, by simp⟩
  | cons o l ih =>
    rw [List.forall_mem_cons] at h
    obtain ⟨⟨r, rfl, hr⟩, hl⟩ := h
    obtain ⟨m, h1, h2, h3⟩ := ih hl
    refine ⟨r :: m, ?_, by rw [List.map_cons, h2], by simpa [hr] using h3⟩
    simp only [toMatrix, h1]
    rw [if_pos]
    simp only [List.all_eq_true, decide_eq_true_eq]
    intro r' hr'
    rw [h3 r' hr', hr]

theorem stored_length {L : Loader M R S V α β} (hR : Rectangular L) : (stored L).length = L.entries.length := by
  obtain ⟨m, n, h⟩ := hR
  unfold stored
  revert h
  generalize L.entries = l
  intro h
  have hall : ∀ id ∈ l, ∃ e, L.heap id = some e := by
    intro id hid
    obtain ⟨e, o, c, g, -⟩ := h id hid
    exact ⟨e, g⟩
  clear h
  induction l with
  | nil => rfl
  | cons id l ih =>
    rw [List.forall_mem_cons] at hall
    obtain ⟨e, he⟩ := hall.1
    rw [List.filterMap_cons_some he, List.length_cons, List.length_cons, ih hall.2]

theorem stored_lengths {L : Loader M R S V α β} {m n : Nat} (h : ∀ id ∈ L.entries, HasLengths L id m n) :
    ∀ e ∈ stored L, (∃ o, e.occupation = some o ∧ o.length = m) ∧ ∃ c, e.correlation = some c ∧ c.length = n := by
  intro e he
  unfold stored at he
  rw [List.mem_filterMap] at he
  obtain ⟨id, hid, he⟩ := he
  obtain ⟨e', o, c, g1, g2, g3, g4, g5⟩ := h id hid
  rw [g1] at he
  cases he
  exact ⟨⟨o, g2, g4⟩, c, g3, g5⟩

/-- **C54 (matrices).** For a non-empty rectangular data set the correlation matrix, occupation
matrix and property vector exist and have one row per stored entry, in the order of addition, and
every row of a matrix has the same length. -/
theorem C54_matrices {L : Loader M R S V α β} (hR : Rectangular L) (hne : L.entries ≠ []) :
    ∃ m n C O, correlationMatrix L = .ok C ∧ occupationMatrix L = .ok O ∧
      properties L = .ok ((stored L).map Entry.value) ∧
      C.map some = (stored L).map Entry.correlation ∧ O.map some = (stored L).map Entry.occupation ∧
      (stored L).length = L.entries.length ∧
      (∀ r ∈ C, r.length = n) ∧ ∀ r ∈ O, r.length = m := by
  obtain ⟨m, n, h⟩ := id hR
  have hs := stored_lengths h
  obtain ⟨C, c1, c2, c3⟩ := toMatrix_ok (l := (stored L).map Entry.correlation) (n := n) (by
    intro o ho
    rw [List.mem_map] at ho
    obtain ⟨e, he, rfl⟩ := ho
    obtain ⟨-, c, h1, h2⟩ := hs e he
    exact ⟨c, h1, h2⟩)
  obtain ⟨O, o1, o2, o3⟩ := toMatrix_ok (l := (stored L).map Entry.occupation) (n := m) (by
    intro o ho
    rw [List.mem_map] at ho
    obtain ⟨e, he, rfl⟩ := ho
    obtain ⟨⟨c, h1, h2⟩, -⟩ := hs e he
    exact ⟨c, h1, h2⟩)
  refine ⟨m, n, C, O, ?_, ?_, ?_, c2, o2, stored_length hR, c3, o3⟩
  · rw [correlationMatrix, if_neg hne, c1]
  · rw [occupationMatrix, if_neg hne, o1]
  · rw [properties, if_neg hne]

/-- **C54 (fitting inputs).** The three fitting files of a rectangular data set, when they are
written, have the same number of rows; they are written for every non-empty one and every scalar
weight or weight list of the right length. -/
theorem C54_fitting_inputs {W : Type} {L : Loader M R S V α β} (hR : Rectangular L) (w : Weight W) :
    (∀ x, fittingInputs L w = .ok x →
      x.correlation.length = L.entries.length ∧ x.ekra.length = L.entries.length ∧
      x.weight.length = L.entries.length) ∧
    (L.entries ≠ [] → (∀ l, w = .perEntry l → l.length = L.entries.length) →
      ∃ x, fittingInputs L w = .ok x) := by
  constructor
  · intro x hx
    unfold fittingInputs at hx
    split at hx
    · cases hx
    · next hne =>
      obtain ⟨m, n, C, O, h1, h2, h3, h4, h5, h6, -⟩ := C54_matrices hR hne
      rw [h1, h3] at hx
      simp only at hx
      split at hx
      · cases hx
      · next ws hws =>
        cases hx
        refine ⟨?_, by rw [List.length_map, h6], ?_⟩
        · have := congrArg List.length h4
          simp only [List.length_map] at this
          rw [this, h6]
        · cases w with
          | scalar w => cases hws; simp
          | perEntry l =>
            rw [weights] at hws
            split at hws
            · next hl => cases hws; exact hl
            · cases hws
  · intro hne hw
    obtain ⟨m, n, C, O, h1, h2, h3, -⟩ := C54_matrices hR hne
    unfold fittingInputs
    rw [if_neg hne, h1, h3]
    cases w with
    | scalar w => exact ⟨_, rfl⟩
    | perEntry l => simp only [weights, if_pos (hw l rfl)]; exact ⟨_, rfl⟩

/-! ### Building a loader -/

theorem addEach_ok {L L' : Loader M R S V α β} (h : Good L) (hm : ∃ m, L.model = some m)
    {l : List (Py S × V)} (hl : addEach featurize none none L l = (.ok (), L')) :
    Good L' ∧ L'.reference = L.reference ∧ L'.model = L.model ∧
    ∃ new : List (Entry S V α β), stored L' = stored L ++ new ∧
      l = new.map (fun e => (.ok e.struct, e.value)) ∧
      ∀ e ∈ new, ∃ m o c, L.model = some m ∧ featurize m L.reference e.struct = .ok (o, c) ∧
        e.occupation = some o ∧ e.correlation = some c := by
  induction l generalizing L with
  | nil =>
    simp only [addEach, Prod.mk.injEq, true_and] at hl
    subst hl
    exact ⟨h, rfl, rfl, [], by simp, rfl, by simp⟩
  | cons sv l ih =>
    obtain ⟨s, v⟩ := sv
    rw [addEach] at hl
    have h1 := good_addStructure (featurize := featurize) h s v none none
    have h2 := addStructure_entries (featurize := featurize) h s v none none
    split at hl
    · cases hl
    · next L1 heq =>
      rw [heq] at h1 h2
      obtain ⟨x, m, o, c, rfl, g2, g3, g4, g5, g6, -⟩ := h2
      have hmm : L1.model = L.model := by
        rw [g6]
        exact g2.symm
      obtain ⟨k1, k2, k3, new, k4, k5, k6⟩ := ih h1 ⟨m, g6⟩ hl
      refine ⟨k1, k2.trans g5, k3.trans hmm, ⟨x, v, some o, some c⟩ :: new, ?_, ?_, ?_⟩
      · rw [k4, g4]; simp
      · rw [k5]; rfl
      · intro e he
        rcases List.mem_cons.mp he with rfl | he
        · exact ⟨m, o, c, g2, g3, rfl, rfl⟩
        · obtain ⟨m', o', c', q1, q2, q3⟩ := k6 e he
          exact ⟨m', o', c', by rw [← hmm]; exact q1, by rw [← g5]; exact q2, q3⟩

/-- **C54 (from structures).** A loader built from structures and values holds exactly one entry per
structure, in order, each with its own value and with the features the given model computes; it is
rectangular. -/
theorem C54_from_structures {sources : List (Py S)} {values : List V} {model : M} {ref : Option R}
    {L : Loader M R S V α β} (h : fromStructures featurize sources values model ref = .ok L) :
    Rectangular L ∧ sources = (stored L).map (fun e => .ok e.struct) ∧
      values = (stored L).map Entry.value ∧
      ∀ e ∈ stored L, ∃ o c, featurize model ref e.struct = .ok (o, c) ∧
        e.occupation = some o ∧ e.correlation = some c := by
  unfold fromStructures addStructures at h
  split at h
  · cases h
  · next heq =>
    cases h
    split at heq
    · cases heq
    · next hlen =>
      rw [ne_eq, not_not] at hlen
      obtain ⟨h1, -, -, new, h2, h3, h4⟩ :=
        addEach_ok (good_empty (some model) ref) ⟨model, rfl⟩ heq
      have hs : stored L = new := by rw [h2]; rfl
      refine ⟨h1.2, ?_, ?_, ?_⟩
      · have := congrArg (List.map Prod.fst) h3
        rw [List.map_fst_zip (by omega), List.map_map] at this
        rw [hs, this]
        rfl
      · have := congrArg (List.map Prod.snd) h3
        rw [List.map_snd_zip (by omega), List.map_map] at this
        rw [hs, this]
        rfl
      · intro e he
        rw [hs] at he
        obtain ⟨m, o, c, q1, q2, q3⟩ := h4 e he
        cases q1
        exact ⟨o, c, q2, q3⟩

/-! ### Where it fails -/

/-- **C54, where it fails.** Adding the first stored entry again, with a model that gives it a
correlation vector of another length, succeeds and makes the data set ragged as soon as it holds a
second entry: the new vectors are written to the stored object and then compared with themselves. -/
theorem C54_readd_breaks {L : Loader M R S V α β} {first other : Nat} {rest : List Nat} {m n : Nat}
    (hL : L.entries = first :: rest) (hother : other ∈ rest) (hne : other ≠ first)
    (hrect : ∀ id ∈ L.entries, HasLengths L id m n)
    {model : M} {ref : R} {e : Entry S V α β} (he : L.heap first = some e) {o : List α} {c : List β}
    (hf : featurize model (some ref) e.struct = .ok (o, c)) (hc : c.length ≠ n) :
    (add featurize L first (some model) (some ref)).1 = .ok () ∧
      ¬ Rectangular (add featurize L first (some model) (some ref)).2 := by
  have hcheck : checkFirst (withVectors L first e o c) o c = .ok () := by
    unfold checkFirst
    simp [hL, lengths]
  have hadd : add featurize L first (some model) (some ref) = (.ok (), (accept (withVectors L first e o c) first model)) := by
    unfold add
    simp only [he, Option.orElse_some, hf, hcheck]
  rw [hadd]
  refine ⟨rfl, ?_⟩
  rintro ⟨m', n', h⟩
  obtain ⟨e1, o1, c1, a1, a2, a3, a4, a5⟩ := h first (by simp)
  obtain ⟨e2, o2, c2, b1, b2, b3, b4, b5⟩ := h other (by simp [hL, hother])
  simp only [accept_heap, withVectors_heap, Function.update_self, Option.some.injEq] at a1
  subst a1
  cases a3
  have hb1 : L.heap other = some e2 := by
    rw [← b1]; exact (Function.update_of_ne hne ..).symm
  obtain ⟨e3, o3, c3, d1, d2, d3, d4, d5⟩ := hrect other (by simp [hL, hother])
  rw [hb1] at d1
  cases d1
  rw [b3] at d3
  cases d3
  omega

/-- **C54, where it fails.** Adding any other stored entry again with such a model is refused, but
the data set is ragged afterwards: a rejected addition changed a stored entry. -/
theorem C54_rejected_readd_breaks {L : Loader M R S V α β} {first other : Nat} {rest : List Nat} {m n : Nat}
    (hL : L.entries = first :: rest) (hother : other ∈ rest) (hne : other ≠ first)
    (hrect : ∀ id ∈ L.entries, HasLengths L id m n)
    {model : M} {ref : R} {e : Entry S V α β} (he : L.heap other = some e) {o : List α} {c : List β}
    (hf : featurize model (some ref) e.struct = .ok (o, c)) (hc : c.length ≠ n) :
    (add featurize L other (some model) (some ref)).1 = .error .valueError ∧
      ¬ Rectangular (add featurize L other (some model) (some ref)).2 := by
  have hfirst : HasLengths (withVectors L other e o c) first m n := by
    obtain ⟨e1, o1, c1, a1, a2⟩ := hrect first (by simp [hL])
    exact ⟨e1, o1, c1, by rw [← a1]; exact Function.update_of_ne (Ne.symm hne) .., a2⟩
  have hcheck : checkFirst (withVectors L other e o c) o c = .error .valueError := by
    unfold checkFirst
    simp only [withVectors_entries, hL, lengths_of hfirst]
    split
    · rfl
    · rfl
  have hadd : add featurize L other (some model) (some ref) = (.error .valueError, withVectors L other e o c) := by
    unfold add
    simp only [he, Option.orElse_some, hf, hcheck]
  rw [hadd]
  refine ⟨rfl, ?_⟩
  rintro ⟨m', n', h⟩
  obtain ⟨e1, o1, c1, a1, a2, a3, a4, a5⟩ := h other (by simp [hL, hother])
  obtain ⟨e2, o2, c2, b1, b2, b3, b4, b5⟩ := h first (by simp [hL])
  simp only [accept_heap, withVectors_heap, Function.update_self, Option.some.injEq] at a1
  subst a1
  cases a3
  obtain ⟨e3, o3, c3, d1, d2, d3, d4, d5⟩ := hfirst
  have b1' : (withVectors L other e o c).heap first = some e2 := b1
  rw [d1] at b1'
  cases b1'
  rw [d3] at b3
  cases b3
  omega

/-! ### Re-adding with models of one shape -/

/-- **C54 (one shape).** If every featurisation that succeeds has the same two lengths, as with one
model and one reference, then any sequence of additions, repeated entries included, keeps a data set
of that shape rectangular. -/
theorem C54_one_shape {m n : Nat}
    (hf : ∀ md r s o c, featurize md r s = .ok (o, c) → o.length = m ∧ c.length = n)
    {L : Loader M R S V α β} (hL : ∀ id ∈ L.entries, HasLengths L id m n)
    (calls : List (Nat × Option M × Option R)) :
    ∀ id ∈ (afterAdds featurize L calls).entries, HasLengths (afterAdds featurize L calls) id m n := by
  induction calls generalizing L with
  | nil => exact hL
  | cons call calls ih =>
    refine ih (L := (add featurize L call.1 call.2.1 call.2.2).2) ?_
    rcases add_cases (featurize := featurize) L call.1 call.2.1 call.2.2 with
      ⟨e, he⟩ | ⟨entry, md, o, c, h1, h2, h3, h4⟩
    · rw [he]; exact hL
    · obtain ⟨ho, hc⟩ := hf _ _ _ _ _ h3
      have hup : ∀ id, (id = call.1 ∨ id ∈ L.entries) → ∃ e o' c',
          Function.update L.heap call.1 (some ⟨entry.struct, entry.value, some o, some c⟩) id = some e ∧
          e.occupation = some o' ∧ e.correlation = some c' ∧ o'.length = m ∧ c'.length = n := by
        intro id hid
        by_cases hi : id = call.1
        · rw [hi, Function.update_self]
          exact ⟨_, o, c, rfl, rfl, rfl, ho, hc⟩
        · rw [Function.update_of_ne hi]
          exact hL id (hid.resolve_left hi)
      rcases h4 with ⟨e, -, he⟩ | ⟨-, he⟩
      · rw [he]
        intro id hid
        exact hup id (.inr hid)
      · rw [he]
        intro id hid
        refine hup id ?_
        rcases List.mem_append.mp hid with h | h
        · exact .inr h
        · exact .inl (List.mem_singleton.mp h)

/-! ### Examples -/

/-- A featurisation: model `k` gives correlation vectors of length `k`; structure 0 is refused. -/
def exampleFeaturize (k : Nat) (_ : Option Unit) (s : Nat) : Py (List Int × List Nat) :=
  if s = 0 then .error .valueError else .ok ([1, -1], List.replicate k s)

/-- A loader holding two entries. -/
def exampleLoader : Loader Nat Unit Nat Nat Int Nat :=
  afterCalls exampleFeaturize (empty (some 3) none)
    [.one (.ok 5) 50 none none, .one (.ok 0) 1 none none, .one (.ok 6) 60 none none,
     .many [.ok 7, .ok 8] [70] none none, .one (.ok 9) 90 (some 4) none]

/-- The rejected ones are not stored. -/
example : exampleLoader.entries = [0, 2] ∧ correlationMatrix exampleLoader = .ok [[5, 5, 5], [6, 6, 6]] ∧
    properties exampleLoader = .ok [50, 60] ∧ weights (.scalar (1 : Nat)) 2 = .ok [1, 1] := by
  decide +kernel

/-- The loader meets the hypotheses of the theorems on re-adding. -/
example : exampleLoader.entries = 0 :: [2] ∧ Rectangular exampleLoader ∧
    (∃ e, exampleLoader.heap 0 = some e ∧ e.struct = 5) ∧
    (∃ e, exampleLoader.heap 2 = some e ∧ e.struct = 6) ∧
    exampleFeaturize 4 (some ()) 5 = .ok ([1, -1], [5, 5, 5, 5]) :=
  ⟨by decide +kernel, C54_structures .., ⟨⟨5, 50, some [1, -1], some [5, 5, 5]⟩, by decide +kernel, rfl⟩,
    ⟨⟨6, 60, some [1, -1], some [6, 6, 6]⟩, by decide +kernel, rfl⟩, by decide +kernel⟩

/-- Building from structures succeeds. -/
example : (fromStructures exampleFeaturize [.ok 5, .ok 6] [50, 60] 3 none).map Loader.entries
    = .ok [0, 1] := by
  decide +kernel

end NEBLoader
end KMC
