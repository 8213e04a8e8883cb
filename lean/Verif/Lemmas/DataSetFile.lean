import Mathlib.Data.List.Induction
import Mathlib.Data.Option.Basic
import Verif.Spec.DataSetFile
import Verif.Props.NEBLoaderProps
/-
The heap of entry objects behind a data set holds the rows of the specification.
-/
namespace KMC
namespace DataSetFile
open NEBLoader Spec Spec.DataSets
variable {M R S V α β J E : Type}
variable {featurize : M → Option R → S → Py (List α × List β)} {io : Outside M S J} {model0 : Option M}
  {ref0 : Option R}

/-- The entry object of a row with its metadata. -/
def cell (r : Row M S V α β J) : Option (Entry S V α β) × Option (Metadata J) :=
  (some ⟨r.struct, r.value, some r.occupation, some r.correlation⟩, some r.metadata)

/-- The data set holds the rows. -/
structure Refines (io : Outside M S J) (model0 : Option M) (ref0 : Option R) (D : DataSet M R S V α β J)
    (rows : List (Row M S V α β J)) : Prop where
  heap : HeapOk D.loader
  cells : (D.loader.entries.map fun id => (D.loader.heap id, D.metadata id)) = rows.map cell
  model : D.loader.model = currentModel model0 rows
  reference : D.loader.reference = ref0
  name : D.name = (currentModel model0 rows).map fun m => (io.name m).getD "unknown"
  shape : ∀ r ∈ rows, ∀ r' ∈ rows,
    r.occupation.length = r'.occupation.length ∧ r.correlation.length = r'.correlation.length

theorem refines_create : Refines io model0 ref0 (create io model0 ref0 : DataSet M R S V α β J) [] where
  heap := (good_empty model0 ref0).1
  cells := rfl
  model := by simp [create, empty, currentModel]
  reference := rfl
  name := by simp [create, currentModel]
  shape := by simp

theorem entries_nil_iff {D : DataSet M R S V α β J} {rows : List (Row M S V α β J)}
    (h : Refines io model0 ref0 D rows) : D.loader.entries = [] ↔ rows = [] := by
  have := congrArg List.length h.cells
  simp only [List.length_map] at this
  rw [← List.length_eq_zero_iff, ← List.length_eq_zero_iff, this]

/-- Objects above all stored ones can be made and filled without touching the rows. -/
theorem cells_update {D : DataSet M R S V α β J} {rows : List (Row M S V α β J)}
    (h : Refines io model0 ref0 D rows) (x : Option (Entry S V α β)) (y : Option (Metadata J)) :
    (D.loader.entries.map fun id =>
      (Function.update D.loader.heap D.loader.next x id, Function.update D.metadata D.loader.next y id))
      = rows.map cell := by
  rw [← h.cells]
  apply List.map_congr_left
  intro j hj
  have hne : j ≠ D.loader.next := by have := h.heap.2 j hj; omega
  rw [Function.update_of_ne hne, Function.update_of_ne hne]

theorem heapOk_fill {L : Loader M R S V α β} (h : HeapOk L) (x : Option (Entry S V α β)) :
    HeapOk { L with heap := Function.update L.heap L.next x, next := L.next + 1 } := by
  refine ⟨?_, ?_⟩
  · intro id e he
    by_cases hid : id = L.next
    · subst hid; exact Nat.lt_succ_self _
    · have he' : Function.update L.heap L.next x id = some e := he
      rw [Function.update_of_ne hid] at he'
      exact Nat.lt_succ_of_lt (h.1 id e he')
  · intro id hid
    exact Nat.lt_succ_of_lt (h.2 id hid)

/-- A refused call leaves the rows. -/
theorem refines_refused {D : DataSet M R S V α β J} {rows : List (Row M S V α β J)}
    (h : Refines io model0 ref0 D rows) (x : Option (Entry S V α β)) (y : Option (Metadata J)) :
    Refines io model0 ref0
      { D with
        loader := { D.loader with heap := Function.update D.loader.heap D.loader.next x, next := D.loader.next + 1 }
        metadata := Function.update D.metadata D.loader.next y } rows where
  heap := heapOk_fill h.heap x
  cells := cells_update h x y
  model := h.model
  reference := h.reference
  name := h.name
  shape := h.shape

/-- An accepted call appends its row. -/
theorem refines_accepted {D : DataSet M R S V α β J} {rows : List (Row M S V α β J)}
    (h : Refines io model0 ref0 D rows) (r : Row M S V α β J)
    (hfit : ∀ r' ∈ rows, r.occupation.length = r'.occupation.length ∧ r.correlation.length = r'.correlation.length) :
    Refines io model0 ref0
      { loader := { D.loader with
          heap := Function.update D.loader.heap D.loader.next (cell r).1
          next := D.loader.next + 1
          entries := D.loader.entries ++ [D.loader.next]
          model := some r.model }
        metadata := Function.update D.metadata D.loader.next (some r.metadata)
        name := some ((io.name r.model).getD "unknown") } (rows ++ [r]) where
  heap := by
    refine ⟨(heapOk_fill h.heap (cell r).1).1, ?_⟩
    intro id hid
    rcases List.mem_append.mp hid with hid | hid
    · exact Nat.lt_succ_of_lt (h.heap.2 id hid)
    · rw [List.mem_singleton] at hid; subst hid; exact Nat.lt_succ_self _
  cells := by
    rw [List.map_append, List.map_append, cells_update h (cell r).1 (some r.metadata)]
    simp [cell]
  model := by simp [currentModel]
  reference := h.reference
  name := by simp [currentModel]
  shape := by
    intro a ha b hb
    rcases List.mem_append.mp ha with ha' | ha' <;> rcases List.mem_append.mp hb with hb' | hb' <;>
      clear ha hb <;> rename' ha' => ha, hb' => hb
    · exact h.shape a ha b hb
    · rw [List.mem_singleton] at hb; subst hb
      exact ⟨(hfit a ha).1.symm, (hfit a ha).2.symm⟩
    · rw [List.mem_singleton] at ha; subst ha
      exact hfit b hb
    · rw [List.mem_singleton] at ha hb; subst ha; subst hb; exact ⟨rfl, rfl⟩

/-- The consistency check is a check against all rows. -/
theorem checkFirst_iff {D : DataSet M R S V α β J} {rows : List (Row M S V α β J)}
    (h : Refines io model0 ref0 D rows) (x : Option (Entry S V α β)) (n : Nat) (o : List α) (c : List β) :
    ((∀ r ∈ rows, o.length = r.occupation.length ∧ c.length = r.correlation.length) ∧
      checkFirst { D.loader with heap := Function.update D.loader.heap D.loader.next x, next := n } o c = .ok ()) ∨
    ((¬ ∀ r ∈ rows, o.length = r.occupation.length ∧ c.length = r.correlation.length) ∧
      checkFirst { D.loader with heap := Function.update D.loader.heap D.loader.next x, next := n } o c
        = .error .valueError) := by
  have hc := cells_update h x (D.metadata D.loader.next)
  cases rows with
  | nil =>
    left
    have := (entries_nil_iff h).2 rfl
    refine ⟨by simp, ?_⟩
    simp only [checkFirst, this]
  | cons r rest =>
    cases he : D.loader.entries with
    | nil => rw [he] at hc; cases hc
    | cons first tail =>
      rw [he] at hc
      simp only [List.map_cons, List.cons.injEq] at hc
      have h1 : Function.update D.loader.heap D.loader.next x first = (cell r).1 := congrArg Prod.fst hc.1
      have hall : (∀ r' ∈ r :: rest, o.length = r'.occupation.length ∧ c.length = r'.correlation.length) ↔
          o.length = r.occupation.length ∧ c.length = r.correlation.length := by
        constructor
        · exact fun H => H r (by simp)
        · intro H r' hr'
          have := h.shape r (by simp) r' hr'
          exact ⟨H.1.trans this.1, H.2.trans this.2⟩
      rw [hall]
      by_cases ho : o.length = r.occupation.length
      · by_cases hcl : c.length = r.correlation.length
        · left
          refine ⟨⟨ho, hcl⟩, ?_⟩
          simp only [checkFirst, he, lengths, h1, cell]
          rw [if_neg (not_not.2 ho), if_neg (not_not.2 hcl)]
        · right
          refine ⟨fun H => hcl H.2, ?_⟩
          simp only [checkFirst, he, lengths, h1, cell]
          rw [if_neg (not_not.2 ho), if_pos hcl]
      · right
        refine ⟨fun H => ho H.1, ?_⟩
        simp only [checkFirst, he, lengths, h1, cell]
        rw [if_pos ho]

/-- One call: it succeeds and appends its row exactly if there is one. -/
theorem addStructure_step {D : DataSet M R S V α β J} {rows : List (Row M S V α β J)}
    (h : Refines io model0 ref0 D rows) (q : Request M R S V J) :
    (∃ r, Adds featurize io model0 ref0 rows q r ∧ (addStructure featurize io D q).1 = .ok () ∧
      Refines io model0 ref0 (addStructure featurize io D q).2 (rows ++ [r])) ∨
    ((∀ r, ¬ Adds featurize io model0 ref0 rows q r) ∧ (∃ e, (addStructure featurize io D q).1 = .error e) ∧
      Refines io model0 ref0 (addStructure featurize io D q).2 rows) := by
  unfold addStructure
  cases hs : loadSource io q.source q.metadata q.kwargs with
  | error e =>
    right
    refine ⟨?_, ⟨e, rfl⟩, h⟩
    rintro _ ⟨s, md, v, m, o, c, h1, h2, h3, h4, h5⟩
    rw [hs] at h1; cases h1
  | ok smd =>
    obtain ⟨s, md⟩ := smd
    cases hv : q.value with
    | error e =>
      right
      refine ⟨?_, ⟨e, rfl⟩, h⟩
      rintro _ ⟨s, md, v, m, o, c, h1, h2, h3, h4, h5⟩
      rw [hv] at h2; cases h2
    | ok v =>
      have hheap : (NEBLoader.newEntry D.loader s v).2.heap (NEBLoader.newEntry D.loader s v).1
          = some ⟨s, v, none, none⟩ := Function.update_self ..
      simp only [add, newEntry]
      cases hm : (q.model.orElse fun _ => currentModel model0 rows) with
      | none =>
        right
        refine ⟨?_, ?_⟩
        · rintro _ ⟨s, md, v, m, o, c, h1, h2, h3, h4, h5⟩
          rw [hm] at h3; cases h3
        · have : NEBLoader.add featurize (NEBLoader.newEntry D.loader s v).2 (NEBLoader.newEntry D.loader s v).1
              q.model q.reference = (.error .valueError, (NEBLoader.newEntry D.loader s v).2) := by
            simp only [NEBLoader.add, hheap]
            rw [show (NEBLoader.newEntry D.loader s v).2.model = currentModel model0 rows from h.model, hm]
          rw [this]
          exact ⟨⟨_, rfl⟩, refines_refused h _ _⟩
      | some m =>
        cases hf : featurize m (q.reference.orElse fun _ => ref0) s with
        | error e =>
          right
          refine ⟨?_, ?_⟩
          · rintro _ ⟨s', md', v', m', o, c, h1, h2, h3, h4, h5⟩
            rw [hs] at h1; cases h1
            rw [hm] at h3; cases h3
            rw [hf] at h4; cases h4
          · have : NEBLoader.add featurize (NEBLoader.newEntry D.loader s v).2 (NEBLoader.newEntry D.loader s v).1
                q.model q.reference = (.error e, (NEBLoader.newEntry D.loader s v).2) := by
              simp only [NEBLoader.add, hheap]
              rw [show (NEBLoader.newEntry D.loader s v).2.model = currentModel model0 rows from h.model, hm]
              simp only []
              rw [show (NEBLoader.newEntry D.loader s v).2.reference = ref0 from h.reference, hf]
            rw [this]
            exact ⟨⟨_, rfl⟩, refines_refused h _ _⟩
        | ok oc =>
          obtain ⟨o, c⟩ := oc
          have hw : withVectors (NEBLoader.newEntry D.loader s v).2 (NEBLoader.newEntry D.loader s v).1
              ⟨s, v, none, none⟩ o c
              = { D.loader with
                  heap := Function.update D.loader.heap D.loader.next (some ⟨s, v, some o, some c⟩)
                  next := D.loader.next + 1 } := by
            simp only [withVectors, NEBLoader.newEntry, Function.update_idem]
          rcases checkFirst_iff h (some ⟨s, v, some o, some c⟩) (D.loader.next + 1) o c with ⟨hfit, hc⟩ | ⟨hfit, hc⟩
          · left
            refine ⟨⟨s, v, m, o, c, md⟩, ⟨s, md, v, m, o, c, hs, hv, hm, hf, hfit⟩, ?_⟩
            have : NEBLoader.add featurize (NEBLoader.newEntry D.loader s v).2 (NEBLoader.newEntry D.loader s v).1
                q.model q.reference = (.ok (), accept { D.loader with
                  heap := Function.update D.loader.heap D.loader.next (some ⟨s, v, some o, some c⟩)
                  next := D.loader.next + 1 } D.loader.next m) := by
              simp only [NEBLoader.add, hheap]
              rw [show (NEBLoader.newEntry D.loader s v).2.model = currentModel model0 rows from h.model, hm]
              simp only []
              rw [show (NEBLoader.newEntry D.loader s v).2.reference = ref0 from h.reference, hf]
              simp only []
              rw [hw, hc]
              rfl
            rw [this]
            exact ⟨rfl, refines_accepted h ⟨s, v, m, o, c, md⟩ hfit⟩
          · right
            refine ⟨?_, ?_⟩
            · rintro _ ⟨s', md', v', m', o', c', h1, h2, h3, h4, h5⟩
              rw [hs] at h1; cases h1
              rw [hm] at h3; cases h3
              rw [hf] at h4; cases h4
              exact hfit h5
            · have : NEBLoader.add featurize (NEBLoader.newEntry D.loader s v).2
                  (NEBLoader.newEntry D.loader s v).1
                  q.model q.reference = (.error .valueError, { D.loader with
                    heap := Function.update D.loader.heap D.loader.next (some ⟨s, v, some o, some c⟩)
                    next := D.loader.next + 1 }) := by
                simp only [NEBLoader.add, hheap]
                rw [show (NEBLoader.newEntry D.loader s v).2.model = currentModel model0 rows from h.model, hm]
                simp only []
                rw [show (NEBLoader.newEntry D.loader s v).2.reference = ref0 from h.reference, hf]
                simp only []
                rw [hw, hc]
              rw [this]
              exact ⟨⟨_, rfl⟩, refines_refused h _ _⟩

theorem addEach_step {D : DataSet M R S V α β J} {rows : List (Row M S V α β J)}
    (h : Refines io model0 ref0 D rows) (l : List (Request M R S V J)) :
    ∃ rows', AddsMany featurize io model0 ref0 rows l rows' ∧
      Refines io model0 ref0 (addEach featurize io D l).2 rows' ∧
      ((addEach featurize io D l).1 = .ok () ↔ rows'.length = rows.length + l.length) ∧
      rows'.length ≤ rows.length + l.length := by
  induction l generalizing D rows with
  | nil => exact ⟨rows, .done rows, h, by simp [addEach], by simp⟩
  | cons q l ih =>
    rcases addStructure_step (featurize := featurize) h q with ⟨r, h1, h2, h3⟩ | ⟨h1, ⟨e, h2⟩, h3⟩
    · obtain ⟨rows', g1, g2, g3, g4⟩ := ih h3
      have hd : addEach featurize io D (q :: l) = addEach featurize io (addStructure featurize io D q).2 l := by
        rw [addEach]
        split
        · next heq => rw [heq] at h2; cases h2
        · next heq => rw [heq]
      rw [hd]
      refine ⟨rows', .next rows q l r rows' h1 g1, g2, ?_, ?_⟩
      · rw [g3]; simp only [List.length_append, List.length_cons, List.length_nil]; omega
      · simp only [List.length_append, List.length_cons, List.length_nil] at g4 ⊢; omega
    · have hd : addEach featurize io D (q :: l) = (.error e, (addStructure featurize io D q).2) := by
        rw [addEach]
        split
        · next heq => rw [heq] at h2; cases h2; rw [heq]
        · next heq => rw [heq] at h2; cases h2
      rw [hd]
      exact ⟨rows, .refused rows q l h1, h3, by simp, by simp⟩

theorem fits_iff (b : Batch M R S V J) :
    Fits b ↔ ¬ (b.sources.length ≠ b.values.length) ∧
      ¬ ((b.metadata.map List.length).getD b.sources.length ≠ b.sources.length) := by
  unfold Fits
  cases hm : b.metadata with
  | none => simp [eq_comm]
  | some l => simp [eq_comm]

theorem addStructures_step {D : DataSet M R S V α β J} {rows : List (Row M S V α β J)}
    (h : Refines io model0 ref0 D rows) (b : Batch M R S V J) :
    (Fits b ∧ ∃ rows', AddsMany featurize io model0 ref0 rows b.requests rows' ∧
      Refines io model0 ref0 (addStructures featurize io D b).2 rows' ∧
      ((addStructures featurize io D b).1 = .ok () ↔ rows'.length = rows.length + b.requests.length)) ∨
    (¬ Fits b ∧ addStructures featurize io D b = (.error .valueError, D)) := by
  by_cases hb : Fits b
  · left
    obtain ⟨h1, h2⟩ := (fits_iff b).1 hb
    have hd : addStructures featurize io D b = addEach featurize io D b.requests := by
      rw [addStructures, if_neg h1, if_neg h2]
    rw [hd]
    obtain ⟨rows', g1, g2, g3, -⟩ := addEach_step (featurize := featurize) h b.requests
    exact ⟨hb, rows', g1, g2, g3⟩
  · right
    refine ⟨hb, ?_⟩
    unfold addStructures
    rw [fits_iff, not_and_or, not_not, not_not] at hb
    rcases hb with hb | hb
    · rw [if_pos hb]
    · rw [if_pos hb, ite_self]

/-- After any calls the data set holds the rows of the specification. -/
theorem refines_after (calls : List (Call M R S V J)) :
    ∃ rows, Holds featurize io model0 ref0 calls rows ∧
      Refines io model0 ref0 (dataSetAfter featurize io (create io model0 ref0 : DataSet M R S V α β J) calls)
        rows := by
  induction calls using List.reverseRecOn with
  | nil => exact ⟨[], .start, refines_create⟩
  | append_singleton calls c ih =>
    obtain ⟨rows, h1, h2⟩ := ih
    have hd : ∀ D : DataSet M R S V α β J, dataSetAfter featurize io D (calls ++ [c])
        = dataSetAfter featurize io (dataSetAfter featurize io D calls) [c] := by
      intro D; simp only [dataSetAfter, List.foldl_append]
    rw [hd]
    cases c with
    | one q =>
      show ∃ rows', _ ∧ Refines io model0 ref0 (addStructure featurize io _ q).2 rows'
      rcases addStructure_step (featurize := featurize) h2 q with ⟨r, g1, g2, g3⟩ | ⟨g1, g2, g3⟩
      · exact ⟨rows ++ [r], .one calls rows q _ h1 (.next rows q [] r _ g1 (.done _)), g3⟩
      · exact ⟨rows, .one calls rows q _ h1 (.refused rows q [] g1), g3⟩
    | many b =>
      show ∃ rows', _ ∧ Refines io model0 ref0 (addStructures featurize io _ b).2 rows'
      rcases addStructures_step (featurize := featurize) h2 b with ⟨hb, rows', g1, g2, -⟩ | ⟨hb, g⟩
      · exact ⟨rows', .many calls rows b rows' h1 hb g1, g2⟩
      · rw [g]
        exact ⟨rows, .mismatch calls rows b h1 hb, h2⟩

/-! ### The specification determines the rows -/

theorem adds_unique {rows : List (Row M S V α β J)} {q : Request M R S V J} {r r' : Row M S V α β J}
    (h : Adds featurize io model0 ref0 rows q r) (h' : Adds featurize io model0 ref0 rows q r') : r = r' := by
  obtain ⟨s, md, v, m, o, c, h1, h2, h3, h4, -⟩ := h
  obtain ⟨s', md', v', m', o', c', g1, g2, g3, g4, -⟩ := h'
  rw [h1] at g1; cases g1
  rw [h2] at g2; cases g2
  rw [h3] at g3; cases g3
  rw [h4] at g4; cases g4
  rfl

theorem addsMany_unique {rows a b : List (Row M S V α β J)} {l : List (Request M R S V J)}
    (h : AddsMany featurize io model0 ref0 rows l a) (h' : AddsMany featurize io model0 ref0 rows l b) : a = b := by
  induction h with
  | done rows => cases h'; rfl
  | refused rows q rest h =>
    cases h' with
    | refused => rfl
    | next _ _ _ r _ g _ => exact absurd g (h r)
  | next rows q rest r rows' h _ ih =>
    cases h' with
    | refused _ _ _ g => exact absurd h (g r)
    | next _ _ _ r' _ g t => rw [adds_unique g h] at t; exact ih t

theorem snoc_inj {γ : Type} {a b : List γ} {x y : γ} (h : a ++ [x] = b ++ [y]) : a = b ∧ x = y := by
  have := List.append_inj' h rfl
  exact ⟨this.1, by simpa using this.2⟩

theorem holds_unique {calls : List (Call M R S V J)} {a b : List (Row M S V α β J)}
    (h : Holds featurize io model0 ref0 calls a) (h' : Holds featurize io model0 ref0 calls b) : a = b := by
  induction h generalizing b with
  | start =>
    generalize hc : ([] : List (Call M R S V J)) = l at h'
    cases h' with
    | start => rfl
    | one => simp at hc
    | many => simp at hc
    | mismatch => simp at hc
  | one calls rows q rows' h t ih =>
    generalize hc : calls ++ [Call.one q] = l at h'
    cases h' with
    | start => simp at hc
    | one calls2 rows2 q2 _ g t2 =>
      obtain ⟨rfl, hq⟩ := snoc_inj hc
      cases hq
      rw [ih g] at t
      exact addsMany_unique t t2
    | many => exact absurd (snoc_inj hc).2 (by simp)
    | mismatch => exact absurd (snoc_inj hc).2 (by simp)
  | many calls rows q rows' h hb t ih =>
    generalize hc : calls ++ [Call.many q] = l at h'
    cases h' with
    | start => simp at hc
    | one => exact absurd (snoc_inj hc).2 (by simp)
    | many calls2 rows2 q2 _ g hb2 t2 =>
      obtain ⟨rfl, hq⟩ := snoc_inj hc
      cases hq
      rw [ih g] at t
      exact addsMany_unique t t2
    | mismatch calls2 _ q2 g hb2 =>
      obtain ⟨rfl, hq⟩ := snoc_inj hc
      cases hq
      exact absurd hb hb2
  | mismatch calls rows q h hb ih =>
    generalize hc : calls ++ [Call.many q] = l at h'
    cases h' with
    | start => simp at hc
    | one => exact absurd (snoc_inj hc).2 (by simp)
    | many calls2 rows2 q2 _ g hb2 t2 =>
      obtain ⟨rfl, hq⟩ := snoc_inj hc
      cases hq
      exact absurd hb2 hb
    | mismatch calls2 _ q2 g hb2 =>
      obtain ⟨rfl, hq⟩ := snoc_inj hc
      cases hq
      exact ih g

theorem refines_holds {calls : List (Call M R S V J)} {rows : List (Row M S V α β J)}
    (h : Holds featurize io model0 ref0 calls rows) :
    Refines io model0 ref0 (dataSetAfter featurize io (create io model0 ref0 : DataSet M R S V α β J) calls) rows := by
  obtain ⟨rows', h1, h2⟩ := refines_after (featurize := featurize) (io := io) (model0 := model0) (ref0 := ref0)
    (α := α) (β := β) calls
  rwa [holds_unique h h1]

/-! ### Reading the columns -/

theorem stored_rows {D : DataSet M R S V α β J} {rows : List (Row M S V α β J)}
    (h : Refines io model0 ref0 D rows) :
    stored D.loader = rows.map fun r => ⟨r.struct, r.value, some r.occupation, some r.correlation⟩ := by
  have := congrArg (List.filterMap Prod.fst) h.cells
  simp only [List.filterMap_map] at this
  have e1 : D.loader.entries.filterMap (Prod.fst ∘ fun id => (D.loader.heap id, D.metadata id))
      = stored D.loader := rfl
  have e2 : rows.filterMap (Prod.fst ∘ cell)
      = rows.map fun r => (⟨r.struct, r.value, some r.occupation, some r.correlation⟩ : Entry S V α β) := by
    rw [← List.filterMap_eq_map]; rfl
  rw [e1, e2] at this
  exact this

theorem metadata_rows {D : DataSet M R S V α β J} {rows : List (Row M S V α β J)}
    (h : Refines io model0 ref0 D rows) : metadataList D = rows.map Row.metadata := by
  have := congrArg (List.map fun p => p.2.getD []) h.cells
  simp only [List.map_map] at this
  exact this

theorem toMatrix_some {γ : Type} (l : List (List γ)) (n : Nat) (h : ∀ r ∈ l, r.length = n) :
    toMatrix (l.map some) = .ok l := by
  obtain ⟨m, h1, h2, -⟩ := toMatrix_ok (l := l.map some) (n := n) (by
    intro o ho
    obtain ⟨r, hr, rfl⟩ := List.mem_map.1 ho
    exact ⟨r, rfl, h r hr⟩)
  rw [h1, (List.map_injective_iff.2 (Option.some_injective _)) h2]

theorem matrices_rows {D : DataSet M R S V α β J} {rows : List (Row M S V α β J)}
    (h : Refines io model0 ref0 D rows) (hne : rows ≠ []) :
    correlationMatrix D.loader = .ok (rows.map Row.correlation) ∧
    occupationMatrix D.loader = .ok (rows.map Row.occupation) ∧
    properties D.loader = .ok (rows.map Row.value) := by
  have he : D.loader.entries ≠ [] := fun H => hne ((entries_nil_iff h).1 H)
  obtain ⟨r0, hr0⟩ := List.exists_mem_of_ne_nil rows hne
  have hs := stored_rows h
  refine ⟨?_, ?_, ?_⟩
  · rw [correlationMatrix, if_neg he, hs, List.map_map,
      show (Entry.correlation ∘ fun r : Row M S V α β J => (⟨r.struct, r.value, some r.occupation,
        some r.correlation⟩ : Entry S V α β)) = some ∘ Row.correlation from rfl, ← List.map_map]
    refine toMatrix_some _ r0.correlation.length ?_
    intro x hx
    obtain ⟨r, hr, rfl⟩ := List.mem_map.1 hx
    exact (h.shape r hr r0 hr0).2
  · rw [occupationMatrix, if_neg he, hs, List.map_map,
      show (Entry.occupation ∘ fun r : Row M S V α β J => (⟨r.struct, r.value, some r.occupation,
        some r.correlation⟩ : Entry S V α β)) = some ∘ Row.occupation from rfl, ← List.map_map]
    refine toMatrix_some _ r0.occupation.length ?_
    intro x hx
    obtain ⟨r, hr, rfl⟩ := List.mem_map.1 hx
    exact (h.shape r hr r0 hr0).1
  · rw [properties, if_neg he, hs, List.map_map]
    rfl

/-! ### Writing the metadata -/

theorem encodeDict_ok {encode : J → Py E} {d : Metadata J} :
    (Writable encode d → ∃ d', encodeDict encode d = .ok d' ∧ SameDict encode d d') ∧
    (¬ Writable encode d → ∃ e, encodeDict encode d = .error e) := by
  induction d with
  | nil => exact ⟨fun _ => ⟨[], rfl, .nil⟩, fun h => absurd (by simp [Writable]) h⟩
  | cons kv d ih =>
    obtain ⟨k, v⟩ := kv
    cases hv : encode v with
    | error e =>
      refine ⟨?_, fun _ => ⟨e, by simp only [encodeDict, hv]⟩⟩
      intro h
      obtain ⟨x, hx⟩ := h (k, v) (by simp)
      rw [hv] at hx; cases hx
    | ok x =>
      have hiff : Writable encode ((k, v) :: d) ↔ Writable encode d := by
        simp only [Writable, List.forall_mem_cons]
        exact ⟨fun h => h.2, fun h => ⟨⟨x, hv⟩, h⟩⟩
      rw [hiff]
      refine ⟨?_, ?_⟩
      · intro h
        obtain ⟨d', h1, h2⟩ := ih.1 h
        exact ⟨(k, x) :: d', by simp only [encodeDict, hv, h1], .cons ⟨rfl, hv⟩ h2⟩
      · intro h
        obtain ⟨e, h1⟩ := ih.2 h
        exact ⟨e, by simp only [encodeDict, hv, h1]⟩

theorem encodeAll_ok {encode : J → Py E} {l : List (Metadata J)} :
    ((∀ d ∈ l, Writable encode d) → ∃ l', encodeAll encode l = .ok l' ∧ List.Forall₂ (SameDict encode) l l') ∧
    ((¬ ∀ d ∈ l, Writable encode d) → ∃ e, encodeAll encode l = .error e) := by
  induction l with
  | nil => exact ⟨fun _ => ⟨[], rfl, .nil⟩, fun h => absurd (by simp) h⟩
  | cons d l ih =>
    rw [List.forall_mem_cons]
    by_cases hd : Writable encode d
    · obtain ⟨d', h1, h2⟩ := encodeDict_ok.1 hd
      refine ⟨?_, ?_⟩
      · rintro ⟨-, h⟩
        obtain ⟨l', g1, g2⟩ := ih.1 h
        exact ⟨d' :: l', by simp only [encodeAll, h1, g1], .cons h2 g2⟩
      · intro h
        obtain ⟨e, g1⟩ := ih.2 fun H => h ⟨hd, H⟩
        exact ⟨e, by simp only [encodeAll, h1, g1]⟩
    · obtain ⟨e, h1⟩ := encodeDict_ok.2 hd
      exact ⟨fun h => absurd h.1 hd, fun _ => ⟨e, by simp only [encodeAll, h1]⟩⟩

end DataSetFile
end KMC
