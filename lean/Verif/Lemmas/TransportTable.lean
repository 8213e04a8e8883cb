import Mathlib.Data.List.Forall2
import Verif.Spec.TransportTable
/-
Lemmas for the table of transport data.
-/
namespace KMC
namespace TransportTable
open KMC.Spec
variable {K : Type} [Ring K]

theorem unpack4_ok {l : List K} {a b c d : K} : unpack4 l = .ok (a, b, c, d) ↔ l = [a, b, c, d] := by
  constructor
  · intro h
    match l, h with
    | [_, _, _, _], h => cases h; rfl
  · rintro rfl; rfl

theorem rowOf_ok {rd : Readers K} {f : String} {n : Nat} {r : Row K} :
    rowOf rd f n = .ok r ↔ RowFor rd f n r := by
  constructor
  · intro h
    unfold rowOf at h
    split at h
    · cases h
    rename_i x hx
    split at h
    · cases h
    rename_i i hi
    split at h
    · cases h
    rename_i l hl
    split at h
    · cases h
    rename_i a b c d hu
    split at h
    · cases h
    rename_i th hth
    cases h
    refine ⟨rfl, rfl, ?_, ?_, ?_, hth, rfl⟩
    · unfold xOf at hx
      split at hx
      · cases hx
      rename_i t ht
      split at hx
      · cases hx
      rename_i c' hc
      cases hx
      exact ⟨t, c', ht, hc, rfl⟩
    · unfold idOf at hi
      split at hi
      · cases hi
      rename_i t ht
      exact ⟨t, ht, hi⟩
    · rw [← unpack4_ok.1 hu]; exact hl
  · rintro ⟨h1, h2, ⟨t, c, ht, hc, hx⟩, ⟨s, hs, hid⟩, hn, hth, hch⟩
    obtain ⟨x, p, i, a, b, ch, th, co, cd, loc⟩ := r
    simp only at h1 h2 hx hid hn hth hch
    subst h1 h2 hx hch
    have e1 : xOf rd loc = .ok (3 - 3 * c) := by simp [xOf, ht, hc]
    have e2 : idOf rd loc = .ok i := by simp [idOf, hs, hid]
    have e3 : rd.loadtxt (fileOf loc p) = .ok [a, b, co, cd] := hn
    simp [rowOf, e1, e2, e3, unpack4, hth]

/-- The rows of a list of pairs, one after the other. -/
def rowsOf (rd : Readers K) : List (String × Nat) → List (Row K) → Py (List (Row K))
  | [], acc => .ok acc
  | p :: ps, acc =>
    match rowOf rd p.1 p.2 with
    | .error e => .error e
    | .ok r => rowsOf rd ps (acc ++ [r])

theorem rowsOf_append (rd : Readers K) (a b : List (String × Nat)) (acc : List (Row K)) :
    rowsOf rd (a ++ b) acc =
      match rowsOf rd a acc with
      | .error e => .error e
      | .ok acc => rowsOf rd b acc := by
  induction a generalizing acc with
  | nil => rfl
  | cons p a ih =>
    rw [List.cons_append, rowsOf, rowsOf]
    cases rowOf rd p.1 p.2 with
    | error e => rfl
    | ok r => exact ih _

theorem passes_rowsOf (rd : Readers K) (f : String) (ns : List Nat) (acc : List (Row K)) :
    passes rd f ns acc = rowsOf rd (ns.map fun n => (f, n)) acc := by
  induction ns generalizing acc with
  | nil => rfl
  | cons n ns ih =>
    rw [passes, List.map_cons, rowsOf]
    cases rowOf rd f n with
    | error e => rfl
    | ok r => exact ih _

theorem folderPasses_cons (f : String) (fs : List String) :
    folderPasses (f :: fs) = passNumbers.map (fun n => (f, n)) ++ folderPasses fs := by
  unfold folderPasses passNumbers
  exact List.flatMap_cons

theorem folders_flatMap (rd : Readers K) (ns : List Nat) (fs : List String) (acc : List (Row K)) :
    folders rd ns fs acc = rowsOf rd (fs.flatMap fun f => ns.map fun n => (f, n)) acc := by
  induction fs generalizing acc with
  | nil => rfl
  | cons f fs ih =>
    rw [List.flatMap_cons, rowsOf_append, ← passes_rowsOf, folders]
    cases passes rd f ns acc with
    | error e => rfl
    | ok acc => exact ih acc

theorem folders_rowsOf (rd : Readers K) (fs : List String) (acc : List (Row K)) :
    folders rd passNumbers fs acc = rowsOf rd (folderPasses fs) acc :=
  folders_flatMap rd passNumbers fs acc

theorem rowsOf_ok (rd : Readers K) (ps : List (String × Nat)) (acc rows : List (Row K)) :
    rowsOf rd ps acc = .ok rows ↔
      ∃ new, rows = acc ++ new ∧ List.Forall₂ (fun p r => RowFor rd p.1 p.2 r) ps new := by
  induction ps generalizing acc with
  | nil =>
    constructor
    · intro h; cases h; exact ⟨[], by simp, .nil⟩
    · rintro ⟨_, rfl, h⟩; cases h; simp [rowsOf]
  | cons p ps ih =>
    rw [rowsOf]
    cases hr : rowOf rd p.1 p.2 with
    | error e =>
      constructor
      · intro h; cases h
      · rintro ⟨_, rfl, h⟩
        cases h with
        | cons h1 h2 => rw [rowOf_ok.2 h1] at hr; cases hr
    | ok r =>
      refine (ih _).trans ?_
      constructor
      · rintro ⟨new, rfl, h⟩
        exact ⟨r :: new, by simp, .cons (rowOf_ok.1 hr) h⟩
      · rintro ⟨_, rfl, h⟩
        cases h with
        | @cons _ r' _ new h1 h2 =>
          rw [rowOf_ok.2 h1] at hr; cases hr
          exact ⟨new, by simp, h2⟩

theorem rowsOf_error (rd : Readers K) (ps : List (String × Nat)) (acc : List (Row K)) (e : PyErr) :
    rowsOf rd ps acc = .error e ↔
      ∃ before p after, ps = before ++ p :: after ∧ (∀ q ∈ before, ∃ r, RowFor rd q.1 q.2 r) ∧
        rowOf rd p.1 p.2 = .error e := by
  induction ps generalizing acc with
  | nil =>
    constructor
    · intro h; cases h
    · rintro ⟨b, p, a, h, -⟩; cases b <;> cases h
  | cons p ps ih =>
    rw [rowsOf]
    cases hr : rowOf rd p.1 p.2 with
    | error x =>
      constructor
      · intro h; cases h
        exact ⟨[], p, ps, rfl, fun q hq => (by cases hq), hr⟩
      · rintro ⟨b, q, a, h, hb, hq⟩
        cases b with
        | nil => cases h; rw [hr] at hq; cases hq; rfl
        | cons b0 b =>
          cases h
          obtain ⟨r, h0⟩ := hb _ List.mem_cons_self
          rw [rowOf_ok.2 h0] at hr; cases hr
    | ok r =>
      refine (ih _).trans ?_
      constructor
      · rintro ⟨b, q, a, rfl, hb, hq⟩
        refine ⟨p :: b, q, a, rfl, fun q' hq' => ?_, hq⟩
        rcases List.mem_cons.1 hq' with rfl | h
        · exact ⟨r, rowOf_ok.1 hr⟩
        · exact hb _ h
      · rintro ⟨b, q, a, h, hb, hq⟩
        cases b with
        | nil => cases h; rw [hr] at hq; cases hq
        | cons b0 b =>
          cases h
          exact ⟨b, q, a, rfl, fun q' hq' => hb _ (List.mem_cons_of_mem _ hq'), hq⟩

end TransportTable
end KMC
