import Verif.Spec.FitFiles
/-
Lemmas about text tables that were written completely or in part.
-/
set_option linter.unusedSectionVars false

namespace KMC
namespace FitFiles
open Spec NEBLoader

variable {K : Type}

theorem splitOn_plain {c : Char} {t : Text} (h : c ∉ t) : splitOn c t = [t] := by
  induction t with
  | nil => rfl
  | cons x t ih =>
    rw [List.mem_cons, not_or] at h
    simp only [splitOn]
    rw [if_neg (Ne.symm h.1), ih h.2]

theorem splitOn_ne_nil (c : Char) (t : Text) : splitOn c t ≠ [] := by
  cases t with
  | nil => simp [splitOn]
  | cons x t =>
    simp only [splitOn]
    split
    · simp
    · split <;> simp

theorem splitOn_append (c : Char) (a b : Text) : splitOn c (a ++ c :: b) = splitOn c a ++ splitOn c b := by
  induction a with
  | nil => simp [splitOn]
  | cons x a ih =>
    simp only [List.cons_append, splitOn]
    split
    · rw [ih]; rfl
    · rw [ih]
      cases h : splitOn c a with
      | nil => exact absurd h (splitOn_ne_nil c a)
      | cons w ws => rfl

theorem words_append (a b : Text) : words (a ++ ' ' :: b) = words a ++ words b := by
  unfold words
  rw [splitOn_append, List.filter_append]

theorem words_plain {t : Text} (h : ' ' ∉ t) (h0 : t ≠ []) : words t = [t] := by
  unfold words
  rw [splitOn_plain h]
  simp [h0]

theorem words_nil : words [] = [] := by simp [words, splitOn]

theorem tokens_append (a b : Text) : tokens (a ++ '\n' :: b) = tokens a ++ tokens b := by
  unfold tokens
  rw [splitOn_append, List.map_append, List.filter_append]

theorem tokens_nil : tokens [] = [] := by simp [tokens, splitOn, words_nil]

theorem tokens_plain {t : Text} (h : '\n' ∉ t) : tokens t = if words t = [] then [] else [words t] := by
  unfold tokens
  rw [splitOn_plain h]
  by_cases h0 : words t = []
  · simp [h0]
  · simp [h0]

/-- A first part of two texts joined by a character is a first part of the first, or it contains the first. -/
theorem prefix_join {p a b : Text} {c : Char} (h : p <+: a ++ c :: b) :
    p <+: a ∨ ∃ q, p = a ++ c :: q ∧ q <+: b := by
  obtain ⟨r, hr⟩ := h
  rcases List.append_eq_append_iff.1 hr with ⟨s, h1, h2⟩ | ⟨s, h1, h2⟩
  · exact .inl ⟨s, h1.symm⟩
  · cases s with
    | nil =>
      left
      rw [List.append_nil] at h1
      rw [h1]
      exact List.prefix_refl a
    | cons x s =>
      right
      simp only [List.cons_append, List.cons.injEq] at h2
      obtain ⟨rfl, h2⟩ := h2
      exact ⟨s, h1, ⟨r, h2.symm⟩⟩

/-- The words of a complete line. -/
theorem words_joinWords {io : NumberText K} (hio : ReadsBack io) (r : List K) :
    words (joinWords (r.map io.write)) = r.map io.write := by
  induction r with
  | nil => simp [joinWords, words_nil]
  | cons v r ih =>
    cases r with
    | nil => simp only [List.map_cons, List.map_nil, joinWords]; exact words_plain (hio.plain v).1 (hio.nonempty v)
    | cons u r =>
      simp only [List.map_cons, joinWords] at ih ⊢
      rw [words_append, ih, words_plain (hio.plain v).1 (hio.nonempty v)]
      rfl

theorem joinWords_plain {io : NumberText K} (hio : ReadsBack io) (r : List K) :
    '\n' ∉ joinWords (r.map io.write) := by
  induction r with
  | nil => simp [joinWords]
  | cons v r ih =>
    cases r with
    | nil => simpa [joinWords] using (hio.plain v).2
    | cons u r =>
      simp only [List.map_cons, joinWords, List.mem_append, List.mem_cons, not_or] at ih ⊢
      exact ⟨(hio.plain v).2, by decide, ih⟩

/-- The words of a line that was written in part: some complete ones, and at most one that is cut. -/
theorem words_cut {io : NumberText K} (hio : ReadsBack io) (r : List K) {p : Text}
    (h : p <+: joinWords (r.map io.write)) :
    (words p).length ≤ r.length ∧ ∀ k : Nat, k + 1 < (words p).length → (words p)[k]? = (r[k]?).map io.write := by
  induction r generalizing p with
  | nil =>
    simp only [List.map_nil, joinWords, List.prefix_nil] at h
    subst h
    simp [words_nil]
  | cons v r ih =>
    have small : p <+: io.write v → (words p).length ≤ 1 := by
      intro hp
      by_cases h0 : p = []
      · subst h0; simp [words_nil]
      · rw [words_plain (fun hx => (hio.plain v).1 (hp.subset hx)) h0]; simp
    cases r with
    | nil =>
      simp only [List.map_cons, List.map_nil, joinWords] at h
      have := small h
      exact ⟨by simpa using this, fun k hk => by omega⟩
    | cons u r =>
      simp only [List.map_cons, joinWords] at h ih
      rcases prefix_join h with h1 | ⟨q, rfl, h2⟩
      · have := small h1
        exact ⟨by simp only [List.length_cons]; omega, fun k hk => by omega⟩
      · obtain ⟨i1, i2⟩ := ih h2
        rw [words_append, words_plain (hio.plain v).1 (hio.nonempty v)]
        refine ⟨by simp only [List.length_append, List.length_cons, List.length_nil] at i1 ⊢; omega, ?_⟩
        intro k hk
        cases k with
        | zero => simp
        | succ k =>
          simp only [List.length_append, List.length_cons, List.length_nil] at hk
          have := i2 k (by omega)
          simpa using this

theorem savetxt_cons (io : NumberText K) (r : List K) (rows : List (List K)) :
    savetxt io (r :: rows) = joinWords (r.map io.write) ++ '\n' :: savetxt io rows := by
  simp [savetxt]

/-- The words of a complete table. -/
theorem tokens_savetxt {io : NumberText K} (hio : ReadsBack io) (rows : List (List K)) (h : ∀ r ∈ rows, r ≠ []) :
    tokens (savetxt io rows) = rows.map fun r => r.map io.write := by
  induction rows with
  | nil => simp [savetxt, tokens_nil]
  | cons r rows ih =>
    rw [savetxt_cons, tokens_append, ih fun r' hr' => h r' (List.mem_cons_of_mem _ hr'),
      tokens_plain (joinWords_plain hio r), words_joinWords hio, if_neg (by simpa using h r (by simp))]
    rfl

/-- The words of a table that was written in part: complete lines, and at most one that is cut. -/
theorem tokens_cut {io : NumberText K} (hio : ReadsBack io) (rows : List (List K)) (h : ∀ r ∈ rows, r ≠ []) {p : Text}
    (hp : p <+: savetxt io rows) : ∃ k ≤ rows.length,
      tokens p = (rows.take k).map (fun r => r.map io.write) ∨
      ∃ (r : List K) (q : Text), rows[k]? = some r ∧ q <+: joinWords (r.map io.write) ∧ words q ≠ [] ∧
        tokens p = (rows.take k).map (fun r => r.map io.write) ++ [words q] := by
  induction rows generalizing p with
  | nil =>
    simp only [savetxt, List.flatMap_nil, List.prefix_nil] at hp
    subst hp
    exact ⟨0, Nat.le_refl _, .inl (by simp [tokens_nil])⟩
  | cons r rows ih =>
    rw [savetxt_cons] at hp
    rcases prefix_join hp with h1 | ⟨q, rfl, h2⟩
    · have hpl : '\n' ∉ p := fun hx => joinWords_plain hio r (h1.subset hx)
      refine ⟨0, by omega, ?_⟩
      rw [tokens_plain hpl]
      by_cases h0 : words p = []
      · left; simp [h0]
      · right; exact ⟨r, p, rfl, h1, h0, by simp [h0]⟩
    · obtain ⟨k, hk, hcase⟩ := ih (fun r' hr' => h r' (List.mem_cons_of_mem _ hr')) h2
      have e1 : tokens (joinWords (r.map io.write) ++ '\n' :: q) = (r.map io.write) :: tokens q := by
        rw [tokens_append, tokens_plain (joinWords_plain hio r), words_joinWords hio,
          if_neg (by simpa using h r (by simp))]
        rfl
      refine ⟨k + 1, by simpa using hk, ?_⟩
      rw [e1]
      rcases hcase with h3 | ⟨r', q', h3, h4, h5, h6⟩
      · left; rw [h3]; simp
      · right; exact ⟨r', q', by simpa using h3, h4, h5, by rw [h6]; simp⟩

theorem readRow_write {io : NumberText K} (hio : ReadsBack io) (r : List K) : readRow io (r.map io.write) = .ok r := by
  induction r with
  | nil => rfl
  | cons v r ih => simp only [List.map_cons, readRow, hio.back, ih]

theorem readRow_length {io : NumberText K} {ws : List Text} {r : List K} (h : readRow io ws = .ok r) :
    r.length = ws.length := by
  induction ws generalizing r with
  | nil => cases h; rfl
  | cons w ws ih =>
    simp only [readRow] at h
    cases hw : io.read w with
    | none => rw [hw] at h; cases h
    | some v =>
      rw [hw] at h
      cases hr : readRow io ws with
      | error e => rw [hr] at h; cases h
      | ok vs =>
        rw [hr] at h
        cases h
        simp [ih hr]

theorem readRows_write {io : NumberText K} (hio : ReadsBack io) (rows : List (List K)) :
    readRows io (rows.map fun r => r.map io.write) = .ok rows := by
  induction rows with
  | nil => rfl
  | cons r rows ih => simp only [List.map_cons, readRows, readRow_write hio, ih]

theorem readRows_append {io : NumberText K} (a b : List (List Text)) {x y : List (List K)} (ha : readRows io a = .ok x)
    (hb : readRows io b = .ok y) : readRows io (a ++ b) = .ok (x ++ y) := by
  induction a generalizing x with
  | nil => cases ha; simpa using hb
  | cons r a ih =>
    simp only [readRows] at ha
    cases hr : readRow io r with
    | error e => rw [hr] at ha; cases ha
    | ok v =>
      rw [hr] at ha
      cases hs : readRows io a with
      | error e => rw [hs] at ha; cases ha
      | ok vs =>
        rw [hs] at ha
        cases ha
        simp only [List.cons_append, readRows, hr, ih hs]

theorem readRows_append_ok {io : NumberText K} (a b : List (List Text)) {z : List (List K)}
    (h : readRows io (a ++ b) = .ok z) : ∃ x y, readRows io a = .ok x ∧ readRows io b = .ok y ∧ z = x ++ y := by
  induction a generalizing z with
  | nil => exact ⟨[], z, rfl, h, rfl⟩
  | cons r a ih =>
    simp only [List.cons_append, readRows] at h ⊢
    cases hr : readRow io r with
    | error e => rw [hr] at h; cases h
    | ok v =>
      rw [hr] at h
      cases hs : readRows io (a ++ b) with
      | error e => rw [hs] at h; cases h
      | ok vs =>
        rw [hs] at h
        cases h
        obtain ⟨x, y, h1, h2, rfl⟩ := ih hs
        exact ⟨v :: x, y, by simp [h1], h2, rfl⟩

/-- A complete table is read as it was written. -/
theorem loadTable_savetxt {io : NumberText K} (hio : ReadsBack io) {rows : List (List K)} {n : Nat} (hn : 0 < n)
    (h : ∀ r ∈ rows, r.length = n) : loadTable io (savetxt io rows) = .ok rows := by
  have hne : ∀ r ∈ rows, r ≠ [] := by
    rintro r hr rfl
    have := h _ hr
    simp at this
    omega
  unfold loadTable
  rw [tokens_savetxt hio rows hne, readRows_write hio]
  dsimp only
  rw [if_pos]
  intro r hr
  cases rows with
  | nil => cases hr
  | cons r0 rows => rw [h r hr]; exact (h r0 (by simp)).symm

/-- What can be read of a table that was written in part. -/
theorem loadTable_cut {io : NumberText K} (hio : ReadsBack io) {rows : List (List K)} {n : Nat} (hn : 0 < n)
    (h : ∀ r ∈ rows, r.length = n) {p : Text} (hp : p <+: savetxt io rows) {x : List (List K)}
    (hx : loadTable io p = .ok x) :
    ∃ k ≤ rows.length, x = rows.take k ∨
      ∃ r last, rows[k]? = some r ∧ x = rows.take k ++ [last] ∧ last.length ≤ r.length := by
  have hne : ∀ r ∈ rows, r ≠ [] := by
    rintro r hr rfl
    have := h _ hr
    simp at this
    omega
  unfold loadTable at hx
  cases hr : readRows io (tokens p) with
  | error e => rw [hr] at hx; cases hx
  | ok z =>
    rw [hr] at hx
    dsimp only at hx
    split at hx
    · obtain rfl := Except.ok.inj hx
      obtain ⟨k, hk, h1 | ⟨r, q, h1, h2, h3, h4⟩⟩ := tokens_cut hio rows hne hp
      · rw [h1, readRows_write hio] at hr
        exact ⟨k, hk, .inl (Except.ok.inj hr).symm⟩
      · rw [h4] at hr
        obtain ⟨a, b, g1, g2, rfl⟩ := readRows_append_ok _ _ hr
        rw [readRows_write hio] at g1
        obtain rfl := Except.ok.inj g1
        simp only [readRows] at g2
        cases hq : readRow io (words q) with
        | error e => rw [hq] at g2; cases g2
        | ok v =>
          rw [hq] at g2
          cases g2
          exact ⟨k, hk, .inr ⟨r, v, h1, rfl, by rw [readRow_length hq]; exact (words_cut hio r h2).1⟩⟩
    · cases hx

/-- The three files with the content of a data set. -/
def writesOf (io : NumberText K) (f : FitInputs K K K) (p : Paths) : List (String × Text) :=
  [(p.corr, savetxt io f.correlation), (p.ekra, savetxt io (f.ekra.map fun v => [v])),
    (p.weight, savetxt io (f.weight.map fun v => [v]))]

theorem exportWrites_ok {M R S α : Type} (io : NumberText K) {L : Loader M R S K α K} {w : Weight K}
    {f : FitInputs K K K} (p : Paths) (h : fittingInputs L w = .ok f) :
    exportWrites io L w p = (.ok (), writesOf io f p) := by
  simp only [fittingInputs] at h
  simp only [exportWrites]
  split at h
  · cases h
  · rename_i h0
    rw [if_neg h0]
    cases hc : correlationMatrix L with
    | error e => rw [hc] at h; cases h
    | ok c =>
      rw [hc] at h
      cases hy : properties L with
      | error e => rw [hy] at h; cases h
      | ok y =>
        rw [hy] at h
        dsimp only at h
        cases hw : weights w L.entries.length with
        | error e => rw [hw] at h; cases h
        | ok ws =>
          rw [hw] at h
          cases h
          rfl

theorem exportWrites_rejected {M R S α : Type} (io : NumberText K) {L : Loader M R S K α K} {w w' : Weight K}
    {f : FitInputs K K K} (p : Paths) (h : fittingInputs L w = .ok f)
    (hw' : weights w' L.entries.length = .error .valueError) :
    exportWrites io L w' p = (.error .valueError, [(p.corr, savetxt io f.correlation),
      (p.ekra, savetxt io (f.ekra.map fun v => [v]))]) := by
  simp only [fittingInputs] at h
  simp only [exportWrites]
  split at h
  · cases h
  · rename_i h0
    rw [if_neg h0]
    cases hc : correlationMatrix L with
    | error e => rw [hc] at h; cases h
    | ok c =>
      rw [hc] at h
      cases hy : properties L with
      | error e => rw [hy] at h; cases h
      | ok y =>
        rw [hy] at h
        dsimp only at h
        cases hw : weights w L.entries.length with
        | error e => rw [hw] at h; cases h
        | ok ws =>
          rw [hw] at h
          cases h
          simp only [hw']

theorem flatten_singletons (v : List K) : (v.map fun x => [x]).flatten = v := by
  induction v with
  | nil => rfl
  | cons x v ih => simpa using ih

theorem loadColumn_full {io : NumberText K} (hio : ReadsBack io) {d : Folder} {path : String} {v : List K}
    (h : d path = some (savetxt io (v.map fun x => [x]))) : loadColumn io d path = .ok v := by
  unfold loadColumn loadFile
  rw [h]
  dsimp only
  have hl : ∀ r ∈ v.map (fun x => [x]), r.length = 1 := by
    intro r hr
    obtain ⟨x, _, rfl⟩ := List.mem_map.1 hr
    rfl
  rw [loadTable_savetxt hio (n := 1) (by omega) hl]
  dsimp only
  rw [if_pos hl]
  rw [flatten_singletons]

theorem loadFile_full {io : NumberText K} (hio : ReadsBack io) {d : Folder} {path : String} {rows : List (List K)}
    (hr : ∃ n, 2 ≤ n ∧ ∀ r ∈ rows, r.length = n) (h : d path = some (savetxt io rows)) :
    loadFile io d path = .ok rows := by
  obtain ⟨n, hn, hl⟩ := hr
  unfold loadFile
  rw [h]
  exact loadTable_savetxt hio (n := n) (by omega) hl

/-- What can be read of a column that was written in part. -/
theorem loadColumn_cut {io : NumberText K} (hio : ReadsBack io) {d : Folder} {path : String} {v x : List K} {part : Text}
    (hp : part <+: savetxt io (v.map fun x => [x])) (h : d path = some part) (hx : loadColumn io d path = .ok x) :
    x.length ≤ v.length ∧ (x.length = v.length → SameButLast x v) := by
  have hl : ∀ r ∈ v.map (fun x => [x]), r.length = 1 := by
    intro r hr
    obtain ⟨x, _, rfl⟩ := List.mem_map.1 hr
    rfl
  unfold loadColumn loadFile at hx
  rw [h] at hx
  dsimp only at hx
  cases ht : loadTable io part with
  | error e => rw [ht] at hx; cases hx
  | ok rows =>
    rw [ht] at hx
    dsimp only at hx
    split at hx
    · rename_i h1
      obtain rfl := Except.ok.inj hx
      obtain ⟨k, hk, rfl | ⟨r, last, g1, rfl, g3⟩⟩ := loadTable_cut hio (n := 1) (by omega) hl hp ht
      · rw [List.length_map] at hk
        rw [← List.map_take, flatten_singletons, List.length_take, Nat.min_eq_left hk]
        refine ⟨hk, fun e => ?_⟩
        rw [List.take_of_length_le (by omega)]
        exact ⟨rfl, rfl⟩
      · have hlast : last.length = 1 := h1 last (by simp)
        have hkl : k < v.length := by
          by_contra hc
          rw [List.getElem?_eq_none (by rw [List.length_map]; omega)] at g1
          cases g1
        obtain ⟨y, rfl⟩ := List.length_eq_one_iff.1 hlast
        rw [List.flatten_append, ← List.map_take, flatten_singletons]
        simp only [List.flatten_cons, List.flatten_nil, List.append_nil, List.length_append, List.length_take,
          List.length_cons, List.length_nil]
        refine ⟨by omega, fun e => ⟨by simp; omega, ?_⟩⟩
        rw [List.dropLast_concat, List.dropLast_eq_take]
        congr 1
        omega
    · cases hx

/-- How many lines can be read of a table that was written in part. -/
theorem loadFile_cut_length {io : NumberText K} (hio : ReadsBack io) {d : Folder} {path : String}
    {rows x : List (List K)} {part : Text} (hr : ∃ n, 2 ≤ n ∧ ∀ r ∈ rows, r.length = n)
    (hp : part <+: savetxt io rows) (h : d path = some part) (hx : loadFile io d path = .ok x) :
    x.length ≤ rows.length := by
  obtain ⟨n, hn, hl⟩ := hr
  unfold loadFile at hx
  rw [h] at hx
  obtain ⟨k, hk, rfl | ⟨r, last, g1, rfl, g3⟩⟩ := loadTable_cut hio (n := n) (by omega) hl hp hx
  · rw [List.length_take]
    omega
  · have : k < rows.length := by
      by_contra hc
      rw [List.getElem?_eq_none (by omega)] at g1
      cases g1
    simp
    omega

/-- The parts of an accepted fit. -/
theorem fitData_ok {io : NumberText K} {d : Folder} {p : Paths} {g : FitInputs K K K} (h : fitData io d p = .ok g) :
    loadColumn io d p.ekra = .ok g.ekra ∧ loadColumn io d p.weight = .ok g.weight ∧
      loadFile io d p.corr = .ok g.correlation ∧ g.correlation.length = g.ekra.length ∧
      g.weight.length = g.ekra.length ∧ 2 ≤ g.ekra.length := by
  unfold fitData at h
  cases hy : loadColumn io d p.ekra with
  | error e => rw [hy] at h; cases h
  | ok y =>
    rw [hy] at h
    dsimp only at h
    cases hw : loadColumn io d p.weight with
    | error e => rw [hw] at h; cases h
    | ok ws =>
      rw [hw] at h
      dsimp only at h
      cases hc : loadFile io d p.corr with
      | error e => rw [hc] at h; cases h
      | ok c =>
        rw [hc] at h
        dsimp only at h
        split at h
        · rename_i hh
          obtain rfl := Except.ok.inj h
          exact ⟨rfl, rfl, rfl, hh.1, hh.2.1, hh.2.2.1⟩
        · cases h

theorem fitData_of {io : NumberText K} {d : Folder} {p : Paths} {c : List (List K)} {y ws : List K}
    (hy : loadColumn io d p.ekra = .ok y) (hw : loadColumn io d p.weight = .ok ws)
    (hc : loadFile io d p.corr = .ok c) (h1 : c.length = y.length) (h2 : ws.length = y.length) (h3 : 2 ≤ y.length)
    (h4 : ∃ n, 2 ≤ n ∧ ∀ r ∈ c, r.length = n) : fitData io d p = .ok ⟨c, y, ws⟩ := by
  unfold fitData
  rw [hy, hw, hc]
  dsimp only
  rw [if_pos]
  refine ⟨h1, h2, h3, ?_⟩
  obtain ⟨n, hn, hl⟩ := h4
  cases c with
  | nil => simp at h1; omega
  | cons r c => rw [List.headD_cons, hl r (by simp)]; exact hn

/-- What an interrupted export leaves in the three files. -/
theorem interrupted_cases {io : NumberText K} {f : FitInputs K K K} {p : Paths} {d d' : Folder}
    (hd : p.corr ≠ p.ekra ∧ p.corr ≠ p.weight ∧ p.ekra ≠ p.weight) (h : Interrupted d (writesOf io f p) d') :
    d' = d ∨
    (∃ part, part <+: savetxt io f.correlation ∧ d' p.corr = some part ∧ d' p.ekra = d p.ekra ∧
      d' p.weight = d p.weight) ∨
    (∃ part, part <+: savetxt io (f.ekra.map fun v => [v]) ∧ d' p.corr = some (savetxt io f.correlation) ∧
      d' p.ekra = some part ∧ d' p.weight = d p.weight) ∨
    (∃ part, part <+: savetxt io (f.weight.map fun v => [v]) ∧ d' p.corr = some (savetxt io f.correlation) ∧
      d' p.ekra = some (savetxt io (f.ekra.map fun v => [v])) ∧ d' p.weight = some part) := by
  obtain ⟨h1, h2, h3⟩ := hd
  unfold writesOf at h
  cases h with
  | before => exact .inl rfl
  | during _ _ _ part _ hp =>
    refine .inr (.inl ⟨part, hp, ?_⟩)
    simp [Ne.symm h1, Ne.symm h2]
  | after _ _ _ _ _ h =>
    cases h with
    | before =>
      refine .inr (.inl ⟨_, List.prefix_refl _, ?_⟩)
      simp [Ne.symm h1, Ne.symm h2]
    | during _ _ _ part _ hp =>
      refine .inr (.inr (.inl ⟨part, hp, ?_⟩))
      simp [h1, Ne.symm h3, Ne.symm h2]
    | after _ _ _ _ _ h =>
      cases h with
      | before =>
        refine .inr (.inr (.inl ⟨_, List.prefix_refl _, ?_⟩))
        simp [h1, Ne.symm h3, Ne.symm h2]
      | during _ _ _ part _ hp =>
        refine .inr (.inr (.inr ⟨part, hp, ?_⟩))
        simp [h1, h2, h3]
      | after _ _ _ _ _ h =>
        cases h with
        | before =>
          refine .inr (.inr (.inr ⟨_, List.prefix_refl _, ?_⟩))
          simp [h1, h2, h3]

theorem putAll_files {io : NumberText K} {f : FitInputs K K K} {p : Paths} (d : Folder)
    (hd : p.corr ≠ p.ekra ∧ p.corr ≠ p.weight ∧ p.ekra ≠ p.weight) :
    putAll d (writesOf io f p) p.corr = some (savetxt io f.correlation) ∧
    putAll d (writesOf io f p) p.ekra = some (savetxt io (f.ekra.map fun v => [v])) ∧
    putAll d (writesOf io f p) p.weight = some (savetxt io (f.weight.map fun v => [v])) := by
  obtain ⟨h1, h2, h3⟩ := hd
  simp [putAll, writesOf, Folder.put, h1, h2, h3]

/-- The first lines of a table are a first part of its text. -/
theorem savetxt_take (io : NumberText K) (rows : List (List K)) (k : Nat) :
    savetxt io (rows.take k) <+: savetxt io rows := by
  refine ⟨savetxt io (rows.drop k), ?_⟩
  unfold savetxt
  rw [← List.flatMap_append, List.take_append_drop]

/-- A column whose last number is cut. -/
theorem savetxt_cut_last (io : NumberText K) (v : List K) (x : K) {q : Text} (hq : q <+: io.write x) :
    savetxt io (v.map fun x => [x]) ++ q <+: savetxt io ((v ++ [x]).map fun x => [x]) := by
  obtain ⟨r, hr⟩ := hq
  refine ⟨r ++ ['\n'], ?_⟩
  simp [savetxt, joinWords, ← hr]

theorem tokens_cut_last {io : NumberText K} (hio : ReadsBack io) (v : List K) (x : K) {q : Text}
    (hq : q <+: io.write x) (h0 : q ≠ []) :
    tokens (savetxt io (v.map fun x => [x]) ++ q) = (v.map fun x => [x]).map (fun r => r.map io.write) ++ [[q]] := by
  have hq1 : ' ' ∉ q := fun hx => (hio.plain x).1 (hq.subset hx)
  have hq2 : '\n' ∉ q := fun hx => (hio.plain x).2 (hq.subset hx)
  induction v with
  | nil =>
    simp only [List.map_nil, savetxt, List.flatMap_nil, List.nil_append]
    rw [tokens_plain hq2, words_plain hq1 h0, if_neg (by simp)]
  | cons z v ih =>
    rw [List.map_cons, savetxt_cons, List.append_assoc, List.cons_append, tokens_append, ih,
      tokens_plain (joinWords_plain hio [z]), words_joinWords hio, if_neg (by simp)]
    simp

theorem loadColumn_cut_last {io : NumberText K} (hio : ReadsBack io) (v : List K) (x y : K) {q : Text}
    (hq : q <+: io.write x) (hr : io.read q = some y) (h0 : q ≠ []) {d : Folder} {path : String}
    (h : d path = some (savetxt io (v.map fun x => [x]) ++ q)) : loadColumn io d path = .ok (v ++ [y]) := by
  have hl : ∀ r ∈ (v ++ [y]).map (fun x => [x]), r.length = 1 := by
    intro r hr
    obtain ⟨x, _, rfl⟩ := List.mem_map.1 hr
    rfl
  have hrow : readRows io [[q]] = .ok [[y]] := by simp [readRows, readRow, hr]
  unfold loadColumn loadFile loadTable
  rw [h]
  dsimp only
  rw [tokens_cut_last hio v x hq h0, readRows_append _ _ (readRows_write hio _) hrow]
  have e : (v.map fun x => [x]) ++ [[y]] = (v ++ [y]).map fun x => [x] := by simp
  rw [e]
  dsimp only
  rw [if_pos]
  · dsimp only
    rw [if_pos hl, flatten_singletons]
  · intro r hr'
    rw [hl r hr']
    cases v with
    | nil => rfl
    | cons z v => rfl

end FitFiles
end KMC
