import Verif.Lemmas.TransportTable
import Verif.Props.ResultsProps
import Verif.Props.ToolsProps
/-
C147: the table of transport data made by `collect_transport_data`.
-/
namespace KMC
open KMC.Spec TransportTable

variable {K : Type} [Ring K]

/-- The table is made exactly when every folder has a readable file for each of its 2000 passes; it then has
one row for each folder and pass, folders first, and nothing else. -/
theorem C147_rows (rd : Readers K) (results : List String) (rows : List (Row K)) :
    collect rd results = .ok rows ↔
      List.Forall₂ (fun p r => RowFor rd p.1 p.2 r) (folderPasses results) rows := by
  rw [collect, folders_rowsOf, rowsOf_ok]
  simp

/-- The row of the `i`-th folder and of pass `n` is found at position `2000 i + n`. -/
theorem C147_position (rd : Readers K) (results : List String) (rows : List (Row K))
    (h : collect rd results = .ok rows) :
    rows.length = 2000 * results.length ∧
    ∀ (i n : Nat) (f : String), results[i]? = some f → n < 2000 →
      ∃ r, rows[2000 * i + n]? = some r ∧ RowFor rd f n r := by
  have hF := (C147_rows rd results rows).1 h
  clear h
  induction results generalizing rows with
  | nil =>
    cases hF
    exact ⟨rfl, fun i n f hf => by simp at hf⟩
  | cons g gs ih =>
    rw [folderPasses_cons] at hF
    have hpn : passNumbers.length = 2000 := List.length_range
    have hlen := hF.length_eq
    obtain ⟨h1, h2⟩ : List.Forall₂ (fun p r => RowFor rd p.1 p.2 r)
        (passNumbers.map fun n => (g, n)) (rows.take 2000) ∧
        List.Forall₂ (fun p r => RowFor rd p.1 p.2 r) (folderPasses gs) (rows.drop 2000) := by
      have a := List.forall₂_take 2000 hF
      have b := List.forall₂_drop 2000 hF
      rw [List.take_left' (by rw [List.length_map, hpn])] at a
      rw [List.drop_left' (by rw [List.length_map, hpn])] at b
      exact ⟨a, b⟩
    obtain ⟨hl, hr⟩ := ih _ h2
    have htake : (rows.take 2000).length = 2000 := by rw [← h1.length_eq, List.length_map, hpn]
    have hle : 2000 ≤ rows.length := by
      rw [List.length_take] at htake; omega
    constructor
    · rw [List.length_drop] at hl
      rw [List.length_cons]; omega
    · intro i n f hf hn
      cases i with
      | zero =>
        simp only [List.getElem?_cons_zero, Option.some.injEq] at hf
        subst hf
        have hlt : n < (rows.take 2000).length := by omega
        have := (List.forall₂_iff_get.1 h1).2 n (by rw [List.length_map, hpn]; exact hn) hlt
        refine ⟨rows[n], ?_, ?_⟩
        · rw [Nat.mul_zero, Nat.zero_add]
          exact List.getElem?_eq_getElem _
        · simpa [passNumbers] using this
      | succ i =>
        rw [List.getElem?_cons_succ] at hf
        obtain ⟨r, hr1, hr2⟩ := hr i n f hf hn
        refine ⟨r, ?_, hr2⟩
        rw [List.getElem?_drop] at hr1
        have hidx : 2000 * (i + 1) + n = 2000 + (2000 * i + n) := by omega
        rw [hidx]
        exact hr1

/-- It is all or nothing: a single file that cannot be read, or does not hold four numbers, and there is no
table at all, whatever the other folders hold. -/
theorem C147_all_or_nothing (rd : Readers K) (results : List String) (f : String) (n : Nat)
    (hf : f ∈ results) (hn : n < 2000)
    (hbad : ∀ a b c d, rd.loadtxt (f ++ "/migration_" ++ intStr (n : Int) ++ ".txt") ≠ .ok [a, b, c, d]) :
    ∃ e, collect rd results = .error e := by
  cases h : collect rd results with
  | error e => exact ⟨e, rfl⟩
  | ok rows =>
    obtain ⟨i, hi⟩ := List.mem_iff_getElem?.1 hf
    obtain ⟨r, -, hr⟩ := (C147_position rd results rows h).2 i n f hi hn
    exact absurd hr.numbers (hbad _ _ _ _)

/-- The error is that of the first folder and pass, in the order of the table, that has no row: the name of
the folder is read before its file, and the file before the thermodynamic factor. -/
theorem C147_first_failure (rd : Readers K) (results : List String) (e : PyErr) :
    collect rd results = .error e ↔
      ∃ before f n after, folderPasses results = before ++ (f, n) :: after ∧
        (∀ q ∈ before, ∃ r, RowFor rd q.1 q.2 r) ∧
        ((xOf rd f = .error e) ∨
          (∃ x, xOf rd f = .ok x ∧
            (idOf rd f = .error e ∨
              ∃ i, idOf rd f = .ok i ∧
                (rd.loadtxt (fileOf f n) = .error e ∨
                  ∃ l, rd.loadtxt (fileOf f n) = .ok l ∧
                    ((l.length ≠ 4 ∧ e = .valueError) ∨ (l.length = 4 ∧ rd.spline x = .error e)))))) := by
  have hrow : ∀ f n, rowOf rd f n = .error e ↔ ((xOf rd f = .error e) ∨
          (∃ x, xOf rd f = .ok x ∧
            (idOf rd f = .error e ∨
              ∃ i, idOf rd f = .ok i ∧
                (rd.loadtxt (fileOf f n) = .error e ∨
                  ∃ l, rd.loadtxt (fileOf f n) = .ok l ∧
                    ((l.length ≠ 4 ∧ e = .valueError) ∨ (l.length = 4 ∧ rd.spline x = .error e)))))) := by
    intro f n
    unfold rowOf
    cases xOf rd f with
    | error y => simp
    | ok x =>
      cases idOf rd f with
      | error y => simp
      | ok i =>
        cases rd.loadtxt (fileOf f n) with
        | error y => simp
        | ok l =>
          match l with
          | [] => simp [unpack4, eq_comm]
          | [_] => simp [unpack4, eq_comm]
          | [_, _] => simp [unpack4, eq_comm]
          | [_, _, _] => simp [unpack4, eq_comm]
          | [_, _, _, _] => cases hsp : rd.spline x <;> simp [unpack4, hsp]
          | _ :: _ :: _ :: _ :: _ :: _ => simp [unpack4, eq_comm]
  rw [collect, folders_rowsOf, rowsOf_error]
  constructor
  · rintro ⟨b, ⟨f, n⟩, a, h, hb, he⟩
    exact ⟨b, f, n, a, h, hb, (hrow f n).1 he⟩
  · rintro ⟨b, f, n, a, h, hb, he⟩
    exact ⟨b, (f, n), a, h, hb, (hrow f n).2 he⟩

/-- From a folder `comp_<composition>_<number>` without further underscores both are read back. -/
theorem C147_folder_name (rd : Readers K) (c s : String) (hc : '_' ∉ c.toList) (hs : '_' ∉ s.toList)
    (hstrip : pyStrip ("comp_" ++ c ++ "_" ++ s) = "comp_" ++ c ++ "_" ++ s) (v : K) (hv : rd.float c = .ok v) :
    xOf rd ("comp_" ++ c ++ "_" ++ s) = .ok (3 - 3 * v) ∧ idOf rd ("comp_" ++ c ++ "_" ++ s) = rd.int s := by
  have htext : ("comp_" ++ c ++ "_" ++ s).toList = "comp".toList ++ '_' :: (c.toList ++ '_' :: s.toList) := by
    simp only [String.toList_append]
    have h1 : "comp_".toList = "comp".toList ++ ['_'] := by decide
    have h2 : "_".toList = ['_'] := by decide
    rw [h1, h2]
    simp
  have h2 : "_".toList = ['_'] := by decide
  have hr : '_' ∉ "comp".toList := by decide
  have hp : Tools.split "_" ("comp_" ++ c ++ "_" ++ s) = ["comp", c, s] := by
    rw [Tools.split, h2, htext, splitGo_piece _ _ hr, splitGo_piece _ _ hc, splitGo_last _ _ hs]
    simp
  simp [xOf, idOf, hstrip, hp, hv]

/-- The first letter of a name made of a fixed beginning and something else. -/
theorem head_append {a : String} {c : Char} (h : a.toList.head? = some c) (b : String) :
    (a ++ b).toList.head? = some c := by
  rw [String.toList_append]
  cases ha : a.toList with
  | nil => rw [ha] at h; cases h
  | cons x l => rw [ha] at h; exact h

theorem writeAll_keys {C T K' : Type} (k : String) (fs ws : Results.Files K' C T)
    (h0 : k ∉ dictKeys fs) (h1 : ∀ w ∈ ws, w.1 ≠ k) : k ∉ dictKeys (Results.writeAll fs ws) := by
  induction ws generalizing fs with
  | nil => exact h0
  | cons w ws ih =>
    obtain ⟨n, c⟩ := w
    refine ih _ ?_ fun w hw => h1 w (List.mem_cons_of_mem _ hw)
    intro hk
    rcases (dictSet_keys_mem _ _ _ _).1 hk with h | h
    · exact h1 (n, c) List.mem_cons_self h.symm
    · exact h0 h

/-- Against the claim that runs of this package can be tabulated: writing results, any number of times under
any labels, never makes a file of the name that is looked for. -/
theorem C147_never_written {O C T K' : Type} (z : Results.Sanitizer O) (n : Nat)
    (history : List (String × Results.Outcome O K' C T)) (fs fs' : Results.Files K' C T)
    (hrun : history.foldl (fun a p => match a with
      | .error e => .error e
      | .ok fs => Results.writeResults z p.1 p.2 fs) (.ok fs) = (.ok fs' : Py (Results.Files K' C T)))
    (h0 : "migration_" ++ intStr (n : Int) ++ ".txt" ∉ dictKeys fs) :
    "migration_" ++ intStr (n : Int) ++ ".txt" ∉ dictKeys fs' := by
  have hm : ("migration_" ++ intStr (n : Int) ++ ".txt").toList.head? = some 'm' :=
    head_append (head_append (by decide) _) _
  have hne : ∀ (w : String) (c : Char), w.toList.head? = some c → c ≠ 'm' →
      w ≠ "migration_" ++ intStr (n : Int) ++ ".txt" := by
    intro w c hw hc he
    rw [he, hm] at hw
    cases hw
    exact hc rfl
  induction history generalizing fs with
  | nil => cases hrun; exact h0
  | cons p l ih =>
    obtain ⟨ws, hws, hval⟩ : ∃ ws, Results.writes z p.1 p.2 = .ok ws ∧ ws = _ :=
      ⟨_, Results.writes_eq z p.1 p.2, rfl⟩
    have heq : Results.writeResults z p.1 p.2 fs = .ok (Results.writeAll fs ws) := by
      simp only [Results.writeResults, hws]
    have hrun' : l.foldl _ (Results.writeResults z p.1 p.2 fs) = .ok fs' := hrun
    rw [heq] at hrun'
    refine ih _ hrun' (writeAll_keys _ _ _ h0 fun w hw => ?_)
    rw [hval] at hw
    rcases List.mem_append.1 hw with hw | hw
    · simp only [List.mem_cons, List.not_mem_nil, or_false] at hw
      rcases hw with rfl | rfl | rfl | rfl | rfl
      · exact hne _ 'd' (head_append (head_append (by decide) _) _) (by decide)
      · exact hne _ 'h' (head_append (head_append (by decide) _) _) (by decide)
      · exact hne _ 'c' (head_append (head_append (by decide) _) _) (by decide)
      · exact hne _ 'r' (head_append (head_append (by decide) _) _) (by decide)
      · exact hne _ 'r' (head_append (head_append (by decide) _) _) (by decide)
    · unfold Results.propertyWrites at hw
      split at hw
      · cases hw
      · simp only [List.mem_cons, List.not_mem_nil, or_false] at hw
        subst hw
        exact hne _ 'p' (head_append (head_append (by decide) _) _) (by decide)

/-! The hypotheses are met. -/

/-- A reader that finds four numbers everywhere except in one file. -/
def sampleReaders (missing : String) : Readers Int where
  float := fun _ => .ok 0
  int := fun _ => .ok 1
  loadtxt := fun f => if f = missing then .error .osError else .ok [4, 2, 1, 7]
  spline := fun x => .ok (x + 1)

example : rowOf (sampleReaders "") "comp_0_1" 5 = .ok ⟨3, 5, 1, 4, 2, 16, 4, 1, 7, "comp_0_1"⟩ := by decide +kernel

example : ∃ rows, collect (sampleReaders "") ["comp_0_1", "comp_0_2"] = .ok rows ∧ rows.length = 4000 := by
  cases h : collect (sampleReaders "") ["comp_0_1", "comp_0_2"] with
  | ok rows => exact ⟨rows, rfl, (C147_position _ _ _ h).1⟩
  | error e =>
    exfalso
    have : (match collect (sampleReaders "") ["comp_0_1", "comp_0_2"] with
      | .ok _ => true | .error _ => false) = true := by decide +kernel
    rw [h] at this
    cases this

example : (∀ a b c d, (sampleReaders "comp_0_1/migration_1999.txt").loadtxt ("comp_0_1" ++ "/migration_" ++
    intStr ((1999 : Nat) : Int) ++ ".txt") ≠ .ok [a, b, c, d]) := by
  have : (sampleReaders "comp_0_1/migration_1999.txt").loadtxt ("comp_0_1" ++ "/migration_" ++
    intStr ((1999 : Nat) : Int) ++ ".txt") = .error .osError := by decide +kernel
  intro a b c d
  rw [this]
  exact fun h => nomatch h

example : pyStrip ("comp_" ++ "0.1" ++ "_" ++ "1") = "comp_" ++ "0.1" ++ "_" ++ "1" := by decide +kernel

end KMC
