import Verif.Model.Checkpoint
import Mathlib.Data.List.Basic
/-
Properties of state files: round trips (C30) and crashes while saving (C64).
-/
namespace KMC
open State

variable {T : Type}

/-! ### Path suffixes -/

theorem endsWith_iff (path ext : String) :
    endsWith path ext = true ↔ ∃ pre, path.toList = pre ++ ext.toList := by
  unfold endsWith
  rw [List.isSuffixOf_iff_suffix]
  constructor
  · rintro ⟨pre, h⟩
    exact ⟨pre, h.symm⟩
  · rintro ⟨pre, h⟩
    exact ⟨pre, h.symm⟩

/-- A file whose whole name is the extension. -/
def BareName (path ext : String) : Prop :=
  path = ext ∨ ∃ dir : List Char, path.toList = dir ++ '/' :: ext.toList

theorem revName_json {path : String} {pre : List Char} (h : path.toList = pre ++ ".json".toList) :
    revName path = 'n' :: 'o' :: 's' :: 'j' :: '.' ::
      (pre.reverse.takeWhile fun c => c ≠ '/') := by
  unfold revName
  rw [h]
  have e : (pre ++ ".json".toList).reverse = 'n' :: 'o' :: 's' :: 'j' :: '.' :: pre.reverse := by
    rw [List.reverse_append]
    rfl
  rw [e]
  simp

theorem suffix_json {path : String} (h : endsWith path ".json" = true) :
    (BareName path ".json" ∧ suffixLower path = []) ∨
    (¬ BareName path ".json" ∧ suffixLower path = ".json".toList) := by
  obtain ⟨pre, h⟩ := (endsWith_iff _ _).1 h
  unfold suffixLower
  rw [revName_json h]
  simp only [ne_eq, decide_not, List.takeWhile_cons, List.dropWhile_cons]
  have hb : (pre.reverse.takeWhile fun c => !decide (c = '/')) = [] ↔ BareName path ".json" := by
    constructor
    · intro hn
      cases hr : pre.reverse with
      | nil =>
        left
        have : pre = [] := by simpa using hr
        rw [this] at h
        exact String.toList_injective h
      | cons a l =>
        right
        rw [hr, List.takeWhile_cons] at hn
        by_cases ha : a = '/'
        · subst ha
          refine ⟨l.reverse, ?_⟩
          have : pre = l.reverse ++ ['/'] := by
            have := congrArg List.reverse hr
            simpa using this
          rw [h, this]
          simp
        · simp [ha] at hn
    · rintro (rfl | ⟨dir, hd⟩)
      · have : pre = [] := by
          have := congrArg List.length h
          simp only [List.length_append] at this
          have : pre.length = 0 := by omega
          simpa using this
        rw [this]
        rfl
      · have : pre = dir ++ ['/'] := by
          rw [h] at hd
          have e : dir ++ '/' :: ".json".toList = (dir ++ ['/']) ++ ".json".toList := by simp
          rw [e] at hd
          exact List.append_cancel_right hd
        rw [this]
        simp
  by_cases hbn : BareName path ".json"
  · left
    refine ⟨hbn, ?_⟩
    have := hb.2 hbn
    simp only [show ('n' = '.') = False by decide, show ('o' = '.') = False by decide,
      show ('s' = '.') = False by decide, show ('j' = '.') = False by decide, decide_false,
      Bool.not_false, Bool.not_true, if_true, decide_true, this]
    simp
  · right
    refine ⟨hbn, ?_⟩
    have : (pre.reverse.takeWhile fun c => !decide (c = '/')) ≠ [] := fun e => hbn (hb.1 e)
    simp only [show ('n' = '.') = False by decide, show ('o' = '.') = False by decide,
      show ('s' = '.') = False by decide, show ('j' = '.') = False by decide, decide_false,
      Bool.not_false, Bool.not_true, if_true, decide_true, Bool.false_eq_true, if_false]
    rw [if_neg]
    · decide
    · rintro (e | e)
      · exact this e
      · cases e

theorem endsWith_exclusive {path : String} (h : endsWith path ".json" = true) :
    endsWith path ".h5" = false := by
  by_contra hn
  have hn : endsWith path ".h5" = true := by simpa using hn
  obtain ⟨a, ha⟩ := (endsWith_iff _ _).1 h
  obtain ⟨b, hb⟩ := (endsWith_iff _ _).1 hn
  have := congrArg List.reverse (ha.symm.trans hb)
  rw [List.reverse_append, List.reverse_append] at this
  have e := congrArg List.head? this
  revert e
  simp

/-! ### C30 -/

/-- C30.  The dictionary form gives the state back. -/
theorem C30_dict_round_trip (s : State T) : State.fromDict s.asDict = s := rfl

/-- C30.  Whenever saving a checkpoint succeeds, loading it gives the same occupations, time and
step, and no other file has changed.  The one exception is a JSON file whose whole name is
`.json`. -/
theorem C30_checkpoint_round_trip [Zero T] {fs fs' : FileSystem T} {path : String} {s : State T}
    (h : saveCheckpoint fs path s = .ok fs') (hname : ¬ BareName path ".json") :
    loadCheckpoint fs' path = .ok s ∧ ∀ p, p ≠ path → fs' p = fs p := by
  unfold saveCheckpoint saveSteps at h
  cases hj : endsWith path ".json" with
  | true =>
    rw [hj] at h
    simp only [if_true] at h
    cases h
    constructor
    · unfold loadCheckpoint
      rw [hj]
      simp only [if_true]
      unfold fromFile
      rcases suffix_json hj with ⟨hb, -⟩ | ⟨-, hs⟩
      · exact absurd hb hname
      · rw [hs, if_neg (by decide), if_neg (by simp)]
        simp [FileSystem.write, fromPayload, savePayload, fromOccupations]
    · intro p hp
      simp [FileSystem.write, hp]
  | false =>
    cases hh : endsWith path ".h5" with
    | true =>
      rw [hj, hh] at h
      simp only [Bool.false_eq_true, if_false, if_true] at h
      cases h
      constructor
      · unfold loadCheckpoint
        rw [hj, hh]
        simp only [Bool.false_eq_true, if_false, if_true]
        simp [loadH5, FileSystem.write, fromH5, State.fromDict, State.asDict]
      · intro p hp
        simp [FileSystem.write, hp]
    | false =>
      rw [hj, hh] at h
      simp at h

example : ∃ fs', saveCheckpoint (T := Int) (fun _ => none) "run/ck.json" ⟨[0, 1], 5, 2⟩ = .ok fs' ∧
    ¬ BareName "run/ck.json" ".json" := by
  refine ⟨_, rfl, ?_⟩
  rintro (h | ⟨dir, h⟩)
  · exact absurd h (by decide)
  · have := congrArg (fun l => l.reverse[5]?) h
    simp only [List.reverse_append, List.reverse_cons] at this
    revert this
    simp

/-- C30.  Saving fails exactly for names that end in neither extension. -/
theorem C30_save_succeeds_iff (fs : FileSystem T) (path : String) (s : State T) :
    (∃ fs', saveCheckpoint fs path s = .ok fs') ↔
      ∃ pre : List Char, path.toList = pre ++ ".json".toList ∨ path.toList = pre ++ ".h5".toList := by
  have e : (∃ pre : List Char, path.toList = pre ++ ".json".toList ∨
      path.toList = pre ++ ".h5".toList) ↔
      (endsWith path ".json" = true ∨ endsWith path ".h5" = true) := by
    rw [endsWith_iff, endsWith_iff]
    constructor
    · rintro ⟨pre, h | h⟩
      · exact Or.inl ⟨pre, h⟩
      · exact Or.inr ⟨pre, h⟩
    · rintro (⟨pre, h⟩ | ⟨pre, h⟩)
      · exact ⟨pre, Or.inl h⟩
      · exact ⟨pre, Or.inr h⟩
  rw [e]
  unfold saveCheckpoint saveSteps
  cases endsWith path ".json" <;> cases endsWith path ".h5" <;> simp

/-- C30.  A state saved as JSON can also be given to `from_file` as an initial state together
with the active-site order: it is taken over unchanged when it has one value per active site. -/
theorem C30_initial_state_round_trip {σ φ : Type} {fs fs' : FileSystem T} {path : String}
    {s : State T} (h : saveCheckpoint fs path s = .ok fs') (hj : endsWith path ".json" = true)
    (hname : ¬ BareName path ".json") (o : ActiveSiteOrder σ φ)
    (hlen : s.occ.length = o.activeSiteCount) (shape : Option (List Nat))
    (select : Option (List Int)) (time : T) (step : Int) :
    fromFile fs' path shape select (some o) time step = .ok s := by
  unfold saveCheckpoint saveSteps at h
  rw [hj] at h
  simp only [if_true] at h
  cases h
  unfold fromFile
  rcases suffix_json hj with ⟨hb, -⟩ | ⟨-, hs⟩
  · exact absurd hb hname
  · rw [hs, if_neg (by decide), if_neg (by simp)]
    simp [FileSystem.write, fromPayload, savePayload, fromOccupations,
      ActiveSiteOrder.selectActiveValues, hlen]

/-- C30 fails for a file named `.json`: it can be written but not read back. -/
theorem C30_bare_name_unreadable [Zero T] (fs : FileSystem T) (s : State T) :
    ∃ fs', saveCheckpoint fs ".json" s = .ok fs' ∧
      loadCheckpoint fs' ".json" = .error .valueError :=
  ⟨_, rfl, rfl⟩

/-- C30.  HDF5 checkpoints are not checked against the active-site order: a file of another
length is accepted. -/
theorem C30_h5_length_unchecked : ∃ (o : ActiveSiteOrder Unit Unit) (fs : FileSystem Int) (s : State Int),
    s.occ.length ≠ o.activeSiteCount ∧ s.occ.length ≠ o.originalSiteCount ∧
    fromFile fs "ck.h5" none none (some o) 0 0 = .ok s :=
  ⟨⟨1, 1, [0], [0], [0], [], (1, 1, 1), [()], [[()]], ()⟩,
    fun _ => some (.h5 ⟨[0, 1, 0], 5, 2⟩), ⟨[0, 1, 0], 5, 2⟩, by decide, by decide, rfl⟩

/-! ### C64: crashes while saving -/

/-- Disk contents a crash during a save can leave behind: before the first write, or after any
of them. -/
def CrashState (fs : FileSystem T) (path : String) (s : State T) (fs' : FileSystem T) : Prop :=
  fs' = fs ∨ ∃ l, saveSteps fs path s = .ok l ∧ fs' ∈ l

/-- C64.  A crash at any point while saving a checkpoint leaves every other checkpoint file
readable with its content, and the file being written is old, complete or rejected on loading:
never silently wrong. -/
theorem C64_crash_leaves_old_new_or_error [Zero T] {fs fs' : FileSystem T} {path : String}
    {s : State T} (h : CrashState fs path s fs') :
    (∀ p, p ≠ path → loadCheckpoint fs' p = loadCheckpoint fs p) ∧
    (loadCheckpoint fs' path = loadCheckpoint fs path ∨ loadCheckpoint fs' path = .ok s ∨
      ∃ e, loadCheckpoint fs' path = .error e) := by
  have other : ∀ c : FileContent T, ∀ p, p ≠ path →
      loadCheckpoint (fs.write path c) p = loadCheckpoint fs p := by
    intro c p hp
    unfold loadCheckpoint fromFile loadH5
    simp only [FileSystem.write, if_neg hp]
  rcases h with rfl | ⟨l, hl, hmem⟩
  · exact ⟨fun _ _ => rfl, Or.inl rfl⟩
  · unfold saveSteps at hl
    cases hj : endsWith path ".json" with
    | true =>
      rw [hj] at hl
      simp only [if_true] at hl
      cases hl
      simp only [List.mem_cons, List.not_mem_nil, or_false] at hmem
      rcases hmem with rfl | rfl
      · refine ⟨other _, Or.inr (Or.inr ?_)⟩
        unfold loadCheckpoint
        rw [hj]
        simp only [if_true]
        unfold fromFile
        rcases suffix_json hj with ⟨-, hs⟩ | ⟨-, hs⟩
        · rw [hs, if_neg (by decide), if_pos (by decide)]
          exact ⟨_, rfl⟩
        · rw [hs, if_neg (by decide), if_neg (by simp)]
          simp [FileSystem.write]
      · refine ⟨other _, Or.inr ?_⟩
        by_cases hb : BareName path ".json"
        · right
          unfold loadCheckpoint
          rw [hj]
          simp only [if_true]
          unfold fromFile
          rcases suffix_json hj with ⟨-, hs⟩ | ⟨hb', -⟩
          · rw [hs, if_neg (by decide), if_pos (by decide)]
            exact ⟨_, rfl⟩
          · exact absurd hb hb'
        · left
          refine (C30_checkpoint_round_trip (fs := fs) ?_ hb).1
          unfold saveCheckpoint saveSteps
          rw [hj]
          rfl
    | false =>
      rw [hj] at hl
      cases hh : endsWith path ".h5" with
      | false => rw [hh] at hl; simp at hl
      | true =>
        rw [hh] at hl
        simp only [Bool.false_eq_true, if_false, if_true] at hl
        cases hl
        simp only [List.mem_cons, List.not_mem_nil, or_false] at hmem
        rcases hmem with rfl | rfl
        · refine ⟨other _, Or.inr (Or.inr ?_)⟩
          unfold loadCheckpoint
          rw [hj, hh]
          simp [loadH5, FileSystem.write]
        · refine ⟨other _, Or.inr (Or.inl ?_)⟩
          unfold loadCheckpoint
          rw [hj, hh]
          simp [loadH5, FileSystem.write, fromH5, State.fromDict, State.asDict]

example : CrashState (T := Int) (fun _ => none) "a.h5" ⟨[0], 1, 1⟩
    (FileSystem.write (fun _ => none) "a.h5" .torn) := Or.inr ⟨_, rfl, by simp⟩

/-- C64 does not hold for the file being overwritten: saving truncates the old checkpoint first,
so a crash can lose it. -/
theorem C64_overwrite_can_lose_checkpoint (s s' : State Int) : ∃ fs fs' : FileSystem Int,
    loadCheckpoint fs "ck.h5" = .ok s ∧ CrashState fs "ck.h5" s' fs' ∧
      ∀ r, loadCheckpoint fs' "ck.h5" ≠ .ok r := by
  refine ⟨fun _ => some (.h5 s.asDict), _, rfl, Or.inr ⟨_, rfl, List.mem_cons_self ..⟩, ?_⟩
  intro r hr
  cases hr

/-- Saves to two files in turn, the first of which may have been interrupted last: the disk after
a history of completed saves. -/
def saveAll (fs : FileSystem T) : List (String × State T) → Py (FileSystem T)
  | [] => .ok fs
  | (p, s) :: rest =>
    match saveCheckpoint fs p s with
    | .error e => .error e
    | .ok fs' => saveAll fs' rest

/-- C64.  A user who alternates between two checkpoint files never loses both: after any history
of completed saves ending with a save of `s` to one file, a crash at any point of the next save
to the other file leaves `s` loadable. -/
theorem C64_alternating_files_are_safe [Zero T] {fs fs₁ fs₂ : FileSystem T}
    (history : List (String × State T)) {p q : String} (hpq : p ≠ q) (hp : ¬ BareName p ".json")
    {s s' : State T} (h₁ : saveAll fs (history ++ [(p, s)]) = .ok fs₁)
    (h₂ : CrashState fs₁ q s' fs₂) : loadCheckpoint fs₂ p = .ok s := by
  rw [(C64_crash_leaves_old_new_or_error h₂).1 p hpq]
  clear h₂
  induction history generalizing fs with
  | nil =>
    simp only [List.nil_append, saveAll] at h₁
    split at h₁
    · cases h₁
    · rename_i fs' hs
      cases h₁
      exact (C30_checkpoint_round_trip hs hp).1
  | cons a l ih =>
    obtain ⟨a1, a2⟩ := a
    simp only [List.cons_append, saveAll] at h₁
    split at h₁
    · cases h₁
    · exact ih h₁

example : ∃ fs₁, saveAll (T := Int) (fun _ => none)
    ([("b.h5", ⟨[0], 1, 1⟩)] ++ [("a.h5", ⟨[1], 2, 2⟩)]) = .ok fs₁ := ⟨_, rfl⟩

end KMC
