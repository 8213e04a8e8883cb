import Verif.Spec.Gui
import Verif.Lemmas.FitFiles
import Verif.Lemmas.Py
import Verif.Props.NeighborProps
/-
C130: the graphical commands.
-/
namespace KMC
namespace Gui
open Spec FitFiles Cli
variable {K : Type}

/-- **C130, disagreement.**  The command for fitting never fits: it ends in an exception whatever is entered. -/
theorem C130_fit_never (lit : String → Py PyVal) (float : String → Py K) (f : FitForm) :
    main lit float (.fit f) = .error .attributeError := rfl

/-- **C130, disagreement.**  The command for cluster expansions never makes one: it ends in an exception whatever is
entered. -/
theorem C130_expansion_never (lit : String → Py PyVal) (float : String → Py K) (f : ExpansionForm) :
    ∃ e, main lit float (.expansion f) = .error e := by
  cases h : lit f.mapping with
  | error e => exact ⟨e, by simp [main, Chosen.primitive, h]⟩
  | ok v => exact ⟨.attributeError, by simp [main, Chosen.primitive, h]⟩

/-- **C130.**  The two commands that work do one thing each: the simulation form runs the configuration of the form, the
event form generates events; nothing else is ever started. -/
theorem C130_actions (lit : String → Py PyVal) (float : String → Py K) (c : Chosen K) (x : Action K)
    (h : main lit float c = .ok x) :
    (∃ f call, c = .events f ∧ f.call lit float = .ok call ∧ x = .generate call) ∨
    (∃ f conf, c = .simulation f ∧ f.configuration lit = .ok conf ∧ x = .simulate conf) := by
  cases c with
  | none => cases h
  | fit f => cases h
  | expansion f =>
    obtain ⟨e, he⟩ := C130_expansion_never lit float f
    rw [he] at h
    cases h
  | events f =>
    simp only [main, Chosen.primitive] at h
    cases hc : f.call lit float with
    | error e => rw [hc] at h; cases h
    | ok call => rw [hc] at h; cases h; exact .inl ⟨f, call, rfl, hc, rfl⟩
  | simulation f =>
    simp only [main, Chosen.primitive] at h
    cases hc : f.configuration lit with
    | error e => rw [hc] at h; cases h
    | ok conf => rw [hc] at h; cases h; exact .inr ⟨f, conf, rfl, hc, rfl⟩

theorem splitOn_entry {e : CutoffText} (h : e.Plain) :
    splitOn ',' e.text.toList = [e.a.toList, e.b.toList, e.r.toList] := by
  have hc : ",".toList = [','] := by decide
  have : e.text.toList = e.a.toList ++ ',' :: (e.b.toList ++ ',' :: e.r.toList) := by
    simp [CutoffText.text, String.toList_append, hc]
  rw [this, splitOn_append, splitOn_append, splitOn_plain h.1.1, splitOn_plain h.2.1.1, splitOn_plain h.2.2.1]
  rfl

theorem parseCutoff_entry {float : String → Py K} {e : CutoffText} (h : e.Plain) {v : K} (hv : float e.r = .ok v) :
    parseCutoff float e.text.toList = .ok ((e.a, e.b), v) := by
  unfold parseCutoff
  rw [splitOn_entry h]
  simp [hv]

theorem entry_plain {e : CutoffText} (h : e.Plain) : ';' ∉ e.text.toList := by
  have hc : ",".toList = [','] := by decide
  simp only [CutoffText.text, String.toList_append, hc, List.mem_append, List.mem_singleton, not_or]
  exact ⟨⟨⟨⟨h.1.2, by decide⟩, h.2.1.2⟩, by decide⟩, h.2.2.2⟩

theorem splitOn_table {es : List CutoffText} (hne : es ≠ []) (h : ∀ e ∈ es, e.Plain) :
    splitOn ';' (cutoffTable es).toList = es.map fun e => e.text.toList := by
  have hc : ";".toList = [';'] := by decide
  induction es with
  | nil => exact absurd rfl hne
  | cons e es ih =>
    cases es with
    | nil => simp only [cutoffTable, List.map_cons, List.map_nil]; exact splitOn_plain (entry_plain (h e (by simp)))
    | cons e' es =>
      have : (cutoffTable (e :: e' :: es)).toList = e.text.toList ++ ';' :: (cutoffTable (e' :: es)).toList := by
        simp only [cutoffTable, String.toList_append, hc]
        simp
      rw [this, splitOn_append, splitOn_plain (entry_plain (h e (by simp))),
        ih (by simp) fun x hx => h x (by simp [hx])]
      rfl

theorem dictSet_new {κ α : Type} [DecidableEq κ] {d : List (κ × α)} {k : κ} (v : α) (h : ∀ e ∈ d, e.1 ≠ k) :
    dictSet d k v = d ++ [(k, v)] := by
  induction d with
  | nil => rfl
  | cons e d ih =>
    obtain ⟨k', v'⟩ := e
    have : k' ≠ k := h (k', v') (by simp)
    simp only [dictSet, this, if_false, List.cons_append]
    rw [ih fun e he => h e (by simp [he])]

theorem cutoffLoop_entries {float : String → Py K} (es : List (CutoffText × K)) (hp : ∀ e ∈ es, e.1.Plain)
    (hv : ∀ e ∈ es, float e.1.r = .ok e.2) (hn : NoRepeats (es.map Prod.fst)) (acc : List ((String × String) × K))
    (hacc : ∀ e ∈ acc, ∀ e' ∈ es, e.1 ≠ (e'.1.a, e'.1.b)) :
    cutoffLoop float (es.map fun e => e.1.text.toList) acc = .ok (acc ++ es.map fun e => ((e.1.a, e.1.b), e.2)) := by
  induction es generalizing acc with
  | nil => simp [cutoffLoop]
  | cons e es ih =>
    simp only [List.map_cons, cutoffLoop, parseCutoff_entry (hp e (by simp)) (hv e (by simp))]
    simp only [List.map_cons, NoRepeats] at hn
    rw [dictSet_new _ fun x hx => hacc x hx e (by simp)]
    rw [ih (fun x hx => hp x (by simp [hx])) (fun x hx => hv x (by simp [hx])) hn.2]
    · simp
    · intro x hx e' he'
      simp only [List.mem_append, List.mem_singleton] at hx
      rcases hx with hx | rfl
      · exact hacc x hx e' (by simp [he'])
      · exact ((hn.1 e'.1 (List.mem_map_of_mem he')).1).symm

/-- **C130.**  A text `A,B,r;C,D,s;...` in which no pair of species is repeated is read as exactly these entries in this
order. -/
theorem C130_table_read {float : String → Py K} {es : List (CutoffText × K)} (hne : es ≠ []) (hp : ∀ e ∈ es, e.1.Plain)
    (hv : ∀ e ∈ es, float e.1.r = .ok e.2) (hn : NoRepeats (es.map Prod.fst)) :
    parseCutoffs float (cutoffTable (es.map Prod.fst)) = .ok (es.map fun e => ((e.1.a, e.1.b), e.2)) := by
  unfold parseCutoffs
  rw [splitOn_table (by simpa using hne) (by
    intro x hx
    obtain ⟨e, he, rfl⟩ := List.mem_map.1 hx
    exact hp e he)]
  rw [List.map_map]
  have := cutoffLoop_entries (float := float) es hp hv hn [] (by simp)
  simpa [Function.comp_def] using this

/-- In a table without repetitions the last entry of a pair is the only one. -/
theorem pairEntry_norepeat {es : List (CutoffText × K)} (hn : NoRepeats (es.map Prod.fst)) (a b : String) :
    pairEntry (es.map fun e => ((e.1.a, e.1.b), e.2)) a b = givenFor es a b := by
  induction es with
  | nil => rfl
  | cons e es ih =>
    simp only [List.map_cons, NoRepeats] at hn
    rw [List.map_cons, pairEntry_cons, ih hn.2]
    unfold givenFor
    by_cases hm : (e.1.a, e.1.b) = (a, b) ∨ (e.1.a, e.1.b) = (b, a)
    · have hnone : es.find? (fun x => decide ((x.1.a, x.1.b) = (a, b) ∨ (x.1.a, x.1.b) = (b, a))) = none := by
        rw [List.find?_eq_none]
        intro x hx
        have h1 := hn.1 x.1 (List.mem_map_of_mem hx)
        simp only [decide_eq_true_eq, not_or]
        simp only [ne_eq, Prod.mk.injEq] at h1 hm ⊢
        rcases hm with ⟨rfl, rfl⟩ | ⟨rfl, rfl⟩
        · exact h1
        · exact ⟨h1.2, h1.1⟩
      rw [List.find?_cons_of_pos (by simpa using hm), hnone]
      simp only [Option.map_none, Option.map_some]
      simp only [Prod.mk.injEq] at hm
      simp [hm]
    · rw [List.find?_cons_of_neg (by simpa using hm)]
      cases h : (es.find? fun x => decide ((x.1.a, x.1.b) = (a, b) ∨ (x.1.a, x.1.b) = (b, a))).map (·.2) with
      | some x => simp [h]
      | none =>
        simp only [Prod.mk.injEq] at hm
        simp [h, hm]

/-- **C130.**  The generated environments then use, for every two species, the distance entered for them in either order,
and zero (no neighbours) if none was entered. -/
theorem C130_cutoff_used [Zero K] [LinearOrder K] {float : String → Py K} {es : List (CutoffText × K)} (hne : es ≠ [])
    (hp : ∀ e ∈ es, e.1.Plain) (hv : ∀ e ∈ es, float e.1.r = .ok e.2) (hn : NoRepeats (es.map Prod.fst))
    (a b : String) :
    ∃ d, parseCutoffs float (cutoffTable (es.map Prod.fst)) = .ok d ∧
      Neighbors.tableGet (Neighbors.prepareCutoff (some d)).1 a b 0 = (givenFor es a b).getD 0 := by
  refine ⟨_, C130_table_read hne hp hv hn, ?_⟩
  rw [(C51_cutoff _ a b).1, Option.getD_some, pairEntry_norepeat hn]

/-- **C130.**  Whatever is entered otherwise reaches the generator unchanged: structure file, primitive cell on `yes`,
the two ions in this order, tolerances, and a file of events in the chosen folder. -/
theorem C130_call {lit : String → Py PyVal} {float : String → Py K} {f : EventForm K} {c : EventCall K}
    (h : f.call lit float = .ok c) :
    c.structureFile = f.prim ∧ (c.primitive = true ↔ f.primitive = "yes") ∧ c.identifiers = (f.ion1, f.ion2) ∧
    lit f.mapping = .ok c.mapping ∧ parseCutoffs float f.cutoffs = .ok c.cutoffs ∧
    formShape (splitCommas f.shape.toList) = .ok c.shape ∧ c.rtol = f.rtol ∧ c.atol = f.atol ∧
    c.exportEnv = f.exportEnv ∧ c.eventFile = joinPath f.outputDir f.eventName := by
  unfold EventForm.call at h
  cases h1 : lit f.mapping with
  | error e => rw [h1] at h; cases h
  | ok mapping =>
    rw [h1] at h
    cases h2 : parseCutoffs float f.cutoffs with
    | error e => rw [h2] at h; cases h
    | ok cutoffs =>
      rw [h2] at h
      cases h3 : formShape (splitCommas f.shape.toList) with
      | error e => rw [h3] at h; cases h
      | ok shape =>
        rw [h3] at h
        cases h
        exact ⟨rfl, by simp, rfl, rfl, rfl, rfl, rfl, rfl, rfl, rfl⟩

/-- **C130.**  The nearest environment is accepted exactly if the option is given as `1`, `true`, `yes` or `y`, in capital
or small letters. -/
theorem C130_nearest {lit : String → Py PyVal} {float : String → Py K} {f : EventForm K} {c : EventCall K}
    (h : f.call lit float = .ok c) :
    c.nearest = true ↔ ∃ s, f.nearest = .text s ∧ (pyLower s = "1" ∨ pyLower s = "true" ∨ pyLower s = "yes" ∨
      pyLower s = "y") := by
  have hc : c.nearest = f.nearest.flag := by
    unfold EventForm.call at h
    split at h
    · cases h
    · split at h
      · cases h
      · split at h
        · cases h
        · cases h; rfl
  rw [hc]
  cases f.nearest with
  | absent => simp [Nearest.flag]
  | text s => simp [Nearest.flag]

/-- **C130.**  The event file lies in the chosen folder, unless its name is an absolute path. -/
theorem C130_event_file (dir name : String) (hd : dir ≠ "") (hs : dir.toList.getLast? ≠ some '/')
    (hn : name.toList.head? ≠ some '/') : joinPath dir name = dir ++ "/" ++ name := by
  simp [joinPath, hd, hs, hn]

/-- **C130.**  An entry with fewer than three parts makes the command fail; so do an empty text and a trailing
semicolon. -/
theorem C130_incomplete (float : String → Py K) {parts before after : List Text} {p : Text}
    (hp : (splitOn ',' p).length < 3) (hs : parts = before ++ p :: after) (acc : List ((String × String) × K)) :
    ∃ e, cutoffLoop float parts acc = .error e := by
  subst hs
  induction before generalizing acc with
  | nil =>
    have : parseCutoff float p = .error .indexError := by
      unfold parseCutoff
      match h : splitOn ',' p, hp with
      | [], _ => rfl
      | [_], _ => rfl
      | [_, _], _ => rfl
    exact ⟨.indexError, by simp [cutoffLoop, this]⟩
  | cons q qs ih =>
    simp only [List.cons_append, cutoffLoop]
    cases h : parseCutoff float q with
    | error e => exact ⟨e, rfl⟩
    | ok kv => exact ih _

/-- The texts of `C130_incomplete` that look harmless. -/
theorem C130_empty_text (float : String → Py K) : parseCutoffs float "" = .error .indexError ∧
    (∀ v, float "4" = .ok v → parseCutoffs float "Na,O,4;" = .error .indexError) := by
  refine ⟨rfl, fun v hv => ?_⟩
  have h1 : splitOn ';' "Na,O,4;".toList = ["Na,O,4".toList, []] := by decide
  have h2 : parseCutoff float "Na,O,4".toList = .ok (("Na", "O"), v) :=
    parseCutoff_entry (e := ⟨"Na", "O", "4"⟩) ⟨by unfold Uncut; decide, by unfold Uncut; decide, by unfold Uncut; decide⟩ hv
  unfold parseCutoffs
  rw [h1]
  simp only [cutoffLoop, h2]
  rfl

/-- A reader of the numbers in the examples. -/
def oneDigit (s : String) : Py Int := match parseInt s with
  | some n => .ok n
  | none => .error .valueError

/-- **C130, disagreement.**  When a pair is repeated, the last entry does not always count: of `Na,O,3;O,Na,5;Na,O,4` the
distance used is 5. -/
theorem C130_repeated_pair : ∃ d, parseCutoffs oneDigit "Na,O,3;O,Na,5;Na,O,4" = .ok d ∧
    Neighbors.tableGet (Neighbors.prepareCutoff (some d)).1 "Na" "O" 0 = 5 :=
  ⟨[(("Na", "O"), 4), (("O", "Na"), 5)], by decide +kernel, by decide⟩

/-- **C130, disagreement.**  Blanks after the separators become part of the species' names, so that the entry is never
found and the species has no neighbours. -/
theorem C130_blanks : ∃ d, parseCutoffs oneDigit "Na, O, 3" = .ok d ∧
    Neighbors.tableGet (Neighbors.prepareCutoff (some d)).1 "Na" "O" 0 = 0 :=
  ⟨[(("Na", " O"), 3)], by decide +kernel, by decide⟩

/-- Non-vacuity: a filled form and the call it leads to. -/
example : ∃ c : EventCall Int, EventForm.call (fun _ => .ok (.dict [])) oneDigit
      ⟨"a.cif", "yes", "Na1", "Na2", "Na,Na,4;Na,O,3", "{}", "out", "2,1,1", false, "events.json", 0, 0, .text "Yes"⟩ =
        .ok c ∧
    c.cutoffs = [(("Na", "Na"), 4), (("Na", "O"), 3)] ∧ c.shape = [2, 1, 1] ∧ c.nearest = true ∧
    c.eventFile = "out/events.json" := by
  refine ⟨⟨"a.cif", true, [(("Na", "Na"), 4), (("Na", "O"), 3)], ("Na1", "Na2"), .dict [], 0, 0, true, false, [2, 1, 1],
    "out/events.json"⟩, ?_, rfl, rfl, rfl, rfl⟩
  have h1 : parseCutoffs oneDigit "Na,Na,4;Na,O,3" = .ok [(("Na", "Na"), 4), (("Na", "O"), 3)] := by decide +kernel
  have h2 : formShape (splitCommas "2,1,1".toList) = .ok [2, 1, 1] := by decide +kernel
  have h3 : Nearest.flag (.text "Yes") = true := by decide +kernel
  have h4 : joinPath "out" "events.json" = "out/events.json" := by decide +kernel
  unfold EventForm.call
  simp only [h1, h2, h3, h4]
  rfl

example : NoRepeats [⟨"Na", "Na", "4"⟩, ⟨"Na", "O", "3"⟩] ∧
    cutoffTable [⟨"Na", "Na", "4"⟩, ⟨"Na", "O", "3"⟩] = "Na,Na,4;Na,O,3" := by
  refine ⟨by simp [NoRepeats], by decide⟩

end Gui
end KMC
