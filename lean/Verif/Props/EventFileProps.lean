import Verif.Lemmas.EventFile
import Verif.Model.Event
/-
C146: files of single events, and reading a library by position.
-/
namespace KMC
open KMC.Spec EventFile

/-- An event whose fields are tuples of integers is read back from its file as it was saved, whatever else
was saved before it under any name and after it under other names. -/
theorem C146_reads_back (disk : Disk) (history : List (String × EventObj)) (name : String) (e : Event)
    (h : LastUnder history name (ofEvent e)) :
    load (saves disk history) name = .ok ⟨.tuple (e.mobile.map .int), .tuple (e.env.map .int)⟩ := by
  rw [load, saves_last disk h, asDict_json]
  refine (fromDict_ok (d := [("mobile_ion_indices", (ofEvent e).mobile.json),
    ("local_env_indices", (ofEvent e).env.json)])).2 ⟨e.mobile.map .int, e.env.map .int, ?_, ?_, rfl⟩
  · exact fieldEntries_mobile.2 ⟨_, .tuple _, (json_ints _).symm⟩
  · exact fieldEntries_env.2 ⟨_, .tuple _, (json_ints _).symm⟩

/-- Two events give the same object when read back exactly when Python calls them equal; the hop-state codes
play no part. -/
theorem C146_equality (a b : Event) :
    ofEvent a = ofEvent b ↔ a.pyEq b = true := by
  have hinj : Function.Injective PyVal.int := fun x y h => by cases h; rfl
  simp only [ofEvent, EventObj.mk.injEq, PyVal.tuple.injEq, Event.pyEq, Bool.and_eq_true, beq_iff_eq]
  exact and_congr (List.map_injective_iff.2 hinj).eq_iff (List.map_injective_iff.2 hinj).eq_iff

/-- For event objects of any kind: reading succeeds exactly when both fields can be iterated over, and gives
tuples of the entries as JSON keeps them. -/
theorem C146_any_event (disk : Disk) (history : List (String × EventObj)) (name : String) (e e' : EventObj)
    (h : LastUnder history name e) :
    load (saves disk history) name = .ok e' ↔
      ∃ a b, Entries e.mobile a ∧ Entries e.env b ∧
        e' = ⟨.tuple (a.map PyVal.json), .tuple (b.map PyVal.json)⟩ := by
  rw [load, saves_last disk h, asDict_json]
  refine fromDict_ok.trans ?_
  simp only [fieldEntries_mobile, fieldEntries_env]
  constructor
  · rintro ⟨_, _, ⟨a, ha, rfl⟩, ⟨b, hb, rfl⟩, rfl⟩
    exact ⟨a, b, ha, hb, rfl⟩
  · rintro ⟨a, b, ha, hb, rfl⟩
    exact ⟨_, _, ⟨a, ha, rfl⟩, ⟨b, hb, rfl⟩, rfl⟩

/-- An event with a field that cannot be iterated over is saved without complaint; reading its file raises
`TypeError`. -/
theorem C146_saved_but_unreadable (disk : Disk) (history : List (String × EventObj)) (name : String)
    (e : EventObj) (h : LastUnder history name e)
    (hbad : (∀ a, ¬ Entries e.mobile a) ∨ ∀ b, ¬ Entries e.env b) :
    load (saves disk history) name = .error .typeError := by
  rw [load, saves_last disk h, asDict_json]
  refine fromDict_error.2 ⟨rfl, ?_⟩
  rcases hbad with hb | hb
  · exact Or.inl fun _ hl => (fieldEntries_mobile.1 hl).elim fun l' h' => hb l' h'.1
  · exact Or.inr fun _ hl => (fieldEntries_env.1 hl).elim fun l' h' => hb l' h'.1

/-- Files under other names stay as they are; a file never written is not found. -/
theorem C146_other_files (disk : Disk) (history : List (String × EventObj)) (name : String)
    (h : ∀ p ∈ history, p.1 ≠ name) :
    load (saves disk history) name = load disk name ∧
      (name ∉ dictKeys disk → load (saves disk history) name = .error .osError) := by
  have h1 : load (saves disk history) name = load disk name := by
    unfold load; rw [saves_other _ _ _ h]
  refine ⟨h1, fun hn => ?_⟩
  rw [h1, load]
  have : dictGet disk name = none := by
    clear h1
    induction disk with
    | nil => rfl
    | cons p d ih =>
      obtain ⟨k, v⟩ := p
      simp only [dictKeys, List.map_cons, List.mem_cons, not_or] at hn
      rw [dictGet, if_neg (fun h => hn.1 h.symm)]
      exact ih hn.2
  rw [this]

/-- What a dictionary is read as: each field is the tuple of what iterating over its value gives, an empty
tuple when the key is missing; anything else in the dictionary is passed over.  Reading fails with
`TypeError` exactly when one of the two values cannot be iterated over. -/
theorem C146_from_dict (d : List (String × PyVal)) :
    (∀ e, fromDict d = .ok e ↔
      ∃ a b, FieldEntries d "mobile_ion_indices" a ∧ FieldEntries d "local_env_indices" b ∧
        e = ⟨.tuple a, .tuple b⟩) ∧
    ∀ x, fromDict d = .error x ↔
      x = .typeError ∧ ((∀ a, ¬ FieldEntries d "mobile_ion_indices" a) ∨
        ∀ b, ¬ FieldEntries d "local_env_indices" b) :=
  ⟨fun _ => fromDict_ok, fun _ => fromDict_error⟩

/-- Against the claim that an event is read back as it was: one built with lists, as its documentation does
not forbid, comes back with tuples and is a different event, for all entries. -/
theorem C146_lists_come_back_as_tuples (disk : Disk) (name : String) (a : List PyVal) (env : PyVal)
    (e' : EventObj) (h : load (save disk name ⟨.list a, env⟩) name = .ok e') :
    e'.mobile = .tuple (a.map PyVal.json) ∧ e'.mobile ≠ .list a := by
  have hl : LastUnder [(name, (⟨.list a, env⟩ : EventObj))] name ⟨.list a, env⟩ :=
    ⟨[], [], rfl, fun p hp => by cases hp⟩
  obtain ⟨x, y, hx, -, rfl⟩ := (C146_any_event disk [(name, ⟨.list a, env⟩)] name _ e' hl).1 h
  cases hx
  exact ⟨rfl, fun h => by cases h⟩

/-- Against the claim that a file which holds no event is refused: any dictionary without the two keys, such
as the file of an event library, is read as an event with no sites. -/
theorem C146_foreign_dictionary (d : List (String × PyVal)) (h1 : "mobile_ion_indices" ∉ dictKeys d)
    (h2 : "local_env_indices" ∉ dictKeys d) :
    fromPayload (.dict d) = .ok ⟨.tuple [], .tuple []⟩ := by
  have hnone : ∀ k, k ∉ dictKeys d → dictGet d k = none := by
    intro k hk
    clear h1 h2
    induction d with
    | nil => rfl
    | cons p d ih =>
      obtain ⟨k', v⟩ := p
      simp only [dictKeys, List.map_cons, List.mem_cons, not_or] at hk
      rw [dictGet, if_neg (fun h => hk.1 h.symm)]
      exact ih hk.2
  exact fromDict_ok.2 ⟨[], [], Or.inl ⟨hnone _ h1, rfl⟩, Or.inl ⟨hnone _ h2, rfl⟩, rfl⟩

/-- A file that holds no dictionary is refused with `AttributeError`. -/
theorem C146_no_dictionary (v : PyVal) (h : ∀ d, v ≠ .dict d) :
    fromPayload v = .error .attributeError := by
  cases v with
  | dict d => exact absurd rfl (h d)
  | _ => rfl

/-- A library has as many events as were added to it; `library[i]` is the event added at that place, counted
from the end for a negative number, and any other number raises `IndexError`. -/
theorem C146_library_by_position {σ φ : Type} (lib : EventLib σ φ) (es : List Event) :
    let l := es.foldl EventLib.addEvent lib
    l.len = lib.len + es.length ∧
    (∀ (k : Nat) (e : Event), es[k]? = some e →
      l.getEvent ((lib.len + k : Nat) : Int) = .ok e ∧
      l.getEvent ((k : Int) - es.length) = .ok e) ∧
    (∀ (k : Nat), k < lib.len → l.getEvent (k : Int) = lib.getEvent (k : Int)) ∧
    ∀ i : Int, ((l.len : Int) ≤ i ∨ i < -(l.len : Int)) → l.getEvent i = .error .indexError := by
  intro l
  have hev : l.events = lib.events ++ es := by
    show (es.foldl EventLib.addEvent lib).events = lib.events ++ es
    clear l
    induction es generalizing lib with
    | nil => simp
    | cons e es ih =>
      rw [List.foldl_cons, ih]
      simp [EventLib.addEvent]
  have hlen : l.len = lib.len + es.length := by simp [EventLib.len, hev]
  refine ⟨hlen, fun k e hk => ?_, fun k hk => ?_, fun i hi => ?_⟩
  · have hke : k < es.length := by
      by_contra hc
      rw [List.getElem?_eq_none (by omega)] at hk; cases hk
    have hget : l.events[lib.len + k]? = some e := by
      rw [hev, List.getElem?_append_right (by simp [EventLib.len])]
      simpa [EventLib.len] using hk
    refine ⟨pyGet_natCast hget, ?_⟩
    refine pyGet_ok_iff.2 ⟨lib.len + k, ?_, hget⟩
    have hl : l.events.length = lib.len + es.length := hlen
    rw [hl]
    unfold pyIdx
    rw [if_neg (by omega), if_pos (by push_cast; omega)]
    congr 1
    push_cast; omega
  · unfold EventLib.getEvent
    have hlt : k < lib.events.length := hk
    rw [pyGet_natCast (v := lib.events[k]) (by rw [hev, List.getElem?_append_left hlt]; exact List.getElem?_eq_getElem hlt),
      pyGet_natCast (v := lib.events[k]) (List.getElem?_eq_getElem hlt)]
  · have hnone : pyIdx l.events.length i = none := by
      have hl : (l.events.length : Int) = l.len := rfl
      unfold pyIdx
      rw [hl]
      split
      · rw [if_neg (by omega)]
      · rw [if_neg (by omega)]
    simp [EventLib.getEvent, pyGet, hnone]

/-! The hypotheses are met. -/

example : LastUnder [("a.json", ofEvent ⟨[3, 4], [], none⟩), ("a.json", ofEvent ⟨[0, 1], [2, 5, 7], none⟩),
    ("b.json", ofEvent ⟨[8, 9], [1], none⟩)] "a.json" (ofEvent ⟨[0, 1], [2, 5, 7], none⟩) :=
  ⟨[("a.json", ofEvent ⟨[3, 4], [], none⟩)], [("b.json", ofEvent ⟨[8, 9], [1], none⟩)], rfl, by simp⟩

example : (∀ a, ¬ Entries (.int 3) a) ∧ Entries (.str "12") [.str "1", .str "2"] :=
  ⟨fun _ h => (by cases h), .text "12"⟩

example : load (save [] "a.json" ⟨.list [.int 0, .int 1], .list []⟩) "a.json" =
    .ok ⟨.tuple [.int 0, .int 1], .tuple []⟩ := rfl

example : "mobile_ion_indices" ∉ dictKeys [("events", PyVal.list []), ("index_metadata", .none)] := by decide

example : (∀ d, PyVal.list [.int 1] ≠ .dict d) := fun _ h => by cases h

example : ((([⟨[0, 1], [2], none⟩, ⟨[1, 2], [], none⟩] : List Event).foldl EventLib.addEvent
    ({} : EventLib Unit Unit)).getEvent (-1)) = .ok ⟨[1, 2], [], none⟩ := by decide

end KMC
