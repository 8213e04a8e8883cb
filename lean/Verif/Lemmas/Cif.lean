import Verif.Spec.Cif
import Verif.Lemmas.Py
/-
Lemmas for loading CIF files.
-/
namespace KMC
namespace Cif

set_option linter.unusedSectionVars false
open KMC.Spec

variable {El K : Type} [Field K] [LinearOrder K] [IsStrictOrderedRing K] [FloorRing K]

/-! ### Points -/

omit [LinearOrder K] [IsStrictOrderedRing K] [FloorRing K] in
theorem _root_.KMC.Spec.SamePoint.rfl (p : Coord K) : SamePoint p p := ⟨0, 0, 0, by simp⟩

omit [LinearOrder K] [IsStrictOrderedRing K] [FloorRing K] in
theorem _root_.KMC.Spec.SamePoint.symm {p q : Coord K} (h : SamePoint p q) : SamePoint q p := by
  obtain ⟨i, j, k, h⟩ := h
  refine ⟨-i, -j, -k, ?_⟩
  subst h
  ext <;> simp

omit [LinearOrder K] [IsStrictOrderedRing K] [FloorRing K] in
theorem _root_.KMC.Spec.SamePoint.trans {p q r : Coord K} (h1 : SamePoint p q) (h2 : SamePoint q r) : SamePoint p r := by
  obtain ⟨i, j, k, h1⟩ := h1
  obtain ⟨i', j', k', h2⟩ := h2
  refine ⟨i + i', j + j', k + k', ?_⟩
  subst h1 h2
  ext <;> push_cast <;> ring

theorem _root_.KMC.Spec.SamePoint.wrap (p : Coord K) : SamePoint (wrap p) p :=
  ⟨-⌊p.1⌋, -⌊p.2.1⌋, -⌊p.2.2⌋, by ext <;> simp [Cif.wrap, Int.fract, sub_eq_add_neg]⟩

theorem closeTo_iff (tol d : K) : closeTo tol d = true ↔ ∃ i : Int, |d - i| < tol := by
  unfold closeTo
  rw [decide_eq_true_iff]
  exact ⟨fun h => ⟨round d, h⟩, fun ⟨i, h⟩ => lt_of_le_of_lt (round_le d i) h⟩

theorem near_iff (tol : K) (p q : Coord K) : near tol p q = true ↔ Close tol p q := by
  unfold near Close
  simp only [Bool.and_eq_true, closeTo_iff]
  constructor
  · rintro ⟨⟨⟨i, hi⟩, ⟨j, hj⟩⟩, ⟨k, hk⟩⟩
    exact ⟨i, j, k, hi, hj, hk⟩
  · rintro ⟨i, j, k, hi, hj, hk⟩
    exact ⟨⟨⟨i, hi⟩, ⟨j, hj⟩⟩, ⟨k, hk⟩⟩

omit [IsStrictOrderedRing K] [FloorRing K] in
theorem _root_.KMC.Spec.Close.congr {tol : K} {p q p' q' : Coord K} (h : Close tol p q) (hp : SamePoint p p')
    (hq : SamePoint q q') : Close tol p' q' := by
  obtain ⟨i, j, k, h1, h2, h3⟩ := h
  obtain ⟨a, b, c, rfl⟩ := hp
  obtain ⟨a', b', c', rfl⟩ := hq
  refine ⟨i - a + a', j - b + b', k - c + c', ?_, ?_, ?_⟩
  · convert h1 using 2; push_cast; ring
  · convert h2 using 2; push_cast; ring
  · convert h3 using 2; push_cast; ring

omit [FloorRing K] in
theorem _root_.KMC.Spec.Close.of_same {tol : K} (ht : 0 < tol) {p q : Coord K} (h : SamePoint p q) : Close tol p q := by
  obtain ⟨i, j, k, rfl⟩ := h
  exact ⟨i, j, k, by simpa using ht, by simpa using ht, by simpa using ht⟩

/-! ### Images -/

section
variable {ops : List (Coord K → Coord K)}

omit [LinearOrder K] [IsStrictOrderedRing K] [FloorRing K]

theorem _root_.KMC.Spec.Image.refl (hg : SpaceGroup ops) (p : Coord K) : Image ops p p := by
  obtain ⟨g, hm, h⟩ := hg.identity
  exact ⟨g, hm, h p⟩

theorem _root_.KMC.Spec.Image.congr_right {p q r : Coord K} (h : Image ops p q) (hq : SamePoint q r) : Image ops p r := by
  obtain ⟨g, hm, h⟩ := h
  exact ⟨g, hm, h.trans hq⟩

theorem _root_.KMC.Spec.Image.symm (hg : SpaceGroup ops) {p q : Coord K} (h : Image ops p q) : Image ops q p := by
  obtain ⟨g, hm, h⟩ := h
  obtain ⟨k, hk, hi⟩ := hg.inverse g hm
  exact ⟨k, hk, ((hg.periodic k hk _ _ h).symm).trans (hi p)⟩

theorem _root_.KMC.Spec.Image.trans (hg : SpaceGroup ops) {p q r : Coord K} (h1 : Image ops p q) (h2 : Image ops q r) :
    Image ops p r := by
  obtain ⟨g, hm, h1⟩ := h1
  obtain ⟨k, hk, h2⟩ := h2
  obtain ⟨f, hf, h3⟩ := hg.product k hk g hm
  exact ⟨f, hf, ((h3 p).trans (hg.periodic k hk _ _ h1)).trans h2⟩

end

/-! ### Reading rows -/

theorem dropUncertainty_whole {l : List Char} (h : '(' ∉ l.dropLast) : dropUncertainty l = l := by
  induction l with
  | nil => rfl
  | cons c cs ih =>
    cases cs with
    | nil => simp [dropUncertainty]
    | cons d ds =>
      rw [List.dropLast_cons₂, List.mem_cons, not_or] at h
      rw [dropUncertainty, if_neg (Ne.symm h.1), ih h.2]

theorem dropUncertainty_cut {a b : List Char} (h : '(' ∉ a) (hb : b ≠ []) : dropUncertainty (a ++ '(' :: b) = a := by
  induction a with
  | nil => simp [dropUncertainty, hb]
  | cons c cs ih =>
    rw [List.mem_cons, not_or] at h
    rw [List.cons_append, dropUncertainty, if_neg (Ne.symm h.1), ih h.2]

theorem numberPart_iff {l x : List Char} : NumberPart l x ↔ x = dropUncertainty l := by
  constructor
  · intro h
    cases h with
    | whole h => exact (dropUncertainty_whole h).symm
    | cut h hb => exact (dropUncertainty_cut h hb).symm
  · rintro rfl
    by_cases h : '(' ∈ l.dropLast
    · obtain ⟨a, b, hab, ha⟩ := List.eq_append_cons_of_mem h
      have hne : l ≠ [] := by rintro rfl; simp at h
      have hl : l = a ++ '(' :: (b ++ [l.getLast hne]) := by
        rw [← List.cons_append, ← List.append_assoc, ← hab, List.dropLast_append_getLast]
      rw [hl, dropUncertainty_cut ha (by simp)]
      exact .cut ha (by simp)
    · rw [dropUncertainty_whole h]
      exact .whole h

theorem readsAs_iff {float : String → Option K} {text : String} {x : K} :
    ReadsAs float text x ↔ str2float float text = .ok x := by
  unfold ReadsAs str2float
  simp only [numberPart_iff, exists_eq_left, forall_eq]
  cases h : float (String.ofList (dropUncertainty text.toList)) with
  | some y => simp
  | none =>
    by_cases hd : pyStrip text = "."
    · simp [hd, eq_comm]
    · simp [hd]

theorem atPosition_iff {float : String → Option K} {r : Row El} {p : Coord K} :
    AtPosition float r p ↔ r.coord float = .ok p := by
  obtain ⟨x, y, z⟩ := p
  simp only [AtPosition, readsAs_iff, Row.coord]
  cases str2float float r.x with
  | error e => simp
  | ok a =>
    cases str2float float r.y with
    | error e => simp
    | ok b =>
      cases str2float float r.z with
      | error e => simp
      | ok c => simp

theorem hasAmount_iff {float : String → Option K} {r : Row El} {x : K} :
    HasAmount float r x ↔ x = r.amount float := by
  simp only [HasAmount, readsAs_iff, Row.amount]
  cases h : r.occupancy with
  | none => simp
  | some t =>
    simp only [Option.some.injEq, exists_eq_left', forall_eq']
    cases h : str2float float t with
    | error e => simp
    | ok v => simp [eq_comm]

section
variable [DecidableEq El]

/-- The loop over atoms that have been read. -/
def addAtoms (hydrogen : El) (tol : K) (ops : List (Coord K → Coord K)) :
    List (Atom El K) → Table El K → Py (Table El K)
  | [], t => .ok t
  | a :: as, t =>
    match addAtom tol ops t a.position (rowComp hydrogen a.element a.amount a.hydrogens) a.label with
    | .error e => .error e
    | .ok t => addAtoms hydrogen tol ops as t

theorem addRows_atoms {float : String → Option K} {hydrogen : El} {tol : K} {ops : List (Coord K → Coord K)}
    {rows : List (Row El)} {atoms : List (Atom El K)} (h : RowsDescribe float rows atoms) (t : Table El K) :
    addRows float hydrogen tol ops rows t = addAtoms hydrogen tol ops atoms t := by
  induction h generalizing t with
  | nil => rfl
  | @skip r rs as h _ ih =>
    rw [addRows]
    have : addRow float hydrogen tol ops t r = .ok t := by
      unfold addRow
      rcases h with h | ⟨⟨p, hp⟩, x, hx, ha⟩
      · rw [h]
      · cases hs : r.species with
        | none => rfl
        | some el =>
          rw [hasAmount_iff.1 hx] at ha
          simp only [atPosition_iff.1 hp, if_neg (not_lt.mpr ha)]
    rw [this]
    exact ih t
  | @atom r rs a as h _ ih =>
    obtain ⟨h1, h2, h3, h4, h5, h6⟩ := h
    rw [addRows, addAtoms]
    have : addRow float hydrogen tol ops t r =
        addAtom tol ops t a.position (rowComp hydrogen a.element a.amount a.hydrogens) a.label := by
      unfold addRow
      rw [h2]
      rw [hasAmount_iff.1 h5] at h6 ⊢
      simp only [atPosition_iff.1 h4, if_pos h6, h3, h1]
    rw [this]
    cases addAtom tol ops t a.position (rowComp hydrogen a.element a.amount a.hydrogens) a.label with
    | error e => rfl
    | ok t' => exact ih t'

/-- Rows that can all be read describe atoms. -/
theorem rowsDescribe_exists {float : String → Option K} {rows : List (Row El)}
    (h : ∀ r ∈ rows, r.species ≠ none → ∃ p : Coord K, r.coord float = .ok p) :
    ∃ atoms, RowsDescribe float rows atoms := by
  induction rows with
  | nil => exact ⟨[], .nil⟩
  | cons r rs ih =>
    obtain ⟨as, has⟩ := ih fun r' hr' => h r' (List.mem_cons_of_mem _ hr')
    cases hs : r.species with
    | none => exact ⟨as, .skip (.inl hs) has⟩
    | some el =>
      obtain ⟨p, hp⟩ := h r List.mem_cons_self (by simp [hs])
      by_cases ha : 0 < r.amount float
      · exact ⟨⟨r.label, el, r.hydrogens, p, r.amount float⟩ :: as, 
          .atom ⟨rfl, hs, rfl, atPosition_iff.2 hp, hasAmount_iff.2 rfl, ha⟩ has⟩
      · exact ⟨as, .skip (.inr ⟨⟨p, atPosition_iff.2 hp⟩, _, hasAmount_iff.2 rfl, not_lt.mp ha⟩) has⟩

/-- A row that cannot be read stops the loop. -/
theorem addRows_unreadable {float : String → Option K} {hydrogen : El} {tol : K}
    {ops : List (Coord K → Coord K)} {rows : List (Row El)} {t t' : Table El K}
    (h : addRows float hydrogen tol ops rows t = .ok t') :
    ∀ r ∈ rows, r.species ≠ none → ∃ p : Coord K, r.coord float = .ok p := by
  induction rows generalizing t with
  | nil => simp
  | cons r rs ih =>
    rw [addRows] at h
    cases h1 : addRow float hydrogen tol ops t r with
    | error e => rw [h1] at h; simp at h
    | ok t1 =>
      rw [h1] at h
      intro r' hr' hs
      rcases List.mem_cons.mp hr' with rfl | hr'
      · unfold addRow at h1
        cases hsp : r'.species with
        | none => exact absurd hsp hs
        | some el =>
          rw [hsp] at h1
          cases hc : r'.coord float with
          | error e => rw [hc] at h1; simp at h1
          | ok p => exact ⟨p, rfl⟩
      · exact ih h r' hr' hs

theorem addAtom_error {tol : K} {ops : List (Coord K → Coord K)} {t : Table El K} {p : Coord K} {c : Comp El K}
    {l : String} {e : PyErr} (h : addAtom tol ops t p c l = .error e) : e = .keyError := by
  unfold addAtom at h
  split at h
  · simp at h
  · split at h
    · simpa using h.symm
    · simp at h

theorem addRows_error {float : String → Option K} {hydrogen : El} {tol : K} {ops : List (Coord K → Coord K)}
    {rows : List (Row El)} {t : Table El K} {e : PyErr} (h : addRows float hydrogen tol ops rows t = .error e) :
    e = .keyError ∨ e = .valueError := by
  have hf : ∀ s : String, ∀ e, str2float float s = .error e → e = .valueError := by
    intro s e h
    unfold str2float at h
    split at h
    · simp at h
    · split at h
      · simp at h
      · simpa using h.symm
  have hc : ∀ r : Row El, ∀ e, r.coord float = .error e → e = .valueError := by
    intro r e h
    unfold Row.coord at h
    cases hx : str2float float r.x with
    | error e' => rw [hx] at h; simp only [Except.error.injEq] at h; subst h; exact hf _ _ hx
    | ok x =>
      rw [hx] at h
      cases hy : str2float float r.y with
      | error e' => rw [hy] at h; simp only [Except.error.injEq] at h; subst h; exact hf _ _ hy
      | ok y =>
        rw [hy] at h
        cases hz : str2float float r.z with
        | error e' => rw [hz] at h; simp only [Except.error.injEq] at h; subst h; exact hf _ _ hz
        | ok z => rw [hz] at h; simp at h
  induction rows generalizing t with
  | nil => simp [addRows] at h
  | cons r rs ih =>
    rw [addRows] at h
    cases h1 : addRow float hydrogen tol ops t r with
    | ok t1 => rw [h1] at h; exact ih h
    | error e1 =>
      rw [h1] at h
      simp only [Except.error.injEq] at h
      subst h
      unfold addRow at h1
      cases hsp : r.species with
      | none => rw [hsp] at h1; simp at h1
      | some el =>
        rw [hsp] at h1
        cases hp : r.coord float with
        | error e' =>
          rw [hp] at h1
          simp only [Except.error.injEq] at h1
          subst h1
          exact .inr (hc _ _ hp)
        | ok p =>
          rw [hp] at h1
          simp only at h1
          split at h1
          · exact .inl (addAtom_error h1)
          · simp at h1

/-! ### The table -/

/-- The compositions of some atoms added up, from the left. -/
def compOf (hydrogen : El) : List (Atom El K) → Comp El K
  | [] => []
  | a :: as => as.foldl (fun c b => compAdd c (rowComp hydrogen b.element b.amount b.hydrogens))
      (rowComp hydrogen a.element a.amount a.hydrogens)

/-- The labels of some atoms joined. -/
def labelOf : List (Atom El K) → String
  | [] => ""
  | a :: as => as.foldl (fun l b => l ++ b.label) a.label

/-- The table after some atoms, if the loop has not failed. -/
structure TableOf (hydrogen : El) (ops : List (Coord K → Coord K)) (done : List (Atom El K)) (t : Table El K) :
    Prop where
  nodup : (dictKeys t).Nodup
  keys : ∀ p, p ∈ dictKeys t ↔ ∃ a ∈ done, a.position = p
  agree : ∀ a ∈ done, ∀ b ∈ done, Image ops a.position b.position → a.position = b.position
  value : ∀ p ∈ dictKeys t, dictGet t p =
    some (compOf hydrogen (done.filter fun a => decide (a.position = p)),
      labelOf (done.filter fun a => decide (a.position = p)))

omit [DecidableEq El] in
theorem matching_none {tol : K} {keys : List (Coord K)} {p : Coord K} {ops : List (Coord K → Coord K)} :
    matching tol keys p ops = none ↔ ∀ g ∈ ops, ∀ k ∈ keys, ¬ Close tol k (g p) := by
  induction ops with
  | nil => simp [matching]
  | cons g ops ih =>
    rw [matching]
    cases h : keys.find? fun k => near tol k (g p) with
    | some k =>
      have h1 := List.mem_of_find?_eq_some h
      have h2 := List.find?_some h
      constructor
      · simp
      · intro hh
        exact absurd ((near_iff _ _ _).mp h2) (hh g List.mem_cons_self k h1)
    | none =>
      rw [List.find?_eq_none] at h
      simp only [ih]
      constructor
      · intro hh g' hg' k hk
        rcases List.mem_cons.mp hg' with rfl | hg'
        · exact fun hc => h k hk ((near_iff _ _ _).mpr hc)
        · exact hh g' hg' k hk
      · exact fun hh g' hg' => hh g' (List.mem_cons_of_mem _ hg')

omit [DecidableEq El] in
theorem matching_some {tol : K} {keys : List (Coord K)} {p k : Coord K} {ops : List (Coord K → Coord K)}
    (h : matching tol keys p ops = some k) : k ∈ keys ∧ ∃ g ∈ ops, Close tol k (g p) := by
  induction ops with
  | nil => simp [matching] at h
  | cons g ops ih =>
    rw [matching] at h
    cases h1 : keys.find? fun k => near tol k (g p) with
    | some k' =>
      rw [h1] at h
      simp only [Option.some.injEq] at h
      subst h
      have h2 := List.find?_some h1
      exact ⟨List.mem_of_find?_eq_some h1, g, List.mem_cons_self, (near_iff _ _ _).mp h2⟩
    | none =>
      rw [h1] at h
      obtain ⟨h2, g', hg', h3⟩ := ih h
      exact ⟨h2, g', List.mem_cons_of_mem _ hg', h3⟩

/-- An atom close to an image of another is one of its images. -/
theorem image_of_close {tol : K} {ops : List (Coord K → Coord K)} {atoms : List (Atom El K)}
    (hg : SpaceGroup ops) (hd : ImagesApart tol ops atoms) {a b : Atom El K} (ha : a ∈ atoms) (hb : b ∈ atoms)
    {g : Coord K → Coord K} (hm : g ∈ ops) (h : Close tol a.position (g b.position)) :
    Image ops b.position a.position := by
  obtain ⟨i, hi, hid⟩ := hg.identity
  have h1 := hd a ha b hb i hi g hm (h.congr (hid a.position).symm (SamePoint.rfl _))
  exact ⟨g, hm, h1.symm.trans (hid _)⟩

theorem addAtom_step {hydrogen : El} {tol : K} (ht : 0 < tol) {ops : List (Coord K → Coord K)}
    {atoms done : List (Atom El K)} (hg : SpaceGroup ops) (hd : ImagesApart tol ops atoms)
    {a : Atom El K} (hsub : ∀ x ∈ done, x ∈ atoms) (ha : a ∈ atoms) {t : Table El K}
    (hT : TableOf hydrogen ops done t) :
    (∀ t', addAtom tol ops t a.position (rowComp hydrogen a.element a.amount a.hydrogens) a.label = .ok t' →
      TableOf hydrogen ops (done ++ [a]) t') ∧
    ((∀ b ∈ done, Image ops b.position a.position → b.position = a.position) →
      ∃ t', addAtom tol ops t a.position (rowComp hydrogen a.element a.amount a.hydrogens) a.label = .ok t') := by
  have hkey : ∀ k ∈ dictKeys t, ∀ g ∈ ops, Close tol k (g a.position) → Image ops a.position k := by
    intro k hk g hm hc
    obtain ⟨b, hb, rfl⟩ := (hT.keys k).mp hk
    exact image_of_close hg hd (hsub b hb) ha hm hc
  unfold addAtom
  cases hmt : matching tol (dictKeys t) a.position ops with
  | none =>
    have hno := matching_none.mp hmt
    have hnk : ∀ b ∈ done, ¬ Image ops a.position b.position := by
      rintro b hb ⟨g, hm, h⟩
      exact hno g hm b.position ((hT.keys _).mpr ⟨b, hb, rfl⟩) (Close.of_same ht h.symm)
    have hp : a.position ∉ dictKeys t := by
      intro h
      obtain ⟨b, hb, hbp⟩ := (hT.keys _).mp h
      exact hnk b hb (hbp ▸ Image.refl hg _)
    refine ⟨?_, fun _ => ⟨_, rfl⟩⟩
    intro t' h
    simp only [Except.ok.injEq] at h
    subst h
    have hk2 : dictKeys (dictSet t a.position (rowComp hydrogen a.element a.amount a.hydrogens, a.label)) =
        dictKeys t ++ [a.position] := by
      rw [dictKeys_dictSet_of_not_mem t _ hp]
      simp [dictKeys]
    constructor
    · exact dictKeys_dictSet_nodup _ _ _ hT.nodup
    · intro p
      rw [hk2]
      simp only [List.mem_append, List.mem_singleton, hT.keys]
      constructor
      · rintro (⟨b, hb, rfl⟩ | rfl)
        · exact ⟨b, .inl hb, rfl⟩
        · exact ⟨a, .inr rfl, rfl⟩
      · rintro ⟨b, hb | rfl, rfl⟩
        · exact .inl ⟨b, hb, rfl⟩
        · exact .inr rfl
    · intro x hx y hy hxy
      simp only [List.mem_append, List.mem_singleton] at hx hy
      rcases hx with hx | rfl <;> rcases hy with hy | rfl
      · exact hT.agree x hx y hy hxy
      · exact absurd (hxy.symm hg) (hnk x hx)
      · exact absurd hxy (hnk y hy)
      · rfl
    · intro p hpk
      rw [hk2] at hpk
      rcases List.mem_append.mp hpk with hpk | hpk
      · have hne : p ≠ a.position := fun h => hp (h ▸ hpk)
        rw [dictGet_dictSet_ne _ _ hne, hT.value p hpk]
        have : (done ++ [a]).filter (fun b => decide (b.position = p)) =
            done.filter fun b => decide (b.position = p) := by
          rw [List.filter_append]
          simp [Ne.symm hne]
        rw [this]
      · rw [List.mem_singleton] at hpk
        subst hpk
        rw [dictGet_dictSet, if_pos rfl]
        have h0 : done.filter (fun b => decide (b.position = a.position)) = [] := by
          rw [List.filter_eq_nil_iff]
          intro b hb h
          simp only [decide_eq_true_eq] at h
          exact hp ((hT.keys _).mpr ⟨b, hb, h⟩)
        rw [List.filter_append, h0]
        simp [compOf, labelOf]
  | some key =>
    obtain ⟨hkm, g, hm, hc⟩ := matching_some hmt
    have hik := hkey key hkm g hm hc
    simp only
    by_cases hp : a.position ∈ dictKeys t
    · -- the position is a key, so it is the one found
      have hkp : key = a.position := by
        obtain ⟨b, hb, hbp⟩ := (hT.keys _).mp hp
        obtain ⟨c, hcd, rfl⟩ := (hT.keys _).mp hkm
        rw [← hbp] at hik ⊢
        exact (hT.agree b hb c hcd hik).symm
      subst hkp
      have hv := hT.value _ hp
      have hadd : addComp t a.position (rowComp hydrogen a.element a.amount a.hydrogens) =
          dictSet t a.position (compAdd (compOf hydrogen (done.filter fun b => decide (b.position = a.position)))
            (rowComp hydrogen a.element a.amount a.hydrogens),
            labelOf (done.filter fun b => decide (b.position = a.position))) := by
        unfold addComp
        rw [hv]
      rw [hadd, dictGet_dictSet, if_pos rfl]
      refine ⟨?_, fun _ => ⟨_, rfl⟩⟩
      intro t' h
      simp only [Except.ok.injEq] at h
      subst h
      have hk2 : ∀ v v', dictKeys (dictSet (dictSet t a.position v) a.position v') = dictKeys t := by
        intro v v'
        rw [dictKeys_dictSet_of_mem, dictKeys_dictSet_of_mem _ _ hp]
        rw [dictKeys_dictSet_of_mem _ _ hp]
        exact hp
      obtain ⟨b, hb, hbp⟩ := (hT.keys _).mp hp
      constructor
      · rw [hk2]; exact hT.nodup
      · intro p
        rw [hk2, hT.keys]
        simp only [List.mem_append, List.mem_singleton]
        constructor
        · rintro ⟨x, hx, rfl⟩
          exact ⟨x, .inl hx, rfl⟩
        · rintro ⟨x, hx | rfl, rfl⟩
          · exact ⟨x, hx, rfl⟩
          · exact ⟨b, hb, hbp⟩
      · intro x hx y hy hxy
        simp only [List.mem_append, List.mem_singleton] at hx hy
        rcases hx with hx | rfl <;> rcases hy with hy | rfl
        · exact hT.agree x hx y hy hxy
        · rw [← hbp] at hxy ⊢; exact hT.agree x hx b hb hxy
        · rw [← hbp] at hxy ⊢; exact hT.agree b hb y hy hxy
        · rfl
      · intro p hpk
        rw [hk2] at hpk
        by_cases hpa : p = a.position
        · subst hpa
          rw [dictGet_dictSet, if_pos rfl, List.filter_append]
          have hne : done.filter (fun b => decide (b.position = a.position)) ≠ [] := by
            intro h
            rw [List.filter_eq_nil_iff] at h
            exact h b hb (by simp [hbp])
          obtain ⟨x, xs, hx⟩ := List.exists_cons_of_ne_nil hne
          rw [hx]
          simp [compOf, labelOf, List.foldl_append]
        · rw [dictGet_dictSet_ne _ _ hpa, dictGet_dictSet_ne _ _ hpa, hT.value p hpk, List.filter_append]
          simp [Ne.symm hpa]
    · -- the position is not a key
      have hnone : dictGet (addComp t key (rowComp hydrogen a.element a.amount a.hydrogens)) a.position = none := by
        rw [dictGet_eq_none_iff]
        unfold addComp
        cases hdk : dictGet t key with
        | none => exact hp
        | some v =>
          obtain ⟨o, l⟩ := v
          simp only
          rw [dictKeys_dictSet_of_mem _ _ hkm]
          exact hp
      rw [hnone]
      refine ⟨fun t' h => by simp at h, ?_⟩
      intro hall
      exfalso
      obtain ⟨b, hb, rfl⟩ := (hT.keys _).mp hkm
      exact hp ((hT.keys _).mpr ⟨b, hb, hall b hb (hik.symm hg)⟩)

theorem addAtoms_table {hydrogen : El} {tol : K} (ht : 0 < tol) {ops : List (Coord K → Coord K)}
    {atoms : List (Atom El K)} (hg : SpaceGroup ops) (hd : ImagesApart tol ops atoms)
    (done rest : List (Atom El K)) (hsub : ∀ x ∈ done ++ rest, x ∈ atoms) (t : Table El K)
    (hT : TableOf hydrogen ops done t) :
    (∀ t', addAtoms hydrogen tol ops rest t = .ok t' → TableOf hydrogen ops (done ++ rest) t') ∧
    ((∀ a ∈ done ++ rest, ∀ b ∈ done ++ rest, Image ops a.position b.position → a.position = b.position) →
      ∃ t', addAtoms hydrogen tol ops rest t = .ok t') := by
  induction rest generalizing done t with
  | nil =>
    simp only [addAtoms, List.append_nil]
    refine ⟨?_, fun _ => ⟨t, rfl⟩⟩
    intro t' h
    simp only [Except.ok.injEq] at h
    exact h ▸ hT
  | cons a rest ih =>
    have h1 := addAtom_step ht hg hd (hsub := fun x hx => hsub x (List.mem_append_left _ hx))
      (ha := hsub a (List.mem_append_right _ List.mem_cons_self)) hT
    have hassoc : done ++ a :: rest = (done ++ [a]) ++ rest := by simp
    rw [addAtoms]
    cases hs : addAtom tol ops t a.position (rowComp hydrogen a.element a.amount a.hydrogens) a.label with
    | error e =>
      refine ⟨fun t' h => by simp at h, ?_⟩
      intro hall
      obtain ⟨t', ht'⟩ := h1.2 fun b hb => hall b (List.mem_append_left _ hb) a
        (List.mem_append_right _ List.mem_cons_self)
      rw [hs] at ht'
      simp at ht'
    | ok t1 =>
      have := ih (done ++ [a]) (hassoc ▸ hsub) t1 (h1.1 t1 hs)
      rw [hassoc]
      exact this

theorem tableOf_nil (hydrogen : El) (ops : List (Coord K → Coord K)) :
    TableOf hydrogen ops ([] : List (Atom El K)) [] := by
  constructor <;> simp [dictKeys]

end

/-! ### Images of one position -/

/-- The images collected so far. -/
structure ImagesOf (p : Coord K) (used : List (Coord K → Coord K)) (out : List (Coord K)) : Prop where
  pairwise : out.Pairwise fun x y => ¬ SamePoint x y
  image : ∀ x ∈ out, ∃ g ∈ used, x = wrap (g p)
  all : ∀ g ∈ used, ∃ x ∈ out, SamePoint x (g p)

theorem uniqueCoords_images {tol : K} (ht : 0 < tol) {p : Coord K} {all : List (Coord K → Coord K)}
    (hd : ∀ g ∈ all, ∀ h ∈ all, Close tol (g p) (h p) → SamePoint (g p) (h p))
    (used ops : List (Coord K → Coord K)) (hsub : ∀ g ∈ used ++ ops, g ∈ all) (out : List (Coord K))
    (h : ImagesOf p used out) : ImagesOf p (used ++ ops) (uniqueCoords tol p ops out) := by
  induction ops generalizing used out with
  | nil => simpa [uniqueCoords] using h
  | cons g ops ih =>
    have hassoc : used ++ g :: ops = (used ++ [g]) ++ ops := by simp
    have hgm : g ∈ all := hsub g (List.mem_append_right _ List.mem_cons_self)
    rw [uniqueCoords, hassoc]
    by_cases hc : (out.any fun q => near tol q (wrap (g p))) = true
    · rw [if_pos hc]
      refine ih (used ++ [g]) (hassoc ▸ hsub) out ⟨h.pairwise, ?_, ?_⟩
      · intro x hx
        obtain ⟨k, hk, hxk⟩ := h.image x hx
        exact ⟨k, List.mem_append_left _ hk, hxk⟩
      · intro k hk
        rcases List.mem_append.mp hk with hk | hk
        · exact h.all k hk
        · rw [List.mem_singleton] at hk
          subst hk
          obtain ⟨q, hq, hn⟩ := List.any_eq_true.mp hc
          obtain ⟨f, hf, rfl⟩ := h.image q hq
          have hcl := ((near_iff _ _ _).mp hn).congr (SamePoint.wrap _) (SamePoint.wrap _)
          exact ⟨_, hq, (SamePoint.wrap _).trans
            (hd f (hsub f (List.mem_append_left _ hf)) k hgm hcl)⟩
    · rw [if_neg hc]
      refine ih (used ++ [g]) (hassoc ▸ hsub) _ ⟨?_, ?_, ?_⟩
      · rw [List.pairwise_append]
        refine ⟨h.pairwise, List.pairwise_singleton _ _, ?_⟩
        intro x hx y hy hxy
        rw [List.mem_singleton] at hy
        subst hy
        apply hc
        rw [List.any_eq_true]
        exact ⟨x, hx, (near_iff _ _ _).mpr (Close.of_same ht hxy)⟩
      · intro x hx
        rcases List.mem_append.mp hx with hx | hx
        · obtain ⟨k, hk, hxk⟩ := h.image x hx
          exact ⟨k, List.mem_append_left _ hk, hxk⟩
        · rw [List.mem_singleton] at hx
          exact ⟨g, by simp, hx⟩
      · intro k hk
        rcases List.mem_append.mp hk with hk | hk
        · obtain ⟨x, hx, hxk⟩ := h.all k hk
          exact ⟨x, List.mem_append_left _ hx, hxk⟩
        · rw [List.mem_singleton] at hk
          subst hk
          exact ⟨_, List.mem_append_right _ List.mem_cons_self, SamePoint.wrap _⟩

theorem uniqueCoords_all {tol : K} (ht : 0 < tol) {p : Coord K} {ops : List (Coord K → Coord K)}
    (hd : ∀ g ∈ ops, ∀ h ∈ ops, Close tol (g p) (h p) → SamePoint (g p) (h p)) :
    ImagesOf p ops (uniqueCoords tol p ops []) := by
  have h := uniqueCoords_images ht hd [] ops (by simp) [] ⟨by simp, by simp, by simp⟩
  simpa using h

end Cif
end KMC
