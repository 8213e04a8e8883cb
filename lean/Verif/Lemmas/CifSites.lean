import Verif.Lemmas.Cif
import Mathlib.Data.List.Perm.Basic
import Mathlib.Algebra.BigOperators.Group.List.Basic
/-
Lemmas for the sites made of the atoms of a CIF file.
-/
namespace KMC
namespace Cif

set_option linter.unusedSectionVars false
open KMC.Spec

variable {El K : Type} [Field K] [LinearOrder K] [IsStrictOrderedRing K] [FloorRing K] [DecidableEq El]

/-! ### The sites -/

/-- The site is number `k` of the images of the entry. -/
def FromEntry (P : Parser El K) (ops : List (Coord K → Coord K)) (e : Coord K × (Comp El K × String)) (k : Nat)
    (s : Site El K) : Prop :=
  (uniqueCoords P.tol e.1 ops [])[k]? = some s.position ∧ s.wyckoff = k ∧ s.label = e.2.2 ∧
    s.species = rescale P.occTol (withoutHydrogens P.oxygen P.hydrogen e.2.1)

theorem sitesOf_mem {P : Parser El K} {ops : List (Coord K → Coord K)} {start : Nat}
    {e : Coord K × (Comp El K × String)} {s : Site El K}
    (h : s ∈ sitesOf P.oxygen P.hydrogen P.tol P.occTol ops start e) : ∃ k, FromEntry P ops e k s := by
  unfold sitesOf at h
  rw [List.mem_mapIdx] at h
  obtain ⟨k, hk, rfl⟩ := h
  exact ⟨k, by simp, rfl, rfl, rfl⟩

theorem sitesOf_get {P : Parser El K} {ops : List (Coord K → Coord K)} {start : Nat}
    {e : Coord K × (Comp El K × String)} {k : Nat} {c : Coord K}
    (h : (uniqueCoords P.tol e.1 ops [])[k]? = some c) :
    ∃ s ∈ sitesOf P.oxygen P.hydrogen P.tol P.occTol ops start e, s.position = c ∧ FromEntry P ops e k s := by
  refine ⟨_, List.mem_of_getElem? (i := k) (by unfold sitesOf; rw [List.getElem?_mapIdx, h]; rfl), rfl, ?_⟩
  exact ⟨h, rfl, rfl, rfl⟩

theorem expand_mem {P : Parser El K} {ops : List (Coord K → Coord K)} {t : Table El K} {start : Nat}
    {s : Site El K} (h : s ∈ expand P.oxygen P.hydrogen P.tol P.occTol ops start t) :
    ∃ e ∈ t, ∃ k, FromEntry P ops e k s := by
  induction t generalizing start with
  | nil => simp [expand] at h
  | cons e t ih =>
    rw [expand, List.mem_append] at h
    rcases h with h | h
    · exact ⟨e, List.mem_cons_self, sitesOf_mem h⟩
    · obtain ⟨e', he', hk⟩ := ih h
      exact ⟨e', List.mem_cons_of_mem _ he', hk⟩

theorem expand_get {P : Parser El K} {ops : List (Coord K → Coord K)} {t : Table El K} (start : Nat)
    {e : Coord K × (Comp El K × String)} (he : e ∈ t) {k : Nat} {c : Coord K}
    (h : (uniqueCoords P.tol e.1 ops [])[k]? = some c) :
    ∃ s ∈ expand P.oxygen P.hydrogen P.tol P.occTol ops start t, s.position = c ∧ FromEntry P ops e k s := by
  induction t generalizing start with
  | nil => simp at he
  | cons e' t ih =>
    rw [expand]
    rcases List.mem_cons.mp he with rfl | he
    · obtain ⟨s, hs, h1⟩ := sitesOf_get (start := start) h
      exact ⟨s, List.mem_append_left _ hs, h1⟩
    · obtain ⟨s, hs, h1⟩ := ih (start + _) he
      exact ⟨s, List.mem_append_right _ hs, h1⟩

theorem sitesOf_localIndex (P : Parser El K) (ops : List (Coord K → Coord K)) (start : Nat)
    (e : Coord K × (Comp El K × String)) :
    (sitesOf P.oxygen P.hydrogen P.tol P.occTol ops start e).map Site.localIndex =
      List.range' start (sitesOf P.oxygen P.hydrogen P.tol P.occTol ops start e).length := by
  apply List.ext_getElem
  · simp
  · intro i h1 h2
    simp [sitesOf]

theorem sitesOf_wyckoff (P : Parser El K) (ops : List (Coord K → Coord K)) (start : Nat)
    (e : Coord K × (Comp El K × String)) :
    (sitesOf P.oxygen P.hydrogen P.tol P.occTol ops start e).map Site.wyckoff =
      List.range (sitesOf P.oxygen P.hydrogen P.tol P.occTol ops start e).length := by
  apply List.ext_getElem
  · simp
  · intro i h1 h2
    simp [sitesOf]

theorem expand_localIndex (P : Parser El K) (ops : List (Coord K → Coord K)) (start : Nat) (t : Table El K) :
    (expand P.oxygen P.hydrogen P.tol P.occTol ops start t).map Site.localIndex =
      List.range' start (expand P.oxygen P.hydrogen P.tol P.occTol ops start t).length := by
  induction t generalizing start with
  | nil => simp [expand]
  | cons e t ih =>
    rw [expand, List.map_append, ih, sitesOf_localIndex, List.length_append, List.range'_append_1]

/-- What the loaded sites are made of. -/
structure Expanded (P : Parser El K) (ops : List (Coord K → Coord K)) (atoms : List (Atom El K))
    (t : Table El K) : Prop where
  tolerance : 0 < P.tol
  group : SpaceGroup ops
  apart : ImagesApart P.tol ops atoms
  table : TableOf P.hydrogen ops atoms t

theorem Expanded.images {P : Parser El K} {ops : List (Coord K → Coord K)} {atoms : List (Atom El K)}
    {t : Table El K} (h : Expanded P ops atoms t) {a : Atom El K} (ha : a ∈ atoms) :
    ImagesOf a.position ops (uniqueCoords P.tol a.position ops []) :=
  uniqueCoords_all h.tolerance fun g hg k hk hc => h.apart a ha a ha g hg k hk hc

theorem Expanded.entry {P : Parser El K} {ops : List (Coord K → Coord K)} {atoms : List (Atom El K)}
    {t : Table El K} (h : Expanded P ops atoms t) {e : Coord K × (Comp El K × String)} (he : e ∈ t) :
    ∃ a ∈ atoms, a.position = e.1 := by
  exact (h.table.keys e.1).mp (List.mem_map_of_mem he)

/-- Two entries with a common image are the same. -/
theorem Expanded.entry_unique {P : Parser El K} {ops : List (Coord K → Coord K)} {atoms : List (Atom El K)}
    {t : Table El K} (h : Expanded P ops atoms t) {e e' : Coord K × (Comp El K × String)} (he : e ∈ t)
    (he' : e' ∈ t) {p q : Coord K} (h1 : Image ops e.1 p) (h2 : Image ops e'.1 q) (hpq : SamePoint p q) :
    e.1 = e'.1 := by
  obtain ⟨a, ha, hae⟩ := h.entry he
  obtain ⟨b, hb, hbe⟩ := h.entry he'
  rw [← hae] at h1 ⊢
  rw [← hbe] at h2 ⊢
  exact h.table.agree a ha b hb ((h1.congr_right hpq).trans h.group (h2.symm h.group))

theorem Expanded.image {P : Parser El K} {ops : List (Coord K → Coord K)} {atoms : List (Atom El K)}
    {t : Table El K} (h : Expanded P ops atoms t) {e : Coord K × (Comp El K × String)} (he : e ∈ t) {k : Nat}
    {s : Site El K} (hs : FromEntry P ops e k s) : Image ops e.1 s.position := by
  obtain ⟨a, ha, hae⟩ := h.entry he
  have hi := h.images ha
  rw [hae] at hi
  obtain ⟨g, hg, hx⟩ := hi.image s.position (List.mem_of_getElem? hs.1)
  exact ⟨g, hg, hx ▸ (SamePoint.wrap _).symm⟩

theorem expand_pairwise_aux {P : Parser El K} {ops : List (Coord K → Coord K)} {atoms : List (Atom El K)}
    {t : Table El K} (h : Expanded P ops atoms t) (t' : Table El K) (hsub : ∀ e ∈ t', e ∈ t)
    (hnd : (dictKeys t').Nodup) (start : Nat) :
    (expand P.oxygen P.hydrogen P.tol P.occTol ops start t').Pairwise
      fun s s' => ¬ SamePoint s.position s'.position := by
  induction t' generalizing start with
  | nil => simp [expand]
  | cons e t' ih =>
    have hnd' : e.1 ∉ dictKeys t' ∧ (dictKeys t').Nodup := List.nodup_cons.mp hnd
    rw [expand, List.pairwise_append]
    refine ⟨?_, ih (fun x hx => hsub x (List.mem_cons_of_mem _ hx)) hnd'.2 _, ?_⟩
    · obtain ⟨a, ha, hae⟩ := h.entry (hsub e List.mem_cons_self)
      have hi := (h.images ha).pairwise
      rw [hae] at hi
      rw [List.pairwise_iff_getElem] at hi ⊢
      intro i j hi' hj' hij
      have h1 : i < (uniqueCoords P.tol e.1 ops []).length := by simpa [sitesOf] using hi'
      have h2 : j < (uniqueCoords P.tol e.1 ops []).length := by simpa [sitesOf] using hj'
      have := hi i j h1 h2 hij
      simpa [sitesOf] using this
    · intro s hs s' hs' hss
      obtain ⟨k, hk⟩ := sitesOf_mem hs
      obtain ⟨e', he', k', hk'⟩ := expand_mem hs'
      have := h.entry_unique (hsub e List.mem_cons_self) (hsub e' (List.mem_cons_of_mem _ he'))
        (h.image (hsub e List.mem_cons_self) hk) (h.image (hsub e' (List.mem_cons_of_mem _ he')) hk') hss
      exact hnd'.1 (this ▸ List.mem_map_of_mem he')

theorem expand_pairwise {P : Parser El K} {ops : List (Coord K → Coord K)} {atoms : List (Atom El K)}
    {t : Table El K} (h : Expanded P ops atoms t) :
    (expand P.oxygen P.hydrogen P.tol P.occTol ops 0 t).Pairwise
      fun s s' => ¬ SamePoint s.position s'.position :=
  expand_pairwise_aux h t (fun _ he => he) h.table.nodup 0

/-- The images of one entry, among all sites. -/
theorem expand_filter_aux {P : Parser El K} {ops : List (Coord K → Coord K)} {q : Site El K → Bool}
    {e : Coord K × (Comp El K × String)} (t : Table El K) (he : e ∈ t) (hnd : (dictKeys t).Nodup)
    (hq : ∀ e' ∈ t, ∀ k s, FromEntry P ops e' k s → (q s = true ↔ e'.1 = e.1)) (start : Nat) :
    ∃ start', (expand P.oxygen P.hydrogen P.tol P.occTol ops start t).filter q =
      sitesOf P.oxygen P.hydrogen P.tol P.occTol ops start' e := by
  induction t generalizing start with
  | nil => simp at he
  | cons e' t ih =>
    have hnd' : e'.1 ∉ dictKeys t ∧ (dictKeys t).Nodup := List.nodup_cons.mp hnd
    rw [expand, List.filter_append]
    rcases List.mem_cons.mp he with rfl | he
    · refine ⟨start, ?_⟩
      have h1 : (sitesOf P.oxygen P.hydrogen P.tol P.occTol ops start e).filter q =
          sitesOf P.oxygen P.hydrogen P.tol P.occTol ops start e := by
        rw [List.filter_eq_self]
        intro s hs
        obtain ⟨k, hk⟩ := sitesOf_mem hs
        exact (hq e List.mem_cons_self k s hk).mpr rfl
      have h2 : (expand P.oxygen P.hydrogen P.tol P.occTol ops
          (start + (sitesOf P.oxygen P.hydrogen P.tol P.occTol ops start e).length) t).filter q = [] := by
        rw [List.filter_eq_nil_iff]
        intro s hs hqs
        obtain ⟨e', he', k, hk⟩ := expand_mem hs
        exact hnd'.1 ((hq e' (List.mem_cons_of_mem _ he') k s hk).mp hqs ▸ List.mem_map_of_mem he')
      rw [h1, h2, List.append_nil]
    · obtain ⟨start', hs'⟩ := ih he hnd'.2 (fun x hx => hq x (List.mem_cons_of_mem _ hx))
        (start + (sitesOf P.oxygen P.hydrogen P.tol P.occTol ops start e').length)
      refine ⟨start', ?_⟩
      have h1 : (sitesOf P.oxygen P.hydrogen P.tol P.occTol ops start e').filter q = [] := by
        rw [List.filter_eq_nil_iff]
        intro s hs hqs
        obtain ⟨k, hk⟩ := sitesOf_mem hs
        exact hnd'.1 ((hq e' List.mem_cons_self k s hk).mp hqs ▸ List.mem_map_of_mem he)
      rw [h1, List.nil_append, hs']

/-! ### Compositions -/

theorem total_dictSet (c : Comp El K) (k : El) (v : K) :
    total (dictSet c k ((dictGet c k).getD 0 + v)) = total c + v := by
  induction c with
  | nil => simp [dictSet, dictGet, total]
  | cons p c ih =>
    obtain ⟨k', v'⟩ := p
    by_cases h : k' = k
    · subst h
      simp [dictSet, dictGet, total]
      ring
    · simp only [dictSet, dictGet, if_neg h, total, List.map_cons, List.sum_cons] at ih ⊢
      rw [ih]
      ring

theorem amountOf_dictSet (c : Comp El K) (k e : El) (v : K) :
    amountOf (dictSet c k ((dictGet c k).getD 0 + v)) e = amountOf c e + if k = e then v else 0 := by
  unfold amountOf
  rw [dictGet_dictSet]
  by_cases h : e = k
  · subst h; simp
  · rw [if_neg h, if_neg (Ne.symm h), add_zero]

/-- What an atom adds of an element: implicit hydrogens are hydrogen. -/
def gives (hydrogen : El) (a : Atom El K) (e : El) : K :=
  if 0 < a.hydrogens ∧ hydrogen = e then (a.hydrogens : K) else if a.element = e then a.amount else 0

/-- What an atom adds in all. -/
def givesTotal (hydrogen : El) (a : Atom El K) : K :=
  if 0 < a.hydrogens then (if a.element = hydrogen then (a.hydrogens : K) else a.amount + a.hydrogens)
  else a.amount

theorem amountOf_rowComp (hydrogen : El) (a : Atom El K) (e : El) :
    amountOf (rowComp hydrogen a.element a.amount a.hydrogens) e = gives hydrogen a e := by
  unfold amountOf rowComp gives
  by_cases h : 0 < a.hydrogens
  · by_cases h1 : a.element = hydrogen
    · by_cases h2 : hydrogen = e
      · simp [h, h1, h2, dictSet, dictGet]
      · simp [h, h1, h2, dictSet, dictGet]
    · by_cases h2 : hydrogen = e
      · have h3 : a.element ≠ e := h2 ▸ h1
        simp [h, h2, dictSet, dictGet, h3]
      · by_cases h3 : a.element = e
        · have h4 : e ≠ hydrogen := fun hh => h2 hh.symm
          simp [h, h2, h3, dictSet, dictGet, h4]
        · simp [h, h1, h2, h3, dictSet, dictGet]
  · by_cases h3 : a.element = e <;> simp [h, h3, dictGet]

theorem total_rowComp (hydrogen : El) (a : Atom El K) :
    total (rowComp hydrogen a.element a.amount a.hydrogens) = givesTotal hydrogen a := by
  unfold rowComp givesTotal total
  by_cases h : 0 < a.hydrogens
  · by_cases h1 : a.element = hydrogen <;> simp [h, h1, dictSet]
  · simp [h]

theorem amountOf_compAdd_row (hydrogen : El) (c : Comp El K) (a : Atom El K) (e : El) :
    amountOf (compAdd c (rowComp hydrogen a.element a.amount a.hydrogens)) e =
      amountOf c e + gives hydrogen a e := by
  unfold compAdd rowComp gives
  by_cases h : 0 < a.hydrogens
  · by_cases h1 : a.element = hydrogen
    · simp only [if_pos h, dictSet, if_pos h1, List.foldl_cons, List.foldl_nil, amountOf_dictSet]
      by_cases h2 : hydrogen = e
      · simp [h, h1, h2]
      · simp [h, h1, h2]
    · simp only [if_pos h, dictSet, if_neg h1, List.foldl_cons, List.foldl_nil, amountOf_dictSet]
      by_cases h2 : hydrogen = e
      · have h3 : a.element ≠ e := h2 ▸ h1
        simp [h, h2, h3]
      · simp [h2]
  · simp only [if_neg h, List.foldl_cons, List.foldl_nil, amountOf_dictSet]
    simp [h]

theorem total_compAdd_row (hydrogen : El) (c : Comp El K) (a : Atom El K) :
    total (compAdd c (rowComp hydrogen a.element a.amount a.hydrogens)) = total c + givesTotal hydrogen a := by
  unfold compAdd rowComp givesTotal
  by_cases h : 0 < a.hydrogens
  · by_cases h1 : a.element = hydrogen
    · simp only [if_pos h, dictSet, if_pos h1, List.foldl_cons, List.foldl_nil, total_dictSet]
    · simp only [if_pos h, dictSet, if_neg h1, List.foldl_cons, List.foldl_nil, total_dictSet]
      ring
  · simp only [if_neg h, List.foldl_cons, List.foldl_nil, total_dictSet]

theorem amountOf_compOf (hydrogen : El) (l : List (Atom El K)) (e : El) :
    amountOf (compOf hydrogen l) e = (l.map fun a => gives hydrogen a e).sum := by
  cases l with
  | nil => simp [compOf, amountOf, dictGet]
  | cons a l =>
    have : ∀ c : Comp El K, amountOf (l.foldl
        (fun c b => compAdd c (rowComp hydrogen b.element b.amount b.hydrogens)) c) e =
        amountOf c e + (l.map fun a => gives hydrogen a e).sum := by
      induction l with
      | nil => simp
      | cons b l ih =>
        intro c
        rw [List.foldl_cons, ih, amountOf_compAdd_row, List.map_cons, List.sum_cons, add_assoc]
    simp only [compOf]
    rw [this, amountOf_rowComp, List.map_cons, List.sum_cons]

theorem total_compOf (hydrogen : El) (l : List (Atom El K)) :
    total (compOf hydrogen l) = (l.map (givesTotal hydrogen)).sum := by
  cases l with
  | nil => simp [compOf, total]
  | cons a l =>
    have : ∀ c : Comp El K, total (l.foldl
        (fun c b => compAdd c (rowComp hydrogen b.element b.amount b.hydrogens)) c) =
        total c + (l.map (givesTotal hydrogen)).sum := by
      induction l with
      | nil => simp
      | cons b l ih =>
        intro c
        rw [List.foldl_cons, ih, total_compAdd_row, List.map_cons, List.sum_cons, add_assoc]
    simp only [compOf]
    rw [this, total_rowComp, List.map_cons, List.sum_cons]

theorem mem_keys_compAdd (a b : Comp El K) (e : El) (h : e ∈ dictKeys (compAdd a b)) :
    e ∈ dictKeys a ∨ e ∈ dictKeys b := by
  unfold compAdd at h
  induction b generalizing a with
  | nil => exact .inl h
  | cons p b ih =>
    rw [List.foldl_cons] at h
    rcases ih _ h with h | h
    · rcases (dictSet_keys_mem _ _ _ _).mp h with h | h
      · exact .inr (by simp [dictKeys, h])
      · exact .inl h
    · exact .inr (List.mem_cons_of_mem _ h)

theorem mem_keys_rowComp (hydrogen el : El) (v : K) (n : Nat) (e : El)
    (h : e ∈ dictKeys (rowComp hydrogen el v n)) : e = el ∨ (0 < n ∧ e = hydrogen) := by
  unfold rowComp at h
  split at h
  · rename_i hn
    rcases (dictSet_keys_mem _ _ _ _).mp h with h | h
    · exact .inr ⟨hn, h⟩
    · simp only [dictKeys, List.map_cons, List.map_nil, List.mem_singleton] at h
      exact .inl h
  · simp only [dictKeys, List.map_cons, List.map_nil, List.mem_singleton] at h
    exact .inl h

theorem mem_keys_compOf (hydrogen : El) (l : List (Atom El K)) (e : El)
    (h : e ∈ dictKeys (compOf hydrogen l)) :
    ∃ a ∈ l, e = a.element ∨ (0 < a.hydrogens ∧ e = hydrogen) := by
  cases l with
  | nil => simp [compOf, dictKeys] at h
  | cons a l =>
    have : ∀ (l : List (Atom El K)) (c : Comp El K), e ∈ dictKeys (l.foldl
        (fun c b => compAdd c (rowComp hydrogen b.element b.amount b.hydrogens)) c) →
        e ∈ dictKeys c ∨ ∃ a ∈ l, e = a.element ∨ (0 < a.hydrogens ∧ e = hydrogen) := by
      intro l
      induction l with
      | nil => exact fun c hc => .inl hc
      | cons b l ih =>
        intro c hc
        rw [List.foldl_cons] at hc
        rcases ih _ hc with hc | ⟨x, hx, hxe⟩
        · rcases mem_keys_compAdd _ _ _ hc with hc | hc
          · exact .inl hc
          · exact .inr ⟨b, List.mem_cons_self, mem_keys_rowComp _ _ _ _ _ hc⟩
        · exact .inr ⟨x, List.mem_cons_of_mem _ hx, hxe⟩
    rcases this _ _ h with h | ⟨x, hx, hxe⟩
    · exact ⟨a, List.mem_cons_self, mem_keys_rowComp _ _ _ _ _ h⟩
    · exact ⟨x, List.mem_cons_of_mem _ hx, hxe⟩

theorem withoutHydrogens_self {oxygen hydrogen : El} {c : Comp El K} (h : hydrogen ∉ dictKeys c) :
    withoutHydrogens oxygen hydrogen c = c := by
  unfold withoutHydrogens
  exact if_neg fun hh => h hh.2.2

theorem amountOf_withoutHydrogens {oxygen hydrogen : El} (c : Comp El K) {e : El} (he : e ≠ hydrogen) :
    amountOf (withoutHydrogens oxygen hydrogen c) e = amountOf c e := by
  unfold withoutHydrogens
  split
  · rename_i h
    unfold amountOf
    by_cases hO : oxygen = e
    · subst hO; simp [dictGet]
    · have : dictGet c e = none := by
        rw [dictGet_eq_none_iff]
        intro hk
        rcases h.1 e hk with h1 | h1
        · exact hO h1.symm
        · exact he h1
      simp [dictGet, hO, this]
  · rfl

theorem amountOf_scaled (c : Comp El K) (T : K) (e : El) :
    amountOf (c.map fun p => (p.1, p.2 / T)) e = amountOf c e / T := by
  unfold amountOf
  induction c with
  | nil => simp [dictGet]
  | cons p c ih =>
    obtain ⟨k, v⟩ := p
    by_cases h : k = e
    · simp [dictGet, h]
    · simp only [List.map_cons, dictGet, if_neg h]
      exact ih

theorem total_scaled (c : Comp El K) (T : K) : total (c.map fun p => (p.1, p.2 / T)) = total c / T := by
  unfold total
  induction c with
  | nil => simp
  | cons p c ih =>
    simp only [List.map_cons, List.sum_cons, ih]
    ring

theorem amountOf_rescale (occTol : K) (c : Comp El K) (e : El) :
    amountOf (rescale occTol c) e = amountOf c e / (if 1 < total c ∧ total c ≤ occTol then total c else 1) := by
  unfold rescale
  split
  · exact amountOf_scaled _ _ _
  · simp

theorem total_rescale (occTol : K) (c : Comp El K) :
    total (rescale occTol c) = total c / (if 1 < total c ∧ total c ≤ occTol then total c else 1) := by
  unfold rescale
  split
  · exact total_scaled _ _
  · simp

/-! ### Labels -/

theorem labelOf_eq (l : List (Atom El K)) : labelOf l = String.join (l.map Atom.label) := by
  cases l with
  | nil => simp [labelOf]
  | cons a l =>
    have : ∀ x : String, l.foldl (fun l b => l ++ b.label) x = x ++ String.join (l.map Atom.label) := by
      induction l with
      | nil => simp
      | cons b l ih =>
        intro x
        rw [List.foldl_cons, ih, List.map_cons, String.join_cons, String.append_assoc]
    simp only [labelOf]
    rw [this, List.map_cons, String.join_cons]

/-! ### Loading -/

theorem expand_eq_nil {P : Parser El K} {ops : List (Coord K → Coord K)} {atoms : List (Atom El K)}
    {t : Table El K} (h : Expanded P ops atoms t) :
    expand P.oxygen P.hydrogen P.tol P.occTol ops 0 t = [] ↔ atoms = [] := by
  constructor
  · intro hx
    by_contra hne
    obtain ⟨a, as, rfl⟩ := List.exists_cons_of_ne_nil hne
    have hk : a.position ∈ dictKeys t := (h.table.keys _).mpr ⟨a, List.mem_cons_self, rfl⟩
    obtain ⟨e, he, hek⟩ := List.mem_map.mp hk
    obtain ⟨g, hg, _⟩ := h.group.identity
    obtain ⟨x, hxm, _⟩ := (h.images List.mem_cons_self).all g hg
    obtain ⟨k, hk⟩ := List.getElem?_of_mem hxm
    rw [← hek] at hk
    obtain ⟨s, hs, _⟩ := expand_get (P := P) 0 he hk
    rw [hx] at hs
    simp at hs
  · rintro rfl
    cases t with
    | nil => rfl
    | cons e t =>
      obtain ⟨a, ha, _⟩ := h.entry (e := e) List.mem_cons_self
      simp at ha

/-- Loading a file of one block, in terms of the table. -/
theorem load_iff {P : Parser El K} {b : Block El K} {atoms : List (Atom El K)} (h : Crystal P b atoms)
    (sites : List (Site El K)) :
    load P false [b] = .ok sites ↔ ∃ t, Expanded P b.ops atoms t ∧
      addAtoms P.hydrogen P.tol b.ops atoms [] = .ok t ∧ atoms ≠ [] ∧
      (∀ s ∈ expand P.oxygen P.hydrogen P.tol P.occTol b.ops 0 t, total s.species ≤ 1 + P.excess) ∧
      sites = P.sort (expand P.oxygen P.hydrogen P.tol P.occTol b.ops 0 t) := by
  have hlab : labeledStructure P false b =
      match addAtoms P.hydrogen P.tol b.ops atoms [] with
      | .error e => .error e
      | .ok t => finish P false (expand P.oxygen P.hydrogen P.tol P.occTol b.ops 0 t) := by
    unfold labeledStructure
    rw [if_neg (by rw [h.standard]; decide), addRows_atoms h.read]
    cases addAtoms P.hydrogen P.tol b.ops atoms [] with
    | error e => rfl
    | ok t => exact if_neg (by rw [h.standard]; simp)
  have herr : ∀ e, addAtoms P.hydrogen P.tol b.ops atoms [] = .error e → e = .keyError ∨ e = .valueError := by
    intro e he
    rw [← addRows_atoms (float := P.float) h.read] at he
    exact addRows_error he
  unfold load labeledStructures
  rw [collect, hlab]
  cases ht : addAtoms P.hydrogen P.tol b.ops atoms [] with
  | error e =>
    have : ¬ ∃ t, Expanded P b.ops atoms t ∧
      (Except.error e : Py (Table El K)) = .ok t ∧ atoms ≠ [] ∧
      (∀ s ∈ expand P.oxygen P.hydrogen P.tol P.occTol b.ops 0 t, total s.species ≤ 1 + P.excess) ∧
      sites = P.sort (expand P.oxygen P.hydrogen P.tol P.occTol b.ops 0 t) := by simp
    rcases herr e ht with rfl | rfl <;> simp [collect]
  | ok t =>
    have hE : Expanded P b.ops atoms t := by
      refine ⟨h.tolerance, h.group, h.apart, ?_⟩
      have := (addAtoms_table h.tolerance h.group h.apart [] atoms (by simp) []
        (tableOf_nil P.hydrogen b.ops)).1 t ht
      simpa using this
    simp only [finish]
    by_cases hn : expand P.oxygen P.hydrogen P.tol P.occTol b.ops 0 t = []
    · have ha := (expand_eq_nil hE).mp hn
      rw [hn]
      simp [collect, ha]
    · have ha : atoms ≠ [] := fun hh => hn ((expand_eq_nil hE).mpr hh)
      have hemp : (expand P.oxygen P.hydrogen P.tol P.occTol b.ops 0 t).isEmpty = false := by
        rw [List.isEmpty_eq_false_iff]; exact hn
      rw [hemp]
      by_cases hany : (expand P.oxygen P.hydrogen P.tol P.occTol b.ops 0 t).any
          (fun s => decide (1 + P.excess < total s.species)) = true
      · rw [hany]
        have hex : ¬ ∀ s ∈ expand P.oxygen P.hydrogen P.tol P.occTol b.ops 0 t,
            total s.species ≤ 1 + P.excess := by
          intro hall
          obtain ⟨s, hs, hd⟩ := List.any_eq_true.mp hany
          exact absurd (hall s hs) (not_le.mpr (of_decide_eq_true hd))
        simp only [Bool.false_eq_true, if_false, if_true, collect]
        constructor
        · intro hh; simp at hh
        · rintro ⟨t', _, h2, _, h4, _⟩
          simp only [Except.ok.injEq] at h2
          subst h2
          exact absurd h4 hex
      · have hall : ∀ s ∈ expand P.oxygen P.hydrogen P.tol P.occTol b.ops 0 t,
            total s.species ≤ 1 + P.excess := by
          intro s hs
          by_contra hlt
          exact hany (List.any_eq_true.mpr ⟨s, hs, decide_eq_true (not_le.mp hlt)⟩)
        rw [Bool.not_eq_true] at hany
        rw [hany]
        have hsn : (P.sort (expand P.oxygen P.hydrogen P.tol P.occTol b.ops 0 t)).isEmpty = false := by
          rw [List.isEmpty_eq_false_iff]
          intro hh
          exact hn (List.Perm.nil_eq (hh ▸ h.sorting _)).symm
        simp only [Bool.false_eq_true, if_false, collect, hsn, Except.ok.injEq]
        constructor
        · rintro rfl
          exact ⟨t, hE, rfl, ha, hall, rfl⟩
        · rintro ⟨t', _, h2, _, _, h5⟩
          subst h2
          exact h5.symm

end Cif
end KMC
