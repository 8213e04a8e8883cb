import Verif.Props.FeatureProps
import Verif.Spec.SpeciesNames
/-
More on C48, C72 and C73: names of species, the mapping of a lattice, atoms with given sites, and the reference
that a cluster expansion accepts.
-/
namespace KMC
open Spec KMC.Lattice

/-! ### C48: names of species -/

/-- Species as they occur: a text, which has no symbol and no element, or an object with a symbol. -/
def Written (s : Specie) : Prop := s = Specie.ofText s.str ∨ (s.text = false ∧ ∃ x, s.symbol = some x)

theorem written_text {s : Specie} (h : Written s) (ht : s.text = true) : s = Specie.ofText s.str := by
  rcases h with h | ⟨h, -⟩
  · exact h
  · rw [h] at ht; cases ht

/-- C72.  A species is a vacancy exactly when its text, or the symbol of an object, is one of the five names. -/
theorem C72_vacancy_names (s : Specie) :
    s.isVacancy = true ↔ ∃ x, ((s.text = true ∧ s.str = x) ∨ (s.text = false ∧ s.symbol = some x)) ∧
      (x = "X" ∨ x = "Vacancy" ∨ x = "vacancy" ∨ x = "Va" ∨ x = "VA") := by
  have hmem : ∀ x : String, Specie.vacancyLabels.contains x = true ↔
      (x = "X" ∨ x = "Vacancy" ∨ x = "vacancy" ∨ x = "Va" ∨ x = "VA") := by
    intro x
    simp [Specie.vacancyLabels]
  cases ht : s.text with
  | true => simp only [Specie.isVacancy, ht, if_true, hmem]; simp
  | false =>
    cases hs : s.symbol with
    | none => simp [Specie.isVacancy, ht, hs]
    | some y =>
      simp only [Specie.isVacancy, ht, hs, Bool.false_eq_true, if_false, hmem]
      simp

/-- C72.  Two species are taken for the same exactly when they share a name: vacancies have the names `X` and
`Vacancy`, everything else its text, its symbol and its element.  All vacancies are the same. -/
theorem C72_same_species (a b : Specie) :
    (a.equivalent b = true ↔ ∃ t, ∀ s ∈ [a, b], (s.isVacancy = true ∧ (t = "X" ∨ t = "Vacancy")) ∨
      (s.isVacancy = false ∧ (t = s.str ∨ s.symbol = some t ∨ s.element = some t))) ∧
    (a.isVacancy = true → b.isVacancy = true → a.equivalent b = true) := by
  have htok : ∀ (s : Specie) (t : String), t ∈ s.tokens ↔ (s.isVacancy = true ∧ (t = "X" ∨ t = "Vacancy")) ∨
      (s.isVacancy = false ∧ (t = s.str ∨ s.symbol = some t ∨ s.element = some t)) := by
    intro s t
    unfold Specie.tokens
    cases hv : s.isVacancy with
    | true => simp
    | false => simp [eq_comm]
  have hmain : a.equivalent b = true ↔ ∃ t, t ∈ a.tokens ∧ t ∈ b.tokens := by
    simp [Specie.equivalent]
  refine ⟨hmain.trans ?_, fun ha hb => hmain.2 ⟨"X", (htok a _).2 (Or.inl ⟨ha, Or.inl rfl⟩),
    (htok b _).2 (Or.inl ⟨hb, Or.inl rfl⟩)⟩⟩
  simp only [List.mem_cons, List.not_mem_nil, or_false, forall_eq_or_imp, forall_eq, htok]

example : (Specie.ofText "Va").isVacancy = true ∧ (Specie.ofElement "Na" "Na+").isVacancy = false ∧
    Specie.equivalent (Specie.ofText "Va") Specie.vacancy = true ∧
    Specie.equivalent (Specie.ofText "Na") (Specie.ofElement "Na" "Na+") = true := by decide

theorem normalize_iff {parse : String → Py Specie} {s t : Specie} (hs : Written s) :
    s.normalize parse = .ok t ↔ StandsFor parse s t := by
  unfold Specie.normalize
  constructor
  · intro h
    split at h
    · rename_i hv; cases h; exact .vacancy s hv
    · rename_i hv
      have hv' : s.isVacancy = false := by simpa using hv
      split at h
      · rename_i ht
        rw [written_text hs ht]
        refine .text _ _ ?_ h
        rw [written_text hs ht] at hv'
        simpa [Specie.isVacancy, Specie.ofText] using hv'
      · rename_i ht; cases h; exact .itself s hv' (by simpa using ht)
  · intro h
    cases h with
    | vacancy _ hv => rw [if_pos hv]
    | text x _ hx hp =>
      rw [if_neg (by simpa [Specie.isVacancy, Specie.ofText] using hx), if_pos (show (Specie.ofText x).text = true from rfl)]
      exact hp
    | itself _ hv ht => rw [if_neg (by simp [hv]), if_neg (by simp [ht])]

/-- C48.  What a written species stands for is one species. -/
theorem C48_stands_for_one {parse : String → Py Specie} {s t u : Specie} (hs : Written s)
    (h1 : StandsFor parse s t) (h2 : StandsFor parse s u) : t = u := by
  rw [← normalize_iff hs] at h1 h2
  rw [h1] at h2
  exact Except.ok.inj h2

theorem normalizeAll_iff {parse : String → Py Specie} (l l' : List Specie) (hl : ∀ s ∈ l, Written s) :
    normalizeAll parse l = .ok l' ↔ List.Forall₂ (StandsFor parse) l l' := by
  induction l generalizing l' with
  | nil =>
    unfold normalizeAll
    constructor
    · intro h; cases h; exact .nil
    · intro h; cases h; rfl
  | cons s ss ih =>
    have hs := hl s (by simp)
    have hss : ∀ s ∈ ss, Written s := fun x hx => hl x (List.mem_cons_of_mem _ hx)
    unfold normalizeAll
    constructor
    · intro h
      split at h
      · cases h
      · rename_i a ha
        split at h
        · cases h
        · rename_i as has
          cases h
          exact .cons ((normalize_iff hs).1 ha) ((ih _ hss).1 has)
    · intro h
      cases h with
      | cons h1 h2 =>
        rw [(normalize_iff hs).2 h1]
        simp only
        rw [(ih _ hss).2 h2]

theorem normalizeMapping_nodup {parse : String → Py Specie} (m : List (Specie × List Specie)) :
    ∀ (acc m' : List (Specie × List Specie)), (dictKeys acc).Nodup → normalizeMapping parse m acc = .ok m' →
    (dictKeys m').Nodup := by
  induction m with
  | nil => intro acc m' hn h; cases h; exact hn
  | cons x rest ih =>
    intro acc m' hn h
    simp only [normalizeMapping] at h
    split at h
    · cases h
    split at h
    · cases h
    exact ih _ _ (dictKeys_dictSet_nodup _ _ _ hn) h

theorem normalizeMapping_get {parse : String → Py Specie} (m : List (Specie × List Specie)) :
    ∀ (acc m' : List (Specie × List Specie)),
    (∀ x ∈ m, Written x.1 ∧ ∀ s ∈ x.2, Written s) → normalizeMapping parse m acc = .ok m' → ∀ k v,
    (dictGet m' k = some v ↔ MappingSays parse m k v ∨
      (dictGet acc k = some v ∧ ∀ x ∈ m, ¬ StandsFor parse x.1 k)) := by
  induction m with
  | nil =>
    intro acc m' _ h k v
    cases h
    refine ⟨fun h => .inr ⟨h, by simp⟩, ?_⟩
    rintro (⟨b, key, value, a, h, -⟩ | h)
    · simp at h
    · exact h.1
  | cons x rest ih =>
    obtain ⟨key, value⟩ := x
    intro acc m' hw h k v
    have hk := (hw (key, value) (by simp)).1
    have hv := (hw (key, value) (by simp)).2
    unfold normalizeMapping at h
    split at h
    · cases h
    rename_i k1 h1
    split at h
    · cases h
    rename_i v1 h2
    rw [normalize_iff hk] at h1
    rw [normalizeAll_iff _ _ hv] at h2
    rw [ih _ _ (fun x hx => hw x (List.mem_cons_of_mem _ hx)) h k v]
    constructor
    · rintro (⟨b, key', value', a, rfl, h3, h4, h5⟩ | ⟨h3, h4⟩)
      · exact .inl ⟨(key, value) :: b, key', value', a, rfl, h3, h4, h5⟩
      · by_cases hkk : k = k1
        · subst hkk
          rw [dictGet_dictSet, if_pos rfl] at h3
          cases h3
          exact .inl ⟨[], key, value, rest, rfl, h1, h2, h4⟩
        · rw [dictGet_dictSet_ne _ _ hkk] at h3
          refine .inr ⟨h3, ?_⟩
          intro x hx
          rcases List.mem_cons.1 hx with rfl | hx
          · intro h5
            exact hkk (C48_stands_for_one hk h5 h1)
          · exact h4 x hx
    · rintro (⟨b, key', value', a, he, h3, h4, h5⟩ | ⟨h3, h4⟩)
      · cases b with
        | nil =>
          simp only [List.nil_append, List.cons.injEq, Prod.mk.injEq] at he
          obtain ⟨⟨rfl, rfl⟩, rfl⟩ := he
          have e1 := C48_stands_for_one hk h3 h1
          subst e1
          have e2 : v = v1 := by
            rw [← normalizeAll_iff _ _ hv] at h2 h4
            rw [h2] at h4
            exact (Except.ok.inj h4).symm
          subst e2
          exact .inr ⟨by rw [dictGet_dictSet, if_pos rfl], h5⟩
        | cons y b =>
          simp only [List.cons_append, List.cons.injEq] at he
          exact .inl ⟨b, key', value', a, he.2, h3, h4, h5⟩
      · have hkk : k ≠ k1 := by
          rintro rfl
          exact h4 (key, value) (by simp) h1
        exact .inr ⟨by rw [dictGet_dictSet_ne _ _ hkk]; exact h3,
          fun x hx => h4 x (List.mem_cons_of_mem _ hx)⟩

/-- C48.  The mapping that a lattice keeps says what the given one says, once the names are read: all names of a
vacancy are the same, texts are what pymatgen reads in them, and of several keys for one species the last one
decides. -/
theorem C48_mapping_read {P : Type} {parse : String → Py Specie} {template : List (Specie × P)}
    {mapping : List (Specie × List Specie)} {bt : String} {l : Lattice P}
    (hw : ∀ x ∈ mapping, Written x.1 ∧ ∀ s ∈ x.2, Written s)
    (h : Lattice.make parse template mapping bt = .ok l) (k : Specie) (v : List Specie) :
    dictGet l.siteMapping k = some v ↔ MappingSays parse mapping k v := by
  unfold Lattice.make at h
  split at h
  · cases h
  rename_i m' hm
  rw [(mk'_ok h).2.1, normalizeMapping_get mapping [] m' hw hm]
  simp [dictGet]

/-- C48.  The species allowed on a site are those of an entry of the given mapping, read as species, whose key
stands for a species equivalent to that of the site. -/
theorem C48_allowed_from_mapping {P : Type} {parse : String → Py Specie} {template : List (Specie × P)}
    {mapping : List (Specie × List Specie)} {bt : String} {l : Lattice P}
    (hw : ∀ x ∈ mapping, Written x.1 ∧ ∀ s ∈ x.2, Written s)
    (h : Lattice.make parse template mapping bt = .ok l) {i : Nat} {al : List Specie}
    (hi : l.allowed[i]? = some (some al)) :
    ∃ s p k, template[i]? = some (s, p) ∧ s.equivalent k = true ∧ MappingSays parse mapping k al := by
  have hr := fun k v => C48_mapping_read hw h k v
  have hmk : mk' template l.siteMapping bt = .ok l := by
    unfold Lattice.make at h
    split at h
    · cases h
    · rename_i m' hm
      rw [(mk'_ok h).2.1]
      exact h
  have hnd : (dictKeys l.siteMapping).Nodup := by
    unfold Lattice.make at h
    split at h
    · cases h
    · rename_i m' hm
      rw [(mk'_ok h).2.1]
      exact normalizeMapping_nodup _ [] _ List.nodup_nil hm
  rw [(mk'_ok hmk).2.2.1, List.getElem?_map] at hi
  cases ht : template[i]? with
  | none => rw [ht] at hi; cases hi
  | some s =>
    rw [ht] at hi
    have h1 : allowedFor l.siteMapping s.1 = some al := Option.some.inj hi
    unfold allowedFor at h1
    cases hf : l.siteMapping.find? fun kv => s.1.equivalent kv.1 with
    | none => rw [hf] at h1; cases h1
    | some kv =>
      rw [hf] at h1
      have h2 : kv.2 = al := Option.some.inj h1
      have h3 := List.find?_some hf
      have h4 := List.mem_of_find?_eq_some hf
      refine ⟨s.1, s.2, kv.1, rfl, h3, (hr _ _).1 (dictGet_of_mem hnd ?_)⟩
      rw [← h2]
      exact h4

/-- C48.  The Chebyshev basis of a lattice has as many states as the site with most allowed species, and never
fewer than two. -/
theorem C48_basis_size {P : Type} {template : List (Specie × P)} {mapping : List (Specie × List Specie)}
    {l : Lattice P} (h : mk' template mapping "chebyshev" = .ok l) :
    ∃ q : Int, l.basis = .chebyshev q ∧ 2 ≤ q ∧ (∀ al, some al ∈ l.allowed → (al.length : Int) ≤ q) ∧
      (q = 2 ∨ ∃ al, some al ∈ l.allowed ∧ (al.length : Int) = q) := by
  have key : ∀ (L : List (Option (List Specie))) (m : Nat), maxStates L = some m →
      (∀ al, some al ∈ L → al.length ≤ m) ∧ ∃ al, some al ∈ L ∧ al.length = m := by
    intro L
    induction L with
    | nil => intro m h; cases h
    | cons a L ih =>
      intro m h
      unfold maxStates at h
      have hnone : maxStates L = none → ∀ al, some al ∈ L → al.length = 0 := by
        clear ih h
        induction L with
        | nil => intro _ al h; cases h
        | cons b L ih =>
          intro h al hal
          unfold maxStates at h
          split at h
          · cases h
          · cases h
          · rename_i h1 h2
            rcases List.mem_cons.1 hal with rfl | hal
            · cases al with
              | nil => rfl
              | cons x xs => exact absurd h (h2 x xs rfl)
            · exact ih h al hal
      split at h
      · rename_i x xs m' hm
        cases h
        obtain ⟨h1, al, h2, h3⟩ := ih _ hm
        refine ⟨?_, ?_⟩
        · intro al hal
          rcases List.mem_cons.1 hal with hal | hal
          · cases hal; simp
          · have := h1 al hal; omega
        · by_cases hc : xs.length + 1 ≤ m'
          · exact ⟨al, List.mem_cons_of_mem _ h2, by omega⟩
          · exact ⟨x :: xs, by simp, by simp; omega⟩
      · rename_i x xs hm
        cases h
        refine ⟨?_, ⟨x :: xs, by simp, rfl⟩⟩
        intro al hal
        rcases List.mem_cons.1 hal with hal | hal
        · cases hal; simp
        · have := hnone hm al hal; omega
      · rename_i h1 h2
        obtain ⟨h3, al, h4, h5⟩ := ih _ h
        refine ⟨?_, al, List.mem_cons_of_mem _ h4, h5⟩
        intro al' hal
        rcases List.mem_cons.1 hal with hal | hal
        · subst hal
          cases al' with
          | nil => simp
          | cons x xs => exact absurd h (h1 x xs m rfl)
        · exact h3 al' hal
  unfold mk' at h
  simp only at h
  split at h
  · cases h
  rename_i m hm
  rw [if_pos trivial] at h
  have hb : Basis.mkChebyshev (max 2 (m : Int)) = .ok (.chebyshev (max 2 (m : Int))) := by
    unfold Basis.mkChebyshev
    rw [if_neg (by omega)]
  rw [hb] at h
  cases h
  obtain ⟨h1, al, h2, h3⟩ := key _ _ hm
  refine ⟨_, rfl, by omega, ?_, ?_⟩
  · intro al hal
    have := h1 al hal
    omega
  · by_cases hc : m ≤ 2
    · exact .inl (by omega)
    · exact .inr ⟨al, h2, by omega⟩

/-- C48.  The label of a species: `X` for a vacancy, a text as it is, and otherwise the symbol without the
oxidation state. -/
theorem C48_label (s : Specie) :
    (s.isVacancy = true → s.label = "X") ∧
    (∀ x, x ∉ Specie.vacancyLabels → (Specie.ofText x).label = x) ∧
    (∀ x str, x ∉ Specie.vacancyLabels → (Specie.ofElement x str).label = x) := by
  refine ⟨fun h => by unfold Specie.label; rw [if_pos h], fun x hx => ?_, fun x str hx => ?_⟩
  · unfold Specie.label
    rw [if_neg (by simpa [Specie.isVacancy, Specie.ofText] using hx)]
    rfl
  · unfold Specie.label
    rw [if_neg (by simpa [Specie.isVacancy, Specie.ofElement] using hx)]
    rfl

/-- C48.  Removing the oxidation states changes no label, and species with the same label are equivalent. -/
theorem C48_label_identifies {s : Specie} (hs : Written s) :
    (removeOxidation s).label = s.label ∧ ∀ t, Written t → s.label = t.label → s.equivalent t = true := by
  have hmem : ∀ u : Specie, u.isVacancy = true ∨ u.label ∈ u.tokens := by
    intro u
    by_cases h : u.isVacancy = true
    · exact .inl h
    · refine .inr ?_
      unfold Specie.label Specie.tokens
      rw [if_neg h, if_neg h]
      split
      · simp
      · cases u.symbol <;> simp
  have hx : ∀ u : Specie, Written u → u.label = "X" → u.isVacancy = true := by
    intro u hu h
    by_contra hv
    unfold Specie.label at h
    rw [if_neg hv] at h
    rcases hu with hu | ⟨ht, x, hx⟩
    · rw [hu] at h hv
      have h' : u.str = "X" := h
      rw [h'] at hv
      exact hv rfl
    · simp only [ht, hx] at h
      have h' : x = "X" := by simpa using h
      subst h'
      exact hv (by simp [Specie.isVacancy, ht, hx, Specie.vacancyLabels])
  refine ⟨?_, ?_⟩
  · rcases hs with hs | ⟨ht, x, hx⟩
    · rw [hs]; rfl
    · simp [removeOxidation, hx, Specie.label, Specie.isVacancy, ht]
  · intro t ht h
    by_cases hv : s.isVacancy = true
    · refine Specie.equivalent_of_vacancy hv (hx t ht ?_)
      rw [← h]
      unfold Specie.label
      rw [if_pos hv]
    · have hv' : ¬ t.isVacancy = true := by
        intro hv'
        refine hv (hx s hs ?_)
        rw [h]
        unfold Specie.label
        rw [if_pos hv']
      have h1 := (hmem s).resolve_left hv
      have h2 := (hmem t).resolve_left hv'
      unfold Specie.equivalent
      rw [List.any_eq_true]
      exact ⟨s.label, h1, by rw [h]; exact List.contains_iff_mem.2 h2⟩

/-- Non-vacuity: a mapping that names the vacancy in two ways, with a later entry for a species named before.  The
last entry decides, and the allowed vacancies are all the same. -/
example : ∃ l : Lattice Nat, Lattice.make (fun x => .ok (Specie.ofElement x (x ++ "0+")))
      [(Specie.ofElement "Na" "Na+", 0), (Specie.ofElement "Sb" "Sb5+", 1)]
      [(.ofText "Na", [.ofText "Na"]), (.ofText "Sb", [.ofText "Sb", .ofText "W", .ofText "Va"]),
        (.ofElement "Na" "Na0+", [.ofText "Na", .ofText "Vacancy"])] "chebyshev" = .ok l ∧
    l.allowed = [some [Specie.ofElement "Na" "Na0+", Specie.vacancy],
      some [Specie.ofElement "Sb" "Sb0+", Specie.ofElement "W" "W0+", Specie.vacancy]] ∧
    l.basis = .chebyshev 3 := ⟨_, by rfl, by decide, by decide⟩

/-! ### C72: atoms with given sites -/

variable {P K : Type}

/-- C72.  With the sites of the atoms given, reading a structure succeeds exactly when there is one site for each
atom, every one is a site of the supercell, no two are the same, and every species is allowed on its site; the
result describes the atoms on these sites and nothing else. -/
theorem C72_explicit_sites [LinearOrder K] {l : Lattice P} {dist : P → P → K} {tol : K}
    {super : List (Nat × P)} {allowed : List (Option (List Specie))}
    (ha : supercellAllowed l super allowed) (structure' : List (Specie × P)) (hne : structure' ≠ [])
    (is : List Int) (o : Occupation) :
    getOcc l dist tol super true structure' (some is) = .ok o ↔
      o.basis = l.basis ∧ ∃ atoms : List (Specie × Nat),
        List.Forall₂ (fun s a => a.1 = s.1) structure' atoms ∧ is = atoms.map (fun a => (a.2 : Int)) ∧
        (∀ a ∈ atoms, a.2 < super.length) ∧
        (atoms.map (·.2)).Nodup ∧ DescribesAtoms l.basis allowed atoms o.data := by
  have hnod : ∀ atoms : List (Specie × Nat),
      (atoms.map fun a => (a.2 : Int)).Nodup ↔ (atoms.map (·.2)).Nodup := by
    intro atoms
    have : (atoms.map fun a => (a.2 : Int)) = (atoms.map (·.2)).map (fun n : Nat => (n : Int)) := by simp
    rw [this]
    exact List.nodup_map_iff (fun a b h => by simpa using h)
  have hzip : ∀ (st : List (Specie × P)) (atoms : List (Specie × Nat)),
      List.Forall₂ (fun s a => a.1 = s.1) st atoms →
      (st.map (·.1)).zip (atoms.map fun a => (a.2 : Int)) = atoms.map fun a => (a.1, (a.2 : Int)) := by
    intro st atoms h
    induction h with
    | nil => rfl
    | cons h1 _ ih => simp [ih, h1]
  have hatoms : ∀ (st : List (Specie × P)) (is : List Int), is.length = st.length →
      (∀ i ∈ is, 0 ≤ i ∧ i < super.length) →
      ∃ atoms : List (Specie × Nat), List.Forall₂ (fun s a => a.1 = s.1) st atoms ∧
        is = atoms.map (fun a => (a.2 : Int)) ∧ ∀ a ∈ atoms, a.2 < super.length := by
    intro st
    induction st with
    | nil => intro is h _; exact ⟨[], .nil, List.length_eq_zero_iff.1 h, by simp⟩
    | cons s st ih =>
      intro is h hr
      cases is with
      | nil => cases h
      | cons i is =>
        obtain ⟨atoms, h1, h2, h3⟩ := ih is (by simpa using h) fun x hx => hr x (List.mem_cons_of_mem _ hx)
        have := hr i (by simp)
        refine ⟨(s.1, i.toNat) :: atoms, .cons rfl h1, ?_, ?_⟩
        · simp [← h2]; omega
        · intro a ha
          rcases List.mem_cons.1 ha with rfl | ha
          · show i.toNat < _; omega
          · exact h3 a ha
  unfold getOcc
  rw [supercellAllowed_iff.2 ha]
  simp only [if_neg hne, Bool.not_true, Bool.false_eq_true, if_false]
  constructor
  · intro h
    split at h
    · cases h
    · rename_i js hjs
      split at hjs
      · cases hjs
      rename_i hlen
      split at hjs
      · cases hjs
      rename_i hany
      cases hjs
      obtain ⟨atoms, h1, rfl, h3⟩ := hatoms structure' is (not_not.1 hlen) (by
        intro i hi
        by_contra hc
        exact hany (List.any_eq_true.2 ⟨i, hi, by rw [decide_eq_true_eq]; omega⟩))
      split at h
      · cases h
      · rename_i hn
        rw [hzip _ _ h1] at h
        split at h
        · cases h
        · rename_i occ' hocc
          cases h
          have hn' := (hnod atoms).1 (not_not.1 hn)
          exact ⟨rfl, atoms, h1, rfl, h3, hn', assign_describes hn' hocc⟩
  · rintro ⟨hb, atoms, h1, rfl, h3, hn, hd⟩
    have hl : (atoms.map fun a => (a.2 : Int)).length = structure'.length := by
      rw [List.length_map]; exact h1.length_eq.symm
    have hany : ¬ ((atoms.map fun a => (a.2 : Int)).any
        fun i => decide (i < 0 ∨ (super.length : Int) ≤ i)) = true := by
      rw [List.any_eq_true]
      rintro ⟨i, hi, h⟩
      obtain ⟨a, ha, rfl⟩ := List.mem_map.1 hi
      have := h3 a ha
      simp only [decide_eq_true_eq] at h
      omega
    rw [if_neg (not_not.2 hl), if_neg hany]
    simp only
    rw [if_neg (not_not.2 ((hnod atoms).2 hn)), hzip _ _ h1]
    obtain ⟨occ', hocc⟩ := assign_total (b := l.basis) (allowed := allowed) (atoms := atoms)
      (occ := allowed.map (missingValue l.basis)) (by simp) fun sp k hm => by
        obtain ⟨al, i, h3, h4, -⟩ := hd.onSite sp k hm
        exact ⟨al, i, h3, h4⟩
    rw [hocc]
    simp only
    rw [← describes_unique hd (assign_describes hn hocc), ← hb]

/-- C72.  A given site that the supercell does not have, or a wrong number of them, is a `ValueError`. -/
theorem C72_bad_sites_rejected [LinearOrder K] {l : Lattice P} {dist : P → P → K} {tol : K}
    {super : List (Nat × P)} {allowed : List (Option (List Specie))}
    (ha : supercellAllowed l super allowed) {structure' : List (Specie × P)} (hne : structure' ≠ [])
    {is : List Int} (h : is.length ≠ structure'.length ∨ (∃ i ∈ is, i < 0 ∨ (super.length : Int) ≤ i) ∨ ¬ is.Nodup) :
    getOcc l dist tol super true structure' (some is) = .error .valueError := by
  unfold getOcc
  rw [supercellAllowed_iff.2 ha]
  simp only [if_neg hne, Bool.not_true, Bool.false_eq_true, if_false]
  by_cases h1 : is.length ≠ structure'.length
  · rw [if_pos h1]
  · rw [if_neg h1]
    by_cases h2 : ∃ i ∈ is, i < 0 ∨ (super.length : Int) ≤ i
    · rw [if_pos (List.any_eq_true.2 ?_)]
      obtain ⟨i, hi, h3⟩ := h2
      exact ⟨i, hi, by simpa using h3⟩
    · have h3 : ¬ is.Nodup := (h.resolve_left h1).resolve_left h2
      rw [if_neg]
      · simp only
        rw [if_pos h3]
      · rw [List.any_eq_true]
        rintro ⟨i, hi, h4⟩
        exact h2 ⟨i, hi, by simpa using h4⟩

/-! ### C73: the reference of a cluster expansion -/

/-- C73.  A reference is accepted exactly when it lists the sites in the order of the expansion (the hashes agree)
and has every site that the clusters name. -/
theorem C73_reference_accepted_iff [CommRing K] (m : LCE K) (hashOk : Bool) (n : Nat) :
    m.validateReference hashOk n = .ok () ↔
      hashOk = true ∧ ∀ orbit ∈ m.clusterSiteIndices, ∀ cluster ∈ orbit, ∀ i ∈ cluster, 0 ≤ i ∧ i < (n : Int) := by
  unfold LCE.validateReference
  cases hashOk with
  | false => simp
  | true =>
    simp only [Bool.not_true, Bool.false_eq_true, if_false, true_and]
    split
    · rename_i h
      simp only [List.any_eq_true, decide_eq_true_eq] at h
      simp only [reduceCtorEq, false_iff]
      obtain ⟨o, ho, c, hc, i, hi, h1⟩ := h
      intro h2
      have := h2 o ho c hc i hi
      omega
    · rename_i h
      simp only [List.any_eq_true, decide_eq_true_eq] at h
      simp only [true_iff]
      intro o ho c hc i hi
      by_contra h2
      exact h ⟨o, ho, c, hc, i, hi, by omega⟩

/-- C73.  With a reference that is not accepted, no features are computed: the error is a `ValueError`. -/
theorem C73_wrong_reference_rejected {D : Type} [CommRing K] [LinearOrder D] (m : LCE K) (ref : Lattice P)
    (si : List Int) (hashOk : Bool) (filter : List (Specie × P) → Py (List (Specie × P))) (dist : P → P → D)
    (tol : D) (super : List (Nat × P)) (lok : Bool) (st : List (Specie × P))
    (h : hashOk = false ∨ ∃ orbit ∈ m.clusterSiteIndices, ∃ cluster ∈ orbit, ∃ i ∈ cluster,
      i < 0 ∨ (si.length : Int) ≤ i) :
    m.occCorrFromStructure ref si hashOk filter dist tol super lok st = .error .valueError := by
  have h1 : m.validateReference hashOk si.length = .error .valueError := by
    have h2 : ¬ m.validateReference hashOk si.length = .ok () := by
      rw [C73_reference_accepted_iff]
      rintro ⟨h3, h4⟩
      rcases h with h | ⟨o, ho, c, hc, i, hi, h⟩
      · rw [h] at h3; cases h3
      · have := h4 o ho c hc i hi
        omega
    unfold LCE.validateReference at h2 ⊢
    split
    · rfl
    · rename_i h3
      rw [if_neg h3] at h2
      split
      · rfl
      · rename_i h4
        rw [if_neg h4] at h2
        exact absurd rfl h2
  unfold LCE.occCorrFromStructure
  rw [h1]

end KMC
