import Verif.Spec.Tools
import Verif.Lemmas.Tracker
import Verif.Props.FromConfigProps
/-
C104: the scripts in `kmcpy/tools`.
-/
set_option linter.unusedSectionVars false

namespace KMC
open Spec Tools FromConfig

section
variable {K : Type} [Field K] [LinearOrder K] [IsStrictOrderedRing K] [FloorRing K]

theorem roundHalfEven_eq {x : K} {n : ℤ} (h : |x - n| < 1 / 2) : roundHalfEven x = n := by
  obtain ⟨h1, h2⟩ := roundHalfEven_bounds x
  rw [abs_lt] at h
  have a1 : ((roundHalfEven x - n : ℤ) : K) < 1 := by push_cast; linarith [h.1, h.2]
  have a2 : (-1 : K) < ((roundHalfEven x - n : ℤ) : K) := by push_cast; linarith [h.1, h.2]
  have a3 : roundHalfEven x - n < 1 := by exact_mod_cast a1
  have a4 : -1 < roundHalfEven x - n := by exact_mod_cast a2
  omega

/-- Rounding finds the image that is near, if there is one. -/
theorem isNear_iff {lattice : Matrix (Fin 3) (Fin 3) K} (hl : LargeCell lattice) (a b : Vec3 K) :
    isNear lattice a b = true ↔ AtSite lattice a b := by
  simp only [isNear, decide_eq_true_eq]
  constructor
  · intro h
    exact ⟨fun c => roundHalfEven ((a - b) c), h⟩
  · rintro ⟨n, h⟩
    have hn : ∀ c, roundHalfEven ((a - b) c) = n c := fun c => roundHalfEven_eq (hl _ h c)
    have : a - b - rnd (a - b) = fun c => a c - b c - (n c : K) := by
      funext c
      simp only [Pi.sub_apply, rnd]
      have := hn c
      simp only [Pi.sub_apply] at this
      rw [this]
    rwa [this]

/-- C104.  One value per site of the template, and no other value than `-1` and `1`. -/
theorem C104_one_value_per_site (lattice : Matrix (Fin 3) (Fin 3) K) (atoms template : Atoms K) :
    (getOcc lattice atoms template).length = template.length ∧
      ∀ v ∈ getOcc lattice atoms template, v = -1 ∨ v = 1 := by
  refine ⟨by simp [getOcc, occOf], ?_⟩
  intro v hv
  obtain ⟨site, -, rfl⟩ := List.mem_map.1 hv
  unfold siteOcc
  split
  · exact .inr rfl
  · split
    · exact .inl rfl
    · exact .inr rfl

/-- C104.  With one atom at most per site, a site of the template gets `-1` exactly if there is an atom at it,
across the periodic boundary too, whose symbol occurs in the symbol that the template has there. -/
theorem C104_site_value {lattice : Matrix (Fin 3) (Fin 3) K} (hl : LargeCell lattice) {atoms template : Atoms K}
    (h1 : OneAtomPerSite lattice (withoutFramework atoms) template) {i : Nat} {site : Vec3 K × String}
    (hi : template[i]? = some site) :
    (getOcc lattice atoms template)[i]? = some (-1) ↔
      ∃ a ∈ atoms, AtSite lattice a.1 site.1 ∧ OccursIn a.2 site.2 ∧ a.2 ≠ "Zr" ∧ a.2 ≠ "O" := by
  have hval : (getOcc lattice atoms template)[i]? = some (siteOcc lattice (withoutFramework atoms) site) := by
    simp [getOcc, occOf, hi]
  have hmem := List.mem_of_getElem? hi
  have hfw : ∀ a, a ∈ withoutFramework atoms ↔ a ∈ atoms ∧ a.2 ≠ "Zr" ∧ a.2 ≠ "O" := by
    intro a
    simp [withoutFramework]
  rw [hval, Option.some.injEq]
  unfold siteOcc
  split
  · next hm =>
    constructor
    · intro h; exact absurd h (by decide)
    · rintro ⟨a, ha, hs, -, hz⟩
      have : a.2 ∈ matched lattice (withoutFramework atoms) site.1 := by
        unfold matched
        refine List.mem_map.2 ⟨a, List.mem_filter.2 ⟨(hfw a).2 ⟨ha, hz⟩, (isNear_iff hl _ _).2 hs⟩, rfl⟩
      rw [hm] at this
      cases this
  · next symbol rest hm =>
    have hin : symbol ∈ matched lattice (withoutFramework atoms) site.1 := by rw [hm]; simp
    obtain ⟨b, hb, hbs⟩ := List.mem_map.1 hin
    obtain ⟨hb1, hb2⟩ := List.mem_filter.1 hb
    have hb3 := (isNear_iff hl _ _).1 hb2
    constructor
    · intro h
      have hc : containsText symbol site.2 = true := by
        by_contra hc
        rw [if_neg hc] at h
        exact absurd h (by decide)
      exact ⟨b, ((hfw b).1 hb1).1, hb3, by rw [hbs]; exact (containsText_iff _ _).1 hc, ((hfw b).1 hb1).2⟩
    · rintro ⟨a, ha, hs, ho, hz⟩
      have hab := h1 site hmem a ((hfw a).2 ⟨ha, hz⟩) b hb1 hs hb3
      rw [hab, hbs] at ho
      rw [if_pos ((containsText_iff _ _).2 ho)]

/-- C104, partly.  If no symbol of the structure occurs inside a different symbol of the template (and the template
has no zirconium and oxygen), `-1` means that the template's atom is there.  Missing: symbols that are part of
another one, see `C104_part_of_a_symbol`. -/
theorem C104_occupied_iff_partial {lattice : Matrix (Fin 3) (Fin 3) K} (hl : LargeCell lattice)
    {atoms template : Atoms K} (h1 : OneAtomPerSite lattice (withoutFramework atoms) template)
    (hsym : ∀ a ∈ atoms, ∀ s ∈ template, OccursIn a.2 s.2 → a.2 = s.2)
    (hfree : ∀ s ∈ template, s.2 ≠ "Zr" ∧ s.2 ≠ "O") {i : Nat} {site : Vec3 K × String}
    (hi : template[i]? = some site) :
    ((getOcc lattice atoms template)[i]? = some (-1) ↔ Present lattice atoms site) ∧
      ((getOcc lattice atoms template)[i]? = some 1 ↔ ¬ Present lattice atoms site) := by
  have hmem := List.mem_of_getElem? hi
  have key : (getOcc lattice atoms template)[i]? = some (-1) ↔ Present lattice atoms site := by
    rw [C104_site_value hl h1 hi]
    constructor
    · rintro ⟨a, ha, hs, ho, -⟩
      exact ⟨a, ha, hs, hsym a ha site hmem ho⟩
    · rintro ⟨a, ha, hs, he⟩
      refine ⟨a, ha, hs, ?_, ?_⟩
      · rw [he]; exact ⟨[], [], by simp⟩
      · rw [he]; exact hfree site hmem
  refine ⟨key, ?_⟩
  rw [← key]
  have hlen : i < (getOcc lattice atoms template).length := by
    rw [(C104_one_value_per_site lattice atoms template).1]
    exact (List.getElem?_eq_some_iff.1 hi).1
  have hv := (C104_one_value_per_site lattice atoms template).2 _ (List.getElem_mem hlen)
  rw [List.getElem?_eq_getElem hlen, Option.some.injEq, Option.some.injEq]
  rcases hv with h | h <;> rw [h] <;> decide

/-- C104, disagreement.  A nitrogen atom on a sodium site is read as the sodium atom being there, in every cell. -/
theorem C104_part_of_a_symbol (lattice : Matrix (Fin 3) (Fin 3) K) (x : Vec3 K) :
    getOcc lattice [(x, "N")] [(x, "Na")] = [-1] := by
  have hz : x - x - rnd (x - x) = 0 := by
    funext c
    have : roundHalfEven (0 : K) = 0 := roundHalfEven_eq (by norm_num)
    simp [rnd, this]
  have hn : isNear lattice x x = true := by
    simp only [isNear, hz, Matrix.zero_vecMul, decide_eq_true_eq]
    simp only [normSq, Pi.zero_apply]
    norm_num
  have hf : withoutFramework [(x, "N")] = [(x, "N")] := by
    simp [withoutFramework]
  simp only [getOcc, hf, occOf, List.map_cons, List.map_nil, siteOcc, matched, List.filter_cons, hn, if_true,
    List.filter_nil]
  have : containsText "N" "Na" = true := by decide
  rw [this]
  rfl

end

/-- C104, disagreement.  The values are not the states that a simulation works with: where the mobile species is
state 0 at both ends (the default), every event between two sites has no direction, so nothing can ever hop. -/
theorem C104_not_states {K : Type} [Field K] [LinearOrder K] [IsStrictOrderedRing K] [FloorRing K]
    (lattice : Matrix (Fin 3) (Fin 3) K) (atoms template : Atoms K) (e : Event) {f t : Nat}
    (he : e.mobile = [(f : Int), (t : Int)]) (hf : f < template.length) (ht : t < template.length)
    (hc : (e.codes.getD defaultHopCodes).mobFrom = 0 ∧ (e.codes.getD defaultHopCodes).mobTo = 0) :
    eventDirection (getOcc lattice atoms template) e = .ok 0 := by
  obtain ⟨h1, h2⟩ := C104_one_value_per_site lattice atoms template
  have hf' : f < (getOcc lattice atoms template).length := by omega
  have ht' : t < (getOcc lattice atoms template).length := by omega
  have hne : ∀ {k : Nat} (hk : k < (getOcc lattice atoms template).length),
      (getOcc lattice atoms template)[k] ≠ 0 := by
    intro k hk h0
    rcases h2 _ (List.getElem_mem hk) with h | h <;> rw [h0] at h <;> exact absurd h (by decide)
  rw [eventDirection_of he (pyIdx_natCast hf') (pyIdx_natCast ht') (List.getElem?_eq_getElem hf')
    (List.getElem?_eq_getElem ht')]
  congr 1
  unfold endpointDirectionFromCodes
  rw [hc.1, hc.2, if_neg (fun h => hne hf' h.1), if_neg (fun h => hne ht' h.2)]

/-! ### Result files -/

theorem splitGo_piece (c : Char) (w : List Char) (hw : c ∉ w) : ∀ (part rest : List Char),
    splitGo [c] 0 part (w ++ c :: rest) = (part.reverse ++ w) :: splitGo [c] 0 [] rest := by
  induction w with
  | nil =>
    intro part rest
    simp [splitGo, List.isPrefixOf]
  | cons a w ih =>
    intro part rest
    have hne : (c == a) = false := by
      rw [beq_eq_false_iff_ne]
      intro h
      exact hw (by rw [h]; simp)
    have := ih (fun h => hw (List.mem_cons_of_mem _ h)) (a :: part) rest
    simp only [List.cons_append, splitGo, List.isPrefixOf, hne, Bool.false_and, Bool.false_eq_true, if_false, this]
    simp

theorem splitGo_last (c : Char) (w : List Char) (hw : c ∉ w) : ∀ part : List Char,
    splitGo [c] 0 part w = [part.reverse ++ w] := by
  induction w with
  | nil => intro part; simp [splitGo]
  | cons a w ih =>
    intro part
    have hne : (c == a) = false := by
      rw [beq_eq_false_iff_ne]
      intro h
      exact hw (by rw [h]; simp)
    have := ih (fun h => hw (List.mem_cons_of_mem _ h)) (a :: part)
    simp only [splitGo, List.isPrefixOf, hne, Bool.false_and, Bool.false_eq_true, if_false, this]
    simp

theorem suffix_not_before {w : List Char} (hw : 'g' ∉ w) (hne : w ≠ []) :
    (".csv.gz".toList).isPrefixOf (w ++ ".csv.gz".toList) = false := by
  have h7 : ".csv.gz".toList = ['.', 'c', 's', 'v', '.', 'g', 'z'] := by decide
  rw [h7]
  rcases w with _ | ⟨a, w⟩
  · exact absurd rfl hne
  rcases w with _ | ⟨b, w⟩
  · simp [List.isPrefixOf]
  rcases w with _ | ⟨c, w⟩
  · simp [List.isPrefixOf]
  rcases w with _ | ⟨d, w⟩
  · simp [List.isPrefixOf]
  rcases w with _ | ⟨e, w⟩
  · simp [List.isPrefixOf]
  rcases w with _ | ⟨f, w⟩
  · simp [List.isPrefixOf]
  have : f ≠ 'g' := by
    intro h
    exact hw (by simp [h])
  have hf : ('g' == f) = false := by rw [beq_eq_false_iff_ne]; exact fun h => this h.symm
  simp [List.isPrefixOf, hf]

theorem splitGo_suffix (w : List Char) (hw : 'g' ∉ w) : ∀ part : List Char,
    splitGo ".csv.gz".toList 0 part (w ++ ".csv.gz".toList) = [part.reverse ++ w, []] := by
  have h7 : ".csv.gz".toList = ['.', 'c', 's', 'v', '.', 'g', 'z'] := by decide
  induction w with
  | nil =>
    intro part
    rw [h7]
    simp [splitGo, List.isPrefixOf]
  | cons a w ih =>
    intro part
    have h1 := suffix_not_before (w := a :: w) hw (by simp)
    have h2 := ih (fun h => hw (List.mem_cons_of_mem _ h)) (a :: part)
    rw [List.cons_append] at h1 ⊢
    rw [splitGo, if_neg (by rw [h1]; decide), h2]
    simp

/-- C104.  From a result file `results_<composition>_<index>.csv.gz` in the working directory the composition and
the index are read back, if they are written without `_` and `g` (as numbers are). -/
theorem C104_run_of_name (x i : String) (hx : '_' ∉ x.toList ∧ 'g' ∉ x.toList) (hi : '_' ∉ i.toList ∧ 'g' ∉ i.toList) :
    runOfName ("results_" ++ x ++ "_" ++ i ++ ".csv.gz") = .ok (x, i) := by
  have htext : ("results_" ++ x ++ "_" ++ i ++ ".csv.gz").toList =
      ("results".toList ++ '_' :: (x.toList ++ '_' :: i.toList)) ++ ".csv.gz".toList := by
    simp only [String.toList_append]
    have h1 : "results_".toList = "results".toList ++ ['_'] := by decide
    have h2 : "_".toList = ['_'] := by decide
    rw [h1, h2]
    simp
  have hr : 'g' ∉ "results".toList ∧ '_' ∉ "results".toList := by decide
  have hg : 'g' ∉ "results".toList ++ '_' :: (x.toList ++ '_' :: i.toList) := by
    simp only [List.mem_append, List.mem_cons, not_or]
    exact ⟨hr.1, by decide, hx.2, by decide, hi.2⟩
  have hs : split ".csv.gz" ("results_" ++ x ++ "_" ++ i ++ ".csv.gz") =
      [String.ofList ("results".toList ++ '_' :: (x.toList ++ '_' :: i.toList)), ""] := by
    rw [split, htext, splitGo_suffix _ hg]
    simp
  have h2 : "_".toList = ['_'] := by decide
  have hp : split "_" (String.ofList ("results".toList ++ '_' :: (x.toList ++ '_' :: i.toList))) =
      ["results", x, i] := by
    rw [split, h2, String.toList_ofList, splitGo_piece _ _ hr.2, splitGo_piece _ _ hx.1, splitGo_last _ _ hi.1]
    simp
  rw [runOfName, hs]
  simp only [hp]
  rfl

/-- C104, disagreement.  With another `_` in the path the wrong parts of the name are taken, without an error. -/
theorem C104_wrong_parts : runOfName "sweep_300_2_results_0.1_1.csv.gz" = .ok ("300", "2") := by decide +kernel

/-- C104.  The lines that contain the word, in order, and only these are read. -/
theorem C104_lines_found {α : Type} (word : String) (parse : String → Py α) (lines : List String) (vs : List α)
    (h : searchStringList word parse lines = .ok vs) :
    ∃ hits : List String, List.Forall₂ (fun l v => parse l = .ok v) hits vs ∧ hits.Sublist lines ∧
      ∀ l, l ∈ hits ↔ l ∈ lines ∧ OccursIn word l := by
  induction lines generalizing vs with
  | nil =>
    simp only [searchStringList, Except.ok.injEq] at h
    subst h
    exact ⟨[], .nil, .slnil, by simp⟩
  | cons l ls ih =>
    rw [searchStringList] at h
    by_cases hc : containsText word l = true
    · rw [if_pos hc] at h
      cases hp : parse l with
      | error e => rw [hp] at h; cases h
      | ok v =>
        rw [hp] at h
        cases hr : searchStringList word parse ls with
        | error e => simp only [hr] at h; cases h
        | ok ws =>
          simp only [hr, Except.ok.injEq] at h
          subst h
          obtain ⟨hits, h1, h2, h3⟩ := ih ws hr
          refine ⟨l :: hits, .cons hp h1, h2.cons_cons l, ?_⟩
          intro k
          simp only [List.mem_cons, h3]
          constructor
          · rintro (rfl | ⟨a, b⟩)
            · exact ⟨.inl rfl, (containsText_iff _ _).1 hc⟩
            · exact ⟨.inr a, b⟩
          · rintro ⟨rfl | a, b⟩
            · exact .inl rfl
            · exact .inr ⟨a, b⟩
    · rw [if_neg hc] at h
      obtain ⟨hits, h1, h2, h3⟩ := ih vs h
      refine ⟨hits, h1, h2.cons l, ?_⟩
      intro k
      rw [h3]
      constructor
      · rintro ⟨a, b⟩; exact ⟨List.mem_cons_of_mem _ a, b⟩
      · rintro ⟨a, b⟩
        rcases List.mem_cons.1 a with rfl | a
        · exact absurd ((containsText_iff _ _).2 b) hc
        · exact ⟨a, b⟩

/-- C104.  Transport properties computed afterwards from the arrays of a tracker are the ones the tracker computes
itself when all of them are enabled. -/
theorem C104_same_transport (p : TransportParams) (t : Trajectory ℝ) (time : EReal)
    (enabled : List (String × Bool)) (hall : ∀ name, isEnabled enabled name = true) :
    calcTransport p t.displacement t.hopCounter t.locations.length time = transportSummary p t time enabled := by
  have h0 : ∀ name, isEnabled [] name = true := fun name => rfl
  simp only [calcTransport, transportSummary, computeTransport, hall, h0]

/-! ### Concrete cases -/

/-- A cubic cell of ten Ångström is large. -/
theorem cubic_large : LargeCell (10 • (1 : Matrix (Fin 3) (Fin 3) ℚ)) := by
  intro v h c
  have h1 : Matrix.vecMul v (10 • (1 : Matrix (Fin 3) (Fin 3) ℚ)) = 10 • v := by
    rw [Matrix.vecMul_smul, Matrix.vecMul_one]
  rw [h1] at h
  simp only [normSq, Pi.smul_apply, nsmul_eq_mul] at h
  have h3 : 100 * v 0 ^ 2 + 100 * v 1 ^ 2 + 100 * v 2 ^ 2 < (1 / 10 ^ 6) ^ 2 := by
    have : ((10 : ℕ) : ℚ) = 10 := by norm_num
    rw [this] at h
    nlinarith [h]
  have h4 : (1 / 10 ^ 6 : ℚ) ^ 2 < 1 := by norm_num
  have h2 : (v c) ^ 2 < (1 / 2) ^ 2 := by
    have e0 := sq_nonneg (v 0)
    have e1 := sq_nonneg (v 1)
    have e2 := sq_nonneg (v 2)
    fin_cases c
    · show v 0 ^ 2 < _
      linarith
    · show v 1 ^ 2 < _
      linarith
    · show v 2 ^ 2 < _
      linarith
  exact abs_lt_of_sq_lt_sq h2 (by norm_num)

/-- Non-vacuity: three sites, one of them vacant and one occupied across the boundary, with framework atoms. -/
example : getOcc (10 • (1 : Matrix (Fin 3) (Fin 3) ℚ))
      [(![1, 0, 0], "Na"), (![1 / 2, 0, 0], "P"), (![1 / 3, 0, 0], "Zr")]
      [(![0, 0, 0], "Na"), (![1 / 4, 0, 0], "Na"), (![1 / 2, 0, 0], "P")] = [-1, 1, -1] := by
  decide +kernel

/-- Non-vacuity: the sodium atom across the boundary is found, and the other site is vacant. -/
example : Present (10 • (1 : Matrix (Fin 3) (Fin 3) ℚ)) [(![1, 0, 0], "Na")] (![0, 0, 0], "Na") ∧
    ¬ Present (10 • (1 : Matrix (Fin 3) (Fin 3) ℚ)) [(![1, 0, 0], "Na")] (![1 / 4, 0, 0], "Na") := by
  have h1 : OneAtomPerSite (10 • (1 : Matrix (Fin 3) (Fin 3) ℚ)) (withoutFramework [(![1, 0, 0], "Na")])
      [(![0, 0, 0], "Na"), (![1 / 4, 0, 0], "Na")] := by
    intro s _ a ha b hb _ _
    have hf : withoutFramework [((![1, 0, 0] : Vec3 ℚ), "Na")] = [(![1, 0, 0], "Na")] := by simp [withoutFramework]
    rw [hf, List.mem_singleton] at ha hb
    rw [ha, hb]
  have h2 : ∀ a ∈ [((![1, 0, 0] : Vec3 ℚ), "Na")], ∀ s ∈ [((![0, 0, 0] : Vec3 ℚ), "Na"), (![1 / 4, 0, 0], "Na")],
      OccursIn a.2 s.2 → a.2 = s.2 := by
    intro a ha s hs _
    simp only [List.mem_cons, List.not_mem_nil, or_false] at ha hs
    rcases hs with rfl | rfl <;> rw [ha]
  have h3 : ∀ s ∈ [((![0, 0, 0] : Vec3 ℚ), "Na"), (![1 / 4, 0, 0], "Na")], s.2 ≠ "Zr" ∧ s.2 ≠ "O" := by
    intro s hs
    simp only [List.mem_cons, List.not_mem_nil, or_false] at hs
    rcases hs with rfl | rfl <;> exact ⟨by decide, by decide⟩
  have hv : getOcc (10 • (1 : Matrix (Fin 3) (Fin 3) ℚ)) [(![1, 0, 0], "Na")]
      [(![0, 0, 0], "Na"), (![1 / 4, 0, 0], "Na")] = [-1, 1] := by decide +kernel
  constructor
  · refine ((C104_occupied_iff_partial cubic_large h1 h2 h3 (i := 0) rfl).1).1 ?_
    rw [hv]
    rfl
  · refine ((C104_occupied_iff_partial cubic_large h1 h2 h3 (i := 1) rfl).2).1 ?_
    rw [hv]
    rfl

/-- C104.  `isExist` says exactly whether an atom of the same species is nearer than a thousandth. -/
theorem C104_is_exist {K : Type} [Field K] [LinearOrder K] [IsStrictOrderedRing K] (distance : Vec3 K → Vec3 K → K) (atoms : Atoms K) (x : Vec3 K) (symbol : String) :
    isExist distance atoms (x, symbol) = true ↔
      ∃ y, (y, symbol) ∈ atoms ∧ distance y x < 1 / 1000 := by
  unfold isExist
  simp only [List.any_eq_true, Bool.and_eq_true, decide_eq_true_eq]
  constructor
  · rintro ⟨⟨y, s⟩, hm, rfl, hd⟩
    exact ⟨y, hm, by norm_num at hd ⊢; exact hd⟩
  · rintro ⟨y, hm, hd⟩
    exact ⟨(y, symbol), hm, rfl, by norm_num at hd ⊢; exact hd⟩

end KMC
