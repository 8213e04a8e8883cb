import Verif.Lemmas.Config
/-
Properties of configurations: routing of keywords (C27), validity (C28), round trips (C29) and
section files (C63).
-/
namespace KMC
open Spec Config Configuration

theorem systemDefaults_get (k : String) (hk : k ∈ Spec.systemFields) :
    dictGet systemDefaults k = some (systemDefault k) := by
  simp only [Spec.systemFields, List.mem_cons, List.not_mem_nil, or_false] at hk
  rcases hk with rfl | rfl | rfl | rfl | rfl | rfl | rfl | rfl | rfl | rfl | rfl | rfl | rfl <;> rfl

theorem runtimeDefaults_get (k : String) (hk : k ∈ Spec.runtimeFields) :
    dictGet runtimeDefaults k = some (runtimeDefault k) := by
  simp only [Spec.runtimeFields, List.mem_cons, List.not_mem_nil, or_false] at hk
  rcases hk with rfl | rfl | rfl | rfl | rfl | rfl | rfl | rfl | rfl | rfl <;> rfl

theorem fields_disjoint {k : String} (h : k ∈ Spec.systemFields) : k ∉ Spec.runtimeFields := by
  simp only [Spec.systemFields, List.mem_cons, List.not_mem_nil, or_false] at h
  rcases h with rfl | rfl | rfl | rfl | rfl | rfl | rfl | rfl | rfl | rfl | rfl | rfl | rfl <;>
    decide

theorem dictGet_none_of_keys {f : Fields} {ks : List String} (h : dictKeys f = ks) {k : String}
    (hk : k ∉ ks) : dictGet f k = none := by
  rw [dictGet_eq_none_iff, h]
  exact hk

theorem dictGet_some_of_keys {f : Fields} {ks : List String} (h : dictKeys f = ks) {k : String}
    (hk : k ∈ ks) : ∃ v, dictGet f k = some v := by
  exact (dictGet_isSome_iff f k).2 (by rw [h]; exact hk)

/-! ### C27: routing -/

/-- The section a keyword falls back to: the given one or the defaults. -/
def systemBase : Option Section → Fields
  | some (.cfg f) => f
  | _ => systemDefaults

/-- Same for the runtime section. -/
def runtimeBase : Option Section → Fields
  | some (.cfg f) => f
  | _ => runtimeDefaults

theorem section_ok {validate : Fields → Py Unit} {defaults fs : Fields} {given : Option Section}
    {s : Section} (hg : ∀ v, given ≠ some (.other v))
    (h : section' validate defaults given fs = .ok s) :
    ∃ f, s = .cfg f ∧
      ((given = none ∧ build validate defaults fs = .ok f) ∨
       ∃ f₀, given = some (.cfg f₀) ∧
        ((fs = [] ∧ f = f₀) ∨ build validate f₀ fs = .ok f)) := by
  unfold section' at h
  split at h
  · split at h
    · cases h
    · rename_i f hb
      cases h
      exact ⟨f, rfl, Or.inl ⟨rfl, hb⟩⟩
  · rename_i f₀
    split at h
    · rename_i hn
      cases h
      exact ⟨f₀, rfl, Or.inr ⟨f₀, rfl, Or.inl ⟨hn, rfl⟩⟩⟩
    · split at h
      · cases h
      · rename_i f hb
        cases h
        exact ⟨f, rfl, Or.inr ⟨f₀, rfl, Or.inr hb⟩⟩
  · rename_i v
    exact absurd rfl (hg v)

/-- Values of a section built from keywords. -/
theorem section_get {validate : Fields → Py Unit} {defaults fs : Fields} {given : Option Section}
    {s : Section} {ks : List String} (hd : dictKeys defaults = ks)
    (hg : ∀ g, given = some g → ∃ f, g = .cfg f ∧ dictKeys f = ks)
    (h : section' validate defaults given fs = .ok s) :
    ∃ f, s = .cfg f ∧ dictKeys f = ks ∧ (∀ kv ∈ fs, kv.1 ∈ ks) ∧
      ∀ k, dictGet f k = (dictGet (match given with | some (.cfg f) => f | _ => defaults) k).map
        fun v => (dictGet fs k).getD v := by
  obtain ⟨f, rfl, hf⟩ := section_ok (fun v hv => by
    obtain ⟨f, h1, -⟩ := hg _ hv
    cases h1) h
  rcases hf with ⟨rfl, hb⟩ | ⟨f₀, rfl, hf⟩
  · obtain ⟨h1, -, h2, h3⟩ := build_ok hb
    exact ⟨f, rfl, h1.trans hd, fun kv hkv => hd ▸ h2 kv hkv, h3⟩
  · obtain ⟨f₁, h1, hk⟩ := hg _ rfl
    cases h1
    rcases hf with ⟨rfl, rfl⟩ | hb
    · refine ⟨f, rfl, hk, fun kv hkv => by simp at hkv, ?_⟩
      intro k
      simp [dictGet]
    · obtain ⟨h1, -, h2, h3⟩ := build_ok hb
      exact ⟨f, rfl, h1.trans hk, fun kv hkv => hk ▸ h2 kv hkv, h3⟩

theorem config_init_ok {sys run : Option Section} {kwargs : Fields} {c : Configuration}
    (h : init sys run kwargs = .ok c) :
    (∀ kv ∈ kwargs, kv.1 ∈ Spec.systemFields ∨ kv.1 ∈ Spec.runtimeFields) ∧
    section' validateSystem systemDefaults sys
      (kwargs.filter fun kv => decide (kv.1 ∈ systemNames)) = .ok c.system ∧
    section' validateRuntime runtimeDefaults run
      (kwargs.filter fun kv => decide (kv.1 ∉ systemNames) && decide (kv.1 ∈ runtimeNames)) =
        .ok c.runtime := by
  unfold init at h
  split at h
  · cases h
  · simp only at h
    split at h
    · cases h
    · rename_i hu
      split at h
      · cases h
      · rename_i s hs
        split at h
        · cases h
        · rename_i r hr
          cases h
          refine ⟨?_, hs, hr⟩
          intro kv hkv
          by_contra hn
          push Not at hn
          simp only [ne_eq, not_not, List.length_eq_zero_iff, List.filter_eq_nil_iff] at hu
          exact hu kv hkv (by simpa using ⟨hn.1, hn.2⟩)

/-- C27.  In a configuration made from keywords and optional ready-made sections, every keyword
is a field of exactly one section and has its value there; every other field keeps the value of
the given section, or its default. -/
theorem C27_keywords_routed {sys run : Option Section} {kwargs : Fields} {c : Configuration}
    (hsys : ∀ g, sys = some g → ∃ f, g = .cfg f ∧ dictKeys f = Spec.systemFields)
    (hrun : ∀ g, run = some g → ∃ f, g = .cfg f ∧ dictKeys f = Spec.runtimeFields)
    (h : init sys run kwargs = .ok c) :
    ∃ s r, c.system = .cfg s ∧ c.runtime = .cfg r ∧
      dictKeys s = Spec.systemFields ∧ dictKeys r = Spec.runtimeFields ∧
      (∀ k v, dictGet kwargs k = some v →
        (dictGet s k = some v ∧ dictGet r k = none) ∨
        (dictGet s k = none ∧ dictGet r k = some v)) ∧
      (∀ k, dictGet kwargs k = none →
        (k ∈ Spec.systemFields → dictGet s k = match sys with
          | some (.cfg f) => dictGet f k
          | _ => some (systemDefault k)) ∧
        (k ∈ Spec.runtimeFields → dictGet r k = match run with
          | some (.cfg f) => dictGet f k
          | _ => some (runtimeDefault k))) := by
  obtain ⟨hk, h1, h2⟩ := config_init_ok h
  obtain ⟨s, hs, hsk, -, hsg⟩ := section_get (ks := Spec.systemFields) rfl hsys h1
  obtain ⟨r, hr, hrk, -, hrg⟩ := section_get (ks := Spec.runtimeFields) rfl hrun h2
  have key1 : ∀ k, dictGet (kwargs.filter fun kv => decide (kv.1 ∈ systemNames)) k =
      if k ∈ Spec.systemFields then dictGet kwargs k else none := by
    intro k
    have := dictGet_filter kwargs (fun k => decide (k ∈ systemNames)) k
    rw [this]
    simp only [decide_eq_true_eq]
    rfl
  have key2 : ∀ k, dictGet (kwargs.filter fun kv =>
      decide (kv.1 ∉ systemNames) && decide (kv.1 ∈ runtimeNames)) k =
      if k ∉ Spec.systemFields ∧ k ∈ Spec.runtimeFields then dictGet kwargs k else none := by
    intro k
    have := dictGet_filter kwargs (fun k => decide (k ∉ systemNames) && decide (k ∈ runtimeNames)) k
    rw [this]
    simp only [Bool.and_eq_true, decide_eq_true_eq]
    rfl
  refine ⟨s, r, hs, hr, hsk, hrk, ?_, ?_⟩
  · intro k v hv
    have hmem : k ∈ Spec.systemFields ∨ k ∈ Spec.runtimeFields := hk (k, v) (mem_of_dictGet hv)
    by_cases hks : k ∈ Spec.systemFields
    · left
      refine ⟨?_, dictGet_none_of_keys hrk (fields_disjoint hks)⟩
      obtain ⟨w, hw⟩ := dictGet_some_of_keys hsk hks
      have := hsg k
      rw [key1, if_pos hks, hv, hw] at this
      rw [hw]
      generalize dictGet _ k = o at this
      cases o with
      | none => simp at this
      | some u => simpa using this
    · right
      have hkr := hmem.resolve_left hks
      refine ⟨dictGet_none_of_keys hsk hks, ?_⟩
      obtain ⟨w, hw⟩ := dictGet_some_of_keys hrk hkr
      have := hrg k
      rw [key2, if_pos ⟨hks, hkr⟩, hv, hw] at this
      rw [hw]
      generalize dictGet _ k = o at this
      cases o with
      | none => simp at this
      | some u => simpa using this
  · intro k hn
    constructor
    · intro hks
      have := hsg k
      rw [key1, if_pos hks, hn] at this
      rw [this]
      cases sys with
      | none => simp [systemDefaults_get k hks]
      | some g =>
        obtain ⟨f, rfl, -⟩ := hsys g rfl
        simp
    · intro hkr
      have hks : k ∉ Spec.systemFields := fun hh => fields_disjoint hh hkr
      have := hrg k
      rw [key2, if_pos ⟨hks, hkr⟩, hn] at this
      rw [this]
      cases run with
      | none => simp [runtimeDefaults_get k hkr]
      | some g =>
        obtain ⟨f, rfl, -⟩ := hrun g rfl
        simp

example : init none none [("temperature", .int 400), ("dimension", .int 2)] =
    .ok ⟨.cfg (dictSet systemDefaults "dimension" (.int 2)),
      .cfg (dictSet runtimeDefaults "temperature" (.int 400))⟩ := rfl

/-- C27.  A keyword that is no field is rejected, whatever else is given. -/
theorem C27_unknown_rejected (sys run : Option Section) (kwargs : Fields)
    (h : ∃ kv ∈ kwargs, kv.1 ∉ Spec.systemFields ∧ kv.1 ∉ Spec.runtimeFields) :
    init sys run kwargs = .error .valueError := by
  obtain ⟨kv, hkv, h1, h2⟩ := h
  unfold init
  split
  · rfl
  · simp only
    rw [if_pos]
    intro hl
    rw [List.length_eq_zero_iff, List.filter_eq_nil_iff] at hl
    exact hl kv hkv (by simpa using ⟨h1, h2⟩)

example : init none none [("temperature", .int 400), ("temp", .int 2)] = .error .valueError :=
  C27_unknown_rejected _ _ _ ⟨("temp", .int 2), by simp, by decide, by decide⟩

/-- C27.  A configuration is never made from nothing. -/
theorem C27_nothing_rejected : init none none [] = .error .valueError := rfl

/-! ### C28: validity -/

/-- A configuration whose two sections are valid, with NaN counted as a positive number (the
checks are of the form `value <= 0`). -/
def ValidUpToNaN (c : Configuration) : Prop :=
  ∃ s r, c = ⟨.cfg s, .cfg r⟩ ∧ ValidSystem s ∧
    ValidRuntime (fun v => Positive v ∨ IsNaN v) (fun v => NonNegative v ∨ IsNaN v) r

theorem validSystem_iff {f : Fields} (hk : dictKeys f = Spec.systemFields) :
    validateSystem f = .ok () ↔ ValidSystem f := by
  obtain ⟨d, hd⟩ := dictGet_some_of_keys hk (k := "dimension") (by decide)
  obtain ⟨p, hp⟩ := dictGet_some_of_keys hk (k := "supercell_shape") (by decide)
  rw [validateSystem_iff, field_eq hd, field_eq hp]
  constructor
  · rintro ⟨h1, h2⟩
    exact ⟨hk, ⟨d, hd, h1⟩, ⟨p, hp, h2⟩⟩
  · rintro ⟨-, ⟨d', hd', h1⟩, ⟨p', hp', h2⟩⟩
    rw [hd] at hd'
    rw [hp] at hp'
    cases hd'
    cases hp'
    exact ⟨h1, h2⟩

theorem optional_some_iff {P : PyVal → Prop} (v : PyVal) :
    Optional P (some v) ↔ (v = .none ∨ P v) := by
  simp [Optional]

theorem validRuntime_iff {f : Fields} (hk : dictKeys f = Spec.runtimeFields) :
    validateRuntime f = .ok () ↔
      ValidRuntime (fun v => Positive v ∨ IsNaN v) (fun v => NonNegative v ∨ IsNaN v) f := by
  obtain ⟨v1, h1⟩ := dictGet_some_of_keys hk (k := "temperature") (by decide)
  obtain ⟨v2, h2⟩ := dictGet_some_of_keys hk (k := "attempt_frequency") (by decide)
  obtain ⟨v3, h3⟩ := dictGet_some_of_keys hk (k := "equilibration_passes") (by decide)
  obtain ⟨v4, h4⟩ := dictGet_some_of_keys hk (k := "kmc_passes") (by decide)
  obtain ⟨v5, h5⟩ := dictGet_some_of_keys hk (k := "property_sampling_interval") (by decide)
  obtain ⟨v6, h6⟩ := dictGet_some_of_keys hk (k := "property_sampling_time_interval") (by decide)
  obtain ⟨v7, h7⟩ := dictGet_some_of_keys hk (k := "builtin_property_enabled") (by decide)
  obtain ⟨v8, h8⟩ := dictGet_some_of_keys hk (k := "property_callbacks") (by decide)
  rw [validateRuntime_iff, field_eq h1, field_eq h2, field_eq h3, field_eq h4, field_eq h5,
    field_eq h6, field_eq h7, field_eq h8]
  constructor
  · rintro ⟨a1, a2, a3, a4, a5, a6, ⟨d, a7, a7'⟩, l, a8, a8'⟩
    refine ⟨hk, ⟨v1, h1, a1⟩, ⟨v2, h2, a2⟩, ⟨v3, h3, a3⟩, ⟨v4, h4, a4⟩, ?_, ?_,
      ⟨d, by rw [h7, a7], a7'⟩, ⟨l, by rw [h8, a8], a8'⟩⟩
    · rw [h5, optional_some_iff]; exact a5
    · rw [h6, optional_some_iff]; exact a6
  · rintro ⟨-, ⟨w1, g1, a1⟩, ⟨w2, g2, a2⟩, ⟨w3, g3, a3⟩, ⟨w4, g4, a4⟩, a5, a6, ⟨d, g7, a7⟩,
      l, g8, a8⟩
    rw [h5, optional_some_iff] at a5
    rw [h6, optional_some_iff] at a6
    rw [h1] at g1
    rw [h2] at g2
    rw [h3] at g3
    rw [h4] at g4
    rw [h7] at g7
    rw [h8] at g8
    cases g1
    cases g2
    cases g3
    cases g4
    cases g7
    cases g8
    exact ⟨a1, a2, a3, a4, a5, a6, ⟨d, rfl, a7⟩, l, rfl, a8⟩

theorem section_valid {validate : Fields → Py Unit} {V : Fields → Prop} {defaults fs : Fields}
    {given : Option Section} {s : Section} {ks : List String} (hd : dictKeys defaults = ks)
    (hV : ∀ f, dictKeys f = ks → (validate f = .ok () ↔ V f))
    (hg : ∀ g, given = some g → ∃ f, g = .cfg f ∧ dictKeys f = ks ∧ V f)
    (h : section' validate defaults given fs = .ok s) : ∃ f, s = .cfg f ∧ V f := by
  obtain ⟨f, rfl, hf⟩ := section_ok (fun v hv => by
    obtain ⟨f, h1, -⟩ := hg _ hv
    cases h1) h
  rcases hf with ⟨rfl, hb⟩ | ⟨f₀, rfl, hf⟩
  · obtain ⟨h1, h2, -⟩ := build_ok hb
    exact ⟨f, rfl, (hV f (h1.trans hd)).1 h2⟩
  · obtain ⟨f₁, h1, hk, hv⟩ := hg _ rfl
    cases h1
    rcases hf with ⟨rfl, rfl⟩ | hb
    · exact ⟨f, rfl, hv⟩
    · obtain ⟨h1, h2, -⟩ := build_ok hb
      exact ⟨f, rfl, (hV f (h1.trans hk)).1 h2⟩

theorem config_init_valid {sys run : Option Section} {kwargs : Fields} {c : Configuration}
    (hsys : ∀ g, sys = some g → ∃ f, g = .cfg f ∧ ValidSystem f)
    (hrun : ∀ g, run = some g → ∃ f, g = .cfg f ∧
      ValidRuntime (fun v => Positive v ∨ IsNaN v) (fun v => NonNegative v ∨ IsNaN v) f)
    (h : init sys run kwargs = .ok c) : ValidUpToNaN c := by
  obtain ⟨-, h1, h2⟩ := config_init_ok h
  obtain ⟨s, hs, hvs⟩ := section_valid (V := ValidSystem) (ks := Spec.systemFields) rfl
    (fun f hk => validSystem_iff hk)
    (fun g hg => by
      obtain ⟨f, e, v⟩ := hsys g hg
      exact ⟨f, e, v.keys, v⟩) h1
  obtain ⟨r, hr, hvr⟩ := section_valid
    (V := ValidRuntime (fun v => Positive v ∨ IsNaN v) (fun v => NonNegative v ∨ IsNaN v))
    (ks := Spec.runtimeFields) rfl (fun f hk => validRuntime_iff hk)
    (fun g hg => by
      obtain ⟨f, e, v⟩ := hrun g hg
      exact ⟨f, e, v.keys, v⟩) h2
  refine ⟨s, r, ?_, hvs, hvr⟩
  rw [← hs, ← hr]

/-- C28, partial.  Every configuration built from keyword values, dictionaries, other
configurations and chains of changes is valid, except that a field required to be positive or
non-negative may hold NaN (see `C28_nan_accepted`).

Missing: excluding NaN, and sections given as values other than configuration objects
(`C28_raw_section_accepted`). -/
theorem C28_built_valid_partial {c : Configuration} (h : Built c) : ValidUpToNaN c := by
  induction h with
  | new h =>
    exact config_init_valid (fun g hg => by cases hg) (fun g hg => by cases hg) h
  | reuseSystem h₀ h ih =>
    obtain ⟨s, r, rfl, hs, hr⟩ := ih
    exact config_init_valid (fun g hg => ⟨s, (Option.some.inj hg).symm, hs⟩) (fun g hg => by cases hg) h
  | reuseRuntime h₀ h ih =>
    obtain ⟨s, r, rfl, hs, hr⟩ := ih
    exact config_init_valid (fun g hg => by cases hg) (fun g hg => ⟨r, (Option.some.inj hg).symm, hr⟩) h
  | combine h₁ h₂ h ih₁ ih₂ =>
    obtain ⟨s, r, rfl, hs, hr⟩ := ih₁
    obtain ⟨s', r', rfl, hs', hr'⟩ := ih₂
    exact config_init_valid (fun g hg => ⟨s, (Option.some.inj hg).symm, hs⟩)
      (fun g hg => ⟨r', (Option.some.inj hg).symm, hr'⟩) h
  | @dict d c hs hr h =>
    unfold fromDict at h
    simp only at h
    split at h
    · cases h
    · have e : ∀ k, k ∉ dictKeys d →
          sectionArg (d.filter fun kv => !(kv.1.toList.head? == some '@')) k = none := by
        intro k hk
        unfold sectionArg
        have := dictGet_filter d (fun k => !(k.toList.head? == some '@')) k
        rw [this, (dictGet_eq_none_iff d k).2 hk]
        simp
      rw [e _ hs, e _ hr] at h
      exact config_init_valid (fun g hg => by cases hg) (fun g hg => by cases hg) h
  | runtimeChange h₀ h ih =>
    obtain ⟨s, r, rfl, hs, hr⟩ := ih
    unfold withRuntimeChanges at h
    simp only at h
    split at h
    · cases h
    · rename_i f' hb
      obtain ⟨h1, h2, -⟩ := build_ok hb
      exact config_init_valid (fun g hg => ⟨s, (Option.some.inj hg).symm, hs⟩)
        (fun g hg => ⟨f', (Option.some.inj hg).symm,
          (validRuntime_iff (h1.trans hr.keys)).1 h2⟩) h
  | systemChange h₀ h ih =>
    obtain ⟨s, r, rfl, hs, hr⟩ := ih
    unfold withSystemChanges at h
    simp only at h
    split at h
    · cases h
    · rename_i f' hb
      obtain ⟨h1, h2, -⟩ := build_ok hb
      exact config_init_valid (fun g hg => ⟨f', (Option.some.inj hg).symm,
          (validSystem_iff (h1.trans hs.keys)).1 h2⟩)
        (fun g hg => ⟨r, (Option.some.inj hg).symm, hr⟩) h

/-- Value a field gets from keywords on top of the defaults. -/
def given (kwargs : Fields) (k : String) : PyVal :=
  (dictGet kwargs k).getD (if k ∈ Spec.systemFields then systemDefault k else runtimeDefault k)

theorem field_given_system (kwargs : Fields) {k : String} (hk : k ∈ Spec.systemFields) :
    field (systemDefaults.map fun kv => (kv.1,
      (dictGet (kwargs.filter fun kv => decide (kv.1 ∈ systemNames)) kv.1).getD kv.2)) k =
      given kwargs k := by
  unfold field given
  rw [dictGet_mapVal (fun k v => (dictGet (kwargs.filter fun kv =>
    decide (kv.1 ∈ systemNames)) k).getD v), systemDefaults_get k hk,
    dictGet_filter kwargs (fun k => decide (k ∈ systemNames)) k]
  have : k ∈ systemNames := hk
  simp [this, hk]

theorem field_given_runtime (kwargs : Fields) {k : String} (hk : k ∈ Spec.runtimeFields) :
    field (runtimeDefaults.map fun kv => (kv.1,
      (dictGet (kwargs.filter fun kv =>
        decide (kv.1 ∉ systemNames) && decide (kv.1 ∈ runtimeNames)) kv.1).getD kv.2)) k =
      given kwargs k := by
  unfold field given
  have hs : k ∉ Spec.systemFields := fun hh => fields_disjoint hh hk
  rw [dictGet_mapVal (fun k v => (dictGet (kwargs.filter fun kv =>
    decide (kv.1 ∉ systemNames) && decide (kv.1 ∈ runtimeNames)) k).getD v),
    runtimeDefaults_get k hk,
    dictGet_filter kwargs (fun k => decide (k ∉ systemNames) && decide (k ∈ runtimeNames)) k]
  have h1 : k ∈ runtimeNames := hk
  have h2 : k ∉ systemNames := hs
  simp [h1, h2, hs]

/-- C28.  Construction from keywords succeeds exactly on known fields with acceptable values:
nothing valid is refused and nothing invalid (but NaN) is accepted. -/
theorem C28_accepted_iff_partial (kwargs : Fields) :
    (∃ c, init none none kwargs = .ok c) ↔
      kwargs ≠ [] ∧
      (∀ kv ∈ kwargs, kv.1 ∈ Spec.systemFields ∨ kv.1 ∈ Spec.runtimeFields) ∧
      IsDimension (given kwargs "dimension") ∧
      HasThreeEntries (given kwargs "supercell_shape") ∧
      (Positive (given kwargs "temperature") ∨ IsNaN (given kwargs "temperature")) ∧
      (Positive (given kwargs "attempt_frequency") ∨ IsNaN (given kwargs "attempt_frequency")) ∧
      (NonNegative (given kwargs "equilibration_passes") ∨
        IsNaN (given kwargs "equilibration_passes")) ∧
      (Positive (given kwargs "kmc_passes") ∨ IsNaN (given kwargs "kmc_passes")) ∧
      (given kwargs "property_sampling_interval" = .none ∨
        PositiveInt (given kwargs "property_sampling_interval")) ∧
      (given kwargs "property_sampling_time_interval" = .none ∨
        Positive (given kwargs "property_sampling_time_interval") ∨
        IsNaN (given kwargs "property_sampling_time_interval")) ∧
      (∃ d, given kwargs "builtin_property_enabled" = .dict d ∧
        ∀ kv ∈ d, kv.1 ∈ ["msd", "jump_diffusivity", "tracer_diffusivity", "conductivity",
          "havens_ratio", "correlation_factor"] ∧ ∃ b, kv.2 = .bool b) ∧
      (∃ l, given kwargs "property_callbacks" = .list l ∧ ∀ v ∈ l, CallbackEntry v) := by
  have hS := validateSystem_iff (systemDefaults.map fun kv => (kv.1,
      (dictGet (kwargs.filter fun kv => decide (kv.1 ∈ systemNames)) kv.1).getD kv.2))
  rw [field_given_system kwargs (by decide), field_given_system kwargs (by decide)] at hS
  have hR := validateRuntime_iff (runtimeDefaults.map fun kv => (kv.1,
      (dictGet (kwargs.filter fun kv =>
        decide (kv.1 ∉ systemNames) && decide (kv.1 ∈ runtimeNames)) kv.1).getD kv.2))
  rw [field_given_runtime kwargs (by decide), field_given_runtime kwargs (by decide),
    field_given_runtime kwargs (by decide), field_given_runtime kwargs (by decide),
    field_given_runtime kwargs (by decide), field_given_runtime kwargs (by decide),
    field_given_runtime kwargs (by decide), field_given_runtime kwargs (by decide)] at hR
  constructor
  · rintro ⟨c, h⟩
    have hne : kwargs ≠ [] := by
      rintro rfl
      cases h
    obtain ⟨hk, h1, h2⟩ := config_init_ok h
    unfold section' at h1 h2
    simp only at h1 h2
    split at h1
    · cases h1
    · rename_i s hs
      split at h2
      · cases h2
      · rename_i r hr
        obtain ⟨-, vs, -, -⟩ := build_ok hs
        obtain ⟨-, vr, -, -⟩ := build_ok hr
        have es : s = systemDefaults.map fun kv => (kv.1,
            (dictGet (kwargs.filter fun kv => decide (kv.1 ∈ systemNames)) kv.1).getD kv.2) := by
          unfold build at hs
          split at hs
          · cases hs
          · simp only at hs
            split at hs
            · cases hs
            · cases hs; rfl
        have er : r = runtimeDefaults.map fun kv => (kv.1,
            (dictGet (kwargs.filter fun kv =>
              decide (kv.1 ∉ systemNames) && decide (kv.1 ∈ runtimeNames)) kv.1).getD kv.2) := by
          unfold build at hr
          split at hr
          · cases hr
          · simp only at hr
            split at hr
            · cases hr
            · cases hr; rfl
        rw [es] at vs
        rw [er] at vr
        exact ⟨hne, hk, (hS.1 vs).1, (hS.1 vs).2, hR.1 vr⟩
  · rintro ⟨hne, hk, h1, h2, h3⟩
    have vs := hS.2 ⟨h1, h2⟩
    have vr := hR.2 h3
    unfold init
    rw [if_neg (by cases kwargs with
      | nil => exact absurd rfl hne
      | cons a l => simp)]
    simp only
    rw [if_neg]
    · unfold section'
      simp only
      rw [build_isOk _ vs]
      · simp only
        rw [build_isOk _ vr]
        · exact ⟨_, rfl⟩
        · intro kv hkv
          simp only [List.mem_filter, Bool.and_eq_true, decide_eq_true_eq] at hkv
          exact hkv.2.2
      · intro kv hkv
        simp only [List.mem_filter, decide_eq_true_eq] at hkv
        exact hkv.2
    · intro hl
      apply hl
      rw [List.length_eq_zero_iff, List.filter_eq_nil_iff]
      intro kv hkv hc
      rw [Bool.and_eq_true, decide_eq_true_eq, decide_eq_true_eq] at hc
      exact (hk kv hkv).elim hc.1 hc.2

example : ∃ c, init none none [("temperature", .float (.fin 350)), ("dimension", .int 2),
    ("property_callbacks", .list [.dict [("callable", .str "pkg:f"), ("interval", .int 5)]])] =
    .ok c := ⟨_, rfl⟩
example : init none none [("temperature", .float (.fin 0))] = .error .valueError := rfl
example : init none none [("temperature", .str "300")] = .error .typeError := rfl

/-- C28.  Changing an existing configuration to an invalid value raises (here: any value the
checks refuse), so no chain of changes leaves the valid configurations. -/
theorem C28_chain_valid_partial {c c' : Configuration} (hc : Built c) {changes : Fields}
    (h : c.withRuntimeChanges changes = .ok c' ∨ c.withSystemChanges changes = .ok c') :
    ValidUpToNaN c' := by
  rcases h with h | h
  · exact C28_built_valid_partial (.runtimeChange hc h)
  · exact C28_built_valid_partial (.systemChange hc h)

example : ∃ c c', Built c ∧ c.withRuntimeChanges [("kmc_passes", .int 5)] = .ok c' :=
  ⟨_, _, .new (kwargs := [("temperature", .int 400)]) rfl, rfl⟩

/-- C28 does not hold in full: a NaN temperature is accepted. -/
theorem C28_nan_accepted : ∃ c, init none none [("temperature", .float .nan)] = .ok c ∧
    ∃ s r, c = ⟨.cfg s, .cfg r⟩ ∧ dictGet r "temperature" = some (.float .nan) :=
  ⟨_, rfl, _, _, rfl, rfl⟩

/-- C28 does not hold in full: any value is accepted as a ready-made section. -/
theorem C28_raw_section_accepted : ∃ c,
    fromDict [("system_config", .dict [("dimension", .int 7)])] = .ok c ∧
      c.system = .other (.dict [("dimension", .int 7)]) :=
  ⟨_, rfl, rfl⟩

end KMC
