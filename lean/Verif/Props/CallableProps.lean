import Verif.Spec.Callable
import Verif.Lemmas.Config
/-
C101.  User functions receive exactly the arguments they ask for.
-/
namespace KMC
open Spec Callable

theorem mem_accepted {ps : List Parameter} {n : String} : n ∈ accepted ps ↔ Takes ps n := by
  unfold accepted Takes byKeyword
  simp only [List.mem_map, List.mem_filter, Bool.or_eq_true, decide_eq_true_eq]
  constructor
  · rintro ⟨p, ⟨h1, h2⟩, h3⟩; exact ⟨p, h1, h3, h2⟩
  · rintro ⟨p, h1, h2, h3⟩; exact ⟨p, ⟨h1, h3⟩, h2⟩

theorem catchesAll_iff {ps : List Parameter} : catchesAll ps = true ↔ TakesAnything ps := by
  unfold catchesAll TakesAnything
  simp

theorem dictGet_cons' {α : Type} (k n : String) (v : α) (d : List (String × α)) :
    dictGet ((k, v) :: d) n = if n = k then some v else dictGet d n := by
  by_cases h : n = k
  · subst h; simp [dictGet]
  · rw [if_neg h]; simp [dictGet, Ne.symm h]

theorem dictKeys_mem {α : Type} {d : List (String × α)} {n : String} :
    (dictGet d n).isSome = true ↔ n ∈ d.map Prod.fst := by
  induction d with
  | nil => simp [dictGet]
  | cons kv d ih =>
    obtain ⟨k, v⟩ := kv
    by_cases h : k = n
    · simp [dictGet, h]
    · simp [dictGet, h, ih, Ne.symm h]

/-- Nothing required is missing. -/
theorem enough_iff {V : Type} {ps : List Parameter} {kwargs : List (String × V)} :
    ps.any (fun p => required p && !(byKeyword p && (dictGet kwargs p.name).isSome)) = false ↔
      Enough ps (kwargs.map Prod.fst) := by
  rw [← Bool.not_eq_true, List.any_eq_true, not_exists]
  unfold Enough
  refine forall_congr' fun p => ?_
  rw [not_and]
  refine imp_congr_right fun _ => ?_
  unfold required byKeyword
  rw [← dictKeys_mem]
  cases p.kind <;> cases p.hasDefault <;> cases (dictGet kwargs p.name).isSome <;> simp

/-- Python's call rule in terms of names. -/
theorem callKeywords_ok {V : Type} {ps : List Parameter} {kwargs : List (String × V)}
    (h1 : TakesAnything ps ∨ ∀ n ∈ kwargs.map Prod.fst, Takes ps n) (h2 : Enough ps (kwargs.map Prod.fst)) :
    ∃ given, callKeywords ps kwargs = .ok given ∧
      (∀ n, Takes ps n → dictGet given.named n = dictGet kwargs n ∧ dictGet given.rest n = none) ∧
      ∀ n, ¬ Takes ps n → dictGet given.named n = none ∧ dictGet given.rest n = dictGet kwargs n := by
  refine ⟨{ named := kwargs.filter fun kv => decide (kv.1 ∈ accepted ps)
            rest := kwargs.filter fun kv => !decide (kv.1 ∈ accepted ps) }, ?_, ?_, ?_⟩
  · unfold callKeywords
    rw [if_neg, if_neg]
    · rw [enough_iff.2 h2]; simp
    · rw [Bool.and_eq_true, Bool.not_eq_true', List.any_eq_true, not_and]
      rintro hc ⟨kv, hkv, hn⟩
      rcases h1 with h1 | h1
      · rw [catchesAll_iff.2 h1] at hc; cases hc
      · have := h1 kv.1 (List.mem_map_of_mem hkv)
        rw [← mem_accepted] at this
        simp [this] at hn
  · intro n hn
    have hn' := mem_accepted.2 hn
    constructor
    · rw [dictGet_filter kwargs (fun n => decide (n ∈ accepted ps)) n]; simp [hn']
    · rw [dictGet_filter kwargs (fun n => !decide (n ∈ accepted ps)) n]; simp [hn']
  · intro n hn
    have hn' : n ∉ accepted ps := fun h => hn (mem_accepted.1 h)
    constructor
    · rw [dictGet_filter kwargs (fun n => decide (n ∈ accepted ps)) n]; simp [hn']
    · rw [dictGet_filter kwargs (fun n => !decide (n ∈ accepted ps)) n]; simp [hn']

theorem callKeywords_error {V : Type} {ps : List Parameter} {kwargs : List (String × V)}
    (h : ¬ ((TakesAnything ps ∨ ∀ n ∈ kwargs.map Prod.fst, Takes ps n) ∧ Enough ps (kwargs.map Prod.fst))) :
    callKeywords ps kwargs = .error .typeError := by
  unfold callKeywords
  split_ifs with h1 h2
  · rfl
  · rfl
  · exfalso
    apply h
    refine ⟨?_, enough_iff.1 (by simpa using h2)⟩
    by_cases hc : TakesAnything ps
    · exact .inl hc
    · right
      intro n hn
      by_contra hnot
      apply h1
      rw [Bool.and_eq_true, Bool.not_eq_true', List.any_eq_true]
      obtain ⟨kv, hkv, rfl⟩ := List.mem_map.1 hn
      refine ⟨by rw [← Bool.not_eq_true, catchesAll_iff]; exact hc, kv, hkv, ?_⟩
      rw [← mem_accepted] at hnot
      simp [hnot]

theorem dictUpdate_get {α : Type} (d e : List (String × α)) (hn : (e.map Prod.fst).Nodup) (n : String) :
    dictGet (dictUpdate d e) n = (dictGet e n).or (dictGet d n) := by
  unfold dictUpdate
  induction e generalizing d with
  | nil => simp [dictGet]
  | cons kv e ih =>
    obtain ⟨k, v⟩ := kv
    rw [List.map_cons, List.nodup_cons] at hn
    rw [List.foldl_cons, ih _ hn.2]
    by_cases h : k = n
    · subst h
      have : dictGet e k = none := by
        rw [← Option.not_isSome_iff_eq_none, dictKeys_mem]; exact hn.1
      simp [dictGet, this]
    · simp only [dictGet, h, if_false]
      rw [dictGet_dictSet_ne _ _ (Ne.symm h)]

theorem dictGet_mapUser {V Rt T : Type} (kwargs : List (String × V)) (n : String) :
    dictGet (kwargs.map fun kv => (kv.1, (Arg.user kv.2 : Arg V Rt T))) n = (dictGet kwargs n).map Arg.user := by
  induction kwargs with
  | nil => rfl
  | cons kv d ih =>
    obtain ⟨k, v⟩ := kv
    by_cases h : k = n <;> simp [dictGet, h, ih]

section
variable {V Rt T : Type} {f : Function (Arg V Rt T) RawEnergy} {kwargs : List (String × V)} {rt : Rt}
  {ext : List ExtVal} {cs : List OccupationChange} {e : Event} {st : State T} {ps : List Parameter}

theorem standard_get (n : String) : dictGet (standard rt ext cs e st : List (String × Arg V Rt T)) n =
    if n = "runtime" then some (.runtime rt)
    else if n = "external_occupation" then some (.external ext)
    else if n = "changes" then some (.changes cs)
    else if n = "event" then some (.event e)
    else if n = "simulation_state" then some (.state st)
    else none := by
  unfold standard
  rw [dictGet_cons', dictGet_cons', dictGet_cons', dictGet_cons', dictGet_cons']
  rfl

theorem offered_get (hn : (kwargs.map Prod.fst).Nodup) (n : String) :
    dictGet (offered (standard rt ext cs e st) kwargs) n = valueFor kwargs rt ext cs e st n := by
  unfold offered valueFor
  rw [dictUpdate_get _ _ (by simpa [List.map_map, Function.comp_def] using hn), dictGet_mapUser]
  cases dictGet kwargs n with
  | some v => rfl
  | none =>
    exact standard_get n

theorem offered_names (hn : (kwargs.map Prod.fst).Nodup) (n : String) :
    n ∈ (offered (standard rt ext cs e st) kwargs).map Prod.fst ↔
      n ∈ standardNames ∨ n ∈ kwargs.map Prod.fst := by
  rw [← dictKeys_mem, offered_get hn, ← dictKeys_mem (d := kwargs)]
  unfold valueFor standardNames
  cases dictGet kwargs n with
  | some v => simp
  | none =>
    simp only [List.mem_cons, List.not_mem_nil, or_false, Option.isSome_none, Bool.false_eq_true]
    split_ifs <;> simp_all

/-- C101.  A function without `**kwargs` that is used to compute a site-energy difference is called exactly if it
takes every name the user set arguments for, and needs nothing but those and the standard names; otherwise the
evaluation fails with a `TypeError` and the function does not run. -/
theorem C101_compute_called (hf : f.signature = some ps) (hps : ¬ TakesAnything ps)
    (hn : (kwargs.map Prod.fst).Nodup) :
    ((∀ n ∈ kwargs.map Prod.fst, Takes ps n) ∧ Enough ps (standardNames ++ kwargs.map Prod.fst) →
      ∃ given, computeFn f kwargs rt ext cs e st = f.body given ∧
        (∀ n, Takes ps n → dictGet given.named n = valueFor kwargs rt ext cs e st n) ∧
        (∀ n, ¬ Takes ps n → dictGet given.named n = none) ∧ ∀ n, dictGet given.rest n = none) ∧
    (¬ ((∀ n ∈ kwargs.map Prod.fst, Takes ps n) ∧ Enough ps (standardNames ++ kwargs.map Prod.fst)) →
      computeFn f kwargs rt ext cs e st = .error .typeError) := by
  have hc : catchesAll ps = false := by rw [← Bool.not_eq_true, catchesAll_iff]; exact hps
  have hget : ∀ n, dictGet ((offered (standard rt ext cs e st) kwargs).filter
      fun kv => decide (kv.1 ∈ accepted ps)) n =
      if n ∈ accepted ps then valueFor kwargs rt ext cs e st n else none := by
    intro n
    rw [dictGet_filter _ (fun n => decide (n ∈ accepted ps)) n, offered_get hn]
    simp
  have hmem : ∀ n, n ∈ ((offered (standard rt ext cs e st) kwargs).filter
      fun kv => decide (kv.1 ∈ accepted ps)).map Prod.fst ↔
      Takes ps n ∧ (n ∈ standardNames ∨ n ∈ kwargs.map Prod.fst) := by
    intro n
    rw [← offered_names (rt := rt) (ext := ext) (cs := cs) (e := e) (st := st) hn, ← dictKeys_mem, hget,
      ← mem_accepted, ← dictKeys_mem, offered_get hn]
    split_ifs with h <;> simp [h]
  have henough : Enough ps (((offered (standard rt ext cs e st) kwargs).filter
      fun kv => decide (kv.1 ∈ accepted ps)).map Prod.fst) ↔ Enough ps (standardNames ++ kwargs.map Prod.fst) := by
    unfold Enough
    refine forall_congr' fun p => forall_congr' fun hp => forall_congr' fun _ => and_congr Iff.rfl ?_
    refine forall_congr' fun hk => ?_
    rw [hmem, List.mem_append]
    exact ⟨fun h => h.2, fun h => ⟨⟨p, hp, rfl, hk⟩, h⟩⟩
  constructor
  · rintro ⟨h1, h2⟩
    obtain ⟨given, g1, g2, g3⟩ := callKeywords_ok (ps := ps)
      (kwargs := (offered (standard rt ext cs e st) kwargs).filter fun kv => decide (kv.1 ∈ accepted ps))
      (.inr fun n hn' => ((hmem n).1 hn').1) (henough.2 h2)
    refine ⟨given, ?_, ?_, ?_, ?_⟩
    · unfold computeFn callWithSupported supportedKeywords
      rw [hf]
      simp only [hc, Bool.false_eq_true, if_false]
      rw [if_neg]
      · simp only [Function.call, hf, g1]
      · rw [List.any_eq_true]
        rintro ⟨n, hn1, hn2⟩
        have := mem_accepted.2 (h1 n hn1)
        simp [this] at hn2
    · intro n ht
      rw [(g2 n ht).1, hget, if_pos (mem_accepted.2 ht)]
    · intro n ht
      exact (g3 n ht).1
    · intro n
      by_cases ht : Takes ps n
      · exact (g2 n ht).2
      · rw [(g3 n ht).2, hget, if_neg (fun h => ht (mem_accepted.1 h))]
  · intro h
    unfold computeFn callWithSupported supportedKeywords
    rw [hf]
    simp only [hc, Bool.false_eq_true, if_false]
    split_ifs with hu
    · rfl
    · simp only [Function.call, hf]
      rw [callKeywords_error]
      rintro ⟨-, h2⟩
      apply h
      refine ⟨?_, henough.1 h2⟩
      intro n hn1
      by_contra hnot
      apply hu
      rw [List.any_eq_true]
      refine ⟨n, hn1, ?_⟩
      have : n ∉ accepted ps := fun h => hnot (mem_accepted.1 h)
      simp [this]

/-- C101.  A function with `**kwargs` is given everything: the parameters it names by name, and the rest in the
dictionary. -/
theorem C101_catch_all (hf : f.signature = some ps) (hps : TakesAnything ps) (hn : (kwargs.map Prod.fst).Nodup) :
    (Enough ps (standardNames ++ kwargs.map Prod.fst) →
      ∃ given, computeFn f kwargs rt ext cs e st = f.body given ∧
        (∀ n, Takes ps n → dictGet given.named n = valueFor kwargs rt ext cs e st n ∧ dictGet given.rest n = none) ∧
        ∀ n, ¬ Takes ps n → dictGet given.named n = none ∧
          dictGet given.rest n = valueFor kwargs rt ext cs e st n) ∧
    (¬ Enough ps (standardNames ++ kwargs.map Prod.fst) →
      computeFn f kwargs rt ext cs e st = .error .typeError) := by
  have henough : Enough ps ((offered (standard rt ext cs e st) kwargs).map Prod.fst) ↔
      Enough ps (standardNames ++ kwargs.map Prod.fst) := by
    unfold Enough
    refine forall_congr' fun p => forall_congr' fun hp => forall_congr' fun _ => and_congr Iff.rfl ?_
    rw [offered_names hn, List.mem_append]
  constructor
  · intro h2
    obtain ⟨given, g1, g2, g3⟩ := callKeywords_ok (ps := ps)
      (kwargs := offered (standard rt ext cs e st) kwargs) (.inl hps) (henough.2 h2)
    refine ⟨given, ?_, ?_, ?_⟩
    · unfold computeFn callWithSupported supportedKeywords
      rw [hf]
      simp only [catchesAll_iff.2 hps, if_true, Function.call, hf, g1]
    · intro n ht
      rw [← offered_get hn]; exact g2 n ht
    · intro n ht
      rw [← offered_get hn]; exact g3 n ht
  · intro h
    unfold computeFn callWithSupported supportedKeywords
    rw [hf]
    simp only [catchesAll_iff.2 hps, if_true, Function.call, hf]
    rw [callKeywords_error]
    rintro ⟨-, h2⟩
    exact h (henough.1 h2)

/-- C101.  A function that offers no signature to look at (a builtin) is given everything. -/
theorem C101_no_signature (hf : f.signature = none) (hn : (kwargs.map Prod.fst).Nodup) :
    ∃ all, (∀ n, dictGet all n = valueFor kwargs rt ext cs e st n) ∧
      computeFn f kwargs rt ext cs e st = f.call all := by
  refine ⟨offered (standard rt ext cs e st) kwargs, offered_get hn, ?_⟩
  unfold computeFn callWithSupported supportedKeywords
  rw [hf]

/-- C101, contrary to what one may expect: an argument of the user that has a standard name replaces the standard
argument without notice. -/
theorem C101_user_value_wins (hf : f.signature = some ps) (hps : ¬ TakesAnything ps)
    (hn : (kwargs.map Prod.fst).Nodup) (h1 : ∀ n ∈ kwargs.map Prod.fst, Takes ps n)
    (h2 : Enough ps (standardNames ++ kwargs.map Prod.fst)) {n : String} {v : V} (hv : dictGet kwargs n = some v) :
    ∃ given, computeFn f kwargs rt ext cs e st = f.body given ∧ dictGet given.named n = some (.user v) := by
  obtain ⟨given, a, b, -⟩ := (C101_compute_called hf hps hn).1 ⟨h1, h2⟩
  refine ⟨given, a, ?_⟩
  rw [b n (h1 n (dictKeys_mem.1 (by rw [hv]; rfl)))]
  unfold valueFor
  rw [hv]

end

section
variable {V Rt T O : Type} {f : Function (Arg V Rt T) O} {kwargs : List (String × V)} {rt : Rt}
  {ext : List ExtVal} {cs : List OccupationChange} {e : Event} {st : State T} {ps : List Parameter}

/-- C101.  The function that commits an accepted event is not asked what it takes: it is given all five standard
arguments and the user's, so without `**kwargs` it runs exactly if it takes all of them, needs no others, and the
user's have no standard names. -/
theorem C101_apply_called (hf : f.signature = some ps) (hps : ¬ TakesAnything ps) :
    ((∀ n ∈ kwargs.map Prod.fst, n ∉ standardNames) ∧ (∀ n ∈ standardNames ++ kwargs.map Prod.fst, Takes ps n) ∧
        Enough ps (standardNames ++ kwargs.map Prod.fst) →
      ∃ given, applyCall f kwargs rt ext cs e st = f.body given ∧
        ∀ n, dictGet given.named n = valueFor kwargs rt ext cs e st n) ∧
    (¬ ((∀ n ∈ kwargs.map Prod.fst, n ∉ standardNames) ∧
        (∀ n ∈ standardNames ++ kwargs.map Prod.fst, Takes ps n) ∧
        Enough ps (standardNames ++ kwargs.map Prod.fst)) →
      applyCall f kwargs rt ext cs e st = .error .typeError) := by
  have hnames : ((standard rt ext cs e st : List (String × Arg V Rt T)) ++
      kwargs.map fun kv : String × V => (kv.1, Arg.user kv.2)).map Prod.fst = standardNames ++ kwargs.map Prod.fst := by
    simp [standard, standardNames]
  have hstd : (standard rt ext cs e st : List (String × Arg V Rt T)).map Prod.fst = standardNames := rfl
  constructor
  · rintro ⟨h1, h2, h3⟩
    obtain ⟨given, g1, g2, g3⟩ := callKeywords_ok (ps := ps)
      (kwargs := (standard rt ext cs e st : List (String × Arg V Rt T)) ++
        kwargs.map fun kv : String × V => (kv.1, Arg.user kv.2)) (.inr (by rw [hnames]; exact h2)) (by rw [hnames]; exact h3)
    have hget : ∀ n, dictGet ((standard rt ext cs e st : List (String × Arg V Rt T)) ++
        kwargs.map fun kv : String × V => (kv.1, Arg.user kv.2)) n = valueFor kwargs rt ext cs e st n := by
      intro n
      have happ : ∀ (a b : List (String × Arg V Rt T)), dictGet (a ++ b) n = (dictGet a n).or (dictGet b n) := by
        intro a b
        induction a with
        | nil => simp [dictGet]
        | cons kv a ih =>
          obtain ⟨k, v⟩ := kv
          by_cases h : k = n <;> simp [dictGet, h, ih]
      rw [happ, dictGet_mapUser]
      cases hk : dictGet kwargs n with
      | some v =>
        have hno := h1 n (dictKeys_mem.1 (by rw [hk]; rfl))
        have : dictGet (standard rt ext cs e st : List (String × Arg V Rt T)) n = none := by
          rw [← Option.not_isSome_iff_eq_none, dictKeys_mem, hstd]; exact hno
        rw [this]
        unfold valueFor
        rw [hk]
        rfl
      | none =>
        unfold valueFor
        rw [hk]
        simp only [Option.map_none, Option.or_none]
        exact standard_get n
    refine ⟨given, ?_, ?_⟩
    · unfold applyCall applyArguments
      rw [if_neg]
      · simp only [Function.call, hf, g1]
      · rw [List.any_eq_true]
        rintro ⟨kv, hkv, hk⟩
        rw [hstd] at hk
        exact h1 kv.1 (List.mem_map_of_mem hkv) (by simpa using hk)
    · intro n
      by_cases ht : Takes ps n
      · rw [(g2 n ht).1, hget]
      · rw [(g3 n ht).1, ← hget, eq_comm, ← Option.not_isSome_iff_eq_none, dictKeys_mem, hnames]
        exact fun h => ht (h2 n h)
  · intro h
    unfold applyCall applyArguments
    split_ifs with hu
    · rfl
    · simp only [Function.call, hf]
      rw [callKeywords_error]
      rw [hnames]
      rintro ⟨h2, h3⟩
      rcases h2 with h2 | h2
      · exact hps h2
      · apply h
        refine ⟨?_, h2, h3⟩
        intro n hn1 hn2
        apply hu
        obtain ⟨kv, hkv, rfl⟩ := List.mem_map.1 hn1
        rw [List.any_eq_true]
        exact ⟨kv, hkv, by rw [hstd]; simpa using hn2⟩

end

/-- C101.  A model's `initialize_state` is offered the active-site order exactly if the simulation has one and the
method has a parameter of that name or `**kwargs`; if that parameter can be given by keyword, the order does not make
the call fail. -/
theorem C101_order_offered {V : Type} {ps : List Parameter} (state eventLib structure' config o : V) :
    (dictGet (initializeArguments (some ps) state eventLib structure' config (some o)) "active_site_order" =
      some o ↔ (∃ p ∈ ps, p.name = "active_site_order") ∨ TakesAnything ps) ∧
    ((∀ p ∈ ps, p.kind ≠ .positionalOnly) →
      (∃ given, callKeywords ps (initializeArguments (some ps) state eventLib structure' config none) = .ok given) →
      (∀ p ∈ ps, p.name = "active_site_order" → p.kind = .positionalOrKeyword ∨ p.kind = .keywordOnly) →
      ∃ given, callKeywords ps (initializeArguments (some ps) state eventLib structure' config (some o)) =
        .ok given) := by
  have hacc : acceptsKeyword (some ps) "active_site_order" = true ↔
      (∃ p ∈ ps, p.name = "active_site_order") ∨ TakesAnything ps := by
    unfold acceptsKeyword
    rw [Bool.or_eq_true, catchesAll_iff]
    simp
  constructor
  · rw [← hacc]
    unfold initializeArguments
    by_cases ha : acceptsKeyword (some ps) "active_site_order" = true
    · simp [ha, dictGet]
    · simp [ha, dictGet]
  · intro hpos hcall hkind
    obtain ⟨given, hg⟩ := hcall
    have hold : (TakesAnything ps ∨ ∀ n ∈ (initializeArguments (some ps) state eventLib structure' config none).map
        Prod.fst, Takes ps n) ∧
        Enough ps ((initializeArguments (some ps) state eventLib structure' config none).map Prod.fst) := by
      by_contra hnot
      rw [callKeywords_error hnot] at hg
      cases hg
    by_cases ha : acceptsKeyword (some ps) "active_site_order" = true
    · have hm : ∀ n, n ∈ (initializeArguments (some ps) state eventLib structure' config (some o)).map Prod.fst ↔
          n ∈ (initializeArguments (some ps) state eventLib structure' config none).map Prod.fst ∨
            n = "active_site_order" := by
        intro n
        simp only [initializeArguments, ha, if_true]
        simp [or_assoc]
      obtain ⟨given', hg', -⟩ := callKeywords_ok (ps := ps)
        (kwargs := initializeArguments (some ps) state eventLib structure' config (some o)) (by
          rcases hold.1 with h1 | h1
          · exact .inl h1
          · rcases hacc.1 ha with ⟨p, hp, hpn⟩ | h2
            · right
              intro n hn
              rcases (hm n).1 hn with h3 | rfl
              · exact h1 n h3
              · exact ⟨p, hp, hpn, hkind p hp hpn⟩
            · exact .inl h2) (by
          intro p hp hd
          obtain ⟨h1, h2⟩ := hold.2 p hp hd
          exact ⟨h1, fun hk => (hm _).2 (.inl (h2 hk))⟩)
      exact ⟨given', hg'⟩
    · have : initializeArguments (some ps) state eventLib structure' config (some o) =
          initializeArguments (some ps) state eventLib structure' config none := by
        simp [initializeArguments, ha]
      rw [this]
      exact ⟨given, hg⟩

/-! ### References -/

theorem takeWhile_until {sep : Char} {a b : List Char} (ha : sep ∉ a) :
    (a ++ sep :: b).takeWhile (fun c => decide (c ≠ sep)) = a ∧
      (a ++ sep :: b).dropWhile (fun c => decide (c ≠ sep)) = sep :: b := by
  induction a with
  | nil => simp
  | cons x a ih =>
    have hx : x ≠ sep := fun h => ha (by simp [h])
    obtain ⟨h1, h2⟩ := ih (fun h => ha (by simp [h]))
    constructor
    · rw [List.cons_append, List.takeWhile_cons, if_pos (by simpa using hx)]
      rw [h1]
    · rw [List.cons_append, List.dropWhile_cons, if_pos (by simpa using hx)]
      exact h2

theorem splitAt_single {sep : Char} {w : List Char} (h : sep ∉ w) : splitAt sep w = [w] := by
  induction w with
  | nil => rfl
  | cons c w ih =>
    have hc : c ≠ sep := fun e => h (by simp [e])
    simp only [splitAt, hc, if_false, ih (fun e => h (by simp [e]))]

theorem splitAt_cons {sep : Char} {w : List Char} (h : sep ∉ w) (rest : List Char) :
    splitAt sep (w ++ sep :: rest) = w :: splitAt sep rest := by
  induction w with
  | nil => simp [splitAt]
  | cons c w ih =>
    have hc : c ≠ sep := fun e => h (by simp [e])
    simp only [List.cons_append, splitAt, hc, if_false, ih (fun e => h (by simp [e]))]

/-- Names joined by dots. -/
def dotted : List (List Char) → List Char
  | [] => []
  | [w] => w
  | w :: v :: ws => w ++ '.' :: dotted (v :: ws)

theorem splitAt_dotted {ws : List (List Char)} (hne : ws ≠ []) (h : ∀ w ∈ ws, '.' ∉ w) :
    splitAt '.' (dotted ws) = ws := by
  match ws, hne with
  | [w], _ => exact splitAt_single (h w (by simp))
  | w :: v :: ws, _ =>
    rw [dotted, splitAt_cons (h w (by simp)), splitAt_dotted (by simp) (fun x hx => h x (by simp [hx]))]

section
variable {O : Type} (w : World O)

theorem follow_eq (obj : O) (names : List String) : follow w obj names = names.foldlM w.getattr obj := by
  induction names generalizing obj with
  | nil => rfl
  | cons a as ih =>
    rw [List.foldlM_cons]
    unfold follow
    cases w.getattr obj a with
    | error x => rfl
    | ok o => exact ih o

/-- C101.  A reference `module:a.b.c` names the attribute `c` of the attribute `b` of the attribute `a` of the module;
it is an error if that is not callable. -/
theorem C101_reference_colon (m : List Char) (names : List (List Char)) (hm : m ≠ []) (hc : ':' ∉ m)
    (hn : names ≠ []) (hd : ∀ n ∈ names, n ≠ [] ∧ '.' ∉ n) :
    resolve w (String.ofList (m ++ ':' :: dotted names)) =
      match w.importModule (String.ofList m) with
      | .error x => .error x
      | .ok obj =>
        match (names.map String.ofList).foldlM w.getattr obj with
        | .error x => .error x
        | .ok obj => if w.callable obj then .ok obj else .error .typeError := by
  obtain ⟨h1, h2⟩ := takeWhile_until (b := dotted names) hc
  have hdot : dotted names ≠ [] := by
    match names, hn with
    | [x], _ => exact (hd x (by simp)).1
    | x :: y :: l, _ => simp [dotted]
  have hparts : referenceParts (m ++ ':' :: dotted names) = (m, dotted names) := by
    unfold referenceParts
    rw [if_pos (by simp)]
    unfold splitFirst
    rw [h1, h2]
    rfl
  unfold resolve
  simp only [String.toList_ofList, hparts, hm, hdot, or_self, if_false]
  rw [splitAt_dotted hn (fun x hx => (hd x hx).2)]
  cases w.importModule (String.ofList m) with
  | error x => rfl
  | ok obj =>
    simp only
    rw [← follow_eq]
    cases follow w obj (names.map String.ofList) <;> rfl

/-- C101.  A reference `package.module.function` without a colon names the function of the module `package.module`. -/
theorem C101_reference_dotted (m name : List Char) (hm : m ≠ []) (hn : name ≠ []) (h1 : ':' ∉ m) (h2 : ':' ∉ name)
    (h3 : '.' ∉ name) :
    resolve w (String.ofList (m ++ '.' :: name)) =
      match w.importModule (String.ofList m) with
      | .error x => .error x
      | .ok obj =>
        match w.getattr obj (String.ofList name) with
        | .error x => .error x
        | .ok obj => if w.callable obj then .ok obj else .error .typeError := by
  have hrev : (m ++ '.' :: name).reverse = name.reverse ++ '.' :: m.reverse := by simp
  obtain ⟨g1, g2⟩ := takeWhile_until (sep := '.') (a := name.reverse) (b := m.reverse) (by simpa using h3)
  have hparts : referenceParts (m ++ '.' :: name) = (m, name) := by
    unfold referenceParts
    rw [if_neg (by simp [h1, h2])]
    unfold splitLast
    simp only [hrev, g1, g2, List.drop_succ_cons, List.drop_zero, List.reverse_reverse]
  unfold resolve
  simp only [String.toList_ofList, hparts, hm, hn, or_self, if_false]
  rw [splitAt_single h3]
  simp only [List.map_cons, List.map_nil, follow]
  cases w.importModule (String.ofList m) with
  | error x => rfl
  | ok obj =>
    simp only
    cases w.getattr obj (String.ofList name) <;> rfl

/-- C101.  A reference without module or without name is refused before anything is imported. -/
theorem C101_reference_refused (name : List Char) (h : ':' ∉ name) :
    resolve w (String.ofList (':' :: name)) = .error .valueError ∧
    resolve w (String.ofList (name ++ [':'])) = .error .valueError ∧
    ('.' ∉ name → resolve w (String.ofList name) = .error .valueError) := by
  refine ⟨?_, ?_, ?_⟩
  · unfold resolve
    rw [if_pos]
    left
    simp [referenceParts, splitFirst]
  · unfold resolve
    rw [if_pos]
    right
    obtain ⟨-, h2⟩ := takeWhile_until (b := []) h
    unfold referenceParts
    rw [String.toList_ofList, if_pos (by simp)]
    unfold splitFirst
    simp only [h2]
    rfl
  · intro hd
    unfold resolve
    rw [if_pos]
    left
    unfold referenceParts
    rw [String.toList_ofList, if_neg h]
    have : name.reverse.dropWhile (fun c => decide (c ≠ '.')) = [] := by
      have hall : ∀ l : List Char, '.' ∉ l → l.dropWhile (fun c => decide (c ≠ '.')) = [] := by
        intro l hl
        induction l with
        | nil => rfl
        | cons c l ih =>
          have hc : c ≠ '.' := fun e => hl (by simp [e])
          rw [List.dropWhile_cons, if_pos (by simpa using hc)]
          exact ih fun e => hl (by simp [e])
      exact hall _ (by simpa using hd)
    unfold splitLast
    simp only [this, List.drop_nil, List.reverse_nil]

end

/-! ### Examples -/

/-- `def delta(event, simulation_state, scale=1.0)`. -/
def deltaSignature : List Parameter :=
  [⟨"event", .positionalOrKeyword, false⟩, ⟨"simulation_state", .positionalOrKeyword, false⟩,
    ⟨"scale", .positionalOrKeyword, true⟩]

theorem delta_takes {n : String} (h : n = "event" ∨ n = "simulation_state" ∨ n = "scale") : Takes deltaSignature n := by
  rcases h with rfl | rfl | rfl
  · exact ⟨_, List.mem_cons_self .., rfl, .inl rfl⟩
  · exact ⟨_, List.mem_cons_of_mem _ (List.mem_cons_self ..), rfl, .inl rfl⟩
  · exact ⟨_, List.mem_cons_of_mem _ (List.mem_cons_of_mem _ (List.mem_cons_self ..)), rfl, .inl rfl⟩

theorem delta_not_any : ¬ TakesAnything deltaSignature := by
  rw [← catchesAll_iff]; decide

theorem delta_enough (l : List String) : Enough deltaSignature (standardNames ++ l) := by
  intro p hp hd
  simp only [deltaSignature, List.mem_cons, List.not_mem_nil, or_false] at hp
  rcases hp with rfl | rfl | rfl
  · exact ⟨by decide, fun _ => by simp [standardNames]⟩
  · exact ⟨by decide, fun _ => by simp [standardNames]⟩
  · cases hd

/-- With `compute_kwargs={"scale": 2}` the function is called with the event, the state and the user's scale, and
with nothing else; with an argument it does not take, it is not called; and as `apply_fn` it is never called, because
it does not take all five standard arguments. -/
example {Rt T : Type} (rt : Rt) (ext : List ExtVal) (cs : List OccupationChange) (e : Event) (st : State T)
    (builtin : List (String × Arg Nat Rt T) → Py (Given (Arg Nat Rt T)))
    (body : Given (Arg Nat Rt T) → Py RawEnergy) :
    (∃ given, computeFn ⟨some deltaSignature, builtin, body⟩ [("scale", 2)] rt ext cs e st = body given ∧
      dictGet given.named "event" = some (.event e) ∧ dictGet given.named "simulation_state" = some (.state st) ∧
      dictGet given.named "scale" = some (.user 2) ∧ dictGet given.named "runtime" = none) ∧
    computeFn ⟨some deltaSignature, builtin, body⟩ [("factor", 2)] rt ext cs e st = .error .typeError ∧
    applyCall ⟨some deltaSignature, builtin, body⟩ [] rt ext cs e st = .error .typeError := by
  have hnot : ∀ n, n ≠ "event" → n ≠ "simulation_state" → n ≠ "scale" → ¬ Takes deltaSignature n := by
    rintro n h1 h2 h3 ⟨p, hp, hn, -⟩
    simp only [deltaSignature, List.mem_cons, List.not_mem_nil, or_false] at hp
    rcases hp with rfl | rfl | rfl
    · exact h1 hn.symm
    · exact h2 hn.symm
    · exact h3 hn.symm
  refine ⟨?_, ?_, ?_⟩
  · obtain ⟨given, a, b, c, -⟩ := (C101_compute_called (f := ⟨some deltaSignature, builtin, body⟩)
      (kwargs := [("scale", 2)]) (rt := rt) (ext := ext) (cs := cs) (e := e) (st := st) rfl delta_not_any
      (by simp)).1 ⟨by intro n hn; simp at hn; exact delta_takes (.inr (.inr hn)), delta_enough _⟩
    refine ⟨given, a, ?_, ?_, ?_, c _ (hnot _ (by decide) (by decide) (by decide))⟩
    · rw [b _ (delta_takes (.inl rfl))]; simp [valueFor, dictGet]
    · rw [b _ (delta_takes (.inr (.inl rfl)))]; simp [valueFor, dictGet]
    · rw [b _ (delta_takes (.inr (.inr rfl)))]; simp [valueFor, dictGet]
  · refine (C101_compute_called rfl delta_not_any (by simp)).2 ?_
    rintro ⟨h, -⟩
    exact hnot "factor" (by decide) (by decide) (by decide) (h "factor" (by simp))
  · refine (C101_apply_called rfl delta_not_any).2 ?_
    rintro ⟨-, h, -⟩
    exact hnot "runtime" (by decide) (by decide) (by decide) (h "runtime" (by simp [standardNames]))

/-- `my_project.site_energy:Model.delta`. -/
example {O : Type} (w : World O) : resolve w "my_project.site_energy:Model.delta" =
    match w.importModule "my_project.site_energy" with
    | .error x => .error x
    | .ok obj =>
      match (do let model ← w.getattr obj "Model"; w.getattr model "delta") with
      | .error x => .error x
      | .ok obj => if w.callable obj then .ok obj else .error .typeError := by
  have := C101_reference_colon w "my_project.site_energy".toList ["Model".toList, "delta".toList] (by decide)
    (by decide) (by decide) (by decide)
  simp only [List.map_cons, List.map_nil, List.foldlM_cons, List.foldlM_nil, bind_pure] at this
  exact this

/-- A positional-only parameter of the name makes the call fail. -/
example : ∃ ps : List Parameter,
    (∃ given, callKeywords ps (initializeArguments (some ps) 0 1 2 3 none) = .ok given) ∧
    callKeywords ps (initializeArguments (some ps) 0 1 2 3 (some 4)) = .error .typeError :=
  ⟨[⟨"active_site_order", .positionalOnly, true⟩, ⟨"simulation_state", .keywordOnly, false⟩,
    ⟨"event_lib", .keywordOnly, true⟩, ⟨"structure", .keywordOnly, true⟩, ⟨"config", .keywordOnly, true⟩],
    ⟨_, rfl⟩, rfl⟩

end KMC
