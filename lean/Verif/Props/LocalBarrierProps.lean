import Verif.Lemmas.LocalBarrierFile
import Verif.Props.TrackerRunProps
import Mathlib.Analysis.SpecialFunctions.Log.Basic
/-
C31-C35, C65, C66: local barrier models.
-/
namespace KMC
open LocalBarrier Spec

/-! ### C31: the first matching rule decides -/

theorem barrierFirstMatch_some {m : LocalBarrierModel} {occ : List Int} {e : Event} {rules : List Rule}
    {p : Properties} (h : m.firstMatch occ e rules = .ok (some p)) :
    ∃ (i : Nat) (r : Rule), rules[i]? = some r ∧ Describes m.siteSpecies occ e r ∧
      (∀ (j : Nat) (q : Rule), j < i → rules[j]? = some q → ¬ Describes m.siteSpecies occ e q) ∧
      r.props = p := by
  induction rules with
  | nil => cases h
  | cons r rules ih =>
    simp only [LocalBarrierModel.firstMatch] at h
    split at h
    · cases h
    · rename_i hm
      cases h
      exact ⟨0, r, rfl, (ruleMatches_ok hm).1 rfl, by intro j q hj; omega, rfl⟩
    · rename_i hm
      obtain ⟨i, q, h1, h2, h3, h4⟩ := ih h
      refine ⟨i + 1, q, by simpa using h1, h2, ?_, h4⟩
      intro j q' hj hq'
      cases j with
      | zero =>
        simp only [List.getElem?_cons_zero, Option.some.injEq] at hq'
        subst hq'
        intro hd
        exact absurd ((ruleMatches_ok hm).2 hd) (by simp)
      | succ j => exact h3 j q' (by omega) (by simpa using hq')

theorem barrierFirstMatch_none {m : LocalBarrierModel} {occ : List Int} {e : Event} {rules : List Rule}
    (h : m.firstMatch occ e rules = .ok none) : ∀ r ∈ rules, ¬ Describes m.siteSpecies occ e r := by
  induction rules with
  | nil => simp
  | cons r rules ih =>
    simp only [LocalBarrierModel.firstMatch] at h
    split at h
    · cases h
    · cases h
    · rename_i hm
      intro q hq
      rcases List.mem_cons.1 hq with rfl | hq
      · intro hd
        exact absurd ((ruleMatches_ok hm).2 hd) (by simp)
      · exact ih h q hq

/-- C31.  A computed property is the one of the earliest rule that describes the event in the
current configuration; if none does it is the default's. -/
theorem C31_first_match_decides (m : LocalBarrierModel) (occ : List Int) (e : Event)
    (property : String) (v : PyFloat) (h : m.compute occ e property = .ok v) :
    let wanted := if property = "" then m.defaultProperty else property
    (∃ (i : Nat) (r : Rule), m.rules[i]? = some r ∧ Describes m.siteSpecies occ e r ∧
      (∀ (j : Nat) (q : Rule), j < i → m.rules[j]? = some q → ¬ Describes m.siteSpecies occ e q) ∧
      dictGet r.props wanted = some v) ∨
    ((∀ r ∈ m.rules, ¬ Describes m.siteSpecies occ e r) ∧
      ∃ d, m.defaultProperties = some d ∧ dictGet d wanted = some v) := by
  unfold LocalBarrierModel.compute at h
  split at h
  · cases h
  · rename_i ps hps
    split at h
    · cases h
    · rename_i w hw
      cases h
      unfold LocalBarrierModel.matchedProperties at hps
      split at hps
      · cases hps
      · rename_i p hp
        cases hps
        obtain ⟨i, r, h1, h2, h3, h4⟩ := barrierFirstMatch_some hp
        exact Or.inl ⟨i, r, h1, h2, h3, by rw [h4]; exact hw⟩
      · rename_i hp
        split at hps
        · rename_i d hd
          cases hps
          exact Or.inr ⟨barrierFirstMatch_none hp, _, hd, hw⟩
        · split at hps
          · cases hps
          · split at hps <;> cases hps

/-- C31.  If no rule describes the event and there is no default, the call raises. -/
theorem C31_no_match_raises (m : LocalBarrierModel) (occ : List Int) (e : Event) (property : String)
    (hn : ∀ r ∈ m.rules, ¬ Describes m.siteSpecies occ e r) (hd : m.defaultProperties = none) :
    ∃ x, m.compute occ e property = .error x := by
  cases h : m.compute occ e property with
  | error x => exact ⟨x, rfl⟩
  | ok v =>
    rcases C31_first_match_decides m occ e property v h with ⟨i, r, h1, h2, -⟩ | ⟨-, d, h1, -⟩
    · exact absurd h2 (hn r (List.mem_of_getElem? h1))
    · rw [hd] at h1; cases h1

theorem barrierFirstMatch_of_first {m : LocalBarrierModel} {occ : List Int} {e : Event} {rules : List Rule}
    (i : Nat) (r : Rule) (hi : rules[i]? = some r)
    (hev : ∀ (j : Nat) (q : Rule), j ≤ i → rules[j]? = some q → Evaluable m.siteSpecies occ e q)
    (hd : Describes m.siteSpecies occ e r)
    (hbefore : ∀ (j : Nat) (q : Rule), j < i → rules[j]? = some q → ¬ Describes m.siteSpecies occ e q) :
    m.firstMatch occ e rules = .ok (some r.props) := by
  induction rules generalizing i with
  | nil => cases hi
  | cons q rules ih =>
    simp only [LocalBarrierModel.firstMatch]
    obtain ⟨b, hb⟩ := ruleMatches_total (m := m) (hev 0 q (by omega) rfl)
    rw [hb]
    cases i with
    | zero =>
      simp only [List.getElem?_cons_zero, Option.some.injEq] at hi
      subst hi
      rw [(ruleMatches_ok hb).2 hd]
    | succ i =>
      have hbf : b = false := by
        cases b with
        | false => rfl
        | true => exact absurd ((ruleMatches_ok hb).1 rfl) (hbefore 0 q (by omega) rfl)
      subst hbf
      exact ih i (by simpa using hi) (fun j q' hj hq' => hev (j + 1) q' (by omega) (by simpa using hq'))
        (fun j q' hj hq' => hbefore (j + 1) q' (by omega) (by simpa using hq'))

theorem barrierFirstMatch_of_none {m : LocalBarrierModel} {occ : List Int} {e : Event} {rules : List Rule}
    (hev : ∀ q ∈ rules, Evaluable m.siteSpecies occ e q)
    (hn : ∀ q ∈ rules, ¬ Describes m.siteSpecies occ e q) :
    m.firstMatch occ e rules = .ok none := by
  induction rules with
  | nil => rfl
  | cons q rules ih =>
    simp only [LocalBarrierModel.firstMatch]
    obtain ⟨b, hb⟩ := ruleMatches_total (m := m) (hev q (by simp))
    rw [hb]
    cases b with
    | false => exact ih (fun q' h => hev q' (by simp [h])) (fun q' h => hn q' (by simp [h]))
    | true => exact absurd ((ruleMatches_ok hb).1 rfl) (hn q (by simp))

/-- C31.  Conversely, when the rules up to the first describing one can be evaluated, its
property is what the call returns. -/
theorem C31_first_match_is_used (m : LocalBarrierModel) (occ : List Int) (e : Event)
    (property : String) (v : PyFloat) (i : Nat) (r : Rule) (hi : m.rules[i]? = some r)
    (hev : ∀ (j : Nat) (q : Rule), j ≤ i → m.rules[j]? = some q → Evaluable m.siteSpecies occ e q)
    (hd : Describes m.siteSpecies occ e r)
    (hbefore : ∀ (j : Nat) (q : Rule), j < i → m.rules[j]? = some q →
      ¬ Describes m.siteSpecies occ e q)
    (hv : dictGet r.props (if property = "" then m.defaultProperty else property) = some v) :
    m.compute occ e property = .ok v := by
  unfold LocalBarrierModel.compute LocalBarrierModel.matchedProperties
  rw [barrierFirstMatch_of_first i r hi hev hd hbefore]
  simp only [hv]

/-- C31.  And when no rule describes the event, the default's property is returned. -/
theorem C31_default_is_used (m : LocalBarrierModel) (occ : List Int) (e : Event)
    (property : String) (v : PyFloat) (d : Properties)
    (hev : ∀ q ∈ m.rules, Evaluable m.siteSpecies occ e q)
    (hn : ∀ q ∈ m.rules, ¬ Describes m.siteSpecies occ e q)
    (hd : m.defaultProperties = some d)
    (hv : dictGet d (if property = "" then m.defaultProperty else property) = some v) :
    m.compute occ e property = .ok v := by
  unfold LocalBarrierModel.compute LocalBarrierModel.matchedProperties
  rw [barrierFirstMatch_of_none hev hn, hd]
  simp only [hv]

theorem ruleMatches_species {m m' : LocalBarrierModel} (h : m'.siteSpecies = m.siteSpecies)
    (r : Rule) (occ : List Int) (e : Event) : m'.ruleMatches r occ e = m.ruleMatches r occ e := by
  have hc : ∀ names l, m'.speciesCountOf names l = m.speciesCountOf names l := by
    intro names l
    induction l with
    | nil => rfl
    | cons p l ih =>
      simp only [LocalBarrierModel.speciesCountOf, LocalBarrierModel.speciesForSite, h, ih]
  unfold LocalBarrierModel.ruleMatches
  simp only [hc]

theorem barrierFirstMatch_append {m m' : LocalBarrierModel} (h : m'.siteSpecies = m.siteSpecies)
    {occ : List Int} {e : Event} {rules : List Rule} {p : Properties} (more : List Rule)
    (hm : m.firstMatch occ e rules = .ok (some p)) :
    m'.firstMatch occ e (rules ++ more) = .ok (some p) := by
  induction rules with
  | nil => cases hm
  | cons r rules ih =>
    simp only [LocalBarrierModel.firstMatch, List.cons_append, ruleMatches_species h] at hm ⊢
    split at hm
    · cases hm
    · exact hm
    · exact ih hm

theorem addRule_rules (m : LocalBarrierModel) (v : PyVal) :
    ∃ more, (m.addRule v).2.rules = m.rules ++ more ∧ (m.addRule v).2.siteSpecies = m.siteSpecies ∧
      (m.addRule v).2.defaultProperty = m.defaultProperty := by
  unfold LocalBarrierModel.addRule
  split
  · exact ⟨[], by simp, rfl, rfl⟩
  · rename_i r _
    split
    · exact ⟨[r], rfl, rfl, rfl⟩
    · split
      · exact ⟨[], by simp, rfl, rfl⟩
      · exact ⟨[r], rfl, rfl, rfl⟩

theorem addRules_rules (m : LocalBarrierModel) (l : List PyVal) :
    ∃ more, (m.addRules l).2.rules = m.rules ++ more ∧ (m.addRules l).2.siteSpecies = m.siteSpecies ∧
      (m.addRules l).2.defaultProperty = m.defaultProperty := by
  induction l generalizing m with
  | nil => exact ⟨[], by simp [LocalBarrierModel.addRules], rfl, rfl⟩
  | cons v l ih =>
    obtain ⟨more, h1, h2, h3⟩ := addRule_rules m v
    unfold LocalBarrierModel.addRules
    rcases hx : m.addRule v with ⟨r, m'⟩
    rw [hx] at h1 h2 h3
    cases r with
    | error x => exact ⟨more, h1, h2, h3⟩
    | ok u =>
      obtain ⟨more', g1, g2, g3⟩ := ih m'
      simp only at h1 h2 h3
      exact ⟨more ++ more', by simp [g1, h1], g2.trans h2, g3.trans h3⟩

/-- C31.  Adding any sequence of further rules, accepted or rejected, after a rule that
describes the event never changes the result. -/
theorem C31_later_rules_irrelevant (m : LocalBarrierModel) (occ : List Int) (e : Event)
    (property : String) (v : PyFloat) (h : m.compute occ e property = .ok v)
    (hd : ∃ r ∈ m.rules, Describes m.siteSpecies occ e r) (added : List PyVal) :
    (m.addRules added).2.compute occ e property = .ok v := by
  obtain ⟨more, h1, h2, h3⟩ := addRules_rules m added
  unfold LocalBarrierModel.compute at h ⊢
  cases hps : m.matchedProperties occ e with
  | error x => rw [hps] at h; cases h
  | ok ps =>
    rw [hps] at h
    have : (m.addRules added).2.matchedProperties occ e = .ok ps := by
      unfold LocalBarrierModel.matchedProperties at hps ⊢
      rw [h1]
      split at hps
      · cases hps
      · rename_i p hp
        cases hps
        rw [barrierFirstMatch_append h2 more hp]
      · rename_i hp
        obtain ⟨r, hr, hdr⟩ := hd
        exact absurd hdr (barrierFirstMatch_none hp r hr)
    rw [this, h3]
    exact h

/-! ### C32: what a rule matches -/

/-- C32.  Whenever a rule can be evaluated for an event, it is used exactly if it describes the
event: a model with this rule alone returns its properties if it does and raises `KeyError` if
it does not. -/
theorem C32_rule_applies_iff_describes (m : LocalBarrierModel) (r : Rule) (occ : List Int) (e : Event)
    (hr : m.rules = [r]) (hd : m.defaultProperties = none)
    (hev : Evaluable m.siteSpecies occ e r) :
    (Describes m.siteSpecies occ e r → m.matchedProperties occ e = .ok r.props) ∧
    (¬ Describes m.siteSpecies occ e r → m.matchedProperties occ e = .error .keyError) := by
  unfold LocalBarrierModel.matchedProperties
  constructor
  · intro h
    rw [barrierFirstMatch_of_first 0 r (by rw [hr]; rfl) _ h (by intro j q hj; omega)]
    intro j q hj hq
    have : j = 0 := by omega
    subst this
    rw [hr] at hq
    simp only [List.getElem?_cons_zero, Option.some.injEq] at hq
    subst hq; exact hev
  · intro h
    rw [barrierFirstMatch_of_none (by rw [hr]; simpa using hev) (by rw [hr]; simpa using h), hd]
    simp only
    have hm : e.mobile ≠ [] := by
      intro hc; have := hev.1; rw [hc] at this; simp at this
    rw [eventIndices_eq hm]
    simp only
    obtain ⟨p, hp⟩ := occupationPattern_total (occ := occ)
      (sites := (e.mobile ++ e.env).eraseDups) (fun i hi => hev.2.1 i (List.mem_eraseDups.1 hi))
    rw [hp]

/-- C32.  Even without these preconditions, a rule never claims an event wrongly: if its
evaluation does not raise, its answer is right. -/
theorem C32_answer_is_right (m : LocalBarrierModel) (r : Rule) (occ : List Int) (e : Event) (b : Bool)
    (h : m.ruleMatches r occ e = .ok b) : b = true ↔ Describes m.siteSpecies occ e r :=
  ruleMatches_ok h

/-- C32.  Count rules do not depend on the order in which the sites are listed. -/
theorem C32_counts_ignore_order (table : List (Int × List (Int × String))) (occ : List Int)
    (e e' : Event) (r r' : Rule) (s s' : Sites)
    (hm : (∀ l, r.mobile = some l → e.mobile = l) ↔ (∀ l, r'.mobile = some l → e'.mobile = l))
    (he : (∀ l, r.env = some l → e.env = l) ↔ (∀ l, r'.env = some l → e'.env = l))
    (hk : (∃ v c, r.kind = .stateCount s v c ∧ r'.kind = .stateCount s' v c) ∨
      (∃ names c, r.kind = .speciesCount s names c ∧ r'.kind = .speciesCount s' names c))
    (hp : (selection occ.length e s).Perm (selection occ.length e' s')) :
    Describes table occ e r ↔ Describes table occ e' r' := by
  have key : ∀ {R : Int → Int → Prop} {l l' : List Int} {v : Int} {c : CountSpec}, l.Perm l' →
      (∃ states, List.Forall₂ R l states ∧ Within c (states.count v)) →
      ∃ states, List.Forall₂ R l' states ∧ Within c (states.count v) := by
    rintro R l l' v c hl ⟨st, h1, h2⟩
    obtain ⟨st', g1, g2⟩ := List.perm_comp_forall₂ hl.symm h1
    exact ⟨st', g1, by rw [g2.count_eq]; exact h2⟩
  have key2 : ∀ {R : Int → String → Prop} {l l' : List Int} {f : String → Bool} {c : CountSpec},
      l.Perm l' → (∃ states, List.Forall₂ R l states ∧ Within c (states.countP f)) →
      ∃ states, List.Forall₂ R l' states ∧ Within c (states.countP f) := by
    rintro R l l' f c hl ⟨st, h1, h2⟩
    obtain ⟨st', g1, g2⟩ := List.perm_comp_forall₂ hl.symm h1
    exact ⟨st', g1, by rw [g2.countP_eq]; exact h2⟩
  unfold Describes
  rw [hm, he]
  rcases hk with ⟨v, c, h1, h2⟩ | ⟨names, c, h1, h2⟩
  · rw [h1, h2]
    exact ⟨fun ⟨a, b, h⟩ => ⟨a, b, key hp h⟩, fun ⟨a, b, h⟩ => ⟨a, b, key hp.symm h⟩⟩
  · rw [h1, h2]
    exact ⟨fun ⟨a, b, h⟩ => ⟨a, b, key2 hp h⟩, fun ⟨a, b, h⟩ => ⟨a, b, key2 hp.symm h⟩⟩

/-- C32.  A rule naming endpoints or an environment is used for no other event. -/
theorem C32_event_constraints (table : List (Int × List (Int × String))) (occ : List Int)
    (e : Event) (r : Rule) (h : Describes table occ e r) :
    (∀ l, r.mobile = some l → e.mobile = l) ∧ (∀ l, r.env = some l → e.env = l) :=
  ⟨h.1, h.2.1⟩

/-- The rules of a model after a successful `add_rule` of a rule without exact key. -/
theorem addRule_of_normalize {m : LocalBarrierModel} {v : PyVal} {r : Rule}
    (h : normalizeRule v ("rule_" ++ intStr m.rules.length) = .ok r)
    (hk : LocalBarrierModel.exactKey r = none) :
    m.addRule v = (.ok (), { m with rules := m.rules ++ [r] }) := by
  unfold LocalBarrierModel.addRule
  rw [h]
  simp only [hk]

theorem propertiesFromRule_of {d : List (String × PyVal)} {b : PyFloat}
    (h1 : dictGet d "properties" = some (.dict [])) (h2 : dictGet d "barrier" = some (.float b)) :
    propertiesFromRule d = .ok [("barrier", b)] := by
  have : notBlank "barrier" = true := by decide
  unfold propertiesFromRule
  rw [h1, h2]
  simp [numeric, setDefault, dictGet, normalizeProperties, propertiesOf, this]

theorem normalizeRule_of {d : List (String × PyVal)} {n name : String} {t : RuleType}
    {ps : Properties} {k : Kind} {mob env : Option (List Int)} (h1 : coerceType d = .ok t)
    (h2 : propertiesFromRule d = .ok ps) (h3 : optIndices d "mobile_ion_indices" false = .ok mob)
    (h4 : optIndices d "local_env_indices" true = .ok env) (h5 : normalizeKind d t = .ok k)
    (h6 : ruleName d n = name) :
    normalizeRule (.dict d) n = .ok ⟨name, k, ps, mob, env⟩ := by
  unfold normalizeRule
  simp only [h1, h2, h3, h4, h5, h6]

/-- C32.  `add_state_count_rule` appends the rule its arguments spell out. -/
theorem C32_added_state_count (m : LocalBarrierModel) (state : Int) (b : PyFloat) (name : String)
    (s : Sites) (c : CountSpec) (hstate : 0 ≤ state) (hname : name ≠ "") (hs : SitesWF s)
    (hc : CountsWF c) :
    m.addStateCountRule (.int state) (some (.float b)) [] (some name) s.toVal (c.count.map .int)
      (c.minCount.map .int) (c.maxCount.map .int) =
    (.ok (), { m with rules := m.rules ++
      [⟨name, .stateCount s state c, [("barrier", b)], none, none⟩] }) := by
  unfold LocalBarrierModel.addStateCountRule
  refine addRule_of_normalize (normalizeRule_of (t := .stateCount) ?_ (propertiesFromRule_of ?_ ?_)
    ?_ ?_ ?_ ?_) rfl
  · exact coerceType_of (k := .stateCount s state c) (by simp [dictGet, Kind.typeName])
  · simp [dictGet]
  · simp [dictGet, LocalBarrierModel.commonKeys, optKey]
  · unfold optIndices
    simp [dictGet, dictGet_append, dictGet_optKey, LocalBarrierModel.commonKeys,
      LocalBarrierModel.countArgs]
  · unfold optIndices
    simp [dictGet, dictGet_append, dictGet_optKey, LocalBarrierModel.commonKeys,
      LocalBarrierModel.countArgs]
  · have e4 : normalizeCounts ([("type", .str "state_count"), ("sites", s.toVal),
        ("state", .int state), ("properties", .dict [])] ++
        LocalBarrierModel.commonKeys (some (.float b)) (some name) ++
        LocalBarrierModel.countArgs (c.count.map .int) (c.minCount.map .int) (c.maxCount.map .int)) =
        .ok c := by
      apply normalizeCounts_of hc <;>
        simp [dictGet, dictGet_append, dictGet_optKey, LocalBarrierModel.commonKeys,
          LocalBarrierModel.countArgs]
    have e1 : dictGet ([("type", .str "state_count"), ("sites", s.toVal),
        ("state", .int state), ("properties", .dict [])] ++
        LocalBarrierModel.commonKeys (some (.float b)) (some name) ++
        LocalBarrierModel.countArgs (c.count.map .int) (c.minCount.map .int) (c.maxCount.map .int))
        "occupation" = none := by
      simp [dictGet, dictGet_append, dictGet_optKey, LocalBarrierModel.commonKeys,
        LocalBarrierModel.countArgs]
    simp only [normalizeKind, e4, e1]
    have hlt : ¬ state < 0 := by omega
    simp [dictGet, normalizeSites_toVal hs, normalizeState, hlt]
  · simp [ruleName, dictGet, dictGet_append, dictGet_optKey, LocalBarrierModel.commonKeys, hname]

/-- C32.  `add_species_count_rule` appends the rule its arguments spell out. -/
theorem C32_added_species_count (m : LocalBarrierModel) (species : List String) (b : PyFloat)
    (name : String) (s : Sites) (c : CountSpec) (hsp : species ≠ [])
    (hblank : ∀ x ∈ species, notBlank x = true) (hname : name ≠ "")
    (hs : SitesWF s) (hc : CountsWF c) :
    m.addSpeciesCountRule (speciesVal species) (some (.float b)) [] (some name) s.toVal
      (c.count.map .int) (c.minCount.map .int) (c.maxCount.map .int) =
    (.ok (), { m with rules := m.rules ++
      [⟨name, .speciesCount s species c, [("barrier", b)], none, none⟩] }) := by
  unfold LocalBarrierModel.addSpeciesCountRule
  refine addRule_of_normalize (normalizeRule_of (t := .speciesCount) ?_ (propertiesFromRule_of ?_ ?_)
    ?_ ?_ ?_ ?_) rfl
  · exact coerceType_of (k := .speciesCount s species c) (by simp [dictGet, Kind.typeName])
  · simp [dictGet]
  · simp [dictGet, LocalBarrierModel.commonKeys, optKey]
  · unfold optIndices
    simp [dictGet, dictGet_append, dictGet_optKey, LocalBarrierModel.commonKeys,
      LocalBarrierModel.countArgs]
  · unfold optIndices
    simp [dictGet, dictGet_append, dictGet_optKey, LocalBarrierModel.commonKeys,
      LocalBarrierModel.countArgs]
  · have e4 : normalizeCounts ([("type", .str "species_count"), ("sites", s.toVal),
        ("species", speciesVal species), ("properties", .dict [])] ++
        LocalBarrierModel.commonKeys (some (.float b)) (some name) ++
        LocalBarrierModel.countArgs (c.count.map .int) (c.minCount.map .int) (c.maxCount.map .int)) =
        .ok c := by
      apply normalizeCounts_of hc <;>
        simp [dictGet, dictGet_append, dictGet_optKey, LocalBarrierModel.commonKeys,
          LocalBarrierModel.countArgs]
    simp only [normalizeKind, e4]
    simp [dictGet, normalizeSites_toVal hs, normalizeSpecies_val hsp fun _ => hblank]
  · simp [ruleName, dictGet, dictGet_append, dictGet_optKey, LocalBarrierModel.commonKeys, hname]

/-- C32.  `add_pattern_rule` appends the rule its arguments spell out. -/
theorem C32_added_pattern (m : LocalBarrierModel) (p : List (Option Int)) (b : PyFloat)
    (name : String) (s : Sites) (hp : p ≠ []) (hnn : ∀ v, some v ∈ p → (0 : Int) ≤ v)
    (hname : name ≠ "") (hs : SitesWF s) :
    m.addPatternRule (p.map patternVal) (some (.float b)) [] (some name) s.toVal =
    (.ok (), { m with rules := m.rules ++
      [⟨name, .pattern s p, [("barrier", b)], none, none⟩] }) := by
  unfold LocalBarrierModel.addPatternRule
  refine addRule_of_normalize (normalizeRule_of (t := .pattern) ?_ (propertiesFromRule_of ?_ ?_)
    ?_ ?_ ?_ ?_) rfl
  · exact coerceType_of (k := .pattern s p) (by simp [dictGet, Kind.typeName])
  · simp [dictGet]
  · simp [dictGet, LocalBarrierModel.commonKeys, optKey]
  · unfold optIndices
    simp [dictGet, dictGet_optKey, dictGet_append, LocalBarrierModel.commonKeys]
  · unfold optIndices
    simp [dictGet, dictGet_optKey, dictGet_append, LocalBarrierModel.commonKeys]
  · simp [normalizeKind, dictGet, normalizeSites_toVal hs, normalizePattern_list hp hnn]
  · simp [ruleName, dictGet, dictGet_optKey, dictGet_append, LocalBarrierModel.commonKeys, hname]

/-- C32.  `add_exact_rule` appends the rule its arguments spell out, unless an exact rule for
the same endpoints, the same distinct sites and the same states is already there. -/
theorem C32_added_exact (m : LocalBarrierModel) (mob env occ : List Int) (b : PyFloat)
    (name : String) (hmob : mob ≠ []) (hocc : ∀ v ∈ occ, (0 : Int) ≤ v)
    (hlen : occ.length = (mob ++ env).eraseDups.length) (hname : name ≠ "") :
    m.addExactRule (mob.map .int) (env.map .int) (occ.map .int) (some (.float b)) [] (some name) =
    if (mob, (mob ++ env).eraseDups, occ) ∈ m.exactKeys then (.error .valueError, m)
    else (.ok (), { m with
      rules := m.rules ++
        [⟨name, .exact occ (mob ++ env).eraseDups, [("barrier", b)], some mob, some env⟩]
      exactKeys := m.exactKeys ++ [(mob, (mob ++ env).eraseDups, occ)] }) := by
  have hocc0 : occ ≠ [] := by
    rintro rfl
    cases mob with
    | nil => exact hmob rfl
    | cons a l => rw [List.cons_append, List.eraseDups_cons] at hlen; simp at hlen
  have hn : normalizeRule (.dict ([("type", .str "exact"), ("mobile_ion_indices", .list (mob.map .int)),
      ("local_env_indices", .list (env.map .int)), ("occupations", .list (occ.map .int)),
      ("properties", .dict [])] ++ LocalBarrierModel.commonKeys (some (.float b)) (some name)))
      ("rule_" ++ intStr m.rules.length) = .ok
        ⟨name, .exact occ (mob ++ env).eraseDups, [("barrier", b)], some mob, some env⟩ := by
    refine normalizeRule_of (t := .exact) ?_ (propertiesFromRule_of ?_ ?_) ?_ ?_ ?_ ?_
    · exact coerceType_of (k := .exact occ []) (by simp [dictGet, Kind.typeName])
    · simp [dictGet]
    · simp [dictGet, LocalBarrierModel.commonKeys, optKey]
    · unfold optIndices
      simp [dictGet, normalizeIndices_list (b := false) (Or.inr hmob)]
    · unfold optIndices
      simp [dictGet, normalizeIndices_list (b := true) (l := env) (Or.inl rfl)]
    · simp [normalizeKind, dictGet, normalizeIndices_list (b := false) (Or.inr hmob),
        normalizeIndices_list (b := true) (l := env) (Or.inl rfl), normalizeOccupations_list hocc0 hocc,
        canonicalSites_eq, hlen]
    · simp [ruleName, dictGet, dictGet_optKey, dictGet_append, LocalBarrierModel.commonKeys, hname]
  unfold LocalBarrierModel.addExactRule LocalBarrierModel.addRule
  rw [hn]
  simp [LocalBarrierModel.exactKey]

/-- C32.  The named states stand for the documented numbers, whatever the capitalisation and
surrounding blanks. -/
theorem C32_state_words (s : String) :
    (pyLower (pyStrip s) ∈ ["occupied", "match", "template"] → normalizeState (.str s) = .ok 0) ∧
    (pyLower (pyStrip s) ∈ ["vacant", "vacancy", "mismatch", "other"] →
      normalizeState (.str s) = .ok 1) := by
  have key : ∀ n, dictGet stateAliases (pyLower (pyStrip s)) = some n →
      normalizeState (.str s) = .ok n := by
    intro n h
    simp only [normalizeState, h]
  constructor <;> intro h <;> apply key <;> revert h <;> generalize pyLower (pyStrip s) = w <;>
    intro h <;> simp only [List.mem_cons, List.not_mem_nil, or_false] at h
  · rcases h with rfl | rfl | rfl <;> decide
  · rcases h with rfl | rfl | rfl | rfl <;> decide

/-- C32.  The duplicate check also rejects an exact rule for other events than the one already
present: the environments `[2]` and `[0, 2]` of the hop `0 → 1` have the same distinct sites. -/
theorem C32_duplicate_check_too_strict :
    ∃ (m m' : LocalBarrierModel) (r : Rule),
      LocalBarrierModel.init none "m" none none "barrier" "barrier_arrhenius" "barrier" .none =
        .ok m ∧
      m.addExactRule [.int 0, .int 1] [.int 2] [.int 0, .int 1, .int 0]
        (some (.float (.fin 300))) [] (some "a") = (.ok (), m') ∧
      m'.rules = [r] ∧ (∀ table occ e, e.env = [0, 2] → ¬ Describes table occ e r) ∧
      (m'.addExactRule [.int 0, .int 1] [.int 0, .int 2] [.int 0, .int 1, .int 0]
        (some (.float (.fin 300))) [] (some "b")).1 = .error .valueError := by
  have hd : ([0, 1] ++ [2] : List Int).eraseDups = [0, 1, 2] := by decide
  have hd' : ([0, 1] ++ [0, 2] : List Int).eraseDups = [0, 1, 2] := by decide
  refine ⟨_, _, _, rfl, C32_added_exact _ [0, 1] [2] [0, 1, 0] (.fin 300) "a" (by simp) (by simp)
    (by decide) (by decide), rfl, ?_, ?_⟩
  · intro table occ e he h
    have := h.2.1 _ rfl
    rw [he] at this
    exact absurd this (by decide)
  · have := C32_added_exact ⟨"m", "barrier", "barrier_arrhenius", "barrier", [], none,
      [⟨"a", .exact [0, 1, 0] [0, 1, 2], [("barrier", .fin 300)], some [0, 1], some [2]⟩],
      [([0, 1], [0, 1, 2], [0, 1, 0])]⟩ [0, 1] [0, 2] [0, 1, 0] (.fin 300) "b" (by simp) (by simp)
      (by decide) (by decide)
    rw [hd', if_pos (by simp)] at this
    exact congrArg Prod.fst this

/-! ### C33: serialisation -/

/-- How a model comes about: constructed from arguments, then any number of `add_rule` and
`build` calls, successful or not. -/
inductive LocalBarrierModel.Made : LocalBarrierModel → Prop
  | init {rules dp db : Option PyVal} {name dpr mode pp : String} {ss : PyVal}
      {m : LocalBarrierModel} (h : LocalBarrierModel.init rules name dp db dpr mode pp ss = .ok m) :
      Made m
  | addRule {m : LocalBarrierModel} (h : Made m) (v : PyVal) : Made (m.addRule v).2
  | build {m : LocalBarrierModel} (h : Made m) (v : Option PyVal) : Made (m.build v).2

theorem LocalBarrierModel.Made.wf {m : LocalBarrierModel} (h : m.Made) : m.WF := by
  induction h with
  | init h => exact LocalBarrierModel.init_wf h
  | addRule h v ih => exact LocalBarrierModel.addRule_wf ih v
  | build h v ih => exact LocalBarrierModel.build_wf ih v

theorem json_strs (l : List Int) : PyVal.jsonList (l.map .int) = l.map .int := by
  induction l with
  | nil => rfl
  | cons a l ih => simp [PyVal.jsonList, PyVal.json, ih]

theorem jsonDict_floats (p : Properties) :
    PyVal.jsonDict (p.map fun q => (q.1, .float q.2)) = p.map fun q => (q.1, .float q.2) := by
  induction p with
  | nil => rfl
  | cons a l ih => simp [PyVal.jsonDict, PyVal.json, ih]

theorem jsonDict_append (a b : List (String × PyVal)) :
    PyVal.jsonDict (a ++ b) = PyVal.jsonDict a ++ PyVal.jsonDict b := by
  induction a with
  | nil => rfl
  | cons p a ih => obtain ⟨k, v⟩ := p; simp [PyVal.jsonDict, ih]

theorem jsonDict_optInts (k : String) (o : Option (List Int)) :
    PyVal.jsonDict (optKey k (o.map fun l => .list (l.map .int))) =
      optKey k (o.map fun l => .list (l.map .int)) := by
  cases o with
  | none => rfl
  | some l => simp [optKey, PyVal.jsonDict, PyVal.json, json_strs]

theorem jsonDict_optInt (k : String) (o : Option Int) :
    PyVal.jsonDict (optKey k (o.map .int)) = optKey k (o.map .int) := by
  cases o <;> rfl

theorem json_sites (s : Sites) : s.toVal.json = s.toVal := by
  cases s <;> simp [Sites.toVal, PyVal.json, json_strs]

theorem json_pattern (p : List (Option Int)) :
    PyVal.jsonList (p.map patternVal) = p.map patternVal := by
  induction p with
  | nil => rfl
  | cons a l ih => cases a <;> simp [PyVal.jsonList, PyVal.json, patternVal, ih]

theorem json_species (l : List String) : (speciesVal l).json = speciesVal l := by
  have : ∀ l : List String, PyVal.jsonList (l.map .str) = l.map .str := by
    intro l
    induction l with
    | nil => rfl
    | cons a l ih => simp [PyVal.jsonList, PyVal.json, ih]
  unfold speciesVal
  split
  · rfl
  · simp [PyVal.json, this]

theorem jsonDict_rule (r : Rule) : PyVal.jsonDict r.asDict = r.asDict := by
  unfold Rule.asDict
  simp only [jsonDict_append, jsonDict_optInts]
  congr 1
  · simp [PyVal.jsonDict, PyVal.json, jsonDict_floats]
  · cases r.kind with
    | constant => rfl
    | exact occ c => simp [PyVal.jsonDict, PyVal.json, json_strs]
    | pattern s p => simp [PyVal.jsonDict, PyVal.json, json_pattern, json_sites]
    | stateCount s v c =>
      simp only [jsonDict_append, countKeys, jsonDict_optInt]
      simp [PyVal.jsonDict, PyVal.json, json_sites]
    | speciesCount s v c =>
      simp only [jsonDict_append, countKeys, jsonDict_optInt]
      simp [PyVal.jsonDict, json_sites, json_species]

theorem json_model (m : LocalBarrierModel) : (PyVal.dict m.asDict).json = .dict m.asDict := by
  have h1 : (LocalBarrierModel.propsVal m.defaultProperties).json =
      LocalBarrierModel.propsVal m.defaultProperties := by
    cases m.defaultProperties with
    | none => rfl
    | some p => simp [LocalBarrierModel.propsVal, PyVal.json, jsonDict_floats]
  have h2 : (siteSpeciesAsDict m.siteSpecies).json = siteSpeciesAsDict m.siteSpecies := by
    have hi : ∀ l : List (Int × String), PyVal.jsonDict (l.map fun q => (intStr q.1, .str q.2)) =
        l.map fun q => (intStr q.1, .str q.2) := by
      intro l
      induction l with
      | nil => rfl
      | cons a l ih => simp [PyVal.jsonDict, PyVal.json, ih]
    simp only [siteSpeciesAsDict, PyVal.json]
    congr 1
    induction m.siteSpecies with
    | nil => rfl
    | cons a l ih => simp [PyVal.jsonDict, PyVal.json, ih, hi]
  have h3 : PyVal.jsonList (m.rules.map fun r => .dict r.asDict) =
      m.rules.map fun r => .dict r.asDict := by
    induction m.rules with
    | nil => rfl
    | cons a l ih => simp [PyVal.jsonList, PyVal.json, jsonDict_rule, ih]
  simp only [LocalBarrierModel.asDict, PyVal.json, PyVal.jsonDict, h1, h2, h3]

/-- C33.  A model that can be used for rates at all (its probability mode is the supported one)
is restored exactly by `from_dict(as_dict())`, whatever its history. -/
theorem C33_dict_round_trip (m : LocalBarrierModel) (h : m.Made)
    (hm : m.probabilityMode = LocalBarrierModel.supportedMode) :
    LocalBarrierModel.fromDict (.dict m.asDict) = .ok m :=
  LocalBarrierModel.fromDict_asDict h.wf hm

/-- C33.  The same through a model file. -/
theorem C33_file_round_trip (m : LocalBarrierModel) (h : m.Made)
    (hm : m.probabilityMode = LocalBarrierModel.supportedMode) :
    LocalBarrierModel.fromDict (PyVal.dict m.asDict).json = .ok m := by
  rw [json_model]
  exact LocalBarrierModel.fromDict_asDict h.wf hm

/-- C33.  So every event keeps its barrier. -/
theorem C33_same_barriers (m m' : LocalBarrierModel) (h : m.Made)
    (hm : m.probabilityMode = LocalBarrierModel.supportedMode)
    (h' : LocalBarrierModel.fromDict (.dict m.asDict) = .ok m') (occ : List Int) (e : Event)
    (property : String) : m'.compute occ e property = m.compute occ e property := by
  rw [C33_dict_round_trip m h hm] at h'
  rw [← Except.ok.inj h']

/-- C33.  A model with another probability mode can be constructed and written, but not read
back. -/
theorem C33_unsupported_mode_unreadable :
    ∃ m : LocalBarrierModel, m.Made ∧
      LocalBarrierModel.fromDict (.dict m.asDict) = .error .valueError := by
  refine ⟨_, .init (rules := none) (dp := none) (db := some (.int 300)) (name := "m")
    (dpr := "barrier") (mode := "other") (pp := "barrier") (ss := .none) rfl, by rfl⟩

/-- C33.  A failed `build` leaves a model that has lost its old rules. -/
theorem C33_failed_build_loses_rules :
    ∃ (m : LocalBarrierModel) (v : PyVal), m.Made ∧ m.rules ≠ [] ∧
      (m.build (some v)).1 = .error .typeError ∧ (m.build (some v)).2.rules = [] := by
  refine ⟨_, .list [.int 3], .init (rules := some (.list [.dict [("barrier", .int 300)]])) (dp := none)
    (db := none) (name := "m") (dpr := "barrier") (mode := "barrier_arrhenius") (pp := "barrier")
    (ss := .none) rfl, ?_, by rfl, by rfl⟩
  simp

/-! ### C34, C35: rates -/

/-- C34.  Every rate is non-negative. -/
theorem C34_local_barrier_nonneg (m : LocalBarrierModel) (kB T ν : ℝ) (hν : 0 ≤ ν) (e : Event)
    (occ : List Int) (p : ℝ) (h : m.computeProbability kB T ν e occ = .ok (some p)) : 0 ≤ p := by
  unfold LocalBarrierModel.computeProbability at h
  split at h
  · cases h
  · split at h
    · cases h
    · rename_i b hb
      split at h
      · cases h
      · rename_i d hd
        cases b with
        | fin q =>
          simp only [LocalBarrierModel.arrhenius, Except.ok.injEq, Option.some.injEq] at h
          subst h
          split <;> positivity
        | posInf =>
          simp only [LocalBarrierModel.arrhenius, Except.ok.injEq, Option.some.injEq] at h
          subst h; exact le_refl _
        | negInf => simp [LocalBarrierModel.arrhenius] at h
        | nan => simp [LocalBarrierModel.arrhenius] at h

/-- The ingredients of a rate. -/
theorem computeProbability_ok {m : LocalBarrierModel} {kB T ν p : ℝ} {e : Event} {occ : List Int}
    {b : ℚ} (h : m.computeProbability kB T ν e occ = .ok (some p))
    (hb : m.compute occ e m.probabilityProperty = .ok (.fin b)) :
    ∃ d, eventDirection occ e = .ok d ∧
      p = (if d ≠ 0 then 1 else 0) * ν * Real.exp (-(b : ℝ) / (kB * T)) := by
  unfold LocalBarrierModel.computeProbability at h
  split at h
  · cases h
  · rw [hb] at h
    simp only at h
    split at h
    · cases h
    · rename_i d hd
      simp only [LocalBarrierModel.arrhenius, Except.ok.injEq, Option.some.injEq] at h
      exact ⟨d, hd, h.symm⟩

/-- C34.  With a finite barrier and a positive attempt frequency the rate is zero exactly for
hops that are impossible in the current configuration. -/
theorem C34_local_barrier_zero_iff_forbidden (m : LocalBarrierModel) (kB T ν : ℝ) (hν : 0 < ν)
    (e : Event) (occ : List Int) (p : ℝ) (b : ℚ)
    (h : m.computeProbability kB T ν e occ = .ok (some p))
    (hb : m.compute occ e m.probabilityProperty = .ok (.fin b)) :
    p = 0 ↔ eventDirection occ e = .ok 0 := by
  obtain ⟨d, h1, rfl⟩ := computeProbability_ok h hb
  rw [h1]
  have hexp := (Real.exp_pos (-(b : ℝ) / (kB * T))).ne'
  by_cases hd : d = 0
  · simp [hd]
  · simp [hd, hν.ne', hexp]

/-- C35.  The ratio of two possible hops' rates is the exponential of the barrier difference
over kT. -/
theorem C35_local_barrier_ratio (m m' : LocalBarrierModel) (kB T ν : ℝ) (hν : 0 < ν)
    (e e' : Event) (occ occ' : List Int) (p p' : ℝ) (b b' : ℚ)
    (h : m.computeProbability kB T ν e occ = .ok (some p))
    (hb : m.compute occ e m.probabilityProperty = .ok (.fin b))
    (h' : m'.computeProbability kB T ν e' occ' = .ok (some p'))
    (hb' : m'.compute occ' e' m'.probabilityProperty = .ok (.fin b'))
    (hp : eventDirection occ e ≠ .ok 0) (hp' : eventDirection occ' e' ≠ .ok 0) :
    p / p' = Real.exp (-((b : ℝ) - b') / (kB * T)) := by
  obtain ⟨d, h1, rfl⟩ := computeProbability_ok h hb
  obtain ⟨d', h1', rfl⟩ := computeProbability_ok h' hb'
  have hd : d ≠ 0 := by rintro rfl; exact hp h1
  have hd' : d' ≠ 0 := by rintro rfl; exact hp' h1'
  rw [if_pos hd, if_pos hd', one_mul, mul_div_mul_left _ _ hν.ne', ← Real.exp_sub]
  congr 1
  ring

/-- C35.  Of two possible hops the one with the lower barrier has the strictly larger rate. -/
theorem C35_local_barrier_lower_is_faster (m m' : LocalBarrierModel) (kB T ν : ℝ) (hν : 0 < ν)
    (hkT : 0 < kB * T) (e e' : Event) (occ occ' : List Int) (p p' : ℝ) (b b' : ℚ)
    (h : m.computeProbability kB T ν e occ = .ok (some p))
    (hb : m.compute occ e m.probabilityProperty = .ok (.fin b))
    (h' : m'.computeProbability kB T ν e' occ' = .ok (some p'))
    (hb' : m'.compute occ' e' m'.probabilityProperty = .ok (.fin b'))
    (hp : eventDirection occ e ≠ .ok 0) (hp' : eventDirection occ' e' ≠ .ok 0) :
    p < p' ↔ b' < b := by
  obtain ⟨d, h1, rfl⟩ := computeProbability_ok h hb
  obtain ⟨d', h1', rfl⟩ := computeProbability_ok h' hb'
  have hd : d ≠ 0 := by rintro rfl; exact hp h1
  have hd' : d' ≠ 0 := by rintro rfl; exact hp' h1'
  rw [if_pos hd, if_pos hd', one_mul, mul_lt_mul_iff_right₀ hν, Real.exp_lt_exp,
    div_lt_div_iff_of_pos_right hkT, neg_lt_neg_iff, Rat.cast_lt]

/-- C35.  The rate is proportional to the attempt frequency, so a common factor cancels in
every choice. -/
theorem C35_local_barrier_frequency (m : LocalBarrierModel) (kB T ν c : ℝ) (e : Event)
    (occ : List Int) (p : ℝ) (h : m.computeProbability kB T ν e occ = .ok (some p)) :
    m.computeProbability kB T (c * ν) e occ = .ok (some (c * p)) := by
  unfold LocalBarrierModel.computeProbability at h ⊢
  split at h
  · cases h
  · rename_i hm
    rw [if_neg hm]
    split at h
    · cases h
    · rename_i b hb
      split at h
      · cases h
      · rename_i d hd
        cases b with
        | fin q =>
          simp only [LocalBarrierModel.arrhenius, Except.ok.injEq, Option.some.injEq] at h ⊢
          rw [← h]; ring
        | posInf =>
          simp only [LocalBarrierModel.arrhenius, Except.ok.injEq, Option.some.injEq] at h ⊢
          rw [← h]; simp
        | negInf => simp [LocalBarrierModel.arrhenius] at h
        | nan => simp [LocalBarrierModel.arrhenius] at h

/-- C35.  For a possible hop over a positive barrier, a higher temperature gives a strictly
larger rate. -/
theorem C35_local_barrier_temperature (m : LocalBarrierModel) (kB T T' ν : ℝ) (hν : 0 < ν)
    (hk : 0 < kB) (hT : 0 < T) (hTT : T < T') (e : Event) (occ : List Int) (p p' : ℝ) (b : ℚ)
    (hb0 : 0 < b) (h : m.computeProbability kB T ν e occ = .ok (some p))
    (h' : m.computeProbability kB T' ν e occ = .ok (some p'))
    (hb : m.compute occ e m.probabilityProperty = .ok (.fin b))
    (hp : eventDirection occ e ≠ .ok 0) : p < p' := by
  obtain ⟨d, h1, rfl⟩ := computeProbability_ok h hb
  obtain ⟨d', h1', rfl⟩ := computeProbability_ok h' hb
  rw [h1] at h1'
  cases h1'
  have hd : d ≠ 0 := by rintro rfl; exact hp h1
  rw [if_pos hd, one_mul, mul_lt_mul_iff_right₀ hν, Real.exp_lt_exp, neg_div, neg_div, neg_lt_neg_iff]
  have hb' : (0 : ℝ) < b := by exact_mod_cast hb0
  apply div_lt_div_of_pos_left hb' (by positivity)
  exact mul_lt_mul_of_pos_left hTT hk

/-! ### C65: local barrier models in a simulation -/

/-- C65.  A model whose rules read no site outside the event is local, so the rate table stays
up to date (C08 applies). -/
theorem C65_event_site_rules_are_local (m : LocalBarrierModel) (kB T ν : ℝ)
    (hr : ∀ r ∈ m.rules, ReadsEventSitesOnly r) : LocalModel (m.rateModel kB T ν) := by
  constructor
  intro e s s' hl h
  simp only [LocalBarrierModel.rateModel, LocalBarrierModel.computeProbability]
  rw [compute_congr hr hl h, eventDirection_congr h]

/-- C65.  With a non-negative attempt frequency such a model satisfies everything the simulation
theorems (C05-C17) ask of a rate model, in exact arithmetic. -/
theorem C65_hop_system {σ φ ψ K : Type} (o : ActiveSiteOrder String ψ) (mobile : String)
    (h : HopStateLookup) (m : LocalBarrierModel) (kB T ν : ℝ) (g : Geometry K) (lib : EventLib σ φ)
    (st : State EReal) (hν : 0 ≤ ν) (hr : ∀ r ∈ m.rules, ReadsEventSitesOnly r)
    (lookup : HopStateLookup.fromActiveSiteOrder o mobile = .ok h)
    (labelled : WellLabelled o mobile st.occ) (fit : IndicesFit st.occ.length lib.events)
    (endpoints : ∀ e ∈ lib.events, ∃ f t : Nat, e.mobile = [(f : Int), (t : Int)] ∧
      allowedAt o f = allowedAt o t)
    (coords : g.fracCoords.length = st.occ.length) :
    HopSystem o mobile h Rounding.exact (m.rateModel kB T ν) g lib st := by
  refine ⟨lookup, labelled, fit, endpoints, coords, C65_event_site_rules_are_local m kB T ν hr, ?_, ?_⟩
  · intro e s p hp
    refine ⟨?_, rfl⟩
    simp only [LocalBarrierModel.rateModel] at hp
    split at hp
    · cases hp
    · rename_i r hx
      cases hp
      exact C34_local_barrier_nonneg m kB T ν hν e s.occ p hx
    · cases hp
  · intro e s p hd hp
    simp only [LocalBarrierModel.rateModel] at hp
    split at hp
    · cases hp
    · rename_i r hx
      cases hp
      unfold LocalBarrierModel.computeProbability at hx
      split at hx
      · cases hx
      · split at hx
        · cases hx
        · rename_i b hb
          rw [hd] at hx
          simp only [ne_eq, not_true_eq_false, if_false] at hx
          cases b <;> simp [LocalBarrierModel.arrhenius] at hx
          · exact hx.symm
          · exact hx.symm
    · cases hp

/-- A model with a rule that counts a fixed site. -/
def fixedSiteModel : LocalBarrierModel :=
  ⟨"m", "barrier", "barrier_arrhenius", "barrier", [], some [("barrier", .fin 1)],
    [⟨"r", .stateCount (.listed [0]) 0 ⟨some 1, none, none⟩, [("barrier", .fin 0)], none, none⟩], []⟩

/-- C65.  A rule on a fixed site list breaks this: after one hop elsewhere the rate table holds
a rate the model no longer gives, with freshly generated dependencies and no error, for every
random number and arithmetic kernel. -/
theorem C65_fixed_sites_stale (k : Kernel ℝ EReal Unit) :
    ∃ (lib : EventLib Unit Unit) (st : State EReal) (s0 s : Sim Unit Unit Unit ℝ EReal) (e : Event),
      IndicesFit st.occ.length lib.events ∧
      Sim.init k (fixedSiteModel.rateModel 1 1 1) lib.generateEventDependencies none (some st) =
        .ok s0 ∧
      s0.update k (fixedSiteModel.rateModel 1 1 1) e 1 = (.ok (), s) ∧
      ¬ TableFresh k (fixedSiteModel.rateModel 1 1 1) s := by
  let lib : EventLib Unit Unit := ({} : EventLib Unit Unit).addAll
    [⟨[0, 1], [], none⟩, ⟨[2, 3], [], none⟩]
  have hdeps : lib.generateEventDependencies = { lib with deps := some [[0], [1]] } := by
    simp [EventLib.generateEventDependencies, generateEventDependencyMatrix, lib, EventLib.addAll,
      EventLib.addEvent, Event.sites, npSort, List.mergeSort, List.MergeSort.Internal.splitInTwo,
      arraysIntersect, List.zipIdx]
  let r0 : ℝ := 1 * 1 * Real.exp (-((0 : ℚ) : ℝ) / (1 * 1))
  let r1 : ℝ := 1 * 1 * Real.exp (-((1 : ℚ) : ℝ) / (1 * 1))
  refine ⟨lib, ⟨[0, 1, 0, 1], 0, 0⟩,
    ⟨lib.generateEventDependencies, ⟨[0, 1, 0, 1], 0, 0⟩, (), [r0, r0], k.cumsum [r0, r0]⟩,
    ⟨lib.generateEventDependencies, ⟨[1, 0, 0, 1], 0 + 1, 1⟩, (), [r1, r0], k.cumsum [r1, r0]⟩,
    ⟨[0, 1], [], none⟩, ?_, rfl, ?_, ?_⟩
  · intro e he i hi
    have : e = ⟨[0, 1], [], none⟩ ∨ e = ⟨[2, 3], [], none⟩ := by
      simpa [lib, EventLib.addAll_events] using he
    rcases this with rfl | rfl <;> simp at hi <;> rcases hi with rfl | rfl <;> simp
  · simp only [hdeps]; rfl
  · intro hf
    obtain ⟨p, hp, hc⟩ := hf.fresh 1 ⟨[2, 3], [], none⟩ rfl
    simp only [List.getElem?_cons_succ, List.getElem?_cons_zero, Option.some.injEq] at hp
    subst hp
    have h1 : (fixedSiteModel.rateModel 1 1 1).computeProbability () ⟨[2, 3], [], none⟩
      ⟨[1, 0, 0, 1], 0 + 1, 1⟩ = .ok r1 := rfl
    have hc' := h1.symm.trans hc
    have : r1 = r0 := Except.ok.inj hc'
    simp only [r1, r0, one_mul, mul_one, div_one, Real.exp_eq_exp] at this
    norm_num at this

/-! ### C66: rules taken from a snapshot -/

/-- The exact rule for an event in a configuration. -/
theorem C66_snapshot_rule (m : LocalBarrierModel) (e : Event) (occ states : List Int)
    (ps : Properties) (name : String) (hmob : e.mobile ≠ []) (hps : PropsWF ps) (hname : name ≠ "")
    (hocc : ∀ v ∈ occ, (0 : Int) ≤ v)
    (hst : List.Forall₂ (Carries occ) (e.mobile ++ e.env).eraseDups states) (hnew : m.exactKeys = []) :
    ∃ entry, LocalBarrierModel.entryFromEventState e occ (ps.map fun q => (q.1, .float q.2))
        (some name) = .ok entry ∧
      m.addRule entry = (.ok (), { m with
        rules := m.rules ++
          [⟨name, .exact states (e.mobile ++ e.env).eraseDups, ps, some e.mobile, some e.env⟩]
        exactKeys := [(e.mobile, (e.mobile ++ e.env).eraseDups, states)] }) := by
  have hs0 : states ≠ [] := by
    rintro rfl
    cases hm : e.mobile with
    | nil => exact hmob hm
    | cons a l => rw [hm, List.cons_append, List.eraseDups_cons] at hst; cases hst
  have hnn : ∀ v ∈ states, (0 : Int) ≤ v := by
    generalize (e.mobile ++ e.env).eraseDups = l at hst
    clear hs0
    induction hst with
    | nil => simp
    | cons h _ ih =>
      intro v hv
      rcases List.mem_cons.1 hv with rfl | hv
      · obtain ⟨k, -, hk⟩ := h
        exact hocc _ (List.mem_of_getElem? hk)
      · exact ih v hv
  refine ⟨.dict ([("type", .str "exact"), ("mobile_ion_indices", .list (e.mobile.map .int)),
    ("local_env_indices", .list (e.env.map .int)), ("occupations", .list (states.map .int)),
    ("properties", .dict (ps.map fun q => (q.1, .float q.2)))] ++
    optKey "name" ((some name).map .str)), ?_, ?_⟩
  · unfold LocalBarrierModel.entryFromEventState
    rw [eventIndices_eq hmob]
    simp only [occupationPattern_ok.2 hst]
  · have hn : normalizeRule (.dict ([("type", .str "exact"),
        ("mobile_ion_indices", .list (e.mobile.map .int)),
        ("local_env_indices", .list (e.env.map .int)), ("occupations", .list (states.map .int)),
        ("properties", .dict (ps.map fun q => (q.1, .float q.2)))] ++
        optKey "name" ((some name).map .str))) ("rule_" ++ intStr m.rules.length) = .ok
        ⟨name, .exact states (e.mobile ++ e.env).eraseDups, ps, some e.mobile, some e.env⟩ := by
      refine normalizeRule_of (t := .exact) ?_ ?_ ?_ ?_ ?_ ?_
      · exact coerceType_of (k := .exact states []) (by simp [dictGet, Kind.typeName])
      · unfold propertiesFromRule
        simp [dictGet, optKey, normalizeProperties_dict hps]
      · unfold optIndices
        simp [dictGet, normalizeIndices_list (b := false) (Or.inr hmob)]
      · unfold optIndices
        simp [dictGet, normalizeIndices_list (b := true) (l := e.env) (Or.inl rfl)]
      · simp [normalizeKind, dictGet, normalizeIndices_list (b := false) (Or.inr hmob),
          normalizeIndices_list (b := true) (l := e.env) (Or.inl rfl),
          normalizeOccupations_list hs0 hnn, canonicalSites_eq, hst.length_eq]
      · simp [ruleName, dictGet, optKey, hname]
    unfold LocalBarrierModel.addRule
    rw [hn]
    simp [LocalBarrierModel.exactKey, hnew]

/-- C66.  The rule describes exactly the events with the same endpoints and environment, in
configurations with the same states on their sites. -/
theorem C66_snapshot_describes (table : List (Int × List (Int × String))) (e e' : Event)
    (occ occ' states : List Int) (ps : Properties) (name : String)
    (hst : List.Forall₂ (Carries occ) (e.mobile ++ e.env).eraseDups states) :
    Describes table occ' e'
      ⟨name, .exact states (e.mobile ++ e.env).eraseDups, ps, some e.mobile, some e.env⟩ ↔
    e'.mobile = e.mobile ∧ e'.env = e.env ∧
      ∀ i ∈ e.mobile ++ e.env, ∀ v, Carries occ i v → Carries occ' i v := by
  have hiff : List.Forall₂ (Carries occ') (e.mobile ++ e.env).eraseDups states ↔
      ∀ i ∈ (e.mobile ++ e.env).eraseDups, ∀ v, Carries occ i v → Carries occ' i v := by
    generalize (e.mobile ++ e.env).eraseDups = l at hst
    induction hst with
    | nil => simp
    | @cons a b l l' h _ ih =>
      rw [List.forall₂_cons, ih]
      simp only [List.mem_cons, forall_eq_or_imp]
      refine and_congr_left fun _ => ⟨?_, fun h' => h' b h⟩
      intro h' v hv
      rwa [carries_unique hv h]
  unfold Describes
  simp only [Option.some.injEq, forall_eq']
  rw [hiff]
  simp only [List.mem_eraseDups]
  constructor
  · rintro ⟨h1, h2, -, h3⟩
    exact ⟨h1, h2, h3⟩
  · rintro ⟨h1, h2, h3⟩
    exact ⟨h1, h2, by rw [h1, h2], h3⟩

/-- A model with rules of two kinds. -/
def exampleBarriers : LocalBarrierModel :=
  ⟨"m", "barrier", "barrier_arrhenius", "barrier", [], some [("barrier", .fin 500)],
    [⟨"crowded", .stateCount .localEnv 0 ⟨none, some 1, none⟩, [("barrier", .fin 450)], none, none⟩,
     ⟨"free", .pattern .canonical [none, some 1, some 1], [("barrier", .fin 300)], none, none⟩], []⟩

/-- Non-vacuity: the example model is constructible, its rules read event sites only and can be
evaluated, and they do distinguish configurations. -/
example : exampleBarriers.Made ∧ (∀ r ∈ exampleBarriers.rules, ReadsEventSitesOnly r) ∧
    (∀ r ∈ exampleBarriers.rules, Evaluable [] [0, 1, 0] ⟨[0, 1], [2], none⟩ r) ∧
    exampleBarriers.compute [0, 1, 0] ⟨[0, 1], [2], none⟩ "" = .ok (.fin 450) ∧
    exampleBarriers.compute [0, 1, 1] ⟨[0, 1], [2], none⟩ "" = .ok (.fin 300) ∧
    exampleBarriers.compute [1, 0, 1] ⟨[0, 1], [2], none⟩ "" = .ok (.fin 500) := by
  refine ⟨?_, ?_, ?_, by rfl, by rfl, by rfl⟩
  · refine .init (rules := some (.list [
      .dict [("name", .str "crowded"), ("type", .str "state_count"), ("sites", .str "local_env"),
        ("state", .str "occupied"), ("min_count", .int 1), ("barrier", .int 450)],
      .dict [("name", .str "free"), ("type", .str "pattern"), ("sites", .str "canonical"),
        ("pattern", .list [.str "*", .str "vacant", .int 1]), ("barrier", .int 300)]]))
      (dp := none) (db := some (.int 500)) (name := "m") (dpr := "barrier")
      (mode := "barrier_arrhenius") (pp := "barrier") (ss := .none) ?_
    rfl
  · intro r hr
    simp only [exampleBarriers, List.mem_cons, List.not_mem_nil, or_false] at hr
    rcases hr with rfl | rfl <;> simp [ReadsEventSitesOnly]
  · have h : ∀ i ∈ ([0, 1, 2] : List Int), ∃ v, Carries [0, 1, 0] i v := by
      intro i hi
      simp only [List.mem_cons, List.not_mem_nil, or_false] at hi
      rcases hi with rfl | rfl | rfl
      · exact ⟨0, 0, by unfold Denotes; decide, rfl⟩
      · exact ⟨1, 1, by unfold Denotes; decide, rfl⟩
      · exact ⟨0, 2, by unfold Denotes; decide, rfl⟩
    intro r hr
    simp only [exampleBarriers, List.mem_cons, List.not_mem_nil, or_false] at hr
    rcases hr with rfl | rfl
    · exact ⟨by decide, h, fun i hi => h i (by simp [selection] at hi; simp [hi])⟩
    · exact ⟨by decide, h, fun i hi => h i (by
        simpa [selection, List.mem_eraseDups] using hi), by decide⟩

/-- Non-vacuity of the rate theorems: the example model has rates. -/
example : ∃ p p' : ℝ,
    exampleBarriers.computeProbability 1 300 1 ⟨[0, 1], [2], none⟩ [0, 1, 0] = .ok (some p) ∧
    exampleBarriers.compute [0, 1, 0] ⟨[0, 1], [2], none⟩ exampleBarriers.probabilityProperty =
      .ok (.fin 450) ∧ eventDirection [0, 1, 0] ⟨[0, 1], [2], none⟩ ≠ .ok 0 ∧
    exampleBarriers.computeProbability 1 300 1 ⟨[0, 1], [2], none⟩ [0, 1, 1] = .ok (some p') ∧
    exampleBarriers.compute [0, 1, 1] ⟨[0, 1], [2], none⟩ exampleBarriers.probabilityProperty =
      .ok (.fin 300) ∧ eventDirection [0, 1, 1] ⟨[0, 1], [2], none⟩ ≠ .ok 0 :=
  ⟨_, _, rfl, by rfl, by decide, rfl, by rfl, by decide⟩

end KMC
