import Verif.Lemmas.LocalBarrier
/-
Facts about normalised rules and their serialisation.
-/
namespace KMC
open LocalBarrier

namespace LocalBarrier

/-- A site selection as normalisation leaves it. -/
def SitesWF (s : Sites) : Prop := ∀ l, s = .listed l → l ≠ []

/-- Count constraints as normalisation leaves them. -/
structure CountsWF (c : CountSpec) : Prop where
  some_key : ¬ (c.count = none ∧ c.minCount = none ∧ c.maxCount = none)
  excl : c.count ≠ none → c.minCount = none ∧ c.maxCount = none
  count : ∀ n, c.count = some n → 0 ≤ n
  min : ∀ n, c.minCount = some n → 0 ≤ n
  max : ∀ n, c.maxCount = some n → 0 ≤ n

/-- A dictionary of properties as normalisation leaves it. -/
def PropsWF (p : Properties) : Prop := p ≠ [] ∧ ∀ q ∈ p, notBlank q.1 = true

/-- A rule as normalisation leaves it. -/
structure RuleWF (r : Rule) : Prop where
  name : r.name ≠ ""
  props : PropsWF r.props
  mobile : ∀ l, r.mobile = some l → l ≠ []
  kind : match r.kind with
    | .constant => True
    | .exact occ canonical => ∃ mob env, r.mobile = some mob ∧ r.env = some env ∧
        canonical = canonicalSites mob env ∧ occ.length = canonical.length ∧ occ ≠ [] ∧
        ∀ v ∈ occ, (0 : Int) ≤ v
    | .pattern s p => SitesWF s ∧ p ≠ [] ∧ ∀ v, some v ∈ p → (0 : Int) ≤ v
    | .stateCount s n c => SitesWF s ∧ 0 ≤ n ∧ CountsWF c
    | .speciesCount s sp c => SitesWF s ∧ sp ≠ [] ∧
        (sp.length ≠ 1 → ∀ x ∈ sp, notBlank x = true) ∧ CountsWF c

/-! ### Normalisation gives well-formed rules -/

theorem normalizeIndices_ne {v : PyVal} {l : List Int} (h : normalizeIndices v false = .ok l) :
    l ≠ [] := by
  have hgo : ∀ x : List PyVal, (if x.isEmpty && !false then (.error .valueError : Py (List Int))
      else intsOf x) = .ok l → l ≠ [] := by
    intro x hx
    cases x with
    | nil => simp at hx
    | cons a as =>
      simp only [List.isEmpty_cons, Bool.false_and, Bool.false_eq_true, if_false] at hx
      cases a <;> simp only [intsOf] at hx <;> try cases hx
      split at hx
      · cases hx
      · cases hx; simp
  cases v <;> simp only [normalizeIndices] at h <;> first | exact hgo _ h | cases h

theorem statesOf_nonneg {x : List PyVal} {l : List Int} (h : statesOf x = .ok l) :
    l.length = x.length ∧ ∀ v ∈ l, (0 : Int) ≤ v := by
  induction x generalizing l with
  | nil => cases h; simp
  | cons a as ih =>
    simp only [statesOf] at h
    split at h
    · cases h
    · rename_i n hn
      split at h
      · cases h
      · rename_i l' hl
        cases h
        obtain ⟨h1, h2⟩ := ih hl
        refine ⟨by simp [h1], ?_⟩
        intro v hv
        rcases List.mem_cons.1 hv with rfl | hv
        · exact normalizeState_nonneg hn
        · exact h2 v hv

theorem normalizeOccupations_wf {v : PyVal} {l : List Int} (h : normalizeOccupations v = .ok l) :
    l ≠ [] ∧ ∀ v ∈ l, (0 : Int) ≤ v := by
  have hgo : ∀ x : List PyVal, (if x.isEmpty then (.error .valueError : Py (List Int))
      else statesOf x) = .ok l → l ≠ [] ∧ ∀ v ∈ l, (0 : Int) ≤ v := by
    intro x hx
    split at hx
    · cases hx
    · rename_i hne
      obtain ⟨h1, h2⟩ := statesOf_nonneg hx
      refine ⟨?_, h2⟩
      rintro rfl
      cases x with
      | nil => simp at hne
      | cons a as => simp at h1
  cases v <;> simp only [normalizeOccupations] at h <;> first | exact hgo _ h | cases h

theorem patternOf_wf {x : List PyVal} {l : List (Option Int)} (h : patternOf x = .ok l) :
    l.length = x.length ∧ ∀ v, some v ∈ l → (0 : Int) ≤ v := by
  induction x generalizing l with
  | nil => cases h; simp
  | cons a as ih =>
    simp only [patternOf] at h
    split at h
    · cases h
    · rename_i w hw
      split at h
      · cases h
      · rename_i l' hl
        cases h
        obtain ⟨h1, h2⟩ := ih hl
        refine ⟨by simp [h1], ?_⟩
        intro v hv
        rcases List.mem_cons.1 hv with rfl | hv
        · split at hw
          · cases hw
          · split at hw
            · cases hw
            · rename_i n hn
              cases hw
              exact normalizeState_nonneg hn
        · exact h2 v hv

theorem normalizePattern_wf {v : PyVal} {l : List (Option Int)} (h : normalizePattern v = .ok l) :
    l ≠ [] ∧ ∀ v, some v ∈ l → (0 : Int) ≤ v := by
  have hgo : ∀ x : List PyVal, (if x.isEmpty then (.error .valueError : Py (List (Option Int)))
      else patternOf x) = .ok l → l ≠ [] ∧ ∀ v, some v ∈ l → (0 : Int) ≤ v := by
    intro x hx
    split at hx
    · cases hx
    · rename_i hne
      obtain ⟨h1, h2⟩ := patternOf_wf hx
      refine ⟨?_, h2⟩
      rintro rfl
      cases x with
      | nil => simp at hne
      | cons a as => simp at h1
  cases v <;> simp only [normalizePattern] at h <;> first | exact hgo _ h | cases h

theorem propertiesOf_wf {d : List (String × PyVal)} {p : Properties} (h : propertiesOf d = .ok p) :
    p.length = d.length ∧ ∀ q ∈ p, notBlank q.1 = true := by
  induction d generalizing p with
  | nil => cases h; simp
  | cons a as ih =>
    obtain ⟨k, v⟩ := a
    simp only [propertiesOf] at h
    split at h
    · cases h
    · rename_i hb
      split at h
      · cases h
      · split at h
        · cases h
        · rename_i l hl
          cases h
          obtain ⟨h1, h2⟩ := ih hl
          refine ⟨by simp [h1], ?_⟩
          intro q hq
          rcases List.mem_cons.1 hq with rfl | hq
          · simpa using hb
          · exact h2 q hq

theorem normalizeProperties_wf {v : PyVal} {p : Properties} (h : normalizeProperties v = .ok p) :
    PropsWF p := by
  cases v <;> simp only [normalizeProperties] at h <;> try cases h
  split at h
  · cases h
  · rename_i d hne
    obtain ⟨h1, h2⟩ := propertiesOf_wf h
    refine ⟨?_, h2⟩
    rintro rfl
    cases d with
    | nil => simp at hne
    | cons a as => simp at h1

theorem propertiesFromRule_wf {d : List (String × PyVal)} {p : Properties}
    (h : propertiesFromRule d = .ok p) : PropsWF p := by
  unfold propertiesFromRule at h
  split at h
  · split at h
    · exact normalizeProperties_wf h
    · split at h
      · cases h
      · exact normalizeProperties_wf h
  · cases h

theorem normalizeSites_wf {v : Option PyVal} {d s : Sites} (hd : SitesWF d)
    (h : normalizeSites v d = .ok s) : SitesWF s := by
  unfold normalizeSites at h
  split at h
  · cases h; exact hd
  · cases h; exact hd
  · split at h
    · rename_i x hx
      cases h
      intro l hl
      subst hl
      unfold selectorOf at hx
      split at hx <;> cases hx
    · cases h
  · split at h
    · cases h
    · rename_i l hl
      cases h
      intro l' hl'
      cases hl'
      exact normalizeIndices_ne hl

theorem countKey_wf {d : List (String × PyVal)} {k : String} {o : Option Int}
    (h : countKey d k = .ok o) : ∀ n, o = some n → 0 ≤ n := by
  unfold countKey at h
  split at h
  · cases h; simp
  · split at h
    · cases h
    · cases h; intro n hn; cases hn; omega
  · cases h

theorem normalizeCounts_wf {d : List (String × PyVal)} {c : CountSpec}
    (h : normalizeCounts d = .ok c) : CountsWF c := by
  unfold normalizeCounts at h
  split at h
  · cases h
  · rename_i a ha
    split at h
    · cases h
    · rename_i b hb
      split at h
      · cases h
      · rename_i e he
        split at h
        · cases h
        · rename_i hn
          split at h
          · cases h
          · rename_i hx
            cases h
            refine ⟨?_, ?_, countKey_wf ha, countKey_wf hb, countKey_wf he⟩
            · rintro ⟨h1, h2, h3⟩
              simp only at h1 h2 h3
              subst h1 h2 h3
              simp at hn
            · intro hc
              cases a with
              | none => exact absurd rfl hc
              | some a =>
                cases b with
                | some b => simp at hx
                | none =>
                  cases e with
                  | some e => simp at hx
                  | none => exact ⟨rfl, rfl⟩

theorem speciesOf_wf {x : List PyVal} {l : List String} (h : speciesOf x = .ok l) :
    l.length = x.length ∧ ∀ s ∈ l, notBlank s = true := by
  induction x generalizing l with
  | nil => cases h; simp
  | cons a as ih =>
    cases a <;> simp only [speciesOf] at h <;> try cases h
    split at h
    · cases h
    · rename_i s hb
      split at h
      · cases h
      · rename_i l' hl
        cases h
        obtain ⟨h1, h2⟩ := ih hl
        refine ⟨by simp [h1], ?_⟩
        intro q hq
        rcases List.mem_cons.1 hq with rfl | hq
        · simpa using hb
        · exact h2 q hq

theorem normalizeSpecies_wf {v : PyVal} {l : List String} (h : normalizeSpecies v = .ok l) :
    l ≠ [] ∧ (l.length ≠ 1 → ∀ x ∈ l, notBlank x = true) := by
  have hgo : ∀ x : List PyVal, (if x.isEmpty then (.error .valueError : Py (List String))
      else speciesOf x) = .ok l → l ≠ [] ∧ (l.length ≠ 1 → ∀ x ∈ l, notBlank x = true) := by
    intro x hx
    split at hx
    · cases hx
    · rename_i hne
      obtain ⟨h1, h2⟩ := speciesOf_wf hx
      refine ⟨?_, fun _ => h2⟩
      rintro rfl
      cases x with
      | nil => simp at hne
      | cons a as => simp at h1
  cases v <;> simp only [normalizeSpecies] at h <;> first | exact hgo _ h | cases h
  simp

theorem ruleName_ne {d : List (String × PyVal)} {n : String} (h : n ≠ "") : ruleName d n ≠ "" := by
  unfold ruleName
  split
  · split
    · exact h
    · assumption
  · exact h

theorem optIndices_ok {d : List (String × PyVal)} {k : String} {b : Bool} {o : Option (List Int)}
    (h : optIndices d k b = .ok o) :
    (dictGet d k = none ∧ o = none) ∨
      ∃ v l, dictGet d k = some v ∧ normalizeIndices v b = .ok l ∧ o = some l := by
  unfold optIndices at h
  split at h
  · cases h; exact Or.inl ⟨by assumption, rfl⟩
  · split at h
    · cases h
    · cases h; exact Or.inr ⟨_, _, by assumption, by assumption, rfl⟩

theorem normalizeRule_wf {v : PyVal} {n : String} {r : Rule} (hn : n ≠ "")
    (h : normalizeRule v n = .ok r) : RuleWF r := by
  cases v <;> simp only [normalizeRule] at h <;> try cases h
  rename_i d
  split at h
  · cases h
  · rename_i t ht
    split at h
    · cases h
    · rename_i ps hps
      split at h
      · cases h
      · rename_i mob hmob
        split at h
        · cases h
        · rename_i env henv
          split at h
          · cases h
          · rename_i k hk
            cases h
            refine ⟨ruleName_ne hn, propertiesFromRule_wf hps, ?_, ?_⟩
            · intro l hl
              simp only at hl
              subst hl
              rcases optIndices_ok hmob with ⟨-, h2⟩ | ⟨v, l', -, h2, h3⟩
              · cases h2
              · cases h3; exact normalizeIndices_ne h2
            · simp only
              cases t with
              | constant => cases hk; trivial
              | exact =>
                simp only [normalizeKind] at hk
                split at hk
                · cases hk
                · rename_i mb hmb
                  split at hk
                  · cases hk
                  · rename_i ev hev
                    split at hk
                    · cases hk
                    · rename_i occ hocc
                      split at hk
                      · cases hk
                      · rename_i hlen
                        cases hk
                        refine ⟨mb, ev, ?_, ?_, rfl, not_not.1 hlen, normalizeOccupations_wf hocc⟩
                        · rcases optIndices_ok hmob with ⟨h1, -⟩ | ⟨v, l', h1, h2, h3⟩
                          · rw [h1] at hmb; cases hmb
                          · rw [h1] at hmb
                            simp only [Option.getD_some] at hmb
                            rw [h2] at hmb
                            cases hmb; exact h3
                        · rcases optIndices_ok henv with ⟨h1, -⟩ | ⟨v, l', h1, h2, h3⟩
                          · rw [h1] at hev; cases hev
                          · rw [h1] at hev
                            simp only [Option.getD_some] at hev
                            rw [h2] at hev
                            cases hev; exact h3
              | pattern =>
                simp only [normalizeKind] at hk
                split at hk
                · cases hk
                · rename_i s hs
                  split at hk
                  · cases hk
                  · rename_i p hp
                    cases hk
                    exact ⟨normalizeSites_wf (fun l hl => by cases hl) hs, normalizePattern_wf hp⟩
              | stateCount =>
                simp only [normalizeKind] at hk
                split at hk
                · cases hk
                · rename_i s hs
                  split at hk
                  · cases hk
                  · rename_i n hn
                    split at hk
                    · cases hk
                    · rename_i c hc
                      cases hk
                      refine ⟨normalizeSites_wf (fun l hl => by cases hl) hs, ?_, normalizeCounts_wf hc⟩
                      split at hn <;> exact normalizeState_nonneg hn
              | speciesCount =>
                simp only [normalizeKind] at hk
                split at hk
                · cases hk
                · rename_i s hs
                  split at hk
                  · cases hk
                  · rename_i sp hsp
                    split at hk
                    · cases hk
                    · rename_i c hc
                      cases hk
                      exact ⟨normalizeSites_wf (fun l hl => by cases hl) hs,
                        (normalizeSpecies_wf hsp).1, (normalizeSpecies_wf hsp).2, normalizeCounts_wf hc⟩

/-! ### Reading back what was written -/

theorem dictGet_append {α : Type} (a b : List (String × α)) (k : String) :
    dictGet (a ++ b) k = (dictGet a k).or (dictGet b k) := by
  induction a with
  | nil => simp [dictGet]
  | cons p a ih =>
    obtain ⟨k', v⟩ := p
    by_cases h : k' = k <;> simp [dictGet, h, ih]

theorem dictGet_optKey (k k' : String) (o : Option PyVal) :
    dictGet (optKey k o) k' = if k = k' then o else none := by
  cases o <;> simp [optKey, dictGet]

theorem intsOf_map (l : List Int) : intsOf (l.map .int) = .ok l := by
  induction l with
  | nil => rfl
  | cons a l ih => simp [intsOf, ih]

theorem normalizeIndices_list {l : List Int} {b : Bool} (h : b = true ∨ l ≠ []) :
    normalizeIndices (.list (l.map .int)) b = .ok l := by
  simp only [normalizeIndices, intsOf_map]
  rw [if_neg]
  cases l with
  | nil => rcases h with rfl | h; simp; exact absurd rfl h
  | cons a l => simp

theorem statesOf_map {l : List Int} (h : ∀ v ∈ l, (0 : Int) ≤ v) : statesOf (l.map .int) = .ok l := by
  induction l with
  | nil => rfl
  | cons a l ih =>
    have ha := h a (by simp)
    simp only [List.map_cons, statesOf, normalizeState, ih fun v hv => h v (by simp [hv])]
    rw [if_neg (by omega)]

theorem normalizeOccupations_list {l : List Int} (hne : l ≠ []) (h : ∀ v ∈ l, (0 : Int) ≤ v) :
    normalizeOccupations (.list (l.map .int)) = .ok l := by
  simp only [normalizeOccupations, statesOf_map h]
  rw [if_neg]
  simpa using hne

theorem patternOf_map {l : List (Option Int)} (h : ∀ v, some v ∈ l → (0 : Int) ≤ v) :
    patternOf (l.map patternVal) = .ok l := by
  induction l with
  | nil => rfl
  | cons a l ih =>
    have hl := ih fun v hv => h v (by simp [hv])
    cases a with
    | none =>
      have hw : isWildcard (.str "*") = true := by decide
      simp only [List.map_cons, patternOf, hl, patternVal, hw, if_true]
    | some n =>
      have hn := h n (by simp)
      simp only [List.map_cons, patternOf, hl, patternVal, isWildcard, normalizeState]
      rw [if_neg (by omega)]
      simp

theorem normalizePattern_list {l : List (Option Int)} (hne : l ≠ [])
    (h : ∀ v, some v ∈ l → (0 : Int) ≤ v) :
    normalizePattern (.list (l.map patternVal)) = .ok l := by
  simp only [normalizePattern, patternOf_map h]
  rw [if_neg]
  simpa using hne

theorem propertiesOf_map {p : Properties} (h : ∀ q ∈ p, notBlank q.1 = true) :
    propertiesOf (p.map fun q => (q.1, .float q.2)) = .ok p := by
  induction p with
  | nil => rfl
  | cons a p ih =>
    obtain ⟨k, v⟩ := a
    have hk := h (k, v) (by simp)
    simp only at hk
    simp [propertiesOf, hk, numeric, ih fun q hq => h q (by simp [hq])]

theorem normalizeProperties_dict {p : Properties} (h : PropsWF p) :
    normalizeProperties (.dict (p.map fun q => (q.1, .float q.2))) = .ok p := by
  simp only [normalizeProperties, propertiesOf_map h.2]
  rw [if_neg]
  simpa using h.1

theorem normalizeSites_toVal {s : Sites} (h : SitesWF s) (d : Sites) :
    normalizeSites (some s.toVal) d = .ok s := by
  cases s with
  | listed l =>
    simp [normalizeSites, Sites.toVal, normalizeIndices_list (b := false) (Or.inr (h l rfl))]
  | canonical => rfl
  | localEnv => rfl
  | mobileIon => rfl
  | fromSite => rfl
  | toSite => rfl
  | all => rfl

theorem countKey_of {d : List (String × PyVal)} {k : String} {o : Option Int}
    (h : dictGet d k = o.map .int) (hn : ∀ n, o = some n → 0 ≤ n) : countKey d k = .ok o := by
  unfold countKey
  cases o with
  | none => rw [h]; rfl
  | some n =>
    rw [h]
    have := hn n rfl
    simp only [Option.map_some]
    rw [if_neg (by omega)]

theorem normalizeCounts_of {d : List (String × PyVal)} {c : CountSpec} (hc : CountsWF c)
    (h1 : dictGet d "count" = c.count.map .int) (h2 : dictGet d "min_count" = c.minCount.map .int)
    (h3 : dictGet d "max_count" = c.maxCount.map .int) : normalizeCounts d = .ok c := by
  unfold normalizeCounts
  rw [countKey_of h1 hc.count, countKey_of h2 hc.min, countKey_of h3 hc.max]
  simp only
  have hx := hc.some_key
  have hy := hc.excl
  obtain ⟨a, b, e⟩ := c
  simp only at hx hy ⊢
  cases a <;> cases b <;> cases e <;> simp_all

theorem normalizeSpecies_val {l : List String} (hne : l ≠ [])
    (h : l.length ≠ 1 → ∀ x ∈ l, notBlank x = true) : normalizeSpecies (speciesVal l) = .ok l := by
  match l with
  | [] => exact absurd rfl hne
  | [s] => rfl
  | a :: b :: l =>
    have hall := h (by simp)
    have : ∀ l : List String, (∀ x ∈ l, notBlank x = true) → speciesOf (l.map .str) = .ok l := by
      intro l
      induction l with
      | nil => intro _; rfl
      | cons a l ih =>
        intro hl
        simp [speciesOf, hl a (by simp), ih fun x hx => hl x (by simp [hx])]
    show (if ((a :: b :: l).map PyVal.str).isEmpty then (.error .valueError : Py (List String)) else
      speciesOf ((a :: b :: l).map .str)) = _
    rw [this _ hall]
    simp

/-- The type of a normalised rule. -/
def Kind.ruleType : Kind → RuleType
  | .constant => .constant
  | .exact _ _ => .exact
  | .pattern _ _ => .pattern
  | .stateCount _ _ _ => .stateCount
  | .speciesCount _ _ _ => .speciesCount

theorem coerceType_of {d : List (String × PyVal)} {k : Kind}
    (h : dictGet d "type" = some (.str k.typeName)) : coerceType d = .ok k.ruleType := by
  have h1 : notBlank k.typeName = true := by
    cases k
    · exact (by decide : notBlank "constant" = true)
    · exact (by decide : notBlank "exact" = true)
    · exact (by decide : notBlank "pattern" = true)
    · exact (by decide : notBlank "state_count" = true)
    · exact (by decide : notBlank "species_count" = true)
  have h2 : ruleTypeOf (pyStrip k.typeName) = some k.ruleType := by
    cases k
    · exact (by decide : ruleTypeOf (pyStrip "constant") = some .constant)
    · exact (by decide : ruleTypeOf (pyStrip "exact") = some .exact)
    · exact (by decide : ruleTypeOf (pyStrip "pattern") = some .pattern)
    · exact (by decide : ruleTypeOf (pyStrip "state_count") = some .stateCount)
    · exact (by decide : ruleTypeOf (pyStrip "species_count") = some .speciesCount)
  simp only [coerceType, h, Option.getD_some, h1, h2, Bool.not_true, Bool.false_eq_true, if_false]

/-- Writing a normalised rule and reading it back gives the same rule. -/
theorem normalizeRule_asDict {r : Rule} (hr : RuleWF r) (n : String) :
    normalizeRule (.dict r.asDict) n = .ok r := by
  have hname : ruleName r.asDict n = r.name := by
    simp [ruleName, Rule.asDict, dictGet, hr.name]
  have htype : dictGet r.asDict "type" = some (.str r.kind.typeName) := by
    simp [Rule.asDict, dictGet]
  have hprops : propertiesFromRule r.asDict = .ok r.props := by
    have h1 : dictGet r.asDict "properties" =
        some (.dict (r.props.map fun p => (p.1, .float p.2))) := by
      simp [Rule.asDict, dictGet]
    have h2 : dictGet r.asDict "barrier" = none := by
      unfold Rule.asDict
      cases r.kind <;> simp [dictGet_append, dictGet_optKey, dictGet, countKeys]
    unfold propertiesFromRule
    rw [h1, h2]
    exact normalizeProperties_dict hr.props
  have hmobGet : dictGet r.asDict "mobile_ion_indices" =
      r.mobile.map fun l => .list (l.map .int) := by
    unfold Rule.asDict
    cases r.kind <;> cases r.mobile <;>
      simp [dictGet_append, dictGet_optKey, dictGet, countKeys]
  have henvGet : dictGet r.asDict "local_env_indices" =
      r.env.map fun l => .list (l.map .int) := by
    unfold Rule.asDict
    cases r.kind <;> cases r.env <;>
      simp [dictGet_append, dictGet_optKey, dictGet, countKeys]
  have hmob : optIndices r.asDict "mobile_ion_indices" false = .ok r.mobile := by
    unfold optIndices
    rw [hmobGet]
    cases hm : r.mobile with
    | none => rfl
    | some l => simp [normalizeIndices_list (b := false) (Or.inr (hr.mobile l hm))]
  have henv : optIndices r.asDict "local_env_indices" true = .ok r.env := by
    unfold optIndices
    rw [henvGet]
    cases hm : r.env with
    | none => rfl
    | some l => simp [normalizeIndices_list (b := true) (l := l) (Or.inl rfl)]
  unfold normalizeRule
  simp only [coerceType_of htype, hprops, hmob, henv, hname]
  have hk := hr.kind
  obtain ⟨name, kind, props, mobile, env⟩ := r
  cases kind with
  | constant => rfl
  | exact occ canonical =>
    obtain ⟨mob, ev, h1, h2, h3, h4, h5, h6⟩ := hk
    simp only at h1 h2
    subst h1 h2 h3
    have hmne := hr.mobile mob rfl
    simp only [Kind.ruleType, normalizeKind, hmobGet, henvGet, Option.map_some, Option.getD_some,
      normalizeIndices_list (b := false) (Or.inr hmne),
      normalizeIndices_list (b := true) (l := ev) (Or.inl rfl)]
    have hocc : dictGet (Rule.asDict ⟨name, .exact occ (canonicalSites mob ev), props, some mob, some ev⟩)
        "occupations" = some (.list (occ.map .int)) := by
      simp [Rule.asDict, dictGet, optKey]
    simp only [hocc, Option.getD_some, normalizeOccupations_list h5 h6]
    rw [if_neg (by simpa using h4)]
  | pattern s p =>
    obtain ⟨h1, h2, h3⟩ := hk
    have e1 : dictGet (Rule.asDict ⟨name, .pattern s p, props, mobile, env⟩) "sites" = some s.toVal := by
      simp [Rule.asDict, dictGet_append, dictGet_optKey, dictGet]
    have e2 : dictGet (Rule.asDict ⟨name, .pattern s p, props, mobile, env⟩) "pattern" =
        some (.list (p.map patternVal)) := by
      simp [Rule.asDict, dictGet_append, dictGet_optKey, dictGet]
    simp only [Kind.ruleType, normalizeKind, e1, e2, normalizeSites_toVal h1, Option.getD_some,
      normalizePattern_list h2 h3]
  | stateCount s v c =>
    obtain ⟨h1, h2, h3⟩ := hk
    have e1 : dictGet (Rule.asDict ⟨name, .stateCount s v c, props, mobile, env⟩) "sites" =
        some s.toVal := by
      simp [Rule.asDict, dictGet_append, dictGet_optKey, dictGet]
    have e2 : dictGet (Rule.asDict ⟨name, .stateCount s v c, props, mobile, env⟩) "state" =
        some (.int v) := by
      simp [Rule.asDict, dictGet_append, dictGet_optKey, dictGet]
    have e3 : dictGet (Rule.asDict ⟨name, .stateCount s v c, props, mobile, env⟩) "occupation" =
        none := by
      simp [Rule.asDict, dictGet_append, dictGet_optKey, dictGet, countKeys]
    have e4 : normalizeCounts (Rule.asDict ⟨name, .stateCount s v c, props, mobile, env⟩) = .ok c := by
      apply normalizeCounts_of h3 <;>
        simp [Rule.asDict, dictGet_append, dictGet_optKey, dictGet, countKeys]
    simp only [Kind.ruleType, normalizeKind, e1, e2, e3, e4, normalizeSites_toVal h1, Option.getD_some,
      normalizeState]
    rw [if_neg (by omega)]
  | speciesCount s sp c =>
    obtain ⟨h1, h2, h2', h3⟩ := hk
    have e1 : dictGet (Rule.asDict ⟨name, .speciesCount s sp c, props, mobile, env⟩) "sites" =
        some s.toVal := by
      simp [Rule.asDict, dictGet_append, dictGet_optKey, dictGet]
    have e2 : dictGet (Rule.asDict ⟨name, .speciesCount s sp c, props, mobile, env⟩) "species" =
        some (speciesVal sp) := by
      simp [Rule.asDict, dictGet_append, dictGet_optKey, dictGet]
    have e4 : normalizeCounts (Rule.asDict ⟨name, .speciesCount s sp c, props, mobile, env⟩) =
        .ok c := by
      apply normalizeCounts_of h3 <;>
        simp [Rule.asDict, dictGet_append, dictGet_optKey, dictGet, countKeys]
    simp only [Kind.ruleType, normalizeKind, e1, e2, e4, normalizeSites_toVal h1, Option.getD_some,
      normalizeSpecies_val h2 h2']

/-! ### The species table -/

/-- The species table as normalisation leaves it. -/
structure TableWF (t : List (Int × List (Int × String))) : Prop where
  sites : (dictKeys t).Nodup
  states : ∀ p ∈ t, (dictKeys p.2).Nodup ∧ ∀ q ∈ p.2, 0 ≤ q.1 ∧ notBlank q.2 = true

theorem mem_dictSet {κ α : Type} [DecidableEq κ] {d : List (κ × α)} {k : κ} {v : α} {p : κ × α}
    (h : p ∈ dictSet d k v) : p = (k, v) ∨ p ∈ d := by
  induction d with
  | nil => simpa [dictSet] using h
  | cons a d ih =>
    obtain ⟨k', v'⟩ := a
    simp only [dictSet] at h
    split at h
    · rename_i hk
      subst hk
      rcases List.mem_cons.1 h with rfl | h
      · exact Or.inl rfl
      · exact Or.inr (by simp [h])
    · rcases List.mem_cons.1 h with rfl | h
      · exact Or.inr (by simp)
      · rcases ih h with h | h
        · exact Or.inl h
        · exact Or.inr (by simp [h])

theorem stateMapOf_wf {d : List (String × PyVal)} {acc m : List (Int × String)}
    (h : stateMapOf d acc = .ok m) (h0 : (dictKeys acc).Nodup)
    (h1 : ∀ q ∈ acc, 0 ≤ q.1 ∧ notBlank q.2 = true) :
    (dictKeys m).Nodup ∧ ∀ q ∈ m, 0 ≤ q.1 ∧ notBlank q.2 = true := by
  induction d generalizing acc with
  | nil => cases h; exact ⟨h0, h1⟩
  | cons a d ih =>
    obtain ⟨k, v⟩ := a
    simp only [stateMapOf] at h
    split at h
    · cases h
    · rename_i n hn
      split at h
      · split at h
        · rename_i hb
          refine ih h (dictKeys_dictSet_nodup _ _ _ h0) ?_
          intro q hq
          rcases mem_dictSet hq with rfl | hq
          · exact ⟨normalizeState_nonneg hn, hb⟩
          · exact h1 q hq
        · cases h
      · cases h

theorem siteSpeciesOf_wf {d : List (String × PyVal)} {acc t : List (Int × List (Int × String))}
    (h : siteSpeciesOf d acc = .ok t) (h0 : TableWF acc) : TableWF t := by
  induction d generalizing acc with
  | nil => cases h; exact h0
  | cons a d ih =>
    obtain ⟨k, v⟩ := a
    simp only [siteSpeciesOf] at h
    split at h
    · cases h
    · split at h
      · split at h
        · cases h
        · rename_i hm
          refine ih h ⟨dictKeys_dictSet_nodup _ _ _ h0.sites, ?_⟩
          intro p hp
          rcases mem_dictSet hp with rfl | hp
          · exact stateMapOf_wf hm (by simp [dictKeys]) (by simp)
          · exact h0.states p hp
      · cases h

theorem normalizeSiteSpecies_wf {v : PyVal} {t : List (Int × List (Int × String))}
    (h : normalizeSiteSpecies v = .ok t) : TableWF t := by
  cases v <;> simp only [normalizeSiteSpecies] at h <;> try cases h
  · exact ⟨by simp [dictKeys], by simp⟩
  · exact siteSpeciesOf_wf h ⟨by simp [dictKeys], by simp⟩

theorem stateMapOf_map {m acc : List (Int × String)} (hn : (dictKeys (acc ++ m)).Nodup)
    (h : ∀ q ∈ m, 0 ≤ q.1 ∧ notBlank q.2 = true) :
    stateMapOf (m.map fun q => (intStr q.1, .str q.2)) acc = .ok (acc ++ m) := by
  induction m generalizing acc with
  | nil => simp [stateMapOf]
  | cons a m ih =>
    obtain ⟨k, s⟩ := a
    obtain ⟨h1, h2⟩ := h (k, s) (by simp)
    simp only at h1 h2
    simp only [List.map_cons, stateMapOf, normalizeState_intStr h1, h2, if_true]
    have hk : k ∉ dictKeys acc := by
      intro hc
      simp only [dictKeys, List.map_append, List.map_cons, List.nodup_append] at hn
      exact hn.2.2 k hc k (by simp) rfl
    rw [dictKeys_dictSet_of_not_mem acc s hk, ih (by simpa using hn) fun q hq => h q (by simp [hq])]
    simp

theorem siteSpeciesOf_map {t acc : List (Int × List (Int × String))}
    (hn : (dictKeys (acc ++ t)).Nodup)
    (h : ∀ p ∈ t, (dictKeys p.2).Nodup ∧ ∀ q ∈ p.2, 0 ≤ q.1 ∧ notBlank q.2 = true) :
    siteSpeciesOf (t.map fun p => (intStr p.1, .dict (p.2.map fun q => (intStr q.1, .str q.2)))) acc =
      .ok (acc ++ t) := by
  induction t generalizing acc with
  | nil => simp [siteSpeciesOf]
  | cons a t ih =>
    obtain ⟨i, m⟩ := a
    obtain ⟨h1, h2⟩ := h (i, m) (by simp)
    simp only at h1 h2
    simp only [List.map_cons, siteSpeciesOf, parseInt_intStr,
      stateMapOf_map (acc := []) (m := m) (by simpa using h1) h2, List.nil_append]
    have hk : i ∉ dictKeys acc := by
      intro hc
      simp only [dictKeys, List.map_append, List.map_cons, List.nodup_append] at hn
      exact hn.2.2 i hc i (by simp) rfl
    rw [dictKeys_dictSet_of_not_mem acc m hk, ih (by simpa using hn) fun q hq => h q (by simp [hq])]
    simp

theorem normalizeSiteSpecies_asDict {t : List (Int × List (Int × String))} (h : TableWF t) :
    normalizeSiteSpecies (siteSpeciesAsDict t) = .ok t := by
  simp only [normalizeSiteSpecies, siteSpeciesAsDict]
  rw [siteSpeciesOf_map (acc := []) (by simpa using h.sites) h.states]
  simp

end LocalBarrier

namespace LocalBarrierModel

/-- A model as the constructor and `add_rule` leave it. -/
structure WF (m : LocalBarrierModel) : Prop where
  table : TableWF m.siteSpecies
  defaults : ∀ p, m.defaultProperties = some p → PropsWF p
  rules : ∀ r ∈ m.rules, RuleWF r
  keys : m.exactKeys = m.rules.filterMap exactKey
  nodup : (m.rules.filterMap exactKey).Nodup

theorem rule_name_ne (n : Nat) : "rule_" ++ intStr (n : Int) ≠ "" := by
  intro h
  have := congrArg String.toList h
  rw [String.toList_append] at this
  simp at this

theorem addRule_wf {m : LocalBarrierModel} (h : m.WF) (v : PyVal) : (m.addRule v).2.WF := by
  unfold addRule
  split
  · exact h
  · rename_i r hr
    have hwf := normalizeRule_wf (rule_name_ne _) hr
    have hall : ∀ q ∈ m.rules ++ [r], RuleWF q := by
      intro q hq
      rcases List.mem_append.1 hq with hq | hq
      · exact h.rules q hq
      · rw [List.mem_singleton] at hq; subst hq; exact hwf
    split
    · rename_i hk
      exact ⟨h.table, h.defaults, hall, by simp [h.keys, hk], by simpa [hk] using h.nodup⟩
    · rename_i k hk
      split
      · exact h
      · rename_i hnot
        refine ⟨h.table, h.defaults, hall, by simp [h.keys, hk], ?_⟩
        rw [h.keys] at hnot
        simp only [List.filterMap_append, List.filterMap_cons, List.filterMap_nil, hk]
        rw [List.nodup_append]
        refine ⟨h.nodup, by simp, ?_⟩
        intro a ha b hb
        simp only [List.mem_singleton] at hb
        subst hb
        rintro rfl
        exact hnot ha

theorem addRules_wf {m : LocalBarrierModel} (h : m.WF) (l : List PyVal) : (m.addRules l).2.WF := by
  induction l generalizing m with
  | nil => exact h
  | cons v l ih =>
    have hv := addRule_wf h v
    unfold addRules
    rcases hx : m.addRule v with ⟨r, m'⟩
    rw [hx] at hv
    cases r with
    | error e => exact hv
    | ok u => exact ih hv

theorem build_wf {m : LocalBarrierModel} (h : m.WF) (v : Option PyVal) : (m.build v).2.WF := by
  unfold build
  split
  · exact h
  · split
    · have h0 : WF { m with rules := [], exactKeys := [] } :=
        ⟨h.table, h.defaults, fun r hr => absurd hr List.not_mem_nil, rfl, List.nodup_nil⟩
      exact addRules_wf h0 _
    · exact h

theorem build_mode {m m' : LocalBarrierModel} {v : Option PyVal} (h : m.build v = (.ok (), m')) :
    m.probabilityMode = supportedMode := by
  unfold build at h
  split at h
  · cases h
  · rename_i hm; exact not_not.1 hm

theorem setDefault_wf {p : Properties} (h : p = [] ∨ PropsWF p) (f : PyFloat) :
    PropsWF (setDefault p "barrier" f) := by
  unfold setDefault
  split
  · rename_i hx
    rcases h with rfl | h
    · simp [dictGet] at hx
    · exact h
  · refine ⟨by simp, ?_⟩
    intro q hq
    rcases List.mem_append.1 hq with hq | hq
    · rcases h with rfl | h
      · simp at hq
      · exact h.2 q hq
    · rw [List.mem_singleton] at hq; subst hq; exact (by decide : notBlank "barrier" = true)

theorem init_wf {rules dp db : Option PyVal} {name dpr mode pp : String} {ss : PyVal}
    {m : LocalBarrierModel} (h : init rules name dp db dpr mode pp ss = .ok m) : m.WF := by
  unfold init at h
  split at h
  · cases h
  · rename_i t ht
    split at h
    · cases h
    · rename_i d hd
      split at h
      · cases h
      · rename_i d' hd'
        have h1 : ∀ p, d = some p → PropsWF p := by
          intro p hp
          subst hp
          unfold optProperties at hd
          split at hd
          · cases hd
          · cases hd
          · split at hd
            · cases hd
            · cases hd; exact normalizeProperties_wf (by assumption)
        have h2 : ∀ p, d' = some p → PropsWF p := by
          intro p hp
          subst hp
          split at hd'
          · cases hd'; exact h1 p rfl
          · cases hd'; exact h1 p rfl
          · split at hd'
            · cases hd'
            · cases hd'
              refine setDefault_wf ?_ _
              cases d with
              | none => exact Or.inl rfl
              | some q => exact Or.inr (h1 q rfl)
        have h0 : (⟨name, dpr, mode, pp, t, d', [], []⟩ : LocalBarrierModel).WF :=
          ⟨normalizeSiteSpecies_wf ht, h2, by simp, by simp, by simp⟩
        simp only at h
        split at h
        · cases h; exact h0
        · cases h; exact h0
        · rename_i v _
          have hb := build_wf h0 (some v)
          split at h
          · cases h
          · rename_i m' hm'
            rw [hm'] at hb
            cases h
            exact hb

theorem addRules_asDict {m : LocalBarrierModel} {rules : List Rule} (hr : ∀ r ∈ rules, RuleWF r)
    (hk : m.exactKeys = m.rules.filterMap exactKey)
    (hn : ((m.rules ++ rules).filterMap exactKey).Nodup) :
    m.addRules (rules.map fun r => .dict r.asDict) =
      (.ok (), { m with rules := m.rules ++ rules,
                        exactKeys := (m.rules ++ rules).filterMap exactKey }) := by
  induction rules generalizing m with
  | nil => simp [addRules, ← hk]
  | cons r rules ih =>
    simp only [List.map_cons, addRules]
    have hr0 := normalizeRule_asDict (hr r (by simp)) ("rule_" ++ intStr m.rules.length)
    unfold addRule
    simp only [hr0]
    have hn' : (((m.rules ++ [r]) ++ rules).filterMap exactKey).Nodup := by simpa using hn
    cases he : exactKey r with
    | none =>
      simp only
      rw [ih (fun q hq => hr q (by simp [hq])) (by simp [hk, he]) hn']
      simp
    | some k =>
      have hnot : k ∉ m.exactKeys := by
        rw [hk]
        intro hc
        simp only [List.filterMap_append, List.filterMap_cons, he, List.nodup_append] at hn
        exact hn.2.2 k hc k (by simp) rfl
      simp only [hnot, if_false]
      rw [ih (fun q hq => hr q (by simp [hq])) (by simp [hk, he]) hn']
      simp

/-- Writing a model and reading it back gives the same model. -/
theorem fromDict_asDict {m : LocalBarrierModel} (h : m.WF) (hm : m.probabilityMode = supportedMode) :
    fromDict (.dict m.asDict) = .ok m := by
  have g1 : dictGet m.asDict "name" = some (.str m.name) := by simp [asDict, dictGet]
  have g2 : dictGet m.asDict "default_property" = some (.str m.defaultProperty) := by
    simp [asDict, dictGet]
  have g3 : dictGet m.asDict "probability_mode" = some (.str m.probabilityMode) := by
    simp [asDict, dictGet]
  have g4 : dictGet m.asDict "probability_property" = some (.str m.probabilityProperty) := by
    simp [asDict, dictGet]
  have g5 : dictGet m.asDict "rules" = some (.list (m.rules.map fun r => .dict r.asDict)) := by
    simp [asDict, dictGet]
  have g6 : dictGet m.asDict "site_species" = some (siteSpeciesAsDict m.siteSpecies) := by
    simp [asDict, dictGet]
  have g7 : dictGet m.asDict "default_barrier" = none := by simp [asDict, dictGet]
  have g8 : dictGet m.asDict "model_type" = none := by simp [asDict, dictGet]
  have g9 : dictGet m.asDict "default_properties" = some (propsVal m.defaultProperties) := by
    simp [asDict, dictGet]
  unfold fromDict
  simp only [g8]
  simp only [textField, g1, g2, g3, g4, g5, g6, g7, Option.getD_some]
  unfold init
  rw [normalizeSiteSpecies_asDict h.table]
  simp only [g9]
  have hdp : optProperties (some (propsVal m.defaultProperties)) = .ok m.defaultProperties := by
    cases hd : m.defaultProperties with
    | none => rfl
    | some p => simp [optProperties, propsVal, normalizeProperties_dict (h.defaults p hd)]
  rw [hdp]
  simp only
  have hb : build ⟨m.name, m.defaultProperty, m.probabilityMode, m.probabilityProperty,
      m.siteSpecies, m.defaultProperties, [], []⟩ (some (.list (m.rules.map fun r => .dict r.asDict))) =
      (.ok (), m) := by
    unfold build
    simp only [hm, ne_eq, not_true_eq_false, if_false, Option.getD_some]
    rw [addRules_asDict h.rules (by simp) (by simpa using h.nodup)]
    simp only [List.nil_append]
    rw [← h.keys, ← hm]
  rw [hb]

end LocalBarrierModel
end KMC
