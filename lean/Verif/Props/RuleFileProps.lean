import Verif.Lemmas.RuleFile
import Verif.Spec.LocalBarrier
/-
C143: how the rules of a local barrier model, written as dictionaries, are read.
-/
namespace KMC
open Spec LocalBarrier LocalBarrierModel

/-- The name of a rule. -/
theorem ruleName_iff {d : List (String × PyVal)} (h : ∀ v, HasEntry d "name" v → v = .none ∨ ∃ s, v = .str s)
    (default n : String) : ruleName d default = n ↔ NameMeans d default n := by
  unfold ruleName NameMeans
  unfold HasEntry at *
  cases hv : dictGet d "name" with
  | none => simp [eq_comm]
  | some v =>
    rcases h v hv with rfl | ⟨s, rfl⟩
    · simp [eq_comm]
    · by_cases hs : s = ""
      · subst hs
        simp only [Option.getD_some, if_true]
        constructor
        · rintro rfl; simp
        · rintro (⟨h1, h2⟩ | ⟨-, rfl⟩)
          · simp only [Option.some.injEq, PyVal.str.injEq] at h1; exact absurd h1.symm h2
          · rfl
      · simp only [Option.getD_some, if_neg hs]
        constructor
        · rintro rfl; exact Or.inl ⟨rfl, hs⟩
        · rintro (⟨h1, h2⟩ | ⟨h1 | h1 | h1, -⟩)
          · simpa using h1
          · cases h1
          · cases h1
          · simp only [Option.some.injEq, PyVal.str.injEq] at h1; exact absurd h1 hs

/-- C143.  A dictionary is accepted as a rule exactly if it says something as a rule, and the rule is what it says. -/
theorem C143_rule_read (d : List (String × PyVal)) (hd : Covered d) (name : String) (r : Rule) :
    normalizeRule (.dict d) name = .ok r ↔ RuleMeans d name r := by
  obtain ⟨rn, rk, rp, rm, re⟩ := r
  unfold normalizeRule RuleMeans
  simp only
  rw [← propertiesFromRule_iff, show RestrictionMeans d "mobile_ion_indices" False rm ↔
      optIndices d "mobile_ion_indices" false = .ok rm by rw [optIndices_iff]; simp,
    show RestrictionMeans d "local_env_indices" True re ↔ optIndices d "local_env_indices" true = .ok re by
      rw [optIndices_iff]; simp, ← ruleName_iff hd.1]
  simp only [← coerceType_iff, ← normalizeKind_iff]
  constructor
  · intro h
    split at h
    · cases h
    · rename_i t ht
      split at h
      · cases h
      · rename_i ps hps
        split at h
        · cases h
        · rename_i mob hmob
          split at h
          · cases h
          · rename_i env henv
            split at h
            · cases h
            · rename_i k hk
              cases h
              exact ⟨rfl, hps, hmob, henv, t, ht, hk⟩
  · rintro ⟨rfl, h1, h2, h3, t, ht, hk⟩
    simp only [ht, h1, h2, h3, hk]

/-- C143.  So a dictionary says at most one thing. -/
theorem C143_meaning_unique (d : List (String × PyVal)) (hd : Covered d) (name : String) (r r' : Rule)
    (h : RuleMeans d name r) (h' : RuleMeans d name r') : r = r' := by
  rw [← C143_rule_read d hd] at h h'
  rw [h] at h'
  exact Except.ok.inj h'

/-- C143.  `add_rule`: a dictionary that says nothing is refused and the model stays as it was; one that says a rule
other than an exact one is always accepted; and what an accepted dictionary adds is the rule it says, behind the rules
that were there, under the name `rule_<number>` if it has no name of its own. -/
theorem C143_add_rule (m : LocalBarrierModel) (d : List (String × PyVal)) (hd : Covered d) :
    ((¬∃ r, RuleMeans d ("rule_" ++ intStr m.rules.length) r) →
      (∃ e, (m.addRule (.dict d)).1 = .error e) ∧ (m.addRule (.dict d)).2 = m) ∧
    (∀ r, RuleMeans d ("rule_" ++ intStr m.rules.length) r →
      ((∀ o s, r.kind ≠ .exact o s) → (m.addRule (.dict d)).1 = .ok ()) ∧
      ((m.addRule (.dict d)).1 = .ok () → (m.addRule (.dict d)).2.rules = m.rules ++ [r]) ∧
      ((m.addRule (.dict d)).1 ≠ .ok () → (m.addRule (.dict d)).2 = m)) := by
  constructor
  · intro h
    unfold addRule
    cases hr : normalizeRule (.dict d) ("rule_" ++ intStr m.rules.length) with
    | error e => exact ⟨⟨e, rfl⟩, rfl⟩
    | ok r => exact absurd ⟨r, (C143_rule_read d hd _ r).1 hr⟩ h
  · intro r hr
    have hr' := (C143_rule_read d hd _ r).2 hr
    unfold addRule
    rw [hr']
    simp only
    refine ⟨fun h => ?_, fun h => ?_, fun h => ?_⟩
    · have : exactKey r = none := by
        unfold exactKey
        split
        · rename_i o s hk; exact absurd hk (h o s)
        · rfl
      rw [this]
    · cases hk : exactKey r with
      | none => rfl
      | some k =>
        rw [hk] at h
        simp only at h ⊢
        split at h
        · cases h
        · rename_i hx; rw [if_neg hx]
    · cases hk : exactKey r with
      | none => rw [hk] at h; exact absurd rfl h
      | some k =>
        rw [hk] at h
        simp only at h ⊢
        split at h
        · rename_i hx; rw [if_pos hx]
        · exact absurd rfl h

theorem addRules_meaning (l : List PyVal) (m m' : LocalBarrierModel)
    (hc : ∀ d, PyVal.dict d ∈ l → Covered d) (h : m.addRules l = (.ok (), m')) :
    m'.rules.length = m.rules.length + l.length ∧
    (∀ k < m.rules.length, m'.rules[k]? = m.rules[k]?) ∧
    ∀ (k : Nat) v, l[k]? = some v → ∃ d r, v = .dict d ∧ m'.rules[m.rules.length + k]? = some r ∧
      RuleMeans d ("rule_" ++ intStr ((m.rules.length + k : Nat) : Int)) r := by
  induction l generalizing m with
  | nil => cases h; simp
  | cons v l ih =>
    rw [addRules] at h
    cases hv : m.addRule v with
    | mk o m1 =>
      rw [hv] at h
      cases o with
      | error e => cases h
      | ok u =>
        simp only at h
        have hd : ∃ d, v = .dict d := by
          cases v <;> simp [addRule, normalizeRule] at hv
          exact ⟨_, rfl⟩
        obtain ⟨d, rfl⟩ := hd
        have hcov := hc d (by simp)
        obtain ⟨a1, a2⟩ := C143_add_rule m d hcov
        rw [hv] at a1 a2
        have hex : ∃ r, RuleMeans d ("rule_" ++ intStr m.rules.length) r := by
          by_contra hno
          obtain ⟨⟨e, he⟩, -⟩ := a1 hno
          cases he
        obtain ⟨r, hr⟩ := hex
        have hrules : m1.rules = m.rules ++ [r] := (a2 r hr).2.1 rfl
        obtain ⟨b1, b2, b3⟩ := ih m1 (fun d h => hc d (by simp [h])) h
        rw [hrules] at b1 b2 b3
        simp only [List.length_append, List.length_cons, List.length_nil, Nat.zero_add] at b1 b2 b3 ⊢
        refine ⟨by omega, fun k hk => ?_, fun k v' hk => ?_⟩
        · rw [b2 k (by omega), List.getElem?_append_left hk]
        · cases k with
          | zero =>
            simp only [List.getElem?_cons_zero, Option.some.injEq] at hk
            refine ⟨d, r, hk.symm, ?_, hr⟩
            rw [Nat.add_zero, b2 _ (by omega), List.getElem?_append_right (le_refl _)]
            simp
          | succ k =>
            rw [List.getElem?_cons_succ] at hk
            obtain ⟨d', r', h1, h2, h3⟩ := b3 k v' hk
            rw [show m.rules.length + 1 + k = m.rules.length + (k + 1) by omega] at h2 h3
            exact ⟨d', r', h1, h2, h3⟩

/-- C143.  A model made from a list of rules holds one rule for each element, in their order, and each is what its
dictionary says; the k-th is called `rule_k` if it has no name of its own. -/
theorem C143_list_of_rules (l : List PyVal) (hc : ∀ d, PyVal.dict d ∈ l → Covered d) (name : String)
    (dp db : Option PyVal) (prop mode pp : String) (ss : PyVal) (m : LocalBarrierModel)
    (h : init (some (.list l)) name dp db prop mode pp ss = .ok m) :
    m.rules.length = l.length ∧
    ∀ (k : Nat) v, l[k]? = some v → ∃ d r, v = .dict d ∧ m.rules[k]? = some r ∧
      RuleMeans d ("rule_" ++ intStr (k : Int)) r := by
  unfold init at h
  split at h
  · cases h
  · split at h
    · cases h
    · split at h
      · cases h
      · simp only [build, Option.getD_some] at h
        split at h
        · cases h
        · rename_i o m1 hb
          cases h
          split at hb
          · cases hb
          · obtain ⟨h1, -, h3⟩ := addRules_meaning l _ _ hc hb
            refine ⟨by simpa using h1, fun k v hk => ?_⟩
            obtain ⟨d, r, e1, e2, e3⟩ := h3 k v hk
            simp only [List.length_nil, Nat.zero_add] at e2 e3
            exact ⟨d, r, e1, e2, e3⟩

/-- C143.  A state is named by a number that is not negative, or by one of the words or such a number as text. -/
theorem C143_state_read (v : PyVal) (n : Int) : normalizeState v = .ok n ↔ StateVal v n :=
  normalizeState_iff v n

/-- C143.  The species table: it is accepted exactly if it says something, and it answers what it says; of two keys for
the same site or state the later one counts. -/
theorem C143_species_table (d : List (String × PyVal)) :
    (∀ t, normalizeSiteSpecies (.dict d) = .ok t → TableMeans d t) ∧
    ((∃ t, TableMeans d t) → ∃ t, normalizeSiteSpecies (.dict d) = .ok t) := by
  have inner : ∀ (e : List (String × PyVal)) m, stateMapOf e [] = .ok m → StatesMean e m := by
    intro e m h
    obtain ⟨entries, h1, rfl⟩ := (stateMapOf_iff _ _ _).1 h
    exact ⟨entries, h1, fun n s => by rw [dictGet_foldl_set]; simp [dictGet]⟩
  constructor
  · intro t h
    obtain ⟨entries, h1, rfl⟩ := (siteSpeciesOf_iff _ _ _).1 h
    refine ⟨entries, h1.imp ?_, fun i m => by rw [dictGet_foldl_set]; simp [dictGet]⟩
    rintro g q ⟨h2, e, h3, h4⟩
    exact ⟨h2, e, h3, inner e _ h4⟩
  · rintro ⟨t, entries, h, -⟩
    have : ∃ entries' : List (Int × List (Int × String)), List.Forall₂
        (fun g q => WholeText g.1 q.1 ∧ ∃ e, g.2 = .dict e ∧ stateMapOf e [] = .ok q.2) d entries' := by
      clear t
      induction h with
      | nil => exact ⟨[], .nil⟩
      | cons h1 h2 ih =>
        obtain ⟨es, hes⟩ := ih
        obtain ⟨h3, e, h4, entries, h5, -⟩ := h1
        exact ⟨(_, entries.foldl (fun a p => dictSet a p.1 p.2) []) :: es,
          .cons ⟨h3, e, h4, (stateMapOf_iff _ _ _).2 ⟨entries, h5, rfl⟩⟩ hes⟩
    obtain ⟨es, hes⟩ := this
    exact ⟨_, (siteSpeciesOf_iff _ _ _).2 ⟨es, hes, rfl⟩⟩

/-- C143.  A property given both under `properties` and as `barrier`: the one under `properties` counts. -/
theorem C143_barrier_twice (d base : List (String × PyVal)) (hd : Covered d) (name : String) (r : Rule)
    (v b : PyVal) (f : PyFloat) (h1 : HasEntry d "properties" (.dict base)) (h2 : HasEntry base "barrier" v)
    (h3 : HasEntry d "barrier" b) (hv : NumberVal v f) (h : normalizeRule (.dict d) name = .ok r) :
    dictGet r.props "barrier" = some f := by
  rw [C143_rule_read d hd] at h
  obtain ⟨-, ⟨given, ⟨base', hb, hg⟩, -, hp⟩, -⟩ := h
  have : base' = base := by
    rcases hb with ⟨h, -⟩ | h
    · rw [HasEntry] at h1; rw [h1] at h; cases h
    · rw [HasEntry] at h1 h; rw [h1] at h; cases h; rfl
  subst this
  have hg' : given = base' := by
    rcases hg with ⟨h, -⟩ | ⟨b', f', -, -, ⟨-, h⟩ | ⟨h, -⟩⟩
    · rw [HasEntry] at h3; rw [h3] at h; cases h
    · exact h
    · rw [HasEntry] at h2; rw [h2] at h; cases h
  subst hg'
  unfold HasEntry at h2
  clear h1 h3 hb hg
  generalize r.props = ps at hp ⊢
  induction hp with
  | nil => cases h2
  | cons h1 _ ih =>
    rename_i g p _ _ _
    obtain ⟨k, x⟩ := g
    obtain ⟨k', y⟩ := p
    obtain ⟨h4, -, h5⟩ := h1
    simp only at h4 h5
    subst h4
    rw [dictGet] at h2 ⊢
    split at h2
    · rename_i hk
      rw [if_pos hk]
      cases h2
      rcases hv with ⟨n, rfl, rfl⟩ | rfl
      · rcases h5 with ⟨n', h6, rfl⟩ | h6
        · cases h6; rfl
        · cases h6
      · rcases h5 with ⟨n', h6, rfl⟩ | h6
        · cases h6
        · cases h6; rfl
    · rename_i hk
      rw [if_neg hk]
      exact ih h2

/-- C143.  Keys that are not known are passed over.  So a rule whose condition is written under a misspelt key, without
a `type` and without naming sites of hops, applies to every event in every configuration. -/
theorem C143_unknown_keys_match_everything (d : List (String × PyVal)) (hd : Covered d) (name : String) (r : Rule)
    (hk : ∀ k ∈ ["type", "mobile_ion_indices", "local_env_indices", "pattern", "species", "state", "occupation"],
      dictGet d k = none)
    (h : normalizeRule (.dict d) name = .ok r) :
    r.kind = .constant ∧ ∀ table occ e, Describes table occ e r := by
  rw [C143_rule_read d hd] at h
  obtain ⟨-, -, h1, h2, t, ht, hkind⟩ := h
  have hno : ∀ k v, k ∈ ["type", "mobile_ion_indices", "local_env_indices", "pattern", "species", "state",
      "occupation"] → ¬HasEntry d k v := by
    intro k v hm he
    rw [HasEntry, hk k hm] at he; cases he
  have ht' : t = .constant := by
    rcases ht with ⟨s, hs, -⟩ | ⟨-, ht⟩
    · exact absurd hs (hno _ _ (by simp))
    · cases t with
      | constant => rfl
      | exact => obtain ⟨-, v, hv⟩ := ht; exact absurd hv (hno _ _ (by simp))
      | pattern => obtain ⟨-, v, hv⟩ := ht; exact absurd hv (hno _ _ (by simp))
      | speciesCount => obtain ⟨-, -, v, hv⟩ := ht; exact absurd hv (hno _ _ (by simp))
      | stateCount =>
        obtain ⟨-, -, -, ⟨v, hv⟩ | ⟨v, hv⟩⟩ := ht
        · exact absurd hv (hno _ _ (by simp))
        · exact absurd hv (hno _ _ (by simp))
  subst ht'
  have hconst : r.kind = .constant := hkind
  refine ⟨hconst, fun table occ e => ?_⟩
  unfold Describes
  rw [hconst]
  refine ⟨fun l hl => ?_, fun l hl => ?_, trivial⟩
  · rcases h1 with ⟨-, h⟩ | ⟨v, l', hv, -⟩
    · rw [h] at hl; cases hl
    · exact absurd hv (hno _ _ (by simp))
  · rcases h2 with ⟨-, h⟩ | ⟨v, l', hv, -⟩
    · rw [h] at hl; cases hl
    · exact absurd hv (hno _ _ (by simp))

/-- C143.  A blank name of a species is refused in a list, but accepted on its own. -/
theorem C143_blank_species :
    normalizeSpecies (.list [.str " "]) = .error .valueError ∧ normalizeSpecies (.str " ") = .ok [" "] := by
  constructor <;> decide

/-! ### Cases -/

/-- A rule as it might be written by hand. -/
def handWritten : List (String × PyVal) :=
  [("barrier", .int 300), ("sites", .str " local_env "), ("state", .str " Vacant"), ("min_count", .int 2)]

example : Covered handWritten := by
  constructor <;> intro v h <;> cases h

example : RuleMeans handWritten "rule_0"
    ⟨"rule_0", .stateCount .localEnv 1 ⟨none, some 2, none⟩, [("barrier", .fin 300)], none, none⟩ := by
  rw [← C143_rule_read handWritten (by constructor <;> intro v h <;> cases h)]
  simp [handWritten, normalizeRule, coerceType, dictGet, hasKey, propertiesFromRule, numeric, setDefault,
    normalizeProperties, propertiesOf, optIndices, normalizeKind, normalizeSites, normalizeCounts, countKey, ruleName,
    show selectorOf (pyStrip " local_env ") = some .localEnv by decide +kernel,
    show normalizeState (.str " Vacant") = .ok 1 by decide +kernel, show notBlank "barrier" = true by decide +kernel]

example : ∃ r, normalizeRule (.dict [("barrier", .int 300), ("stat", .int 1), ("count", .int 2)]) "r" = .ok r ∧
    r.kind = .constant :=
  ⟨⟨"r", .constant, [("barrier", .fin 300)], none, none⟩, by
    simp [normalizeRule, coerceType, dictGet, hasKey, propertiesFromRule, numeric, setDefault, normalizeProperties,
      propertiesOf, optIndices, normalizeKind, ruleName, show notBlank "barrier" = true by decide +kernel], rfl⟩

end KMC
