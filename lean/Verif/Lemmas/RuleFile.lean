import Verif.Lemmas.LocalBarrier
import Verif.Spec.RuleFile
/-
Reading rules: each field of a rule dictionary.
-/
namespace KMC
open Spec LocalBarrier

theorem dropWhile_all {p : Char → Bool} {l : List Char} (h : ∀ c ∈ l, p c = true) : l.dropWhile p = [] := by
  induction l with
  | nil => rfl
  | cons c l ih => rw [List.dropWhile_cons, if_pos (h c (by simp)), ih fun c hc => h c (by simp [hc])]

theorem takeWhile_mem {p : Char → Bool} {l : List Char} {c : Char} (h : c ∈ l.takeWhile p) : p c = true := by
  induction l with
  | nil => cases h
  | cons x l ih =>
    rw [List.takeWhile_cons] at h
    split at h
    · rcases List.mem_cons.1 h with rfl | h
      · assumption
      · exact ih h
    · cases h

theorem dropWhile_head_not {p : Char → Bool} {l : List Char} {c : Char} (h : (l.dropWhile p).head? = some c) :
    p c = false := by
  induction l with
  | nil => cases h
  | cons x l ih =>
    rw [List.dropWhile_cons] at h
    split at h
    · exact ih h
    · rename_i hx
      cases h
      simpa using hx

theorem dropWhile_head {p : Char → Bool} {l : List Char} (h : ∀ c, l.head? = some c → p c = false) :
    l.dropWhile p = l := by
  cases l with
  | nil => rfl
  | cons c l => simp [List.dropWhile_cons, h c rfl]

theorem dropWhile_skip {p : Char → Bool} {a l : List Char} (h : ∀ c ∈ a, p c = true) :
    (a ++ l).dropWhile p = l.dropWhile p := by
  induction a with
  | nil => rfl
  | cons c a ih =>
    rw [List.cons_append, List.dropWhile_cons, if_pos (h c (by simp)), ih fun c hc => h c (by simp [hc])]

theorem pyStrip_iff (s t : String) : pyStrip s = t ↔ Trims s t := by
  unfold pyStrip
  constructor
  · rintro rfl
    refine ⟨s.toList.takeWhile Char.isWhitespace,
      ((s.toList.dropWhile Char.isWhitespace).reverse.takeWhile Char.isWhitespace).reverse, ?_, ?_, ?_, ?_, ?_⟩
    · rw [String.toList_ofList, List.append_assoc, ← List.reverse_append, List.takeWhile_append_dropWhile,
        List.reverse_reverse, List.takeWhile_append_dropWhile]
    · intro c hc; exact takeWhile_mem hc
    · intro c hc; exact takeWhile_mem (List.mem_reverse.1 hc)
    · intro c hc
      rw [String.toList_ofList] at hc
      set m := s.toList.dropWhile Char.isWhitespace with hm
      have hpre : (m.reverse.dropWhile Char.isWhitespace).reverse <+: m := by
        have := List.dropWhile_suffix (p := Char.isWhitespace) (l := m.reverse)
        have := List.reverse_prefix.2 this
        rwa [List.reverse_reverse] at this
      obtain ⟨u, hu⟩ := hpre
      have h2 : m.head? = some c := by
        rw [← hu, List.head?_append, hc]; rfl
      exact dropWhile_head_not h2
    · intro c hc
      rw [String.toList_ofList, List.getLast?_reverse] at hc
      exact dropWhile_head_not hc
  · rintro ⟨a, b, hs, ha, hb, hh, hl⟩
    rw [hs, List.append_assoc, dropWhile_skip ha]
    by_cases h0 : t.toList = []
    · rw [h0, List.nil_append, dropWhile_all hb]
      have : t = "" := by rw [← String.ofList_toList (s := t), h0]
      rw [this]; rfl
    · have h1 : (t.toList ++ b).dropWhile Char.isWhitespace = t.toList ++ b := by
        apply dropWhile_head
        intro c hc
        rw [List.head?_append] at hc
        cases ht : t.toList.head? with
        | none => exact absurd (List.head?_eq_none_iff.1 ht) h0
        | some x => rw [ht] at hc; cases hc; exact hh _ ht
      rw [h1, List.reverse_append, dropWhile_skip fun c hc => hb c (List.mem_reverse.1 hc), dropWhile_head,
        List.reverse_reverse, String.ofList_toList]
      intro c hc
      rw [List.head?_reverse] at hc
      exact hl c hc

theorem notBlank_iff (s : String) : notBlank s = true ↔ HasInk s := by
  simp [notBlank, HasInk]

theorem parseDigits_iff (cs : List Char) (acc n : Nat) :
    parseDigits cs acc = some n ↔ (∀ c ∈ cs, '0'.toNat ≤ c.toNat ∧ c.toNat ≤ '9'.toNat) ∧
      n = cs.foldl (fun a c => 10 * a + (c.toNat - '0'.toNat)) acc := by
  have h0 : '0'.toNat = 48 := rfl
  have h9 : '9'.toNat = 57 := rfl
  rw [h0, h9]
  induction cs generalizing acc with
  | nil => simp [parseDigits, eq_comm]
  | cons c cs ih =>
    rw [parseDigits]
    by_cases hc : 48 ≤ c.toNat ∧ c.toNat ≤ 57
    · rw [if_pos hc]
      refine (ih _).trans ?_
      simp [hc, Nat.mul_comm]
    · rw [if_neg hc]
      simp only [reduceCtorEq, List.mem_cons, forall_eq_or_imp, false_iff]
      rintro ⟨⟨h, -⟩, -⟩
      exact hc h

theorem parseInt_iff (s : String) (n : Int) : parseInt s = some n ↔ WholeText s n := by
  have key : ∀ (c : Char) (cs : List Char) (k : Nat), parseDigits (c :: cs) 0 = some k ↔ Decimal (c :: cs) k := by
    intro c cs k
    rw [parseDigits_iff]; simp [Decimal]
  have sign : ∀ (c : Char) (cs : List Char) (k : Nat), (c = '-' ∨ c = '+') → ¬ Decimal (c :: cs) k := by
    rintro c cs k hc ⟨-, h, -⟩
    have := h c (by simp)
    rcases hc with rfl | rfl
    · exact absurd this.1 (by decide)
    · exact absurd this.1 (by decide)
  have lift : ∀ (c : Char) (cs : List Char), (do let a ← parseDigits (c :: cs) 0; pure (a : Int)) =
      Option.map (fun a : Nat => (a : Int)) (parseDigits (c :: cs) 0) := by
    intro c cs; cases parseDigits (c :: cs) 0 <;> rfl
  have main : parseInt s = some n ↔ ∃ ds k, Decimal ds k ∧
      (((pyStrip s).toList = ds ∧ n = k) ∨ ((pyStrip s).toList = '+' :: ds ∧ n = k) ∨
        ((pyStrip s).toList = '-' :: ds ∧ n = -(k : Int))) := by
    unfold parseInt
    generalize (pyStrip s).toList = l
    split
    · constructor
      · simp
      · rintro ⟨ds, k, hd, (⟨h, -⟩ | ⟨h, -⟩ | ⟨h, -⟩)⟩
        · exact absurd h.symm hd.1
        · cases h
        · cases h
    · rename_i c cs
      simp only [lift, Option.map_map, Option.map_eq_some_iff, Function.comp]
      constructor
      · rintro ⟨k, hk, rfl⟩
        exact ⟨_, k, (key _ _ _).1 hk, Or.inr (Or.inr ⟨rfl, rfl⟩)⟩
      · rintro ⟨ds, k, hd, (⟨h, -⟩ | ⟨h, -⟩ | ⟨h, rfl⟩)⟩
        · rw [← h] at hd; exact absurd hd (sign _ _ _ (Or.inl rfl))
        · simp at h
        · cases h; exact ⟨k, (key _ _ _).2 hd, rfl⟩
    · rename_i c cs
      simp only [lift, Option.map_map, Option.map_eq_some_iff, Function.comp]
      constructor
      · rintro ⟨k, hk, rfl⟩
        exact ⟨_, k, (key _ _ _).1 hk, Or.inr (Or.inl ⟨rfl, rfl⟩)⟩
      · rintro ⟨ds, k, hd, (⟨h, -⟩ | ⟨h, rfl⟩ | ⟨h, -⟩)⟩
        · rw [← h] at hd; exact absurd hd (sign _ _ _ (Or.inr rfl))
        · cases h; exact ⟨k, (key _ _ _).2 hd, rfl⟩
        · simp at h
    · rename_i c cs h1 h2
      simp only [lift, Option.map_map, Option.map_eq_some_iff, Function.comp]
      constructor
      · rintro ⟨k, hk, rfl⟩
        exact ⟨_, k, (key _ _ _).1 hk, Or.inl ⟨rfl, rfl⟩⟩
      · rintro ⟨ds, k, hd, (⟨h, rfl⟩ | ⟨h, -⟩ | ⟨h, -⟩)⟩
        · rw [← h] at hd; exact ⟨k, (key _ _ _).2 hd, rfl⟩
        · obtain ⟨rfl, rfl⟩ := List.cons.inj h
          obtain ⟨x, xs, rfl⟩ := List.exists_cons_of_ne_nil hd.1
          exact absurd rfl (h2 x xs rfl)
        · obtain ⟨rfl, rfl⟩ := List.cons.inj h
          obtain ⟨x, xs, rfl⟩ := List.exists_cons_of_ne_nil hd.1
          exact absurd rfl (h1 x xs rfl)
  rw [main]
  constructor
  · rintro ⟨ds, k, hd, h⟩
    exact ⟨_, ds, k, (pyStrip_iff _ _).1 rfl, hd, h⟩
  · rintro ⟨t, ds, k, ht, hd, h⟩
    rw [← pyStrip_iff] at ht
    subst ht
    exact ⟨ds, k, hd, h⟩

/-- A whole number is not one of the words. -/
theorem wholeText_word (w : String) (n : Int) (h : WholeText w n) : dictGet stateAliases w = none := by
  rw [← parseInt_iff] at h
  by_contra hc
  obtain ⟨k, hk⟩ := Option.ne_none_iff_exists'.1 hc
  have hmem : w ∈ ["occupied", "match", "template", "vacant", "vacancy", "mismatch", "other"] := by
    unfold stateAliases at hk
    simp only [dictGet] at hk
    split_ifs at hk <;> simp_all
  simp only [List.mem_cons, List.not_mem_nil, or_false] at hmem
  rcases hmem with rfl | rfl | rfl | rfl | rfl | rfl | rfl <;>
    exact absurd h (by rw [show parseInt _ = none by decide +kernel]; simp)

theorem normalizeState_str (s : String) (n : Int) : normalizeState (.str s) = .ok n ↔ StateText s n := by
  have words : ∀ w, ((w ∈ ["occupied", "match", "template"] ∧ n = 0) ∨
      (w ∈ ["vacant", "vacancy", "mismatch", "other"] ∧ n = 1)) ↔ dictGet stateAliases w = some n := by
    intro w
    unfold stateAliases
    simp only [dictGet, List.mem_cons, List.not_mem_nil, or_false]
    split_ifs <;> simp_all [eq_comm]
  have main : normalizeState (.str s) = .ok n ↔
      dictGet stateAliases (pyLower (pyStrip s)) = some n ∨ (0 ≤ n ∧ WholeText (pyLower (pyStrip s)) n) := by
    simp only [normalizeState]
    cases h : dictGet stateAliases (pyLower (pyStrip s)) with
    | some k =>
      constructor
      · intro h'; cases h'; exact Or.inl rfl
      · rintro (h' | ⟨-, h'⟩)
        · cases h'; rfl
        · rw [wholeText_word _ _ h'] at h; cases h
    | none =>
      simp only [reduceCtorEq, false_or]
      rw [← parseInt_iff]
      cases hp : parseInt (pyLower (pyStrip s)) with
      | none => simp
      | some k =>
        simp only [Option.some.injEq]
        by_cases hk : k < 0
        · rw [if_pos hk]
          constructor
          · intro h'; cases h'
          · rintro ⟨h1, rfl⟩; omega
        · rw [if_neg hk]
          constructor
          · intro h'; cases h'; exact ⟨by omega, rfl⟩
          · rintro ⟨-, rfl⟩; rfl
  rw [main, ← words]
  constructor
  · intro h
    refine ⟨pyStrip s, pyLower (pyStrip s), (pyStrip_iff _ _).1 rfl, ?_, by rwa [or_assoc] at h⟩
    rw [pyLower, String.toList_ofList]
  · rintro ⟨t, w, ht, hw, h⟩
    rw [← pyStrip_iff] at ht
    subst ht
    have : w = pyLower (pyStrip s) := by
      rw [pyLower, ← hw, String.ofList_toList]
    subst this
    rwa [or_assoc]

theorem normalizeState_iff (v : PyVal) (n : Int) : normalizeState v = .ok n ↔ StateVal v n := by
  cases v with
  | str s => rw [normalizeState_str]; simp [StateVal]
  | int k =>
    simp only [normalizeState, StateVal, PyVal.int.injEq, reduceCtorEq, false_and, exists_false, or_false]
    by_cases hk : k < 0
    · rw [if_pos hk]
      constructor
      · intro h; cases h
      · rintro ⟨rfl, h⟩; omega
    · rw [if_neg hk]
      constructor
      · intro h; cases h; exact ⟨rfl, by omega⟩
      · rintro ⟨rfl, -⟩; rfl
  | _ => simp [normalizeState, StateVal]

theorem statesOf_iff (x : List PyVal) (l : List Int) : statesOf x = .ok l ↔ List.Forall₂ StateVal x l := by
  induction x generalizing l with
  | nil => cases l <;> simp [statesOf]
  | cons v x ih =>
    rw [statesOf]
    cases hv : normalizeState v with
    | error e =>
      simp only [reduceCtorEq, false_iff]
      intro h
      cases h with
      | cons h1 h2 => rw [← normalizeState_iff, hv] at h1; cases h1
    | ok n =>
      simp only
      cases hx : statesOf x with
      | error e =>
        simp only [reduceCtorEq, false_iff]
        intro h
        cases h with
        | cons h1 h2 => rw [← ih, hx] at h2; cases h2
      | ok m =>
        simp only [Except.ok.injEq]
        constructor
        · rintro rfl
          exact .cons ((normalizeState_iff _ _).1 hv) ((ih _).1 hx)
        · intro h
          cases h with
          | cons h1 h2 =>
            rw [← normalizeState_iff, hv] at h1
            rw [← ih, hx] at h2
            cases h1; cases h2; rfl

theorem patternOf_iff (x : List PyVal) (l : List (Option Int)) :
    patternOf x = .ok l ↔ List.Forall₂ PlaceVal x l := by
  have place : ∀ (v : PyVal) (o : Option Int), ((if isWildcard v then (.ok none : Py (Option Int))
      else match normalizeState v with
        | .error e => .error e
        | .ok n => .ok (some n)) = .ok o) ↔ PlaceVal v o := by
    intro v o
    by_cases hw : isWildcard v = true
    · rw [if_pos hw]
      cases v <;> simp only [isWildcard, Bool.false_eq_true] at hw
      rename_i s
      have hs : pyStrip s = "*" := by simpa using hw
      have ht := (pyStrip_iff s "*").1 hs
      constructor
      · intro h; cases h; exact Or.inl ⟨rfl, s, rfl, ht⟩
      · rintro (⟨rfl, -⟩ | ⟨n, rfl, hn⟩)
        · rfl
        · exfalso
          rw [← normalizeState_iff] at hn
          simp only [normalizeState, hs] at hn
          rw [show dictGet stateAliases (pyLower "*") = none by decide,
            show parseInt (pyLower "*") = none by decide +kernel] at hn
          cases hn
    · rw [if_neg hw]
      have hno : ¬∃ s, v = .str s ∧ Trims s "*" := by
        rintro ⟨s, rfl, h⟩
        rw [← pyStrip_iff] at h
        exact hw (by simp [isWildcard, h])
      simp only [PlaceVal, hno, and_false, false_or]
      cases hv : normalizeState v with
      | error e =>
        simp only [reduceCtorEq, false_iff]
        rintro ⟨n, -, h⟩
        rw [← normalizeState_iff, hv] at h; cases h
      | ok n =>
        simp only [Except.ok.injEq]
        constructor
        · rintro rfl; exact ⟨n, rfl, (normalizeState_iff _ _).1 hv⟩
        · rintro ⟨k, rfl, h⟩
          rw [← normalizeState_iff, hv] at h; cases h; rfl
  induction x generalizing l with
  | nil => cases l <;> simp [patternOf]
  | cons v x ih =>
    rw [patternOf]
    generalize hg : (if isWildcard v then (.ok none : Py (Option Int))
      else match normalizeState v with
        | .error e => .error e
        | .ok n => .ok (some n)) = g
    have hp := fun o => place v o
    rw [hg] at hp
    cases g with
    | error e =>
      simp only [reduceCtorEq, false_iff]
      intro h
      cases h with
      | cons h1 h2 => have := (hp _).2 h1; cases this
    | ok o =>
      simp only
      cases hx : patternOf x with
      | error e =>
        simp only [reduceCtorEq, false_iff]
        intro h
        cases h with
        | cons h1 h2 => have h3 := (ih _).2 h2; rw [hx] at h3; cases h3
      | ok m =>
        simp only [Except.ok.injEq]
        constructor
        · rintro rfl
          exact .cons ((hp _).1 rfl) ((ih _).1 hx)
        · intro h
          cases h with
          | cons h1 h2 =>
            have h3 := (hp _).2 h1
            have h4 := (ih _).2 h2
            rw [hx] at h4
            cases h3; cases h4; rfl

theorem intsOf_iff (x : List PyVal) (l : List Int) : intsOf x = .ok l ↔ x = l.map .int := by
  induction x generalizing l with
  | nil => cases l <;> simp [intsOf]
  | cons v x ih =>
    cases v with
    | int n =>
      rw [intsOf]
      cases hx : intsOf x with
      | error e =>
        simp only [reduceCtorEq, false_iff]
        intro h
        cases l with
        | nil => cases h
        | cons a l =>
          simp only [List.map_cons, List.cons.injEq, PyVal.int.injEq] at h
          rw [(ih l).2 h.2] at hx; cases hx
      | ok m =>
        have hm := (ih m).1 hx
        simp only [Except.ok.injEq]
        constructor
        · rintro rfl; simp [hm]
        · intro h
          cases l with
          | nil => cases h
          | cons a l =>
            simp only [List.map_cons, List.cons.injEq, PyVal.int.injEq] at h
            obtain ⟨rfl, h⟩ := h
            rw [(ih l).2 h] at hx
            cases hx; rfl
    | _ => cases l <;> simp [intsOf]

theorem normalizeIndices_iff (v : PyVal) (b : Bool) (l : List Int) :
    normalizeIndices v b = .ok l ↔ IntSequence v l ∧ (l = [] → b = true) := by
  have go : ∀ x : List PyVal, (if x.isEmpty && !b then (.error .valueError : Py (List Int)) else intsOf x) = .ok l ↔
      x = l.map .int ∧ (l = [] → b = true) := by
    intro x
    by_cases hx : (x.isEmpty && !b) = true
    · rw [if_pos hx]
      simp only [reduceCtorEq, false_iff]
      rintro ⟨rfl, h⟩
      simp only [Bool.and_eq_true, List.isEmpty_iff, List.map_eq_nil_iff, Bool.not_eq_true'] at hx
      rw [h hx.1] at hx; cases hx.2
    · rw [if_neg hx, intsOf_iff]
      simp only [iff_self_and]
      rintro rfl rfl
      cases b
      · simp at hx
      · rfl
  cases v with
  | list x => simp only [normalizeIndices]; rw [go]; simp [IntSequence, Sequence]
  | tuple x => simp only [normalizeIndices]; rw [go]; simp [IntSequence, Sequence]
  | _ => simp [normalizeIndices, IntSequence, Sequence]

theorem numeric_iff (v : PyVal) (f : PyFloat) : numeric v = .ok f ↔ NumberVal v f := by
  cases v <;> simp [numeric, NumberVal, eq_comm]

theorem propertiesOf_iff (d : List (String × PyVal)) (p : Properties) :
    propertiesOf d = .ok p ↔ List.Forall₂ (fun g q => g.1 = q.1 ∧ HasInk g.1 ∧ NumberVal g.2 q.2) d p := by
  induction d generalizing p with
  | nil => cases p <;> simp [propertiesOf]
  | cons g d ih =>
    obtain ⟨k, v⟩ := g
    rw [propertiesOf]
    by_cases hk : notBlank k = true
    · rw [if_neg (by simp [hk])]
      cases hv : numeric v with
      | error e =>
        simp only [reduceCtorEq, false_iff]
        intro h
        cases h with
        | cons h1 h2 => rw [← numeric_iff, hv] at h1; cases h1.2.2
      | ok f =>
        simp only
        cases hx : propertiesOf d with
        | error e =>
          simp only [reduceCtorEq, false_iff]
          intro h
          cases h with
          | cons h1 h2 => rw [← ih, hx] at h2; cases h2
        | ok m =>
          simp only [Except.ok.injEq]
          constructor
          · rintro rfl
            exact .cons ⟨rfl, (notBlank_iff k).1 hk, (numeric_iff _ _).1 hv⟩ ((ih _).1 hx)
          · intro h
            cases h with
            | cons h1 h2 =>
              rename_i q ps
              obtain ⟨k', f'⟩ := q
              obtain ⟨h3, -, h4⟩ := h1
              rw [← numeric_iff, hv] at h4
              rw [← ih, hx] at h2
              simp only at h3
              cases h4; cases h2; rw [h3]
    · rw [if_pos (by simpa using hk)]
      simp only [reduceCtorEq, false_iff]
      intro h
      cases h with
      | cons h1 h2 => exact hk ((notBlank_iff k).2 h1.2.1)

theorem normalizeProperties_iff (d : List (String × PyVal)) (p : Properties) :
    normalizeProperties (.dict d) = .ok p ↔
      d ≠ [] ∧ List.Forall₂ (fun g q => g.1 = q.1 ∧ HasInk g.1 ∧ NumberVal g.2 q.2) d p := by
  rw [normalizeProperties]
  cases d with
  | nil => simp
  | cons g d => rw [if_neg (by simp), propertiesOf_iff]; simp

theorem propertiesFromRule_iff (d : List (String × PyVal)) (p : Properties) :
    propertiesFromRule d = .ok p ↔ PropertiesMean d p := by
  unfold propertiesFromRule PropertiesMean
  have given : ∀ base, (dictGet d "properties").getD (.dict []) = .dict base →
      ((match dictGet d "barrier" with
        | none => normalizeProperties (.dict base)
        | some b => match numeric b with
          | .error e => .error e
          | .ok f => normalizeProperties (.dict (setDefault base "barrier" (.float f)))) = .ok p ↔
      ∃ g, ((dictGet d "barrier" = none ∧ g = base) ∨
        ∃ b f, HasEntry d "barrier" b ∧ NumberVal b f ∧
          (((∃ v, HasEntry base "barrier" v) ∧ g = base) ∨
            (dictGet base "barrier" = none ∧ g = base ++ [("barrier", .float f)]))) ∧ g ≠ [] ∧
        List.Forall₂ (fun g p => g.1 = p.1 ∧ HasInk g.1 ∧ NumberVal g.2 p.2) g p) := by
    intro base _
    cases hb : dictGet d "barrier" with
    | none =>
      simp only
      rw [normalizeProperties_iff]
      constructor
      · intro h; exact ⟨base, Or.inl ⟨by simp, rfl⟩, h⟩
      · rintro ⟨g, (⟨-, rfl⟩ | ⟨b, f, h, -⟩), h'⟩
        · exact h'
        · rw [HasEntry, hb] at h; cases h
    | some b =>
      simp only [reduceCtorEq, false_and, false_or]
      cases hn : numeric b with
      | error e =>
        simp only [reduceCtorEq, false_iff]
        rintro ⟨g, ⟨b', f, h, h', -⟩, -⟩
        rw [HasEntry, hb] at h
        cases h
        rw [← numeric_iff, hn] at h'; cases h'
      | ok f =>
        simp only
        rw [normalizeProperties_iff]
        have hsd : ∀ g, (((∃ v, HasEntry base "barrier" v) ∧ g = base) ∨
            (dictGet base "barrier" = none ∧ g = base ++ [("barrier", .float f)])) ↔
            g = setDefault base "barrier" (.float f) := by
          intro g
          unfold setDefault HasEntry
          cases dictGet base "barrier" <;> simp
        constructor
        · intro h
          exact ⟨_, ⟨b, f, hb, (numeric_iff _ _).1 hn, (hsd _).2 rfl⟩, h⟩
        · rintro ⟨g, ⟨b', f', h, h', h''⟩, h3⟩
          rw [HasEntry, hb] at h
          cases h
          rw [← numeric_iff, hn] at h'
          cases h'
          rw [hsd] at h''
          subst h''
          exact h3
  unfold PropertiesGiven
  cases hp : dictGet d "properties" with
  | none =>
    have := given [] (by rw [hp]; rfl)
    simp only [Option.getD_none]
    refine this.trans ?_
    constructor
    · rintro ⟨g, h1, h2⟩; exact ⟨g, ⟨[], Or.inl ⟨by simp, rfl⟩, h1⟩, h2⟩
    · rintro ⟨g, ⟨b, (⟨-, rfl⟩ | h), h1⟩, h2⟩
      · exact ⟨g, h1, h2⟩
      · rw [HasEntry, hp] at h; cases h
  | some v =>
    simp only [Option.getD_some]
    have none_of : (∀ b, v ≠ .dict b) → ¬∃ g, (∃ base, ((some v = none ∧ base = []) ∨
        HasEntry d "properties" (.dict base)) ∧
        ((dictGet d "barrier" = none ∧ g = base) ∨
          ∃ b f, HasEntry d "barrier" b ∧ NumberVal b f ∧
            (((∃ v, HasEntry base "barrier" v) ∧ g = base) ∨
              (dictGet base "barrier" = none ∧ g = base ++ [("barrier", .float f)])))) ∧ g ≠ [] ∧
        List.Forall₂ (fun g p => g.1 = p.1 ∧ HasInk g.1 ∧ NumberVal g.2 p.2) g p := by
      rintro hv ⟨g, ⟨b, (⟨h, -⟩ | h), -⟩, -⟩
      · cases h
      · rw [HasEntry, hp] at h; exact hv b (Option.some.inj h)
    cases v with
    | dict b =>
      have := given b (by rw [hp]; rfl)
      refine this.trans ?_
      constructor
      · rintro ⟨g, h1, h2⟩; exact ⟨g, ⟨b, Or.inr hp, h1⟩, h2⟩
      · rintro ⟨g, ⟨b', (⟨h, -⟩ | h), h1⟩, h2⟩
        · cases h
        · rw [HasEntry, hp] at h; cases h; exact ⟨g, h1, h2⟩
    | _ => exact ⟨fun h => (by cases h), fun h => absurd h (none_of fun b h => by cases h)⟩

theorem selectorOf_iff (t : String) (s : Sites) : selectorOf t = some s ↔ (t, s) ∈ selectorWords := by
  unfold selectorOf selectorWords
  split <;> simp_all [eq_comm]

theorem normalizeSites_iff (d : List (String × PyVal)) (default s : Sites) :
    normalizeSites (dictGet d "sites") default = .ok s ↔ SitesMean d default s := by
  unfold SitesMean HasEntry
  cases hv : dictGet d "sites" with
  | none => simp [normalizeSites, eq_comm]
  | some v =>
    have seq : (∀ x, v ≠ .str x) → v ≠ .none →
        ((match normalizeIndices v false with
          | .error e => (.error e : Py Sites)
          | .ok l => .ok (.listed l)) = .ok s ↔ ∃ v' l, some v = some v' ∧ IntSequence v' l ∧ l ≠ [] ∧
            s = .listed l) := by
      intro _ _
      cases hn : normalizeIndices v false with
      | error e =>
        simp only [reduceCtorEq, false_iff]
        rintro ⟨v', l, h, h1, h2, -⟩
        cases h
        rw [(normalizeIndices_iff v false l).2 ⟨h1, fun h => absurd h h2⟩] at hn
        cases hn
      | ok l =>
        obtain ⟨h1, h2⟩ := (normalizeIndices_iff v false l).1 hn
        simp only [Except.ok.injEq]
        constructor
        · rintro rfl; exact ⟨v, l, rfl, h1, fun h => (by cases h2 h), rfl⟩
        · rintro ⟨v', l', h, h3, h4, rfl⟩
          cases h
          rw [(normalizeIndices_iff v false l').2 ⟨h3, fun h => absurd h h4⟩] at hn
          cases hn; rfl
    cases v with
    | none => simp [normalizeSites, eq_comm, IntSequence, Sequence]
    | str x =>
      simp only [normalizeSites]
      have : (∃ x_1 t, some (PyVal.str x) = some (PyVal.str x_1) ∧ Trims x_1 t ∧ (t, s) ∈ selectorWords) ↔
          selectorOf (pyStrip x) = some s := by
        rw [selectorOf_iff]
        constructor
        · rintro ⟨y, t, h, h1, h2⟩
          cases h
          rw [← pyStrip_iff] at h1
          subst h1; exact h2
        · intro h; exact ⟨x, _, rfl, (pyStrip_iff _ _).1 rfl, h⟩
      rw [this]
      cases selectorOf (pyStrip x) <;> simp [IntSequence, Sequence]
    | _ => simp only [normalizeSites]; refine (seq (by simp) (by simp)).trans ?_; simp

theorem countKey_iff (d : List (String × PyVal)) (k : String) (o : Option Int) :
    countKey d k = .ok o ↔ BoundMeans d k o := by
  unfold countKey BoundMeans HasEntry
  cases dictGet d k with
  | none => simp [eq_comm]
  | some v =>
    cases v with
    | int n =>
      simp only [reduceCtorEq, false_and, false_or, Option.some.injEq, PyVal.int.injEq]
      by_cases hn : n < 0
      · rw [if_pos hn]
        simp only [reduceCtorEq, false_iff]
        rintro ⟨m, rfl, h, -⟩; omega
      · rw [if_neg hn]
        constructor
        · intro h; cases h; exact ⟨n, rfl, by omega, rfl⟩
        · rintro ⟨m, rfl, -, rfl⟩; rfl
    | _ => simp

theorem normalizeCounts_iff (d : List (String × PyVal)) (c : CountSpec) :
    normalizeCounts d = .ok c ↔ CountsMean d c := by
  unfold normalizeCounts CountsMean
  rw [← countKey_iff, ← countKey_iff, ← countKey_iff]
  cases countKey d "count" with
  | error e => simp
  | ok a =>
    cases countKey d "min_count" with
    | error e => simp
    | ok b =>
      cases countKey d "max_count" with
      | error e => simp
      | ok x =>
        obtain ⟨c1, c2, c3⟩ := c
        simp only [Except.ok.injEq]
        cases a <;> cases b <;> cases x <;> simp <;> rintro rfl rfl rfl <;> simp

theorem speciesOf_iff (x : List PyVal) (l : List String) :
    speciesOf x = .ok l ↔ x = l.map .str ∧ ∀ s ∈ l, HasInk s := by
  induction x generalizing l with
  | nil => cases l <;> simp [speciesOf]
  | cons v x ih =>
    cases v with
    | str s =>
      rw [speciesOf]
      by_cases hs : notBlank s = true
      · rw [if_neg (by simp [hs])]
        cases hx : speciesOf x with
        | error e =>
          simp only [reduceCtorEq, false_iff]
          rintro ⟨h, h'⟩
          cases l with
          | nil => cases h
          | cons a l =>
            simp only [List.map_cons, List.cons.injEq] at h
            rw [(ih l).2 ⟨h.2, fun s hs => h' s (by simp [hs])⟩] at hx; cases hx
        | ok m =>
          obtain ⟨h1, h2⟩ := (ih m).1 hx
          simp only [Except.ok.injEq]
          constructor
          · rintro rfl
            exact ⟨by simp [h1], by simpa using ⟨(notBlank_iff s).1 hs, h2⟩⟩
          · rintro ⟨h, h'⟩
            cases l with
            | nil => cases h
            | cons a l =>
              simp only [List.map_cons, List.cons.injEq, PyVal.str.injEq] at h
              obtain ⟨rfl, h⟩ := h
              rw [(ih l).2 ⟨h, fun s hs => h' s (by simp [hs])⟩] at hx
              cases hx; rfl
      · rw [if_pos (by simpa using hs)]
        simp only [reduceCtorEq, false_iff]
        rintro ⟨h, h'⟩
        cases l with
        | nil => cases h
        | cons a l =>
          simp only [List.map_cons, List.cons.injEq, PyVal.str.injEq] at h
          obtain ⟨rfl, h⟩ := h
          exact hs ((notBlank_iff _).2 (h' _ (by simp)))
    | _ => cases l <;> simp [speciesOf]

theorem normalizeSpecies_iff (d : List (String × PyVal)) (l : List String) :
    normalizeSpecies ((dictGet d "species").getD .none) = .ok l ↔ SpeciesMean d l := by
  unfold SpeciesMean HasEntry
  have go : ∀ x : List PyVal, (if x.isEmpty then (.error .valueError : Py (List String)) else speciesOf x) = .ok l ↔
      x = l.map .str ∧ l ≠ [] ∧ ∀ s ∈ l, HasInk s := by
    intro x
    cases x with
    | nil =>
      simp only [List.isEmpty_nil, if_true, reduceCtorEq, false_iff]
      rintro ⟨h, h1, -⟩
      exact h1 (List.map_eq_nil_iff.1 h.symm)
    | cons v x =>
      rw [if_neg (by simp), speciesOf_iff]
      constructor
      · rintro ⟨h, h'⟩; exact ⟨h, (by rintro rfl; cases h), h'⟩
      · rintro ⟨h, -, h'⟩; exact ⟨h, h'⟩
  cases dictGet d "species" with
  | none => simp [normalizeSpecies]
  | some v =>
    simp only [Option.getD_some]
    cases v with
    | str s => simp [normalizeSpecies, Sequence, eq_comm]
    | list x => simp only [normalizeSpecies]; rw [go]; simp [Sequence]
    | tuple x => simp only [normalizeSpecies]; rw [go]; simp [Sequence]
    | _ => simp [normalizeSpecies, Sequence]

theorem optIndices_iff (d : List (String × PyVal)) (k : String) (b : Bool) (o : Option (List Int)) :
    optIndices d k b = .ok o ↔ RestrictionMeans d k (b = true) o := by
  unfold optIndices RestrictionMeans HasEntry
  cases dictGet d k with
  | none => simp [eq_comm]
  | some v =>
    simp only [reduceCtorEq, false_and, false_or, Option.some.injEq]
    cases hn : normalizeIndices v b with
    | error e =>
      simp only [reduceCtorEq, false_iff]
      rintro ⟨v', l, rfl, h1, h2, -⟩
      rw [(normalizeIndices_iff _ _ _).2 ⟨h1, h2⟩] at hn; cases hn
    | ok l =>
      obtain ⟨h1, h2⟩ := (normalizeIndices_iff _ _ _).1 hn
      simp only [Except.ok.injEq]
      constructor
      · rintro rfl; exact ⟨v, l, rfl, h1, h2, rfl⟩
      · rintro ⟨v', l', rfl, h3, h4, rfl⟩
        rw [(normalizeIndices_iff _ _ _).2 ⟨h3, h4⟩] at hn; cases hn; rfl

theorem coerceType_iff (d : List (String × PyVal)) (t : RuleType) : coerceType d = .ok t ↔ TypeMeans d t := by
  have has : ∀ k, (∃ v, HasEntry d k v) ↔ hasKey d k = true := by
    intro k; unfold HasEntry hasKey; cases dictGet d k <;> simp
  have keys : (if hasKey d "occupations" && hasKey d "mobile_ion_indices" then (.ok .exact : Py RuleType)
      else if hasKey d "pattern" then .ok .pattern
      else if hasKey d "species" then .ok .speciesCount
      else if hasKey d "state" || hasKey d "occupation" then .ok .stateCount
      else .ok .constant) = .ok t ↔ TypeFromKeys d t := by
    unfold TypeFromKeys
    simp only [has]
    generalize hasKey d "occupations" = a1
    generalize hasKey d "mobile_ion_indices" = a2
    generalize hasKey d "pattern" = a3
    generalize hasKey d "species" = a4
    generalize hasKey d "state" = a5
    generalize hasKey d "occupation" = a6
    cases t <;> revert a1 a2 a3 a4 a5 a6 <;> decide
  have text : ∀ s, ruleTypeOf s = some t ↔ s = typeText t := by
    intro s
    unfold ruleTypeOf
    split <;> cases t <;> simp_all [typeText]
  unfold coerceType TypeMeans
  cases hv : dictGet d "type" with
  | none =>
    simp only [Option.getD_none, keys, HasEntry, hv]
    simp
  | some v =>
    simp only [Option.getD_some]
    have noStr : (∀ s, v ≠ .str s) → ¬∃ s, HasEntry d "type" (.str s) ∧ Trims s (typeText t) := by
      rintro h ⟨s, hs, -⟩
      rw [HasEntry, hv] at hs
      exact h s (Option.some.inj hs)
    cases v with
    | none =>
      simp only [keys]
      rw [or_iff_right (noStr (by simp))]
      simp [HasEntry, hv]
    | str s =>
      simp only
      have h1 : (∃ s', HasEntry d "type" (.str s') ∧ Trims s' (typeText t)) ↔ pyStrip s = typeText t := by
        constructor
        · rintro ⟨s', h, h'⟩
          rw [HasEntry, hv] at h; cases h; exact (pyStrip_iff _ _).2 h'
        · intro h; exact ⟨s, hv, (pyStrip_iff _ _).1 h⟩
      have h2 : ¬((some (PyVal.str s) = none ∨ HasEntry d "type" .none) ∧ TypeFromKeys d t) := by
        rintro ⟨h | h, -⟩
        · cases h
        · rw [HasEntry, hv] at h; cases h
      rw [or_iff_left h2, h1, ← text]
      by_cases hb : notBlank s = true
      · rw [if_neg (by simp [hb])]
        cases ruleTypeOf (pyStrip s) <;> simp
      · rw [if_pos (by simpa using hb)]
        simp only [reduceCtorEq, false_iff]
        intro h
        rw [text, pyStrip_iff] at h
        obtain ⟨a, b, hs, -, -, hh, -⟩ := h
        rw [notBlank_iff] at hb
        obtain ⟨c, cs, hc⟩ : ∃ c cs, (typeText t).toList = c :: cs := by
          cases t <;> exact ⟨_, _, rfl⟩
        exact hb ⟨c, by rw [hs, hc]; simp, hh c (by rw [hc]; rfl)⟩
    | _ =>
      simp only [reduceCtorEq, false_iff]
      rintro (h | ⟨h | h, -⟩)
      · exact noStr (by simp) h
      · cases h
      · rw [HasEntry, hv] at h; cases h

theorem indicesAt_iff (d : List (String × PyVal)) (k : String) (b : Bool) (l : List Int) :
    normalizeIndices ((dictGet d k).getD .none) b = .ok l ↔
      ∃ v, HasEntry d k v ∧ IntSequence v l ∧ (l = [] → b = true) := by
  unfold HasEntry
  cases dictGet d k with
  | none => simp [normalizeIndices]
  | some v => rw [Option.getD_some, normalizeIndices_iff]; simp

theorem occupationsAt_iff (d : List (String × PyVal)) (k : String) (l : List Int) :
    normalizeOccupations ((dictGet d k).getD .none) = .ok l ↔
      ∃ v vals, HasEntry d k v ∧ Sequence v vals ∧ vals ≠ [] ∧ List.Forall₂ StateVal vals l := by
  unfold HasEntry
  have go : ∀ x : List PyVal, (if x.isEmpty then (.error .valueError : Py (List Int)) else statesOf x) = .ok l ↔
      x ≠ [] ∧ List.Forall₂ StateVal x l := by
    intro x
    cases x with
    | nil => simp
    | cons v x => rw [if_neg (by simp), statesOf_iff]; simp
  cases dictGet d k with
  | none => simp [normalizeOccupations]
  | some v =>
    cases v with
    | list x => simp only [normalizeOccupations, Option.getD_some]; rw [go]; simp [Sequence]
    | tuple x => simp only [normalizeOccupations, Option.getD_some]; rw [go]; simp [Sequence]
    | _ => simp [normalizeOccupations, Sequence]

theorem patternAt_iff (d : List (String × PyVal)) (k : String) (l : List (Option Int)) :
    normalizePattern ((dictGet d k).getD .none) = .ok l ↔
      ∃ v vals, HasEntry d k v ∧ Sequence v vals ∧ vals ≠ [] ∧ List.Forall₂ PlaceVal vals l := by
  unfold HasEntry
  have go : ∀ x : List PyVal, (if x.isEmpty then (.error .valueError : Py (List (Option Int))) else patternOf x) =
      .ok l ↔ x ≠ [] ∧ List.Forall₂ PlaceVal x l := by
    intro x
    cases x with
    | nil => simp
    | cons v x => rw [if_neg (by simp), patternOf_iff]; simp
  cases dictGet d k with
  | none => simp [normalizePattern]
  | some v =>
    cases v with
    | list x => simp only [normalizePattern, Option.getD_some]; rw [go]; simp [Sequence]
    | tuple x => simp only [normalizePattern, Option.getD_some]; rw [go]; simp [Sequence]
    | _ => simp [normalizePattern, Sequence]

theorem stateAt_iff (d : List (String × PyVal)) (n : Int) :
    (match dictGet d "occupation" with
      | some v => normalizeState v
      | none => normalizeState ((dictGet d "state").getD .none)) = .ok n ↔
      ∃ v, (HasEntry d "occupation" v ∨ (dictGet d "occupation" = none ∧ HasEntry d "state" v)) ∧ StateVal v n := by
  unfold HasEntry
  cases dictGet d "occupation" with
  | some v => simp only [normalizeState_iff]; simp
  | none =>
    simp only [normalizeState_iff]
    cases dictGet d "state" with
    | none => simp [StateVal]
    | some v => simp

theorem normalizeKind_iff (d : List (String × PyVal)) (t : RuleType) (k : Kind) :
    normalizeKind d t = .ok k ↔ KindMeans d t k := by
  cases t with
  | constant => simp [normalizeKind, KindMeans, eq_comm]
  | exact =>
    simp only [normalizeKind, KindMeans]
    constructor
    · intro h
      split at h
      · cases h
      · rename_i mob hm
        split at h
        · cases h
        · rename_i env he
          split at h
          · cases h
          · rename_i occ ho
            split at h
            · cases h
            · rename_i hl
              obtain ⟨vm, m1, m2, m3⟩ := (indicesAt_iff _ _ _ _).1 hm
              obtain ⟨ve, e1, e2, -⟩ := (indicesAt_iff _ _ _ _).1 he
              obtain ⟨vo, vals, o1, o2, -, o3⟩ := (occupationsAt_iff _ _ _).1 ho
              rw [canonicalSites_eq] at h hl
              cases h
              exact ⟨vm, ve, vo, mob, env, vals, occ, m1, m2, (fun h => by cases m3 h), e1, e2, o1, o2, o3,
                not_not.1 hl, rfl⟩
    · rintro ⟨vm, ve, vo, mob, env, vals, occ, m1, m2, m3, e1, e2, o1, o2, o3, hl, rfl⟩
      have hne : vals ≠ [] := by
        rintro rfl
        cases o3
        obtain ⟨a, mob, rfl⟩ := List.exists_cons_of_ne_nil m3
        have : a ∈ (a :: mob ++ env).eraseDups := List.mem_eraseDups.2 (by simp)
        rw [List.length_nil, eq_comm, List.length_eq_zero_iff] at hl
        rw [hl] at this; cases this
      rw [(indicesAt_iff d _ _ mob).2 ⟨vm, m1, m2, fun h => absurd h m3⟩]
      simp only
      rw [(indicesAt_iff d _ _ env).2 ⟨ve, e1, e2, fun _ => rfl⟩]
      simp only
      rw [(occupationsAt_iff d _ occ).2 ⟨vo, vals, o1, o2, hne, o3⟩]
      simp only
      rw [canonicalSites_eq, if_neg (by simp [hl])]
  | pattern =>
    simp only [normalizeKind, KindMeans]
    constructor
    · intro h
      split at h
      · cases h
      · rename_i s hs
        split at h
        · cases h
        · rename_i p hp
          cases h
          obtain ⟨v, vals, h1, h2, h3, h4⟩ := (patternAt_iff _ _ _).1 hp
          exact ⟨s, v, vals, p, (normalizeSites_iff _ _ _).1 hs, h1, h2, h3, h4, rfl⟩
    · rintro ⟨s, v, vals, p, hs, h1, h2, h3, h4, rfl⟩
      rw [(normalizeSites_iff _ _ _).2 hs]
      simp only
      rw [(patternAt_iff _ _ _).2 ⟨v, vals, h1, h2, h3, h4⟩]
  | stateCount =>
    simp only [normalizeKind, KindMeans]
    constructor
    · intro h
      split at h
      · cases h
      · rename_i s hs
        split at h
        · cases h
        · rename_i n hn
          split at h
          · cases h
          · rename_i c hc
            cases h
            obtain ⟨v, h1, h2⟩ := (stateAt_iff _ _).1 hn
            exact ⟨s, v, n, c, (normalizeSites_iff _ _ _).1 hs, h1, h2, (normalizeCounts_iff _ _).1 hc, rfl⟩
    · rintro ⟨s, v, n, c, hs, h1, h2, hc, rfl⟩
      rw [(normalizeSites_iff _ _ _).2 hs]
      simp only
      have hn := (stateAt_iff d n).2 ⟨v, h1, h2⟩
      split
      · rename_i e he
        cases he.symm.trans hn
      · rename_i n' hn'
        cases hn'.symm.trans hn
        rw [(normalizeCounts_iff _ _).2 hc]
  | speciesCount =>
    simp only [normalizeKind, KindMeans]
    constructor
    · intro h
      split at h
      · cases h
      · rename_i s hs
        split at h
        · cases h
        · rename_i names hn
          split at h
          · cases h
          · rename_i c hc
            cases h
            exact ⟨s, names, c, (normalizeSites_iff _ _ _).1 hs, (normalizeSpecies_iff _ _).1 hn,
              (normalizeCounts_iff _ _).1 hc, rfl⟩
    · rintro ⟨s, names, c, hs, hn, hc, rfl⟩
      rw [(normalizeSites_iff _ _ _).2 hs]
      simp only
      rw [(normalizeSpecies_iff _ _).2 hn]
      simp only
      rw [(normalizeCounts_iff _ _).2 hc]

theorem dictGet_foldl_set {κ α : Type} [DecidableEq κ] (l : List (κ × α)) (acc : List (κ × α)) (k : κ) (v : α) :
    dictGet (l.foldl (fun a p => dictSet a p.1 p.2) acc) k = some v ↔
      LastFor l k v ∨ (dictGet acc k = some v ∧ ∀ p ∈ l, p.1 ≠ k) := by
  induction l generalizing acc with
  | nil => simp [LastFor]
  | cons p l ih =>
    obtain ⟨k', v'⟩ := p
    have hlast : LastFor ((k', v') :: l) k v ↔ LastFor l k v ∨ (k' = k ∧ v' = v ∧ ∀ p ∈ l, p.1 ≠ k) := by
      constructor
      · rintro ⟨a, b, h, hb⟩
        cases a with
        | nil =>
          simp only [List.nil_append, List.cons.injEq, Prod.mk.injEq] at h
          obtain ⟨⟨rfl, rfl⟩, rfl⟩ := h
          exact Or.inr ⟨rfl, rfl, hb⟩
        | cons x a =>
          simp only [List.cons_append, List.cons.injEq] at h
          exact Or.inl ⟨a, b, h.2, hb⟩
      · rintro (⟨a, b, rfl, hb⟩ | ⟨rfl, rfl, h⟩)
        · exact ⟨(k', v') :: a, b, rfl, hb⟩
        · exact ⟨[], l, rfl, h⟩
    rw [List.foldl_cons]
    refine (ih _).trans ?_
    rw [hlast, dictGet_dictSet]
    by_cases hk : k' = k
    · subst hk
      simp
    · have hk' : ¬k = k' := fun h => hk h.symm
      simp [hk, hk']

theorem stateMapOf_iff (d : List (String × PyVal)) (acc m : List (Int × String)) :
    stateMapOf d acc = .ok m ↔ ∃ entries : List (Int × String),
      List.Forall₂ (fun g q => StateText g.1 q.1 ∧ g.2 = .str q.2 ∧ HasInk q.2) d entries ∧
      m = entries.foldl (fun a p => dictSet a p.1 p.2) acc := by
  induction d generalizing acc with
  | nil =>
    simp only [stateMapOf, Except.ok.injEq, List.forall₂_nil_left_iff, exists_eq_left, List.foldl_nil]
    exact eq_comm
  | cons g d ih =>
    obtain ⟨k, v⟩ := g
    rw [stateMapOf]
    cases hk : normalizeState (.str k) with
    | error e =>
      simp only [reduceCtorEq, false_iff]
      rintro ⟨entries, h, -⟩
      cases h with
      | cons h1 h2 => have h3 := (normalizeState_str _ _).2 h1.1; simp only at h3; rw [hk] at h3; cases h3
    | ok n =>
      simp only
      cases v with
      | str s =>
        simp only
        by_cases hs : notBlank s = true
        · rw [if_pos hs]
          refine (ih _).trans ?_
          constructor
          · rintro ⟨entries, h, rfl⟩
            exact ⟨(n, s) :: entries, .cons ⟨(normalizeState_str _ _).1 hk, rfl, (notBlank_iff _).1 hs⟩ h, rfl⟩
          · rintro ⟨entries, h, rfl⟩
            cases h with
            | cons h1 h2 =>
              rename_i q entries
              obtain ⟨n', s'⟩ := q
              obtain ⟨h3, h4, -⟩ := h1
              have h3' := (normalizeState_str _ _).2 h3
              simp only at h3' h4
              rw [hk] at h3'
              cases h3'; cases h4
              exact ⟨entries, h2, rfl⟩
        · rw [if_neg hs]
          simp only [reduceCtorEq, false_iff]
          rintro ⟨entries, h, -⟩
          cases h with
          | cons h1 h2 =>
            obtain ⟨-, h4, h5⟩ := h1
            simp only [PyVal.str.injEq] at h4
            rw [← h4] at h5
            exact hs ((notBlank_iff _).2 h5)
      | _ =>
        simp only [reduceCtorEq, false_iff]
        rintro ⟨entries, h, -⟩
        cases h with
        | cons h1 h2 => cases h1.2.1

theorem siteSpeciesOf_iff (d : List (String × PyVal)) (acc t : List (Int × List (Int × String))) :
    siteSpeciesOf d acc = .ok t ↔ ∃ entries : List (Int × List (Int × String)),
      List.Forall₂ (fun g q => WholeText g.1 q.1 ∧ ∃ e, g.2 = .dict e ∧ stateMapOf e [] = .ok q.2) d entries ∧
      t = entries.foldl (fun a p => dictSet a p.1 p.2) acc := by
  induction d generalizing acc with
  | nil =>
    simp only [siteSpeciesOf, Except.ok.injEq, List.forall₂_nil_left_iff, exists_eq_left, List.foldl_nil]
    exact eq_comm
  | cons g d ih =>
    obtain ⟨k, v⟩ := g
    rw [siteSpeciesOf]
    cases hk : parseInt k with
    | none =>
      simp only [reduceCtorEq, false_iff]
      rintro ⟨entries, h, -⟩
      cases h with
      | cons h1 h2 => have h3 := (parseInt_iff _ _).2 h1.1; simp only at h3; rw [hk] at h3; cases h3
    | some i =>
      simp only
      cases v with
      | dict e =>
        simp only
        cases hm : stateMapOf e [] with
        | error x =>
          simp only [reduceCtorEq, false_iff]
          rintro ⟨entries, h, -⟩
          cases h with
          | cons h1 h2 =>
            obtain ⟨-, e', h4, h5⟩ := h1
            cases h4
            rw [hm] at h5; cases h5
        | ok m =>
          simp only
          refine (ih _).trans ?_
          constructor
          · rintro ⟨entries, h, rfl⟩
            exact ⟨(i, m) :: entries, .cons ⟨(parseInt_iff _ _).1 hk, e, rfl, hm⟩ h, rfl⟩
          · rintro ⟨entries, h, rfl⟩
            cases h with
            | cons h1 h2 =>
              rename_i q entries
              obtain ⟨i', m'⟩ := q
              obtain ⟨h3, e', h4, h5⟩ := h1
              have h3' := (parseInt_iff _ _).2 h3
              simp only at h3' h4 h5
              cases h4
              rw [hm] at h5
              rw [hk] at h3'
              cases h3'; cases h5
              exact ⟨entries, h2, rfl⟩
      | _ =>
        simp only [reduceCtorEq, false_iff]
        rintro ⟨entries, h, -⟩
        cases h with
        | cons h1 h2 => obtain ⟨-, e, h, -⟩ := h1; cases h

end KMC
