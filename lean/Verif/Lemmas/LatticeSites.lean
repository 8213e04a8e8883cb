import Verif.Lemmas.Lattice
import Verif.Lemmas.LCE
/-
Lemmas about reading a structure into an occupation and back.
-/
namespace KMC
open Spec
namespace Lattice
variable {P K : Type}

theorem stateValue_name {b c : Basis} (h : b.name = c.name) (i : Int) : b.stateValue i = c.stateValue i := by
  cases b <;> cases c <;> first | rfl | (simp [Basis.name] at h)

theorem missingValue_spec (b : Basis) (a : Option (List Specie)) : EmptyValue b a (missingValue b a) := by
  unfold EmptyValue missingValue
  split
  · rfl
  · rfl
  · rename_i s ss
    simp only
    split
    · rename_i i hi
      obtain ⟨⟨a, h1, h2⟩, h3⟩ := firstVacancy_some hi
      exact .inl ⟨i, a, h1, h2, h3, rfl⟩
    · rename_i hn
      refine .inr ⟨firstVacancy_none.1 hn, ?_⟩
      cases ss with
      | nil => rfl
      | cons x xs => simp

theorem emptyValue_unique {b : Basis} {a : Option (List Specie)} {v : Int} (h : EmptyValue b a v) :
    v = missingValue b a := by
  have hm := missingValue_spec b a
  generalize missingValue b a = w at hm
  unfold EmptyValue at h hm
  split at h
  · rw [h, hm]
  · rw [h, hm]
  · simp only at hm
    rcases h with ⟨i, x, h1, h2, h3, rfl⟩ | ⟨h1, rfl⟩ <;> rcases hm with ⟨j, y, k1, k2, k3, rfl⟩ | ⟨k1, rfl⟩
    · rcases Nat.lt_trichotomy i j with hlt | rfl | hlt
      · rw [k3 i hlt x h1] at h2; cases h2
      · rfl
      · rw [h3 j hlt y k1] at k2; cases k2
    · rw [k1 x (List.mem_of_getElem? h1)] at h2; cases h2
    · rw [h1 y (List.mem_of_getElem? k1)] at k2; cases k2
    · rfl

theorem argmin_none [LinearOrder K] {l : List K} : argmin l = none ↔ l = [] := by
  cases l with
  | nil => simp [argmin]
  | cons a l =>
    unfold argmin
    split
    · simp
    · split <;> simp

theorem argmin_some [LinearOrder K] {l : List K} {i : Nat} {m : K} (h : argmin l = some (i, m)) :
    l[i]? = some m ∧ ∀ (j : Nat) (x : K), l[j]? = some x → m ≤ x ∧ (j < i → m < x) := by
  induction l generalizing i m with
  | nil => cases h
  | cons a l ih =>
    unfold argmin at h
    split at h
    · rename_i hn
      cases h
      rw [argmin_none] at hn
      subst hn
      refine ⟨rfl, ?_⟩
      intro j x hx
      cases j with
      | zero => simp at hx; subst hx; exact ⟨le_refl _, fun h => absurd h (by omega)⟩
      | succ j => simp at hx
    · rename_i k b hk
      obtain ⟨h1, h2⟩ := ih hk
      split at h
      · rename_i hab
        cases h
        refine ⟨rfl, ?_⟩
        intro j x hx
        cases j with
        | zero => simp at hx; subst hx; exact ⟨le_refl _, fun h => absurd h (by omega)⟩
        | succ j => exact ⟨le_trans hab (h2 j x (by simpa using hx)).1, fun h => absurd h (by omega)⟩
      · rename_i hab
        cases h
        refine ⟨by simpa using h1, ?_⟩
        intro j x hx
        cases j with
        | zero =>
          simp at hx; subst hx
          exact ⟨le_of_lt (not_le.1 hab), fun _ => not_le.1 hab⟩
        | succ j =>
          obtain ⟨h3, h4⟩ := h2 j x (by simpa using hx)
          exact ⟨h3, fun h => h4 (Nat.lt_of_succ_lt_succ h)⟩

theorem nearest_iff [LinearOrder K] (dist : P → P → K) (sites : List P) (p : P) (i : Nat) (d : K) :
    argmin (sites.map fun t => dist t p) = some (i, d) ↔ Nearest dist sites p i d := by
  have key : ∀ i d, argmin (sites.map fun t => dist t p) = some (i, d) → Nearest dist sites p i d := by
    intro i d h
    obtain ⟨h1, h2⟩ := argmin_some h
    rw [List.getElem?_map] at h1
    constructor
    · cases hq : sites[i]? with
      | none => rw [hq] at h1; cases h1
      | some q => rw [hq] at h1; exact ⟨q, rfl, Option.some.inj h1⟩
    · intro j r hr
      exact h2 j _ (by rw [List.getElem?_map, hr]; rfl)
  constructor
  · exact key i d
  · intro h
    cases ha : argmin (sites.map fun t => dist t p) with
    | none =>
      rw [argmin_none, List.map_eq_nil_iff] at ha
      subst ha
      obtain ⟨⟨q, hq, -⟩, -⟩ := h
      simp at hq
    | some r =>
      obtain ⟨j, e⟩ := r
      obtain ⟨⟨q, hq, rfl⟩, h2⟩ := h
      obtain ⟨⟨r, hr, rfl⟩, h3⟩ := key j e ha
      have h4 := h2 j r hr
      have h5 := h3 i q hq
      rcases Nat.lt_trichotomy i j with hlt | rfl | hlt
      · exact absurd (h5.2 hlt) (not_lt.2 h4.1)
      · rw [hq] at hr; cases hr; rfl
      · exact absurd (h4.2 hlt) (not_lt.2 h5.1)

theorem nearest_unique [LinearOrder K] {dist : P → P → K} {sites : List P} {p : P} {i j : Nat} {d e : K}
    (h : Nearest dist sites p i d) (h' : Nearest dist sites p j e) : i = j ∧ d = e := by
  have := (nearest_iff dist sites p i d).2 h
  rw [(nearest_iff dist sites p j e).2 h'] at this
  cases this
  exact ⟨rfl, rfl⟩

theorem inferMapping_iff [LinearOrder K] (dist : P → P → K) (tol : K) (sites : List P) (ps : List P)
    (is : List Int) :
    inferMapping dist tol sites ps = .ok is ↔
      List.Forall₂ (fun p i => ∃ (k : Nat) (d : K), i = (k : Int) ∧ Nearest dist sites p k d ∧ d ≤ tol) ps is := by
  induction ps generalizing is with
  | nil => cases is <;> simp [inferMapping]
  | cons p ps ih =>
    unfold inferMapping
    constructor
    · intro h
      split at h
      · cases h
      · rename_i i m hm
        split at h
        · cases h
        · rename_i is' his
          split at h
          · cases h
          · rename_i ht
            cases h
            exact .cons ⟨i, m, rfl, (nearest_iff _ _ _ _ _).1 hm, not_lt.1 ht⟩ ((ih is').1 his)
    · intro h
      cases h with
      | cons h1 h2 =>
        obtain ⟨k, d, rfl, hn, hd⟩ := h1
        rw [(nearest_iff _ _ _ _ _).2 hn]
        simp only
        rw [(ih _).2 h2]
        simp only
        rw [if_neg (not_lt.2 hd)]

theorem inferMapping_error [LinearOrder K] {dist : P → P → K} {tol : K} {sites : List P} {ps : List P}
    {e : PyErr} (h : inferMapping dist tol sites ps = .error e) : e = .valueError := by
  induction ps with
  | nil => cases h
  | cons p ps ih =>
    unfold inferMapping at h
    split at h
    · cases h; rfl
    · split at h
      · rename_i e' he; cases h; exact ih he
      · split at h
        · cases h; rfl
        · cases h

/-- The loop that writes the values, for atoms on distinct sites. -/
theorem assign_ok {b : Basis} {allowed : List (Option (List Specie))} {atoms : List (Specie × Nat)}
    {occ occ' : List Int} (hn : (atoms.map (·.2)).Nodup) (hl : occ.length = allowed.length)
    (h : assign b allowed (atoms.map fun a => (a.1, (a.2 : Int))) occ = .ok occ') :
    occ'.length = occ.length ∧
    (∀ sp (k : Nat), (sp, k) ∈ atoms → ∃ l i, allowed[k]? = some (some l) ∧ IsState l sp i ∧
      occ'[k]? = some (b.stateValue (i : Int))) ∧
    ∀ k : Nat, k ∉ atoms.map (·.2) → occ'[k]? = occ[k]? := by
  induction atoms generalizing occ with
  | nil => cases h; exact ⟨rfl, by simp, by simp⟩
  | cons a rest ih =>
    obtain ⟨sp, k⟩ := a
    simp only [List.map_cons] at h hn
    unfold assign at h
    split at h
    · cases h
    · rename_i al hal
      split at h
      · cases h
      · rename_i v hv
        split at h
        · cases h
        · rename_i occ1 hset
          obtain ⟨k', hk', rfl⟩ := pySet_ok_iff.1 hset
          have hkk : k' = k := by
            have := pyIdx_some_nonneg hk' (by omega)
            omega
          subst hkk
          have hlt := pyIdx_lt hk'
          obtain ⟨hl1, hl2, hl3⟩ := ih (List.nodup_cons.1 hn).2 (by simpa using hl) h
          have hk : k' ∉ rest.map (·.2) := (List.nodup_cons.1 hn).1
          refine ⟨by simpa using hl1, ?_, ?_⟩
          · intro sp2 k2 h2
            rcases List.mem_cons.1 h2 with h2 | h2
            · cases h2
              obtain ⟨l, i, rfl, h3, rfl⟩ := (occupationValue_iff _ _ _ _).1 hv
              refine ⟨l, i, ?_, h3, ?_⟩
              · rw [pyGet_ok_iff] at hal
                obtain ⟨q, hq1, hq2⟩ := hal
                rw [pyIdx_natCast (by omega)] at hq1
                cases hq1
                exact hq2
              · rw [hl3 _ hk, List.getElem?_set_self hlt]
            · exact hl2 sp2 k2 h2
          · intro j hj
            simp only [List.map_cons, List.mem_cons, not_or] at hj
            rw [hl3 j hj.2, List.getElem?_set_ne (Ne.symm hj.1)]

theorem assign_total {b : Basis} {allowed : List (Option (List Specie))} {atoms : List (Specie × Nat)}
    {occ : List Int} (hl : occ.length = allowed.length)
    (h : ∀ sp (k : Nat), (sp, k) ∈ atoms → ∃ l i, allowed[k]? = some (some l) ∧ IsState l sp i) :
    ∃ occ', assign b allowed (atoms.map fun a => (a.1, (a.2 : Int))) occ = .ok occ' := by
  induction atoms generalizing occ with
  | nil => exact ⟨occ, rfl⟩
  | cons a rest ih =>
    obtain ⟨sp, k⟩ := a
    obtain ⟨l, i, h1, h2⟩ := h sp k List.mem_cons_self
    have hk : k < allowed.length := by
      by_contra hc; rw [List.getElem?_eq_none (by omega)] at h1; cases h1
    simp only [List.map_cons]
    unfold assign
    rw [pyGet_natCast h1]
    simp only
    rw [(occupationValue_iff _ _ _ _).2 ⟨l, i, rfl, h2, rfl⟩]
    simp only
    rw [pySet_of_idx (pyIdx_natCast (by omega))]
    simp only
    exact ih (by simpa using hl) fun sp k hm => h sp k (List.mem_cons_of_mem _ hm)

theorem assign_error {b : Basis} {allowed : List (Option (List Specie))} {atoms : List (Specie × Nat)}
    {occ : List Int} {e : PyErr} (hl : occ.length = allowed.length)
    (hr : ∀ sp (k : Nat), (sp, k) ∈ atoms → k < allowed.length)
    (h : assign b allowed (atoms.map fun a => (a.1, (a.2 : Int))) occ = .error e) : e = .valueError := by
  induction atoms generalizing occ with
  | nil => cases h
  | cons a rest ih =>
    obtain ⟨sp, k⟩ := a
    have hk := hr sp k List.mem_cons_self
    simp only [List.map_cons] at h
    unfold assign at h
    rw [pyGet_natCast (List.getElem?_eq_getElem hk)] at h
    simp only at h
    split at h
    · cases h; rfl
    · rw [pySet_of_idx (pyIdx_natCast (by omega))] at h
      simp only at h
      exact ih (by simpa using hl) (fun sp k hm => hr sp k (List.mem_cons_of_mem _ hm)) h

theorem describes_unique {b : Basis} {allowed : List (Option (List Specie))} {atoms : List (Specie × Nat)}
    {o o' : List Int} (h : DescribesAtoms b allowed atoms o) (h' : DescribesAtoms b allowed atoms o') : o = o' := by
  apply List.ext_getElem?
  intro k
  by_cases hk : k < allowed.length
  · by_cases ha : ∃ sp, (sp, k) ∈ atoms
    · obtain ⟨sp, ha⟩ := ha
      obtain ⟨l, i, h1, h2, h3⟩ := h.onSite sp k ha
      obtain ⟨l', i', h1', h2', h3'⟩ := h'.onSite sp k ha
      rw [h1] at h1'; cases h1'
      rw [h3, h3', isState_unique h2 h2']
    · obtain ⟨v, h1, h2⟩ := h.empty k _ (List.getElem?_eq_getElem hk) (not_exists.1 ha)
      obtain ⟨v', h1', h2'⟩ := h'.empty k _ (List.getElem?_eq_getElem hk) (not_exists.1 ha)
      rw [h1, h1', emptyValue_unique h2, emptyValue_unique h2']
  · rw [List.getElem?_eq_none (by rw [h.length]; omega), List.getElem?_eq_none (by rw [h'.length]; omega)]

theorem describes_perm {b : Basis} {allowed : List (Option (List Specie))}
    {atoms atoms' : List (Specie × Nat)} {o : List Int} (hp : ∀ x, x ∈ atoms ↔ x ∈ atoms')
    (h : DescribesAtoms b allowed atoms o) : DescribesAtoms b allowed atoms' o where
  length := h.length
  onSite sp k hm := h.onSite sp k ((hp _).2 hm)
  empty k a ha hm := h.empty k a ha fun sp hc => hm sp ((hp _).1 hc)

/-- The heart of `get_occ_from_structure` with inferred mapping. -/
theorem assign_describes {b : Basis} {allowed : List (Option (List Specie))} {atoms : List (Specie × Nat)}
    {occ' : List Int} (hn : (atoms.map (·.2)).Nodup)
    (h : assign b allowed (atoms.map fun a => (a.1, (a.2 : Int))) (allowed.map (missingValue b)) = .ok occ') :
    DescribesAtoms b allowed atoms occ' := by
  obtain ⟨h1, h2, h3⟩ := assign_ok hn (by simp) h
  refine ⟨by simpa using h1, h2, ?_⟩
  intro k a ha hm
  refine ⟨missingValue b a, ?_, missingValue_spec b a⟩
  rw [h3 k (by
    intro hc
    obtain ⟨⟨sp, k'⟩, hx, rfl⟩ := List.mem_map.1 hc
    exact hm sp hx), List.getElem?_map, ha]
  rfl

end Lattice
end KMC
