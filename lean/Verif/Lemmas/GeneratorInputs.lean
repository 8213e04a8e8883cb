import Verif.Spec.GeneratorInputs
import Verif.Props.GeneratorProps
import Verif.Props.NeighborProps
import Verif.Props.LocalSitesProps
/-
Lemmas on the arguments of `generate_events`.
-/
namespace KMC
namespace Generate
open Spec

/-! ### Names -/

theorem isCharge_iff (c : List Char) : isCharge c = true ↔ ChargeText c := by
  induction c with
  | nil =>
    simp only [isCharge, Bool.false_eq_true, false_iff]
    rintro ⟨ds, s, h, -⟩
    simp at h
  | cons a c ih =>
    cases c with
    | nil =>
      simp only [isCharge, Bool.or_eq_true, decide_eq_true_eq]
      constructor
      · intro h; exact ⟨[], a, rfl, by simp, h⟩
      · rintro ⟨ds, s, h1, -, h2⟩
        cases ds with
        | nil => simp at h1; subst h1; exact h2
        | cons d ds => simp at h1
    | cons b c =>
      rw [isCharge, Bool.and_eq_true, ih]
      · constructor
        · rintro ⟨h0, ds, s, h1, h2, h3⟩
          refine ⟨a :: ds, s, by rw [h1]; rfl, ?_, h3⟩
          intro d hd
          rcases List.mem_cons.1 hd with rfl | hd
          · exact h0
          · exact h2 d hd
        · rintro ⟨ds, s, h1, h2, h3⟩
          cases ds with
          | nil => simp at h1
          | cons d ds =>
            simp only [List.cons_append, List.cons.injEq] at h1
            obtain ⟨rfl, h1⟩ := h1
            exact ⟨h2 a List.mem_cons_self, ds, s, h1, fun d hd => h2 d (List.mem_cons_of_mem _ hd), h3⟩
      · intro h; cases h

theorem charge_not_lower {b : Char} {c : List Char} (h : ChargeText (b :: c)) : b.isLower = false := by
  obtain ⟨ds, s, h1, h2, h3⟩ := h
  cases ds with
  | nil =>
    simp only [List.nil_append, List.cons.injEq] at h1
    obtain ⟨rfl, -⟩ := h1
    rcases h3 with rfl | rfl <;> decide
  | cons d ds =>
    simp only [List.cons_append, List.cons.injEq] at h1
    obtain ⟨rfl, -⟩ := h1
    have := h2 b List.mem_cons_self
    simp only [Char.isDigit, Bool.and_eq_true, decide_eq_true_eq] at this
    simp only [Char.isLower, Bool.and_eq_false_iff, decide_eq_false_iff_not]
    left
    have h4 := this.2
    intro h5
    have h5' : (97 : UInt32) ≤ b.val := h5
    have h4' : b.val ≤ (57 : UInt32) := h4
    have := UInt32.le_trans h5' h4'
    exact absurd this (by decide)

theorem mem_variants (t v : String) : v ∈ variants t ↔ Stands t v := by
  unfold variants Stands
  rw [List.mem_cons]
  apply or_congr Iff.rfl
  rw [Option.mem_toList]
  unfold chargedSymbol
  constructor
  · intro h
    split at h
    · rename_i a b rest ht
      split at h
      · rename_i hc
        simp only [Bool.and_eq_true] at hc
        cases h
        exact ⟨rest, by rw [ht]; simp, .inr ⟨a, b, by simp, hc.1.1, hc.1.2⟩, (isCharge_iff _).1 hc.2⟩
      · split at h
        · rename_i hc
          simp only [Bool.and_eq_true] at hc
          cases h
          exact ⟨b :: rest, by rw [ht]; simp, .inl ⟨a, by simp, hc.1⟩, (isCharge_iff _).1 hc.2⟩
        · cases h
    · cases h
  · rintro ⟨c, h1, h2, h3⟩
    have hc := (isCharge_iff _).2 h3
    rcases h2 with ⟨a, ha, hu⟩ | ⟨a, b, ha, hu, hl⟩
    · have hv : v = String.ofList [a] := by rw [← ha]; simp
      cases c with
      | nil => cases hc
      | cons b rest =>
        rw [h1, ha]
        simp only [List.cons_append, List.nil_append]
        have := charge_not_lower h3
        rw [if_neg (by simp [this]), if_pos (by simp [hu, hc]), hv]
    · have hv : v = String.ofList [a, b] := by rw [← ha]; simp
      rw [h1, ha]
      simp only [List.cons_append, List.nil_append]
      rw [if_pos (by simp [hu, hl, hc]), hv]

mutual
theorem mem_flatten : ∀ (i : Ident) (w : String), w ∈ i.flatten ↔ HasText i w
  | .text s, w => by
    rw [Ident.flatten, List.mem_singleton]
    constructor
    · rintro rfl; exact .text _
    · intro h; cases h; rfl
  | .other s, w => by
    rw [Ident.flatten, List.mem_singleton]
    constructor
    · rintro rfl; exact .other _
    · intro h; cases h; rfl
  | .group l, w => by
    rw [Ident.flatten, mem_flattenAll l w]
    constructor
    · rintro ⟨x, hx, h⟩; exact .member hx h
    · intro h
      cases h with
      | member hx h => exact ⟨_, hx, h⟩
theorem mem_flattenAll : ∀ (l : List Ident) (w : String), w ∈ Ident.flattenAll l ↔ ∃ x ∈ l, HasText x w
  | [], w => by simp [Ident.flattenAll]
  | i :: is, w => by
    rw [Ident.flattenAll, List.mem_append, mem_flatten i w, mem_flattenAll is w]
    simp
end

theorem inferKind_species (i mobile : Ident) :
    inferKind i mobile = .species ↔ ChosenBySpecies (some i) mobile := by
  unfold inferKind ChosenBySpecies
  simp only
  constructor
  · intro h
    split at h
    · rename_i hc
      simp only [Bool.and_eq_true, Bool.not_eq_true', List.isEmpty_eq_false_iff, List.all_eq_true,
        List.any_eq_true, List.contains_eq_mem, List.mem_flatMap, decide_eq_true_eq] at hc
      obtain ⟨h1, h2⟩ := hc
      refine ⟨?_, ?_⟩
      · obtain ⟨w, hw⟩ := List.exists_mem_of_ne_nil _ h1
        exact ⟨w, (mem_flatten _ _).1 hw⟩
      · intro w hw
        obtain ⟨v, hv, m, hm, hmv⟩ := h2 w ((mem_flatten _ _).2 hw)
        exact ⟨m, (mem_flatten _ _).1 hm, v, (mem_variants _ _).1 hv, (mem_variants _ _).1 hmv⟩
    · cases h
  · rintro ⟨⟨w, hw⟩, h⟩
    rw [if_pos]
    simp only [Bool.and_eq_true, Bool.not_eq_true', List.isEmpty_eq_false_iff, List.all_eq_true,
      List.any_eq_true, List.contains_eq_mem, List.mem_flatMap, decide_eq_true_eq]
    refine ⟨List.ne_nil_of_mem ((mem_flatten _ _).2 hw), ?_⟩
    intro w hw
    obtain ⟨m, hm, v, h1, h2⟩ := h w ((mem_flatten _ _).1 hw)
    exact ⟨v, (mem_variants _ _).2 h1, m, (mem_flatten _ _).2 hm, (mem_variants _ _).2 h2⟩

theorem mem_identList (render : List Ident → String) (i : Ident) (w : String) :
    w ∈ i.list render ↔ IsWord render i w := by
  cases i with
  | text s => simp [Ident.list, IsWord]
  | other s => simp [Ident.list, IsWord]
  | group l =>
    simp only [Ident.list, IsWord, List.mem_map]
    exact ⟨fun ⟨x, h1, h2⟩ => ⟨x, h1, h2.symm⟩, fun ⟨x, h1, h2⟩ => ⟨x, h1, h2.symm⟩⟩

section
variable {σ : Type}

theorem accepts_species (render : List Ident → String) (tokens : σ → List String) (i : Ident)
    (s : LabeledSite σ) : accepts render tokens .species i s = true ↔
      ∃ w ∈ tokens s.species, IsWord render i w := by
  simp only [accepts, List.any_eq_true, List.contains_eq_mem, decide_eq_true_eq, mem_identList]

theorem accepts_iff (render : List Ident → String) (tokens : σ → List String) (kind : Kind) (i : Ident)
    (s : LabeledSite σ) (P : Prop) (hk : kind = .species ↔ P) :
    accepts render tokens kind i s = true ↔ Chooses render tokens P i s := by
  unfold Chooses
  cases kind with
  | species =>
    have : P := hk.1 rfl
    rw [accepts_species]
    simp [this]
  | label =>
    have : ¬ P := fun h => by cases hk.2 h
    simp only [accepts, List.contains_eq_mem, decide_eq_true_eq, mem_identList]
    simp [this]

theorem mobileFor_ok (given : Option Ident) (mapping : List (String × List String)) (m : Ident) :
    mobileFor given mapping = .ok m ↔ MobileIs given mapping m := by
  unfold mobileFor MobileIs
  cases given with
  | some x =>
    simp only [Except.ok.injEq]
    exact eq_comm
  | none =>
    have hf : (fun kv : String × List String =>
        (kv.2.map String.toUpper).contains "X" || (kv.2.map String.toUpper).contains "VACANCY") =
        fun e => allowsVacancy e.2 := by
      funext kv
      rw [Bool.eq_iff_iff]
      simp only [allowsVacancy, Bool.or_eq_true, List.contains_eq_mem, decide_eq_true_eq, List.mem_map,
        List.any_eq_true]
      constructor
      · rintro (⟨a, h1, h2⟩ | ⟨a, h1, h2⟩)
        · exact ⟨a, h1, .inl h2⟩
        · exact ⟨a, h1, .inr h2⟩
      · rintro ⟨a, h1, h2 | h2⟩
        · exact .inl ⟨a, h1, h2⟩
        · exact .inr ⟨a, h1, h2⟩
    unfold mobileSpecies
    simp only
    rw [hf]
    constructor
    · intro h
      split at h
      · cases h
      · rename_i hne
        simp only [List.isEmpty_iff] at hne
        cases h
        obtain ⟨e, he⟩ := List.exists_mem_of_ne_nil _ hne
        rw [List.mem_filter] at he
        exact ⟨⟨e, he⟩, rfl⟩
    · rintro ⟨⟨e, he, hv⟩, rfl⟩
      rw [if_neg]
      simp only [List.isEmpty_iff]
      exact List.ne_nil_of_mem (List.mem_filter.2 ⟨he, hv⟩)

theorem pair_ok (i o t : Ident) : pair i = .ok (o, t) ↔ EndsAre (some i) i o t := by
  unfold EndsAre
  cases i with
  | text s =>
    simp only [pair]
    split
    · rename_i a b h
      rw [h]
      simp only [Except.ok.injEq, Prod.mk.injEq, List.cons.injEq, and_true]
      constructor
      · rintro ⟨rfl, rfl⟩; exact ⟨a, b, ⟨rfl, rfl⟩, rfl, rfl⟩
      · rintro ⟨a', b', ⟨rfl, rfl⟩, rfl, rfl⟩; exact ⟨rfl, rfl⟩
    · rename_i h
      simp only [reduceCtorEq, false_iff]
      rintro ⟨a, b, h1, -⟩
      exact h a b h1
  | other s => simp [pair]
  | group l =>
    simp only
    constructor
    · intro h
      unfold pair at h
      split at h
      · rename_i a b h'
        cases h'
        cases h; rfl
      all_goals simp_all
    · rintro rfl; rfl

theorem activeSites_eq {φ : Type} {eqv : σ → σ → Bool}
    {fp : Nat → Nat → List Nat → List Nat → List Nat → Nat × Nat × Nat → List σ →
      List (List σ) → φ}
    {template : List (LabeledSite σ)} {mapping : List (σ × List σ)} {shape : Option (List Int)}
    {o : ActiveSiteOrder σ φ}
    (h : ActiveSiteOrder.fromStructureAndMapping eqv fp (template.map LabeledSite.species) mapping
      shape = .ok o) :
    activeSitesOf o.primitiveActiveIndices template = activeCell eqv mapping template := by
  obtain ⟨-, h2, h3, -⟩ := fromStructureAndMapping_ok h
  obtain ⟨-, q2⟩ := allowedSpeciesBySite_ok h2
  unfold activeSitesOf activeCell
  have : template.zipIdx.filter (fun p => decide (p.2 ∈ o.primitiveActiveIndices)) =
      template.zipIdx.filter ((fun s : LabeledSite σ =>
        match mapping.find? fun kv => eqv s.species kv.1 with
        | some kv => decide (1 < kv.2.length)
        | none => false) ∘ Prod.fst) := by
    apply List.filter_congr
    rintro ⟨s, i⟩ hs
    rw [List.mem_zipIdx_iff_getElem?] at hs
    simp only at hs
    obtain ⟨kv, k1, k2⟩ := q2 i s.species (by rw [List.getElem?_map, hs]; rfl)
    simp only [Function.comp_apply, k1]
    rw [h3, Bool.eq_iff_iff, decide_eq_true_eq, decide_eq_true_eq, mem_activePrimitives, k2]
    simp
  rw [this, ← List.filter_map, List.zipIdx_map_fst]
  apply List.filter_congr
  intro s _
  cases mapping.find? fun kv => eqv s.species kv.1 <;> rfl

theorem mem_sortedSet (l : List String) (w : String) : w ∈ sortedSet l ↔ w ∈ l := by
  unfold sortedSet
  rw [List.mem_insertionSort, List.mem_dedup]

end

section
variable {σ φ S K R : Type} [LinearOrder S] [Field K] [LinearOrder K] [LinearOrder R]

theorem orDefault_iff (four : K) (given : Option K) (r : K) :
    orDefault four given = r ↔ UniformRadius four given r := by
  unfold orDefault UniformRadius
  cases given with
  | none => simp [eq_comm]
  | some c =>
    by_cases hc : c = 0
    · subst hc
      simp only [if_pos, reduceCtorEq, false_or, true_and, Option.some.injEq, ne_eq]
      constructor
      · rintro rfl; exact .inl rfl
      · rintro (rfl | ⟨rfl, h⟩)
        · rfl
        · exact absurd rfl h
    · simp only [if_neg hc, reduceCtorEq, false_or, Option.some.injEq, ne_eq, hc, false_and]
      constructor
      · rintro rfl; exact ⟨rfl, hc⟩
      · rintro ⟨rfl, -⟩; rfl

/-- The table of one radius. -/
theorem pairEntry_uniform {moving all : List String} {c : K} {a b : String} (ha : a ∈ all) (hb : b ∈ all)
    (r : K) : pairEntry (moving.flatMap fun m => all.map fun n => ((m, n), c)) a b = some r ↔
      r = c ∧ (a ∈ moving ∨ b ∈ moving) := by
  have hmem : ∀ e : (String × String) × K, e ∈ (moving.flatMap fun m => all.map fun n => ((m, n), c)) ↔
      e.1.1 ∈ moving ∧ e.1.2 ∈ all ∧ e.2 = c := by
    rintro ⟨⟨x, y⟩, z⟩
    simp only [List.mem_flatMap, List.mem_map, Prod.mk.injEq]
    constructor
    · rintro ⟨m, hm, n, hn, ⟨rfl, rfl⟩, rfl⟩; exact ⟨hm, hn, rfl⟩
    · rintro ⟨h1, h2, rfl⟩; exact ⟨x, h1, y, h2, ⟨rfl, rfl⟩, rfl⟩
  constructor
  · intro h
    obtain ⟨e, he, rfl, h1⟩ := pairEntry_mem h
    obtain ⟨e1, e2, e3⟩ := (hmem e).1 he
    refine ⟨e3, ?_⟩
    rcases h1 with h1 | h1 <;> rw [h1] at e1
    · exact .inl e1
    · exact .inr e1
  · rintro ⟨rfl, h⟩
    cases hp : pairEntry (moving.flatMap fun m => all.map fun n => ((m, n), r)) a b with
    | some d =>
      obtain ⟨e, he, rfl, -⟩ := pairEntry_mem hp
      rw [((hmem e).1 he).2.2]
    | none =>
      exfalso
      unfold pairEntry at hp
      rw [Option.map_eq_none_iff, List.find?_eq_none] at hp
      rcases h with h | h
      · have := hp ((a, b), r) (List.mem_reverse.2 ((hmem _).2 ⟨h, hb, rfl⟩))
        simp at this
      · have := hp ((b, a), r) (List.mem_reverse.2 ((hmem _).2 ⟨h, ha, rfl⟩))
        simp at this

/-- The cutoff of two sites of the cell. -/
theorem cutoffsFor_radius {four : K} {render : List Ident → String} {name : σ → String}
    {tokens : σ → List String} {cell : List (LabeledSite σ)} {i : Inputs K}
    {table : List ((String × String) × K)} (h : cutoffsFor four render name tokens cell i = .ok table)
    {s s' : LabeledSite σ} (hs : s ∈ cell) (hs' : s' ∈ cell) (r : K) :
    pairEntry table (name s.species) (name s'.species) = some r ↔
      Radius render name tokens cell i.cutoffs i.mobile four i.cutoff s s' r := by
  unfold cutoffsFor at h
  unfold Radius
  cases hc : i.cutoffs with
  | some d => rw [hc] at h; cases h; rfl
  | none =>
    rw [hc] at h
    simp only [uniformCutoffs] at h
    split at h
    · cases h
    · cases h
      rw [pairEntry_uniform ((mem_sortedSet _ _).2 (List.mem_map.2 ⟨s, hs, rfl⟩))
        ((mem_sortedSet _ _).2 (List.mem_map.2 ⟨s', hs', rfl⟩))]
      rw [← orDefault_iff]
      apply and_congr eq_comm
      simp only [mem_sortedSet, List.mem_map, List.mem_filter, accepts_species]
      constructor
      · rintro (⟨x, ⟨h1, h2⟩, h3⟩ | ⟨x, ⟨h1, h2⟩, h3⟩)
        · exact ⟨x, h1, .inl h3, h2⟩
        · exact ⟨x, h1, .inr h3, h2⟩
      · rintro ⟨x, h1, h3 | h3, h2⟩
        · exact .inl ⟨x, ⟨h1, h2⟩, h3⟩
        · exact .inr ⟨x, ⟨h1, h2⟩, h3⟩

theorem cutoffsFor_isOk {four : K} {render : List Ident → String} {name : σ → String}
    {tokens : σ → List String} {cell : List (LabeledSite σ)} {i : Inputs K}
    {s s' : LabeledSite σ} {r : K}
    (h : Radius render name tokens cell i.cutoffs i.mobile four i.cutoff s s' r) :
    ∃ table, cutoffsFor four render name tokens cell i = .ok table := by
  unfold cutoffsFor
  unfold Radius at h
  cases hc : i.cutoffs with
  | some d => exact ⟨d, rfl⟩
  | none =>
    rw [hc] at h
    obtain ⟨-, x, h1, -, h2⟩ := h
    simp only [uniformCutoffs]
    rw [if_neg]
    · exact ⟨_, rfl⟩
    · simp only [List.isEmpty_iff]
      refine List.ne_nil_of_mem ((mem_sortedSet _ (name x.species)).2 (List.mem_map.2 ⟨x, ?_, rfl⟩))
      exact List.mem_filter.2 ⟨h1, (accepts_species _ _ _ _).2 h2⟩

/-- The neighbours of a site. -/
theorem mem_neighborList {name : σ → String}
    {search : List (LabeledSite σ) → Nat → K → List (K × Neighbor (LocalSites.Site S K))}
    {cell : List (LabeledSite σ)} {d : Nat → Nat → Cell → K} {place : Nat → Cell → LocalSites.Site S K}
    (hx : ExactNeighbors name (search cell) cell d place) (table : List ((String × String) × K)) (p : Nat)
    (nb : Neighbor (LocalSites.Site S K)) :
    nb ∈ neighborList name search cell (Neighbors.prepareCutoff (some table)) p ↔
      ∃ (c s : LabeledSite σ) (q : Nat) (v : Cell) (r : K), cell[p]? = some c ∧ cell[q]? = some s ∧
        (p ≠ q ∨ v ≠ (0, 0, 0)) ∧ nb = ⟨v, s.localIndex, s.label, place q v⟩ ∧
        pairEntry table (name c.species) (name s.species) = some r ∧ d p q v < r := by
  unfold neighborList
  cases hc : cell[p]? with
  | none => simp
  | some c =>
    simp only
    have hok := (sortBy_isOk Neighbor.payload ["species", "cartesian_x"]
      (((search cell p (Neighbors.prepareCutoff (some table)).2).filter fun x =>
          decide (x.1 < Neighbors.tableGet (Neighbors.prepareCutoff (some table)).1 (name c.species)
            x.2.payload.text 0)).map Prod.snd)).2 (.inr (by
        intro k hk
        simp only [List.mem_cons, List.not_mem_nil, or_false] at hk
        rcases hk with rfl | rfl <;> simp [sortKeyNames]))
    obtain ⟨out, hout⟩ := hok
    rw [hout]
    simp only
    rw [(LocalSites.sortBy_ok hout).same.mem_iff]
    simp only [List.mem_map, List.mem_filter, decide_eq_true_eq, hx.mem, (C51_cutoff _ _ _).1,
      Option.getD_some]
    constructor
    · rintro ⟨x, ⟨⟨q, s, v, h1, h2, h3, rfl⟩, h4⟩, rfl⟩
      simp only [hx.named q s v h1] at h4
      cases hp : pairEntry table (name c.species) (name s.species) with
      | none =>
        rw [hp] at h4
        exact absurd h4 (not_lt.2 (hx.nonneg p q v))
      | some r =>
        rw [hp] at h4
        exact ⟨c, s, q, v, r, rfl, h1, h2, rfl, hp, h4⟩
    · rintro ⟨c', s, q, v, r, hc', h1, h2, rfl, h3, h4⟩
      cases hc'
      refine ⟨(d p q v, ⟨v, s.localIndex, s.label, place q v⟩), ⟨⟨q, s, v, h1, h2, ?_, rfl⟩, ?_⟩, rfl⟩
      · obtain ⟨e, he, rfl, -⟩ := pairEntry_mem h3
        exact le_of_lt (lt_of_lt_of_le h4 ((cutoffLoop_max table [] 0).2 e he))
      · simp only [hx.named q s v h1, h3, Option.getD_some]
        exact h4

/-! ### The matcher -/

theorem clusterOf_symm {dist : LocalSites.Point K → LocalSites.Point K → K}
    (hd : ∀ a b, dist a b = dist b a) (l : List (Neighbor (LocalSites.Site S K))) :
    SymmetricDistances (clusterOf dist l) := by
  intro i j
  simp only [clusterOf]
  cases l[i]? <;> cases l[j]? <;> simp [hd]

theorem matcherOf_permutes {dist : LocalSites.Point K → LocalSites.Point K → K}
    (hd : ∀ a b, dist a b = dist b a) (row : Matcher.Cluster String K → Nat → R) (rtol atol : K)
    (nearest : Bool) : MatcherPermutes (matcherOf (S := S) dist row rtol atol nearest) := by
  intro ref nbrs perm h
  unfold matcherOf at h
  split at h
  · cases h
  · rename_i m hm
    cases h
    have hr := (C49_result_is_relabelling _ _ _ _ _ (clusterOf_symm hd ref)
      (clusterOf_symm hd nbrs) (by simp [clusterOf]) _ _ m hm).1
    have hlen : (clusterOf dist ref).labels.length = (clusterOf dist nbrs).labels.length := by
      by_contra hne
      have := C49_different_labels_rejected (row (clusterOf dist ref)) rtol atol
        (clusterOf dist ref) (clusterOf dist nbrs) false nearest fun hp => hne hp.length_eq
      rw [this] at hm
      cases hm
    have hl : (clusterOf dist nbrs).labels.length = nbrs.length := by simp [clusterOf]
    refine (List.subperm_of_subset hr.nodup ?_).perm_of_length_le ?_
    · intro c hc
      obtain ⟨i, hi, rfl⟩ := List.mem_iff_getElem.1 hc
      rw [List.mem_range, ← hl]
      exact (hr.label i _ (List.getElem?_eq_getElem hi)).1
    · rw [List.length_range, hr.length, hlen, hl]

theorem matcherOf_isOk {dist : LocalSites.Point K → LocalSites.Point K → K}
    (hd : ∀ a b, dist a b = dist b a) (row : Matcher.Cluster String K → Nat → R) (rtol atol : K)
    (ref nbrs : List (Neighbor (LocalSites.Site S K)))
    (h : speciesSignature ref = speciesSignature nbrs) :
    ∃ perm, matcherOf dist row rtol atol true ref nbrs = .ok perm := by
  have hp := (Matcher.signature_eq_iff _ _).1 h
  unfold matcherOf
  rcases match_cases (row (clusterOf dist ref)) rtol atol _ _ (clusterOf_symm hd ref)
      (clusterOf_symm hd nbrs) false true with
    ⟨h1, -⟩ | ⟨-, ⟨π, -, -, h2⟩ | ⟨π, ρ, -, -, -, h2⟩ | ⟨-, π, -, -, h2⟩⟩
  · exact absurd hp h1
  · rw [h2]; exact ⟨_, rfl⟩
  · rw [h2]; exact ⟨_, rfl⟩
  · rw [h2]; exact ⟨_, rfl⟩

end
end Generate
end KMC
