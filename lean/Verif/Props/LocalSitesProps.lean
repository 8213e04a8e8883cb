import Verif.Lemmas.LocalSites
import Verif.Props.GeneratorProps
import Verif.Props.ClusterMatcherProps
/-
Local environments: which sites they contain and in which order (C83).
-/
namespace KMC
open Spec LocalSites

section
variable {S K σ φ : Type} [LinearOrder S] [LinearOrder K]

/-! ### Numbers of active sites -/

theorem filter_zipIdx_getElem? {α : Type} (l : List α) (q : α → Bool) (n k j : Nat) :
    (((l.zipIdx n).filter fun p => q p.1).map Prod.snd)[k]? = some j ↔
      ∃ i a, j = n + i ∧ l[i]? = some a ∧ q a = true ∧ k = ((l.take i).filter q).length := by
  induction l generalizing n k with
  | nil => simp
  | cons x xs ih =>
    rw [List.zipIdx_cons]
    by_cases hx : q x = true
    · rw [List.filter_cons_of_pos (by simpa using hx), List.map_cons]
      cases k with
      | zero =>
        simp only [List.getElem?_cons_zero, Option.some.injEq]
        constructor
        · rintro rfl
          exact ⟨0, x, rfl, rfl, hx, by simp⟩
        · rintro ⟨i, a, rfl, h1, h2, h3⟩
          cases i with
          | zero => rfl
          | succ i => rw [List.take_succ_cons, List.filter_cons_of_pos hx] at h3; simp at h3
      | succ k =>
        rw [List.getElem?_cons_succ, ih]
        constructor
        · rintro ⟨i, a, rfl, h1, h2, h3⟩
          refine ⟨i + 1, a, by omega, by simpa using h1, h2, ?_⟩
          rw [List.take_succ_cons, List.filter_cons_of_pos hx, List.length_cons, h3]
        · rintro ⟨i, a, rfl, h1, h2, h3⟩
          cases i with
          | zero => simp at h3
          | succ i =>
            rw [List.take_succ_cons, List.filter_cons_of_pos hx, List.length_cons] at h3
            exact ⟨i, a, by omega, by simpa using h1, h2, by omega⟩
    · rw [List.filter_cons_of_neg (by simpa using hx), ih]
      constructor
      · rintro ⟨i, a, rfl, h1, h2, h3⟩
        refine ⟨i + 1, a, by omega, by simpa using h1, h2, ?_⟩
        rw [List.take_succ_cons, List.filter_cons_of_neg (by simpa using hx), h3]
      · rintro ⟨i, a, rfl, h1, h2, h3⟩
        cases i with
        | zero => simp at h1; subst h1; exact absurd h2 hx
        | succ i =>
          rw [List.take_succ_cons, List.filter_cons_of_neg (by simpa using hx)] at h3
          exact ⟨i, a, by omega, by simpa using h1, h2, h3⟩

/-- Whether a site may change. -/
def mayChange (eqv : σ → σ → Bool) (mapping : List (σ × List σ)) (s : TemplateSite σ S K) : Bool :=
  match mapping.find? fun kv => eqv s.species kv.1 with
  | some kv => decide (1 < kv.2.length)
  | none => false

omit [LinearOrder S] [LinearOrder K] in
theorem changeable_eq (eqv : σ → σ → Bool) (mapping : List (σ × List σ))
    (template : List (TemplateSite σ S K)) :
    changeable eqv mapping template = template.filter (mayChange eqv mapping) := rfl

omit [LinearOrder S] [LinearOrder K] in
theorem mem_changeable_singleton (eqv : σ → σ → Bool) (mapping : List (σ × List σ))
    (t : TemplateSite σ S K) : t ∈ changeable eqv mapping [t] ↔ mayChange eqv mapping t = true := by
  rw [changeable_eq, List.mem_filter]
  simp

theorem sorted_eq_of_mem {l l' : List Nat} (h : l.Pairwise (· < ·)) (h' : l'.Pairwise (· < ·))
    (hm : ∀ i, i ∈ l ↔ i ∈ l') : l = l' := by
  refine List.Perm.eq_of_pairwise (le := (· < ·)) ?_ h h' ?_
  · intro a b _ _ h1 h2; omega
  · exact (List.perm_ext_iff_of_nodup (h.imp fun h => Nat.ne_of_lt h) (h'.imp fun h => Nat.ne_of_lt h)).2 hm

omit [LinearOrder S] [LinearOrder K] in
/-- The order made without a supercell shape. -/
theorem primitive_order {eqv : σ → σ → Bool}
    {fp : Nat → Nat → List Nat → List Nat → List Nat → Nat × Nat × Nat → List σ →
      List (List σ) → φ}
    {template : List (TemplateSite σ S K)} {mapping : List (σ × List σ)} {o : ActiveSiteOrder σ φ}
    (h : ActiveSiteOrder.fromStructureAndMapping eqv fp (template.map TemplateSite.species) mapping
      none = .ok o) :
    ActiveSiteOrder.pickAll (template.map TemplateSite.site) o.activeToOriginal =
      .ok ((changeable eqv mapping template).map TemplateSite.site) ∧
    ∀ i k, dictGet (primitiveToActive o) i = some k ↔
      ∃ t, template[i]? = some t ∧ mayChange eqv mapping t = true ∧
        k = (changeable eqv mapping (template.take i)).length := by
  obtain ⟨hcount, -, hsort, -, hmem, -, -⟩ := C41_numbering h
  obtain ⟨h1, h2, h3, h4, h5, h6, -⟩ := fromStructureAndMapping_ok h
  obtain ⟨q1, q2⟩ := allowedSpeciesBySite_ok h2
  have hshape : cellCount o.supercellShape = 1 := by
    simp only [normalizeSupercellShape, Except.ok.injEq] at h1
    rw [← h1]; rfl
  let idx := (template.zipIdx.filter fun p => mayChange eqv mapping p.1).map Prod.snd
  have hidx : ∀ i, i ∈ idx ↔ ∃ t, template[i]? = some t ∧ mayChange eqv mapping t = true := fun i =>
    mem_filter_zipIdx template (mayChange eqv mapping) i
  have hidxs : idx.Pairwise (· < ·) := filter_zipIdx_sorted _ _ _
  have hspec : ∀ (i : Nat) (t : TemplateSite σ S K), template[i]? = some t → (mayChange eqv mapping t = true ↔
      ∃ s kv, (template.map TemplateSite.species)[i]? = some s ∧
        mapping.find? (fun kv => eqv s kv.1) = some kv ∧ 1 < kv.2.length) := by
    intro i t ht
    rw [List.getElem?_map, ht]
    unfold mayChange
    simp only [Option.map_some, Option.some.injEq]
    constructor
    · intro hm
      split at hm
      · rename_i kv hkv; exact ⟨_, kv, rfl, hkv, by simpa using hm⟩
      · cases hm
    · rintro ⟨s, kv, rfl, hkv, hl⟩
      rw [hkv]; simpa using hl
  have ha : o.activeToOriginal = idx := by
    refine sorted_eq_of_mem hsort hidxs ?_
    intro i
    rw [hmem, hcount, hshape, Nat.mul_one, Nat.div_one, hidx, List.length_map]
    constructor
    · rintro ⟨hi, h⟩
      exact ⟨_, List.getElem?_eq_getElem hi, (hspec i _ (List.getElem?_eq_getElem hi)).2 h⟩
    · rintro ⟨t, ht, hm⟩
      exact ⟨(List.getElem?_eq_some_iff.1 ht).1, (hspec i t ht).1 hm⟩
  have hp : o.primitiveActiveIndices = idx := by
    refine sorted_eq_of_mem ?_ hidxs ?_
    · rw [h3]
      exact List.Pairwise.sublist List.filter_sublist List.pairwise_lt_range
    · intro i
      rw [h3, mem_activePrimitives, hidx]
      constructor
      · rintro ⟨a, ha, hl⟩
        have hi : i < template.length := by
          have := (List.getElem?_eq_some_iff.1 ha).1
          rw [q1, List.length_map] at this; exact this
        have ht := List.getElem?_eq_getElem hi
        refine ⟨_, ht, (hspec i _ ht).2 ?_⟩
        obtain ⟨kv, hkv, he⟩ := q2 i (template[i].species) (by rw [List.getElem?_map, ht]; rfl)
        rw [he] at ha; cases ha
        exact ⟨_, kv, by rw [List.getElem?_map, ht]; rfl, hkv, hl⟩
      · rintro ⟨t, ht, hm⟩
        obtain ⟨s, kv, hs, hkv, hl⟩ := (hspec i t ht).1 hm
        obtain ⟨kv', hkv', he⟩ := q2 i s hs
        rw [hkv] at hkv'; cases hkv'
        exact ⟨_, he, hl⟩
  constructor
  · rw [ha]
    exact pickAll_filter TemplateSite.site (mayChange eqv mapping) [] template
  · intro i k
    have hn : ({ o with activeToOriginal := idx } : ActiveSiteOrder σ φ).activeToOriginal.Nodup :=
      hidxs.imp fun h => Nat.ne_of_lt h
    have := originalToActive_iff hn i k
    unfold ActiveSiteOrder.originalToActive at this
    unfold primitiveToActive
    rw [hp]
    refine this.trans ?_
    refine (filter_zipIdx_getElem? template (mayChange eqv mapping) 0 k i).trans ?_
    constructor
    · rintro ⟨j, a, e, h1, h2, h3⟩
      obtain rfl : i = j := by omega
      exact ⟨a, h1, h2, h3⟩
    · rintro ⟨t, h1, h2, h3⟩
      exact ⟨i, t, by omega, h1, h2, h3⟩

omit [LinearOrder S] [LinearOrder K] in
theorem resolveOrder_tolerance {tol : K} {arg : OrderArg K} {b : Bool} {o : Order K}
    (h : resolveOrder tol arg (some b) = .ok o) : o.excludeCenter = b := by
  unfold resolveOrder at h
  split at h
  · cases h
  · cases h; rfl

omit [LinearOrder S] [LinearOrder K] in
/-- The centre after both steps is where the specification says. -/
theorem centre_resolved {eqv : σ → σ → Bool}
    {fp : Nat → Nat → List Nat → List Nat → List Nat → Nat × Nat × Nat → List σ →
      List (List σ) → φ} {geo : Geometry S K}
    {template : List (TemplateSite σ S K)} {mapping : List (σ × List σ)} {o : ActiveSiteOrder σ φ}
    (h : ActiveSiteOrder.fromStructureAndMapping eqv fp (template.map TemplateSite.species) mapping
      none = .ok o) (center : Center K) (ci : Option Int) (cp : Point K) :
    (∃ c, activeCenter o center = .ok c ∧ resolveCenter geo
      ((changeable eqv mapping template).map TemplateSite.site) c = .ok (ci, cp)) ↔
    CentreAt geo eqv mapping template center ci cp := by
  obtain ⟨-, hp⟩ := primitive_order h
  cases center with
  | point c =>
    simp only [activeCenter, Except.ok.injEq, exists_eq_left', resolveCenter, Prod.mk.injEq, CentreAt]
    constructor <;> rintro ⟨rfl, rfl⟩ <;> exact ⟨rfl, rfl⟩
  | other =>
    simp [activeCenter, resolveCenter, CentreAt]
  | index i =>
    have hget : ∀ (n : Nat) (t : TemplateSite σ S K), template[n]? = some t → mayChange eqv mapping t = true →
        ((changeable eqv mapping template).map TemplateSite.site)[
          (changeable eqv mapping (template.take n)).length]? = some t.site := by
      intro n t ht hm
      have hsplit : template = template.take n ++ t :: template.drop (n + 1) := by
        obtain ⟨hn, rfl⟩ := List.getElem?_eq_some_iff.1 ht
        rw [← List.drop_eq_getElem_cons hn, List.take_append_drop]
      rw [List.getElem?_map]
      have : (changeable eqv mapping template) = changeable eqv mapping (template.take n) ++
          t :: changeable eqv mapping (template.drop (n + 1)) := by
        conv_lhs => rw [hsplit]
        rw [changeable_eq, changeable_eq, changeable_eq, List.filter_append,
          List.filter_cons_of_pos hm]
      rw [this, List.getElem?_append_right (Nat.le_refl _), Nat.sub_self]
      rfl
    simp only [activeCenter, CentreAt]
    constructor
    · rintro ⟨c, h1, h2⟩
      split at h1
      · rename_i a ha
        cases h1
        split at ha
        · cases ha
        · rename_i hi
          obtain ⟨t, h3, h4, rfl⟩ := (hp _ _).1 ha
          simp only [resolveCenter] at h2
          rw [pyGet_natCast (hget _ t h3 h4)] at h2
          simp only [Except.ok.injEq, Prod.mk.injEq] at h2
          exact ⟨i.toNat, t, by omega, h3, (mem_changeable_singleton _ _ _).2 h4, h2.1.symm, h2.2.symm⟩
      · cases h1
    · rintro ⟨n, t, rfl, h1, h2, rfl, rfl⟩
      rw [mem_changeable_singleton] at h2
      have h3 := (hp n _).2 ⟨t, h1, h2, rfl⟩
      refine ⟨.index ((changeable eqv mapping (template.take n)).length : Int), ?_, ?_⟩
      · rw [if_neg (by omega), Int.toNat_natCast, h3]
      · simp only [resolveCenter]
        rw [pyGet_natCast (hget _ t h1 h2)]

omit [LinearOrder S] in
theorem isCenter_iff (dist : Point K → Point K → K) (order : Order K) (ci : Option Int) (cp : Point K)
    (h : Hit S K) : isCenter dist order ci cp h = true ↔
      ci = some (h.index : Int) ∨ dist h.site.coords cp ≤ order.tolerance := by
  unfold isCenter
  cases ci with
  | none => simp
  | some i =>
    simp only [Bool.or_eq_true, decide_eq_true_eq, Option.some.injEq]
    constructor <;> (rintro (h | h); exacts [.inl h.symm, .inr h])

variable [AddGroup K] {H : Type}

/-- What `LocalLatticeStructure(...)` does, step by step. -/
theorem localEnvironment_ok {eqv : σ → σ → Bool}
    {fp : Nat → Nat → List Nat → List Nat → List Nat → Nat × Nat × Nat → List σ →
      List (List σ) → φ}
    {geo : Geometry S K} {tol : K} {round : K → K} {digest : List (SiteSignature K) → H}
    {template : List (TemplateSite σ S K)} {mapping : List (σ × List σ)} {center : Center K}
    {cutoff : K} {excludeSpecies : List String} {arg : OrderArg K} {exclude : Option Bool}
    {e : LocalEnv S K H} :
    localEnvironment eqv fp geo tol round digest template mapping center cutoff excludeSpecies arg
      exclude = .ok e ↔
    excludeSpecies = [] ∧
    (∃ o, ActiveSiteOrder.fromStructureAndMapping eqv fp (template.map TemplateSite.species) mapping
      none = .ok o) ∧
    ∃ ci cp hits, CentreAt geo eqv mapping template center ci cp ∧
      resolveOrder tol arg exclude = .ok e.order ∧
      sortBy Hit.site e.order.sortKeys
        ((geo.sphere ((changeable eqv mapping template).map TemplateSite.site) cp cutoff).filter
          fun h => !(e.order.excludeCenter && isCenter geo.dist e.order ci cp h)) = .ok hits ∧
      hits ≠ [] ∧ e.siteIndices = hits.map Hit.index ∧
      e.sites = hits.map (fun h => recentre cp h.site) ∧ e.signature = signatureOf round e.sites ∧
      e.hash = digest (signatureOf round e.sites) := by
  have hord : ∀ (order : Order K) ci cp (hits : List (Hit S K)), orderedHits geo.dist order ci cp hits =
      sortBy Hit.site order.sortKeys (hits.filter
        fun h => !(order.excludeCenter && isCenter geo.dist order ci cp h)) := by
    intro order ci cp hits
    unfold orderedHits
    cases order.excludeCenter <;> simp
  unfold localEnvironment
  constructor
  · intro h
    split at h
    · cases h
    rename_i hx
    split at h
    · cases h
    rename_i o ho
    split at h
    · cases h
    rename_i c hc
    obtain ⟨hpick, -⟩ := primitive_order ho
    rw [hpick] at h
    simp only at h
    split at h
    · cases h
    rename_i order horder
    split at h
    · cases h
    rename_i ci cp hcp
    split at h
    · cases h
    rename_i hits hhits
    unfold envOf at h
    split at h
    · cases h
    rename_i hne
    simp only [Except.ok.injEq] at h
    subst h
    refine ⟨by simpa using hx, ⟨o, ho⟩, ci, cp, hits, (centre_resolved ho center ci cp).1 ⟨c, hc, hcp⟩, horder,
      ?_, by simpa using hne, rfl, rfl, rfl, rfl⟩
    rw [← hord]; exact hhits
  · rintro ⟨rfl, ⟨o, ho⟩, ci, cp, hits, hc, horder, hsort, hne, h1, h2, h3, h4⟩
    obtain ⟨c, hc1, hc2⟩ := (centre_resolved (geo := geo) ho center ci cp).2 hc
    obtain ⟨hpick, -⟩ := primitive_order ho
    rw [if_neg (by simp), ho]
    simp only
    rw [hc1]
    simp only
    rw [hpick]
    simp only
    rw [horder]
    simp only
    rw [hc2]
    simp only
    rw [hord, hsort]
    simp only
    unfold envOf
    rw [if_neg (by simpa using hne)]
    obtain ⟨eo, ei, es, esg, eh⟩ := e
    simp only at h1 h2 h3 h4
    subst h1 h2 h3 h4
    rfl

omit [AddGroup K] [LinearOrder S] [LinearOrder K] in
theorem resolve_iff (tol : K) (arg : OrderArg K) (o : Order K) :
    Order.resolve tol arg = .ok o ↔ ChosenOrder tol arg o := by
  have hd : Order.fromName tol "kmcpy_default" = .ok (plainOrder tol) := rfl
  have hn : Order.fromName tol "nasicon_nat_commun_2022" = .ok (nasiconOrder tol) := rfl
  have hu : ∀ s, s ≠ "kmcpy_default" → s ≠ "nasicon_nat_commun_2022" →
      Order.fromName tol s = .error .valueError := by
    intro s h1 h2
    unfold Order.fromName
    have : dictGet builtinOrders s = none := by
      unfold builtinOrders
      simp [dictGet, h1.symm, h2.symm]
    rw [this]
  cases arg with
  | absent => simp only [Order.resolve, hd, Except.ok.injEq, ChosenOrder]; exact eq_comm
  | object g => simp only [Order.resolve, Except.ok.injEq, ChosenOrder]; exact eq_comm
  | other => simp [Order.resolve, ChosenOrder]
  | name s =>
    simp only [Order.resolve, ChosenOrder]
    by_cases h1 : s = "kmcpy_default"
    · subst h1
      rw [hd, Except.ok.injEq]
      constructor
      · rintro rfl; exact .inl ⟨rfl, rfl⟩
      · rintro (⟨-, rfl⟩ | ⟨h, -⟩)
        · rfl
        · exact absurd h (by decide)
    · by_cases h2 : s = "nasicon_nat_commun_2022"
      · subst h2
        rw [hn, Except.ok.injEq]
        constructor
        · rintro rfl; exact .inr ⟨rfl, rfl⟩
        · rintro (⟨h, -⟩ | ⟨-, rfl⟩)
          · exact absurd h (by decide)
          · rfl
      · rw [hu s h1 h2]
        simp [h1, h2]
  | dict d =>
    simp only [Order.resolve, ChosenOrder, Order.fromDict]
    cases hdn : d.name with
    | none => simp
    | some name =>
      have hb : (Order.base tol name).name = name ∧
          (Order.base tol name).sortKeys = (if name = "nasicon_nat_commun_2022" then nasiconOrder tol
            else plainOrder tol).sortKeys ∧
          (Order.base tol name).excludeCenter = (if name = "nasicon_nat_commun_2022" then nasiconOrder tol
            else plainOrder tol).excludeCenter ∧ (Order.base tol name).tolerance = tol := by
        unfold Order.base
        by_cases h1 : name = "kmcpy_default"
        · subst h1; rw [hd, if_neg (by decide)]; exact ⟨rfl, rfl, rfl, rfl⟩
        · by_cases h2 : name = "nasicon_nat_commun_2022"
          · subst h2; rw [hn, if_pos rfl]; exact ⟨rfl, rfl, rfl, rfl⟩
          · rw [hu _ h1 h2, if_neg h2]; exact ⟨rfl, rfl, rfl, rfl⟩
      simp only [Except.ok.injEq, Option.some.injEq, exists_eq_left']
      rw [hb.1, hb.2.1, hb.2.2.1, hb.2.2.2]
      constructor
      · rintro rfl; exact ⟨rfl, rfl, rfl, rfl⟩
      · rintro ⟨h1, h2, h3, h4⟩
        rw [← h2, ← h3, ← h4, ← h1]

omit [AddGroup K] [LinearOrder S] [LinearOrder K] in
theorem resolveOrder_iff (tol : K) (arg : OrderArg K) (exclude : Option Bool) (o : Order K) :
    resolveOrder tol arg exclude = .ok o ↔ ∃ given, ChosenOrder tol arg given ∧
      o = { given with excludeCenter := exclude.getD given.excludeCenter } := by
  simp only [← resolve_iff]
  unfold resolveOrder
  cases h : Order.resolve tol arg with
  | error e => simp
  | ok g =>
    cases exclude with
    | none => simp [eq_comm]
    | some b => simp [Order.withExclude, eq_comm]

omit [AddGroup K] in
theorem sortBy_isOk {α : Type} (site : α → Site S K) (keys : List String) (l : List α) :
    (∃ out, sortBy site keys l = .ok out) ↔ l = [] ∨ ∀ k ∈ keys, k ∈ sortKeyNames := by
  unfold sortBy
  constructor
  · rintro ⟨out, h⟩
    split at h
    · cases h
    rename_i ks hks
    cases l with
    | nil => exact .inl rfl
    | cons a l =>
      right
      intro k hk
      by_contra hbad
      unfold withKeys at hks
      rw [sortKey_bad hk hbad] at hks
      cases hks
  · rintro (rfl | h)
    · exact ⟨_, rfl⟩
    · obtain ⟨ks, hks⟩ := withKeys_of (site := site) l h
      rw [hks]
      exact ⟨_, rfl⟩

omit [AddGroup K] [LinearOrder S] [LinearOrder K] in
theorem allowed_isOk {eqv : σ → σ → Bool} {mapping : List (σ × List σ)} {t : List σ} :
    (∃ a, allowedSpeciesBySite eqv mapping t = .ok a) ↔ ∀ s ∈ t, ∃ kv ∈ mapping, eqv s kv.1 = true := by
  constructor
  · rintro ⟨a, h⟩ s hs
    obtain ⟨p, hp, rfl⟩ := List.mem_iff_getElem.1 hs
    obtain ⟨kv, hkv, -⟩ := (allowedSpeciesBySite_ok h).2 p _ (List.getElem?_eq_getElem hp)
    exact ⟨kv, List.mem_of_find?_eq_some hkv, by simpa using List.find?_some hkv⟩
  · intro h
    induction t with
    | nil => exact ⟨_, rfl⟩
    | cons s t ih =>
      obtain ⟨a, ha⟩ := ih fun s hs => h s (List.mem_cons_of_mem _ hs)
      obtain ⟨kv, hkv, he⟩ := h s List.mem_cons_self
      have hm : kv.2 ∈ (mapping.filter fun kv => eqv s kv.1).map Prod.snd :=
        List.mem_map.2 ⟨kv, List.mem_filter.2 ⟨hkv, he⟩, rfl⟩
      simp only [allowedSpeciesBySite, ha]
      cases hf : (mapping.filter fun kv => eqv s kv.1).map Prod.snd with
      | nil => rw [hf] at hm; cases hm
      | cons a as => exact ⟨_, rfl⟩

/-! ### C83 -/

/-- C83 (members): a local environment lists, once each, exactly the periodic images of changeable
sites within the cutoff of the centre, without those taken for the centre if the order says so, in the
order of the sort keys; indices count the changeable sites, positions are relative to the centre. -/
theorem C83_members {eqv : σ → σ → Bool}
    {fp : Nat → Nat → List Nat → List Nat → List Nat → Nat × Nat × Nat → List σ →
      List (List σ) → φ}
    {geo : Geometry S K} {tol : K} {round : K → K} {digest : List (SiteSignature K) → H}
    {template : List (TemplateSite σ S K)} {mapping : List (σ × List σ)} {center : Center K}
    {cutoff : K} {excludeSpecies : List String} {arg : OrderArg K} {exclude : Option Bool}
    {e : LocalEnv S K H} {image : Site S K → Int × Int × Int → Site S K}
    (hgeo : ExactSphere geo image)
    (h : localEnvironment eqv fp geo tol round digest template mapping center cutoff excludeSpecies arg
      exclude = .ok e) :
    ∃ (number : Option Int) (position : Point K) (found : List (Hit S K)),
      CentreAt geo eqv mapping template center number position ∧
      found.Nodup ∧
      (∀ x, x ∈ found ↔
        (∃ t, (changeable eqv mapping template)[x.index]? = some t ∧ x.site = image t.site x.image) ∧
        geo.dist x.site.coords position ≤ cutoff ∧
        (e.order.excludeCenter = true →
          number ≠ some (x.index : Int) ∧ e.order.tolerance < geo.dist x.site.coords position)) ∧
      found.Pairwise (fun a b => ¬ Precedes e.order.sortKeys b.site a.site) ∧
      e.siteIndices = found.map Hit.index ∧
      e.sites = found.map (fun x => { x.site with coords := x.site.coords - position }) := by
  obtain ⟨-, -, ci, cp, hits, h1, h2, h3, h4, h5, h6, -, -⟩ := localEnvironment_ok.1 h
  have hs := sortBy_ok h3
  refine ⟨ci, cp, hits, h1, hs.same.nodup_iff.2 ((hgeo.nodup _ _ _).filter _), ?_, hs.sorted, h5, h6⟩
  intro x
  rw [hs.same.mem_iff, List.mem_filter, hgeo.mem]
  have hc := isCenter_iff geo.dist e.order ci cp x
  simp only [List.getElem?_map, Option.map_eq_some_iff]
  rw [← not_le, ← not_or, ← hc]
  constructor
  · rintro ⟨⟨⟨s, ⟨t, ht, rfl⟩, hi⟩, hr⟩, hx⟩
    refine ⟨⟨t, ht, hi⟩, hr, ?_⟩
    intro he
    simpa [he] using hx
  · rintro ⟨⟨t, ht, hi⟩, hr, hx⟩
    refine ⟨⟨⟨t.site, ⟨t, ht, rfl⟩, hi⟩, hr⟩, ?_⟩
    cases he : e.order.excludeCenter with
    | false => simp
    | true => simpa using hx he

omit [AddGroup K] [LinearOrder S] [LinearOrder K] in
theorem order_isOk {eqv : σ → σ → Bool}
    {fp : Nat → Nat → List Nat → List Nat → List Nat → Nat × Nat × Nat → List σ →
      List (List σ) → φ}
    {template : List (TemplateSite σ S K)} {mapping : List (σ × List σ)}
    (hm : ∀ t ∈ template, ∃ kv ∈ mapping, eqv t.species kv.1 = true)
    (hne : changeable eqv mapping template ≠ []) :
    ∃ o, ActiveSiteOrder.fromStructureAndMapping eqv fp (template.map TemplateSite.species) mapping
      none = .ok o := by
  obtain ⟨a, ha⟩ := (allowed_isOk (eqv := eqv) (mapping := mapping)
    (t := template.map TemplateSite.species)).2 (by
      intro s hs
      obtain ⟨t, ht, rfl⟩ := List.mem_map.1 hs
      exact hm t ht)
  obtain ⟨t, ht⟩ := List.exists_mem_of_ne_nil _ hne
  rw [changeable_eq, List.mem_filter] at ht
  obtain ⟨i, hi, rfl⟩ := List.mem_iff_getElem.1 ht.1
  have hact : i ∈ activePrimitives a := by
    rw [mem_activePrimitives]
    obtain ⟨kv, hkv, he⟩ := (allowedSpeciesBySite_ok ha).2 i (template[i].species) (by
      rw [List.getElem?_map, List.getElem?_eq_getElem hi]; rfl)
    refine ⟨_, he, ?_⟩
    have h2 := ht.2
    unfold mayChange at h2
    rw [hkv] at h2
    simpa using h2
  simp only [ActiveSiteOrder.fromStructureAndMapping, normalizeSupercellShape, ha]
  rw [if_neg (fun h => by rw [h] at hact; cases hact)]
  exact ⟨_, rfl⟩

/-- C83 (when it can be built): a local environment can be built exactly when no species are excluded,
the mapping covers every site, the order is known and names known keys, the centre is a changeable site
or a point, and some site is left. -/
theorem C83_built_iff {eqv : σ → σ → Bool}
    {fp : Nat → Nat → List Nat → List Nat → List Nat → Nat × Nat × Nat → List σ →
      List (List σ) → φ}
    {geo : Geometry S K} {tol : K} {round : K → K} {digest : List (SiteSignature K) → H}
    {template : List (TemplateSite σ S K)} {mapping : List (σ × List σ)} {center : Center K}
    {cutoff : K} {excludeSpecies : List String} {arg : OrderArg K} {exclude : Option Bool}
    {image : Site S K → Int × Int × Int → Site S K} (hgeo : ExactSphere geo image) :
    (∃ e, localEnvironment eqv fp geo tol round digest template mapping center cutoff excludeSpecies
      arg exclude = .ok e) ↔
    excludeSpecies = [] ∧ (∀ t ∈ template, ∃ kv ∈ mapping, eqv t.species kv.1 = true) ∧
    ∃ given number position, ChosenOrder tol arg given ∧ (∀ k ∈ given.sortKeys, k ∈ sortKeyNames) ∧
      CentreAt geo eqv mapping template center number position ∧
      ∃ t ∈ (changeable eqv mapping template).zipIdx, ∃ v,
        geo.dist (image t.1.site v).coords position ≤ cutoff ∧
        (exclude.getD given.excludeCenter = true → number ≠ some (t.2 : Int) ∧
          given.tolerance < geo.dist (image t.1.site v).coords position) := by
  constructor
  · rintro ⟨e, h⟩
    obtain ⟨h1, ⟨o, ho⟩, ci, cp, hits, h2, h3, h4, h5, -⟩ := localEnvironment_ok.1 h
    obtain ⟨given, hg, he⟩ := (resolveOrder_iff _ _ _ _).1 h3
    have hx : ∃ x, x ∈ hits := List.exists_mem_of_ne_nil _ h5
    obtain ⟨x, hx⟩ := hx
    have hs := sortBy_ok h4
    have hx' := hs.same.mem_iff.1 hx
    have hne : ((geo.sphere ((changeable eqv mapping template).map TemplateSite.site) cp cutoff).filter
          fun h => !(e.order.excludeCenter && isCenter geo.dist e.order ci cp h)) ≠ [] :=
      List.ne_nil_of_mem hx'
    have hk := ((sortBy_isOk _ _ _).1 ⟨_, h4⟩).resolve_left hne
    have hall : ∀ t ∈ template, ∃ kv ∈ mapping, eqv t.species kv.1 = true := by
      intro t ht
      obtain ⟨-, h2', -⟩ := fromStructureAndMapping_ok ho
      exact allowed_isOk.1 ⟨_, h2'⟩ _ (List.mem_map_of_mem ht)
    refine ⟨h1, hall, given, ci, cp, hg, ?_, h2, ?_⟩
    · rw [he] at hk; exact hk
    · rw [List.mem_filter, hgeo.mem, List.getElem?_map] at hx'
      obtain ⟨⟨⟨s, hs1, hs2⟩, hd⟩, hc⟩ := hx'
      obtain ⟨t, ht, rfl⟩ := Option.map_eq_some_iff.1 hs1
      refine ⟨(t, x.index), List.mk_mem_zipIdx_iff_getElem?.2 ht, x.image, by rw [← hs2]; exact hd, ?_⟩
      intro hexc
      have hb := isCenter_iff geo.dist e.order ci cp x
      have hec : e.order.excludeCenter = true := by rw [he]; exact hexc
      rw [hec, Bool.true_and, Bool.not_eq_true', ← Bool.not_eq_true, hb, not_or, not_le, hs2, he] at hc
      exact hc
  · rintro ⟨h1, hall, given, ci, cp, hg, hk, h2, ⟨t, i⟩, ht, v, hd, hc⟩
    rw [List.mk_mem_zipIdx_iff_getElem?] at ht
    have hne : changeable eqv mapping template ≠ [] := List.ne_nil_of_mem (List.mem_of_getElem? ht)
    obtain ⟨o, ho⟩ := order_isOk (fp := fp) hall hne
    let order : Order K := { given with excludeCenter := exclude.getD given.excludeCenter }
    obtain ⟨hits, hh⟩ := (sortBy_isOk Hit.site order.sortKeys
      ((geo.sphere ((changeable eqv mapping template).map TemplateSite.site) cp cutoff).filter
          fun h => !(order.excludeCenter && isCenter geo.dist order ci cp h))).2 (.inr hk)
    refine ⟨⟨order, hits.map Hit.index, hits.map (fun h => recentre cp h.site),
        signatureOf round (hits.map (fun h => recentre cp h.site)),
        digest (signatureOf round (hits.map (fun h => recentre cp h.site)))⟩,
      localEnvironment_ok.2 ⟨h1, ⟨o, ho⟩, ci, cp, hits, h2,
        (resolveOrder_iff _ _ _ _).2 ⟨given, hg, rfl⟩, hh, ?_, rfl, rfl, rfl, rfl⟩⟩
    have hm : (⟨image t.site v, i, v⟩ : Hit S K) ∈ hits := by
      rw [(sortBy_ok hh).same.mem_iff, List.mem_filter, hgeo.mem, List.getElem?_map]
      refine ⟨⟨⟨t.site, by rw [ht]; rfl, rfl⟩, hd⟩, ?_⟩
      cases hexc : exclude.getD given.excludeCenter with
      | false =>
        have : order.excludeCenter = false := hexc
        rw [this]; rfl
      | true =>
        have : order.excludeCenter = true := hexc
        rw [this, Bool.true_and, Bool.not_eq_true', ← Bool.not_eq_true, isCenter_iff, not_or, not_le]
        exact hc hexc
    exact List.ne_nil_of_mem hm

/-- C83 (the search does not matter): when the keys tell all sites found apart, two exact searches that
list the neighbours in different orders give the same local environment. -/
theorem C83_independent_of_search {eqv : σ → σ → Bool}
    {fp : Nat → Nat → List Nat → List Nat → List Nat → Nat × Nat × Nat → List σ →
      List (List σ) → φ}
    {geo geo' : Geometry S K} {tol : K} {round : K → K} {digest : List (SiteSignature K) → H}
    {template : List (TemplateSite σ S K)} {mapping : List (σ × List σ)} {center : Center K}
    {cutoff : K} {excludeSpecies : List String} {arg : OrderArg K} {exclude : Option Bool}
    {e e' : LocalEnv S K H} {image : Site S K → Int × Int × Int → Site S K}
    (hgeo : ExactSphere geo image) (hgeo' : ExactSphere geo' image) (hd : geo'.dist = geo.dist)
    (hc : geo'.toCartesian = geo.toCartesian)
    (hapart : ∀ (x y : Site S K × Nat × (Int × Int × Int)), x ≠ y →
      (∃ t, (changeable eqv mapping template)[x.2.1]? = some t ∧ x.1 = image t.site x.2.2) →
      (∃ t, (changeable eqv mapping template)[y.2.1]? = some t ∧ y.1 = image t.site y.2.2) →
      (∀ number position, CentreAt geo eqv mapping template center number position →
        geo.dist x.1.coords position ≤ cutoff ∧ geo.dist y.1.coords position ≤ cutoff) →
      Precedes e.order.sortKeys x.1 y.1 ∨ Precedes e.order.sortKeys y.1 x.1)
    (h : localEnvironment eqv fp geo tol round digest template mapping center cutoff excludeSpecies arg
      exclude = .ok e)
    (h' : localEnvironment eqv fp geo' tol round digest template mapping center cutoff excludeSpecies
      arg exclude = .ok e') : e = e' := by
  obtain ⟨-, -, ci, cp, hits, h1, h2, h3, h4, h5, h6, h7, h8⟩ := localEnvironment_ok.1 h
  obtain ⟨-, -, ci', cp', hits', h1', h2', h3', h4', h5', h6', h7', h8'⟩ := localEnvironment_ok.1 h'
  have hcu : ∀ c d p q, CentreAt geo eqv mapping template center c p →
      CentreAt geo eqv mapping template center d q → c = d ∧ p = q := by
    intro c d p q a b
    cases center with
    | index i =>
      obtain ⟨n, t, rfl, b1, b2, rfl, rfl⟩ := a
      obtain ⟨n', t', hn, b1', b2', rfl, rfl⟩ := b
      obtain rfl : n = n' := by exact_mod_cast hn
      rw [b1] at b1'; cases b1'
      exact ⟨rfl, rfl⟩
    | point c => obtain ⟨rfl, rfl⟩ := a; obtain ⟨rfl, rfl⟩ := b; exact ⟨rfl, rfl⟩
    | other => cases a
  have hca : CentreAt geo eqv mapping template center ci' cp' := by
    cases center with
    | index i => exact h1'
    | point c => simp only [CentreAt] at h1' ⊢; rw [← hc]; exact h1'
    | other => exact h1'
  obtain ⟨rfl, rfl⟩ := hcu _ _ _ _ h1 hca
  have ho : e'.order = e.order := by
    rw [h2, Except.ok.injEq] at h2'; exact h2'.symm
  rw [ho, hd] at h3'
  have hperm : (geo.sphere ((changeable eqv mapping template).map TemplateSite.site) cp cutoff).Perm
      (geo'.sphere ((changeable eqv mapping template).map TemplateSite.site) cp cutoff) := by
    refine (List.perm_ext_iff_of_nodup (hgeo.nodup _ _ _) (hgeo'.nodup _ _ _)).2 ?_
    intro x
    rw [hgeo.mem, hgeo'.mem, hd]
  have hh : hits = hits' := by
    refine sortedAs_unique (hperm.filter _) (sortBy_ok h3) (sortBy_ok h3') ?_
    intro a b ha hb hab
    have conv : ∀ x, x ∈ (geo.sphere ((changeable eqv mapping template).map TemplateSite.site) cp
        cutoff).filter (fun h => !(e.order.excludeCenter && isCenter geo.dist e.order ci cp h)) →
        (∃ t, (changeable eqv mapping template)[x.index]? = some t ∧ x.site = image t.site x.image) ∧
        geo.dist x.site.coords cp ≤ cutoff := by
      intro x hx
      rw [List.mem_filter, hgeo.mem, List.getElem?_map] at hx
      obtain ⟨⟨⟨s, hs, he⟩, hd⟩, -⟩ := hx
      obtain ⟨t, ht, rfl⟩ := Option.map_eq_some_iff.1 hs
      exact ⟨⟨t, ht, he⟩, hd⟩
    obtain ⟨ha1, ha2⟩ := conv a ha
    obtain ⟨hb1, hb2⟩ := conv b hb
    refine hapart (a.site, a.index, a.image) (b.site, b.index, b.image) ?_ ha1 hb1 ?_
    · intro heq
      simp only [Prod.mk.injEq] at heq
      apply hab
      obtain ⟨a1, a2, a3⟩ := a
      obtain ⟨b1, b2, b3⟩ := b
      simp only at heq
      rw [heq.1, heq.2.1, heq.2.2]
    · intro d q hq
      obtain ⟨rfl, rfl⟩ := hcu _ _ _ _ h1 hq
      exact ⟨ha2, hb2⟩
  subst hh
  obtain ⟨eo, ei, es, esg, eh⟩ := e
  obtain ⟨eo', ei', es', esg', eh'⟩ := e'
  simp only at h5 h6 h7 h8 h5' h6' h7' h8' ho
  subst h5 h6 h7 h8 h5' h6' h7' h8' ho
  rfl

omit [AddGroup K] [LinearOrder S] [LinearOrder K] in
/-- C83 (choosing an order): what the user gives decides the order as documented; an unknown name is
refused, but inside a dictionary it is taken. -/
theorem C83_order_choice (tol : K) (arg : OrderArg K) :
    (∀ o, Order.resolve tol arg = .ok o ↔ ChosenOrder tol arg o) ∧
    (∀ o : Order K, Order.resolve tol (.dict o.asDict) = .ok o) ∧
    (∀ s, s ≠ "kmcpy_default" → s ≠ "nasicon_nat_commun_2022" →
      (∀ o, Order.resolve tol (.name s) ≠ .ok o) ∧
      Order.resolve tol (.dict ⟨some s, none, none, none⟩) =
        .ok ⟨s, ["species_string"], false, tol⟩) := by
  refine ⟨resolve_iff tol arg, ?_, ?_⟩
  · intro o
    rw [resolve_iff]
    exact ⟨o.name, rfl, rfl, rfl, rfl, rfl⟩
  · intro s h1 h2
    refine ⟨?_, ?_⟩
    · intro o h
      rw [resolve_iff] at h
      rcases h with ⟨h, -⟩ | ⟨h, -⟩
      · exact h1 h
      · exact h2 h
    · rw [resolve_iff]
      refine ⟨s, rfl, rfl, ?_⟩
      rw [if_neg h2]
      exact ⟨rfl, rfl, rfl⟩

/-- C83 (comparing by hash): with a digest that separates signatures, two local environments have the
same hash exactly when they list the same species at the same rounded positions in the same order. -/
theorem C83_hash_iff {eqv : σ → σ → Bool}
    {fp : Nat → Nat → List Nat → List Nat → List Nat → Nat × Nat × Nat → List σ →
      List (List σ) → φ}
    {geo : Geometry S K} {tol : K} {round : K → K} {digest : List (SiteSignature K) → H}
    (hdigest : Function.Injective digest)
    {template template' : List (TemplateSite σ S K)} {mapping mapping' : List (σ × List σ)}
    {center center' : Center K} {cutoff cutoff' : K} {excl excl' : List String} {arg arg' : OrderArg K}
    {exclude exclude' : Option Bool} {e e' : LocalEnv S K H}
    (h : localEnvironment eqv fp geo tol round digest template mapping center cutoff excl arg exclude =
      .ok e)
    (h' : localEnvironment eqv fp geo tol round digest template' mapping' center' cutoff' excl' arg'
      exclude' = .ok e') :
    e.hash = e'.hash ↔ List.Forall₂ (fun a b => a.text = b.text ∧ round a.coords.1 = round b.coords.1 ∧
      round a.coords.2.1 = round b.coords.2.1 ∧ round a.coords.2.2 = round b.coords.2.2) e.sites e'.sites := by
  obtain ⟨-, -, ci, cp, hits, h1, h2, h3, h4, h5, h6, h7, h8⟩ := localEnvironment_ok.1 h
  obtain ⟨-, -, ci', cp', hits', h1', h2', h3', h4', h5', h6', h7', h8'⟩ := localEnvironment_ok.1 h'
  rw [h8, h8', hdigest.eq_iff]
  unfold signatureOf
  rw [← List.forall₂_eq_eq_eq, List.forall₂_map_left_iff, List.forall₂_map_right_iff]
  simp only [SiteSignature.mk.injEq, Prod.mk.injEq]

/-- C83 (enumeration): the enumeration of local environments around a centre lists the same sites in
the same order as the local environment built with the same arguments, provided a centre site is given
there by its number among the changeable sites. -/
theorem C83_enumeration_agrees {eqv : σ → σ → Bool}
    {fp : Nat → Nat → List Nat → List Nat → List Nat → Nat × Nat × Nat → List σ →
      List (List σ) → φ}
    {geo : Geometry S K} {tol : K} {round : K → K} {digest : List (SiteSignature K) → H}
    {template : List (TemplateSite σ S K)} {mapping : List (σ × List σ)} {center center' : Center K}
    {cutoff : K} {excludeSpecies : List String} {arg : OrderArg K} {exclude : Option Bool}
    {e : LocalEnv S K H}
    (h : localEnvironment eqv fp geo tol round digest template mapping center cutoff excludeSpecies arg
      exclude = .ok e)
    (hc : match center with
      | .index i => center' = .index ((changeable eqv mapping (template.take i.toNat)).length : Int)
      | c => center' = c) :
    localSiteIndices geo tol ((changeable eqv mapping template).map TemplateSite.site) center' cutoff
      arg exclude = .ok e.siteIndices := by
  have h0 := h
  unfold localEnvironment at h
  split at h
  · cases h
  split at h
  · cases h
  rename_i o ho
  split at h
  · cases h
  rename_i c hc'
  obtain ⟨hpick, hp⟩ := primitive_order ho
  rw [hpick] at h
  simp only at h
  have hcc : c = center' := by
    cases center with
    | index i =>
      simp only at hc
      simp only [activeCenter] at hc'
      split at hc'
      · rename_i a ha
        split at ha
        · cases ha
        · obtain ⟨t, -, -, rfl⟩ := (hp _ _).1 ha
          cases hc'; exact hc.symm
      · cases hc'
    | point c => simp only [activeCenter, Except.ok.injEq] at hc'; subst hc'; exact hc.symm
    | other => simp only [activeCenter, Except.ok.injEq] at hc'; subst hc'; exact hc.symm
  subst hcc
  unfold localSiteIndices
  split at h
  · cases h
  split at h
  · cases h
  split at h
  · cases h
  rename_i hits hh
  unfold envOf at h
  split at h
  · cases h
  cases h
  rfl

/-- C83 (images of the centre): when the centre is a site of the structure and is to be left out, all
its periodic images are left out as well, however far from the centre they are.  (The documentation
says that the centre atom is removed.) -/
theorem C83_centre_images_dropped {eqv : σ → σ → Bool}
    {fp : Nat → Nat → List Nat → List Nat → List Nat → Nat × Nat × Nat → List σ →
      List (List σ) → φ}
    {geo : Geometry S K} {tol : K} {round : K → K} {digest : List (SiteSignature K) → H}
    {template : List (TemplateSite σ S K)} {mapping : List (σ × List σ)} {n : Nat}
    {cutoff : K} {excludeSpecies : List String} {arg : OrderArg K} {exclude : Option Bool}
    {e : LocalEnv S K H} {image : Site S K → Int × Int × Int → Site S K} (hgeo : ExactSphere geo image)
    (h : localEnvironment eqv fp geo tol round digest template mapping (.index n) cutoff excludeSpecies
      arg exclude = .ok e) (hex : e.order.excludeCenter = true) :
    (changeable eqv mapping (template.take n)).length ∉ e.siteIndices := by
  obtain ⟨number, position, found, hc, -, hm, -, hi, -⟩ := C83_members hgeo h
  obtain ⟨n', t, hn, ht, htc, rfl, rfl⟩ := hc
  obtain rfl : n = n' := by exact_mod_cast hn
  rw [hi]
  intro hmem
  obtain ⟨x, hx, he⟩ := List.mem_map.1 hmem
  have := ((hm x).1 hx).2.2 hex
  exact this.1 (by rw [he])

end

/-! ### Matching local environments -/

section
variable {S K H R : Type} [Field K] [LinearOrder K] [LinearOrder R] [Inhabited K]

omit [Field K] [LinearOrder K] in
theorem toCluster_symmetric {dist : Point K → Point K → K} (hd : ∀ a b, dist a b = dist b a)
    (e : LocalEnv S K H) : SymmetricDistances (e.toCluster dist) := by
  intro i j
  simp only [LocalEnv.toCluster]
  cases e.sites[i]? <;> cases e.sites[j]? <;> simp [hd]

/-- A reordered list is picked out by positions. -/
theorem perm_positions {α : Type} {l l' : List α} (h : l'.Perm l) :
    ∃ π : List Nat, π.Perm (List.range l.length) ∧ ∀ i : Nat, l'[i]? = π[i]?.bind fun c => l[c]? := by
  have hz : List.Forall₂ (fun (a : α) (p : α × Nat) => a = p.1 ∧ l[p.2]? = some p.1) l l.zipIdx := by
    rw [List.forall₂_iff_get]
    refine ⟨by simp, ?_⟩
    intro i h1 h2
    simp [List.getElem?_eq_getElem h1]
  have h1 : Relation.Comp List.Perm
      (List.Forall₂ (fun (a : α) (p : α × Nat) => a = p.1 ∧ l[p.2]? = some p.1))
      l' l.zipIdx := ⟨l, h, hz⟩
  rw [← List.forall₂_comp_perm_eq_perm_comp_forall₂] at h1
  obtain ⟨m, hm, hp⟩ := h1
  refine ⟨m.map Prod.snd, ?_, ?_⟩
  · have := hp.map Prod.snd
    rwa [List.zipIdx_map_snd, ← List.range_eq_range'] at this
  · intro i
    rw [List.getElem?_map]
    by_cases hi : i < l'.length
    · have hi' : i < m.length := by rw [← hm.length_eq]; exact hi
      have hr := hm.get hi hi'
      simp only [List.get_eq_getElem] at hr
      rw [List.getElem?_eq_getElem hi, List.getElem?_eq_getElem hi']
      simp only [Option.map_some, Option.bind_some]
      rw [hr.2, hr.1]
    · rw [List.getElem?_eq_none (by omega), List.getElem?_eq_none (by rw [← hm.length_eq]; omega)]
      rfl

omit [Field K] [LinearOrder K] in
theorem toCluster_dist {dist : Point K → Point K → K} (e : LocalEnv S K H) {i j : Nat} {a b : Site S K}
    (ha : e.sites[i]? = some a) (hb : e.sites[j]? = some b) :
    (e.toCluster dist).dist i j = dist a.coords b.coords := by
  simp only [LocalEnv.toCluster, ha, hb]

omit [Field K] [LinearOrder K] in
theorem isMatch_of_reordered (dist : Point K → Point K → K) (close : K → K → Bool)
    (reference e : LocalEnv S K H)
    (hex : ∃ other : List (Site S K), other.Perm e.sites ∧
      other.map Site.text = reference.sites.map Site.text ∧
        ∀ (i j : Nat) a b x y, i ≠ j → reference.sites[i]? = some a → reference.sites[j]? = some b →
          other[i]? = some x → other[j]? = some y →
          close (dist a.coords b.coords) (dist x.coords y.coords) = true) :
    ∃ π, IsMatch close (reference.toCluster dist) (e.toCluster dist) π := by
  obtain ⟨other, hp, ht, hk⟩ := hex
  obtain ⟨π, hπ, hget⟩ := perm_positions hp
  have hlen : other.length = reference.sites.length := by
    simpa using congrArg List.length ht
  have hsome : ∀ (i c : Nat), π[i]? = some c → c < e.sites.length ∧ ∃ x, e.sites[c]? = some x ∧ other[i]? = some x := by
    intro i c hc
    have : c < e.sites.length := List.mem_range.1 (hπ.mem_iff.1 (List.mem_of_getElem? hc))
    refine ⟨this, e.sites[c], List.getElem?_eq_getElem this, ?_⟩
    rw [hget, hc, Option.bind_some, List.getElem?_eq_getElem this]
  refine ⟨π, ⟨?_, ?_, ?_⟩, ?_⟩
  · rw [hπ.length_eq, List.length_range]
    simp only [LocalEnv.toCluster, List.length_map]
    rw [← hlen, hp.length_eq]
  · exact hπ.nodup_iff.2 List.nodup_range
  · intro i c hc
    obtain ⟨h1, x, h2, h3⟩ := hsome i c hc
    refine ⟨by simpa [LocalEnv.toCluster] using h1, ?_⟩
    simp only [LocalEnv.toCluster]
    rw [← ht, List.getElem?_map, List.getElem?_map, h2, h3]
  · intro i j c d hij hc hd
    obtain ⟨-, x, h2, h3⟩ := hsome i c hc
    obtain ⟨-, y, h2', h3'⟩ := hsome j d hd
    have hi : i < reference.sites.length := by
      rw [← hlen]; exact (List.getElem?_eq_some_iff.1 h3).1
    have hj : j < reference.sites.length := by
      rw [← hlen]; exact (List.getElem?_eq_some_iff.1 h3').1
    rw [toCluster_dist reference (List.getElem?_eq_getElem hi) (List.getElem?_eq_getElem hj),
      toCluster_dist e h2 h2']
    exact hk i j _ _ x y hij (List.getElem?_eq_getElem hi) (List.getElem?_eq_getElem hj) h3 h3'

omit [Field K] [LinearOrder K] in
theorem reordered_of_isMatch (dist : Point K → Point K → K) (close : K → K → Bool)
    (reference e : LocalEnv S K H) (hl : reference.sites.length = e.sites.length)
    (hex : ∃ π, IsMatch close (reference.toCluster dist) (e.toCluster dist) π) :
    ∃ other : List (Site S K), other.Perm e.sites ∧
      other.map Site.text = reference.sites.map Site.text ∧
        ∀ (i j : Nat) a b x y, i ≠ j → reference.sites[i]? = some a → reference.sites[j]? = some b →
          other[i]? = some x → other[j]? = some y →
          close (dist a.coords b.coords) (dist x.coords y.coords) = true := by
  obtain ⟨π, hrel, hk⟩ := hex
  have hlen : π.length = reference.sites.length := by
    simpa [LocalEnv.toCluster] using hrel.length
  have hlt : ∀ c ∈ π, c < e.sites.length := by
    intro c hc
    obtain ⟨i, hi, rfl⟩ := List.mem_iff_getElem.1 hc
    simpa [LocalEnv.toCluster] using (hrel.label i _ (List.getElem?_eq_getElem hi)).1
  have hπ : π.Perm (List.range e.sites.length) := by
    refine (List.subperm_of_subset hrel.nodup ?_).perm_of_length_le ?_
    · intro c hc; exact List.mem_range.2 (hlt c hc)
    · rw [List.length_range, hlen, hl]
  obtain ⟨sites, hs⟩ := pickAll_isOk e.sites π hlt
  obtain ⟨s1, s2⟩ := (pickAll_ok_iff _ _ _).1 hs
  refine ⟨sites, pickAll_perm hπ hs, ?_, ?_⟩
  · apply List.ext_getElem?
    intro i
    by_cases hi : i < π.length
    · obtain ⟨v, hv1, hv2⟩ := s2 i _ (List.getElem?_eq_getElem hi)
      have h3 := (hrel.label i _ (List.getElem?_eq_getElem hi)).2
      simp only [LocalEnv.toCluster, List.getElem?_map] at h3
      rw [List.getElem?_map, List.getElem?_map, ← h3, hv1, hv2]
    · rw [List.getElem?_eq_none (by simp; omega), List.getElem?_eq_none (by simp; omega)]
  · intro i j a b x y hij ha hb hx hy
    have hi : i < π.length := by rw [hlen]; exact (List.getElem?_eq_some_iff.1 ha).1
    have hj : j < π.length := by rw [hlen]; exact (List.getElem?_eq_some_iff.1 hb).1
    obtain ⟨v, v1, v2⟩ := s2 i _ (List.getElem?_eq_getElem hi)
    obtain ⟨w, w1, w2⟩ := s2 j _ (List.getElem?_eq_getElem hj)
    have := hk i j _ _ hij (List.getElem?_eq_getElem hi) (List.getElem?_eq_getElem hj)
    rw [toCluster_dist reference ha hb, toCluster_dist e v1 w1] at this
    rw [hx] at v2; rw [hy] at w2
    cases v2; cases w2
    exact this

/-- C83 (matching a reference): the reordered environment lists the same sites with their indices,
each once, with the species in the order of the reference; when some reordering reproduces the
reference's distances, the result does; the signature and the hash are those of the new order. -/
theorem C83_match_with_reference {dist : Point K → Point K → K} (hd : ∀ a b, dist a b = dist b a)
    (row : Nat → R) (round : K → K) (digest : List (SiteSignature K) → H) (rtol atol : K)
    (e reference e' : LocalEnv S K H) (nearest : Bool) (hlen : e.siteIndices.length = e.sites.length)
    (h : e.matchWithReference dist row round digest rtol atol reference nearest = .ok e') :
    (e'.sites.zip e'.siteIndices).Perm (e.sites.zip e.siteIndices) ∧
    e'.siteIndices.length = e'.sites.length ∧
    e'.sites.map Site.text = reference.sites.map Site.text ∧
    ((∃ other : List (Site S K), other.Perm e.sites ∧ other.map Site.text = reference.sites.map Site.text ∧
        ∀ (i j : Nat) a b x y, i ≠ j → reference.sites[i]? = some a → reference.sites[j]? = some b →
          other[i]? = some x → other[j]? = some y →
          Matcher.isclose rtol atol (dist a.coords b.coords) (dist x.coords y.coords) = true) →
      ∀ (i j : Nat) a b x y, i ≠ j → reference.sites[i]? = some a → reference.sites[j]? = some b →
          e'.sites[i]? = some x → e'.sites[j]? = some y →
          Matcher.isclose rtol atol (dist a.coords b.coords) (dist x.coords y.coords) = true) ∧
    e'.signature = e'.sites.map (fun s => ⟨s.text, (round s.coords.1, round s.coords.2.1, round s.coords.2.2)⟩) ∧
    e'.hash = digest e'.signature ∧ e'.order = e.order := by
  unfold LocalEnv.matchWithReference at h
  split at h
  · cases h
  rename_i m hm
  split at h
  · cases h
  rename_i sites hsites
  split at h
  · cases h
  rename_i indices hindices
  cases h
  have hr := toCluster_symmetric hd reference
  have hc := toCluster_symmetric hd e
  have hperm : reference.sites.length = e.sites.length := by
    rcases match_cases row rtol atol (reference.toCluster dist) (e.toCluster dist) hr hc false nearest with
      ⟨-, h1⟩ | ⟨h1, -⟩
    · rw [hm] at h1; cases h1
    · simpa [LocalEnv.toCluster] using h1.length_eq
  obtain ⟨hrel, -⟩ := C49_result_is_relabelling row rtol atol _ _ hr hc
    (by simp [LocalEnv.toCluster, hlen]) false nearest m hm
  have hl : m.referenceToCandidate.length = reference.sites.length := by
    simpa [LocalEnv.toCluster] using hrel.length
  have hπ : m.referenceToCandidate.Perm (List.range e.sites.length) := by
    refine (List.subperm_of_subset hrel.nodup ?_).perm_of_length_le ?_
    · intro c hc
      obtain ⟨i, hi, rfl⟩ := List.mem_iff_getElem.1 hc
      have := (hrel.label i _ (List.getElem?_eq_getElem hi)).1
      rw [List.mem_range]
      simpa [LocalEnv.toCluster] using this
    · rw [List.length_range, hl, hperm]
  obtain ⟨s1, s2⟩ := (pickAll_ok_iff _ _ _).1 hsites
  obtain ⟨i1, i2⟩ := (pickAll_ok_iff _ _ _).1 hindices
  have hlab : sites.map Site.text = reference.sites.map Site.text := by
    apply List.ext_getElem?
    intro i
    by_cases hi : i < m.referenceToCandidate.length
    · obtain ⟨v, hv1, hv2⟩ := s2 i _ (List.getElem?_eq_getElem hi)
      have h3 := (hrel.label i _ (List.getElem?_eq_getElem hi)).2
      simp only [LocalEnv.toCluster, List.getElem?_map] at h3
      rw [List.getElem?_map, List.getElem?_map, ← h3, hv1, hv2]
    · rw [List.getElem?_eq_none (by simp; omega), List.getElem?_eq_none (by simp; omega)]
  refine ⟨?_, by simp only; rw [i1, s1], hlab, ?_, rfl, rfl, rfl⟩
  · refine pickAll_perm (perm := m.referenceToCandidate) (by simpa [hlen] using hπ) ?_
    rw [pickAll_ok_iff]
    refine ⟨by simp [i1, s1], ?_⟩
    intro k i hk
    obtain ⟨v, v1, v2⟩ := s2 k i hk
    obtain ⟨w, w1, w2⟩ := i2 k i hk
    exact ⟨(v, w), List.getElem?_zip_eq_some.2 ⟨v1, w1⟩, List.getElem?_zip_eq_some.2 ⟨v2, w2⟩⟩
  · intro hex
    have hex' := isMatch_of_reordered dist (Matcher.isclose rtol atol) reference e hex
    obtain ⟨⟨-, hk⟩, -⟩ := C49_exact_match row rtol atol _ _ hr hc false nearest hex' m hm
    intro i j a b x y hij ha hb hx hy
    have hi : i < m.referenceToCandidate.length := by
      rw [hl]; exact (List.getElem?_eq_some_iff.1 ha).1
    have hj : j < m.referenceToCandidate.length := by
      rw [hl]; exact (List.getElem?_eq_some_iff.1 hb).1
    obtain ⟨v, v1, v2⟩ := s2 i _ (List.getElem?_eq_getElem hi)
    obtain ⟨w, w1, w2⟩ := s2 j _ (List.getElem?_eq_getElem hj)
    have := hk i j _ _ hij (List.getElem?_eq_getElem hi) (List.getElem?_eq_getElem hj)
    rw [toCluster_dist reference ha hb, toCluster_dist e v1 w1] at this
    simp only at hx hy
    rw [hx] at v2; rw [hy] at w2
    cases v2; cases w2
    exact this

/-- C83 (equivalence): two local environments are called equivalent exactly when the sites of the second
can be listed so that species and all distances agree with the first; the comparison never fails. -/
theorem C83_equivalent_iff {dist : Point K → Point K → K} (hd : ∀ a b, dist a b = dist b a)
    (row : Nat → R) (rtol atol : K) (e other : LocalEnv S K H) :
    (e.isEquivalentTo dist row rtol atol other = .ok true ↔
      ∃ sites : List (Site S K), sites.Perm other.sites ∧ sites.map Site.text = e.sites.map Site.text ∧
        ∀ (i j : Nat) a b x y, i ≠ j → e.sites[i]? = some a → e.sites[j]? = some b →
          sites[i]? = some x → sites[j]? = some y →
          Matcher.isclose rtol atol (dist a.coords b.coords) (dist x.coords y.coords) = true) ∧
    (e.isEquivalentTo dist row rtol atol other = .ok true ∨
      e.isEquivalentTo dist row rtol atol other = .ok false) := by
  have hr := toCluster_symmetric hd e
  have hc := toCluster_symmetric hd other
  obtain ⟨h1, h2⟩ := C49_found_iff row rtol atol (e.toCluster dist) (other.toCluster dist) hr hc
  unfold LocalEnv.isEquivalentTo
  cases hm : Matcher.matchClusters row rtol atol (e.toCluster dist) (other.toCluster dist) false false with
  | ok m =>
    refine ⟨⟨fun _ => ?_, fun _ => rfl⟩, .inl rfl⟩
    obtain ⟨hl, π, hrel, hk⟩ := h1.1 ⟨m, hm⟩
    exact reordered_of_isMatch dist (Matcher.isclose rtol atol) e other
      (by simpa [LocalEnv.toCluster] using hl) ⟨π, hrel, hk⟩
  | error er =>
    have he := h2 (by rw [hm]; intro m h; cases h)
    rw [hm] at he
    cases he
    refine ⟨⟨fun h => (by cases h), ?_⟩, .inr rfl⟩
    intro hex
    have hl : e.sites.length = other.sites.length := by
      obtain ⟨sites, hp, ht, -⟩ := hex
      rw [← hp.length_eq]
      simpa using (congrArg List.length ht).symm
    have := h1.2 ⟨by simpa [LocalEnv.toCluster] using hl,
      isMatch_of_reordered dist (Matcher.isclose rtol atol) e other hex⟩
    rw [hm] at this
    obtain ⟨_, h⟩ := this
    cases h

/-- C83 (when a reference can be matched): without the fallback, matching succeeds exactly when the
two environments are equivalent. -/
theorem C83_match_found_iff {dist : Point K → Point K → K} (hd : ∀ a b, dist a b = dist b a)
    (row row' : Nat → R) (round : K → K) (digest : List (SiteSignature K) → H) (rtol atol : K)
    (e reference : LocalEnv S K H) (hlen : e.siteIndices.length = e.sites.length) :
    (∃ e', e.matchWithReference dist row round digest rtol atol reference false = .ok e') ↔
      reference.isEquivalentTo dist row' rtol atol e = .ok true := by
  have hr := toCluster_symmetric hd reference
  have hc := toCluster_symmetric hd e
  rw [(C83_equivalent_iff hd row' rtol atol reference e).1]
  obtain ⟨h1, -⟩ := C49_found_iff row rtol atol (reference.toCluster dist) (e.toCluster dist) hr hc
  constructor
  · rintro ⟨e', h⟩
    unfold LocalEnv.matchWithReference at h
    split at h
    · cases h
    rename_i m hm
    obtain ⟨hl, hex⟩ := h1.1 ⟨m, hm⟩
    exact reordered_of_isMatch dist _ reference e (by simpa [LocalEnv.toCluster] using hl) hex
  · intro hex
    have hl : reference.sites.length = e.sites.length := by
      obtain ⟨sites, hp, ht, -⟩ := hex
      rw [← hp.length_eq]
      simpa using (congrArg List.length ht).symm
    obtain ⟨m, hm⟩ := h1.2 ⟨by simpa [LocalEnv.toCluster] using hl,
      isMatch_of_reordered dist (Matcher.isclose rtol atol) reference e hex⟩
    obtain ⟨hrel, -⟩ := C49_result_is_relabelling row rtol atol _ _ hr hc
      (by simp [LocalEnv.toCluster, hlen]) false false m hm
    have hlt : ∀ c ∈ m.referenceToCandidate, c < e.sites.length := by
      intro c hc
      obtain ⟨i, hi, rfl⟩ := List.mem_iff_getElem.1 hc
      simpa [LocalEnv.toCluster] using (hrel.label i _ (List.getElem?_eq_getElem hi)).1
    obtain ⟨sites, hs⟩ := pickAll_isOk e.sites _ hlt
    obtain ⟨indices, hi⟩ := pickAll_isOk e.siteIndices m.referenceToCandidate (by rw [hlen]; exact hlt)
    unfold LocalEnv.matchWithReference
    rw [hm]
    simp only
    rw [hs]
    simp only
    rw [hi]
    exact ⟨_, rfl⟩

end

/-! ### Samples -/

namespace LocalSamples

/-- The whole numbers of absolute value at most `n`. -/
def ints (n : Nat) : List Int := (List.range (2 * n + 1)).map fun (k : Nat) => (k : Int) - n

theorem mem_ints (n : Nat) (x : Int) : x ∈ ints n ↔ x.natAbs ≤ n := by
  unfold ints
  rw [List.mem_map]
  constructor
  · rintro ⟨k, hk, rfl⟩
    rw [List.mem_range] at hk
    omega
  · intro h
    exact ⟨(x + n).toNat, List.mem_range.2 (by omega), by omega⟩

theorem ints_nodup (n : Nat) : (ints n).Nodup := by
  refine List.Nodup.map ?_ List.nodup_range
  intro a b h
  simp only at h
  omega

/-- The periodic image in a cubic cell with edge 10. -/
def image (s : Site String Int) (v : Int × Int × Int) : Site String Int :=
  { s with coords := (s.coords.1 + 10 * v.1, s.coords.2.1 + 10 * v.2.1, s.coords.2.2 + 10 * v.2.2) }

/-- The largest difference of coordinates. -/
def dist (p q : Point Int) : Int :=
  max ((p.1 - q.1).natAbs : Int) (max ((p.2.1 - q.2.1).natAbs : Int) ((p.2.2 - q.2.2).natAbs : Int))

/-- How far images have to be searched. -/
def bound (s c : Point Int) (r : Int) : Nat :=
  (r.natAbs + s.1.natAbs + s.2.1.natAbs + s.2.2.natAbs + c.1.natAbs + c.2.1.natAbs + c.2.2.natAbs) / 10 + 1

/-- An exact search; `back` lists its results backwards. -/
def sphere (back : Bool) (sites : List (Site String Int)) (c : Point Int) (r : Int) :
    List (Hit String Int) :=
  let all := sites.zipIdx.flatMap fun p =>
    (((ints (bound p.1.coords c r)) ×ˢ ((ints (bound p.1.coords c r)) ×ˢ (ints (bound p.1.coords c r)))).filter
      fun v => decide (dist (image p.1 v).coords c ≤ r)).map fun v => ⟨image p.1 v, p.2, v⟩
  if back then all.reverse else all

/-- The geometry of the sample cell; fractional coordinates are in tenths. -/
def geo (back : Bool) : Geometry String Int := ⟨dist, id, sphere back⟩

theorem within {x c r a : Int} {n : Nat} (hn : r.natAbs + x.natAbs + c.natAbs ≤ n)
    (h : ((x + 10 * a - c).natAbs : Int) ≤ r) : a.natAbs ≤ n / 10 + 1 := by omega

theorem exact (back : Bool) : ExactSphere (geo back) image := by
  have hmem : ∀ sites c r h, h ∈ sphere false sites c r ↔
      (∃ s, sites[h.index]? = some s ∧ h.site = image s h.image) ∧ dist h.site.coords c ≤ r := by
    intro sites c r h
    simp only [sphere, List.mem_flatMap, List.mem_map, List.mem_filter, decide_eq_true_eq,
      Bool.false_eq_true, if_false]
    constructor
    · rintro ⟨⟨s, i⟩, hs, v, ⟨-, hd⟩, rfl⟩
      exact ⟨⟨s, List.mk_mem_zipIdx_iff_getElem?.1 hs, rfl⟩, hd⟩
    · obtain ⟨x, i, va, vb, vc⟩ := h
      rintro ⟨⟨s, hs, he⟩, hd⟩
      simp only at hs he hd
      refine ⟨(s, i), List.mk_mem_zipIdx_iff_getElem?.2 hs, (va, vb, vc), ⟨?_, by rw [← he]; exact hd⟩, ?_⟩
      · rw [he] at hd
        unfold dist image at hd
        simp only [max_le_iff] at hd
        refine List.pair_mem_product.2 ⟨(mem_ints _ _).2 (within ?_ hd.1),
          List.pair_mem_product.2 ⟨(mem_ints _ _).2 (within ?_ hd.2.1),
            (mem_ints _ _).2 (within ?_ hd.2.2)⟩⟩
        · simp only; omega
        · simp only; omega
        · simp only; omega
      · rw [he]
  have hnodup : ∀ sites c r, (sphere false sites c r).Nodup := by
    intro sites c r
    simp only [sphere, Bool.false_eq_true, if_false]
    rw [List.nodup_flatMap]
    constructor
    · intro p _
      refine List.Nodup.map ?_ (((ints_nodup _).product ((ints_nodup _).product (ints_nodup _))).filter _)
      intro a b h
      simp only [Hit.mk.injEq] at h
      exact h.2.2
    · have h1 : (sites.zipIdx.map Prod.snd).Nodup := by
        rw [List.zipIdx_map_snd, ← List.range_eq_range']; exact List.nodup_range
      rw [List.Nodup, List.pairwise_map] at h1
      refine h1.imp ?_
      intro a b hab
      simp only [Function.onFun]
      intro x hx hy
      obtain ⟨v, -, rfl⟩ := List.mem_map.1 hx
      obtain ⟨w, -, hw⟩ := List.mem_map.1 hy
      simp only [Hit.mk.injEq] at hw
      exact hab hw.2.1.symm
  have hrev : ∀ sites c r, sphere true sites c r = (sphere false sites c r).reverse := by
    intro sites c r; rfl
  cases back with
  | false => exact ⟨hnodup, hmem⟩
  | true =>
    refine ⟨fun s c r => ?_, fun s c r h => ?_⟩
    · change (sphere true s c r).Nodup
      rw [hrev]
      exact List.nodup_reverse.2 (hnodup s c r)
    · change h ∈ sphere true s c r ↔ _
      rw [hrev, List.mem_reverse]
      exact hmem s c r h

/-- A frame atom, then three sites that hold sodium or nothing, then a site for silicon or
phosphorus. -/
def template : List (TemplateSite String String Int) :=
  [⟨"Zr", ⟨"Zr", "Zr", (5, 5, 5)⟩⟩, ⟨"Na", ⟨"Na", "Na", (2, 0, 0)⟩⟩, ⟨"Na", ⟨"Na", "Na", (0, 1, 0)⟩⟩,
   ⟨"Na", ⟨"Na", "Na", (-1, 0, 0)⟩⟩, ⟨"Si", ⟨"Si", "Si", (0, 0, 3)⟩⟩]

/-- See `template`. -/
def mapping : List (String × List String) := [("Zr", ["Zr"]), ("Na", ["Na", "X"]), ("Si", ["Si", "P"])]

/-- The environment of a centre in the sample. -/
def env (back : Bool) (center : Center Int) (cutoff : Int) (arg : OrderArg Int) (exclude : Option Bool) :
    Py (LocalEnv String Int (List (SiteSignature Int))) :=
  localEnvironment (φ := Unit) (fun a b => a == b) (fun _ _ _ _ _ _ _ _ => ()) (geo back) 0 id id template
    mapping center cutoff [] arg exclude

/-- The indices of a result. -/
def indices (r : Py (LocalEnv String Int (List (SiteSignature Int)))) : Option (List Nat) :=
  match r with
  | .ok e => some e.siteIndices
  | .error _ => none

end LocalSamples
open LocalSamples

/-- C83 (ties follow the search): with the default order, which sorts by species names only, two exact
searches that list the neighbours differently give different local environments, so everything that is
stored per local site depends on the order in which pymatgen happens to list neighbours. -/
theorem C83_default_order_follows_search :
    ExactSphere (geo false) image ∧ ExactSphere (geo true) image ∧
    indices (env false (.point (0, 0, 0)) 3 .absent none) = some [0, 1, 2, 3] ∧
    indices (env true (.point (0, 0, 0)) 3 .absent none) = some [2, 1, 0, 3] :=
  ⟨exact false, exact true, by decide +kernel, by decide +kernel⟩

/-- C83 (two meanings of a centre number): the same number names different centres in
`LocalLatticeStructure` (it counts the sites of the template) and in the enumeration of local
environments (it counts the changeable sites). -/
theorem C83_centre_number_differs :
    indices (env false (.index 1) 2 (.name "nasicon_nat_commun_2022") none) = some [1] ∧
    localSiteIndices (geo false) 0 ((changeable (fun a b => a == b) mapping template).map TemplateSite.site)
      (.index 1) 2 (.name "nasicon_nat_commun_2022") none = .ok [2, 0] :=
  ⟨by decide +kernel, by decide +kernel⟩

/-- A case of `C83_members`, `C83_built_iff`, `C83_enumeration_agrees`: with the named order, around
the point in the middle; and a fixed centre is refused. -/
example : indices (env false (.point (0, 0, 0)) 3 (.name "nasicon_nat_commun_2022") none) = some [2, 1, 0, 3] ∧
    indices (env true (.point (0, 0, 0)) 3 (.name "nasicon_nat_commun_2022") none) = some [2, 1, 0, 3] ∧
    indices (env false (.index 0) 3 (.name "nasicon_nat_commun_2022") none) = none := by decide +kernel

/-- A case of `C83_centre_images_dropped`: with cutoff 10 the images of the other sites appear, those
of the centre do not, although 26 of them are within the cutoff. -/
example : (indices (env false (.index 1) 10 (.name "nasicon_nat_commun_2022") none)).map
      (fun l => (l.count 0, l.count 1)) = some (0, 12) ∧
    (indices (env false (.index 1) 10 (.name "nasicon_nat_commun_2022") (some false))).map
      (fun l => l.count 0) = some 27 := by decide +kernel

theorem apart_of_coords {a b : Site String Int} (h : a.coords ≠ b.coords) :
    Precedes ["cartesian_x", "cartesian_y", "cartesian_z"] a b ∨
      Precedes ["cartesian_x", "cartesian_y", "cartesian_z"] b a := by
  obtain ⟨ta, sa, xa, ya, za⟩ := a
  obtain ⟨tb, sb, xb, yb, zb⟩ := b
  simp only [ne_eq, Prod.mk.injEq] at h
  simp only [precedes_cons, Less]
  simp only [true_and, String.reduceEq, false_and, false_or, or_false]
  omega

theorem sample_coords_apart (x y : Site String Int × Nat × (Int × Int × Int)) (hne : x ≠ y)
    (hx : ∃ t, (changeable (fun a b => a == b) mapping template)[x.2.1]? = some t ∧ x.1 = image t.site x.2.2)
    (hy : ∃ t, (changeable (fun a b => a == b) mapping template)[y.2.1]? = some t ∧ y.1 = image t.site y.2.2) :
    x.1.coords ≠ y.1.coords := by
  obtain ⟨x1, i, a1, a2, a3⟩ := x
  obtain ⟨y1, j, b1, b2, b3⟩ := y
  simp only at hx hy
  obtain ⟨t, ht, rfl⟩ := hx
  obtain ⟨u, hu, rfl⟩ := hy
  have hc : changeable (fun a b => a == b) mapping template =
      [⟨"Na", ⟨"Na", "Na", (2, 0, 0)⟩⟩, ⟨"Na", ⟨"Na", "Na", (0, 1, 0)⟩⟩,
       ⟨"Na", ⟨"Na", "Na", (-1, 0, 0)⟩⟩, ⟨"Si", ⟨"Si", "Si", (0, 0, 3)⟩⟩] := by rfl
  rw [hc] at ht hu
  intro he
  apply hne
  rcases i with _ | _ | _ | _ | i <;> rcases j with _ | _ | _ | _ | j <;>
    simp only [List.getElem?_cons_zero, List.getElem?_cons_succ, List.getElem?_nil, Option.some.injEq,
      reduceCtorEq] at ht hu <;>
    (subst ht; subst hu; simp only [image, Prod.mk.injEq, Site.mk.injEq, eq_self, true_and] at he ⊢; omega)

/-- A case of `C83_independent_of_search`: sorting by all three coordinates tells all images of the
sample apart. -/
example (e e' : LocalEnv String Int (List (SiteSignature Int)))
    (h : env false (.point (0, 0, 0)) 3 (.dict ⟨some "all", some ["cartesian_x", "cartesian_y", "cartesian_z"],
      none, none⟩) none = .ok e)
    (h' : env true (.point (0, 0, 0)) 3 (.dict ⟨some "all", some ["cartesian_x", "cartesian_y", "cartesian_z"],
      none, none⟩) none = .ok e') : e = e' := by
  refine C83_independent_of_search (exact false) (exact true) rfl rfl ?_ h h'
  intro x y hne hx hy _
  have ho : e.order.sortKeys = ["cartesian_x", "cartesian_y", "cartesian_z"] := by
    obtain ⟨-, -, _, _, _, -, h2, -⟩ := localEnvironment_ok.1 h
    simp only [resolveOrder, Order.resolve, Order.fromDict, Except.ok.injEq] at h2
    rw [← h2]; rfl
  rw [ho]
  exact apart_of_coords (sample_coords_apart x y hne hx hy)

example : (∃ e, env false (.point (0, 0, 0)) 3 (.dict ⟨some "all",
      some ["cartesian_x", "cartesian_y", "cartesian_z"], none, none⟩) none = .ok e ∧
      e.siteIndices = [2, 3, 1, 0]) ∧
    ∃ e, env true (.point (0, 0, 0)) 3 (.dict ⟨some "all",
      some ["cartesian_x", "cartesian_y", "cartesian_z"], none, none⟩) none = .ok e :=
  ⟨⟨_, rfl, by decide +kernel⟩, _, rfl⟩

/-- Three sites in a row, and the same sites listed backwards and moved. -/
def rowEnv : LocalEnv String Rat Unit :=
  ⟨⟨"a", [], false, 0⟩, [4, 5, 6], [⟨"Na", "Na", (0, 0, 0)⟩, ⟨"Si", "Si", (1, 0, 0)⟩, ⟨"Na", "Na", (3, 0, 0)⟩],
    [], ()⟩

/-- See `rowEnv`. -/
def rowBack : LocalEnv String Rat Unit :=
  ⟨⟨"a", [], false, 0⟩, [7, 8, 9], [⟨"Na", "Na", (9, 0, 0)⟩, ⟨"Si", "Si", (7, 0, 0)⟩, ⟨"Na", "Na", (6, 0, 0)⟩],
    [], ()⟩

/-- Sum of differences. -/
def rowDist (a b : Point Rat) : Rat := |a.1 - b.1| + |a.2.1 - b.2.1| + |a.2.2 - b.2.2|

theorem rowDist_comm (a b : Point Rat) : rowDist a b = rowDist b a := by
  unfold rowDist
  rw [abs_sub_comm a.1, abs_sub_comm a.2.1, abs_sub_comm a.2.2]

/-- A case of `C83_match_with_reference`, `C83_match_found_iff` and `C83_equivalent_iff`. -/
example : rowEnv.isEquivalentTo rowDist (fun i => i) 0 (1 / 1000) rowBack = .ok true ∧
    ∃ e', rowBack.matchWithReference rowDist (fun i => i) id (fun _ => ()) 0 (1 / 1000) rowEnv false = .ok e' := by
  have h : rowEnv.isEquivalentTo rowDist (fun i => i) 0 (1 / 1000) rowBack = .ok true := by
    rw [(C83_equivalent_iff rowDist_comm _ _ _ _ _).1]
    refine ⟨rowBack.sites.reverse, List.reverse_perm _, rfl, ?_⟩
    intro i j a b x y hij ha hb hx hy
    match i, j with
    | 0, 0 | 1, 1 | 2, 2 => exact absurd rfl hij
    | 0, 1 | 0, 2 | 1, 0 | 1, 2 | 2, 0 | 2, 1 =>
      cases ha; cases hb; cases hx; cases hy
      norm_num [Matcher.isclose, rowDist]
    | i + 3, j => cases ha
    | 0, j + 3 | 1, j + 3 | 2, j + 3 => cases hb
  exact ⟨h, (C83_match_found_iff rowDist_comm _ _ _ _ _ _ _ _ rfl).2 h⟩

end KMC
