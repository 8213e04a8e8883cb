import Mathlib.Tactic.Ring
import Mathlib.Tactic.FieldSimp
import Verif.Lemmas.EnumeratorTransform
/-
Enumerating local environments through a pymatgen transformation.
-/
namespace KMC
open Spec Enumerator
variable {P K σ φ : Type}

theorem autoVariable_choices {l : Lattice P} {ts : Option (List Specie)} {is vs : List Int}
    (h : autoVariable l ts is = .ok vs) : ∀ v ∈ vs, ∃ cs, allowedChoices l v ts = .ok cs := by
  induction is generalizing vs with
  | nil => unfold autoVariable at h; cases h; simp
  | cons i is ih =>
    unfold autoVariable at h
    split at h
    · cases h
    · exact ih h
    · split at h
      · exact ih h
      · split at h
        · split at h
          · exact ih h
          · cases h
        · cases h
        · rename_i cs hcs
          split at h
          · cases h
          · rename_i vs' hvs'
            cases h
            intro v hv
            split at hv
            · rcases List.mem_cons.1 hv with rfl | hv
              · exact ⟨cs, hcs⟩
              · exact ih hvs' v hv
            · exact ih hvs' v hv

theorem checkGiven_choices {l : Lattice P} {ts : Option (List Specie)} {is : List Int}
    (h : checkGiven l ts is = .ok ()) : ∀ v ∈ is, ∃ cs, allowedChoices l v ts = .ok cs := by
  induction is with
  | nil => simp
  | cons i is ih =>
    unfold checkGiven at h
    split at h
    · cases h
    · rename_i cs hcs
      intro v hv
      rcases List.mem_cons.1 hv with rfl | hv
      · exact ⟨cs, hcs⟩
      · exact ih h v hv

theorem resolveVariable_choices {l : Lattice P} {ts : Option (List Specie)} {is vs : List Int}
    {given : Option (List Int)} (h : resolveVariable l is given ts = .ok vs) :
    ∀ v ∈ vs, ∃ cs, allowedChoices l v ts = .ok cs := by
  unfold resolveVariable at h
  split at h
  · split at h
    · cases h
    · split at h
      · cases h
      · rename_i hg
        cases h
        exact checkGiven_choices hg
  · exact autoVariable_choices h

/-- What `enumerateTransformed` computes once its arguments are accepted. -/
theorem enumerateTransformed_ok [LinearOrder K] {l : Lattice P} {dist : P → P → K} {tol : K}
    {order : ActiveSiteOrder σ φ} {full : List (Specie × P)} {is : List Int} {base : Option Occupation}
    {counts : Option (List (Specie × Int))} {ts : Option (List Specie)} {given : Option (List Int)}
    {apply : List (List (Specie × ℚ) × P) → Ranked → Py (Transformed P)} {ranked : Ranked} {m : Int}
    {rs : List (Result P)}
    (h : enumerateTransformed l dist tol order full is (base.map .ok) counts ts given apply ranked m =
      .ok rs) :
    1 ≤ m ∧ resolveVariable l is given ts = .ok (variableSites l is ts given) ∧
    badCounts (variableSites l is ts given).length (counts.map fun c => canonicalCounts c []) = false ∧
    ∃ d t es, disordered l (baseOr l base) (variableSites l is ts given) ts = .ok d ∧
      apply d (rankedRequest ranked m) = .ok t ∧ foundEntries t = .ok es ∧
      transformLoop l dist tol order full is (variableSites l is ts given)
        (counts.map fun c => canonicalCounts c []) m es [] = .ok rs := by
  unfold enumerateTransformed at h
  split at h
  · cases h
  · rename_i hm
    rw [baseOccupation_eq] at h
    simp only at h
    split at h
    · cases h
    · rename_i vs hvs
      have hvseq := (resolveVariable_ok hvs).1
      split at h
      · cases h
      · rename_i hbad
        unfold transformed at h
        split at h
        · cases h
        · rename_i d hd
          split at h
          · cases h
          · rename_i t ht
            split at h
            · cases h
            · rename_i es hes
              rw [← hvseq]
              exact ⟨by omega, hvs, by simpa using hbad, d, t, es, hd, ht, hes, h⟩

theorem enumerateTransformed_of [LinearOrder K] {l : Lattice P} {dist : P → P → K} {tol : K}
    {order : ActiveSiteOrder σ φ} {full : List (Specie × P)} {is : List Int} {base : Option Occupation}
    {counts : Option (List (Specie × Int))} {ts : Option (List Specie)} {given : Option (List Int)}
    {apply : List (List (Specie × ℚ) × P) → Ranked → Py (Transformed P)} {ranked : Ranked} {m : Int}
    {d : List (List (Specie × ℚ) × P)} {t : Transformed P} {es : List (FoundEntry P)} {vs : List Int}
    (hm : 1 ≤ m) (hvs : resolveVariable l is given ts = .ok vs)
    (hbad : badCounts vs.length (counts.map fun c => canonicalCounts c []) = false)
    (hd : disordered l (baseOr l base) vs ts = .ok d)
    (ht : apply d (rankedRequest ranked m) = .ok t) (hes : foundEntries t = .ok es) :
    enumerateTransformed l dist tol order full is (base.map .ok) counts ts given apply ranked m =
      transformLoop l dist tol order full is vs (counts.map fun c => canonicalCounts c []) m es [] := by
  unfold enumerateTransformed
  rw [if_neg (by omega), baseOccupation_eq]
  simp only [hvs]
  rw [if_neg (by rw [hbad]; decide)]
  unfold transformed
  simp only [hd, ht, hes]

/-- A built environment shows its assignment. -/
theorem shows_of_build {l : Lattice P} {order : ActiveSiteOrder σ φ}
    (horder : order.activeToOriginal.Nodup) {full : List (Specie × P)} {base : Occupation}
    {localSites vs : List Int} {c : List Specie} {r : Result P} (hn : vs.Nodup) (h0 : ∀ v ∈ vs, 0 ≤ v)
    (hlen : vs.length = c.length) (hok : buildChoice l order full base localSites vs c = .ok r) :
    Shows l order full base localSites vs c r := by
  unfold buildChoice at hok
  split at hok
  · cases hok
  · rename_i o ho
    obtain ⟨w1, w2, w3, w4⟩ := writeChoices_ok hn h0 hlen ho
    unfold build at hok
    split at hok
    · cases hok
    · rename_i lo hlo
      split at hok
      · cases hok
      · rename_i as has
        split at hok
        · cases hok
        cases hok
        unfold Occupation.getItems at hlo
        split at hlo
        · cases hlo
        · rename_i d hdd
          cases hlo
          exact ⟨w1, w2, w3, w4, rfl, rfl, pyGetAll_ok_iff.1 hdd, bySite_zip hn hlen,
            atomsFrom_ok horder has⟩

/-! ### C97 -/

section Orderings
variable [LinearOrder K] [Zero K] {template : List (Specie × P)}
  {mapping : List (Specie × List Specie)} {bt : String} {l : Lattice P}
  {order : ActiveSiteOrder σ φ} {full : List (Specie × P)} {dist : P → P → K} {tol : K}
  {localSites : List Int} {base : Option Occupation} {counts : Option (List (Specie × Int))}
  {variableSpecies : Option (List Specie)} {given : Option (List Int)}
  {apply : List (List (Specie × ℚ) × P) → Ranked → Py (Transformed P)} {ranked : Ranked}
  {maxResults : Int} {cs : List (List Specie)} {rs : List (Result P)}

/-- A run through a transformation that returns orderings is the loop over their assignments. -/
theorem transformed_run (hl : Lattice.mk' template mapping bt = .ok l)
    (hal : ∀ al, some al ∈ l.allowed → Distinguishable al ∧ TellsApart l.basis al.length)
    (hb : (baseOr l base).basis = l.basis ∧ StatesOf l.basis l.allowed (baseOr l base).data)
    (ht : 0 ≤ tol) (hsep : Separated dist (l.template.map (·.2)))
    (hn : (variableSites l localSites variableSpecies given).Nodup)
    (hcs : ∀ c ∈ cs, Assignment l variableSpecies (variableSites l localSites variableSpecies given) c)
    (hap : ∀ d, disordered l (baseOr l base) (variableSites l localSites variableSpecies given)
        variableSpecies = .ok d →
      ReturnsOrderings l (baseOr l base) (variableSites l localSites variableSpecies given) apply
        (rankedRequest ranked maxResults) d cs)
    (h : enumerateTransformed l dist tol order full localSites (base.map .ok) counts variableSpecies given
      apply ranked maxResults = .ok rs) :
    1 ≤ maxResults ∧ (∀ v ∈ variableSites l localSites variableSpecies given,
      ∃ cs, allowedChoices l v variableSpecies = .ok cs) ∧
    buildAll (buildChoice l order full (baseOr l base) localSites
        (variableSites l localSites variableSpecies given))
      ((cs.filter fun c => matchesCounts (bySite ((variableSites l localSites variableSpecies given).zip c) [])
        (counts.map fun c => canonicalCounts c [])).take maxResults.toNat) = .ok rs := by
  obtain ⟨hm, hvs, -, d, t, es, hd, hta, hes, hloop⟩ := enumerateTransformed_ok h
  have hch := resolveVariable_choices hvs
  refine ⟨hm, hch, ?_⟩
  have hes' : List.Forall₂ (EntryOrders l (baseOr l base) (variableSites l localSites variableSpecies given)) es cs := by
    rcases hap d hd with ⟨s, c, h1, rfl, h2, h3⟩ | ⟨es', h1, h2⟩
    · rw [h1] at hta
      cases hta
      cases hes
      exact .cons ⟨s, .inl rfl, h2, h3⟩ .nil
    · rw [h1] at hta
      cases hta
      cases hes
      exact h2
  rw [transformLoop_eq hl hal hb.1 hb.2 ht hsep hn (fun v hv => by
      obtain ⟨c, hc⟩ := hch v hv
      obtain ⟨e1, e2, -⟩ := allowedChoices_ok hc
      exact ⟨e1, e2⟩) order full localSites _ _ (fun c hc => (hcs c hc).imp fun v sp hh => hh.1) hes',
    enumLoop_eq _ _ _ _ _ _ _ _ _ _ (by simp; omega)] at hloop
  simp only [List.length_nil, Nat.sub_zero, List.nil_append] at hloop
  split at hloop
  · cases hloop
  · rename_i rs' hrs
    cases hloop
    exact hrs

open Classical in
/-- When the transformation returns structures that show assignments of the variable sites on top of
the base occupation, the enumeration returns exactly these environments, in that order: those that
meet the counts, up to the limit. -/
theorem C97_follows_the_transformation (hl : Lattice.mk' template mapping bt = .ok l)
    (hal : ∀ al, some al ∈ l.allowed → Distinguishable al ∧ TellsApart l.basis al.length)
    (hb : (baseOr l base).basis = l.basis ∧ StatesOf l.basis l.allowed (baseOr l base).data)
    (horder : order.activeToOriginal.Nodup)
    (ht : 0 ≤ tol) (hsep : Separated dist (l.template.map (·.2)))
    (hn : (variableSites l localSites variableSpecies given).Nodup)
    (hcs : ∀ c ∈ cs, Assignment l variableSpecies (variableSites l localSites variableSpecies given) c)
    (hap : ∀ d, disordered l (baseOr l base) (variableSites l localSites variableSpecies given)
        variableSpecies = .ok d →
      ReturnsOrderings l (baseOr l base) (variableSites l localSites variableSpecies given) apply
        (rankedRequest ranked maxResults) d cs)
    (h : enumerateTransformed l dist tol order full localSites (base.map .ok) counts variableSpecies given
      apply ranked maxResults = .ok rs) :
    List.Forall₂ (fun c r => Shows l order full (baseOr l base) localSites
      (variableSites l localSites variableSpecies given) c r)
      ((cs.filter fun c => MeetsCounts counts (c.map (·.label))).take maxResults.toNat) rs := by
  obtain ⟨hm, hch, hb'⟩ := transformed_run hl hal hb ht hsep hn hcs hap h
  have hf : (cs.filter fun c => matchesCounts (bySite ((variableSites l localSites variableSpecies given).zip c) [])
        (counts.map fun c => canonicalCounts c [])) = cs.filter fun c => MeetsCounts counts (c.map (·.label)) := by
    apply List.filter_congr
    intro c hc
    rw [Bool.eq_iff_iff, decide_eq_true_eq]
    exact matchesCounts_iff hn (hcs c hc).length_eq counts
  rw [hf] at hb'
  refine (List.forall₂_iff_zip.2 ⟨(buildAll_ok hb').length_eq, ?_⟩)
  intro c r hz
  have hok := (List.forall₂_iff_zip.1 (buildAll_ok hb')).2 hz
  have hc : c ∈ cs := List.mem_of_mem_filter (List.mem_of_mem_take (List.of_mem_zip hz).1)
  exact shows_of_build horder hn (fun v hv => by
    obtain ⟨x, hx⟩ := hch v hv
    exact (allowedChoices_ok hx).1) (hcs c hc).length_eq hok

/-- Every site of a base occupation made of states has its species. -/
theorem base_species (hl : Lattice.mk' template mapping bt = .ok l)
    (hal : ∀ al, some al ∈ l.allowed → Distinguishable al ∧ TellsApart l.basis al.length)
    {o : Occupation} (hs : StatesOf l.basis l.allowed o.data) (a : Nat) (ha : a < l.template.length) :
    ∃ sp, speciesOn l o a = .ok sp := by
  obtain ⟨htm, -, hall, -, -⟩ := Lattice.mk'_ok hl
  have hlen : l.allowed.length = l.template.length := by rw [hall, htm, List.length_map]
  have hlen2 := hs.length_eq
  have hx := hs.get (i := a) (by omega) (by omega)
  simp only [List.get_eq_getElem] at hx
  obtain ⟨al, i, e1, e2, e3⟩ := hx
  have e1' : l.allowed[a]? = some (some al) := by rw [List.getElem?_eq_getElem (by omega), e1]
  exact ⟨_, speciesOn_of e1' (List.getElem?_eq_getElem e2)
    (by rw [List.getElem?_eq_getElem (by omega), e3]) (hal al (List.mem_of_getElem? e1')).2⟩

/-- A transformation that returns every ordering once leads to the same environments as the Cartesian
product: whenever the product lists them all and every variable site has a real species to choose,
the enumeration through the transformation succeeds with a rearrangement of the same results. -/
theorem C97_same_environments (hl : Lattice.mk' template mapping bt = .ok l)
    (hal : ∀ al, some al ∈ l.allowed → Distinguishable al ∧ TellsApart l.basis al.length)
    (hb : (baseOr l base).basis = l.basis ∧ StatesOf l.basis l.allowed (baseOr l base).data)
    (ht : 0 ≤ tol) (hsep : Separated dist (l.template.map (·.2)))
    (hn : (variableSites l localSites variableSpecies given).Nodup)
    (hreal : ∀ v ∈ variableSites l localSites variableSpecies given,
      ∃ sp, MayPlace variableSpecies (allowedOn l v) sp ∧ sp.isVacancy = false)
    (hcs : ∀ c, c ∈ cs ↔ Assignment l variableSpecies (variableSites l localSites variableSpecies given) c)
    (hcn : cs.Nodup)
    (hap : ∀ d, disordered l (baseOr l base) (variableSites l localSites variableSpecies given)
        variableSpecies = .ok d →
      ReturnsOrderings l (baseOr l base) (variableSites l localSites variableSpecies given) apply
        (rankedRequest ranked maxResults) d cs)
    {rs' : List (Result P)}
    (h' : enumerate l order full localSites (base.map .ok) counts variableSpecies given maxResults = .ok rs')
    (hfew : (rs'.length : Int) < maxResults) :
    ∃ rs, enumerateTransformed l dist tol order full localSites (base.map .ok) counts variableSpecies given
      apply ranked maxResults = .ok rs ∧ rs.Perm rs' := by
  have hparts := h'
  unfold enumerate at hparts
  obtain ⟨hm, -, css, hcss, hb2⟩ := enumerate_ok h'
  rw [if_neg (by omega), baseOccupation_eq] at hparts
  simp only at hparts
  split at hparts
  · cases hparts
  rename_i vs0 hvs
  have hvseq := (resolveVariable_ok hvs).1
  subst hvseq
  split at hparts
  · cases hparts
  rename_i hbad
  clear hparts
  have hch := resolveVariable_choices hvs
  obtain ⟨d, hd⟩ := disorderedFrom_of (l := l) (base := baseOr l base)
    (vs := variableSites l localSites variableSpecies given) (ts := variableSpecies) (i := 0)
    (sites := l.template) (by
      intro v hv
      obtain ⟨x, hx⟩ := hch v hv
      obtain ⟨sp, h1, h2⟩ := hreal v hv
      refine ⟨x, hx, sp, ?_, h2⟩
      rw [(allowedChoices_ok hx).2.2.2.1]
      exact mem_selectChoices.2 h1) (base_species hl hal hb.2) (by omega)
  have hdd : ∀ v ∈ variableSites l localSites variableSpecies given, (allowedOn l v).Nodup := by
    intro v hv
    obtain ⟨x, hx⟩ := hch v hv
    refine (hal _ (List.mem_of_getElem? (allowedChoices_ok hx).2.1)).1.imp ?_
    rintro a b hab rfl
    rw [a.equivalent_refl] at hab
    cases hab
  have hpn : (productLists css).Nodup := by
    refine (productLists_ranks hcss hdd).imp ?_
    rintro c d hcd rfl
    exact lt_irrefl _ hcd
  have hperm : cs.Perm (productLists css) :=
    (List.perm_ext_iff_of_nodup hcn hpn).2 fun c => by rw [hcs, assignment_iff hcss]
  have hpf := hperm.filter fun c => matchesCounts
    (bySite ((variableSites l localSites variableSpecies given).zip c) [])
    (counts.map fun c => canonicalCounts c [])
  have hlen := (buildAll_ok hb2).length_eq
  rw [List.length_take] at hlen
  have hle : ((productLists css).filter fun c => matchesCounts
    (bySite ((variableSites l localSites variableSpecies given).zip c) [])
    (counts.map fun c => canonicalCounts c [])).length ≤ maxResults.toNat := by
    omega
  rw [List.take_of_length_le hle] at hb2
  obtain ⟨w, h4, h5⟩ := List.perm_comp_forall₂ hpf (buildAll_ok hb2)
  have hbw := buildAll_of h4
  refine ⟨w, ?_, h5⟩
  have hes : ∃ t es, apply d (rankedRequest ranked maxResults) = .ok t ∧ foundEntries t = .ok es ∧
      List.Forall₂ (EntryOrders l (baseOr l base) (variableSites l localSites variableSpecies given)) es cs := by
    rcases hap d hd with ⟨s, c, h1, rfl, h2, h3⟩ | ⟨es', h1, h2⟩
    · exact ⟨_, _, h1, rfl, .cons ⟨s, .inl rfl, h2, h3⟩ .nil⟩
    · exact ⟨_, _, h1, rfl, h2⟩
  obtain ⟨t, es, ht', hes, hes'⟩ := hes
  rw [enumerateTransformed_of hm hvs (by simpa using hbad) hd ht' hes,
    transformLoop_eq hl hal hb.1 hb.2 ht hsep hn (fun v hv => by
      obtain ⟨c, hc⟩ := hch v hv
      obtain ⟨e1, e2, -⟩ := allowedChoices_ok hc
      exact ⟨e1, e2⟩) order full localSites _ _
      (fun c hc => ((hcs c).1 hc).imp fun v sp hh => hh.1) hes',
    enumLoop_eq _ _ _ _ _ _ _ _ _ _ (by simp; omega)]
  simp only [List.length_nil, Nat.sub_zero, List.nil_append]
  rw [List.take_of_length_le (by rw [hpf.length_eq]; exact hle), hbw]

/-- What the transformation is handed: on every variable site the species to choose from, each with
the same share and the vacancy's share left empty, on the other sites the base occupation; sites that
are vacant there are left out. -/
theorem C97_disordered_structure {b : Occupation} {vs : List Int}
    (hd : ∀ v ∈ vs, (allowedOn l v).Nodup) {d : List (List (Specie × ℚ) × P)}
    (h : disordered l b vs variableSpecies = .ok d) :
    ∃ entries : List (List (Specie × ℚ)), entries.length = l.template.length ∧
      (∀ (j : Nat) entry, entries[j]? = some entry → SiteIsDisordered l b vs variableSpecies j entry) ∧
      (∀ (j : Nat) entry, entries[j]? = some entry → (j : Int) ∈ vs → entry ≠ []) ∧
      d = (entries.zip (l.template.map (·.2))).filter fun x => !x.1.isEmpty := by
  obtain ⟨entries, h1, h2, h3, h4⟩ := disorderedFrom_ok hd h
  refine ⟨entries, h1, ?_, ?_, h4⟩
  · intro j en hj; have := h2 j en hj; rwa [Nat.zero_add] at this
  · intro j en hj hm; exact h3 j en hj (by rwa [Nat.zero_add])

/-- On every site the shares add up to at most one. -/
theorem C97_shares {b : Occupation} {vs : List Int} {j : Nat} {entry : List (Specie × ℚ)}
    (h : SiteIsDisordered l b vs variableSpecies j entry) : (entry.map (·.2)).sum ≤ 1 := by
  unfold SiteIsDisordered at h
  split at h
  · subst h
    generalize placeable l variableSpecies j = ps
    rw [List.map_map]
    have hle : (ps.filter fun sp => !sp.isVacancy).length ≤ ps.length := List.length_filter_le _ _
    generalize (ps.filter fun sp => !sp.isVacancy) = qs at hle
    have hsum : (qs.map (Prod.snd ∘ fun sp => (sp, 1 / (ps.length : ℚ)))).sum = qs.length * (1 / (ps.length : ℚ)) := by
      clear hle
      induction qs with
      | nil => simp
      | cons q qs ih =>
        rw [List.map_cons, List.sum_cons, ih, List.length_cons]
        push_cast
        simp only [Function.comp]
        ring
    rw [hsum]
    rcases Nat.eq_zero_or_pos ps.length with h0 | h0
    · rw [h0]; simp
    · have hp : (0 : ℚ) < ps.length := by exact_mod_cast h0
      have hq : (qs.length : ℚ) ≤ ps.length := by exact_mod_cast hle
      rw [mul_one_div, div_le_one hp]
      exact hq
  · obtain ⟨sp, -, rfl⟩ := h
    split <;> simp

end Orderings

section Any
variable [LinearOrder K] {l : Lattice P}
  {order : ActiveSiteOrder σ φ} {full : List (Specie × P)} {dist : P → P → K} {tol : K}
  {localSites : List Int} {base : Option Occupation} {counts : Option (List (Specie × Int))}
  {variableSpecies : Option (List Specie)} {given : Option (List Int)}
  {apply : List (List (Specie × ℚ) × P) → Ranked → Py (Transformed P)} {ranked : Ranked}
  {maxResults : Int} {rs : List (Result P)}

/-- Whatever the transformation returns, the counts are only applied afterwards, to its results. -/
theorem C97_counts_only_filter (hfew : (rs.length : Int) < maxResults)
    (h : enumerateTransformed l dist tol order full localSites (base.map .ok) none variableSpecies given
      apply ranked maxResults = .ok rs) {c : List (Specie × Int)}
    (hsum : ((canonicalCounts c []).map (·.2)).sum =
      ((variableSites l localSites variableSpecies given).length : Int)) :
    ∃ rs', enumerateTransformed l dist tol order full localSites (base.map .ok) (some c) variableSpecies given
      apply ranked maxResults = .ok rs' ∧
      rs'.Sublist rs ∧ ∀ r, r ∈ rs' ↔ r ∈ rs ∧ MeetsCounts (some c) (r.speciesBySite.map (·.2)) := by
  obtain ⟨hm, hvs, -, d, t, es, hd, hta, hes, hloop⟩ := enumerateTransformed_ok h
  rw [Option.map_none] at hloop
  obtain ⟨new, hnew, hrun⟩ := transformLoop_counts (some (canonicalCounts c [])) hfew hloop
  rw [List.nil_append] at hnew
  subst hnew
  refine ⟨rs.filter fun r => matchesCounts r.speciesBySite (some (canonicalCounts c [])), ?_,
    List.filter_sublist, ?_⟩
  · rw [enumerateTransformed_of hm hvs (by simp [badCounts, hsum]) hd hta hes, Option.map_some,
      hrun [] (by simp)]
    rfl
  · intro r
    rw [List.mem_filter]
    simp only [matchesCounts, counterEq_iff, MeetsCounts, Option.some.injEq, forall_eq']

/-- A smaller limit only truncates, when the transformation is not asked for a number of structures
that depends on the limit. -/
theorem C97_limit_truncates {m m' : Int} (hm : 1 ≤ m) (hmm : m ≤ m') (hr : ranked ≠ .flag true)
    (h : enumerateTransformed l dist tol order full localSites (base.map .ok) counts variableSpecies given
      apply ranked m' = .ok rs) :
    enumerateTransformed l dist tol order full localSites (base.map .ok) counts variableSpecies given
      apply ranked m = .ok (rs.take m.toNat) := by
  obtain ⟨-, hvs, hbad, d, t, es, hd, hta, hes, hloop⟩ := enumerateTransformed_ok h
  have hreq : rankedRequest ranked m = rankedRequest ranked m' := by
    cases ranked with
    | number n => rfl
    | flag b => cases b with
      | true => exact absurd rfl hr
      | false => rfl
  rw [enumerateTransformed_of hm hvs hbad hd (by rw [hreq]; exact hta) hes]
  exact transformLoop_limit hmm (by simp; omega) hloop

/-- The transformation is asked once: for the given number of structures, for `max_results` of them
when a ranked list is wanted without a number, and for a single one otherwise.  Transformations that
answer this request alike lead to the same result. -/
theorem C97_asked_once {apply' : List (List (Specie × ℚ) × P) → Ranked → Py (Transformed P)}
    (h : ∀ d, apply d (match ranked with
        | .number n => .number n
        | .flag b => if b then .number maxResults else .flag false) =
      apply' d (match ranked with
        | .number n => .number n
        | .flag b => if b then .number maxResults else .flag false)) :
    enumerateTransformed l dist tol order full localSites (base.map .ok) counts variableSpecies given
      apply ranked maxResults =
    enumerateTransformed l dist tol order full localSites (base.map .ok) counts variableSpecies given
      apply' ranked maxResults := by
  have hreq : ∀ d, apply d (rankedRequest ranked maxResults) = apply' d (rankedRequest ranked maxResults) := by
    intro d
    have := h d
    cases ranked with
    | number n => exact this
    | flag b => cases b <;> exact this
  unfold enumerateTransformed transformed
  simp only [hreq]

/-- Returned structures are looked at one after the other, and only until enough results are found: an
entry that is no structure is an error if it is reached, and is not noticed otherwise. -/
theorem C97_entries_in_turn {d : List (List (Specie × ℚ) × P)} {vs : List Int} (hm : 1 ≤ maxResults)
    (hvs : resolveVariable l localSites given variableSpecies = .ok vs)
    (hd : disordered l (baseOr l base) vs variableSpecies = .ok d) {es rest : List (FoundEntry P)}
    {apply' : List (List (Specie × ℚ) × P) → Ranked → Py (Transformed P)}
    (ha : apply d (rankedRequest ranked maxResults) = .ok (.many es))
    (ha' : apply' d (rankedRequest ranked maxResults) = .ok (.many (es ++ .unsupported :: rest)))
    (h : enumerateTransformed l dist tol order full localSites (base.map .ok) counts variableSpecies given
      apply ranked maxResults = .ok rs) :
    enumerateTransformed l dist tol order full localSites (base.map .ok) counts variableSpecies given
      apply' ranked maxResults =
    if (rs.length : Int) < maxResults then .error .typeError else .ok rs := by
  obtain ⟨-, hvs', hbad, -⟩ := enumerateTransformed_ok h
  rw [hvs] at hvs'
  have hv := Except.ok.inj hvs'
  rw [← hv] at hbad
  rw [enumerateTransformed_of hm hvs hbad hd ha rfl] at h
  rw [enumerateTransformed_of hm hvs hbad hd ha' rfl,
    transformLoop_append _ _ _ _ _ _ _ _ _ _ _ _ (by simp; omega), h]
  simp only
  by_cases hlt : (rs.length : Int) < maxResults
  · rw [if_neg (by omega), if_pos hlt]; rfl
  · rw [if_pos (by omega), if_neg hlt]

/-- A result of another kind, a failing transformation, a limit below 1 and a given variable site
outside the local environment are errors. -/
theorem C97_rejections :
    (maxResults < 1 → enumerateTransformed l dist tol order full localSites (base.map .ok) counts
      variableSpecies given apply ranked maxResults = .error .valueError) ∧
    (∀ gs v, given = some gs → v ∈ gs → v ∉ localSites →
      enumerateTransformed l dist tol order full localSites (base.map .ok) counts variableSpecies given
        apply ranked maxResults = .error .valueError) ∧
    ((∀ d r, apply d r = .ok .unsupported ∨ ∃ e, apply d r = .error e) →
      enumerateTransformed l dist tol order full localSites (base.map .ok) counts variableSpecies given
        apply ranked maxResults ≠ .ok rs) ∧
    (∀ c, counts = some c → enumerateTransformed l dist tol order full localSites (base.map .ok) counts
      variableSpecies given apply ranked maxResults = .ok rs →
      ((canonicalCounts c []).map (·.2)).sum =
        ((variableSites l localSites variableSpecies given).length : Int)) := by
  refine ⟨?_, ?_, ?_, ?_⟩
  · intro h; unfold enumerateTransformed; rw [if_pos h]
  · intro gs v hg hv hnot
    unfold enumerateTransformed
    split
    · rfl
    · rw [baseOccupation_eq]
      simp only
      have : resolveVariable l localSites given variableSpecies = .error .valueError := by
        rw [hg]
        simp only [resolveVariable]
        rw [if_pos]
        rw [List.any_eq_true]
        exact ⟨v, hv, by simpa using hnot⟩
      rw [this]
  · intro h hok
    obtain ⟨-, -, -, d, t, es, -, hta, hes, -⟩ := enumerateTransformed_ok hok
    rcases h d (rankedRequest ranked maxResults) with h1 | ⟨e, h1⟩
    · rw [h1] at hta; cases hta; cases hes
    · rw [h1] at hta; cases hta
  · intro c hc hok
    obtain ⟨-, -, hbad, -⟩ := enumerateTransformed_ok hok
    rw [hc] at hbad
    simpa [badCounts] using hbad

/-- A variable site whose only choice is the vacancy makes the enumeration fail whatever the
transformation is. -/
theorem C97_vacancy_only_fails {v : Nat} (hv : (v : Int) ∈ variableSites l localSites variableSpecies given)
    (hvt : v < l.template.length)
    (hvac : ∀ sp, MayPlace variableSpecies (allowedOn l (v : Int)) sp → sp.isVacancy = true) :
    enumerateTransformed l dist tol order full localSites (base.map .ok) counts variableSpecies given
      apply ranked maxResults ≠ .ok rs := by
  intro h
  obtain ⟨-, hvs, -, d, t, es, hd, -⟩ := enumerateTransformed_ok h
  refine disorderedFrom_vacant hv ?_ (i := 0) (sites := l.template) ⟨by omega, by omega⟩ d hd
  intro cs hcs s hs
  rw [(allowedChoices_ok hcs).2.2.2.1] at hs
  exact hvac s (mem_selectChoices.1 hs)

end Any

/-! ### The running example -/

open Lattice (sNa sSb sW C48_chebyshev_tells_apart)

/-- The distance of the example: positions on a line. -/
def lineDist (a b : Int) : Nat := (a - b).natAbs

/-- The assignments of the sites 1 and 2, last first. -/
def enumAssignments : List (List Specie) :=
  [[.vacancy, sW], [.vacancy, sSb], [sNa, sW], [sNa, sSb]]

/-- A structure on the cell of the example, its atoms listed backwards. -/
def enumFound (atoms : List (Specie × Int)) : Found Int :=
  ⟨some [(0, 0), (1, 1), (2, 3)], true, (atoms.filter fun a => !a.1.isVacancy).reverse⟩

/-- A transformation that returns all orderings, as dictionaries. -/
def enumApply (_ : List (List (Specie × ℚ) × Int)) (_ : Ranked) : Py (Transformed Int) :=
  .ok (.many [.ranked (enumFound [(sNa, 0), (.vacancy, 1), (sW, 3)]),
    .ranked (enumFound [(sNa, 0), (.vacancy, 1), (sSb, 3)]),
    .ranked (enumFound [(sNa, 0), (sNa, 1), (sW, 3)]),
    .ranked (enumFound [(sNa, 0), (sNa, 1), (sSb, 3)])])

theorem enum_vs : variableSites enumLattice [1, 2] none none = [1, 2] := by decide

theorem enum_assignments (c : List Specie) :
    c ∈ enumAssignments ↔ Assignment enumLattice none [1, 2] c := by
  have h := assignment_iff (l := enumLattice) (ts := none) (vs := [1, 2])
    (css := [[sNa, .vacancy], [sSb, sW]]) (choicesBySite_ok (by decide +kernel)) c
  rw [← h]
  simp only [enumAssignments, productLists, List.map_cons, List.map_nil, List.flatMap_cons,
    List.flatMap_nil, List.append_nil, List.cons_append, List.nil_append, List.mem_cons,
    List.not_mem_nil, or_false]
  constructor
  · rintro (h | h | h | h) <;> simp [h]
  · rintro (h | h | h | h) <;> simp [h]

theorem enum_orders (a b : Specie) :
    EntryOrders enumLattice (baseOr enumLattice none) [1, 2]
      (.ranked (enumFound [(sNa, 0), (a, 1), (b, 3)])) [a, b] := by
  refine ⟨_, .inr rfl, ⟨rfl, rfl⟩, [sNa, a, b], rfl, ?_, ?_, ?_⟩
  · intro k v sp h1 h2
    match k with
    | 0 => simp at h1 h2; subst h1 h2; rfl
    | 1 => simp at h1 h2; subst h1 h2; rfl
    | k + 2 => simp at h1
  · intro j hj hn
    have hj' : j < 3 := hj
    have h0 : j = 0 := by
      simp at hn
      omega
    subst h0
    exact ⟨sNa, rfl, [sNa, .vacancy], 0, rfl, rfl, by decide⟩
  · exact List.reverse_perm _

theorem enum_separated : Separated lineDist (enumLattice.template.map (·.2)) := by
  constructor
  · intro p _; simp [lineDist]
  · intro i j p q hi hj hij
    have hlist : enumLattice.template.map (·.2) = [0, 1, 3] := rfl
    rw [hlist] at hi hj
    have hil : i < 3 := by
      by_contra hcc; rw [List.getElem?_eq_none (by simpa using hcc)] at hi; cases hi
    have hjl : j < 3 := by
      by_contra hcc; rw [List.getElem?_eq_none (by simpa using hcc)] at hj; cases hj
    have hpq : p ≠ q := by
      rintro rfl
      have : ([0, 1, 3] : List Int).Nodup := by decide
      rw [List.getElem?_eq_getElem (by simpa using hil)] at hi
      rw [List.getElem?_eq_getElem (by simpa using hjl)] at hj
      exact hij ((this.getElem_inj_iff).1 ((Option.some.inj hi).trans (Option.some.inj hj).symm))
    unfold lineDist
    omega

theorem enum_allowed (al : List Specie) (h : some al ∈ enumLattice.allowed) :
    Distinguishable al ∧ TellsApart enumLattice.basis al.length := by
  refine ⟨?_, C48_chebyshev_tells_apart _ _⟩
  simp [enumLattice] at h
  rcases h with rfl | rfl <;> (simp [Distinguishable]; decide)

theorem enum_base : (baseOr enumLattice none).basis = enumLattice.basis ∧
    StatesOf enumLattice.basis enumLattice.allowed (baseOr enumLattice none).data := by
  refine ⟨rfl, ?_⟩
  exact .cons ⟨_, 0, rfl, by decide, rfl⟩ (.cons ⟨_, 0, rfl, by decide, rfl⟩ (.cons ⟨_, 0, rfl, by decide, rfl⟩ .nil))

/-- The hypotheses of the theorems are met, and the four environments of the product come back in
the order of the transformation. -/
example : ∃ rs rs', enumerate enumLattice enumOrder enumFull [1, 2] none none none none 1000 = .ok rs' ∧
    enumerateTransformed enumLattice lineDist 0 enumOrder enumFull [1, 2] none none none none
      enumApply (.flag true) 1000 = .ok rs ∧ rs.Perm rs' ∧
    rs.map (·.fullOccupation.data) = [[0, 1, 1], [0, 1, 0], [0, 0, 1], [0, 0, 0]] := by
  have hprod : ∃ rs', enumerate enumLattice enumOrder enumFull [1, 2] none none none none 1000 = .ok rs' ∧
      rs'.length = 4 := ⟨_, rfl, rfl⟩
  obtain ⟨rs', h', hlen⟩ := hprod
  obtain ⟨rs, h1, h2⟩ := C97_same_environments (K := Nat) (dist := lineDist) (tol := 0) (order := enumOrder)
    (full := enumFull) (base := none) (cs := enumAssignments) (apply := enumApply) (ranked := .flag true)
    (template := enumTemplate) (mapping := Lattice.exampleMapping) (bt := "chebyshev") (l := enumLattice) rfl
    enum_allowed enum_base (le_refl 0) enum_separated (by rw [enum_vs]; decide)
    (by
      rw [enum_vs]
      intro v hv
      simp only [List.mem_cons, List.not_mem_nil, or_false] at hv
      rcases hv with rfl | rfl
      · exact ⟨sNa, ⟨by decide, by simp⟩, by decide⟩
      · exact ⟨sSb, ⟨by decide, by simp⟩, by decide⟩)
    (by rw [enum_vs]; exact enum_assignments) (by decide)
    (by
      intro d _
      rw [enum_vs]
      exact .inr ⟨_, rfl, .cons (enum_orders _ _) (.cons (enum_orders _ _)
        (.cons (enum_orders _ _) (.cons (enum_orders _ _) .nil)))⟩) h' (by rw [hlen]; decide)
  refine ⟨rs, rs', h', h1, h2, ?_⟩
  have hk : (enumerateTransformed enumLattice lineDist 0 enumOrder enumFull [1, 2] none none none none
      enumApply (.flag true) 1000).toOption.map (·.map (·.fullOccupation.data)) =
      some [[0, 1, 1], [0, 1, 0], [0, 0, 1], [0, 0, 0]] := by decide +kernel
  have h1' : enumerateTransformed enumLattice lineDist 0 enumOrder enumFull [1, 2] none none none none
      enumApply (.flag true) 1000 = .ok rs := h1
  rw [h1'] at hk
  exact Option.some.inj hk

/-- The disordered structure of the example: half a sodium on site 1, half antimony and half tungsten
on site 2, and the sodium of the base occupation on site 0. -/
example : disordered enumLattice (baseOr enumLattice none) [1, 2] none =
    .ok [([(sNa, 1)], 0), ([(sNa, 1 / 2)], 1), ([(sSb, 1 / 2), (sW, 1 / 2)], 3)] := by decide +kernel

/-- An ordering transformation keeps the composition it is handed, which does not depend on the counts:
here one sodium for the sites 0 and 1. -/
def halfApply (_ : List (List (Specie × ℚ) × Int)) (_ : Ranked) : Py (Transformed Int) :=
  .ok (.many [.plain (enumFound [(sNa, 0), (.vacancy, 1), (sSb, 3)]),
    .plain (enumFound [(.vacancy, 0), (sNa, 1), (sSb, 3)])])

/-- So a request for two sodium ions returns nothing, although the product finds the environment: the
counts are not used to choose the fractions. -/
theorem C97_counts_do_not_set_the_composition :
    disordered enumLattice (baseOr enumLattice none) [0, 1] none =
      .ok [([(sNa, 1 / 2)], 0), ([(sNa, 1 / 2)], 1), ([(sSb, 1)], 3)] ∧
    (∃ r, enumerate enumLattice enumOrder enumFull [0, 1] none (some [(sNa, 2)]) none none 1000 = .ok [r]) ∧
    enumerateTransformed enumLattice lineDist 0 enumOrder enumFull [0, 1] none (some [(sNa, 2)]) none none
      halfApply (.flag true) 1000 = .ok [] ∧
    ∃ r r', enumerateTransformed enumLattice lineDist 0 enumOrder enumFull [0, 1] none
      (some [(sNa, 1), (.vacancy, 1)]) none none halfApply (.flag true) 1000 = .ok [r, r'] :=
  ⟨by decide +kernel, ⟨_, rfl⟩, by decide +kernel, ⟨_, _, rfl⟩⟩

/-- A site that may only be vacant is listed by the product and refused for a transformation. -/
theorem C97_product_accepts_vacancy_only :
    (∃ r, enumerate enumLattice enumOrder enumFull [1, 2] none none (some [.vacancy]) (some [1]) 1000 = .ok [r]) ∧
    enumerateTransformed enumLattice lineDist 0 enumOrder enumFull [1, 2] none none (some [.vacancy])
      (some [1]) enumApply (.flag true) 1000 = .error .valueError :=
  ⟨⟨_, rfl⟩, by decide +kernel⟩

/-- A sodium site and an antimony/tungsten site. -/
def pairLattice : Lattice Int :=
  ⟨[(sNa, 0), (sSb, 3)], Lattice.exampleMapping, [some [sNa, .vacancy], some [sSb, sW]], .chebyshev 2⟩

def pairOrder : ActiveSiteOrder Unit Unit := ⟨2, 2, [0, 1], [0, 1], [0, 1], [], (1, 1, 1), [], [], ()⟩

/-- A transformation that returns an ordering on a doubled cell (pymatgen lists the copies of a site
one after the other): every second site holds tungsten. -/
def doubledApply (_ : List (List (Specie × ℚ) × Int)) (_ : Ranked) : Py (Transformed Int) :=
  .ok (.one ⟨some [(0, 0), (0, 100), (1, 3), (1, 103)], true,
    [(sNa, 0), (sNa, 100), (sW, 3), (sW, 103)]⟩)

/-- Structures on a larger cell are accepted, but read with the site numbers of the template: the
result claims antimony on a site that holds tungsten in every copy. -/
theorem C97_larger_cells_misread :
    ∃ r, enumerateTransformed pairLattice lineDist 0 pairOrder [(sNa, 0), (sSb, 3)] [1] none none none none
      doubledApply (.flag true) 1000 = .ok [r] ∧ r.speciesBySite = [(1, "Sb")] ∧
      r.atoms = [(sNa, 0), (sSb, 3)] :=
  ⟨_, rfl, by decide +kernel, by decide +kernel⟩

end KMC
