import Verif.Lemmas.Enumerator
import Verif.Props.LatticeProps
/-
Enumerating local environments: every assignment once, in a fixed order, and the limit only
truncates.
-/
namespace KMC
open Spec Enumerator
variable {P σ φ : Type}

/-- The base occupation: the given one, or the first allowed species everywhere. -/
def baseOr (l : Lattice P) (base : Option Occupation) : Occupation :=
  base.getD ⟨l.basis, List.replicate l.template.length l.basis.matchValue⟩

theorem baseOccupation_eq (l : Lattice P) (base : Option Occupation) :
    baseOccupation l (base.map .ok) = .ok (baseOr l base) := by
  cases base <;> rfl

/-- What `enumerate` computes once its arguments are accepted. -/
theorem enumerate_ok {l : Lattice P} {order : ActiveSiteOrder σ φ} {full : List (Specie × P)}
    {is : List Int} {base : Option Occupation} {counts : Option (List (Specie × Int))}
    {ts : Option (List Specie)} {given : Option (List Int)} {m : Int} {rs : List (Result P)}
    (h : enumerate l order full is (base.map .ok) counts ts given m = .ok rs) :
    1 ≤ m ∧ (∀ gs, given = some gs → ∀ v ∈ gs, v ∈ is) ∧
    ∃ css, List.Forall₂ (fun v cs => allowedChoices l v ts = .ok cs) (variableSites l is ts given) css ∧
      buildAll (buildChoice l order full (baseOr l base) is (variableSites l is ts given))
        (((productLists css).filter fun c => matchesCounts (bySite ((variableSites l is ts given).zip c) [])
          (counts.map fun c => canonicalCounts c [])).take m.toNat) = .ok rs := by
  unfold enumerate at h
  split at h
  · cases h
  · rename_i hm
    rw [baseOccupation_eq] at h
    simp only at h
    split at h
    · cases h
    · rename_i vs hvs
      obtain ⟨rfl, hsub⟩ := resolveVariable_ok hvs
      split at h
      · cases h
      · split at h
        · cases h
        · rename_i css hcss
          refine ⟨by omega, hsub, css, choicesBySite_ok hcss, ?_⟩
          rw [enumLoop_eq _ _ _ _ _ _ _ _ _ _ (by simp; omega)] at h
          split at h
          · cases h
          · rename_i rs' hrs
            simp only [List.length_nil, Nat.sub_zero, List.nil_append] at hrs h
            rw [hrs]
            exact h

/-! ### C50 -/

/-- C50.  With pairwise different variable sites the results show, in order, the first `max_results`
of all assignments of placeable species that meet the requested counts; the assignments are listed
in lexicographic order of the positions of the species in the allowed species, so none is listed
twice and none is missing. -/
theorem C50_enumeration {l : Lattice P} {order : ActiveSiteOrder σ φ}
    (horder : order.activeToOriginal.Nodup) {full : List (Specie × P)}
    {localSites : List Int} {base : Option Occupation} {counts : Option (List (Specie × Int))}
    {variableSpecies : Option (List Specie)} {given : Option (List Int)} {maxResults : Int}
    {rs : List (Result P)}
    (hn : (variableSites l localSites variableSpecies given).Nodup)
    (hd : ∀ v ∈ variableSites l localSites variableSpecies given, (allowedOn l v).Nodup)
    (h : enumerate l order full localSites (base.map .ok) counts variableSpecies given maxResults = .ok rs) :
    ∃ cs : List (List Specie),
      (∀ c, c ∈ cs ↔ Assignment l variableSpecies (variableSites l localSites variableSpecies given) c ∧
        MeetsCounts counts (c.map (·.label))) ∧
      (cs.Pairwise fun c d => ranks l (variableSites l localSites variableSpecies given) c <
        ranks l (variableSites l localSites variableSpecies given) d) ∧
      List.Forall₂ (fun c r => Shows l order full (baseOr l base) localSites
        (variableSites l localSites variableSpecies given) c r) (cs.take maxResults.toNat) rs := by
  obtain ⟨hm, -, css, hcss, hb⟩ := enumerate_ok h
  generalize variableSites l localSites variableSpecies given = vs at *
  have hlen : ∀ c, c ∈ productLists css → vs.length = c.length := fun c hc =>
    ((assignment_iff hcss c).1 hc).length_eq
  refine ⟨(productLists css).filter fun c => matchesCounts (bySite (vs.zip c) [])
          (counts.map fun c => canonicalCounts c []), ?_, ?_, ?_⟩
  · intro c
    rw [List.mem_filter]
    constructor
    · rintro ⟨h1, h2⟩
      exact ⟨(assignment_iff hcss c).1 h1, (matchesCounts_iff hn (hlen c h1) counts).1 h2⟩
    · rintro ⟨h1, h2⟩
      have h3 := (assignment_iff hcss c).2 h1
      exact ⟨h3, (matchesCounts_iff hn (hlen c h3) counts).2 h2⟩
  · exact (productLists_ranks hcss hd).filter _
  · refine (List.forall₂_iff_zip.2 ⟨(buildAll_ok hb).length_eq, ?_⟩)
    intro c r hz
    have hok := (List.forall₂_iff_zip.1 (buildAll_ok hb)).2 hz
    have hc : c ∈ productLists css :=
      List.mem_of_mem_filter (List.mem_of_mem_take (List.of_mem_zip hz).1)
    have h0 : ∀ v ∈ vs, 0 ≤ v := by
      intro v hv
      obtain ⟨k, hk⟩ := List.getElem?_of_mem hv
      have hkl : k < vs.length := by
        by_contra hcc; rw [List.getElem?_eq_none (by omega)] at hk; cases hk
      have := hcss.get hkl (by rw [← hcss.length_eq]; exact hkl)
      rw [List.get_eq_getElem] at this
      rw [List.getElem?_eq_getElem hkl] at hk
      cases hk
      exact (allowedChoices_ok this).1
    unfold buildChoice at hok
    split at hok
    · cases hok
    · rename_i o ho
      obtain ⟨w1, w2, w3, w4⟩ := writeChoices_ok hn h0 (hlen c hc) ho
      unfold build at hok
      split at hok
      · cases hok
      · rename_i lo hlo
        split at hok
        · cases hok
        · rename_i as has
          split at hok
          · cases hok
          cases hok
          unfold Occupation.getItems at hlo
          split at hlo
          · cases hlo
          · rename_i d hdd
            cases hlo
            exact ⟨w1, w2, w3, w4, rfl, rfl, pyGetAll_ok_iff.1 hdd, bySite_zip hn (hlen c hc),
              atomsFrom_ok horder has⟩

/-- Two results never have the same occupation, when the basis has a value for every allowed species
and the allowed species can be told apart. -/
theorem C50_distinct {l : Lattice P} {order : ActiveSiteOrder σ φ}
    (horder : order.activeToOriginal.Nodup) {full : List (Specie × P)}
    {localSites : List Int} {base : Option Occupation} {counts : Option (List (Specie × Int))}
    {variableSpecies : Option (List Specie)} {given : Option (List Int)} {maxResults : Int}
    {rs : List (Result P)}
    (hn : (variableSites l localSites variableSpecies given).Nodup)
    (hd : ∀ v ∈ variableSites l localSites variableSpecies given, Distinguishable (allowedOn l v))
    (ht : ∀ v ∈ variableSites l localSites variableSpecies given, TellsApart l.basis (allowedOn l v).length)
    (h : enumerate l order full localSites (base.map .ok) counts variableSpecies given maxResults = .ok rs) :
    (rs.map (·.fullOccupation.data)).Nodup := by
  have hd' : ∀ v ∈ variableSites l localSites variableSpecies given, (allowedOn l v).Nodup := by
    intro v hv
    refine (hd v hv).imp ?_
    rintro a b hab rfl
    rw [a.equivalent_refl] at hab
    cases hab
  obtain ⟨cs, hcs, hpw, hsh⟩ := C50_enumeration horder hn hd' h
  generalize variableSites l localSites variableSpecies given = vs at *
  have hcsn : (cs.take maxResults.toNat).Nodup := by
    refine List.Pairwise.sublist (List.take_sublist _ _) (hpw.imp ?_)
    rintro c d hcd rfl
    exact lt_irrefl _ hcd
  -- the choices can be read off the occupation
  have hinj : ∀ c d r s, c ∈ cs → d ∈ cs → Shows l order full (baseOr l base) localSites vs c r →
      Shows l order full (baseOr l base) localSites vs d s →
      r.fullOccupation.data = s.fullOccupation.data → c = d := by
    intro c d r s hc hd' h1 h2 heq
    have ac := ((hcs c).1 hc).1
    have ad := ((hcs d).1 hd').1
    apply List.ext_getElem (by rw [← ac.length_eq, ← ad.length_eq])
    intro k hk hk'
    have hkv : k < vs.length := by rw [ac.length_eq]; exact hk
    have hv := List.getElem?_eq_getElem hkv
    have hmem : vs[k] ∈ vs := List.getElem_mem hkv
    obtain ⟨i, hi, hi2⟩ := h1.placed k _ _ hv (List.getElem?_eq_getElem hk)
    obtain ⟨j, hj, hj2⟩ := h2.placed k _ _ hv (List.getElem?_eq_getElem hk')
    rw [heq, hj2] at hi2
    have hin : ∀ {sp : Specie} {i : Nat}, IsState (allowedOn l vs[k]) sp i → i < (allowedOn l vs[k]).length := by
      rintro sp i ⟨⟨a, ha, -⟩, -⟩
      by_contra hcc; rw [List.getElem?_eq_none (by omega)] at ha; cases ha
    have hij : j = i := ht _ hmem j i (hin hj) (hin hi) (Option.some.inj hi2)
    subst hij
    have hpc : MayPlace variableSpecies (allowedOn l vs[k]) c[k] := by
      have := ac.get hkv hk; simpa using this
    have hpd : MayPlace variableSpecies (allowedOn l vs[k]) d[k] := by
      have := ad.get hkv hk'; simpa using this
    have hfind : ∀ {sp : Specie}, sp ∈ allowedOn l vs[k] → IsState (allowedOn l vs[k]) sp j →
        (allowedOn l vs[k])[j]? = some sp := by
      intro sp hsp hst
      obtain ⟨m, hm⟩ := List.getElem?_of_mem hsp
      have := Lattice.isState_self (hd _ hmem) hm
      rw [Lattice.isState_unique hst this]
      exact hm
    have e1 := hfind hpc.1 hi
    rw [hfind hpd.1 hj] at e1
    exact (Option.some.inj e1).symm
  rw [List.nodup_iff_injective_getElem]
  rintro ⟨i, hi⟩ ⟨j, hj⟩ hij
  simp only [List.getElem_map] at hij
  rw [List.length_map] at hi hj
  have hl := hsh.length_eq
  have hi' : i < (cs.take maxResults.toNat).length := by omega
  have hj' : j < (cs.take maxResults.toNat).length := by omega
  have si := hsh.get hi' hi
  have sj := hsh.get hj' hj
  rw [List.get_eq_getElem, List.get_eq_getElem] at si sj
  have := hinj _ _ _ _ (List.mem_of_mem_take (List.getElem_mem hi')) (List.mem_of_mem_take (List.getElem_mem hj'))
    si sj hij
  apply Fin.ext
  exact (hcsn.getElem_inj_iff).1 this

/-- A smaller limit only truncates. -/
theorem C50_limit_truncates {l : Lattice P} {order : ActiveSiteOrder σ φ} {full : List (Specie × P)}
    {localSites : List Int} {base : Option Occupation} {counts : Option (List (Specie × Int))}
    {variableSpecies : Option (List Specie)} {given : Option (List Int)} {m m' : Int}
    {rs : List (Result P)} (hm : 1 ≤ m) (hmm : m ≤ m')
    (h : enumerate l order full localSites (base.map .ok) counts variableSpecies given m' = .ok rs) :
    enumerate l order full localSites (base.map .ok) counts variableSpecies given m =
      .ok (rs.take m.toNat) := by
  unfold enumerate at h ⊢
  rw [if_neg (by omega)] at h ⊢
  rw [baseOccupation_eq] at h ⊢
  simp only at h ⊢
  split at h
  · cases h
  · split at h
    · cases h
    · rename_i hbad
      split at h
      · cases h
      · rename_i css hcss
        rw [if_neg hbad]
        rw [enumLoop_eq _ _ _ _ _ _ _ _ _ _ (by simp; omega)] at h ⊢
        simp only [List.length_nil, Nat.sub_zero, List.nil_append] at h ⊢
        generalize hF : (productLists css).filter _ = F at h ⊢
        split at h
        · cases h
        · rename_i rs' hrs
          cases h
          have hsplit : F.take m'.toNat = F.take m.toNat ++ (F.take m'.toNat).drop m.toNat := by
            conv_lhs => rw [← List.take_append_drop m.toNat (F.take m'.toNat)]
            rw [List.take_take, Nat.min_eq_left (by omega)]
          rw [hsplit, buildAll_append] at hrs
          split at hrs
          · cases hrs
          · rename_i r1 hr1
            split at hrs
            · cases hrs
            · rename_i r2 hr2
              cases hrs
              simp only [Except.ok.injEq]
              have hlen := (buildAll_ok hr1).length_eq
              have hlen2 := (buildAll_ok hr2).length_eq
              by_cases hF : m.toNat ≤ F.length
              · rw [List.take_append_of_le_length (by rw [← hlen, List.length_take]; omega),
                  List.take_of_length_le (by rw [← hlen, List.length_take]; omega)]
              · have : r2 = [] := by
                  apply List.length_eq_zero_iff.1
                  rw [← hlen2, List.length_drop, List.length_take]
                  omega
                rw [this, List.append_nil, List.take_of_length_le (by rw [← hlen, List.length_take]; omega)]

/-- A limit below 1, a given variable site outside the local environment, and counts that do not add
up to the number of variable sites are rejected. -/
theorem C50_rejections {l : Lattice P} {order : ActiveSiteOrder σ φ} {full : List (Specie × P)}
    {localSites : List Int} {base : Option Occupation} {counts : Option (List (Specie × Int))}
    {variableSpecies : Option (List Specie)} {given : Option (List Int)} {m : Int} :
    (m < 1 → enumerate l order full localSites (base.map .ok) counts variableSpecies given m =
      .error .valueError) ∧
    (∀ gs v, given = some gs → v ∈ gs → v ∉ localSites →
      enumerate l order full localSites (base.map .ok) counts variableSpecies given m = .error .valueError) ∧
    (∀ c rs, counts = some c →
      enumerate l order full localSites (base.map .ok) counts variableSpecies given m = .ok rs →
      ((canonicalCounts c []).map (·.2)).sum =
        ((variableSites l localSites variableSpecies given).length : Int)) := by
  refine ⟨?_, ?_, ?_⟩
  · intro h; unfold enumerate; rw [if_pos h]
  · intro gs v hg hv hnot
    unfold enumerate
    split
    · rfl
    · rw [baseOccupation_eq]
      simp only [hg, resolveVariable]
      rw [if_pos (by rw [List.any_eq_true]; exact ⟨v, hv, by simpa using hnot⟩)]
  · intro c rs hc h
    unfold enumerate at h
    split at h
    · cases h
    · rw [baseOccupation_eq] at h
      simp only at h
      split at h
      · cases h
      · rename_i vs hvs
        obtain ⟨rfl, -⟩ := resolveVariable_ok hvs
        split at h
        · cases h
        · rename_i hbad
          rw [hc] at hbad
          simpa [badCounts] using hbad

/-- A given variable site on which nothing may be placed is rejected with a `ValueError`, whether nothing
is allowed there or none of the variable species is; a given site that the lattice does not have is
rejected with an `IndexError`.  The first such site decides. -/
theorem C50_site_rejections {l : Lattice P} {order : ActiveSiteOrder σ φ} {full : List (Specie × P)}
    {localSites : List Int} {base : Option Occupation} {counts : Option (List (Specie × Int))}
    {variableSpecies : Option (List Specie)} {v : Int} {rest : List Int} {m : Int} (hm : 1 ≤ m)
    (hlen : l.allowed.length = l.template.length) (hin : ∀ w ∈ v :: rest, w ∈ localSites) :
    (0 ≤ v → v < (l.template.length : Int) →
      (∀ sp, ¬ MayPlace variableSpecies (allowedOn l v) sp) →
      enumerate l order full localSites (base.map .ok) counts variableSpecies (some (v :: rest)) m =
        .error .valueError) ∧
    (v < 0 ∨ (l.template.length : Int) ≤ v →
      enumerate l order full localSites (base.map .ok) counts variableSpecies (some (v :: rest)) m =
        .error .indexError) := by
  have key : ∀ e, allowedChoices l v variableSpecies = .error e →
      enumerate l order full localSites (base.map .ok) counts variableSpecies (some (v :: rest)) m =
        .error e := by
    intro e he
    unfold enumerate
    rw [if_neg (by omega), baseOccupation_eq]
    simp only [resolveVariable]
    rw [if_neg (by
      rw [List.any_eq_true]
      rintro ⟨w, hw, h⟩
      simp [hin w hw] at h)]
    simp only [checkGiven, he]
  refine ⟨fun h0 h1 hno => key _ ?_, fun h => key _ ?_⟩
  · obtain ⟨k, rfl⟩ := Int.eq_ofNat_of_zero_le h0
    have hk : k < l.allowed.length := by omega
    unfold allowedChoices
    rw [if_neg (by omega), pyGet_natCast (List.getElem?_eq_getElem hk)]
    cases ha : l.allowed[k] with
    | none => rfl
    | some al =>
      have hal : allowedOn l (k : Int) = al := allowedOn_of (by rw [List.getElem?_eq_getElem hk, ha])
      cases al with
      | nil => rfl
      | cons s ss =>
        cases hs : selectChoices variableSpecies (s :: ss) with
        | nil => simp only [hs]
        | cons c cs =>
          exfalso
          refine hno c ?_
          rw [hal]
          have : c ∈ selectChoices variableSpecies (s :: ss) := by rw [hs]; simp
          exact mem_selectChoices.1 this
  · unfold allowedChoices
    rw [if_pos h]

/-- With a lattice whose active sites all have allowed species, and at least one fixed site, the
enumeration succeeds. -/
theorem C50_succeeds {l : Lattice P} {order : ActiveSiteOrder σ φ}
    (horder : order.activeToOriginal.Nodup) (hcount : order.activeToOriginal.length = l.template.length)
    {full : List (Specie × P)} {template : List (Specie × P)} {mapping : List (Specie × List Specie)}
    {bt : String} (hl : Lattice.mk' template mapping bt = .ok l)
    (hal : ∀ a ∈ l.allowed, ∃ s ss, a = some (s :: ss) ∧ TellsApart l.basis (ss.length + 1))
    (hfixed : ∃ i < full.length, i ∉ order.activeToOriginal)
    {localSites : List Int} (hloc : ∀ v ∈ localSites, 0 ≤ v ∧ v < (l.template.length : Int))
    {base : Option Occupation} (hbase : ∀ o, base = some o → o.basis = l.basis ∧ StatesOf l.basis l.allowed o.data)
    {maxResults : Int} (hm : 1 ≤ maxResults) :
    ∃ rs, enumerate l order full localSites (base.map .ok) none none none maxResults = .ok rs := by
  obtain ⟨htm, -, hall, -, hmax⟩ := Lattice.mk'_ok hl
  have hlen : l.allowed.length = l.template.length := by rw [hall, htm, List.length_map]
  have hsite : ∀ k : Nat, k < l.template.length → ∃ s ss, l.allowed[k]? = some (some (s :: ss)) ∧
      TellsApart l.basis (ss.length + 1) := by
    intro k hk
    have hk' : k < l.allowed.length := by omega
    obtain ⟨s, ss, h1, h2⟩ := hal _ (List.getElem_mem hk')
    exact ⟨s, ss, by rw [List.getElem?_eq_getElem hk', h1], h2⟩
  have hvalidState : ∀ k : Nat, ∀ al : List Specie, l.allowed[k]? = some (some al) → ∀ i : Nat, i < al.length →
      l.basis.validValue (l.basis.stateValue (i : Int)) = true := by
    intro k al hk i hi
    cases hb : l.basis with
    | occupation => simp only [Basis.stateValue]; split <;> rfl
    | chebyshev mm =>
      have := hmax mm hb al (List.mem_of_getElem? hk)
      show decide (0 ≤ (i : Int) ∧ (i : Int) < mm) = true
      rw [decide_eq_true_eq]
      omega
  -- the base occupation
  have hbaseOr : (baseOr l base).basis = l.basis ∧ StatesOf l.basis l.allowed (baseOr l base).data := by
    cases base with
    | some o => exact hbase o rfl
    | none =>
      refine ⟨rfl, ?_⟩
      show StatesOf l.basis l.allowed (List.replicate l.template.length l.basis.matchValue)
      rw [← hlen]
      unfold StatesOf
      have : ∀ as : List (Option (List Specie)), (∀ a ∈ as, ∃ s ss, a = some (s :: ss)) →
          List.Forall₂ (fun a v => ∃ (l' : List Specie) (i : Nat), a = some l' ∧ i < l'.length ∧
            v = l.basis.stateValue (i : Int)) as (List.replicate as.length l.basis.matchValue) := by
        intro as
        induction as with
        | nil => intro _; exact .nil
        | cons a as ih =>
          intro h
          obtain ⟨s, ss, rfl⟩ := h _ (List.mem_cons_self ..)
          refine .cons ⟨_, 0, rfl, by simp, ?_⟩ (ih fun x hx => h x (by simp [hx]))
          cases l.basis <;> rfl
      exact this _ fun a ha => by obtain ⟨s, ss, h, -⟩ := hal a ha; exact ⟨s, ss, h⟩
  generalize hb0 : baseOr l base = b0 at hbaseOr
  have hblen : b0.data.length = l.template.length := by rw [← hbaseOr.2.length_eq, hlen]
  have hstates : ∀ (o : Occupation), o.data.length = b0.data.length →
      (∀ j : Nat, j < l.template.length → o.data[j]? = b0.data[j]? ∨
        ∃ i : Nat, i < (allowedOn l (j : Int)).length ∧ o.data[j]? = some (l.basis.stateValue (i : Int))) →
      ∀ a, a < order.activeToOriginal.length → ∃ sp, speciesOn l o a = .ok sp := by
    intro o ho hj a ha
    rw [hcount] at ha
    obtain ⟨s, ss, h1, h2⟩ := hsite a ha
    have : ∃ i : Nat, i < (s :: ss).length ∧ o.data[a]? = some (l.basis.stateValue (i : Int)) := by
      rcases hj a ha with h | ⟨i, hi, h⟩
      · have hb := hbaseOr.2.get (i := a) (by omega) (by omega)
        simp only [List.get_eq_getElem] at hb
        obtain ⟨al, i, e1, e2, e3⟩ := hb
        rw [List.getElem?_eq_getElem (by omega), e1] at h1
        cases h1
        exact ⟨i, e2, by rw [h, List.getElem?_eq_getElem (by omega), e3]⟩
      · rw [allowedOn_of h1] at hi
        exact ⟨i, hi, h⟩
    obtain ⟨i, hi, hd⟩ := this
    exact ⟨_, speciesOn_of h1 (List.getElem?_eq_getElem hi) hd h2⟩
  -- the variable sites
  have hauto : ∀ is : List Int, (∀ v ∈ is, 0 ≤ v ∧ v < (l.template.length : Int)) →
      ∃ vs, autoVariable l none is = .ok vs := by
    intro is
    induction is with
    | nil => intro _; exact ⟨[], rfl⟩
    | cons i is ih =>
      intro h
      obtain ⟨vs, hvs⟩ := ih fun v hv => h v (by simp [hv])
      obtain ⟨h0, h1⟩ := h i (by simp)
      obtain ⟨k, rfl⟩ := Int.eq_ofNat_of_zero_le h0
      obtain ⟨s, ss, h2, -⟩ := hsite k (by omega)
      unfold autoVariable
      rw [pyGet_natCast h2]
      simp only
      split
      · exact ⟨vs, hvs⟩
      · rw [allowedChoices_of (by omega) h2 (by simp [selectChoices])]
        simp only [hvs]
        exact ⟨_, rfl⟩
  obtain ⟨vs, hvs⟩ := hauto localSites hloc
  have hvseq := autoVariable_ok hvs
  have hvsin : ∀ v ∈ vs, 0 ≤ v ∧ v < (l.template.length : Int) := by
    intro v hv
    rw [hvseq] at hv
    exact hloc v (List.mem_of_mem_filter hv)
  have hch : ∀ v ∈ vs, ∃ cs, allowedChoices l v none = .ok cs := by
    intro v hv
    obtain ⟨h0, h1⟩ := hvsin v hv
    obtain ⟨k, rfl⟩ := Int.eq_ofNat_of_zero_le h0
    obtain ⟨s, ss, h2, -⟩ := hsite k (by omega)
    exact ⟨_, allowedChoices_of (by omega) h2 (by simp [selectChoices])⟩
  obtain ⟨css, hcss⟩ := choicesBySite_of hch
  have hbuild : ∀ c ∈ productLists css, ∃ r, buildChoice l order full b0 localSites vs c = .ok r := by
    intro c hc
    have hass := (assignment_iff (choicesBySite_ok hcss) c).1 hc
    have hvfacts : ∀ v ∈ vs, 0 ≤ v ∧ v.toNat < b0.data.length ∧
        l.allowed[v.toNat]? = some (some (allowedOn l v)) := by
      intro v hv
      obtain ⟨h0, h1⟩ := hvsin v hv
      obtain ⟨cs, hcs⟩ := hch v hv
      exact ⟨h0, by omega, (allowedChoices_ok hcs).2.1⟩
    have hvalid0 : b0.data.all b0.basis.validValue = true := by
      rw [List.all_eq_true]
      intro x hx
      obtain ⟨j, hj⟩ := List.getElem?_of_mem hx
      have hjl : j < b0.data.length := by
        by_contra hcc; rw [List.getElem?_eq_none (by omega)] at hj; cases hj
      have hb := hbaseOr.2.get (i := j) (by omega) hjl
      simp only [List.get_eq_getElem] at hb
      obtain ⟨al, i, e1, e2, e3⟩ := hb
      rw [List.getElem?_eq_getElem hjl] at hj
      cases hj
      rw [e3, hbaseOr.1]
      exact hvalidState j al (by rw [List.getElem?_eq_getElem (by omega), e1]) i e2
    obtain ⟨o, ho⟩ := writeChoices_of hvfacts (hass.imp fun v sp h => h.1) hvalid0 (by
      intro v hv i hi
      rw [hbaseOr.1]
      exact hvalidState _ _ (hvfacts v hv).2.2 i hi)
    -- every written value is a state
    have hwritten : ∀ (ps : List (Int × Specie)) (o o' : Occupation), (∀ p ∈ ps, 0 ≤ p.1) →
        writeChoices l ps o = .ok o' → o'.data.length = o.data.length ∧ o'.basis = o.basis ∧
        ∀ j : Nat, o'.data[j]? = o.data[j]? ∨
          ∃ i : Nat, i < (allowedOn l (j : Int)).length ∧ o'.data[j]? = some (l.basis.stateValue (i : Int)) := by
      intro ps
      induction ps with
      | nil => intro o o' _ h; unfold writeChoices at h; cases h; exact ⟨rfl, rfl, fun j => .inl rfl⟩
      | cons p ps ih =>
        intro o o' hp h
        obtain ⟨v, sp⟩ := p
        have hv0 : 0 ≤ v := hp (v, sp) (by simp)
        obtain ⟨k, rfl⟩ := Int.eq_ofNat_of_zero_le hv0
        unfold writeChoices at h
        split at h
        · cases h
        · rename_i al hg
          split at h
          · cases h
          · rename_i x hx
            split at h
            · cases h
            · rename_i o1 ho1
              obtain ⟨hk, rfl⟩ := setItem_ok ho1
              obtain ⟨la, i, rfl, ⟨⟨a, ha, -⟩, -⟩, rfl⟩ := (Lattice.occupationValue_iff _ _ _ _).1 hx
              obtain ⟨jj, hj1, hj2⟩ := pyGet_ok_iff.1 hg
              have hjj := pyIdx_some_nonneg hj1 hv0
              have : jj = k := by omega
              subst this
              obtain ⟨g1, g2, g3⟩ := ih _ _ (fun q hq => hp q (by simp [hq])) h
              refine ⟨by simpa using g1, g2, ?_⟩
              intro j
              rcases g3 j with hh | hh
              · by_cases hjk : j = jj
                · subst hjk
                  right
                  refine ⟨i, ?_, ?_⟩
                  · rw [allowedOn_of hj2]
                    by_contra hcc; rw [List.getElem?_eq_none (by omega)] at ha; cases ha
                  · rw [hh, List.getElem?_set_self hk]
                · left
                  rw [hh]
                  exact List.getElem?_set_ne (Ne.symm hjk)
              · exact .inr hh
    obtain ⟨g1, g2, g3⟩ := hwritten _ _ _ (by
      intro p hp
      exact (hvsin p.1 (List.of_mem_zip hp).1).1) ho
    obtain ⟨as, has⟩ := atomsFrom_of (hstates o g1 fun j _ => g3 j) horder 0 full
    have hlocal : ∃ d, pyGetAll o.data localSites = .ok d := by
      clear hvs hvseq
      induction localSites with
      | nil => exact ⟨[], rfl⟩
      | cons i is ih =>
        obtain ⟨d, hd⟩ := ih fun v hv => hloc v (by simp [hv])
        obtain ⟨h0, h1⟩ := hloc i (by simp)
        obtain ⟨k, rfl⟩ := Int.eq_ofNat_of_zero_le h0
        exact ⟨_, by rw [pyGetAll, pyGet_natCast (List.getElem?_eq_getElem (by omega : k < o.data.length))]
                     simp only [hd]; rfl⟩
    obtain ⟨d, hd⟩ := hlocal
    refine ⟨⟨as, o, ⟨o.basis, d⟩, localSites, vs, bySite (vs.zip c) []⟩, ?_⟩
    unfold buildChoice build Occupation.getItems
    rw [ho]
    simp only [hd, has]
    rw [if_neg]
    have hne : ∀ (full : List (Specie × P)) (i : Nat) as, atomsFrom l order o i full = .ok as →
        (∃ j < full.length, i + j ∉ order.activeToOriginal) → as ≠ [] := by
      intro full
      induction full with
      | nil => rintro i as - ⟨j, hj, -⟩; simp at hj
      | cons q full ih =>
        rintro i as h ⟨j, hj, hni⟩
        unfold atomsFrom at h
        split at h
        · split at h
          · cases h
          · cases h; simp
        · rename_i a hg
          have ha := (originalToActive_iff horder i a).1 hg
          cases j with
          | zero => exact absurd (List.mem_of_getElem? ha) (by simpa using hni)
          | succ j =>
            split at h
            · cases h
            · split at h
              · cases h
              · rename_i as' has'
                have := ih _ _ has' ⟨j, Nat.lt_of_succ_lt_succ hj, by rwa [Nat.add_assoc, Nat.add_comm 1]⟩
                cases h
                split
                · exact this
                · simp
    have := hne full 0 as has (by simpa using hfixed)
    simpa using this
  have hbuildAll : ∀ cs : List (List Specie), (∀ c ∈ cs, c ∈ productLists css) →
      ∃ rs, buildAll (buildChoice l order full b0 localSites vs) cs = .ok rs := by
    intro cs
    induction cs with
    | nil => intro _; exact ⟨[], rfl⟩
    | cons c cs ih =>
      intro h
      obtain ⟨r, hr⟩ := hbuild c (h c (by simp))
      obtain ⟨rs, hrs⟩ := ih fun x hx => h x (by simp [hx])
      exact ⟨r :: rs, by simp [buildAll, hr, hrs]⟩
  obtain ⟨rs, hrs⟩ := hbuildAll (((productLists css).filter fun c =>
    matchesCounts (bySite (vs.zip c) []) none).take maxResults.toNat) (fun c hc =>
      List.mem_of_mem_filter (List.mem_of_mem_take hc))
  refine ⟨rs, ?_⟩
  unfold enumerate
  rw [if_neg (by omega), baseOccupation_eq, hb0]
  simp only [resolveVariable, hvs, Option.map_none, hcss]
  rw [if_neg (by simp [badCounts]), enumLoop_eq _ _ _ _ _ _ _ _ _ _ (by simp; omega)]
  simp only [List.length_nil, Nat.sub_zero, List.nil_append, hrs]


/-! ### The running example -/

open Lattice (sNa sSb sW C48_chebyshev_tells_apart)

/-- Two sodium sites and one antimony/tungsten site are active, an oxygen between them is fixed. -/
def enumTemplate : List (Specie × Int) := [(sNa, 0), (sNa, 1), (sSb, 3)]

def enumLattice : Lattice Int :=
  ⟨enumTemplate, Lattice.exampleMapping, [some [sNa, .vacancy], some [sNa, .vacancy], some [sSb, sW]], .chebyshev 2⟩

def enumFull : List (Specie × Int) :=
  [(sNa, 0), (sNa, 1), (.ofElement "O" "O2-", 2), (sSb, 3)]

def enumOrder : ActiveSiteOrder Unit Unit :=
  ⟨4, 4, [0, 1, 3], [0, 1, 3], [0, 1, 3], [2], (1, 1, 1), [], [], ()⟩

/-- The hypotheses are met, and four assignments of the sites 1 and 2 are listed in order; asking for
one sodium and one tungsten leaves one; a limit of 3 truncates. -/
example : Lattice.mk' enumTemplate Lattice.exampleMapping "chebyshev" = .ok enumLattice ∧
    enumOrder.activeToOriginal.Nodup ∧ enumOrder.activeToOriginal.length = enumLattice.template.length ∧
    (∃ i < enumFull.length, i ∉ enumOrder.activeToOriginal) ∧
    variableSites enumLattice [1, 2] none none = [1, 2] ∧
    (∀ v ∈ variableSites enumLattice [1, 2] none none, Distinguishable (allowedOn enumLattice v) ∧
      TellsApart enumLattice.basis (allowedOn enumLattice v).length) ∧
    (enumerate enumLattice enumOrder enumFull [1, 2] none none none none 1000).toOption.map
      (·.map (·.fullOccupation.data)) = some [[0, 0, 0], [0, 0, 1], [0, 1, 0], [0, 1, 1]] ∧
    (enumerate enumLattice enumOrder enumFull [1, 2] none none none none 3).toOption.map
      (·.map (·.fullOccupation.data)) = some [[0, 0, 0], [0, 0, 1], [0, 1, 0]] ∧
    (enumerate enumLattice enumOrder enumFull [1, 2] none (some [(sNa, 1), (sW, 1)]) none none 1000).toOption.map
      (·.map (·.atoms)) =
      some [[(sNa, 0), (sNa, 1), (.ofElement "O" "O2-", 2), (sW, 3)]] ∧
    (enumerate enumLattice enumOrder enumFull [1, 2] none (some [(.ofText "Va", 1), (sW, 1)]) none none 1000).toOption.map
      (·.map (·.atoms)) = some [[(sNa, 0), (.ofElement "O" "O2-", 2), (sW, 3)]] := by
  refine ⟨rfl, by decide, by decide, ⟨2, by decide, by decide⟩, by decide, ?_, by decide +kernel, by decide +kernel, by decide +kernel,
    by decide +kernel⟩
  intro v hv
  have hv' : v = 1 ∨ v = 2 := by
    have : variableSites enumLattice [1, 2] none none = [1, 2] := by decide
    rw [this] at hv; simpa using hv
  refine ⟨?_, C48_chebyshev_tells_apart _ _⟩
  rcases hv' with rfl | rfl
  · show Distinguishable [sNa, .vacancy]
    simp [Distinguishable]; decide
  · show Distinguishable [sSb, sW]
    simp [Distinguishable]; decide

/-- When a site occurs twice in the local environment (two periodic images of it are within the
cutoff) the same result is returned several times; and with counts nothing may be found although
the request is satisfiable. -/
theorem C50_repeated_site_duplicates :
    (∃ (rs : List (Result Int)) (i j : Nat), i ≠ j ∧ i < rs.length ∧ j < rs.length ∧ rs[i]? = rs[j]? ∧
      enumerate enumLattice enumOrder enumFull [1, 1] none none none none 1000 = .ok rs) ∧
    enumerate enumLattice enumOrder enumFull [1, 1, 2] none (some [(sNa, 2), (sW, 1)]) none none 1000 =
      .ok [] := by
  refine ⟨⟨_, 0, 2, by decide, ?_, ?_, ?_, rfl⟩, by decide +kernel⟩ <;> decide +kernel

/-- Without a fixed site the all-vacant environment makes the whole enumeration fail, although every
other environment could be listed. -/
theorem C50_all_vacant_fails :
    enumerate (⟨[(sNa, 0)], Lattice.exampleMapping, [some [sNa, .vacancy]], .chebyshev 2⟩ : Lattice Int)
      (⟨1, 1, [0], [0], [0], [], (1, 1, 1), [], [], ()⟩ : ActiveSiteOrder Unit Unit) [(sNa, 0)] [0]
      none none none none 1000 = .error .valueError ∧
    ∃ r, enumerate (⟨[(sNa, 0)], Lattice.exampleMapping, [some [sNa, .vacancy]], .chebyshev 2⟩ : Lattice Int)
      (⟨1, 1, [0], [0], [0], [], (1, 1, 1), [], [], ()⟩ : ActiveSiteOrder Unit Unit) [(sNa, 0)] [0]
      none none none none 1 = .ok [r] :=
  ⟨by decide +kernel, _, rfl⟩

/-- A requested count of zero is never met: a species asked for zero times makes the enumeration
return nothing. -/
theorem C50_zero_count_returns_nothing {l : Lattice P} {order : ActiveSiteOrder σ φ}
    (horder : order.activeToOriginal.Nodup) {full : List (Specie × P)}
    {localSites : List Int} {base : Option Occupation} {counts : List (Specie × Int)}
    {variableSpecies : Option (List Specie)} {given : Option (List Int)} {maxResults : Int}
    {rs : List (Result P)}
    (hn : (variableSites l localSites variableSpecies given).Nodup)
    (hd : ∀ v ∈ variableSites l localSites variableSpecies given, (allowedOn l v).Nodup)
    {label : String} (hz : requested counts label = some 0)
    (h : enumerate l order full localSites (base.map .ok) (some counts) variableSpecies given maxResults =
      .ok rs) : rs = [] := by
  obtain ⟨cs, hcs, -, hsh⟩ := C50_enumeration horder hn hd h
  have : cs = [] := by
    rw [List.eq_nil_iff_forall_not_mem]
    intro c hc
    have := ((hcs c).1 hc).2 _ rfl label
    rw [hz] at this
    split at this
    · rename_i hm
      have h2 := List.count_pos_iff.2 hm
      have h3 := Option.some.inj this
      omega
    · cases this
  rw [this, List.take_nil] at hsh
  cases hsh
  rfl

/-- The zero-count case occurs: no tungsten asked for, one sodium, one antimony. -/
example : requested [(sNa, 1), (sSb, 1), (sW, 0)] "W" = some 0 ∧
    enumerate enumLattice enumOrder enumFull [1, 2] none (some [(sNa, 1), (sSb, 1), (sW, 0)]) none none 1000 =
      .ok [] := by decide +kernel

/-- The hypotheses of `C50_site_rejections` are met: tungsten may not be placed on the sodium site 1, and
there is no site 3. -/
example : enumLattice.allowed.length = enumLattice.template.length ∧
    (∀ sp, ¬ MayPlace (some [sW]) (allowedOn enumLattice 1) sp) ∧
    enumerate enumLattice enumOrder enumFull [1, 2] none none (some [sW]) (some [1]) 1000 =
      .error .valueError ∧
    enumerate enumLattice enumOrder enumFull [1, 3] none none none (some [3]) 1000 =
      .error .indexError := by
  refine ⟨rfl, ?_, by decide +kernel, by decide +kernel⟩
  have h : ∀ sp ∈ allowedOn enumLattice 1, ¬ MayPlace (some [sW]) (allowedOn enumLattice 1) sp := by
    decide +kernel
  exact fun sp hsp => h sp hsp.1 hsp

end KMC
