import Verif.Lemmas.Endpoints
import Verif.Props.EnumeratorProps
/-
NEB endpoint pairs: one atom moves, everything else stays where it is.
-/
namespace KMC
open Spec Enumerator
variable {P σ φ : Type}

/-- The steps of `endpointPair`. -/
theorem endpointPair_ok {l : Lattice P} {order : ActiveSiteOrder σ φ} {full : List (Specie × P)}
    {env : Environment P} {mobile : List Int} {pair : EndpointPair P}
    (h : endpointPair l order full env mobile = .ok pair) :
    ∃ (f t : Nat) (o : Occupation) (sf st : Specie), mobile = [(f : Int), (t : Int)] ∧ f ≠ t ∧
      f < order.activeToOriginal.length ∧ t < order.activeToOriginal.length ∧
      environmentOccupation l order env = .ok o ∧ o.data.length = order.activeToOriginal.length ∧
      (allowedOn l f)[0]? = some sf ∧ (allowedOn l t)[0]? = some st ∧
      l.allowed[f]? = some (some (allowedOn l f)) ∧ l.allowed[t]? = some (some (allowedOn l t)) ∧
      sf.isVacancy = false ∧ st.isVacancy = false ∧ sameSpecies sf st = true ∧
      pair.mobile = ((f : Int), (t : Int)) ∧
      pair.initialOccupation = ⟨o.basis, (o.data.set f l.basis.matchValue).set t l.basis.mismatchValue⟩ ∧
      pair.finalOccupation = ⟨o.basis, (o.data.set f (o.basis.flip l.basis.matchValue)).set t
        (o.basis.flip l.basis.mismatchValue)⟩ ∧
      endpoints l order full pair.initialOccupation pair.finalOccupation f t =
        .ok (pair.initial, pair.final) := by
  unfold endpointPair at h
  split at h
  · cases h
  · rename_i f t hu
    have hmob : mobile = [f, t] := by
      match mobile, hu with
      | [a, b], hu => cases hu; rfl
    split at h
    · cases h
    · rename_i hval
      have hin : ∀ i ∈ [f, t], 0 ≤ i ∧ i < (order.activeToOriginal.length : Int) := by
        intro i hi
        simp only [ActiveSiteOrder.validateActiveIndices] at hval
        split at hval
        · cases hval
        · rename_i hinv
          rw [not_not] at hinv
          by_contra hc
          have : i ∈ ([f, t].filter fun i => decide (i < 0) || decide ((order.activeSiteCount : Int) ≤ i)) := by
            rw [List.mem_filter]
            refine ⟨hi, ?_⟩
            rw [Bool.or_eq_true, decide_eq_true_eq, decide_eq_true_eq]
            show i < 0 ∨ (order.activeToOriginal.length : Int) ≤ i
            omega
          rw [hinv] at this
          cases this
      obtain ⟨hf0, hf1⟩ := hin f (by simp)
      obtain ⟨ht0, ht1⟩ := hin t (by simp)
      obtain ⟨f, rfl⟩ := Int.eq_ofNat_of_zero_le hf0
      obtain ⟨t, rfl⟩ := Int.eq_ofNat_of_zero_le ht0
      split at h
      · cases h
      · rename_i hne
        split at h
        · cases h
        · rename_i o ho
          split at h
          · cases h
          · rename_i hlen
            rw [not_not] at hlen
            have hfa : ∀ {k : Nat} {s : Specie}, firstAllowed l (k : Int) = .ok s →
                (allowedOn l k)[0]? = some s ∧ l.allowed[k]? = some (some (allowedOn l k)) := by
              intro k s hs
              unfold firstAllowed at hs
              split at hs
              · cases hs
              · cases hs
              · cases hs
              · rename_i s' ss hg
                cases hs
                obtain ⟨j, hj1, hj2⟩ := pyGet_ok_iff.1 hg
                have hj := pyIdx_some_nonneg hj1 (by omega)
                have : j = k := by omega
                subst this
                rw [allowedOn_of hj2]
                exact ⟨rfl, hj2⟩
            split at h
            · cases h
            · cases h
            · rename_i sf st hsf hst
              split at h
              · cases h
              · rename_i hvac
                split at h
                · cases h
                · rename_i hsame
                  split at h
                  · cases h
                  · rename_i o1 ho1
                    obtain ⟨hk1, rfl⟩ := setItem_ok ho1
                    split at h
                    · cases h
                    · rename_i o2 ho2
                      obtain ⟨hk2, rfl⟩ := setItem_ok ho2
                      split at h
                      · cases h
                      · rename_i o3 ho3
                        split at h
                        · cases h
                        · rename_i as bs hend
                          cases h
                          simp only [Bool.or_eq_true, not_or, Bool.not_eq_true] at hvac
                          have hlen' : o.data.length = order.activeToOriginal.length := hlen
                          rw [List.length_set] at hk2
                          simp only [Int.toNat_natCast] at hend
                          have hft : f ≠ t := by rintro rfl; exact hne rfl
                          refine ⟨f, t, o, sf, st, hmob, hft, by omega, by omega,
                            ho, hlen', (hfa hsf).1, (hfa hst).1, (hfa hsf).2, (hfa hst).2, hvac.1, hvac.2,
                            by simpa using hsame, rfl, rfl, ?_, hend⟩
                          -- the flip
                          unfold Occupation.flip at ho3
                          split at ho3
                          · cases ho3
                          · rename_i d hd
                            cases ho3
                            simp only [Occupation.mk.injEq, true_and]
                            simp only [Occupation.flipLoop] at hd
                            have g1 : ((o.data.set f l.basis.matchValue).set t l.basis.mismatchValue)[f]? =
                                some l.basis.matchValue := by
                              rw [List.getElem?_set_ne (Ne.symm hft), List.getElem?_set_self (by omega)]
                            rw [pyGet_natCast g1] at hd
                            simp only at hd
                            have s1 : ∀ {xs : List Int} {k : Nat} (v : Int), k < xs.length →
                                pySet xs (k : Int) v = .ok (xs.set k v) := by
                              intro xs k v hk
                              unfold pySet pyIdx
                              rw [if_pos (by omega), if_pos (by omega)]
                              simp
                            rw [s1 _ (by simp; omega)] at hd
                            simp only at hd
                            have g2 : (((o.data.set f l.basis.matchValue).set t l.basis.mismatchValue).set f
                                (o.basis.flip l.basis.matchValue))[t]? = some l.basis.mismatchValue := by
                              rw [List.getElem?_set_ne hft, List.getElem?_set_self (by simp; omega)]
                            rw [pyGet_natCast g2] at hd
                            simp only at hd
                            rw [s1 _ (by simp; omega)] at hd
                            simp only [Prod.mk.injEq, true_and] at hd
                            rw [← hd]
                            apply List.ext_getElem?
                            intro j
                            by_cases h1 : j = t
                            · subst h1
                              rw [List.getElem?_set_self (by simp; omega), List.getElem?_set_self (by simp; omega)]
                            · rw [List.getElem?_set_ne (Ne.symm h1), List.getElem?_set_ne (Ne.symm h1)]
                              by_cases h2 : j = f
                              · subst h2
                                rw [List.getElem?_set_self (by simp; omega), List.getElem?_set_self (by omega)]
                              · rw [List.getElem?_set_ne (Ne.symm h2), List.getElem?_set_ne (Ne.symm h1),
                                  List.getElem?_set_ne (Ne.symm h2), List.getElem?_set_ne (Ne.symm h2)]

/-- C74.  An endpoint pair comes from the environment's occupation with the mobile species on the
first site and the second site empty; the final occupation has the two exchanged.  The initial
structure lists the atoms of the initial occupation; the final structure is the same list with
exactly one entry replaced: the mobile species at the first site becomes the mobile species at the
second site.  Up to the order of the atoms it is the structure of the final occupation. -/
theorem C74_one_atom_moves {l : Lattice P} {order : ActiveSiteOrder σ φ}
    (horder : order.activeToOriginal.Nodup) {full : List (Specie × P)}
    (hfull : ∀ i ∈ order.activeToOriginal, i < full.length)
    {env : Environment P} (henv : ∀ r, env = .enumerated r → r.fullOccupation.basis = l.basis)
    {f t : Nat} (hfrom : SecondIsVacancy l f) (hto : SecondIsVacancy l t) {pair : EndpointPair P}
    (h : endpointPair l order full env [(f : Int), (t : Int)] = .ok pair) :
    ∃ (d : List Int) (sf st : Specie) (pf pt : P) (k : Nat),
      EnvironmentValues order env d ∧
      pair.initialOccupation = ⟨l.basis, (d.set f l.basis.matchValue).set t l.basis.mismatchValue⟩ ∧
      pair.finalOccupation = ⟨l.basis, (d.set f l.basis.mismatchValue).set t l.basis.matchValue⟩ ∧
      (allowedOn l f)[0]? = some sf ∧ (allowedOn l t)[0]? = some st ∧
      sf.isVacancy = false ∧ st.isVacancy = false ∧
      PositionOf order full f pf ∧ PositionOf order full t pt ∧
      AtomsOf l order pair.initialOccupation.data 0 full pair.initial ∧
      pair.initial[k]? = some (sf, pf) ∧ pair.final = pair.initial.set k (st, pt) ∧
      ∃ out, AtomsOf l order pair.finalOccupation.data 0 full out ∧ pair.final.Perm out := by
  obtain ⟨f', t', o, sf, st, hmob, hne, hf, ht, ho, hlen, hsf, hst, half, halt, hsfv, hstv, -, -, hi, hfin, hend⟩ :=
    endpointPair_ok h
  simp only [List.cons.injEq, Int.natCast_inj, and_true] at hmob
  obtain ⟨rfl, rfl⟩ := hmob
  -- the environment
  have hb : o.basis = l.basis ∧ EnvironmentValues order env o.data := by
    unfold environmentOccupation at ho
    split at ho
    · rename_i r
      cases ho
      exact ⟨henv r rfl, rfl⟩
    · rename_i vs
      split at ho
      · cases ho
      · rename_i vs' hvs
        unfold Occupation.mk' at ho
        rw [if_pos rfl] at ho
        split at ho
        · cases ho
        · cases ho
          refine ⟨rfl, ?_⟩
          unfold ActiveSiteOrder.selectActiveValues at hvs
          show if vs.length = order.activeToOriginal.length then vs' = vs
            else List.Forall₂ (fun i v => vs[i]? = some v) order.activeToOriginal vs'
          split at hvs
          · rename_i hl
            have hl' : vs.length = order.activeToOriginal.length := hl
            cases hvs
            rw [if_pos hl']
          · rename_i hl
            have hl' : ¬ vs.length = order.activeToOriginal.length := hl
            rw [if_neg hl']
            split at hvs
            · obtain ⟨h1, h2⟩ := (pickAll_ok_iff _ _ _).1 hvs
              refine List.forall₂_iff_get.2 ⟨h1.symm, ?_⟩
              intro k hk hk'
              obtain ⟨v, e1, e2⟩ := h2 k _ (List.getElem?_eq_getElem hk)
              rw [List.getElem?_eq_getElem hk'] at e2
              cases e2
              exact e1
            · cases hvs
  obtain ⟨hb, hev⟩ := hb
  have hflip : l.basis.flip l.basis.matchValue = l.basis.mismatchValue ∧
      l.basis.flip l.basis.mismatchValue = l.basis.matchValue := by
    cases l.basis with
    | occupation => decide
    | chebyshev m => simp [Basis.flip, Basis.matchValue, Basis.mismatchValue]
  rw [hb] at hi hfin
  rw [hflip.1, hflip.2] at hfin
  -- the loop
  unfold endpoints at hend
  obtain ⟨F, hF⟩ : ∃ F, order.activeToOriginal[f]? = some F := ⟨_, List.getElem?_eq_getElem hf⟩
  obtain ⟨T, hT⟩ : ∃ T, order.activeToOriginal[t]? = some T := ⟨_, List.getElem?_eq_getElem ht⟩
  rw [hF, hT] at hend
  simp only at hend
  have hFl := hfull F (List.mem_of_getElem? hF)
  have hTl := hfull T (List.mem_of_getElem? hT)
  obtain ⟨⟨s1, pf⟩, hpf⟩ : ∃ q, full[F]? = some q := ⟨_, List.getElem?_eq_getElem hFl⟩
  obtain ⟨⟨s2, pt⟩, hpt⟩ : ∃ q, full[T]? = some q := ⟨_, List.getElem?_eq_getElem hTl⟩
  have hends : Ends l pair.initialOccupation pair.finalOccupation f t := by
    rw [hi, hfin]
    refine ⟨hne, ?_, ?_, ?_, ?_, ?_⟩
    · show ((o.data.set f _).set t _)[f]? = _
      rw [List.getElem?_set_ne (Ne.symm hne), List.getElem?_set_self (by omega)]
    · show ((o.data.set f _).set t _)[t]? = _
      rw [List.getElem?_set_self (by simp; omega)]
    · show ((o.data.set f _).set t _)[f]? = _
      rw [List.getElem?_set_ne (Ne.symm hne), List.getElem?_set_self (by omega)]
    · show ((o.data.set f _).set t _)[t]? = _
      rw [List.getElem?_set_self (by simp; omega)]
    · intro a h1 h2
      show ((o.data.set f _).set t _)[a]? = ((o.data.set f _).set t _)[a]?
      rw [List.getElem?_set_ne (Ne.symm h2), List.getElem?_set_ne (Ne.symm h1),
        List.getElem?_set_ne (Ne.symm h2), List.getElem?_set_ne (Ne.symm h1)]
  obtain ⟨a1, xf, r1, ea, hxf⟩ := hfrom
  obtain ⟨a2, xt, r2, eb, hxt⟩ := hto
  have hx1 : (allowedOn l f)[1]? = some xf := by rw [ea]; rfl
  have hx2 : (allowedOn l t)[1]? = some xt := by rw [eb]; rfl
  obtain ⟨hinit, -⟩ := endpointsFrom_initial horder hend
  obtain ⟨-, hmoved⟩ := endpointsFrom_moved horder hends hF hpt (st := st)
    (fun al hal => by rw [halt] at hal; cases hal; exact hst)
    (fun al hal x hx => by rw [halt] at hal; cases hal; rw [hx2] at hx; cases hx; exact hxt) hend
  obtain ⟨k, hk1, hk2⟩ := hmoved F (by omega) s1 pf hpf _ half sf hsf hsfv
  obtain ⟨out, hout, hperm⟩ := endpointsFrom_final horder hends hF hT hpt half halt hsf hx1 hst hx2 hsfv hxf
    hstv hxt (by simp) hFl hend
  refine ⟨o.data, sf, st, pf, pt, k, hev, hi, hfin, hsf, hst, hsfv, hstv, ⟨F, s1, hF, hpf⟩, ⟨T, s2, hT, hpt⟩,
    hinit, hk1, hk2, out, hout, ?_⟩
  rw [if_neg (by omega), if_neg (by omega)] at hperm
  exact (List.perm_append_right_iff _).1 hperm

/-- Not two different active sites: rejected. -/
theorem C74_rejections {l : Lattice P} {order : ActiveSiteOrder σ φ} {full : List (Specie × P)}
    {env : Environment P} {mobile : List Int} {pair : EndpointPair P}
    (h : endpointPair l order full env mobile = .ok pair) :
    ∃ (f t : Nat) (sf st : Specie), mobile = [(f : Int), (t : Int)] ∧ f ≠ t ∧
      f < order.activeToOriginal.length ∧ t < order.activeToOriginal.length ∧
      (allowedOn l f)[0]? = some sf ∧ (allowedOn l t)[0]? = some st ∧
      sf.isVacancy = false ∧ st.isVacancy = false ∧
      ∃ tok ∈ st.tokens, tok ∈ sf.tokens ∨ (tok ∈ Specie.vacancyLabels ∧ "X" ∈ sf.tokens) := by
  obtain ⟨f, t, o, sf, st, hmob, hne, hf, ht, ho, hlen, hsf, hst, half, halt, hsfv, hstv, hs, -⟩ :=
    endpointPair_ok h
  refine ⟨f, t, sf, st, hmob, hne, hf, ht, hsf, hst, hsfv, hstv, ?_⟩
  unfold sameSpecies matchesToken at hs
  rw [List.any_eq_true] at hs
  obtain ⟨tok, h1, h2⟩ := hs
  refine ⟨tok, h1, ?_⟩
  simp only [Specie.label, Specie.isVacancy, Specie.ofText, if_true] at h2
  split at h2
  · rename_i hv
    exact .inr ⟨by simpa using hv, by simpa using h2⟩
  · exact .inl (by simpa using h2)

open Lattice (sNa sSb sW)

/-- The hypotheses are met: a sodium atom hops from site 0 to site 1 with tungsten beside it. -/
example : SecondIsVacancy enumLattice (0 : Nat) ∧ SecondIsVacancy enumLattice (1 : Nat) ∧
    (∀ i ∈ enumOrder.activeToOriginal, i < enumFull.length) ∧
    endpointPair enumLattice enumOrder enumFull (.values [1, 0, 1]) [0, 1] =
      .ok ⟨[(sNa, 0), (.ofElement "O" "O2-", 2), (sW, 3)], [(sNa, 1), (.ofElement "O" "O2-", 2), (sW, 3)],
        ⟨.chebyshev 2, [0, 1, 1]⟩, ⟨.chebyshev 2, [1, 0, 1]⟩, (0, 1)⟩ :=
  ⟨⟨sNa, .vacancy, [], by decide, by decide⟩, ⟨sNa, .vacancy, [], by decide, by decide⟩, by decide,
    by decide +kernel⟩

/-- When the second allowed species of the target is not the vacancy the pair is still returned, and
its final structure has two atoms at the target. -/
theorem C74_multistate_target_collides :
    ∃ (l : Lattice Int) (order : ActiveSiteOrder Unit Unit) (full : List (Specie × Int))
      (pair : EndpointPair Int),
      Lattice.mk' [(sNa, 0), (sNa, 1)] [(sNa, [sNa, sW, .vacancy])] "chebyshev" = .ok l ∧
      endpointPair l order full (.values [0, 2]) [0, 1] = .ok pair ∧
      (pair.final.map (·.2)) = [1, 1] :=
  ⟨⟨[(sNa, 0), (sNa, 1)], [(sNa, [sNa, sW, .vacancy])], [some [sNa, sW, .vacancy], some [sNa, sW, .vacancy]],
      .chebyshev 3⟩, ⟨2, 2, [0, 1], [0, 1], [0, 1], [], (1, 1, 1), [], [], ()⟩, [(sNa, 0), (sNa, 1)],
    _, rfl, rfl, by decide +kernel⟩

/-! ### Enumerated pairs -/

theorem endpointPairs_ok {l : Lattice P} {order : ActiveSiteOrder σ φ} {full : List (Specie × P)}
    {mobile : List Int} {rs : List (Result P)} {ps : List (EndpointPair P)}
    (h : endpointPairs l order full mobile rs = .ok ps) :
    List.Forall₂ (fun r p => endpointPair l order full (.enumerated r) mobile = .ok p) rs ps := by
  induction rs generalizing ps with
  | nil => unfold endpointPairs at h; cases h; exact .nil
  | cons r rs ih =>
    unfold endpointPairs at h
    split at h
    · cases h
    · rename_i p hp
      split at h
      · cases h
      · rename_i ps' hps
        cases h
        exact .cons hp (ih hps)

/-- One pair for every listed environment, in the same order; when neither mobile site is varied no
two pairs are the same. -/
theorem C74_enumerated_pairs {l : Lattice P} {order : ActiveSiteOrder σ φ}
    (horder : order.activeToOriginal.Nodup) {full : List (Specie × P)}
    {f t : Nat} {localSites : List Int} {base : Option Occupation} {counts : Option (List (Specie × Int))}
    {variableSpecies : Option (List Specie)} {given : Option (List Int)} {maxResults : Int}
    {ps : List (EndpointPair P)}
    (h : enumeratePairs l order full [(f : Int), (t : Int)] localSites (base.map .ok) counts variableSpecies
      given maxResults = .ok ps) :
    ∃ rs, enumerate l order full localSites (base.map .ok) counts variableSpecies given maxResults = .ok rs ∧
      List.Forall₂ (fun r p => endpointPair l order full (.enumerated r) [(f : Int), (t : Int)] = .ok p) rs ps ∧
      ((variableSites l localSites variableSpecies given).Nodup →
       (∀ v ∈ variableSites l localSites variableSpecies given, Distinguishable (allowedOn l v)) →
       (∀ v ∈ variableSites l localSites variableSpecies given,
          TellsApart l.basis (allowedOn l v).length) →
       (f : Int) ∉ variableSites l localSites variableSpecies given →
       (t : Int) ∉ variableSites l localSites variableSpecies given →
       (ps.map (·.initialOccupation.data)).Nodup) := by
  unfold enumeratePairs unpack2 at h
  simp only at h
  split at h
  · cases h
  · rename_i rs hrs
    have hps := endpointPairs_ok h
    refine ⟨rs, hrs, hps, ?_⟩
    intro hn hd ht hfv htv
    have hdist := C50_distinct horder hn hd ht hrs
    have hd' : ∀ v ∈ variableSites l localSites variableSpecies given, (allowedOn l v).Nodup := by
      intro v hv
      refine (hd v hv).imp ?_
      rintro a b hab rfl
      rw [a.equivalent_refl] at hab
      cases hab
    obtain ⟨cs, -, -, hsh⟩ := C50_enumeration horder hn hd' hrs
    -- every result agrees with the base on the mobile sites
    have hbase : ∀ r ∈ rs, r.fullOccupation.data[f]? = (baseOr l base).data[f]? ∧
        r.fullOccupation.data[t]? = (baseOr l base).data[t]? := by
      intro r hr
      obtain ⟨k, hk⟩ := List.getElem?_of_mem hr
      have hkl : k < rs.length := by
        by_contra hc; rw [List.getElem?_eq_none (by omega)] at hk; cases hk
      have := hsh.get (i := k) (by rw [hsh.length_eq]; exact hkl) hkl
      rw [List.get_eq_getElem, List.get_eq_getElem] at this
      rw [List.getElem?_eq_getElem hkl] at hk
      cases hk
      exact ⟨this.others f hfv, this.others t htv⟩
    rw [List.nodup_iff_injective_getElem]
    rintro ⟨i, hi⟩ ⟨j, hj⟩ hij
    simp only [List.getElem_map] at hij
    rw [List.length_map] at hi hj
    have hl := hps.length_eq
    have hi' : i < rs.length := by omega
    have hj' : j < rs.length := by omega
    have pi := hps.get hi' hi
    have pj := hps.get hj' hj
    rw [List.get_eq_getElem, List.get_eq_getElem] at pi pj
    obtain ⟨f1, t1, o1, -, -, hm1, -, -, -, ho1, -, -, -, -, -, -, -, -, -, hi1, -, -⟩ := endpointPair_ok pi
    obtain ⟨f2, t2, o2, -, -, hm2, -, -, -, ho2, -, -, -, -, -, -, -, -, -, hi2, -, -⟩ := endpointPair_ok pj
    simp only [List.cons.injEq, Int.natCast_inj, and_true] at hm1 hm2
    obtain ⟨rfl, rfl⟩ := hm1
    obtain ⟨rfl, rfl⟩ := hm2
    unfold environmentOccupation at ho1 ho2
    cases ho1
    cases ho2
    rw [hi1, hi2] at hij
    simp only at hij
    have heq : rs[i].fullOccupation.data = rs[j].fullOccupation.data := by
      apply List.ext_getElem?
      intro k
      obtain ⟨b1, b2⟩ := hbase rs[i] (List.getElem_mem hi')
      obtain ⟨b3, b4⟩ := hbase rs[j] (List.getElem_mem hj')
      by_cases hkf : k = f
      · rw [hkf, b1, b3]
      · by_cases hkt : k = t
        · rw [hkt, b2, b4]
        · have := congrArg (fun x => x[k]?) hij
          rwa [List.getElem?_set_ne (Ne.symm hkt), List.getElem?_set_ne (Ne.symm hkf),
            List.getElem?_set_ne (Ne.symm hkt), List.getElem?_set_ne (Ne.symm hkf)] at this
    apply Fin.ext
    have hii : i < (rs.map (·.fullOccupation.data)).length := by simpa using hi'
    have hjj : j < (rs.map (·.fullOccupation.data)).length := by simpa using hj'
    have : (rs.map (·.fullOccupation.data))[i] = (rs.map (·.fullOccupation.data))[j] := by
      simpa using heq
    exact (hdist.getElem_inj_iff).1 this

/-- With the default variable sites the target site is varied too, and the same pair is returned
once for every species of it. -/
theorem C74_default_duplicates :
    ∃ (ps : List (EndpointPair Int)) (p : EndpointPair Int),
      enumeratePairs enumLattice enumOrder enumFull [0, 1] [1] none none none none 1000 = .ok ps ∧
      ps = [p, p] :=
  ⟨_, ⟨[(sNa, 0), (.ofElement "O" "O2-", 2), (sSb, 3)], [(sNa, 1), (.ofElement "O" "O2-", 2), (sSb, 3)],
    ⟨.chebyshev 2, [0, 1, 0]⟩, ⟨.chebyshev 2, [1, 0, 0]⟩, (0, 1)⟩, by decide +kernel, rfl⟩

/-- Varying only the third site gives two different pairs. -/
example : (0 : Int) ∉ variableSites enumLattice [1, 2] none (some [2]) ∧
    (1 : Int) ∉ variableSites enumLattice [1, 2] none (some [2]) ∧
    (enumeratePairs enumLattice enumOrder enumFull [0, 1] [1, 2] none none none (some [2]) 1000).toOption.map
      (·.map (·.initialOccupation.data)) = some [[0, 1, 0], [0, 1, 1]] := by
  decide +kernel

end KMC
