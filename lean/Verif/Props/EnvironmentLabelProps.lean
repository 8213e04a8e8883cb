import Std.Data.String.ToInt
import Verif.Spec.EnvironmentLabel
import Verif.Lemmas.Enumerator
import Verif.Props.EnumeratorProps
import Verif.Props.EndpointProps
/-
C106: the label of an environment identifies it.
-/
namespace KMC
open Spec Enumerator
variable {P σ φ : Type}

/-! ### Texts -/

theorem intText_plain (i : Int) : ∀ c ∈ (toString i).toList, c ≠ ':' ∧ c ≠ '|' := by
  have hn : ∀ (n : Nat), ∀ c ∈ n.repr.toList, c ≠ ':' ∧ c ≠ '|' := by
    intro n c hc
    rw [Nat.toList_repr] at hc
    have := Nat.isDigit_of_mem_toDigits (by decide) (by decide) hc
    constructor <;> (rintro rfl; exact absurd this (by decide))
  intro c hc
  cases i with
  | ofNat n => exact hn n c hc
  | negSucc n =>
    have he : (toString (Int.negSucc n)).toList = '-' :: (n + 1).repr.toList := by
      show ("-" ++ (n + 1).repr).toList = _
      rw [String.toList_append]; rfl
    rw [he] at hc
    rcases List.mem_cons.1 hc with rfl | hc
    · decide
    · exact hn _ c hc

theorem intText_inj {i j : Int} (h : toString i = toString j) : i = j := by
  have h1 : (toString i).toInt? = some i := by simp
  have h2 : (toString j).toInt? = some j := by simp
  rw [h, h2] at h1
  exact (Option.some.inj h1).symm

/-- A prefix without the separator is determined. -/
theorem sep_inj {c : Char} : ∀ {a a' b b' : List Char}, c ∉ a → c ∉ a' →
    a ++ c :: b = a' ++ c :: b' → a = a' ∧ b = b'
  | [], [], _, _, _, _, h => by simpa using h
  | [], x :: xs, _, _, _, h', h => by
    simp only [List.nil_append, List.cons_append, List.cons.injEq] at h
    exact absurd (h.1 ▸ List.mem_cons_self) h'
  | x :: xs, [], _, _, h', _, h => by
    simp only [List.nil_append, List.cons_append, List.cons.injEq] at h
    exact absurd (h.1 ▸ List.mem_cons_self) h'
  | x :: xs, y :: ys, _, _, h1, h2, h => by
    simp only [List.cons_append, List.cons.injEq] at h
    have := sep_inj (fun hc => h1 (List.mem_cons_of_mem _ hc))
      (fun hc => h2 (List.mem_cons_of_mem _ hc)) h.2
    exact ⟨by rw [h.1, this.1], this.2⟩

/-- The text of one site with its species name. -/
theorem entry_inj {i j : Int} {s t : String} (h : toString i ++ ":" ++ s = toString j ++ ":" ++ t) :
    i = j ∧ s = t := by
  have h' := congrArg String.toList h
  simp only [String.toList_append] at h'
  have hc : (":" : String).toList = [':'] := rfl
  rw [hc, List.append_assoc, List.append_assoc, List.singleton_append, List.singleton_append] at h'
  have := sep_inj (fun hm => (intText_plain i _ hm).1 rfl) (fun hm => (intText_plain j _ hm).1 rfl) h'
  refine ⟨intText_inj (String.toList_inj.1 this.1), String.toList_inj.1 this.2⟩

theorem entry_no_bar {i : Int} {s : String} (hs : PlainName s) :
    '|' ∉ (toString i ++ ":" ++ s).toList := by
  simp only [String.toList_append, List.mem_append, not_or]
  exact ⟨⟨fun h => (intText_plain i _ h).2 rfl, by decide⟩, hs.2⟩

theorem entry_colon {i : Int} {s : String} : ':' ∈ (toString i ++ ":" ++ s).toList := by
  simp only [String.toList_append, List.mem_append]
  exact .inl (.inr (by decide))

/-- Joined texts without the separator are determined. -/
theorem join_inj {ls ls' : List String} (h1 : ∀ s ∈ ls, '|' ∉ s.toList) (h2 : ∀ s ∈ ls', '|' ∉ s.toList)
    (hn : ls ≠ []) (hn' : ls' ≠ []) (h : String.intercalate "|" ls = String.intercalate "|" ls') :
    ls = ls' := by
  have h' := congrArg String.toList h
  rw [String.toList_intercalate, String.toList_intercalate] at h'
  have hc : ("|" : String).toList = ['|'] := rfl
  rw [hc] at h'
  have e1 := List.splitOn_intercalate (ls := ls.map String.toList) '|' (by simpa using h1) (by simpa using hn)
  have e2 := List.splitOn_intercalate (ls := ls'.map String.toList) '|' (by simpa using h2) (by simpa using hn')
  rw [h', e2] at e1
  exact (List.map_injective_iff.2 fun a b hab => String.toList_inj.1 hab) e1.symm

theorem label_colon {d : List (Int × String)} (h : d ≠ []) : ':' ∈ (environmentLabel d).toList := by
  unfold environmentLabel
  rw [if_neg (by simpa using h), String.toList_intercalate]
  have hs : sortedSites d ≠ [] := by
    intro h0
    have := (List.mergeSort_perm (d.map (·.1)) fun a b => decide (a ≤ b)).length_eq
    unfold sortedSites at h0
    rw [h0] at this
    apply h
    simpa using this.symm
  cases hl : sortedSites d with
  | nil => exact absurd hl hs
  | cons i is =>
    simp only [List.map_cons]
    have hm : ':' ∈ (siteText d i).toList := entry_colon
    cases is with
    | nil => simpa using hm
    | cons j js =>
      simp only [List.map_cons, List.intercalate_cons_cons]
      simp [hm]

theorem sorted_congr {d d' : List (Int × String)} (h : OnePerSite d) (h' : OnePerSite d')
    (hs : SameEnvironment d d') : sortedSites d = sortedSites d' := by
  unfold sortedSites
  have hp : (d.map (·.1)).Perm (d'.map (·.1)) := by
    rw [List.perm_ext_iff_of_nodup h h']
    intro i
    simp only [List.mem_map]
    constructor
    · rintro ⟨⟨i, s⟩, hm, rfl⟩; exact ⟨(i, s), (hs i s).1 hm, rfl⟩
    · rintro ⟨⟨i, s⟩, hm, rfl⟩; exact ⟨(i, s), (hs i s).2 hm, rfl⟩
  have hle : ∀ l : List Int, (l.mergeSort fun a b => decide (a ≤ b)).Pairwise (· ≤ ·) := by
    intro l
    have := List.pairwise_mergeSort (le := fun a b : Int => decide (a ≤ b))
      (by intro a b c h1 h2; simp only [decide_eq_true_eq] at *; omega)
      (by intro a b; simp only [Bool.or_eq_true, decide_eq_true_eq]; omega) l
    exact this.imp fun h => by simpa using h
  exact List.Perm.eq_of_pairwise (fun a b _ _ h1 h2 => le_antisymm h1 h2) (hle _) (hle _)
    ((List.mergeSort_perm _ _).trans (hp.trans (List.mergeSort_perm _ _).symm))

theorem dictGet_onePerSite {d : List (Int × String)} (h : OnePerSite d) {i : Int} {s : String} :
    dictGet d i = some s ↔ (i, s) ∈ d :=
  ⟨mem_of_dictGet, dictGet_of_mem h⟩

theorem siteText_of_mem {d : List (Int × String)} (h : OnePerSite d) {i : Int} {s : String}
    (hm : (i, s) ∈ d) : siteText d i = toString i ++ ":" ++ s := by
  unfold siteText
  rw [(dictGet_onePerSite h).2 hm, Option.getD_some]

theorem mem_sortedSites {d : List (Int × String)} {i : Int} :
    i ∈ sortedSites d ↔ ∃ s, (i, s) ∈ d := by
  unfold sortedSites
  rw [(List.mergeSort_perm _ _).mem_iff]
  simp

/-- The part of a label that belongs to a nonempty environment. -/
theorem label_subset {d d' : List (Int × String)} (h : OnePerSite d) (h' : OnePerSite d')
    (he : (sortedSites d).map (siteText d) = (sortedSites d').map (siteText d')) :
    ∀ i s, (i, s) ∈ d → (i, s) ∈ d' := by
  intro i s hm
  have h1 : siteText d i ∈ (sortedSites d).map (siteText d) :=
    List.mem_map_of_mem (mem_sortedSites.2 ⟨s, hm⟩)
  rw [he] at h1
  obtain ⟨j, hj, hje⟩ := List.mem_map.1 h1
  obtain ⟨t, ht⟩ := mem_sortedSites.1 hj
  rw [siteText_of_mem h hm, siteText_of_mem h' ht] at hje
  obtain ⟨rfl, rfl⟩ := entry_inj hje
  exact ht

/-- C106.  Two environments have the same label exactly if every site has the same species in both,
whatever the order in which the sites are listed, as long as no species name contains a separator. -/
theorem C106_label_identifies {d d' : List (Int × String)} (h : OnePerSite d) (h' : OnePerSite d')
    (hp : ∀ i s, (i, s) ∈ d → PlainName s) (hp' : ∀ i s, (i, s) ∈ d' → PlainName s) :
    environmentLabel d = environmentLabel d' ↔ SameEnvironment d d' := by
  constructor
  · intro he
    by_cases hd : d = []
    · subst hd
      by_cases hd' : d' = []
      · subst hd'; intro i s; rfl
      · have := label_colon hd'
        rw [← he] at this
        exact absurd this (by decide)
    · by_cases hd' : d' = []
      · subst hd'
        have := label_colon hd
        rw [he] at this
        exact absurd this (by decide)
      · have hbar : ∀ {d : List (Int × String)}, OnePerSite d → (∀ i s, (i, s) ∈ d → PlainName s) →
            ∀ x ∈ (sortedSites d).map (siteText d), '|' ∉ x.toList := by
          intro d h hp x hx
          obtain ⟨i, hi, rfl⟩ := List.mem_map.1 hx
          obtain ⟨s, hs⟩ := mem_sortedSites.1 hi
          rw [siteText_of_mem h hs]
          exact entry_no_bar (hp i s hs)
        have hne : ∀ {d : List (Int × String)}, d ≠ [] → (sortedSites d).map (siteText d) ≠ [] := by
          intro d hd h0
          obtain ⟨⟨i, s⟩, hm⟩ := List.exists_mem_of_ne_nil d hd
          have : siteText d i ∈ (sortedSites d).map (siteText d) :=
            List.mem_map_of_mem (mem_sortedSites.2 ⟨s, hm⟩)
          rw [h0] at this
          cases this
        unfold environmentLabel at he
        rw [if_neg (by simpa using hd), if_neg (by simpa using hd')] at he
        have hj := join_inj (hbar h hp) (hbar h' hp') (hne hd) (hne hd') he
        intro i s
        exact ⟨label_subset h h' hj i s, label_subset h' h hj.symm i s⟩
  · intro hs
    unfold environmentLabel
    have hemp : d.isEmpty = d'.isEmpty := by
      cases d with
      | nil =>
        cases d' with
        | nil => rfl
        | cons x xs => exact absurd ((hs x.1 x.2).2 (by simp)) (by simp)
      | cons x xs =>
        cases d' with
        | nil => exact absurd ((hs x.1 x.2).1 (by simp)) (by simp)
        | cons y ys => rfl
    rw [hemp, sorted_congr h h' hs]
    congr 2
    apply List.map_congr_left
    intro i hi
    obtain ⟨s, hm⟩ := mem_sortedSites.1 hi
    rw [siteText_of_mem h' hm, siteText_of_mem h ((hs i s).2 hm)]

/-- The label of two sodium sites and a vacancy, listed in any order; the label of no site. -/
example : environmentLabel [(10, "Na"), (2, "X"), (-1, "W")] = "-1:W|2:X|10:Na" ∧
    environmentLabel [(2, "X"), (10, "Na"), (-1, "W")] = "-1:W|2:X|10:Na" ∧
    environmentLabel [] = "base" ∧
    OnePerSite [(10, "Na"), (2, "X"), (-1, "W")] ∧ PlainName "Na" ∧ PlainName "X" := by
  have h1 : sortedSites [(10, "Na"), (2, "X"), (-1, "W")] = [-1, 2, 10] := by
    simp [sortedSites, List.mergeSort, List.MergeSort.Internal.splitInTwo]
  have h2 : sortedSites [(2, "X"), (10, "Na"), (-1, "W")] = [-1, 2, 10] := by
    simp [sortedSites, List.mergeSort, List.MergeSort.Internal.splitInTwo]
  refine ⟨?_, ?_, rfl, by unfold OnePerSite; decide, ?_, ?_⟩
  · unfold environmentLabel; rw [h1]; decide +kernel
  · unfold environmentLabel; rw [h2]; decide +kernel
  · unfold PlainName; decide
  · unfold PlainName; decide

/-- With separators in the names two different environments can have the same label. -/
theorem C106_separators_collide : ∃ d d' : List (Int × String), OnePerSite d ∧ OnePerSite d' ∧
    ¬ SameEnvironment d d' ∧ environmentLabel d = environmentLabel d' := by
  refine ⟨[(1, "A|2:B")], [(1, "A"), (2, "B")], by unfold OnePerSite; decide, by unfold OnePerSite; decide,
    fun h => absurd ((h 2 "B").2 (by decide)) (by decide), ?_⟩
  have h1 : sortedSites [(1, "A|2:B")] = [1] := by simp [sortedSites]
  have h2 : sortedSites [(1, "A"), (2, "B")] = [1, 2] := by
    simp [sortedSites, List.mergeSort, List.MergeSort.Internal.splitInTwo]
  unfold environmentLabel
  rw [h1, h2]
  decide +kernel

/-! ### Enumerated environments -/

theorem label_mem_tokens (s : Specie) : s.label ∈ s.tokens := by
  unfold Specie.label Specie.tokens
  by_cases hv : s.isVacancy = true
  · simp [hv]
  · rw [if_neg hv, if_neg hv]
    by_cases ht : s.text = true
    · simp [ht]
    · rw [if_neg ht]
      cases hs : s.symbol <;> simp

theorem label_tells {al : List Specie} (h : Distinguishable al) {a b : Specie} (ha : a ∈ al) (hb : b ∈ al)
    (he : a.label = b.label) : a = b := by
  by_contra hab
  have heq : a.equivalent b = true := by
    unfold Specie.equivalent
    rw [List.any_eq_true]
    exact ⟨_, label_mem_tokens a, by rw [he]; simpa using label_mem_tokens b⟩
  let _ : Std.Symm fun a b : Specie => a.equivalent b = false :=
    ⟨fun a b h => by rw [Specie.equivalent_symm]; exact h⟩
  have := List.Pairwise.forall (R := fun a b : Specie => a.equivalent b = false) h ha hb hab
  rw [heq] at this
  cases this

theorem zip_same {vs : List Int} (hn : vs.Nodup) : ∀ {a b : List String}, a.length = vs.length →
    b.length = vs.length → SameEnvironment (vs.zip a) (vs.zip b) → a = b := by
  intro a b ha hb h
  apply List.ext_getElem (by omega)
  intro k hk hk'
  have hkv : k < vs.length := by omega
  have hm : (vs[k], a[k]) ∈ vs.zip a := by
    rw [List.mem_iff_getElem]
    exact ⟨k, by rw [List.length_zip]; omega, by simp⟩
  have hm' := (h _ _).1 hm
  obtain ⟨j, hj, he⟩ := List.mem_iff_getElem.1 hm'
  rw [List.length_zip] at hj
  rw [List.getElem_zip] at he
  have h1 : vs[j] = vs[k] := congrArg Prod.fst he
  have h2 : b[j] = a[k] := congrArg Prod.snd he
  have : j = k := (hn.getElem_inj_iff).1 h1
  subst this
  exact h2.symm

theorem zip_onePerSite {vs : List Int} (hn : vs.Nodup) {a : List String} (ha : a.length = vs.length) :
    OnePerSite (vs.zip a) := by
  unfold OnePerSite
  rw [List.map_fst_zip (by omega)]
  exact hn

/-- The names of the placed species are the record of a result, one for every variable site. -/
theorem bySite_of_shows {l : Lattice P} {order : ActiveSiteOrder σ φ} {full : List (Specie × P)}
    {base : Occupation} {is vs : List Int} {c : List Specie} {r : Result P}
    {variableSpecies : Option (List Specie)} (hn : vs.Nodup)
    (ha : Assignment l variableSpecies vs c)
    (hp : ∀ v ∈ vs, ∀ s ∈ allowedOn l v, PlainName s.label)
    (h : Shows l order full base is vs c r) :
    OnePerSite r.speciesBySite ∧ ∀ i s, (i, s) ∈ r.speciesBySite → PlainName s := by
  rw [h.bySite]
  refine ⟨zip_onePerSite hn (by rw [List.length_map]; exact ha.length_eq.symm), ?_⟩
  intro i s hm
  rw [List.zip_map_right, List.mem_map] at hm
  obtain ⟨⟨v, sp⟩, hz, he⟩ := hm
  cases he
  have := (List.forall₂_iff_zip.1 ha).2 hz
  exact hp v (List.of_mem_zip hz).1 sp this.1

/-- No two of the enumerated environments have the same label. -/
theorem C106_labels_distinct {l : Lattice P} {order : ActiveSiteOrder σ φ}
    (horder : order.activeToOriginal.Nodup) {full : List (Specie × P)}
    {localSites : List Int} {base : Option Occupation} {counts : Option (List (Specie × Int))}
    {variableSpecies : Option (List Specie)} {given : Option (List Int)} {maxResults : Int}
    {rs : List (Result P)}
    (hn : (variableSites l localSites variableSpecies given).Nodup)
    (hd : ∀ v ∈ variableSites l localSites variableSpecies given, Distinguishable (allowedOn l v))
    (hp : ∀ v ∈ variableSites l localSites variableSpecies given, ∀ s ∈ allowedOn l v, PlainName s.label)
    (h : enumerate l order full localSites (base.map .ok) counts variableSpecies given maxResults = .ok rs) :
    (rs.map (·.label)).Nodup := by
  have hd' : ∀ v ∈ variableSites l localSites variableSpecies given, (allowedOn l v).Nodup := by
    intro v hv
    refine (hd v hv).imp ?_
    rintro a b hab rfl
    rw [a.equivalent_refl] at hab
    cases hab
  obtain ⟨cs, hcs, hpw, hsh⟩ := C50_enumeration horder hn hd' h
  generalize variableSites l localSites variableSpecies given = vs at *
  have hcsn : (cs.take maxResults.toNat).Nodup := by
    refine List.Pairwise.sublist (List.take_sublist _ _) (hpw.imp ?_)
    rintro c d hcd rfl
    exact lt_irrefl _ hcd
  have hinj : ∀ c d r s, c ∈ cs → d ∈ cs → Shows l order full (baseOr l base) localSites vs c r →
      Shows l order full (baseOr l base) localSites vs d s → r.label = s.label → c = d := by
    intro c d r s hc hd'' h1 h2 heq
    have ac := ((hcs c).1 hc).1
    have ad := ((hcs d).1 hd'').1
    obtain ⟨o1, p1⟩ := bySite_of_shows hn ac hp h1
    obtain ⟨o2, p2⟩ := bySite_of_shows hn ad hp h2
    have hsame := (C106_label_identifies o1 o2 p1 p2).1 heq
    rw [h1.bySite, h2.bySite] at hsame
    have hmap := zip_same hn (by rw [List.length_map]; exact ac.length_eq.symm)
      (by rw [List.length_map]; exact ad.length_eq.symm) hsame
    apply List.ext_getElem (by rw [← ac.length_eq, ← ad.length_eq])
    intro k hk hk'
    have hkv : k < vs.length := by rw [ac.length_eq]; exact hk
    have hmem : vs[k] ∈ vs := List.getElem_mem hkv
    have hpc : MayPlace variableSpecies (allowedOn l vs[k]) c[k] := by
      have := ac.get hkv hk; simpa using this
    have hpd : MayPlace variableSpecies (allowedOn l vs[k]) d[k] := by
      have := ad.get hkv hk'; simpa using this
    refine label_tells (hd _ hmem) hpc.1 hpd.1 ?_
    have : (c.map (·.label))[k]'(by simpa using hk) = (d.map (·.label))[k]'(by simpa using hk') := by
      simp only [hmap]
    simpa using this
  rw [List.nodup_iff_injective_getElem]
  rintro ⟨i, hi⟩ ⟨j, hj⟩ hij
  simp only [List.getElem_map] at hij
  rw [List.length_map] at hi hj
  have hl := hsh.length_eq
  have hi' : i < (cs.take maxResults.toNat).length := by omega
  have hj' : j < (cs.take maxResults.toNat).length := by omega
  have si := hsh.get hi' hi
  have sj := hsh.get hj' hj
  rw [List.get_eq_getElem, List.get_eq_getElem] at si sj
  have := hinj _ _ _ _ (List.mem_of_mem_take (List.getElem_mem hi')) (List.mem_of_mem_take (List.getElem_mem hj'))
    si sj hij
  apply Fin.ext
  exact (hcsn.getElem_inj_iff).1 this

/-! ### Records of endpoint pairs -/

theorem recordedPairs_ok {l : Lattice P} {order : ActiveSiteOrder σ φ} {full : List (Specie × P)}
    {mobile : List Int} {rs : List (Result P)} {k : Nat} {ps : List (EndpointPair P × PairRecord)}
    (h : recordedPairs l order full mobile k rs = .ok ps) :
    endpointPairs l order full mobile rs = .ok (ps.map (·.1)) ∧ ps.length = rs.length ∧
    ∀ (n : Nat) p rec r, ps[n]? = some (p, rec) → rs[n]? = some r →
      endpointPair l order full (.enumerated r) mobile = .ok p ∧
      rec = ⟨p.mobile, k + n, r.label, r.localSites, r.variableSites, r.speciesBySite⟩ := by
  induction rs generalizing k ps with
  | nil =>
    unfold recordedPairs at h
    cases h
    exact ⟨rfl, rfl, fun n p rec r hn => by simp at hn⟩
  | cons r rs ih =>
    unfold recordedPairs at h
    split at h
    · cases h
    · rename_i p hp
      split at h
      · cases h
      · rename_i ps' hps
        cases h
        obtain ⟨h1, h2, h3⟩ := ih hps
        refine ⟨?_, by simp [h2], ?_⟩
        · unfold endpointPairs
          rw [hp, h1]
          rfl
        · intro n p' rec r' hn hr
          cases n with
          | zero =>
            simp only [List.getElem?_cons_zero, Option.some.injEq, Prod.mk.injEq] at hn hr
            obtain ⟨rfl, rfl⟩ := hn
            subst hr
            exact ⟨hp, rfl⟩
          | succ n =>
            simp only [List.getElem?_cons_succ] at hn hr
            obtain ⟨h4, h5⟩ := h3 n p' rec r' hn hr
            refine ⟨h4, ?_⟩
            rw [h5]
            congr 1
            omega

/-- The pairs are those of the enumeration, in order; the record of each one carries its number, the
two sites of the hop and the label, the sites and the species of the environment it was made from. -/
theorem C106_pair_records {l : Lattice P} {order : ActiveSiteOrder σ φ} {full : List (Specie × P)}
    {f t : Int} {localSites : List Int} {base : Option (Py Occupation)}
    {counts : Option (List (Specie × Int))} {variableSpecies : Option (List Specie)}
    {given : Option (List Int)} {maxResults : Int} {ps : List (EndpointPair P × PairRecord)}
    (h : enumerateRecorded l order full [f, t] localSites base counts variableSpecies given maxResults =
      .ok ps) :
    enumeratePairs l order full [f, t] localSites base counts variableSpecies given maxResults =
      .ok (ps.map (·.1)) ∧
    ∃ rs, enumerate l order full localSites base counts variableSpecies given maxResults = .ok rs ∧
      ps.length = rs.length ∧
      ∀ (n : Nat) p rec r, ps[n]? = some (p, rec) → rs[n]? = some r →
        rec.index = n ∧ rec.mobile = (f, t) ∧ rec.label = environmentLabel r.speciesBySite ∧
        rec.localSites = r.localSites ∧ rec.variableSites = r.variableSites ∧
        rec.speciesBySite = r.speciesBySite := by
  unfold enumerateRecorded at h
  unfold enumeratePairs
  simp only [unpack2] at h ⊢
  cases he : enumerate l order full localSites base counts variableSpecies given maxResults with
  | error e => rw [he] at h; cases h
  | ok rs =>
    rw [he] at h
    obtain ⟨h1, h2, h3⟩ := recordedPairs_ok h
    refine ⟨h1, rs, rfl, h2, ?_⟩
    intro n p rec r hn hr
    obtain ⟨h4, rfl⟩ := h3 n p rec r hn hr
    obtain ⟨f', t', o, sf, st, hmob, -, -, -, -, -, -, -, -, -, -, -, -, hpm, -⟩ := endpointPair_ok h4
    simp only [List.cons.injEq, and_true] at hmob
    refine ⟨by simp, ?_, rfl, rfl, rfl, rfl⟩
    show p.mobile = (f, t)
    rw [hpm, hmob.1, hmob.2]

/-- What the record of a pair says of a site holds of both structures of the pair, except at the two
sites of the hop; and no two records have the same label. -/
theorem C106_records_true {l : Lattice P} {order : ActiveSiteOrder σ φ}
    (horder : order.activeToOriginal.Nodup) {full : List (Specie × P)}
    {f t : Int} {localSites : List Int} {base : Option Occupation}
    {counts : Option (List (Specie × Int))} {variableSpecies : Option (List Specie)}
    {given : Option (List Int)} {maxResults : Int} {ps : List (EndpointPair P × PairRecord)}
    (hn : (variableSites l localSites variableSpecies given).Nodup)
    (hd : ∀ v ∈ variableSites l localSites variableSpecies given, Distinguishable (allowedOn l v))
    (hp : ∀ v ∈ variableSites l localSites variableSpecies given, ∀ s ∈ allowedOn l v, PlainName s.label)
    (h : enumerateRecorded l order full [f, t] localSites (base.map .ok) counts variableSpecies given
      maxResults = .ok ps) :
    (ps.map (·.2.label)).Nodup ∧
    ∀ p rec, (p, rec) ∈ ps →
      rec.speciesBySite.map (·.1) = variableSites l localSites variableSpecies given ∧
      ∀ v name, (v, name) ∈ rec.speciesBySite → v ≠ f → v ≠ t →
        ∃ sp : Specie, sp.label = name ∧ SiteSpeciesIs l p.initialOccupation.data v.toNat sp ∧
          SiteSpeciesIs l p.finalOccupation.data v.toNat sp := by
  have hd' : ∀ v ∈ variableSites l localSites variableSpecies given, (allowedOn l v).Nodup := by
    intro v hv
    refine (hd v hv).imp ?_
    rintro a b hab rfl
    rw [a.equivalent_refl] at hab
    cases hab
  obtain ⟨-, rs, hrs, hlen, hrec⟩ := C106_pair_records h
  have hlab := C106_labels_distinct horder hn hd hp hrs
  obtain ⟨cs, hcs, -, hsh⟩ := C50_enumeration horder hn hd' hrs
  constructor
  · have : ps.map (·.2.label) = rs.map (·.label) := by
      apply List.ext_getElem (by simp [hlen])
      intro k h1 h2
      rw [List.length_map] at h1 h2
      have := (hrec k ps[k].1 ps[k].2 rs[k] (List.getElem?_eq_getElem h1) (List.getElem?_eq_getElem h2)).2.2.1
      simpa [Result.label] using this
    rw [this]
    exact hlab
  · intro p rec hm
    obtain ⟨k, hk⟩ := List.getElem?_of_mem hm
    have hkl : k < ps.length := by
      by_contra hcc; rw [List.getElem?_eq_none (by omega)] at hk; cases hk
    have hkr : k < rs.length := by omega
    have hrk := List.getElem?_eq_getElem hkr
    obtain ⟨-, -, -, -, -, hby⟩ := hrec k p rec rs[k] hk hrk
    have hkc : k < (cs.take maxResults.toNat).length := by rw [hsh.length_eq]; exact hkr
    have hs := hsh.get hkc hkr
    rw [List.get_eq_getElem, List.get_eq_getElem] at hs
    have hc := ((hcs _).1 (List.mem_of_mem_take (List.getElem_mem hkc))).1
    generalize (cs.take maxResults.toNat)[k] = c at hs hc
    have hpair : endpointPair l order full (.enumerated rs[k]) [f, t] = .ok p := by
      unfold enumerateRecorded at h
      simp only [unpack2, hrs] at h
      exact ((recordedPairs_ok h).2.2 k p rec _ hk hrk).1
    obtain ⟨f', t', o, sf, st, hmob, -, -, -, ho, -, -, -, -, -, -, -, -, -, hi, hfi, -⟩ :=
      endpointPair_ok hpair
    simp only [List.cons.injEq, and_true] at hmob
    unfold environmentOccupation at ho
    have ho := Except.ok.inj ho
    subst ho
    rw [hby, hs.bySite]
    refine ⟨List.map_fst_zip (by rw [List.length_map]; exact hc.length_eq.le), ?_⟩
    intro v name hv hvf hvt
    obtain ⟨j, hj, he⟩ := List.mem_iff_getElem.1 hv
    rw [List.length_zip, List.length_map] at hj
    have hjv : j < (variableSites l localSites variableSpecies given).length := by omega
    have hjc : j < c.length := by omega
    rw [List.getElem_zip, List.getElem_map] at he
    have h1 := congrArg Prod.fst he
    have h2 := congrArg Prod.snd he
    simp only at h1 h2
    have hvm : v ∈ variableSites l localSites variableSpecies given := h1 ▸ List.getElem_mem hjv
    have hpc : MayPlace variableSpecies (allowedOn l v) c[j] := by
      have := hc.get hjv hjc
      rw [List.get_eq_getElem, List.get_eq_getElem, h1] at this
      exact this
    obtain ⟨i, hi1, hi2⟩ := hs.placed j v c[j] (by rw [List.getElem?_eq_getElem hjv, h1])
      (List.getElem?_eq_getElem hjc)
    have h0 : 0 ≤ v := by
      by_contra hcc
      have := hpc.1
      unfold allowedOn at this
      rw [if_neg hcc] at this
      cases this
    have hal : l.allowed[v.toNat]? = some (some (allowedOn l v)) := by
      have hm := hpc.1
      unfold allowedOn at hm ⊢
      rw [if_pos h0] at hm ⊢
      cases ha : l.allowed[v.toNat]? with
      | none => rw [ha] at hm; cases hm
      | some x =>
        cases x with
        | none => rw [ha] at hm; cases hm
        | some al => rfl
    have hat : (allowedOn l v)[i]? = some c[j] := by
      obtain ⟨m, hm⟩ := List.getElem?_of_mem hpc.1
      have := Lattice.isState_self (hd _ hvm) hm
      rw [Lattice.isState_unique hi1 this]
      exact hm
    have hvf' : f' ≠ v.toNat := by omega
    have hvt' : t' ≠ v.toNat := by omega
    refine ⟨c[j], h2, ⟨_, i, hal, hat, ?_⟩, ⟨_, i, hal, hat, ?_⟩⟩
    · rw [hi]
      simp only
      rw [List.getElem?_set_ne hvt', List.getElem?_set_ne hvf', hi2]
    · rw [hfi]
      simp only
      rw [List.getElem?_set_ne hvt', List.getElem?_set_ne hvf', hi2]

/-- With the default variable sites the target of the hop is varied too: the two records name sodium
and nothing there, in that order, while it is empty in the initial structure of both pairs. -/
theorem C106_record_of_target_untrue :
    (enumerateRecorded enumLattice enumOrder enumFull [0, 1] [1] none none none none 1000).toOption.map
      (·.map fun pr => (pr.2.speciesBySite, pr.1.initial.map (·.2), pr.1.initialOccupation.data)) =
      some [([(1, "Na")], [0, 2, 3], [0, 1, 0]), ([(1, "X")], [0, 2, 3], [0, 1, 0])] := by
  decide +kernel

/-- The hypotheses hold for the example of `C50`, and the records are those expected. -/
example : (∀ v ∈ variableSites enumLattice [1, 2] none (some [2]), Distinguishable (allowedOn enumLattice v) ∧
      ∀ s ∈ allowedOn enumLattice v, PlainName s.label) ∧
    (variableSites enumLattice [1, 2] none (some [2])).Nodup ∧
    (enumerateRecorded enumLattice enumOrder enumFull [0, 1] [1, 2] none none none (some [2]) 1000).toOption.map
      (·.map fun pr => (pr.2.index, pr.2.speciesBySite, pr.1.initialOccupation.data)) =
      some [(0, [(2, "Sb")], [0, 1, 0]), (1, [(2, "W")], [0, 1, 1])] := by
  refine ⟨?_, by decide, by decide +kernel⟩
  intro v hv
  have : v = 2 := by
    have hh : variableSites enumLattice [1, 2] none (some [2]) = [2] := rfl
    rw [hh] at hv; simpa using hv
  subst this
  have ha : allowedOn enumLattice 2 = [Lattice.sSb, Lattice.sW] := rfl
  rw [ha]
  refine ⟨by simp [Distinguishable]; decide, ?_⟩
  intro s hs
  simp only [List.mem_cons, List.not_mem_nil, or_false] at hs
  rcases hs with rfl | rfl <;> (unfold PlainName; decide)

end KMC
