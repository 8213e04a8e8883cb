import Verif.Lemmas.ClusterMatcher
import Verif.Lemmas.Lattice
import Verif.Lemmas.LCE
import Verif.Lemmas.Orbits
import Verif.Props.StructureProps
import Verif.Spec.Enumerator
/-
Lemmas about the enumeration of local environments.
-/
namespace KMC
open Spec
namespace Enumerator
variable {P σ φ : Type}

/-! ### Choices -/

theorem selectChoices_eq (ts : Option (List Specie)) (al : List Specie) :
    selectChoices ts al = al.filter fun s => decide (MayPlace ts al s) := by
  cases ts with
  | none =>
    rw [selectChoices]
    refine (List.filter_eq_self.2 ?_).symm
    intro s hs
    simp [MayPlace, hs]
  | some ts =>
    rw [selectChoices]
    apply List.filter_congr
    intro s hs
    rw [Bool.eq_iff_iff, decide_eq_true_eq, List.any_eq_true]
    unfold MayPlace matchesToken
    simp only [List.contains_iff_mem, hs, true_and, Option.some.injEq, forall_eq']

theorem mem_selectChoices {ts : Option (List Specie)} {al : List Specie} {s : Specie} :
    s ∈ selectChoices ts al ↔ MayPlace ts al s := by
  rw [selectChoices_eq, List.mem_filter, decide_eq_true_eq]
  exact ⟨fun h => h.2, fun h => ⟨h.1, h⟩⟩

theorem selectChoices_sublist (ts : Option (List Specie)) (al : List Specie) :
    (selectChoices ts al).Sublist al := by
  rw [selectChoices_eq]; exact List.filter_sublist

theorem allowedOn_of {l : Lattice P} {k : Nat} {al : List Specie} (h : l.allowed[k]? = some (some al)) :
    allowedOn l (k : Int) = al := by
  simp [allowedOn, h]

theorem allowedChoices_ok {l : Lattice P} {v : Int} {ts : Option (List Specie)} {cs : List Specie}
    (h : allowedChoices l v ts = .ok cs) :
    0 ≤ v ∧ l.allowed[v.toNat]? = some (some (allowedOn l v)) ∧ allowedOn l v ≠ [] ∧
    cs = selectChoices ts (allowedOn l v) ∧ cs ≠ [] := by
  unfold allowedChoices at h
  split at h
  · cases h
  · rename_i hv
    have h0 : 0 ≤ v := by
      by_contra hc; exact hv (.inl (by omega))
    obtain ⟨k, rfl⟩ := Int.eq_ofNat_of_zero_le h0
    split at h
    · cases h
    · cases h
    · cases h
    · rename_i s ss hg
      obtain ⟨j, hj1, hj2⟩ := pyGet_ok_iff.1 hg
      have hj := pyIdx_some_nonneg hj1 h0
      simp only [Int.toNat_natCast] at hj ⊢
      have : j = k := by omega
      subst this
      rw [allowedOn_of hj2]
      refine ⟨h0, hj2, by simp, ?_⟩
      split at h
      · cases h
      · rename_i c cs' hc
        cases h
        exact ⟨hc.symm, by simp⟩

theorem allowedChoices_of {l : Lattice P} {k : Nat} {al : List Specie} {ts : Option (List Specie)}
    (hk : k < l.template.length) (h : l.allowed[k]? = some (some al)) (hne : selectChoices ts al ≠ []) :
    allowedChoices l (k : Int) ts = .ok (selectChoices ts al) := by
  unfold allowedChoices
  rw [if_neg (by omega), pyGet_natCast h]
  have hal : al ≠ [] := by
    rintro rfl
    exact hne (List.sublist_nil.1 (selectChoices_sublist ts []))
  cases al with
  | nil => exact absurd rfl hal
  | cons s ss =>
    simp only
    cases hs : selectChoices ts (s :: ss) with
    | nil => exact absurd hs hne
    | cons c cs => rfl

theorem autoVariable_ok {l : Lattice P} {ts : Option (List Specie)} {is vs : List Int}
    (h : autoVariable l ts is = .ok vs) : vs = variableSites l is ts none := by
  have hsel : ∀ v, ((allowedOn l v).filter fun sp => decide (MayPlace ts (allowedOn l v) sp)).length =
      (selectChoices ts (allowedOn l v)).length := fun v => by rw [selectChoices_eq]
  simp only [variableSites, hsel]
  induction is generalizing vs with
  | nil => unfold autoVariable at h; cases h; rfl
  | cons i is ih =>
    unfold autoVariable at h
    rw [List.filter_cons]
    have hlow : ∀ al, pyGet l.allowed i = .ok al → (∀ x, al = some x → x.length ≤ 1) →
        ¬ (1 < (selectChoices ts (allowedOn l i)).length) := by
      intro al hg hx
      have h1 := (selectChoices_sublist ts (allowedOn l i)).length_le
      have h2 : (allowedOn l i).length ≤ 1 := by
        unfold allowedOn
        split
        · rename_i h0
          obtain ⟨j, hj1, hj2⟩ := pyGet_ok_iff.1 hg
          have hj := pyIdx_some_nonneg hj1 h0
          have : i.toNat = j := by omega
          rw [this, hj2]
          cases al with
          | none => simp
          | some x => simpa using hx x rfl
        · simp
      omega
    split at h
    · cases h
    · rename_i hg
      rw [if_neg (by simpa using hlow none hg (by simp))]
      exact ih h
    · rename_i al hg
      split at h
      · rename_i hle
        rw [if_neg (by simpa using hlow _ hg (by rintro x hx; cases hx; exact hle))]
        exact ih h
      · rename_i hgt
        split at h
        · rename_i hc
          split at h
          · rw [if_neg ?_]
            · exact ih h
            · simp only [decide_eq_true_eq]
              intro hlt
              -- the site would have had choices
              unfold allowedChoices at hc
              split at hc
              · cases hc
              · rename_i hv
                have h0 : 0 ≤ i := by
                  by_contra hcc; exact hv (.inl (by omega))
                obtain ⟨k, rfl⟩ := Int.eq_ofNat_of_zero_le h0
                obtain ⟨j, hj1, hj2⟩ := pyGet_ok_iff.1 hg
                have hj := pyIdx_some_nonneg hj1 h0
                have : j = k := by omega
                subst this
                rw [allowedOn_of hj2] at hlt
                rw [hg] at hc
                cases al with
                | nil => simp at hgt
                | cons s ss =>
                  simp only at hc
                  cases hs : selectChoices ts (s :: ss) with
                  | nil => rw [hs] at hlt; simp at hlt
                  | cons c cs => rw [hs] at hc; cases hc
          · cases h
        · cases h
        · rename_i cs hc
          split at h
          · cases h
          · rename_i vs' hvs
            have h1 := ih hvs
            cases h
            obtain ⟨-, -, -, h5, -⟩ := allowedChoices_ok hc
            rw [← h5, h1]
            by_cases hl : 1 < cs.length
            · simp [hl]
            · simp [hl]

theorem resolveVariable_ok {l : Lattice P} {is vs : List Int} {given : Option (List Int)}
    {ts : Option (List Specie)} (h : resolveVariable l is given ts = .ok vs) :
    vs = variableSites l is ts given ∧ (∀ gs, given = some gs → ∀ v ∈ gs, v ∈ is) := by
  unfold resolveVariable at h
  split at h
  · split at h
    · cases h
    · rename_i hany
      split at h
      · cases h
      · cases h
        refine ⟨rfl, ?_⟩
        intro gs hgs v hv
        cases hgs
        by_contra hc
        apply hany
        rw [List.any_eq_true]
        exact ⟨v, hv, by simpa using hc⟩
  · exact ⟨autoVariable_ok h, by simp⟩

theorem choicesBySite_ok {l : Lattice P} {ts : Option (List Specie)} {vs : List Int}
    {css : List (List Specie)} (h : choicesBySite l ts vs = .ok css) :
    List.Forall₂ (fun v cs => allowedChoices l v ts = .ok cs) vs css := by
  induction vs generalizing css with
  | nil => unfold choicesBySite at h; cases h; exact .nil
  | cons v vs ih =>
    unfold choicesBySite at h
    split at h
    · cases h
    · rename_i cs hc
      split at h
      · cases h
      · rename_i css' hcss
        cases h
        exact .cons hc (ih hcss)

theorem choicesBySite_of {l : Lattice P} {ts : Option (List Specie)} {vs : List Int}
    (h : ∀ v ∈ vs, ∃ cs, allowedChoices l v ts = .ok cs) : ∃ css, choicesBySite l ts vs = .ok css := by
  induction vs with
  | nil => exact ⟨[], rfl⟩
  | cons v vs ih =>
    obtain ⟨cs, hcs⟩ := h v (by simp)
    obtain ⟨css, hcss⟩ := ih fun w hw => h w (by simp [hw])
    exact ⟨cs :: css, by simp [choicesBySite, hcs, hcss]⟩

theorem assignment_iff {l : Lattice P} {ts : Option (List Specie)} {vs : List Int}
    {css : List (List Specie)} (h : List.Forall₂ (fun v cs => allowedChoices l v ts = .ok cs) vs css)
    (c : List Specie) : c ∈ productLists css ↔ Assignment l ts vs c := by
  rw [LCE.mem_productLists]
  unfold Assignment
  induction h generalizing c with
  | nil => simp [List.forall₂_nil_right_iff, List.forall₂_nil_left_iff]
  | @cons v cs vs css h1 _ ih =>
    obtain ⟨-, -, -, h2, -⟩ := allowedChoices_ok h1
    cases c with
    | nil => simp
    | cons s c => rw [List.forall₂_cons, List.forall₂_cons, ih, h2, mem_selectChoices]

/-- The assignments are listed in lexicographic order. -/
theorem productLists_ranks {l : Lattice P} {ts : Option (List Specie)} {vs : List Int}
    {css : List (List Specie)} (h : List.Forall₂ (fun v cs => allowedChoices l v ts = .ok cs) vs css)
    (hd : ∀ v ∈ vs, (allowedOn l v).Nodup) :
    (productLists css).Pairwise fun c d => ranks l vs c < ranks l vs d := by
  induction h with
  | nil => simp [productLists]
  | @cons v cs vs css h1 _ ih =>
    obtain ⟨-, -, -, h2, -⟩ := allowedChoices_ok h1
    have hn := hd v (by simp)
    have hsub := selectChoices_sublist ts (allowedOn l v)
    rw [← h2] at hsub
    have ih := ih fun w hw => hd w (by simp [hw])
    rw [productLists, List.pairwise_flatMap]
    constructor
    · intro a _
      rw [List.pairwise_map]
      exact ih.imp fun h => List.Lex.cons h
    · have hidx : (allowedOn l v).Pairwise fun a b => (allowedOn l v).idxOf a < (allowedOn l v).idxOf b := by
        rw [List.pairwise_iff_getElem]
        intro i j hi hj hij
        rw [hn.idxOf_getElem i hi, hn.idxOf_getElem j hj]
        exact hij
      refine (hidx.sublist hsub).imp ?_
      intro a b hab x hx y hy
      obtain ⟨x', -, rfl⟩ := List.mem_map.1 hx
      obtain ⟨y', -, rfl⟩ := List.mem_map.1 hy
      exact List.Lex.rel hab

/-! ### Counts -/

theorem canonicalCounts_get (c : List (Specie × Int)) (acc : List (String × Int)) (lab : String) :
    dictGet (canonicalCounts c acc) lab = (requested c lab).or (dictGet acc lab) := by
  induction c generalizing acc with
  | nil => simp [canonicalCounts, requested]
  | cons kv c ih =>
    obtain ⟨k, n⟩ := kv
    rw [canonicalCounts, ih, dictGet_dictSet]
    unfold requested
    rw [List.reverse_cons, List.find?_append]
    cases c.reverse.find? fun kv => decide (kv.1.label = lab) with
    | some x => simp
    | none =>
      by_cases h : lab = k.label
      · simp [h]
      · simp [h, Ne.symm h, eq_comm]

theorem canonicalCounts_nodup (c : List (Specie × Int)) (acc : List (String × Int))
    (h : (dictKeys acc).Nodup) : (dictKeys (canonicalCounts c acc)).Nodup := by
  induction c generalizing acc with
  | nil => exact h
  | cons kv c ih => exact ih _ (dictKeys_dictSet_nodup acc _ _ h)

theorem counterEq_iff (labels : List String) (c : List (Specie × Int)) :
    counterEq labels (canonicalCounts c []) = true ↔
      ∀ lab, requested c lab = if lab ∈ labels then some (labels.count lab : Int) else none := by
  have hget : ∀ lab, dictGet (canonicalCounts c []) lab = requested c lab := by
    intro lab; rw [canonicalCounts_get]; simp [dictGet]
  have hnd : (dictKeys (canonicalCounts c [])).Nodup := canonicalCounts_nodup c [] (by simp [dictKeys])
  have hnd2 : (dictKeys (Matcher.countLabels labels [])).Nodup :=
    Matcher.countLabels_nodup labels [] (by simp [dictKeys])
  have hk2 : ∀ lab, lab ∈ dictKeys (Matcher.countLabels labels []) ↔ lab ∈ labels := by
    intro lab; rw [Matcher.countLabels_keys]; simp [dictKeys]
  have hc2 : ∀ lab, (dictGet (Matcher.countLabels labels []) lab).getD 0 = labels.count lab := by
    intro lab; rw [Matcher.countLabels_get]; simp [dictGet]
  have hg2 : ∀ lab n, dictGet (Matcher.countLabels labels []) lab = some n → n = labels.count lab := by
    intro lab n h; rw [← hc2, h]; rfl
  unfold counterEq
  rw [Bool.and_eq_true, decide_eq_true_eq, List.all_eq_true]
  constructor
  · rintro ⟨h1, h2⟩ lab
    rw [← hget]
    by_cases hm : lab ∈ labels
    · rw [if_pos hm]
      have h3 := (dictGet_isSome_iff _ _).2 ((hk2 lab).2 hm)
      obtain ⟨n, hn⟩ := h3
      have h4 := h2 _ (mem_of_dictGet hn)
      simp only [decide_eq_true_eq] at h4
      rw [h4, hg2 lab n hn]
    · rw [if_neg hm]
      -- the keys of the counter are all keys, so there are no others
      rw [dictGet_eq_none_iff]
      intro hk
      apply hm
      rw [← hk2]
      have hsub : dictKeys (Matcher.countLabels labels []) ⊆ dictKeys (canonicalCounts c []) := by
        intro x hx
        obtain ⟨p, hp, rfl⟩ := List.mem_map.1 hx
        have h4 := h2 p hp
        simp only [decide_eq_true_eq] at h4
        rw [← dictGet_isSome_iff, h4]; exact ⟨_, rfl⟩
      have hperm := (List.subperm_of_subset hnd2 hsub).perm_of_length_le (by
        unfold dictKeys; rw [List.length_map, List.length_map]; omega)
      exact hperm.mem_iff.2 hk
  · intro h
    constructor
    · have hperm : (dictKeys (Matcher.countLabels labels [])).Perm (dictKeys (canonicalCounts c [])) := by
        rw [List.perm_ext_iff_of_nodup hnd2 hnd]
        intro lab
        rw [hk2, ← dictGet_isSome_iff, hget, h]
        split <;> simp_all
      have := hperm.length_eq
      unfold dictKeys at this
      rwa [List.length_map, List.length_map] at this
    · rintro ⟨lab, n⟩ hp
      have hn := dictGet_of_mem hnd2 hp
      have hm : lab ∈ labels := (hk2 lab).1 (List.mem_map_of_mem hp)
      simp only [decide_eq_true_eq]
      rw [hget, h, if_pos hm, hg2 lab n hn]

theorem bySite_eq (ps : List (Int × Specie)) (acc : List (Int × String))
    (hn : (ps.map (·.1)).Nodup) (hd : ∀ p ∈ ps, p.1 ∉ dictKeys acc) :
    bySite ps acc = acc ++ ps.map fun p => (p.1, p.2.label) := by
  induction ps generalizing acc with
  | nil => simp [bySite]
  | cons p ps ih =>
    obtain ⟨i, s⟩ := p
    rw [List.map_cons, List.nodup_cons] at hn
    have hset : ∀ (d : List (Int × String)) k v, k ∉ dictKeys d → dictSet d k v = d ++ [(k, v)] := by
      intro d k v
      induction d with
      | nil => intro _; rfl
      | cons q d ih =>
        intro hk
        obtain ⟨k', w⟩ := q
        simp only [dictKeys, List.map_cons, List.mem_cons, not_or] at hk
        rw [dictSet, if_neg (Ne.symm hk.1), ih hk.2]
        rfl
    rw [bySite, ih _ hn.2, hset _ _ _ (hd (i, s) (by simp))]
    · simp
    · intro q hq
      rw [dictSet_keys_mem]
      rintro (h | h)
      · exact hn.1 (List.mem_map.2 ⟨q, hq, h⟩)
      · exact hd q (by simp [hq]) h

theorem bySite_zip {vs : List Int} {c : List Specie} (hn : vs.Nodup) (hl : vs.length = c.length) :
    bySite (vs.zip c) [] = vs.zip (c.map (·.label)) := by
  rw [bySite_eq _ _ (by rw [List.map_fst_zip (by omega)]; exact hn) (by simp [dictKeys])]
  rw [List.nil_append, List.zip_map_right]
  rfl

theorem matchesCounts_iff {vs : List Int} {c : List Specie} (hn : vs.Nodup) (hl : vs.length = c.length)
    (counts : Option (List (Specie × Int))) :
    matchesCounts (bySite (vs.zip c) []) (counts.map fun c => canonicalCounts c []) = true ↔
      MeetsCounts counts (c.map (·.label)) := by
  rw [bySite_zip hn hl]
  cases counts with
  | none => simp [matchesCounts, MeetsCounts]
  | some d =>
    simp only [matchesCounts, Option.map_some, MeetsCounts, Option.some.injEq, forall_eq']
    rw [List.map_snd_zip (by rw [List.length_map]; omega), counterEq_iff]

/-! ### Writing the choices -/

theorem setItem_ok {o o' : Occupation} {k : Nat} {v : Int} (h : o.setItem (k : Int) v = (.ok (), o')) :
    k < o.data.length ∧ o' = ⟨o.basis, o.data.set k v⟩ := by
  unfold Occupation.setItem at h
  split at h
  · cases h
  · rename_i d hd
    obtain ⟨j, hj, rfl⟩ := pySet_ok_iff.1 hd
    have hlt := pyIdx_lt hj
    have := pyIdx_some_nonneg hj (by omega)
    have : j = k := by omega
    subst this
    injection h with h1 h2
    exact ⟨hlt, h2.symm⟩

theorem writeChoices_ok {l : Lattice P} {vs : List Int} {c : List Specie} {o o' : Occupation}
    (hn : vs.Nodup) (h0 : ∀ v ∈ vs, 0 ≤ v) (hl : vs.length = c.length)
    (h : writeChoices l (vs.zip c) o = .ok o') :
    o'.basis = o.basis ∧ o'.data.length = o.data.length ∧
    (∀ (k : Nat) v sp, vs[k]? = some v → c[k]? = some sp → ∃ i, IsState (allowedOn l v) sp i ∧
      o'.data[v.toNat]? = some (l.basis.stateValue (i : Int))) ∧
    ∀ j : Nat, (j : Int) ∉ vs → o'.data[j]? = o.data[j]? := by
  induction vs generalizing c o with
  | nil =>
    simp only [List.zip_nil_left, writeChoices] at h
    cases h
    exact ⟨rfl, rfl, by simp, by simp⟩
  | cons v vs ih =>
    cases c with
    | nil => simp at hl
    | cons s c =>
      rw [List.nodup_cons] at hn
      rw [List.zip_cons_cons, writeChoices] at h
      split at h
      · cases h
      · rename_i al hg
        split at h
        · cases h
        · rename_i x hx
          split at h
          · cases h
          · rename_i o1 ho1
            have hv0 := h0 v (by simp)
            obtain ⟨k, rfl⟩ := Int.eq_ofNat_of_zero_le hv0
            obtain ⟨hk, rfl⟩ := setItem_ok ho1
            obtain ⟨h1, h2, h3, h4⟩ := ih hn.2 (fun w hw => h0 w (by simp [hw])) (by simpa using hl) h
            obtain ⟨la, i, rfl, hst, rfl⟩ := (Lattice.occupationValue_iff _ _ _ _).1 hx
            obtain ⟨j, hj1, hj2⟩ := pyGet_ok_iff.1 hg
            have hj := pyIdx_some_nonneg hj1 hv0
            have : j = k := by omega
            subst this
            refine ⟨h1, by simpa using h2, ?_, ?_⟩
            · intro m v' sp hm1 hm2
              cases m with
              | zero =>
                simp at hm1 hm2
                subst hm1 hm2
                refine ⟨i, by rw [allowedOn_of hj2]; exact hst, ?_⟩
                rw [Int.toNat_natCast, h4 j hn.1, List.getElem?_set_self hk]
              | succ m => exact h3 m v' sp (by simpa using hm1) (by simpa using hm2)
            · intro m hm
              rw [List.mem_cons, not_or] at hm
              rw [h4 m hm.2]
              exact List.getElem?_set_ne (by omega)

theorem occupationValue_error {b : Basis} {al : List Specie} {sp : Specie} {e : PyErr}
    (h : Lattice.occupationValue b (some al) sp = .error e) : ∀ a ∈ al, sp.equivalent a = false := by
  unfold Lattice.occupationValue at h
  cases al with
  | nil => simp
  | cons s ss =>
    simp only at h
    split at h
    · cases h
    · rename_i hno
      exact (Lattice.firstEquivalent_none sp (s :: ss)).1 hno

theorem writeChoices_of {l : Lattice P} {vs : List Int} {c : List Specie} {o : Occupation}
    (hv : ∀ v ∈ vs, 0 ≤ v ∧ v.toNat < o.data.length ∧ l.allowed[v.toNat]? = some (some (allowedOn l v)))
    (hc : List.Forall₂ (fun v sp => sp ∈ allowedOn l v) vs c)
    (hval : o.data.all o.basis.validValue = true)
    (hvalid : ∀ v ∈ vs, ∀ i : Nat, i < (allowedOn l v).length → o.basis.validValue (l.basis.stateValue (i : Int)) = true) :
    ∃ o', writeChoices l (vs.zip c) o = .ok o' := by
  induction hc generalizing o with
  | nil => exact ⟨o, rfl⟩
  | @cons v sp vs c hm _ ih =>
    obtain ⟨h1, h2, h3⟩ := hv v (by simp)
    obtain ⟨k, rfl⟩ := Int.eq_ofNat_of_zero_le h1
    rw [Int.toNat_natCast] at h2 h3
    rw [List.zip_cons_cons, writeChoices, pyGet_natCast h3]
    simp only
    cases hx : Lattice.occupationValue l.basis (some (allowedOn l ↑k)) sp with
    | error e =>
      exfalso
      have := occupationValue_error hx sp hm
      rw [sp.equivalent_refl] at this
      cases this
    | ok x =>
      simp only
      obtain ⟨la, i, hla, ⟨⟨a, ha, -⟩, -⟩, rfl⟩ := (Lattice.occupationValue_iff _ _ _ _).1 hx
      cases hla
      have hi : i < (allowedOn l ↑k).length := by
        by_contra hcc; rw [List.getElem?_eq_none (by omega)] at ha; cases ha
      have hvv := hvalid _ (List.mem_cons_self ..) i hi
      have hall : (o.data.set k (l.basis.stateValue (i : Int))).all o.basis.validValue = true := by
        rw [List.all_eq_true] at hval ⊢
        intro y hy
        rcases List.mem_or_eq_of_mem_set hy with hy | rfl
        · exact hval y hy
        · exact hvv
      have hset : o.setItem (k : Int) (l.basis.stateValue (i : Int)) =
          (.ok (), ⟨o.basis, o.data.set k (l.basis.stateValue (i : Int))⟩) := by
        unfold Occupation.setItem
        rw [pySet_of_idx (pyIdx_nonneg (by omega) (by omega : ((k : Int)) < (o.data.length : Int)))]
        simp only [Int.toNat_natCast, Occupation.validate, hall, if_true]
      rw [hset]
      simp only
      exact ih (fun w hw => by
        obtain ⟨a1, a2, a3⟩ := hv w (by simp [hw])
        exact ⟨a1, by simpa using a2, a3⟩) hall (fun w hw => hvalid w (by simp [hw]))

/-! ### The atoms -/

theorem speciesOn_ok {l : Lattice P} {o : Occupation} {a : Nat} {sp : Specie}
    (h : speciesOn l o a = .ok sp) : SiteSpeciesIs l o.data a sp := by
  unfold speciesOn at h
  split at h
  · cases h
  · rename_i v hv
    split at h
    · cases h
    · rename_i al hal
      obtain ⟨la, i, rfl, h1, rfl⟩ := Lattice.speciesFor_ok h
      have key : ∀ {α : Type} {xs : List α} {x : α}, pyGet xs (a : Int) = .ok x → xs[a]? = some x := by
        intro α xs x hx
        obtain ⟨j, hj1, hj2⟩ := pyGet_ok_iff.1 hx
        have hj := pyIdx_some_nonneg hj1 (by omega)
        have : j = a := by omega
        subst this
        exact hj2
      exact ⟨la, i, key hal, h1, key hv⟩

theorem speciesOn_of {l : Lattice P} {o : Occupation} {a k : Nat} {al : List Specie} {sp : Specie}
    (h1 : l.allowed[a]? = some (some al)) (h2 : al[k]? = some sp)
    (h3 : o.data[a]? = some (l.basis.stateValue (k : Int))) (ht : TellsApart l.basis al.length) :
    speciesOn l o a = .ok sp := by
  unfold speciesOn Occupation.getItem
  rw [pyGet_natCast h3, pyGet_natCast h1]
  exact Lattice.speciesFor_of ht h2

theorem atomsFrom_ok {l : Lattice P} {order : ActiveSiteOrder σ φ} {o : Occupation}
    (hn : order.activeToOriginal.Nodup) {i : Nat} {full out : List (Specie × P)}
    (h : atomsFrom l order o i full = .ok out) : AtomsOf l order o.data i full out := by
  induction full generalizing i out with
  | nil => unfold atomsFrom at h; cases h; exact .nil i
  | cons sp full ih =>
    obtain ⟨s, p⟩ := sp
    unfold atomsFrom at h
    split at h
    · rename_i hg
      split at h
      · cases h
      · rename_i as has
        cases h
        refine .fixed i s p full as ?_ (ih has)
        intro hm
        obtain ⟨k, hk⟩ := List.getElem?_of_mem hm
        rw [(originalToActive_iff hn i k).2 hk] at hg
        cases hg
    · rename_i a hg
      have ha := (originalToActive_iff hn i a).1 hg
      split at h
      · cases h
      · rename_i x hx
        split at h
        · cases h
        · rename_i as has
          cases h
          cases hv : x.isVacancy with
          | true => exact .vacant i a s x p full as ha (speciesOn_ok hx) hv (ih has)
          | false => exact .atom i a s x p full as ha (speciesOn_ok hx) hv (ih has)

theorem atomsFrom_of {l : Lattice P} {order : ActiveSiteOrder σ φ} {o : Occupation}
    (hs : ∀ a, a < order.activeToOriginal.length → ∃ sp, speciesOn l o a = .ok sp)
    (hn : order.activeToOriginal.Nodup) (i : Nat) (full : List (Specie × P)) :
    ∃ out, atomsFrom l order o i full = .ok out := by
  induction full generalizing i with
  | nil => exact ⟨[], rfl⟩
  | cons sp full ih =>
    obtain ⟨s, p⟩ := sp
    obtain ⟨out, hout⟩ := ih (i + 1)
    unfold atomsFrom
    split
    · exact ⟨_, by rw [hout]⟩
    · rename_i a hg
      have ha := (originalToActive_iff hn i a).1 hg
      obtain ⟨x, hx⟩ := hs a (by
        by_contra hc; rw [List.getElem?_eq_none (by omega)] at ha; cases ha)
      exact ⟨_, by rw [hx]; simp only [hout]; rfl⟩

/-! ### The loop -/

/-- Building results one after the other. -/
def buildAll (f : List Specie → Py (Result P)) : List (List Specie) → Py (List (Result P))
  | [] => .ok []
  | c :: cs =>
    match f c with
    | .error e => .error e
    | .ok r =>
      match buildAll f cs with
      | .error e => .error e
      | .ok rs => .ok (r :: rs)

theorem buildAll_ok {f : List Specie → Py (Result P)} {cs : List (List Specie)} {rs : List (Result P)}
    (h : buildAll f cs = .ok rs) : List.Forall₂ (fun c r => f c = .ok r) cs rs := by
  induction cs generalizing rs with
  | nil => unfold buildAll at h; cases h; exact .nil
  | cons c cs ih =>
    unfold buildAll at h
    split at h
    · cases h
    · rename_i r hr
      split at h
      · cases h
      · rename_i rs' hrs
        cases h
        exact .cons hr (ih hrs)

theorem buildAll_of {f : List Specie → Py (Result P)} {cs : List (List Specie)} {rs : List (Result P)}
    (h : List.Forall₂ (fun c r => f c = .ok r) cs rs) : buildAll f cs = .ok rs := by
  induction h with
  | nil => rfl
  | cons h1 _ ih => simp [buildAll, h1, ih]

theorem buildAll_append (f : List Specie → Py (Result P)) (cs ds : List (List Specie)) :
    buildAll f (cs ++ ds) =
      match buildAll f cs with
      | .error e => .error e
      | .ok rs =>
        match buildAll f ds with
        | .error e => .error e
        | .ok rs' => .ok (rs ++ rs') := by
  induction cs with
  | nil =>
    simp only [List.nil_append, buildAll]
    cases buildAll f ds <;> rfl
  | cons c cs ih =>
    simp only [List.cons_append, buildAll, ih]
    cases f c with
    | error e => rfl
    | ok r =>
      simp only
      cases buildAll f cs with
      | error e => rfl
      | ok rs =>
        simp only
        cases buildAll f ds <;> rfl

/-- The loop builds the first `maxResults` matching choices. -/
theorem enumLoop_eq (l : Lattice P) (order : ActiveSiteOrder σ φ) (full : List (Specie × P))
    (base : Occupation) (is vs : List Int) (counts : Option (List (String × Int))) (m : Int)
    (cs : List (List Specie)) (acc : List (Result P)) (hacc : (acc.length : Int) < m) :
    enumLoop l order full base is vs counts m cs acc =
      match buildAll (buildChoice l order full base is vs)
          ((cs.filter fun c => matchesCounts (bySite (vs.zip c) []) counts).take (m.toNat - acc.length)) with
      | .error e => .error e
      | .ok rs => .ok (acc ++ rs) := by
  induction cs generalizing acc with
  | nil => simp [enumLoop, buildAll]
  | cons c cs ih =>
    unfold enumLoop
    rw [List.filter_cons]
    cases hc : matchesCounts (bySite (vs.zip c) []) counts with
    | false =>
      simp only [Bool.not_false, if_true]
      rw [ih acc hacc]
      simp
    | true =>
      simp only [Bool.not_true, Bool.false_eq_true, if_false, if_true]
      obtain ⟨n, hn⟩ : ∃ n, m.toNat - acc.length = n + 1 := ⟨m.toNat - acc.length - 1, by omega⟩
      rw [hn, List.take_succ_cons, buildAll]
      cases hb : buildChoice l order full base is vs c with
      | error e => rfl
      | ok r =>
        simp only
        by_cases hm : m ≤ ((acc ++ [r]).length : Int)
        · rw [if_pos hm]
          have : n = 0 := by
            rw [List.length_append, List.length_singleton] at hm
            omega
          subst this
          simp [buildAll]
        · rw [if_neg hm, ih _ (by omega)]
          have : m.toNat - (acc ++ [r]).length = n := by
            rw [List.length_append, List.length_singleton]
            omega
          rw [this]
          generalize buildAll (buildChoice l order full base is vs) _ = b
          cases b with
          | error e => rfl
          | ok rs => simp

end Enumerator
end KMC
