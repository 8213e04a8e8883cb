import Verif.Props.EnumeratorProps
import Verif.Spec.EnumeratorTransform
/-
Lemmas on the enumeration through a transformation.
-/
namespace KMC
namespace Enumerator
open Spec
variable {P K σ φ : Type}

theorem validState {template : List (Specie × P)} {mapping : List (Specie × List Specie)} {bt : String}
    {l : Lattice P} (hl : Lattice.mk' template mapping bt = .ok l) {al : List Specie}
    (ha : some al ∈ l.allowed) {i : Nat} (hi : i < al.length) :
    l.basis.validValue (l.basis.stateValue (i : Int)) = true := by
  obtain ⟨-, -, -, -, hmax⟩ := Lattice.mk'_ok hl
  cases hb : l.basis with
  | occupation => simp only [Basis.stateValue]; split <;> rfl
  | chebyshev mm =>
    have := hmax mm hb al ha
    show decide (0 ≤ (i : Int) ∧ (i : Int) < mm) = true
    rw [decide_eq_true_eq]
    omega

theorem validBase {template : List (Specie × P)} {mapping : List (Specie × List Specie)} {bt : String}
    {l : Lattice P} (hl : Lattice.mk' template mapping bt = .ok l) {base : Occupation}
    (hb : base.basis = l.basis) (hs : StatesOf l.basis l.allowed base.data) :
    base.data.all base.basis.validValue = true := by
  rw [List.all_eq_true]
  intro x hx
  obtain ⟨j, hj⟩ := List.getElem?_of_mem hx
  have hjl : j < base.data.length := by
    by_contra hcc; rw [List.getElem?_eq_none (by omega)] at hj; cases hj
  have hlen := hs.length_eq
  have hb' := hs.get (i := j) (by omega) hjl
  simp only [List.get_eq_getElem] at hb'
  obtain ⟨al, i, e1, e2, e3⟩ := hb'
  rw [List.getElem?_eq_getElem hjl] at hj
  cases hj
  rw [e3, hb]
  exact validState hl (by rw [← e1]; exact List.getElem_mem _) e2

theorem state_unique {b : Basis} {al : List Specie} (hd : Distinguishable al)
    (ht : TellsApart b al.length) {sp : Specie} (hsp : sp ∈ al) {i : Nat} (hi : IsState al sp i)
    {k : Nat} {a : Specie} (ha : al[k]? = some a) (hv : b.stateValue (i : Int) = b.stateValue (k : Int)) :
    a = sp ∧ i = k := by
  obtain ⟨⟨a', ha', he⟩, -⟩ := hi
  have hil : i < al.length := by
    by_contra hcc; rw [List.getElem?_eq_none (by omega)] at ha'; cases ha'
  have hkl : k < al.length := by
    by_contra hcc; rw [List.getElem?_eq_none (by omega)] at ha; cases ha
  have hik := ht i k hil hkl hv
  subst hik
  rw [ha] at ha'
  cases ha'
  refine ⟨?_, rfl⟩
  obtain ⟨m, hm⟩ := List.getElem?_of_mem hsp
  have hml : m < al.length := by
    by_contra hcc; rw [List.getElem?_eq_none (by omega)] at hm; cases hm
  rw [List.getElem?_eq_getElem hml] at hm
  rw [List.getElem?_eq_getElem hil] at ha
  cases hm; cases ha
  by_contra hne
  have hne' : m ≠ i := by rintro rfl; exact hne rfl
  have hp := List.pairwise_iff_getElem.1 hd
  rcases Nat.lt_or_gt_of_ne hne' with h | h
  · rw [hp m i hml hil h] at he; cases he
  · have := hp i m hil hml h
    rw [Specie.equivalent_symm, this] at he; cases he

theorem speciesBySite_of {l : Lattice P} {o : Occupation} {vs : List Int} {c : List Specie}
    (h : List.Forall₂ (fun v sp => speciesAtIndex l o v = .ok sp) vs c) (acc : List (Int × String)) :
    speciesBySite l o vs acc = .ok (bySite (vs.zip c) acc) := by
  induction h generalizing acc with
  | nil => rfl
  | cons h1 _ ih =>
    unfold speciesBySite
    rw [h1]
    exact ih _

/-- The own cell of the template, as the sites of a supercell. -/
def ownCell (l : Lattice P) : List (Nat × P) := l.template.zipIdx.map fun x => (x.2, x.1.2)

theorem ownCell_sites (l : Lattice P) : SameSites l (ownCell l) l.template := by
  unfold SameSites ownCell
  rw [List.map_map]
  apply List.ext_getElem?
  intro i
  rw [List.getElem?_map, List.getElem?_map, List.getElem?_zipIdx]
  cases h : l.template[i]? with
  | none => rfl
  | some s => simp [h]

theorem orders_written [LinearOrder K] [Zero K] {template : List (Specie × P)}
    {mapping : List (Specie × List Specie)} {bt : String} {l : Lattice P}
    (hl : Lattice.mk' template mapping bt = .ok l)
    (hal : ∀ al, some al ∈ l.allowed → Distinguishable al ∧ TellsApart l.basis al.length)
    {base : Occupation} (hb : base.basis = l.basis) (hs : StatesOf l.basis l.allowed base.data)
    {dist : P → P → K} {tol : K} (ht : 0 ≤ tol) (hsep : Separated dist (l.template.map (·.2)))
    {vs : List Int} {c : List Specie} (hn : vs.Nodup)
    (hv : ∀ v ∈ vs, 0 ≤ v ∧ l.allowed[v.toNat]? = some (some (allowedOn l v)))
    (hc : List.Forall₂ (fun v sp => sp ∈ allowedOn l v) vs c) {atoms : List (Specie × P)}
    (h : Orders l base vs c atoms) :
    ∃ o, writeChoices l (vs.zip c) base = .ok o ∧
      Lattice.getOcc l dist tol (ownCell l) true atoms none = .ok o ∧
      speciesBySite l o vs [] = .ok (bySite (vs.zip c) []) := by
  obtain ⟨htm, hmap, hall, -, -⟩ := Lattice.mk'_ok hl
  have hall' : l.allowed = l.template.map fun s => Lattice.allowedFor l.siteMapping s.1 := by
    rw [hall, htm, hmap]
  have hlen : l.allowed.length = l.template.length := by rw [hall', List.length_map]
  have hblen : base.data.length = l.template.length := by rw [← hs.length_eq, hlen]
  have hvl : ∀ v ∈ vs, v.toNat < l.template.length := by
    intro v hvv
    have := (hv v hvv).2
    rw [← hlen]
    by_contra hcc; rw [List.getElem?_eq_none (by omega)] at this; cases this
  have hval := validBase hl hb hs
  obtain ⟨o, ho⟩ := writeChoices_of (l := l) (o := base) (vs := vs) (c := c)
    (fun v hvv => ⟨(hv v hvv).1, by rw [hblen]; exact hvl v hvv, (hv v hvv).2⟩) hc hval (by
      intro v hvv i hi
      rw [hb]
      exact validState hl (List.mem_of_getElem? (hv v hvv).2) hi)
  obtain ⟨w1, w2, w3, w4⟩ := writeChoices_ok hn (fun v hvv => (hv v hvv).1) hc.length_eq ho
  obtain ⟨sps, g1, g2, g3, g4⟩ := h
  -- every site shows its species
  have hsite : ∀ j, j < l.template.length → ∃ (al : List Specie) (i : Nat) (sp : Specie),
      l.allowed[j]? = some (some al) ∧ al[i]? = some sp ∧ sps[j]? = some sp ∧
      o.data[j]? = some (l.basis.stateValue (i : Int)) := by
    intro j hj
    by_cases hm : (j : Int) ∈ vs
    · obtain ⟨k, hk⟩ := List.getElem?_of_mem hm
      have hkl : k < vs.length := by
        by_contra hcc; rw [List.getElem?_eq_none (by omega)] at hk; cases hk
      have hkc : k < c.length := by rw [← hc.length_eq]; exact hkl
      obtain ⟨i, hi, hd⟩ := w3 k (j : Int) c[k] hk (List.getElem?_eq_getElem hkc)
      have hmem := hc.get hkl hkc
      simp only [List.get_eq_getElem] at hmem
      rw [List.getElem?_eq_getElem hkl] at hk
      have hk' : vs[k] = (j : Int) := Option.some.inj hk
      rw [hk'] at hmem
      have ha := (hv _ hm).2
      rw [Int.toNat_natCast] at ha hd
      obtain ⟨hdis, htell⟩ := hal _ (List.mem_of_getElem? ha)
      obtain ⟨a, ha1, ha2⟩ := hi.1
      have := (state_unique hdis htell hmem hi ha1 rfl).1
      subst this
      refine ⟨_, i, c[k], ha, ha1, ?_, hd⟩
      have := g2 k (j : Int) c[k] (by rw [List.getElem?_eq_getElem hkl, hk']) (List.getElem?_eq_getElem hkc)
      rwa [Int.toNat_natCast] at this
    · obtain ⟨sp, h1, al, i, h2, h3, h4⟩ := g3 j hj hm
      exact ⟨al, i, sp, h2, h3, h1, by rw [w4 j hm]; exact h4⟩
  have hallow : ∀ (j : Nat) al, l.allowed[j]? = some (some al) → Distinguishable al ∧ TellsApart l.basis al.length :=
    fun j al hj => hal al (List.mem_of_getElem? hj)
  have hst : StatesOf l.basis l.allowed o.data := by
    unfold StatesOf
    rw [List.forall₂_iff_get]
    refine ⟨by rw [w2]; exact hs.length_eq, ?_⟩
    intro j h1 h2
    obtain ⟨al, i, sp, e1, e2, -, e4⟩ := hsite j (by omega)
    simp only [List.get_eq_getElem]
    rw [List.getElem?_eq_getElem h1] at e1
    rw [List.getElem?_eq_getElem h2] at e4
    refine ⟨al, i, Option.some.inj e1, ?_, Option.some.inj e4⟩
    by_contra hcc; rw [List.getElem?_eq_none (by omega)] at e2; cases e2
  refine ⟨o, ho, ?_, ?_⟩
  · have hne : l.template ≠ [] := by
      intro hnil
      have h0 : template = [] := by rw [← htm, hnil]
      subst h0
      unfold Lattice.mk' at hl
      simp [Lattice.maxStates] at hl
    have hsame := ownCell_sites l
    have hl' : Lattice.mk' l.template l.siteMapping bt = .ok l := by rw [htm, hmap]; exact hl
    obtain ⟨st, hst1, hst2⟩ := Lattice.C72_occupation_round_trip hl' hsame ht hsep
      (diag := (1, 1, 1)) (by simp [Lattice.copiedLength, hlen]) hne
      (by
        intro s hsm al hsal
        refine hal al ?_
        rw [hall']
        exact List.mem_map.2 ⟨s, hsm, hsal⟩)
      (o := o) (w1.trans hb) (by rw [← hall']; exact hst)
    obtain ⟨sps', h1, h2, h3, h4⟩ := Lattice.C72_occupation_to_structure hst1
    have hspseq : sps' = sps := by
      apply List.ext_getElem?
      intro j
      by_cases hj : j < l.template.length
      · obtain ⟨al, i, sp, e1, e2, e3, e4⟩ := hsite j hj
        rw [e3]
        have hz : j < (o.data.zip sps').length := by rw [List.length_zip]; omega
        have hx := h1.get hj hz
        simp only [List.get_eq_getElem, List.getElem_zip] at hx
        obtain ⟨al', i', f1, f2, f3⟩ := hx
        have : l.allowed[j]? = some (some al') := by
          rw [hall', List.getElem?_map, List.getElem?_eq_getElem hj]
          exact congrArg some f1
        rw [this] at e1
        cases e1
        rw [List.getElem?_eq_getElem (by omega)] at e4
        rw [Option.some.inj e4] at f3
        have hil : i < al.length := by
          by_contra hcc; rw [List.getElem?_eq_none (by omega)] at e2; cases e2
        have hil' : i' < al.length := by
          by_contra hcc; rw [List.getElem?_eq_none (by omega)] at f2; cases f2
        have := (hallow j al this).2 i i' hil hil' f3
        subst this
        rw [List.getElem?_eq_getElem (by omega), ← f2, e2]
      · rw [List.getElem?_eq_none (by omega), List.getElem?_eq_none (by omega)]
    subst hspseq
    rw [h4] at hst2
    exact Lattice.C72_atom_order_irrelevant (Lattice.sameSites_allowed hl' hsame).1 g4.symm hst2
  · apply speciesBySite_of
    rw [List.forall₂_iff_get]
    refine ⟨hc.length_eq, ?_⟩
    intro k h1 h2
    simp only [List.get_eq_getElem]
    have hm : vs[k] ∈ vs := List.getElem_mem h1
    obtain ⟨al, i, sp, e1, e2, e3, e4⟩ := hsite _ (hvl _ hm)
    have := g2 k vs[k] c[k] (List.getElem?_eq_getElem h1) (List.getElem?_eq_getElem h2)
    rw [e3] at this
    cases this
    have h0 := (hv _ hm).1
    have := speciesOn_of e1 e2 e4 (hallow _ _ e1).2
    unfold speciesOn at this
    rw [Int.toNat_of_nonneg h0] at this
    exact this

/-- The loop over orderings is the loop over the assignments they show. -/
theorem transformLoop_eq [LinearOrder K] [Zero K] {template : List (Specie × P)}
    {mapping : List (Specie × List Specie)} {bt : String} {l : Lattice P}
    (hl : Lattice.mk' template mapping bt = .ok l)
    (hal : ∀ al, some al ∈ l.allowed → Distinguishable al ∧ TellsApart l.basis al.length)
    {base : Occupation} (hb : base.basis = l.basis) (hs : StatesOf l.basis l.allowed base.data)
    {dist : P → P → K} {tol : K} (ht : 0 ≤ tol) (hsep : Separated dist (l.template.map (·.2)))
    {vs : List Int} (hn : vs.Nodup)
    (hv : ∀ v ∈ vs, 0 ≤ v ∧ l.allowed[v.toNat]? = some (some (allowedOn l v)))
    (order : ActiveSiteOrder σ φ) (full : List (Specie × P)) (localSites : List Int)
    (counts : Option (List (String × Int))) (m : Int) {es : List (FoundEntry P)} {cs : List (List Specie)}
    (hc : ∀ c ∈ cs, List.Forall₂ (fun v sp => sp ∈ allowedOn l v) vs c)
    (h : List.Forall₂ (EntryOrders l base vs) es cs) (acc : List (Result P)) :
    transformLoop l dist tol order full localSites vs counts m es acc =
      enumLoop l order full base localSites vs counts m cs acc := by
  induction h generalizing acc with
  | nil => rfl
  | @cons e c es cs h1 _ ih =>
    obtain ⟨s, hes, ⟨hlat, hsup⟩, hord⟩ := h1
    obtain ⟨o, ho1, ho2, ho3⟩ := orders_written hl hal hb hs ht hsep hn hv (hc c (by simp)) hord
    have ih := ih fun d hd => hc d (by simp [hd])
    unfold transformLoop enumLoop
    have hent : entryStructure e = .ok s := by rcases hes with rfl | rfl <;> rfl
    have hread : readFound l dist tol s = .ok o := by
      unfold readFound
      rw [hsup]
      simp only
      rw [hlat]
      exact ho2
    rw [hent]
    simp only [hread, ho3]
    split
    · exact ih acc
    · simp only [buildChoice, ho1]
      cases build l order full o localSites vs (bySite (vs.zip c) []) with
      | error e => rfl
      | ok r =>
        simp only
        split
        · rfl
        · exact ih _

/-- The entries are looked at one after the other until the limit is reached. -/
theorem transformLoop_append [LinearOrder K] (l : Lattice P) (dist : P → P → K) (tol : K)
    (order : ActiveSiteOrder σ φ) (full : List (Specie × P)) (is vs : List Int)
    (counts : Option (List (String × Int))) (m : Int) (es fs : List (FoundEntry P))
    (acc : List (Result P)) (hacc : (acc.length : Int) < m) :
    transformLoop l dist tol order full is vs counts m (es ++ fs) acc =
      match transformLoop l dist tol order full is vs counts m es acc with
      | .error e => .error e
      | .ok rs => if m ≤ (rs.length : Int) then .ok rs
        else transformLoop l dist tol order full is vs counts m fs rs := by
  induction es generalizing acc with
  | nil =>
    rw [List.nil_append]
    simp only [transformLoop]
    rw [if_neg (by omega)]
  | cons e es ih =>
    rw [List.cons_append]
    simp only [transformLoop]
    cases entryStructure e with
    | error err => rfl
    | ok s =>
      simp only
      cases readFound l dist tol s with
      | error err => rfl
      | ok o =>
        simp only
        cases speciesBySite l o vs [] with
        | error err => rfl
        | ok by' =>
          simp only
          cases matchesCounts by' counts with
          | false => simpa using ih acc hacc
          | true =>
            simp only [Bool.not_true, Bool.false_eq_true, if_false]
            cases build l order full o is vs by' with
            | error err => rfl
            | ok r =>
              simp only
              by_cases hm : m ≤ ((acc ++ [r]).length : Int)
              · rw [if_pos hm, if_pos hm]; simp only; rw [if_pos hm]
              · rw [if_neg hm, if_neg hm]; exact ih _ (by omega)

theorem transformLoop_grows [LinearOrder K] {l : Lattice P} {dist : P → P → K} {tol : K}
    {order : ActiveSiteOrder σ φ} {full : List (Specie × P)} {is vs : List Int}
    {counts : Option (List (String × Int))} {m : Int} {es : List (FoundEntry P)}
    {acc rs : List (Result P)} (h : transformLoop l dist tol order full is vs counts m es acc = .ok rs) :
    ∃ new, rs = acc ++ new := by
  induction es generalizing acc with
  | nil => unfold transformLoop at h; cases h; exact ⟨[], by simp⟩
  | cons e es ih =>
    unfold transformLoop at h
    split at h
    · cases h
    · split at h
      · cases h
      · split at h
        · cases h
        · split at h
          · exact ih h
          · split at h
            · cases h
            · split at h
              · cases h; exact ⟨_, rfl⟩
              · obtain ⟨new, hnew⟩ := ih h
                exact ⟨_, by rw [hnew, List.append_assoc]⟩

theorem transformLoop_limit [LinearOrder K] {l : Lattice P} {dist : P → P → K} {tol : K}
    {order : ActiveSiteOrder σ φ} {full : List (Specie × P)} {is vs : List Int}
    {counts : Option (List (String × Int))} {m m' : Int} (hmm : m ≤ m') {es : List (FoundEntry P)}
    {acc rs : List (Result P)} (hacc : (acc.length : Int) < m)
    (h : transformLoop l dist tol order full is vs counts m' es acc = .ok rs) :
    transformLoop l dist tol order full is vs counts m es acc = .ok (rs.take m.toNat) := by
  induction es generalizing acc with
  | nil =>
    unfold transformLoop at h ⊢
    cases h
    rw [List.take_of_length_le (by omega)]
  | cons e es ih =>
    unfold transformLoop at h ⊢
    split at h
    · cases h
    · split at h
      · cases h
      · split at h
        · cases h
        · split at h
          · rename_i hc
            simp only [hc, if_true]
            exact ih hacc h
          · rename_i hc
            simp only [hc, if_false]
            split at h
            · cases h
            · simp only [Bool.false_eq_true, if_false]
              split at h
              · rename_i hlim
                cases h
                rw [List.length_append, List.length_singleton] at hlim
                rw [if_pos (by rw [List.length_append, List.length_singleton]; omega),
                  List.take_of_length_le (by rw [List.length_append, List.length_singleton]; omega)]
              · split
                · rename_i hlim
                  obtain ⟨new, rfl⟩ := transformLoop_grows h
                  rw [List.length_append, List.length_singleton] at hlim
                  rw [List.take_append_of_le_length (by rw [List.length_append, List.length_singleton]; omega),
                    List.take_of_length_le (by rw [List.length_append, List.length_singleton]; omega)]
                · rename_i hlim
                  exact ih (by omega) h

theorem transformLoop_counts [LinearOrder K] {l : Lattice P} {dist : P → P → K} {tol : K}
    {order : ActiveSiteOrder σ φ} {full : List (Specie × P)} {is vs : List Int}
    (counts : Option (List (String × Int))) {m : Int} {es : List (FoundEntry P)}
    {acc rs : List (Result P)} (hrs : (rs.length : Int) < m)
    (h : transformLoop l dist tol order full is vs none m es acc = .ok rs) :
    ∃ new, rs = acc ++ new ∧ ∀ acc' : List (Result P), acc'.length ≤ acc.length →
      transformLoop l dist tol order full is vs counts m es acc' =
        .ok (acc' ++ new.filter fun r => matchesCounts r.speciesBySite counts) := by
  induction es generalizing acc with
  | nil => unfold transformLoop at h; cases h; exact ⟨[], by simp, fun acc' _ => by simp [transformLoop]⟩
  | cons e es ih =>
    unfold transformLoop at h
    split at h
    · cases h
    · rename_i s hs
      split at h
      · cases h
      · rename_i o ho
        split at h
        · cases h
        · rename_i by' hby
          rw [if_neg (by simp [matchesCounts])] at h
          split at h
          · cases h
          · rename_i r hr
            have hrby : r.speciesBySite = by' := by
              unfold build at hr
              split at hr
              · cases hr
              · split at hr
                · cases hr
                · split at hr
                  · cases hr
                  · cases hr; rfl
            split at h
            · rename_i hlim
              cases h
              omega
            · rename_i hlim
              obtain ⟨new, hnew, hrun⟩ := ih h
              refine ⟨r :: new, by rw [hnew, List.append_assoc]; rfl, ?_⟩
              intro acc' hacc'
              unfold transformLoop
              simp only [hs, ho, hby, hr]
              rw [List.filter_cons, hrby]
              cases hc : matchesCounts by' counts with
              | false =>
                simp only [Bool.not_false, if_true, Bool.false_eq_true, if_false]
                rw [hrun acc' (by rw [List.length_append, List.length_singleton]; omega)]
              | true =>
                simp only [Bool.not_true, Bool.false_eq_true, if_false, if_true]
                rw [List.length_append, List.length_singleton] at hlim
                rw [if_neg (by rw [List.length_append, List.length_singleton]; omega),
                  hrun (acc' ++ [r]) (by simp only [List.length_append, List.length_singleton]; omega),
                  List.append_assoc]
                rfl

/-! ### The disordered structure -/

theorem fractions_eq (share : ℚ) {ss : List Specie} (hn : ss.Nodup) {acc : List (Specie × ℚ)}
    (hd : ∀ s ∈ ss, s ∉ dictKeys acc) :
    fractions share ss acc = acc ++ ss.map fun s => (s, share) := by
  induction ss generalizing acc with
  | nil => simp [fractions]
  | cons s ss ih =>
    rw [List.nodup_cons] at hn
    unfold fractions
    have hset := dictKeys_dictSet_of_not_mem acc share (hd s (by simp))
    rw [hset, ih hn.2]
    · simp
    · intro x hx hk
      simp only [dictKeys, List.map_append, List.map_cons, List.map_nil, List.mem_append, List.mem_singleton] at hk
      rcases hk with hk | rfl
      · exact hd x (by simp [hx]) hk
      · exact hn.1 hx

theorem partialEntry_ok {cs : List Specie} (hn : cs.Nodup) {entry : List (Specie × ℚ)}
    (h : partialEntry cs = .ok entry) :
    entry = (cs.filter fun s => !s.isVacancy).map (fun s => (s, 1 / (cs.length : ℚ))) ∧ entry ≠ [] := by
  unfold partialEntry at h
  have hnf : (cs.filter fun s => !s.isVacancy).Nodup := hn.filter _
  generalize cs.filter (fun s => !s.isVacancy) = real at h hnf
  cases real with
  | nil => cases h
  | cons s ss =>
    simp only [Except.ok.injEq] at h
    rw [fractions_eq _ hnf (by simp [dictKeys])] at h
    subst h
    simp

theorem partialEntry_of {cs : List Specie} (h : ∃ s ∈ cs, s.isVacancy = false) :
    ∃ entry, partialEntry cs = .ok entry := by
  obtain ⟨s, hs, hv⟩ := h
  unfold partialEntry
  cases hf : cs.filter fun s => !s.isVacancy with
  | nil =>
    have : s ∈ cs.filter fun s => !s.isVacancy := List.mem_filter.2 ⟨hs, by simp [hv]⟩
    rw [hf] at this
    cases this
  | cons a b => exact ⟨_, rfl⟩

theorem partialEntry_vacant {cs : List Specie} (h : ∀ s ∈ cs, s.isVacancy = true) :
    partialEntry cs = .error .valueError := by
  unfold partialEntry
  have : (cs.filter fun s => !s.isVacancy) = [] := by
    rw [List.filter_eq_nil_iff]
    intro s hs
    simp [h s hs]
  rw [this]

theorem disorderedFrom_ok {l : Lattice P} {base : Occupation} {vs : List Int}
    {ts : Option (List Specie)} (hd : ∀ v ∈ vs, (allowedOn l v).Nodup) {i : Nat}
    {sites : List (Specie × P)} {d : List (List (Specie × ℚ) × P)}
    (h : disorderedFrom l base vs ts i sites = .ok d) :
    ∃ entries : List (List (Specie × ℚ)), entries.length = sites.length ∧
      (∀ (j : Nat) entry, entries[j]? = some entry → SiteIsDisordered l base vs ts (i + j) entry) ∧
      (∀ (j : Nat) entry, entries[j]? = some entry → ((i + j : Nat) : Int) ∈ vs → entry ≠ []) ∧
      d = (entries.zip (sites.map (·.2))).filter fun x => !x.1.isEmpty := by
  induction sites generalizing i d with
  | nil =>
    unfold disorderedFrom at h
    cases h
    exact ⟨[], rfl, by simp, by simp, rfl⟩
  | cons s rest ih =>
    obtain ⟨s, p⟩ := s
    unfold disorderedFrom at h
    have wrap : ∀ (entry : List (Specie × ℚ)) (es : List (List (Specie × ℚ) × P)),
        SiteIsDisordered l base vs ts i entry → (((i : Nat) : Int) ∈ vs → entry ≠ []) →
        disorderedFrom l base vs ts (i + 1) rest = .ok es →
        d = (if entry.isEmpty then es else (entry, p) :: es) →
        ∃ entries : List (List (Specie × ℚ)), entries.length = ((s, p) :: rest).length ∧
          (∀ (j : Nat) entry, entries[j]? = some entry → SiteIsDisordered l base vs ts (i + j) entry) ∧
          (∀ (j : Nat) entry, entries[j]? = some entry → ((i + j : Nat) : Int) ∈ vs → entry ≠ []) ∧
          d = (entries.zip (((s, p) :: rest).map (·.2))).filter fun x => !x.1.isEmpty := by
      intro entry es h1 h2 h3 h4
      obtain ⟨entries, g1, g2, g3, g4⟩ := ih h3
      refine ⟨entry :: entries, by simp [g1], ?_, ?_, ?_⟩
      · intro j en hj
        cases j with
        | zero => simp at hj; subst hj; exact h1
        | succ j =>
          have := g2 j en (by simpa using hj)
          rwa [Nat.add_assoc, Nat.add_comm 1 j] at this
      · intro j en hj hm
        cases j with
        | zero => simp at hj; subst hj; exact h2 (by simpa using hm)
        | succ j =>
          exact g3 j en (by simpa using hj) (by rwa [Nat.add_assoc, Nat.add_comm 1 j])
      · rw [h4, List.map_cons, List.zip_cons_cons, List.filter_cons, g4]
        cases entry <;> simp
    split at h
    · rename_i hm
      have hmem : (i : Int) ∈ vs := by simpa using hm
      split at h
      · cases h
      · rename_i cs hcs
        obtain ⟨-, -, -, hsel, -⟩ := allowedChoices_ok hcs
        have hcn : cs.Nodup := by rw [hsel]; exact (hd _ hmem).sublist (selectChoices_sublist _ _)
        split at h
        · cases h
        · rename_i entry hen
          obtain ⟨e1, e2⟩ := partialEntry_ok hcn hen
          split at h
          · cases h
          · rename_i es hes
            cases h
            refine wrap entry es ?_ (fun _ => e2) hes ?_
            · unfold SiteIsDisordered
              rw [if_pos hmem, e1, hsel, selectChoices_eq]
              rfl
            · cases entry with
              | nil => exact absurd rfl e2
              | cons a b => rfl
    · rename_i hm
      have hmem : (i : Int) ∉ vs := by simpa using hm
      split at h
      · cases h
      · rename_i sp hsp
        split at h
        · cases h
        · rename_i es hes
          cases h
          refine wrap (if sp.isVacancy then [] else [(sp, 1)]) es ?_ (fun hc => absurd hc hmem) hes ?_
          · unfold SiteIsDisordered
            rw [if_neg hmem]
            exact ⟨sp, speciesOn_ok hsp, rfl⟩
          · cases sp.isVacancy <;> rfl

theorem disorderedFrom_of {l : Lattice P} {base : Occupation} {vs : List Int}
    {ts : Option (List Specie)}
    (hv : ∀ v ∈ vs, ∃ cs, allowedChoices l v ts = .ok cs ∧ ∃ s ∈ cs, s.isVacancy = false)
    (hs : ∀ a, a < l.template.length → ∃ sp, speciesOn l base a = .ok sp) {i : Nat}
    {sites : List (Specie × P)} (hi : i + sites.length ≤ l.template.length) :
    ∃ d, disorderedFrom l base vs ts i sites = .ok d := by
  induction sites generalizing i with
  | nil => exact ⟨[], rfl⟩
  | cons s rest ih =>
    obtain ⟨s, p⟩ := s
    rw [List.length_cons] at hi
    obtain ⟨es, hes⟩ := ih (i := i + 1) (by omega)
    unfold disorderedFrom
    split
    · rename_i hm
      obtain ⟨cs, hcs, hreal⟩ := hv (i : Int) (by simpa using hm)
      obtain ⟨en, hen⟩ := partialEntry_of hreal
      simp only [hcs, hen, hes]
      exact ⟨_, rfl⟩
    · obtain ⟨sp, hsp⟩ := hs i (by omega)
      simp only [hsp, hes]
      exact ⟨_, rfl⟩

theorem disorderedFrom_vacant {l : Lattice P} {base : Occupation} {vs : List Int}
    {ts : Option (List Specie)} {v : Nat} (hv : (v : Int) ∈ vs)
    (hvac : ∀ cs, allowedChoices l v ts = .ok cs → ∀ s ∈ cs, s.isVacancy = true) {i : Nat}
    {sites : List (Specie × P)} (hi : i ≤ v ∧ v < i + sites.length) (d : List (List (Specie × ℚ) × P)) :
    disorderedFrom l base vs ts i sites ≠ .ok d := by
  induction sites generalizing i d with
  | nil => simp at hi; omega
  | cons s rest ih =>
    obtain ⟨s, p⟩ := s
    rw [List.length_cons] at hi
    intro h
    unfold disorderedFrom at h
    by_cases hiv : i = v
    · subst hiv
      rw [if_pos (by simpa using hv)] at h
      split at h
      · cases h
      · rename_i cs hcs
        rw [partialEntry_vacant (hvac cs hcs)] at h
        cases h
    · have ih := ih (i := i + 1) (by omega)
      split at h
      · split at h
        · cases h
        · split at h
          · cases h
          · split at h
            · cases h
            · rename_i es hes
              exact ih es hes
      · split at h
        · cases h
        · split at h
          · cases h
          · rename_i es hes
            exact ih es hes

end Enumerator
end KMC
