import Verif.Lemmas.CompleteExpansion
import Verif.Props.LCESymmetryProps
/-
C125: what the coefficients of a cluster expansion are determined by, and what they can reproduce.
-/
namespace KMC
open Spec LCE

section
variable {L : Type} [LinearOrder L]

/-! ### From lists of states to functions on finite sets -/

/-- The number of states of local site `i`. -/
def siteStates (b : Basis) (counts : List Nat) (i : Fin counts.length) : Nat := stateCount b counts[i]

theorem siteStates_two {b : Basis} {counts : List Nat} (h2 : ∀ n ∈ counts, 2 ≤ n) (i : Fin counts.length) :
    2 ≤ siteStates b counts i := by
  have := h2 counts[i] (List.getElem_mem _)
  cases b with
  | occupation => exact le_refl 2
  | chebyshev k => exact this

/-- All functions of single sites. -/
noncomputable def siteFunctions (b : Basis) (counts : List Nat) (i : Fin counts.length)
    (k a : Fin (siteStates b counts i)) : ℝ := siteMonomial b counts i k a

theorem siteFunctions_complete {b : Basis} {counts : List Nat} (h2 : ∀ n ∈ counts, 2 ≤ n) (i : Fin counts.length)
    (f : Fin (siteStates b counts i) → ℝ) :
    ∃! c : Fin (siteStates b counts i) → ℝ, ∀ a, f a = ∑ k, c k * siteFunctions b counts i k a :=
  site_complete b counts i counts[i] (List.getElem?_eq_getElem i.isLt) (h2 _ (List.getElem_mem _)) f

/-- The product a decorated cluster stands for. -/
def choice {b : Basis} {counts : List Nat} (h2 : ∀ n ∈ counts, 2 ≤ n) (p : List Nat × List Nat)
    (i : Fin counts.length) : Fin (siteStates b counts i) :=
  if h : exponent p i < siteStates b counts i then ⟨exponent p i, h⟩
  else ⟨0, Nat.lt_of_lt_of_le Nat.zero_lt_two (siteStates_two h2 i)⟩

/-- No function on any site. -/
def noChoice {b : Basis} {counts : List Nat} (h2 : ∀ n ∈ counts, 2 ≤ n) (i : Fin counts.length) :
    Fin (siteStates b counts i) := ⟨0, Nat.lt_of_lt_of_le Nat.zero_lt_two (siteStates_two h2 i)⟩

theorem monomial_noChoice {b : Basis} {counts : List Nat} (h2 : ∀ n ∈ counts, 2 ≤ n)
    (x : ∀ i, Fin (siteStates b counts i)) : monomial (siteFunctions b counts) (noChoice h2) x = 1 := by
  unfold monomial siteFunctions siteMonomial noChoice
  simp

/-- A cluster with a function of each of its sites. -/
structure Decorated (b : Basis) (counts : List Nat) (p : List Nat × List Nat) : Prop where
  sorted : p.1.Pairwise (· < ·)
  sites : ∀ s ∈ p.1, s < counts.length
  some : p.1 ≠ []
  functions : List.Forall₂ (fun s f => f < b.numSiteBasisFunctions (counts[s]?.getD 0)) p.1 p.2

theorem Decorated.length {b : Basis} {counts : List Nat} {p : List Nat × List Nat} (h : Decorated b counts p) :
    p.1.length = p.2.length := h.functions.length_eq

theorem Decorated.distinct {b : Basis} {counts : List Nat} {p : List Nat × List Nat} (h : Decorated b counts p) :
    p.1.Nodup := h.sorted.imp fun h => Nat.ne_of_lt h

theorem Decorated.exponent_lt {b : Basis} {counts : List Nat} {p : List Nat × List Nat} (h : Decorated b counts p)
    (h2 : ∀ n ∈ counts, 2 ≤ n) (i : Fin counts.length) : exponent p i < siteStates b counts i := by
  cases he : exponent p i with
  | zero => exact Nat.lt_of_lt_of_le Nat.zero_lt_two (siteStates_two h2 i)
  | succ f =>
    rw [exponent_pos h.length h.distinct] at he
    obtain ⟨j, hj, hjf⟩ := List.mem_iff_getElem.1 he
    have hj1 : j < p.1.length := by simp at hj; omega
    have hj2 : j < p.2.length := by simp at hj; omega
    simp only [List.getElem_zip, Prod.mk.injEq] at hjf
    have := (List.forall₂_iff_get.1 h.functions).2 j hj1 hj2
    simp only [List.get_eq_getElem, hjf.1, hjf.2] at this
    rw [List.getElem?_eq_getElem i.isLt, Option.getD_some] at this
    exact function_lt (h2 _ (List.getElem_mem _)) this

theorem Decorated.choice_val {b : Basis} {counts : List Nat} {p : List Nat × List Nat} (h : Decorated b counts p)
    (h2 : ∀ n ∈ counts, 2 ≤ n) (i : Fin counts.length) : (choice (b := b) h2 p i).val = exponent p i := by
  unfold choice
  rw [dif_pos (h.exponent_lt h2 i)]

theorem Decorated.choice_ne {b : Basis} {counts : List Nat} {p : List Nat × List Nat} (h : Decorated b counts p)
    (h2 : ∀ n ∈ counts, 2 ≤ n) : choice (b := b) h2 p ≠ noChoice h2 := by
  intro he
  obtain ⟨s, hs⟩ := List.exists_mem_of_ne_nil _ h.some
  have hsl := h.sites s hs
  have h1 := h.choice_val h2 ⟨s, hsl⟩
  rw [he] at h1
  obtain ⟨j, hj, rfl⟩ := List.mem_iff_getElem.1 hs
  have hj2 : j < p.2.length := h.length ▸ hj
  have hm : (p.1[j], p.2[j]) ∈ p.1.zip p.2 := by
    rw [List.mem_iff_getElem]
    exact ⟨j, by simp; omega, by simp⟩
  have := (exponent_pos h.length h.distinct _ _).2 hm
  simp only [noChoice] at h1
  omega

theorem Decorated.choice_inj {b : Basis} {counts : List Nat} {p p' : List Nat × List Nat}
    (h : Decorated b counts p) (h' : Decorated b counts p') (h2 : ∀ n ∈ counts, 2 ≤ n)
    (he : choice (b := b) h2 p = choice h2 p') : p = p' := by
  refine exponent_inj h.length h'.length h.sorted h'.sorted fun i hi => ?_
  have hil : i < counts.length := hi.elim (h.sites i) (h'.sites i)
  have := congrArg Fin.val (congrFun he ⟨i, hil⟩)
  rwa [h.choice_val h2, h'.choice_val h2] at this

/-- The decorated cluster of a product. -/
def chosenSites {b : Basis} {counts : List Nat} (w : ∀ i, Fin (siteStates b counts i)) : List Nat :=
  (List.range counts.length).filter fun s => if h : s < counts.length then (w ⟨s, h⟩).val ≠ 0 else false

def decorationOf {b : Basis} {counts : List Nat} (w : ∀ i, Fin (siteStates b counts i)) : List Nat :=
  (chosenSites w).map fun s => if h : s < counts.length then (w ⟨s, h⟩).val - 1 else 0

theorem mem_chosenSites {b : Basis} {counts : List Nat} {w : ∀ i, Fin (siteStates b counts i)} {s : Nat} :
    s ∈ chosenSites w ↔ ∃ h : s < counts.length, (w ⟨s, h⟩).val ≠ 0 := by
  unfold chosenSites
  rw [List.mem_filter, List.mem_range]
  constructor
  · rintro ⟨h1, h2⟩
    rw [dif_pos h1] at h2
    exact ⟨h1, by simpa using h2⟩
  · rintro ⟨h1, h2⟩
    refine ⟨h1, ?_⟩
    rw [dif_pos h1]
    simpa using h2

theorem chosenSites_decorated {b : Basis} {counts : List Nat} (h2 : ∀ n ∈ counts, 2 ≤ n)
    {w : ∀ i, Fin (siteStates b counts i)} (hw : w ≠ noChoice h2) :
    Decorated b counts (chosenSites w, decorationOf w) ∧ choice h2 (chosenSites w, decorationOf w) = w := by
  have hd : Decorated b counts (chosenSites w, decorationOf w) := by
    refine ⟨?_, fun s hs => (mem_chosenSites.1 hs).1, ?_, ?_⟩
    · exact List.Pairwise.filter _ List.pairwise_lt_range
    · intro hnil
      apply hw
      funext i
      by_contra hne
      have : i.val ∈ chosenSites w := mem_chosenSites.2 ⟨i.isLt, fun h0 => hne (Fin.ext h0)⟩
      simp only at hnil
      rw [hnil] at this
      cases this
    · simp only [decorationOf]
      rw [List.forall₂_map_right_iff, List.forall₂_same]
      intro s hs
      obtain ⟨hsl, hne⟩ := mem_chosenSites.1 hs
      rw [dif_pos hsl, List.getElem?_eq_getElem hsl, Option.getD_some]
      apply lt_function
      have := (w ⟨s, hsl⟩).isLt
      simp only [siteStates] at this
      have h3 : (w ⟨s, hsl⟩).val < stateCount b counts[s] := this
      omega
  refine ⟨hd, ?_⟩
  funext i
  apply Fin.ext
  rw [hd.choice_val h2]
  by_cases h0 : (w i).val = 0
  · rw [h0]
    cases he : exponent (chosenSites w, decorationOf w) i with
    | zero => rfl
    | succ f =>
      rw [exponent_pos hd.length hd.distinct] at he
      obtain ⟨_, h⟩ := mem_chosenSites.1 (List.of_mem_zip he).1
      exact absurd h0 h
  · have : (w i).val = ((w i).val - 1) + 1 := by omega
    rw [this, exponent_pos hd.length hd.distinct]
    have hmem : i.val ∈ chosenSites w := mem_chosenSites.2 ⟨i.isLt, h0⟩
    simp only [decorationOf]
    obtain ⟨j, hj, hjs⟩ := List.mem_iff_getElem.1 hmem
    rw [List.mem_iff_getElem]
    refine ⟨j, by simpa using hj, ?_⟩
    rw [List.getElem_zip, List.getElem_map]
    have hji : (⟨(chosenSites w)[j], by rw [hjs]; exact i.isLt⟩ : Fin counts.length) = i := Fin.ext hjs
    rw [dif_pos (by rw [hjs]; exact i.isLt), hji]
    exact Prod.ext hjs rfl

/-- The states of the local sites as one point. -/
def InStates (b : Basis) (counts : List Nat) (x : Int → Int) (xs : ∀ i, Fin (siteStates b counts i)) : Prop :=
  ∀ i : Fin counts.length, x (i.val : Int) = ((xs i).val : Int)

theorem Decorated.value {b : Basis} {counts : List Nat} {p : List Nat × List Nat} (h : Decorated b counts p)
    (h2 : ∀ n ∈ counts, 2 ≤ n) {x : Int → Int} {xs : ∀ i, Fin (siteStates b counts i)}
    (hx : InStates b counts x xs) :
    ((p.1.zip p.2).map fun sf => siteValue b counts sf.1 (x sf.1) sf.2).prod =
      monomial (siteFunctions b counts) (choice h2 p) xs := by
  have h1 := exponent_prod (n := counts.length) (p := p)
    (fun i k => if k = 0 then (1 : ℝ) else siteValue b counts i (x i) (k - 1 : Nat)) (fun i => by simp) h.length
    h.distinct h.sites
  simp only [Nat.add_one_ne_zero, if_false, Nat.add_sub_cancel] at h1
  rw [← h1]
  unfold monomial siteFunctions siteMonomial
  refine Finset.prod_congr rfl fun i _ => ?_
  rw [h.choice_val h2, hx i]

/-- The value of a model with accepted parameters, as a combination of products. -/
theorem value_expansion {g : ClusterGeometry L} {b : Basis} {counts : List Nat} (h2 : ∀ n ∈ counts, 2 ≤ n)
    {cutoff : List L} {m : LCE ℝ} {F : List (List (List Nat × List Nat))}
    (hF : BuiltTerms g b counts cutoff m F) {x : Int → Int} {xs : ∀ i, Fin (siteStates b counts i)}
    (hx : InStates b counts x xs) :
    readTerms b counts m x = (F.map (List.map (choice h2))).map fun o =>
      (o.map fun w => monomial (siteFunctions b counts) w xs).sum := by
  rw [hF.value, List.map_map]
  apply List.map_congr_left
  intro o ho
  simp only [termValue, Function.comp_apply, List.map_map]
  congr 1
  apply List.map_congr_left
  intro p hp
  have hw := hF.wanted p (List.mem_flatten.2 ⟨o, ho, hp⟩)
  have hd : Decorated b counts p := ⟨hw.1.1, hw.1.2.1, fun h0 => by have := hw.1.2.2.1; simp [h0] at this, hw.2⟩
  exact hd.value h2 hx

theorem BuiltTerms.decorated {g : ClusterGeometry L} {b : Basis} {counts : List Nat} {cutoff : List L} {m : LCE ℝ}
    {F : List (List (List Nat × List Nat))} (hF : BuiltTerms g b counts cutoff m F) {p : List Nat × List Nat}
    (hp : p ∈ F.flatten) : Decorated b counts p := by
  have hw := hF.wanted p hp
  exact ⟨hw.1.1, hw.1.2.1, fun h0 => by have := hw.1.2.2.1; simp [h0] at this, hw.2⟩

theorem BuiltTerms.choices_nodup {g : ClusterGeometry L} {b : Basis} {counts : List Nat} {cutoff : List L}
    {m : LCE ℝ} {F : List (List (List Nat × List Nat))} (hF : BuiltTerms g b counts cutoff m F)
    (h2 : ∀ n ∈ counts, 2 ≤ n) : (F.map (List.map (choice (b := b) h2))).flatten.Nodup := by
  rw [← List.map_flatten]
  exact List.Nodup.map_on (fun p hp p' hp' he => (hF.decorated hp).choice_inj (hF.decorated hp') h2 he) hF.nodup

theorem BuiltTerms.no_constant {g : ClusterGeometry L} {b : Basis} {counts : List Nat} {cutoff : List L}
    {m : LCE ℝ} {F : List (List (List Nat × List Nat))} (hF : BuiltTerms g b counts cutoff m F)
    (h2 : ∀ n ∈ counts, 2 ≤ n) : noChoice h2 ∉ (F.map (List.map (choice (b := b) h2))).flatten := by
  rw [← List.map_flatten]
  intro h
  obtain ⟨p, hp, he⟩ := List.mem_map.1 h
  exact (hF.decorated hp).choice_ne h2 he

/-! ### Occupation vectors with given states -/

/-- Any states of the local sites of an event occur in some occupation vector. -/
theorem occupations_exist {b : Basis} {counts : List Nat} {env : List Int} (hlen : env.length = counts.length)
    (hnd : env.Nodup) (hpos : ∀ i ∈ env, 0 ≤ i) (xs : ∀ i, Fin (siteStates b counts i)) :
    ∃ (occ : List Int) (x : Int → Int), InStates b counts x xs ∧ LocalOccupations occ env x ∧
      PossibleOccupations b counts occ env := by
  let x : Int → Int := fun s =>
    match pyIdx counts.length s with
    | some k => if h : k < counts.length then ((xs ⟨k, h⟩).val : Int) else 0
    | none => 0
  have hxk : ∀ (s : Int) (k : Nat) (h : k < counts.length), pyIdx counts.length s = some k →
      x s = ((xs ⟨k, h⟩).val : Int) := by
    intro s k h hs
    simp only [x, hs, h, dif_pos]
  let N := (env.map Int.toNat).sum + 1
  let occ : List Int := (List.range N).map fun i : Nat => x (env.idxOf (i : Int) : Nat)
  have hocc : ∀ (k : Nat) (i : Int), env[k]? = some i → pyGet occ i = .ok (x (k : Int)) := by
    intro k i hk
    have hmem : i ∈ env := List.mem_of_getElem? hk
    obtain ⟨j, rfl⟩ := Int.eq_ofNat_of_zero_le (hpos i hmem)
    apply pyGet_natCast
    have hj : j < N := by
      have : j ≤ (env.map Int.toNat).sum := List.le_sum_of_mem (List.mem_map.2 ⟨(j : Int), hmem, by simp⟩)
      omega
    simp only [occ, List.getElem?_map, List.getElem?_range hj, Option.map_some, Option.some.injEq]
    obtain ⟨hkl, hke⟩ := List.getElem?_eq_some_iff.1 hk
    rw [← hke, hnd.idxOf_getElem]
  refine ⟨occ, x, fun i => hxk _ _ i.isLt (pyIdx_natCast i.isLt), ?_, hlen, ?_⟩
  · intro s i hs
    obtain ⟨k, hk, hki⟩ := pyGet_ok_iff.1 hs
    rw [hocc k i hki]
    have hkl : k < counts.length := hlen ▸ pyIdx_lt hk
    rw [hxk s k hkl (hlen ▸ hk), hxk k k hkl (pyIdx_natCast hkl)]
  · intro s i n hs hn
    have hsl : s < counts.length := (List.getElem?_eq_some_iff.1 hn).1
    refine ⟨_, hocc s i hs, ?_, ?_⟩
    · rw [hxk s s hsl (pyIdx_natCast hsl)]
      exact Int.natCast_nonneg _
    · rw [hxk s s hsl (pyIdx_natCast hsl)]
      have h1 := (xs ⟨s, hsl⟩).isLt
      have h3 : counts[s] = n := (List.getElem?_eq_some_iff.1 hn).2
      simp only [siteStates] at h1
      have h4 : (xs ⟨s, hsl⟩).val < stateCount b counts[s] := h1
      rw [h3] at h4
      exact_mod_cast h4

theorem possible_valid {b : Basis} {counts : List Nat} (h2 : ∀ n ∈ counts, 2 ≤ n) {occ env : List Int}
    (h : PossibleOccupations b counts occ env) : ValidSurroundings counts occ env := by
  refine ⟨h.1, fun s i n hs hn => ?_⟩
  obtain ⟨v, h1, h3, h4⟩ := h.2 s i n hs hn
  refine ⟨v, h1, h3, ?_⟩
  have hn2 := h2 n (List.mem_of_getElem? hn)
  cases b with
  | occupation => simp only [stateCount] at h4; omega
  | chebyshev k => exact h4

theorem states_of {b : Basis} {counts : List Nat} {occ env : List Int} {x : Int → Int}
    (h : PossibleOccupations b counts occ env) (hx : LocalOccupations occ env x) :
    ∃ xs, InStates b counts x xs := by
  have key : ∀ i : Fin counts.length, ∃ k : Fin (siteStates b counts i), x (i.val : Int) = (k.val : Int) := by
    intro i
    have hi : i.val < env.length := by rw [h.1]; exact i.isLt
    obtain ⟨v, h1, h3, h4⟩ := h.2 i.val _ _ (List.getElem?_eq_getElem hi) (List.getElem?_eq_getElem i.isLt)
    have hv := hx (i.val : Int) env[i.val] (pyGet_natCast (List.getElem?_eq_getElem hi))
    rw [h1] at hv
    cases hv
    obtain ⟨j, hj⟩ := Int.eq_ofNat_of_zero_le h3
    rw [hj] at h4
    exact ⟨⟨j, by exact_mod_cast h4⟩, hj⟩
  choose xs hxs using key
  exact ⟨xs, hxs⟩

theorem inStates_localStates {b : Basis} {counts : List Nat} {x x' : Int → Int}
    {xs : ∀ i, Fin (siteStates b counts i)} (hx : InStates b counts x xs) (hx' : InStates b counts x' xs) :
    localStates counts.length x = localStates counts.length x' := by
  unfold localStates
  apply List.map_congr_left
  intro s hs
  have hs' := List.mem_range.1 hs
  exact (hx ⟨s, hs'⟩).trans (hx' ⟨s, hs'⟩).symm

/-! ### The claims -/

/-- C125.  The coefficients are determined by the values: two accepted parameter sets that give every
arrangement of the local species the same value are the same, whatever the geometry and the cutoffs, if every
local site can hold at least two species. -/
theorem C125_coefficients_determined (g : ClusterGeometry L) (b : Basis) (counts : List Nat)
    (h2 : ∀ n ∈ counts, 2 ≤ n) (hash : Option String) (pc : L) (cc : List L) (m m1 m2 : LCE ℝ)
    (hm : build g (b.siteBasis ℝ) counts hash pc cc = .ok m) (hne : m.getOrbitFingerprints ≠ [])
    (p1 p2 : LCEParameters ℝ) (hp1 : m.setParameters p1 = (.ok (), m1)) (hp2 : m.setParameters p2 = (.ok (), m2))
    (e : Event) (hlen : e.env.length = counts.length) (hnd : e.env.Nodup) (hpos : ∀ i ∈ e.env, 0 ≤ i)
    (h : ∀ occ, PossibleOccupations b counts occ e.env → m1.compute occ e = m2.compute occ e) :
    m1.keci = m2.keci ∧ m1.emptyCluster = m2.emptyCluster := by
  obtain ⟨F, hF⟩ := built_terms hm
  obtain ⟨k1, c1, f1, hh1, hc1, ha1, hb1, -, -, -, hfp1, -, hval1⟩ := C38_accepted_used m m1 p1 hp1
  obtain ⟨k2, c2, f2, hh2, hc2, ha2, hb2, -, -, -, hfp2, -, hval2⟩ := C38_accepted_used m m2 p2 hp2
  have hl1 : k1.length = F.length := by
    rw [← hF.fingerprints, ← hfp1]
    exact (validate_ok_iff.1 hval1).2.1 (by rw [hfp1]; exact hne)
  have hl2 : k2.length = F.length := by
    rw [← hF.fingerprints, ← hfp2]
    exact (validate_ok_iff.1 hval2).2.1 (by rw [hfp2]; exact hne)
  have key := expansion_unique (K := ℝ) (v := siteFunctions b counts) (siteFunctions_complete h2)
    (m0 := noChoice h2) (monomial_noChoice h2) (F := F.map (List.map (choice h2))) (hF.choices_nodup h2)
    (fun o ho => by
      obtain ⟨o', ho', rfl⟩ := List.mem_map.1 ho
      simpa using hF.nonempty o' ho')
    (hF.no_constant h2) (e0 := c1) (e0' := c2) (keci := k1) (keci' := k2) (by simpa using hl1) (by simpa using hl2)
    (by
      intro xs
      obtain ⟨occ, x, hx, hlo, hpo⟩ := occupations_exist hlen hnd hpos xs
      obtain ⟨k1', c1', _, _, hk1, -, hv1⟩ := C67_built_model_evaluates g _ (C47_shape ℝ b) counts hash pc cc m m1 hm
        hne p1 hp1 occ e (possible_valid h2 hpo) x hlo
      obtain ⟨k2', c2', _, _, hk2, -, hv2⟩ := C67_built_model_evaluates g _ (C47_shape ℝ b) counts hash pc cc m m2 hm
        hne p2 hp2 occ e (possible_valid h2 hpo) x hlo
      rw [hc1] at hk1
      rw [hc2] at hk2
      cases hk1
      cases hk2
      have heq := h occ hpo
      rw [hv1, hv2] at heq
      have heq' := Except.ok.inj heq
      change expansion c1 k1 (readTerms b counts m x) = expansion c2 k2 (readTerms b counts m x) at heq'
      rwa [value_expansion h2 hF hx] at heq')
  rw [ha1, ha2, hb1, hb2, key.1, key.2]
  exact ⟨rfl, rfl⟩

/-- C125.  The expansion is complete: if every group of local sites is within the cutoffs (so there are at most
four sites) and no two groups are equivalent, then for every table of values, one for each arrangement of the
local species, there are coefficients with which the model returns exactly that table. -/
theorem C125_every_table_reproduced (g : ClusterGeometry L) (b : Basis) (counts : List Nat)
    (h2 : ∀ n ∈ counts, 2 ≤ n) (hash : Option String) (pc : L) (cc : List L) (m : LCE ℝ)
    (hm : build g (b.siteBasis ℝ) counts hash pc cc = .ok m) (hne : m.getOrbitFingerprints ≠ [])
    (hall : ∀ c, SiteGroup counts.length c → WantedCluster g (pc :: cc) counts.length c)
    (hsep : ∀ c c', SiteGroup counts.length c → SiteGroup counts.length c' → clusterEq g c c' = true → c = c')
    (f : List Int → ℝ) :
    ∃ (keci : List ℝ) (e0 : ℝ) (m' : LCE ℝ), m.setParameters (.object keci e0 none none) = (.ok (), m') ∧
      ∀ (e : Event) (occ : List Int) (x : Int → Int), PossibleOccupations b counts occ e.env →
        LocalOccupations occ e.env x → m'.compute occ e = .ok (f (localStates counts.length x)) := by
  obtain ⟨F, hF⟩ := built_terms hm
  have hgroup : ∀ c, WantedCluster g (pc :: cc) counts.length c → SiteGroup counts.length c := by
    intro c hc
    exact ⟨hc.1, hc.2.1, fun h0 => by have := hc.2.2.1; simp [h0] at this⟩
  obtain ⟨hs1, hs2⟩ := hF.separate fun c c' hc hc' => hsep c c' (hgroup c hc) (hgroup c' hc')
  -- the table as a function of the point
  have hpt : ∀ xs : (∀ i, Fin (siteStates b counts i)), ∃ x, InStates b counts x xs := by
    intro xs
    refine ⟨fun s => if h : s.toNat < counts.length then ((xs ⟨s.toNat, h⟩).val : Int) else 0, fun i => ?_⟩
    simp [i.isLt]
  choose pt hpt using hpt
  obtain ⟨e0, keci, hkl, hval⟩ := expansion_complete (K := ℝ) (v := siteFunctions b counts)
    (siteFunctions_complete h2) (m0 := noChoice h2) (monomial_noChoice h2) (F := F.map (List.map (choice h2)))
    (hF.choices_nodup h2)
    (fun o ho => by
      obtain ⟨o', ho', rfl⟩ := List.mem_map.1 ho
      obtain ⟨p, rfl⟩ := hs1 o' ho'
      exact ⟨_, rfl⟩)
    (hF.no_constant h2)
    (fun w hw => by
      obtain ⟨hd, hc⟩ := chosenSites_decorated h2 hw
      rw [← List.map_flatten]
      exact List.mem_map.2 ⟨_, hs2 _ (hall _ ⟨hd.sorted, hd.sites, hd.some⟩) hd.functions, hc⟩)
    (fun xs => f (localStates counts.length (pt xs)))
  have hacc : ∃ m', m.setParameters (.object keci e0 none none) = (.ok (), m') := by
    rw [C38_accepted_iff]
    refine ⟨keci, e0, none, none, rfl, fun _ => ?_, ?_, ?_⟩
    · rw [hF.fingerprints, hkl, List.length_map]
    · intro a b _ _ h; cases h
    · intro l h; cases h
  obtain ⟨m', hm'⟩ := hacc
  refine ⟨keci, e0, m', hm', fun e occ x hpo hlo => ?_⟩
  obtain ⟨k', c', _, _, hk, -, hv⟩ := C67_built_model_evaluates g _ (C47_shape ℝ b) counts hash pc cc m m' hm hne _
    hm' occ e (possible_valid h2 hpo) x hlo
  cases hk
  rw [hv]
  obtain ⟨xs, hxs⟩ := states_of hpo hlo
  congr 1
  change expansion e0 keci (readTerms b counts m x) = _
  rw [value_expansion h2 hF hxs, hval xs, inStates_localStates (hpt xs) hxs]

/-- Points as lists of states. -/
theorem points (b : Basis) (counts : List Nat) :
    ∃ pt : (∀ i, Fin (siteStates b counts i)) → Int → Int, ∀ xs, InStates b counts (pt xs) xs := by
  refine ⟨fun xs s => if h : s.toNat < counts.length then ((xs ⟨s.toNat, h⟩).val : Int) else 0, fun xs i => ?_⟩
  simp [i.isLt]

theorem localStates_getElem? {n : Nat} {x : Int → Int} {s : Nat} (h : s < n) :
    (localStates n x)[s]? = some (x s) := by
  simp [localStates, h]

/-- The coefficients of a sum of tables, each depending on a group of sites, vanish outside the groups. -/
theorem coefficients_in_groups {b : Basis} {counts : List Nat} (h2 : ∀ n ∈ counts, 2 ≤ n)
    {pt : (∀ i, Fin (siteStates b counts i)) → Int → Int} (hpt : ∀ xs, InStates b counts (pt xs) xs)
    (part : List Nat → List Int → ℝ) :
    ∀ groups : List (List Nat),
    (∀ c ∈ groups, ∀ l l' : List Int, (∀ s ∈ c, l[s]? = l'[s]?) → part c l = part c l') →
    ∃ w : (∀ i, Fin (siteStates b counts i)) → ℝ,
      (∀ xs, (groups.map fun c => part c (localStates counts.length (pt xs))).sum =
        ∑ m, w m * monomial (siteFunctions b counts) m xs) ∧
      ∀ m, (∀ c ∈ groups, ∃ s ∈ chosenSites m, s ∉ c) → w m = 0
  | [], _ => ⟨fun _ => 0, fun xs => by simp, fun m _ => rfl⟩
  | c :: groups, hpart => by
    obtain ⟨w, hw, hz⟩ := coefficients_in_groups h2 hpt part groups fun c hc => hpart c (List.mem_cons_of_mem _ hc)
    obtain ⟨u, hu, -⟩ := tensor_unique (siteStates b counts) (siteFunctions b counts) (siteFunctions_complete h2)
      fun xs => part c (localStates counts.length (pt xs))
    refine ⟨fun m => u m + w m, fun xs => ?_, fun m hm => ?_⟩
    · rw [List.map_cons, List.sum_cons, hw, hu xs, ← Finset.sum_add_distrib]
      exact Finset.sum_congr rfl fun m _ => by rw [add_mul]; rfl
    · have h1 := hz m fun c hc => hm c (List.mem_cons_of_mem _ hc)
      obtain ⟨s, hs, hsc⟩ := hm c List.mem_cons_self
      obtain ⟨hsl, hne⟩ := mem_chosenSites.1 hs
      have h3 : u m = 0 := by
        refine coefficient_independent (siteFunctions_complete h2) (m0 := noChoice h2)
          (fun i a => by simp [siteFunctions, siteMonomial, noChoice])
          (f := fun xs => part c (localStates counts.length (pt xs))) (w := u) hu ⟨s, hsl⟩
          (noChoice h2 ⟨s, hsl⟩) ?_ m (fun he => hne (by rw [he]; rfl))
        intro xs
        refine hpart c List.mem_cons_self _ _ fun t ht => ?_
        by_cases htl : t < counts.length
        · rw [localStates_getElem? htl, localStates_getElem? htl]
          congr 1
          have hts : (⟨t, htl⟩ : Fin counts.length) ≠ ⟨s, hsl⟩ := by
            intro he
            have : t = s := congrArg Fin.val he
            exact hsc (this ▸ ht)
          have e1 := hpt (Function.update xs ⟨s, hsl⟩ (noChoice h2 ⟨s, hsl⟩)) ⟨t, htl⟩
          have e2 := hpt xs ⟨t, htl⟩
          rw [Function.update_of_ne hts] at e1
          exact e1.trans e2.symm
        · simp [localStates, htl]
      simp only [h1, h3, add_zero]

/-- Accepting coefficients and reading the table off. -/
theorem reproduces {g : ClusterGeometry L} {b : Basis} {counts : List Nat} (h2 : ∀ n ∈ counts, 2 ≤ n)
    {hash : Option String} {pc : L} {cc : List L} {m : LCE ℝ}
    (hm : build g (b.siteBasis ℝ) counts hash pc cc = .ok m) (hne : m.getOrbitFingerprints ≠ [])
    {F : List (List (List Nat × List Nat))} (hF : BuiltTerms g b counts (pc :: cc) m F)
    {pt : (∀ i, Fin (siteStates b counts i)) → Int → Int} (hpt : ∀ xs, InStates b counts (pt xs) xs)
    {f : List Int → ℝ}
    (h : ∃ (e0 : ℝ) (keci : List ℝ), keci.length = (F.map (List.map (choice (b := b) h2))).length ∧
      ∀ xs, expansion e0 keci ((F.map (List.map (choice h2))).map fun o =>
        (o.map fun w => monomial (siteFunctions b counts) w xs).sum) = f (localStates counts.length (pt xs))) :
    ∃ (keci : List ℝ) (e0 : ℝ) (m' : LCE ℝ), m.setParameters (.object keci e0 none none) = (.ok (), m') ∧
      ∀ (e : Event) (occ : List Int) (x : Int → Int), PossibleOccupations b counts occ e.env →
        LocalOccupations occ e.env x → m'.compute occ e = .ok (f (localStates counts.length x)) := by
  obtain ⟨e0, keci, hkl, hval⟩ := h
  have hacc : ∃ m', m.setParameters (.object keci e0 none none) = (.ok (), m') := by
    rw [C38_accepted_iff]
    refine ⟨keci, e0, none, none, rfl, fun _ => ?_, ?_, ?_⟩
    · rw [hF.fingerprints, hkl, List.length_map]
    · intro a b _ _ h; cases h
    · intro l h; cases h
  obtain ⟨m', hm'⟩ := hacc
  refine ⟨keci, e0, m', hm', fun e occ x hpo hlo => ?_⟩
  obtain ⟨k', c', _, _, hk, -, hv⟩ := C67_built_model_evaluates g _ (C47_shape ℝ b) counts hash pc cc m m' hm hne _
    hm' occ e (possible_valid h2 hpo) x hlo
  cases hk
  rw [hv]
  obtain ⟨xs, hxs⟩ := states_of hpo hlo
  congr 1
  change expansion e0 keci (readTerms b counts m x) = _
  rw [value_expansion h2 hF hxs, hval xs, inStates_localStates (hpt xs) hxs]

/-- C125.  Interactions of finite range are reproduced: if a table is a sum of tables, each depending only on a
group of sites all of whose subgroups are within the cutoffs, and no two groups in the model are equivalent,
there are coefficients with which the model returns exactly that table. -/
theorem C125_finite_range_reproduced (g : ClusterGeometry L) (b : Basis) (counts : List Nat)
    (h2 : ∀ n ∈ counts, 2 ≤ n) (hash : Option String) (pc : L) (cc : List L) (m : LCE ℝ)
    (hm : build g (b.siteBasis ℝ) counts hash pc cc = .ok m) (hne : m.getOrbitFingerprints ≠ [])
    (groups : List (List Nat)) (part : List Nat → List Int → ℝ)
    (hpart : ∀ c ∈ groups, ∀ l l' : List Int, (∀ s ∈ c, l[s]? = l'[s]?) → part c l = part c l')
    (hin : ∀ c ∈ groups, ∀ c', SiteGroup counts.length c' → (∀ s ∈ c', s ∈ c) →
      WantedCluster g (pc :: cc) counts.length c')
    (hsep : ∀ c c', WantedCluster g (pc :: cc) counts.length c → WantedCluster g (pc :: cc) counts.length c' →
      clusterEq g c c' = true → c = c') :
    ∃ (keci : List ℝ) (e0 : ℝ) (m' : LCE ℝ), m.setParameters (.object keci e0 none none) = (.ok (), m') ∧
      ∀ (e : Event) (occ : List Int) (x : Int → Int), PossibleOccupations b counts occ e.env →
        LocalOccupations occ e.env x →
        m'.compute occ e = .ok ((groups.map fun c => part c (localStates counts.length x)).sum) := by
  obtain ⟨F, hF⟩ := built_terms hm
  obtain ⟨pt, hpt⟩ := points b counts
  obtain ⟨w, hw, hz⟩ := coefficients_in_groups h2 hpt part groups hpart
  obtain ⟨hs1, hs2⟩ := hF.separate hsep
  refine reproduces (f := fun l => (groups.map fun c => part c l).sum) h2 hm hne hF hpt
    (expansion_exists (monomial_noChoice h2) (hF.choices_nodup h2) (hF.no_constant h2)
      (f := fun xs => (groups.map fun c => part c (localStates counts.length (pt xs))).sum) hw ?_ ?_)
  · intro u hu hout
    apply hz
    intro c hc
    by_contra hcon
    push Not at hcon
    apply hout
    obtain ⟨hd, hch⟩ := chosenSites_decorated h2 hu
    rw [← List.map_flatten]
    exact List.mem_map.2 ⟨_, hs2 _ (hin c hc _ ⟨hd.sorted, hd.sites, hd.some⟩ hcon) hd.functions, hch⟩
  · intro o ho u hu u' hu'
    obtain ⟨o', ho', rfl⟩ := List.mem_map.1 ho
    obtain ⟨p, rfl⟩ := hs1 o' ho'
    simp only [List.map_cons, List.map_nil, List.mem_singleton] at hu hu'
    rw [hu, hu']

/-! ### Symmetric tables -/

/-- A permutation of local sites acting on points (all sites have two states). -/
def permuted {b : Basis} {counts : List Nat} (hq : ∀ i j, siteStates b counts i = siteStates b counts j)
    (σ : Equiv.Perm (Fin counts.length)) (m : ∀ i, Fin (siteStates b counts i)) (i : Fin counts.length) :
    Fin (siteStates b counts i) := Fin.cast (hq _ _) (m (σ i))

/-- The same as a bijection. -/
def permutedEquiv {b : Basis} {counts : List Nat} (hq : ∀ i j, siteStates b counts i = siteStates b counts j)
    (σ : Equiv.Perm (Fin counts.length)) :
    (∀ i, Fin (siteStates b counts i)) ≃ (∀ i, Fin (siteStates b counts i)) where
  toFun := permuted hq σ
  invFun := permuted hq σ.symm
  left_inv m := by
    funext i
    apply Fin.ext
    show (m (σ (σ.symm i))).val = _
    rw [Equiv.apply_symm_apply]
  right_inv m := by
    funext i
    apply Fin.ext
    show (m (σ.symm (σ i))).val = _
    rw [Equiv.symm_apply_apply]

theorem siteStates_same {b : Basis} {counts : List Nat} (h : ∀ n ∈ counts, n = 2) (i j : Fin counts.length) :
    siteStates b counts i = siteStates b counts j := by
  have h1 : counts[i] = 2 := h _ (List.getElem_mem _)
  have h2 : counts[j] = 2 := h _ (List.getElem_mem _)
  unfold siteStates
  rw [h1, h2]

theorem siteMonomial_same {b : Basis} {counts : List Nat} (h : ∀ n ∈ counts, n = 2) (i j : Fin counts.length)
    (k a : Nat) : siteMonomial b counts i k a = siteMonomial b counts j k a := by
  have h1 : counts[i.val]? = some 2 := by rw [List.getElem?_eq_getElem i.isLt, h _ (List.getElem_mem _)]
  have h2 : counts[j.val]? = some 2 := by rw [List.getElem?_eq_getElem j.isLt, h _ (List.getElem_mem _)]
  unfold siteMonomial siteValue
  cases b with
  | occupation => rfl
  | chebyshev k => simp only [siteFunction, Int.toNat_natCast, h1, h2]

theorem monomial_permuted {b : Basis} {counts : List Nat} (h : ∀ n ∈ counts, n = 2)
    (σ : Equiv.Perm (Fin counts.length)) (m xs : ∀ i, Fin (siteStates b counts i)) :
    monomial (siteFunctions b counts) (permuted (siteStates_same h) σ m) (permuted (siteStates_same h) σ xs) =
      monomial (siteFunctions b counts) m xs := by
  unfold monomial
  rw [← Equiv.prod_comp σ fun i => siteFunctions b counts i (m i) (xs i)]
  refine Finset.prod_congr rfl fun i _ => ?_
  unfold siteFunctions permuted
  simp only [Fin.val_cast]
  exact siteMonomial_same h _ _ _ _

/-- A table that a permutation leaves unchanged has coefficients that it leaves unchanged. -/
theorem coefficients_permuted {b : Basis} {counts : List Nat} (h : ∀ n ∈ counts, n = 2)
    {f : (∀ i, Fin (siteStates b counts i)) → ℝ} {w : (∀ i, Fin (siteStates b counts i)) → ℝ}
    (hw : ∀ xs, f xs = ∑ m, w m * monomial (siteFunctions b counts) m xs)
    (σ : Equiv.Perm (Fin counts.length)) (hf : ∀ xs, f (permuted (siteStates_same h) σ xs) = f xs)
    (m : ∀ i, Fin (siteStates b counts i)) : w (permuted (siteStates_same h) σ m) = w m := by
  have h2 : ∀ n ∈ counts, 2 ≤ n := fun n hn => (h n hn).ge
  obtain ⟨u, -, hu⟩ := tensor_unique (siteStates b counts) (siteFunctions b counts) (siteFunctions_complete h2) f
  have h1 := hu w hw
  have h3 := hu (fun m => w (permuted (siteStates_same h) σ m)) fun xs => by
    rw [← hf xs, hw, ← Equiv.sum_comp (permutedEquiv (siteStates_same h) σ)]
    refine Finset.sum_congr rfl fun m _ => ?_
    show w (permuted (siteStates_same h) σ m) * monomial _ (permuted (siteStates_same h) σ m) _ = _
    rw [monomial_permuted h]
    rfl
  exact congrFun (h3.trans h1.symm) m

/-- C125.  Symmetric interactions of finite range are reproduced (two species per site): as before, but groups
may be equivalent, if each equivalence comes from a permutation of the sites that leaves the table unchanged. -/
theorem C125_symmetric_table_reproduced (g : ClusterGeometry L) (b : Basis) (counts : List Nat)
    (htwo : ∀ n ∈ counts, n = 2) (hash : Option String) (pc : L) (cc : List L) (m : LCE ℝ)
    (hm : build g (b.siteBasis ℝ) counts hash pc cc = .ok m) (hne : m.getOrbitFingerprints ≠ [])
    (groups : List (List Nat)) (part : List Nat → List Int → ℝ)
    (hpart : ∀ c ∈ groups, ∀ l l' : List Int, (∀ s ∈ c, l[s]? = l'[s]?) → part c l = part c l')
    (hin : ∀ c ∈ groups, ∀ c', SiteGroup counts.length c' → (∀ s ∈ c', s ∈ c) →
      WantedCluster g (pc :: cc) counts.length c')
    (hsym : ∀ c c', WantedCluster g (pc :: cc) counts.length c → WantedCluster g (pc :: cc) counts.length c' →
      clusterEq g c c' = true → ∃ π : Nat → Nat,
        (∀ s, s < counts.length → π s < counts.length) ∧
        (∀ s t, s < counts.length → t < counts.length → π s = π t → s = t) ∧
        (∀ s, s < counts.length → (π s ∈ c' ↔ s ∈ c)) ∧
        ∀ x : Int → Int,
          (groups.map fun d => part d (localStates counts.length fun s => x (π s.toNat))).sum =
            (groups.map fun d => part d (localStates counts.length x)).sum) :
    ∃ (keci : List ℝ) (e0 : ℝ) (m' : LCE ℝ), m.setParameters (.object keci e0 none none) = (.ok (), m') ∧
      ∀ (e : Event) (occ : List Int) (x : Int → Int), PossibleOccupations b counts occ e.env →
        LocalOccupations occ e.env x →
        m'.compute occ e = .ok ((groups.map fun c => part c (localStates counts.length x)).sum) := by
  have h2 : ∀ n ∈ counts, 2 ≤ n := fun n hn => (htwo n hn).ge
  obtain ⟨F, hF⟩ := built_terms hm
  obtain ⟨pt, hpt⟩ := points b counts
  obtain ⟨w, hw, hz⟩ := coefficients_in_groups h2 hpt part groups hpart
  -- with two states, the function on every site of a cluster is the first
  have hfirst : ∀ p, Decorated b counts p → p.2 = List.replicate p.1.length 0 := by
    intro p hd
    rw [List.eq_replicate_iff]
    refine ⟨hd.length.symm, fun f hf => ?_⟩
    obtain ⟨i, hi, rfl⟩ := List.mem_iff_getElem.1 hf
    have hi1 : i < p.1.length := by rw [hd.length]; exact hi
    have h1 := (List.forall₂_iff_get.1 hd.functions).2 i hi1 hi
    simp only [List.get_eq_getElem] at h1
    have hs := hd.sites _ (List.getElem_mem hi1)
    rw [List.getElem?_eq_getElem hs, Option.getD_some, htwo _ (List.getElem_mem hs)] at h1
    cases b with
    | occupation => simp only [Basis.numSiteBasisFunctions] at h1; omega
    | chebyshev k => simp [Basis.numSiteBasisFunctions] at h1; exact h1
  have hval : ∀ p, Decorated b counts p → ∀ i : Fin counts.length,
      (choice (b := b) h2 p i).val = if i.val ∈ p.1 then 1 else 0 := by
    intro p hd i
    rw [hd.choice_val h2]
    split
    · rename_i hi
      obtain ⟨j, hj, hji⟩ := List.mem_iff_getElem.1 hi
      rw [show (1 : Nat) = 0 + 1 from rfl, exponent_pos hd.length hd.distinct, List.mem_iff_getElem]
      refine ⟨j, by rw [List.length_zip, ← hd.length]; simpa using hj, ?_⟩
      rw [List.getElem_zip, hji]
      simp only [hfirst p hd, List.getElem_replicate]
    · rename_i hi
      cases he : exponent p i with
      | zero => rfl
      | succ f =>
        rw [exponent_pos hd.length hd.distinct] at he
        exact absurd (List.of_mem_zip he).1 hi
  refine reproduces (f := fun l => (groups.map fun c => part c l).sum) h2 hm hne hF hpt
    (expansion_exists (monomial_noChoice h2) (hF.choices_nodup h2) (hF.no_constant h2)
      (f := fun xs => (groups.map fun c => part c (localStates counts.length (pt xs))).sum) hw ?_ ?_)
  · intro u hu hout
    apply hz
    intro c hc
    by_contra hcon
    push Not at hcon
    apply hout
    obtain ⟨hd, hch⟩ := chosenSites_decorated h2 hu
    rw [← List.map_flatten]
    refine List.mem_map.2 ⟨_, ?_, hch⟩
    have := hF.uniform htwo (chosenSites u) (hin c hc _ ⟨hd.sorted, hd.sites, hd.some⟩ hcon)
    rwa [← hfirst _ hd] at this
  · -- all clusters of a term have the coefficient of its first cluster
    suffices H : ∀ o ∈ F, ∃ r, ∀ p ∈ o, w (choice h2 p) = r by
      intro o ho u hu u' hu'
      obtain ⟨o', ho', rfl⟩ := List.mem_map.1 ho
      obtain ⟨r, hr⟩ := H o' ho'
      obtain ⟨p, hp, rfl⟩ := List.mem_map.1 hu
      obtain ⟨p', hp', rfl⟩ := List.mem_map.1 hu'
      rw [hr p hp, hr p' hp']
    intro o ho
    obtain ⟨r, t, rfl, ht⟩ := hF.together o ho
    refine ⟨w (choice h2 r), fun p hp => ?_⟩
    rcases List.mem_cons.1 hp with rfl | hpt'
    · rfl
    · have hmr : r ∈ F.flatten := List.mem_flatten.2 ⟨_, ho, List.mem_cons_self⟩
      have hmp : p ∈ F.flatten := List.mem_flatten.2 ⟨_, ho, hp⟩
      obtain ⟨π, hπ1, hπ2, hπ3, hπ4⟩ := hsym r.1 p.1 (hF.wanted _ hmr).1 (hF.wanted _ hmp).1 (ht p hpt')
      let σf : Fin counts.length → Fin counts.length := fun i => ⟨π i, hπ1 i i.isLt⟩
      have hσi : Function.Injective σf := fun i j hij =>
        Fin.ext (hπ2 i j i.isLt j.isLt (congrArg Fin.val hij))
      let σ : Equiv.Perm (Fin counts.length) := Equiv.ofBijective σf (Finite.injective_iff_bijective.1 hσi)
      have hσ : ∀ i, (σ i).val = π i.val := fun i => rfl
      have key := coefficients_permuted htwo hw σ (by
        intro xs
        have h1 : ∀ d l l', l = l' → part d l = part d l' := fun d l l' h => by rw [h]
        rw [← hπ4 (pt xs)]
        congr 1
        apply List.map_congr_left
        intro d _
        apply h1
        unfold localStates
        apply List.map_congr_left
        intro s hs
        have hsl := List.mem_range.1 hs
        have e1 := hpt (permuted (siteStates_same htwo) σ xs) ⟨s, hsl⟩
        have e2 := hpt xs (σ ⟨s, hsl⟩)
        simp only [Int.toNat_natCast]
        rw [hσ] at e2
        simp only at e1 e2
        rw [e1, e2]
        rfl) (choice h2 p)
      rw [← key]
      congr 1
      funext i
      apply Fin.ext
      show (choice h2 p (σ i)).val = _
      rw [hval p (hF.decorated hmp), hval r (hF.decorated hmr), hσ]
      simp only [hπ3 i i.isLt]

/-- C125.  What is left out cannot be reproduced: for every group of local sites the model leaves out, because
it has more than four sites or is longer than its cutoff, there is a table that depends on the sites of the
group only and that no accepted coefficients reproduce. -/
theorem C125_left_out_group (g : ClusterGeometry L) (b : Basis) (counts : List Nat)
    (h2 : ∀ n ∈ counts, 2 ≤ n) (hash : Option String) (pc : L) (cc : List L) (m : LCE ℝ)
    (hm : build g (b.siteBasis ℝ) counts hash pc cc = .ok m) (hne : m.getOrbitFingerprints ≠ [])
    (c : List Nat) (hc : SiteGroup counts.length c) (hout : ¬ WantedCluster g (pc :: cc) counts.length c) :
    ∃ f : List Int → ℝ, (∀ l l' : List Int, (∀ s ∈ c, l[s]? = l'[s]?) → f l = f l') ∧
      ∀ (p : LCEParameters ℝ) (m' : LCE ℝ), m.setParameters p = (.ok (), m') →
        ∀ e : Event, e.env.length = counts.length → e.env.Nodup → (∀ i ∈ e.env, 0 ≤ i) →
          ∃ (occ : List Int) (x : Int → Int), PossibleOccupations b counts occ e.env ∧
            LocalOccupations occ e.env x ∧ m'.compute occ e ≠ .ok (f (localStates counts.length x)) := by
  obtain ⟨F, hF⟩ := built_terms hm
  have hd : Decorated b counts (c, List.replicate c.length 0) := by
    refine ⟨hc.1, hc.2.1, hc.2.2, ?_⟩
    rw [List.forall₂_iff_get]
    refine ⟨by simp, fun i hi hi' => ?_⟩
    simp only [List.get_eq_getElem, List.getElem_replicate]
    have hs := hc.2.1 c[i] (List.getElem_mem hi)
    rw [List.getElem?_eq_getElem hs, Option.getD_some]
    apply lt_function
    have := siteStates_two (b := b) h2 ⟨c[i], hs⟩
    simp only [siteStates] at this
    have h3 : 2 ≤ stateCount b counts[c[i]] := this
    omega
  refine ⟨fun l => (c.map fun s : Nat => siteValue b counts s (l[s]?.getD 0) 0).prod, ?_, ?_⟩
  · intro l l' hl
    simp only
    congr 1
    apply List.map_congr_left
    intro s hs
    rw [hl s hs]
  · intro p m' hp e hlen hnd hpos
    obtain ⟨k, c0, f0, hh, hcont, -⟩ := C38_accepted_used m m' p hp
    have hmiss := expansion_misses (K := ℝ) (v := siteFunctions b counts) (siteFunctions_complete h2)
      (m0 := noChoice h2) (monomial_noChoice h2) (F := F.map (List.map (choice h2))) (m := choice h2 _)
      (hd.choice_ne h2)
      (by
        rw [← List.map_flatten]
        intro hmem
        obtain ⟨p', hp', he⟩ := List.mem_map.1 hmem
        have := (hF.decorated hp').choice_inj hd h2 he
        subst this
        exact hout (hF.wanted _ hp').1) c0 k
    obtain ⟨xs, hxs⟩ := hmiss
    obtain ⟨occ, x, hx, hlo, hpo⟩ := occupations_exist hlen hnd hpos xs
    refine ⟨occ, x, hpo, hlo, ?_⟩
    obtain ⟨k', c', _, _, hk, -, hv⟩ := C67_built_model_evaluates g _ (C47_shape ℝ b) counts hash pc cc m m' hm hne p
      hp occ e (possible_valid h2 hpo) x hlo
    rw [hcont] at hk
    cases hk
    rw [hv]
    intro heq
    have heq' := Except.ok.inj heq
    change expansion c0 k (readTerms b counts m x) = _ at heq'
    rw [value_expansion h2 hF hx] at heq'
    apply hxs
    rw [heq', ← hd.value h2 hx]
    congr 1
    have hz : (c.zip (List.replicate c.length 0)).map (fun sf : Nat × Nat =>
        siteValue b counts sf.1 (x sf.1) sf.2) = c.map fun s : Nat => siteValue b counts s (x s) 0 := by
      apply List.ext_getElem
      · simp
      · intro i h1 h3
        simp
    simp only
    rw [hz]
    congr 1
    apply List.map_congr_left
    intro s hs
    have hsl := hc.2.1 s hs
    congr 1
    simp [localStates, hsl]

end

/-! ### Concrete models -/

/-- Sites so placed that no two groups are alike. -/
def unlikeGeometry : ClusterGeometry Nat where
  maxLength c := c.length
  matches? a b := a == b
  fingerprint o := String.ofList (List.replicate (o.headD []).length 'o')
  decoratedFingerprint s d _ := s ++ String.ofList (d.map fun k => if k = 0 then 'a' else 'b')

theorem unlike_all (c : List Nat) (h : SiteGroup 3 c) : WantedCluster unlikeGeometry [5, 5, 5, 5] 3 c := by
  have hl : c.length ≤ 3 := by
    have hnd : c.Nodup := h.1.imp fun h => Nat.ne_of_lt h
    have := (List.subperm_of_subset hnd (l₂ := List.range 3) fun s hs => List.mem_range.2 (h.2.1 s hs)).length_le
    simpa using this
  have hpos : 0 < c.length := List.length_pos_of_ne_nil h.2.2
  refine ⟨h.1, h.2.1, hpos, by omega, 5, ?_, by show c.length < 5; omega⟩
  have : c.length = 1 ∨ c.length = 2 ∨ c.length = 3 := by omega
  rcases this with h | h | h <;> rw [h] <;> rfl

theorem unlike_separate (c c' : List Nat) (h : clusterEq unlikeGeometry c c' = true) : c = c' := by
  unfold clusterEq at h
  split at h
  · cases h
  · exact eq_of_beq h

/-- Three sites with two, two and three species: the hypotheses of the statements about tables hold, in both bases,
for the sites 4, 0 and 2 of the simulation cell. -/
example (b : Basis) : ∃ (m m1 m2 : LCE ℝ) (p1 p2 : LCEParameters ℝ),
    build unlikeGeometry (b.siteBasis ℝ) [2, 2, 3] none 5 [5, 5, 5] = .ok m ∧ m.getOrbitFingerprints ≠ [] ∧
    (∀ n ∈ [2, 2, 3], 2 ≤ n) ∧ (∀ c, SiteGroup 3 c → WantedCluster unlikeGeometry [5, 5, 5, 5] 3 c) ∧
    (∀ c c', SiteGroup 3 c → SiteGroup 3 c' → clusterEq unlikeGeometry c c' = true → c = c') ∧
    m.setParameters p1 = (.ok (), m1) ∧ m.setParameters p2 = (.ok (), m2) ∧
    [4, 0, 2].Nodup ∧ (∀ i ∈ ([4, 0, 2] : List Int), 0 ≤ i) ∧
    PossibleOccupations b [2, 2, 3] [1, 0, 1, 0, 0] [4, 0, 2] := by
  have hb : ∃ m, build unlikeGeometry (b.siteBasis ℝ) [2, 2, 3] none 5 [5, 5, 5] = .ok m := by
    cases b with
    | occupation => exact ⟨_, rfl⟩
    | chebyshev k => exact ⟨_, rfl⟩
  obtain ⟨m, hm⟩ := hb
  have hne : m.getOrbitFingerprints ≠ [] := by
    cases b with
    | occupation => cases hm; exact List.cons_ne_nil _ _
    | chebyshev k => cases hm; exact List.cons_ne_nil _ _
  obtain ⟨keci, e0, m1, h1, -⟩ := C125_every_table_reproduced unlikeGeometry b [2, 2, 3] (by decide) none 5 [5, 5, 5] m
    hm hne unlike_all (fun c c' _ _ => unlike_separate c c') fun l => (l.sum : ℝ)
  refine ⟨m, m1, m1, _, _, hm, hne, by decide, unlike_all, fun c c' _ _ => unlike_separate c c', h1, h1, by decide,
    by decide, rfl, ?_⟩
  intro s i n hs hn
  match s, hs, hn with
  | 0, hs, hn => cases hs; cases hn; exact ⟨0, rfl, by decide, by cases b <;> simp [stateCount]⟩
  | 1, hs, hn => cases hs; cases hn; exact ⟨1, rfl, by decide, by cases b <;> simp [stateCount]⟩
  | 2, hs, hn => cases hs; cases hn; exact ⟨1, rfl, by decide, by cases b <;> simp [stateCount]⟩
  | _ + 3, hs, _ => cases hs

/-- Sites so placed that all groups of one size are alike. -/
def alikeGeometry : ClusterGeometry Nat where
  maxLength c := c.length
  matches? a b := a.length == b.length
  fingerprint o := String.ofList (List.replicate (o.headD []).length 'o')
  decoratedFingerprint s d _ := s ++ String.ofList (d.map fun k => if k = 0 then 'a' else 'b')

theorem groups_of_two {c : List Nat} (h : SiteGroup 2 c) : c = [0] ∨ c = [1] ∨ c = [0, 1] := by
  obtain ⟨h1, h2, h3⟩ := h
  match c, h1, h2, h3 with
  | [a], _, h2, _ =>
    have := h2 a (by simp)
    have : a = 0 ∨ a = 1 := by omega
    rcases this with rfl | rfl <;> simp
  | [a, b], h1, h2, _ =>
    have ha := h2 a (by simp)
    have hb := h2 b (by simp)
    simp only [List.pairwise_cons, List.mem_singleton, forall_eq] at h1
    have ha0 : a = 0 := by omega
    have hb1 : b = 1 := by omega
    subst ha0; subst hb1; simp
  | a :: b :: c :: _, h1, h2, _ =>
    have ha := h2 a (by simp)
    have hb := h2 b (by simp)
    have hc := h2 c (by simp)
    simp only [List.pairwise_cons, List.mem_cons, forall_eq_or_imp] at h1
    omega

/-- The energy of one particle, with a repulsion of two neighbours. -/
def twoParticles (c : List Nat) (l : List Int) : ℝ := (c.map fun s : Nat => ((l[s]?.getD 0 : Int) : ℝ)).prod

/-- Two alike sites: an energy of each particle and an interaction of the two are reproduced, in both bases. -/
example (b : Basis) : ∃ (m : LCE ℝ) (keci : List ℝ) (e0 : ℝ) (m' : LCE ℝ),
    build alikeGeometry (b.siteBasis ℝ) [2, 2] none 5 [5, 5, 5] = .ok m ∧ m.getOrbitFingerprints.length = 2 ∧
    m.setParameters (.object keci e0 none none) = (.ok (), m') ∧
    ∀ (e : Event) (occ : List Int) (x : Int → Int), PossibleOccupations b [2, 2] occ e.env →
      LocalOccupations occ e.env x → m'.compute occ e = .ok ((x 0 : ℝ) + ((x 1 : ℝ) + (x 0 : ℝ) * x 1)) := by
  have hb : ∃ m, build alikeGeometry (b.siteBasis ℝ) [2, 2] none 5 [5, 5, 5] = .ok m ∧
      m.getOrbitFingerprints.length = 2 := by
    cases b with
    | occupation => exact ⟨_, rfl, rfl⟩
    | chebyshev k => exact ⟨_, rfl, rfl⟩
  obtain ⟨m, hm, hml⟩ := hb
  have hgroup : ∀ {c}, WantedCluster alikeGeometry [5, 5, 5, 5] 2 c → SiteGroup 2 c :=
    fun h => ⟨h.1, h.2.1, List.length_pos_iff.1 h.2.2.1⟩
  obtain ⟨keci, e0, m', h1, h2⟩ := C125_symmetric_table_reproduced alikeGeometry b [2, 2] (by decide) none 5 [5, 5, 5]
    m hm (fun h => by rw [h] at hml; cases hml) [[0], [1], [0, 1]] twoParticles
    (fun c _ l l' h => by
      unfold twoParticles
      congr 1
      apply List.map_congr_left
      intro s hs
      rw [h s hs])
    (fun c _ c' hc' _ => by
      refine ⟨hc'.1, hc'.2.1, List.length_pos_of_ne_nil hc'.2.2, ?_⟩
      rcases groups_of_two hc' with rfl | rfl | rfl
      · exact ⟨by decide, 5, rfl, by decide⟩
      · exact ⟨by decide, 5, rfl, by decide⟩
      · exact ⟨by decide, 5, rfl, by decide⟩)
    (fun c c' hc hc' heq => by
      have hid : ∀ c : List Nat, ∃ π : Nat → Nat, (∀ s, s < 2 → π s < 2) ∧
          (∀ s t, s < 2 → t < 2 → π s = π t → s = t) ∧ (∀ s, s < 2 → (π s ∈ c ↔ s ∈ c)) ∧
          ∀ x : Int → Int, ([[0], [1], [0, 1]].map fun d => twoParticles d (localStates 2 fun s => x (π s.toNat))).sum =
            ([[0], [1], [0, 1]].map fun d => twoParticles d (localStates 2 x)).sum :=
        fun c => ⟨id, fun s h => h, fun s t _ _ h => h, fun s _ => Iff.rfl, fun x => by
          simp [twoParticles, localStates, List.range_succ]⟩
      have hswap : ∀ c c' : List Nat, (1 ∈ c' ↔ 0 ∈ c) → (0 ∈ c' ↔ 1 ∈ c) → ∃ π : Nat → Nat, (∀ s, s < 2 → π s < 2) ∧
          (∀ s t, s < 2 → t < 2 → π s = π t → s = t) ∧ (∀ s, s < 2 → (π s ∈ c' ↔ s ∈ c)) ∧
          ∀ x : Int → Int, ([[0], [1], [0, 1]].map fun d => twoParticles d (localStates 2 fun s => x (π s.toNat))).sum =
            ([[0], [1], [0, 1]].map fun d => twoParticles d (localStates 2 x)).sum :=
        fun c c' h0 h1 => ⟨fun s => 1 - s, fun s h => by dsimp only; omega, fun s t hs ht h => by dsimp only at h; omega,
          fun s hs => by
            have : s = 0 ∨ s = 1 := by omega
            rcases this with rfl | rfl
            · exact h0
            · exact h1, fun x => by
          simp [twoParticles, localStates, List.range_succ]
          ring⟩
      rcases groups_of_two (hgroup hc) with rfl | rfl | rfl <;> rcases groups_of_two (hgroup hc') with rfl | rfl | rfl
      · exact hid _
      · exact hswap _ _ (by simp) (by simp)
      · exact absurd heq (by decide)
      · exact hswap _ _ (by simp) (by simp)
      · exact hid _
      · exact absurd heq (by decide)
      · exact absurd heq (by decide)
      · exact absurd heq (by decide)
      · exact hid _)
  refine ⟨m, keci, e0, m', hm, hml, h1, fun e occ x hp hl => ?_⟩
  rw [h2 e occ x hp hl]
  simp [twoParticles, localStates, List.range_succ]

/-- Five sites: the group of all five is left out, however large the cutoffs. -/
theorem C125_five_sites_left_out {L : Type} [LinearOrder L] (g : ClusterGeometry L) (cutoff : List L) (n : Nat)
    (hn : 5 ≤ n) : SiteGroup n [0, 1, 2, 3, 4] ∧ ¬ WantedCluster g cutoff n [0, 1, 2, 3, 4] := by
  refine ⟨⟨by decide, ?_, by decide⟩, fun h => absurd h.2.2.2.1 (by decide)⟩
  intro s hs
  have : s < 5 := by
    revert s
    decide
  omega

/-- C125 needs two species per site: with a site that holds one species only, different coefficients give the
same values everywhere (the basis function of such a site is the constant 1). -/
theorem C125_inert_site_undetermined : ∃ (m m1 m2 : LCE ℝ) (p1 p2 : LCEParameters ℝ),
    build unlikeGeometry ((Basis.chebyshev 2).siteBasis ℝ) [1] none 5 [5, 5, 5] = .ok m ∧
    m.getOrbitFingerprints ≠ [] ∧
    m.setParameters p1 = (.ok (), m1) ∧ m.setParameters p2 = (.ok (), m2) ∧ m1.keci ≠ m2.keci ∧
    ∀ (e : Event) (occ : List Int), PossibleOccupations (.chebyshev 2) [1] occ e.env →
      m1.compute occ e = m2.compute occ e := by
  refine ⟨_, _, _, .object [1] 0 none none, .object [0] 1 none none, rfl, List.cons_ne_nil _ _, rfl, rfl, ?_, ?_⟩
  · intro h
    have : (1 : ℝ) = 0 := (List.cons.inj (Option.some.inj h)).1
    exact one_ne_zero this
  · intro e occ hpo
    obtain ⟨i, henv⟩ := List.length_eq_one_iff.1 hpo.1
    have h0 := hpo.2 0 i 1 (by rw [henv]; rfl) rfl
    obtain ⟨v, hv, hv0, hv1⟩ := h0
    have hv2 : v = 0 := by simp only [stateCount] at hv1; omega
    subst hv2
    have hvalid : ValidSurroundings [1] occ e.env := by
      refine ⟨hpo.1, fun s i n hs hn => ?_⟩
      obtain ⟨v, h1, h2, h3⟩ := hpo.2 s i n hs hn
      exact ⟨v, h1, h2, h3⟩
    have hlo : LocalOccupations occ e.env fun _ => 0 := by
      intro s j hs
      rw [henv] at hs
      obtain ⟨k, hk, hkj⟩ := pyGet_ok_iff.1 hs
      have hk0 : k = 0 := by
        have := pyIdx_lt hk
        simp only [List.length_cons, List.length_nil] at this
        omega
      subst hk0
      simp only [List.getElem?_cons_zero, Option.some.injEq] at hkj
      subst hkj
      exact hv
    obtain ⟨k1, c1, _, _, hk1, -, hc1⟩ := C67_built_model_evaluates unlikeGeometry _ (C47_shape ℝ (.chebyshev 2)) [1]
      none 5 [5, 5, 5] _ _ rfl (List.cons_ne_nil _ _) (.object [1] 0 none none) rfl occ e hvalid _ hlo
    obtain ⟨k2, c2, _, _, hk2, -, hc2⟩ := C67_built_model_evaluates unlikeGeometry _ (C47_shape ℝ (.chebyshev 2)) [1]
      none 5 [5, 5, 5] _ _ rfl (List.cons_ne_nil _ _) (.object [0] 1 none none) rfl occ e hvalid _ hlo
    cases hk1
    cases hk2
    rw [hc1, hc2]
    congr 1
    show expansion 0 [1] [decoratedTerm _ (fun _ => 0) [[0]] [[0]]] =
      expansion 1 [0] [decoratedTerm _ (fun _ => 0) [[0]] [[0]]]
    have hone : siteFunction ((Basis.chebyshev 2).siteBasis ℝ) [1] 0 0 0 = 1 := rfl
    simp [expansion, decoratedTerm, hone]

end KMC
