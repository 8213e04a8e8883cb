import Mathlib.Tactic.IntervalCases
import Mathlib.Algebra.Order.Group.Unbundled.Int
import Verif.Lemmas.LatticeSites
/-
C48 (species and occupation values convert both ways) and C72 (structures and occupations
convert both ways).
-/
namespace KMC
open Spec
namespace Lattice
variable {P K : Type}

/-! ### C48 -/

/-- The Chebyshev basis has a value for every state; the occupation basis for two. -/
theorem C48_chebyshev_tells_apart (m : Int) (n : Nat) : TellsApart (.chebyshev m) n := by
  intro i j _ _ h
  simp only [Basis.stateValue] at h
  omega

theorem C48_occupation_tells_two_apart {n : Nat} : TellsApart .occupation n ↔ n ≤ 2 := by
  constructor
  · intro h
    by_contra hc
    have := h 1 2 (by omega) (by omega) (by simp [Basis.stateValue])
    omega
  · intro hn i j hi hj h
    simp only [Basis.stateValue, Basis.matchValue, Basis.mismatchValue] at h
    split at h <;> split at h <;> omega

/-- An allowed species has a value, and the value is that species' value: reading it back gives
the species. -/
theorem C48_species_round_trip {b : Basis} {al : List Specie} (hd : Distinguishable al)
    (hb : TellsApart b al.length) {sp : Specie} (hs : sp ∈ al) :
    ∃ v, occupationValue b (some al) sp = .ok v ∧ speciesFor b (some al) v = .ok sp := by
  obtain ⟨i, hi⟩ := List.getElem?_of_mem hs
  exact ⟨_, (occupationValue_iff _ _ _ _).2 ⟨al, i, rfl, isState_self hd hi, rfl⟩, speciesFor_of hb hi⟩

/-- A value that stands for a species is the value of that species. -/
theorem C48_value_round_trip {b : Basis} {al : List Specie} (hd : Distinguishable al)
    {v : Int} {sp : Specie} (h : speciesFor b (some al) v = .ok sp) :
    occupationValue b (some al) sp = .ok v := by
  obtain ⟨l, i, hl, h1, h2⟩ := speciesFor_ok h
  cases hl
  exact (occupationValue_iff _ _ _ _).2 ⟨al, i, rfl, isState_self hd h1, h2⟩

/-- Whatever species is accepted, the value found for it reads back as an equivalent allowed
species (also when the allowed species are not distinguishable). -/
theorem C48_equivalent_read_back {b : Basis} {al : List Specie} (hb : TellsApart b al.length)
    {sp : Specie} {v : Int} (h : occupationValue b (some al) sp = .ok v) :
    ∃ a ∈ al, sp.equivalent a = true ∧ speciesFor b (some al) v = .ok a := by
  obtain ⟨l, i, hl, ⟨⟨a, h1, h2⟩, -⟩, rfl⟩ := (occupationValue_iff _ _ _ _).1 h
  cases hl
  exact ⟨a, List.mem_of_getElem? h1, h2, speciesFor_of hb h1⟩

/-- A species is rejected exactly when no allowed species is equivalent to it. -/
theorem C48_rejected_iff (b : Basis) (al : List Specie) (sp : Specie) :
    occupationValue b (some al) sp = .error .valueError ↔ ∀ a ∈ al, sp.equivalent a = false := by
  cases al with
  | nil => simp [occupationValue]
  | cons s ss =>
    rw [← firstEquivalent_none]
    unfold occupationValue
    simp only
    cases h : firstEquivalent sp (s :: ss) with
    | none => simp
    | some i => simp

/-- On a site without allowed species every species and every value is rejected. -/
theorem C48_no_allowed (b : Basis) (sp : Specie) (v : Int) :
    occupationValue b none sp = .error .valueError ∧ speciesFor b none v = .error .valueError := ⟨rfl, rfl⟩

/-- A value is rejected exactly when it is no state's value. -/
theorem C48_value_rejected_iff (b : Basis) (al : List Specie) (v : Int) :
    speciesFor b (some al) v = .error .valueError ↔
      ∀ i : Nat, i < al.length → v ≠ b.stateValue (i : Int) := by
  have key : ∀ (l : List Specie) (c : Nat), findValue b v c l = none ↔
      ∀ i : Nat, i < l.length → v ≠ b.stateValue ((c + i : Nat) : Int) := by
    intro l
    induction l with
    | nil => intro c; simp [findValue]
    | cons s ss ih =>
      intro c
      unfold findValue
      by_cases h : v = b.stateValue (c : Int)
      · rw [if_pos h]
        simp only [reduceCtorEq, false_iff]
        intro hc
        exact hc 0 (by simp) h
      · rw [if_neg h, ih]
        constructor
        · intro h' i hi
          cases i with
          | zero => exact h
          | succ i =>
            have := h' i (by simpa using hi)
            rw [show c + 1 + i = c + (i + 1) by omega] at this
            exact this
        · intro h' i hi
          rw [show c + 1 + i = c + (i + 1) by omega]
          exact h' (i + 1) (by simpa using hi)
  cases al with
  | nil => simp [speciesFor]
  | cons s ss =>
    have h0 := key (s :: ss) 0
    simp only [Nat.zero_add] at h0
    rw [← h0]
    unfold speciesFor
    simp only
    cases h : findValue b v 0 (s :: ss) with
    | none => simp
    | some i => simp

/-- On every site of a lattice structure, values found for species are valid values of its
basis. -/
theorem C48_value_in_range {template : List (Specie × P)} {mapping : List (Specie × List Specie)}
    {bt : String} {l : Lattice P} (h : mk' template mapping bt = .ok l) {a : Option (List Specie)}
    (ha : a ∈ l.allowed) {sp : Specie} {v : Int} (hv : occupationValue l.basis a sp = .ok v) :
    l.basis.validValue v = true := by
  obtain ⟨al, i, rfl, ⟨⟨x, hx, -⟩, -⟩, rfl⟩ := (occupationValue_iff _ _ _ _).1 hv
  have hi : i < al.length := by
    by_contra hc; rw [List.getElem?_eq_none (by omega)] at hx; cases hx
  have hm := (mk'_ok h).2.2.2.2
  cases hb : l.basis with
  | occupation =>
    simp only [Basis.stateValue, Basis.validValue, Basis.matchValue, Basis.mismatchValue]
    split <;> rfl
  | chebyshev m =>
    have := hm m hb al ha
    show decide (0 ≤ (i : Int) ∧ (i : Int) < m) = true
    rw [decide_eq_true_eq]
    omega

/-- The same for the value of an empty site. -/
theorem C48_empty_in_range {template : List (Specie × P)} {mapping : List (Specie × List Specie)}
    {bt : String} {l : Lattice P} (h : mk' template mapping bt = .ok l) {a : Option (List Specie)}
    (ha : a ∈ l.allowed) : l.basis.validValue (missingValue l.basis a) = true := by
  have hm := (mk'_ok h).2.2.2.2
  have h2 : ∀ m, l.basis = .chebyshev m → 2 ≤ m := by
    intro m hb
    unfold mk' at h
    simp only at h
    split at h
    · cases h
    · split at h
      · cases h
      · rename_i b hb'
        cases h
        simp only at hb
        subst hb
        split at hb'
        · unfold Basis.mkChebyshev at hb'
          split at hb'
          · cases hb'
          · cases hb'; omega
        · unfold Basis.getBasis Basis.mkChebyshev at hb'
          split at hb'
          · cases hb'
          · cases hb'
  have hs := missingValue_spec l.basis a
  generalize missingValue l.basis a = v at hs
  cases hb : l.basis with
  | occupation =>
    rw [hb] at hs
    unfold EmptyValue at hs
    have hst : ∀ i : Int, Basis.occupation.validValue (Basis.occupation.stateValue i) = true := by
      intro i
      simp only [Basis.stateValue, Basis.validValue, Basis.matchValue, Basis.mismatchValue]
      split <;> rfl
    split at hs
    · subst hs; rfl
    · subst hs; rfl
    · rcases hs with ⟨i, -, -, -, -, rfl⟩ | ⟨-, rfl⟩ <;> exact hst _
  | chebyshev m =>
    have hm2 := h2 m hb
    have hlen := hm m hb
    rw [hb] at hs
    unfold EmptyValue at hs
    simp only [Basis.validValue, decide_eq_true_eq]
    split at hs
    · subst hs; simp only [Basis.mismatchValue]; omega
    · subst hs; simp only [Basis.mismatchValue]; omega
    · rename_i s ss
      rcases hs with ⟨i, x, hx, -, -, rfl⟩ | ⟨-, rfl⟩
      · have hi : i < (s :: ss).length := by
          by_contra hc; rw [List.getElem?_eq_none (by omega)] at hx; cases hx
        have := hlen _ ha
        simp only [Basis.stateValue]
        omega
      · simp only [Basis.stateValue]
        split <;> omega

/-- Different allowed species get different values. -/
theorem C48_distinct_values {b : Basis} {al : List Specie} (hd : Distinguishable al)
    (hb : TellsApart b al.length) {s t : Specie} (hs : s ∈ al) (ht : t ∈ al) (v : Int)
    (h1 : occupationValue b (some al) s = .ok v) (h2 : occupationValue b (some al) t = .ok v) : s = t := by
  obtain ⟨v1, h3, h4⟩ := C48_species_round_trip hd hb hs
  obtain ⟨v2, h5, h6⟩ := C48_species_round_trip hd hb ht
  rw [h1] at h3; cases h3
  rw [h2] at h5; cases h5
  rw [h4] at h6; cases h6
  rfl

/-- The species of the examples. -/
def sNa : Specie := .ofElement "Na" "Na+"
def sSb : Specie := .ofElement "Sb" "Sb5+"
def sW : Specie := .ofElement "W" "W6+"
def sFe2 : Specie := .ofElement "Fe" "Fe2+"
def sFe3 : Specie := .ofElement "Fe" "Fe3+"

/-- The hypotheses are met: sodium or vacancy, and the round trips are as expected. -/
example : Distinguishable [sNa, .vacancy] ∧ TellsApart (.chebyshev 2) 2 ∧ TellsApart .occupation 2 ∧
    occupationValue .occupation (some [sNa, .vacancy]) sNa = .ok 1 ∧
    occupationValue (.chebyshev 2) (some [sNa, .vacancy]) (.ofText "Va") = .ok 1 ∧
    occupationValue (.chebyshev 2) (some [sNa, .vacancy]) sSb = .error .valueError :=
  ⟨by simp [Distinguishable]; decide, C48_chebyshev_tells_apart 2 2,
    C48_occupation_tells_two_apart.2 (by omega), by decide, by decide, by decide⟩

/-- Two oxidation states of one element are the same to the code: the second can never be
found, and its value reads back as the first (so the round trip needs distinguishable species). -/
theorem C48_mixed_valence_conflated :
    ∃ (al : List Specie) (sp : Specie) (v : Int), sp ∈ al ∧
      occupationValue (.chebyshev 2) (some al) sp = .ok v ∧
      ∃ other, speciesFor (.chebyshev 2) (some al) v = .ok other ∧ other ≠ sp :=
  ⟨[sFe2, sFe3], sFe3, 0, by decide, by decide, sFe2, by decide, by decide⟩

/-- With the occupation basis and three allowed species the third reads back as the second. -/
theorem C48_occupation_three_species :
    ∃ (al : List Specie) (sp : Specie) (v : Int), Distinguishable al ∧ sp ∈ al ∧
      occupationValue .occupation (some al) sp = .ok v ∧
      ∃ other, speciesFor .occupation (some al) v = .ok other ∧ other ≠ sp :=
  ⟨[sNa, sSb, sW], sW, 0, by simp [Distinguishable]; decide, by decide, by decide, sSb, by decide, by decide⟩

/-- Equivalence of species is reflexive and symmetric, but not transitive: a plain "Fe" is
equivalent to both "Fe2+" and "Fe3+" written as texts, which are not equivalent. -/
theorem C48_equivalence :
    (∀ a : Specie, a.equivalent a = true) ∧ (∀ a b : Specie, a.equivalent b = b.equivalent a) ∧
    ∃ a b c : Specie, a.equivalent b = true ∧ b.equivalent c = true ∧ a.equivalent c = false :=
  ⟨Specie.equivalent_refl, Specie.equivalent_symm, .ofText "Fe2+",
    ⟨false, "Fe2+", some "Fe", some "Fe"⟩, .ofText "Fe", by decide, by decide, by decide⟩

/-- Every way of writing a vacancy is a vacancy, and all are equivalent. -/
theorem C48_vacancies_equivalent {a b : Specie} (ha : a.isVacancy = true) (hb : b.isVacancy = true) :
    a.equivalent b = true := Specie.equivalent_of_vacancy ha hb

/-! ### C72 -/

/-- The allowed species of the supercell sites. -/
def supercellAllowed (l : Lattice P) (super : List (Nat × P)) (allowed : List (Option (List Specie))) : Prop :=
  List.Forall₂ (fun s a => l.allowed[s.1]? = some a) super allowed

theorem supercellAllowed_iff {l : Lattice P} {super : List (Nat × P)} {allowed : List (Option (List Specie))} :
    pyGetAll l.allowed (super.map fun s => (s.1 : Int)) = .ok allowed ↔ supercellAllowed l super allowed := by
  rw [pyGetAll_ok_iff, List.forall₂_map_left_iff]
  unfold supercellAllowed
  have : ∀ (s : Nat × P) a, pyGet l.allowed ((s.1 : Int)) = .ok a ↔ l.allowed[s.1]? = some a := by
    intro s a
    constructor
    · intro h
      obtain ⟨k, h1, h2⟩ := pyGet_ok_iff.1 h
      have := pyIdx_some_nonneg h1 (by omega)
      have hk : k = s.1 := by omega
      subst hk
      exact h2
    · exact pyGet_natCast
  constructor
  · intro h; exact h.imp fun s a => (this s a).1
  · intro h; exact h.imp fun s a => (this s a).2

/-- The atoms of a structure with the site each is placed on: the nearest, within tolerance. -/
def PlacedBy [LinearOrder K] (dist : P → P → K) (tol : K) (sites : List P) (structure' : List (Specie × P))
    (atoms : List (Specie × Nat)) : Prop :=
  List.Forall₂ (fun s a => a.1 = s.1 ∧ ∃ d, Nearest dist sites s.2 a.2 d ∧ d ≤ tol) structure' atoms

/-- Reading a structure succeeds exactly when every atom has a site within tolerance, no two
atoms share their nearest site, and every species is allowed there; the result describes the
atoms on their sites and nothing else. -/
theorem C72_structure_to_occupation [LinearOrder K] {l : Lattice P} {dist : P → P → K} {tol : K}
    {super : List (Nat × P)} {allowed : List (Option (List Specie))}
    (ha : supercellAllowed l super allowed) (structure' : List (Specie × P)) (o : Occupation) :
    getOcc l dist tol super true structure' none = .ok o ↔
      o.basis = l.basis ∧ ∃ atoms, PlacedBy dist tol (super.map (·.2)) structure' atoms ∧
        (atoms.map (·.2)).Nodup ∧ DescribesAtoms l.basis allowed atoms o.data := by
  unfold getOcc
  rw [supercellAllowed_iff.2 ha]
  simp only
  have hbase : assign l.basis allowed (([] : List (Specie × Nat)).map fun a => (a.1, (a.2 : Int)))
      (allowed.map (missingValue l.basis)) = .ok (allowed.map (missingValue l.basis)) := rfl
  by_cases hst : structure' = []
  · subst hst
    rw [if_pos rfl]
    constructor
    · intro h
      cases h
      exact ⟨rfl, [], .nil, List.nodup_nil, assign_describes List.nodup_nil hbase⟩
    · rintro ⟨hb, atoms, hp, -, hd⟩
      cases hp
      rw [← describes_unique hd (assign_describes List.nodup_nil hbase), ← hb]
  · rw [if_neg hst]
    simp only [Bool.not_true, Bool.false_eq_true, if_false]
    -- atoms and integer indices
    have toAtoms : ∀ (st : List (Specie × P)) (is : List Int),
        List.Forall₂ (fun p i => ∃ (k : Nat) (d : K), i = (k : Int) ∧
          Nearest dist (super.map (·.2)) p k d ∧ d ≤ tol) (st.map (·.2)) is →
        ∃ atoms, PlacedBy dist tol (super.map (·.2)) st atoms ∧
          is = atoms.map (fun a => (a.2 : Int)) ∧
          (st.map (·.1)).zip is = atoms.map fun a => (a.1, (a.2 : Int)) := by
      intro st
      induction st with
      | nil => intro is h; cases h; exact ⟨[], .nil, rfl, rfl⟩
      | cons s st ih =>
        intro is h
        cases h with
        | cons h1 h2 =>
          obtain ⟨k, d, rfl, hn, hd⟩ := h1
          obtain ⟨atoms, h3, rfl, h4⟩ := ih _ h2
          exact ⟨(s.1, k) :: atoms, .cons ⟨rfl, d, hn, hd⟩ h3, rfl, by simp [h4]⟩
    have ofAtoms : ∀ (st : List (Specie × P)) (atoms : List (Specie × Nat)),
        PlacedBy dist tol (super.map (·.2)) st atoms →
        List.Forall₂ (fun p i => ∃ (k : Nat) (d : K), i = (k : Int) ∧
          Nearest dist (super.map (·.2)) p k d ∧ d ≤ tol) (st.map (·.2)) (atoms.map fun a => (a.2 : Int)) ∧
        (st.map (·.1)).zip (atoms.map fun a => (a.2 : Int)) = atoms.map fun a => (a.1, (a.2 : Int)) := by
      intro st atoms h
      induction h with
      | nil => exact ⟨.nil, rfl⟩
      | @cons s a st atoms h1 h2 ih =>
        obtain ⟨h3, d, hn, hd⟩ := h1
        refine ⟨.cons ⟨a.2, d, rfl, hn, hd⟩ ih.1, ?_⟩
        simp [ih.2, h3]
    have hnod : ∀ atoms : List (Specie × Nat),
        (atoms.map fun a => (a.2 : Int)).Nodup ↔ (atoms.map (·.2)).Nodup := by
      intro atoms
      have : (atoms.map fun a => (a.2 : Int)) = (atoms.map (·.2)).map (fun n : Nat => (n : Int)) := by simp
      rw [this]
      exact List.nodup_map_iff (fun a b h => by simpa using h)
    constructor
    · intro h
      split at h
      · cases h
      · rename_i is his
        obtain ⟨atoms, h1, rfl, h2⟩ := toAtoms _ _ ((inferMapping_iff _ _ _ _ _).1 his)
        split at h
        · cases h
        · rename_i hn
          rw [h2] at h
          split at h
          · cases h
          · rename_i occ' hocc
            cases h
            have hn' := (hnod atoms).1 (not_not.1 hn)
            exact ⟨rfl, atoms, h1, hn', assign_describes hn' hocc⟩
    · rintro ⟨hb, atoms, hp, hn, hd⟩
      obtain ⟨h1, h2⟩ := ofAtoms _ _ hp
      rw [(inferMapping_iff _ _ _ _ _).2 h1]
      simp only
      rw [if_neg (not_not.2 ((hnod atoms).2 hn)), h2]
      obtain ⟨occ', hocc⟩ := assign_total (b := l.basis) (allowed := allowed) (atoms := atoms)
        (occ := allowed.map (missingValue l.basis)) (by simp) fun sp k hm => by
          obtain ⟨al, i, h3, h4, -⟩ := hd.onSite sp k hm
          exact ⟨al, i, h3, h4⟩
      rw [hocc]
      simp only
      rw [← describes_unique hd (assign_describes hn hocc), ← hb]

/-- The order of the atoms in the structure does not matter. -/
theorem C72_atom_order_irrelevant [LinearOrder K] {l : Lattice P} {dist : P → P → K} {tol : K}
    {super : List (Nat × P)} {allowed : List (Option (List Specie))}
    (ha : supercellAllowed l super allowed) {st st' : List (Specie × P)} (hp : st.Perm st')
    {o : Occupation} (h : getOcc l dist tol super true st none = .ok o) :
    getOcc l dist tol super true st' none = .ok o := by
  rw [C72_structure_to_occupation ha] at h ⊢
  obtain ⟨hb, atoms, h1, h2, h3⟩ := h
  have : ∃ atoms', atoms.Perm atoms' ∧ PlacedBy dist tol (super.map (·.2)) st' atoms' := by
    unfold PlacedBy at h1 ⊢
    obtain ⟨w, h4, h5⟩ := List.perm_comp_forall₂ hp.symm h1
    exact ⟨w, h5.symm, h4⟩
  obtain ⟨atoms', hp', h1'⟩ := this
  exact ⟨hb, atoms', h1', (hp'.map _).nodup_iff.1 h2, describes_perm (fun x => hp'.mem_iff) h3⟩

/-- An atom further than the tolerance from every site makes the reading fail. -/
theorem C72_far_atom_rejected [LinearOrder K] {l : Lattice P} {dist : P → P → K} {tol : K}
    {super : List (Nat × P)} {allowed : List (Option (List Specie))}
    (ha : supercellAllowed l super allowed) {st : List (Specie × P)} {sp : Specie} {p : P}
    (hm : (sp, p) ∈ st) (hf : ∀ s ∈ super, tol < dist s.2 p) :
    getOcc l dist tol super true st none = .error .valueError := by
  have hne : st ≠ [] := by rintro rfl; cases hm
  unfold getOcc
  rw [supercellAllowed_iff.2 ha]
  simp only [hne, if_false, Bool.not_true, Bool.false_eq_true]
  cases h : inferMapping dist tol (super.map (·.2)) (st.map (·.2)) with
  | error e => simp only; rw [inferMapping_error h]
  | ok is =>
    exfalso
    have h1 := (inferMapping_iff _ _ _ _ _).1 h
    obtain ⟨i, hi⟩ := List.getElem?_of_mem (List.mem_map.2 ⟨(sp, p), hm, rfl⟩ : p ∈ st.map (·.2))
    have hlt : i < (st.map (·.2)).length := by
      by_contra hc; rw [List.getElem?_eq_none (by omega)] at hi; cases hi
    have h2 := List.forall₂_iff_get.1 h1
    obtain ⟨k, d, -, hn, hd⟩ := h2.2 i hlt (by rw [← h2.1]; exact hlt)
    rw [List.getElem?_eq_getElem hlt] at hi
    simp only [List.get_eq_getElem] at hn
    rw [Option.some.inj hi] at hn
    obtain ⟨⟨q, hq, rfl⟩, -⟩ := hn
    obtain ⟨s, hs, rfl⟩ := List.mem_map.1 (List.mem_of_getElem? hq)
    exact absurd (hf s hs) (not_lt.2 hd)

/-- A structure whose lattice does not match is rejected, unless it is empty. -/
theorem C72_lattice_mismatch_rejected [LinearOrder K] {l : Lattice P} {dist : P → P → K} {tol : K}
    {super : List (Nat × P)} {allowed : List (Option (List Specie))}
    (ha : supercellAllowed l super allowed) {st : List (Specie × P)} (hne : st ≠ [])
    (m : Option (List Int)) : getOcc l dist tol super false st m = .error .valueError := by
  unfold getOcc
  rw [supercellAllowed_iff.2 ha]
  simp [hne]

/-- Writing an occupation as a structure: when it succeeds, the structure lists, in site order,
the species whose state the site is in, leaving out vacancies. -/
theorem C72_occupation_to_structure {l : Lattice P} {sites : List (Specie × P)} {diag : Int × Int × Int}
    {o : Occupation} {st : List (Specie × P)} (h : getStructure l sites diag o = .ok st) :
    ∃ sps : List Specie,
      List.Forall₂ (fun (s : Specie × P) (va : Int × Specie) =>
        ∃ (al : List Specie) (i : Nat), allowedFor l.siteMapping s.1 = some al ∧ al[i]? = some va.2 ∧
          va.1 = l.basis.stateValue (i : Int)) sites (o.data.zip sps) ∧
      sps.length = sites.length ∧ o.data.length = sites.length ∧
      st = (sps.zip (sites.map (·.2))).filter fun s => !s.1.isVacancy := by
  unfold getStructure at h
  split at h
  · cases h
  split at h
  · cases h
  · rename_i hlen
    split at h
    · cases h
    · rename_i l' hl'
      obtain ⟨-, -, hal, hname, -⟩ := mk'_ok hl'
      split at h
      · cases h
      · rename_i ss hss
        cases h
        have key : ∀ (vs : List Int) (c : Nat) (ss : List Specie),
            speciesAt l'.basis l'.allowed c vs = .ok ss → c + vs.length = sites.length →
            ss.length = vs.length ∧
            List.Forall₂ (fun (s : Specie × P) (va : Int × Specie) =>
              ∃ (al : List Specie) (i : Nat), allowedFor l.siteMapping s.1 = some al ∧ al[i]? = some va.2 ∧
                va.1 = l.basis.stateValue (i : Int)) (sites.drop c) (vs.zip ss) := by
          intro vs
          induction vs with
          | nil =>
            intro c ss h hc
            cases h
            refine ⟨rfl, ?_⟩
            simp only [List.length_nil, Nat.add_zero] at hc
            rw [hc, List.drop_length]
            exact .nil
          | cons v vs ih =>
            intro c ss h hc
            simp only [List.length_cons] at hc
            unfold speciesAt at h
            split at h
            · cases h
            · rename_i a ha
              split at h
              · cases h
              · rename_i s hs
                split at h
                · cases h
                · rename_i ss' hss'
                  cases h
                  obtain ⟨h1, h2⟩ := ih (c + 1) ss' hss' (by omega)
                  refine ⟨by simp [h1], ?_⟩
                  have hcl : c < sites.length := by omega
                  rw [List.drop_eq_getElem_cons hcl, List.zip_cons_cons]
                  refine .cons ?_ h2
                  obtain ⟨al, i, rfl, h3, rfl⟩ := speciesFor_ok hs
                  have hac : l'.allowed[c]? = some (some al) := by
                    obtain ⟨k, h4, h5⟩ := pyGet_ok_iff.1 ha
                    have := pyIdx_some_nonneg h4 (by omega)
                    have hk : k = c := by omega
                    subst hk
                    exact h5
                  rw [hal, List.getElem?_map, List.getElem?_eq_getElem hcl] at hac
                  exact ⟨al, i, Option.some.inj hac, h3, stateValue_name hname _⟩
        obtain ⟨h1, h2⟩ := key o.data 0 ss hss (by simpa using hlen)
        simp only [ne_eq, not_not] at hlen
        exact ⟨ss, by simpa using h2, by omega, hlen, rfl⟩

theorem mk'_total {template : List (Specie × P)} {mapping : List (Specie × List Specie)} {bt : String}
    (hb : bt = "chebyshev" ∨ bt = "occupation")
    (h : ∃ s ∈ template, ∃ x xs, allowedFor mapping s.1 = some (x :: xs)) :
    ∃ l : Lattice P, mk' template mapping bt = .ok l := by
  have hm : ∃ m, maxStates (template.map fun s => allowedFor mapping s.1) = some m := by
    obtain ⟨s, hs, x, xs, ha⟩ := h
    have hmem : some (x :: xs) ∈ template.map fun s => allowedFor mapping s.1 :=
      List.mem_map.2 ⟨s, hs, ha⟩
    generalize (template.map fun s => allowedFor mapping s.1) = L at hmem
    induction L with
    | nil => cases hmem
    | cons a L ih =>
      unfold maxStates
      rcases List.mem_cons.1 hmem with rfl | hmem
      · cases maxStates L <;> exact ⟨_, rfl⟩
      · obtain ⟨m, hm⟩ := ih hmem
        rw [hm]
        cases a with
        | none => exact ⟨_, rfl⟩
        | some a => cases a <;> exact ⟨_, rfl⟩
  obtain ⟨m, hm⟩ := hm
  unfold mk'
  simp only [hm]
  rcases hb with rfl | rfl
  · simp only [if_true, Basis.mkChebyshev]
    rw [if_neg (by omega)]
    exact ⟨_, rfl⟩
  · exact ⟨_, rfl⟩

/-- Writing succeeds for every occupation whose values are states of their sites. -/
theorem C72_structure_exists {l : Lattice P} {sites : List (Specie × P)} {diag : Int × Int × Int}
    {o : Occupation} (hs : sites ≠ []) (hdiag : l.copiedLength diag = sites.length)
    (ho : StatesOf l.basis (sites.map fun s => allowedFor l.siteMapping s.1) o.data) :
    ∃ st, getStructure l sites diag o = .ok st := by
  have hlen : o.data.length = sites.length := by
    have := ho.length_eq
    simpa using this.symm
  unfold getStructure
  rw [if_neg (by omega), if_neg (by omega)]
  obtain ⟨l', hl'⟩ := mk'_total (template := sites) (mapping := l.siteMapping) (bt := l.basis.name)
    (by cases l.basis <;> simp [Basis.name]) (by
      cases sites with
      | nil => exact absurd rfl hs
      | cons s ss =>
        refine ⟨s, List.mem_cons_self, ?_⟩
        unfold StatesOf at ho
        rw [List.map_cons] at ho
        cases hd : o.data with
        | nil => rw [hd] at ho; cases ho
        | cons v vs =>
          rw [hd] at ho
          cases ho with
          | cons h1 _ =>
            obtain ⟨al, i, h2, h3, -⟩ := h1
            cases al with
            | nil => simp at h3
            | cons x xs => exact ⟨x, xs, h2⟩)
  obtain ⟨-, -, hal, hname, -⟩ := mk'_ok hl'
  rw [hl']
  simp only
  suffices h : ∀ (vs : List Int) (c : Nat), StatesOf l.basis (l'.allowed.drop c) vs →
      ∃ ss, speciesAt l'.basis l'.allowed c vs = .ok ss by
    obtain ⟨ss, h⟩ := h o.data 0 (by rw [hal]; simpa using ho)
    rw [h]
    exact ⟨_, rfl⟩
  intro vs
  induction vs with
  | nil => intro c _; exact ⟨[], rfl⟩
  | cons v vs ih =>
    intro c hc
    have hcl : c < l'.allowed.length := by
      by_contra hcon
      rw [List.drop_eq_nil_of_le (by omega)] at hc
      cases hc
    rw [List.drop_eq_getElem_cons hcl] at hc
    cases hc with
    | cons h1 h2 =>
      obtain ⟨al, i, h3, h4, rfl⟩ := h1
      obtain ⟨ss, hss⟩ := ih (c + 1) h2
      have hg : l'.allowed[c]? = some (some al) := by rw [List.getElem?_eq_getElem hcl, h3]
      unfold speciesAt
      rw [pyGet_natCast hg]
      simp only
      cases hsf : speciesFor l'.basis (some al) (l.basis.stateValue (i : Int)) with
      | ok s => simp only [hss]; exact ⟨_, rfl⟩
      | error e =>
        exfalso
        have he : e = .valueError := by
          unfold speciesFor at hsf
          split at hsf
          · cases hsf; rfl
          · cases hsf; rfl
          · split at hsf
            · cases hsf
            · cases hsf; rfl
        subst he
        exact (C48_value_rejected_iff _ _ _).1 hsf i h4 (stateValue_name hname.symm _)

theorem sameSites_allowed {template : List (Specie × P)} {mapping : List (Specie × List Specie)}
    {bt : String} {l : Lattice P} (h : mk' template mapping bt = .ok l) {super : List (Nat × P)}
    {sites : List (Specie × P)} (hs : SameSites l super sites) :
    supercellAllowed l super (sites.map fun s => allowedFor l.siteMapping s.1) ∧
    super.map (·.2) = sites.map (·.2) := by
  obtain ⟨ht, hmap, hal, -, -⟩ := mk'_ok h
  unfold SameSites at hs
  unfold supercellAllowed
  induction sites generalizing super with
  | nil =>
    cases super with
    | nil => exact ⟨.nil, rfl⟩
    | cons a s => simp at hs
  | cons s sites ih =>
    cases super with
    | nil => simp at hs
    | cons a super =>
      simp only [List.map_cons, List.cons.injEq, Prod.mk.injEq] at hs
      obtain ⟨⟨h1, h2⟩, h3⟩ := hs
      obtain ⟨h4, h5⟩ := ih h3
      refine ⟨.cons ?_ h4, by simp [h5, h2]⟩
      rw [hal, List.getElem?_map]
      rw [ht] at h1
      cases hx : template[a.1]? with
      | none => rw [hx] at h1; cases h1
      | some x =>
        rw [hx] at h1
        have h6 := Option.some.inj h1
        simp only at h6
        show some (allowedFor mapping x.1) = some (allowedFor l.siteMapping s.1)
        rw [h6, hmap]

theorem nearest_self [LinearOrder K] [Zero K] {dist : P → P → K} {sites : List P}
    (hs : Separated dist sites) {i : Nat} {p : P} (h : sites[i]? = some p) :
    Nearest dist sites p i 0 := by
  refine ⟨⟨p, h, hs.self p (List.mem_of_getElem? h)⟩, ?_⟩
  intro j r hr
  by_cases hj : j = i
  · subst hj
    rw [h] at hr
    cases hr
    exact ⟨le_of_eq (hs.self p (List.mem_of_getElem? h)).symm, fun hc => absurd hc (by omega)⟩
  · have := hs.other j i r p hr h hj
    exact ⟨le_of_lt this, fun _ => this⟩

/-- The atoms written for a list of species, one per site. -/
def atomsOf (sps : List Specie) : List (Specie × Nat) :=
  (sps.zip (List.range' 0 sps.length)).filter fun a => !a.1.isVacancy

theorem mem_atomsOf {sps : List Specie} {sp : Specie} {k : Nat} :
    (sp, k) ∈ atomsOf sps ↔ sps[k]? = some sp ∧ sp.isVacancy = false := by
  unfold atomsOf
  rw [List.mem_filter]
  have : (sp, k) ∈ sps.zip (List.range' 0 sps.length) ↔ sps[k]? = some sp := by
    rw [List.mem_iff_getElem?]
    constructor
    · rintro ⟨i, hi⟩
      rw [List.getElem?_zip_eq_some] at hi
      obtain ⟨h1, h2⟩ := hi
      rw [List.getElem?_eq_some_iff] at h2
      obtain ⟨h3, h4⟩ := h2
      simp at h4
      subst h4
      exact h1
    · intro h
      refine ⟨k, ?_⟩
      rw [List.getElem?_zip_eq_some]
      refine ⟨h, ?_⟩
      have hk : k < sps.length := by
        by_contra hc; rw [List.getElem?_eq_none (by omega)] at h; cases h
      rw [List.getElem?_eq_getElem (by simpa using hk)]
      simp
  rw [this]
  simp

theorem atomsOf_nodup (sps : List Specie) : ((atomsOf sps).map (·.2)).Nodup := by
  unfold atomsOf
  refine List.Nodup.sublist (List.filter_sublist.map _) ?_
  rw [List.map_snd_zip (by simp)]
  exact List.nodup_range'

theorem placed_atomsOf [LinearOrder K] [Zero K] {dist : P → P → K} {sites : List P} {tol : K}
    (hs : Separated dist sites) (ht : 0 ≤ tol) {sps : List Specie} (hl : sps.length = sites.length) :
    PlacedBy dist tol sites ((sps.zip sites).filter fun s => !s.1.isVacancy) (atomsOf sps) := by
  have key : ∀ (ps : List P) (sps : List Specie) (c : Nat), sps.length = ps.length →
      (∀ (i : Nat) p, ps[i]? = some p → sites[c + i]? = some p) →
      PlacedBy dist tol sites ((sps.zip ps).filter fun s => !s.1.isVacancy)
        ((sps.zip (List.range' c sps.length)).filter fun a => !a.1.isVacancy) := by
    intro ps
    induction ps with
    | nil =>
      intro sps c h _
      cases sps with
      | nil => exact .nil
      | cons a s => cases h
    | cons p ps ih =>
      intro sps c h hp
      cases sps with
      | nil => cases h
      | cons a sps =>
        have h1 := ih sps (c + 1) (by simpa using h) (by
          intro i q hq
          rw [show c + 1 + i = c + (i + 1) by omega]
          exact hp (i + 1) q (by simpa using hq))
        simp only [List.length_cons, List.range'_succ, List.zip_cons_cons, List.filter_cons]
        split
        · exact .cons ⟨rfl, 0, nearest_self hs (hp 0 p rfl), ht⟩ h1
        · exact h1
  exact key sites sps 0 hl (by simp)

/-- Writing an occupation as a structure and reading it again gives the occupation: for every
lattice structure, supercell and occupation whose values are states of their sites, when the
allowed species can be told apart. -/
theorem C72_occupation_round_trip [LinearOrder K] [Zero K] {template : List (Specie × P)}
    {mapping : List (Specie × List Specie)} {bt : String} {l : Lattice P}
    (hl : mk' template mapping bt = .ok l) {super : List (Nat × P)} {sites : List (Specie × P)}
    (hs : SameSites l super sites) {dist : P → P → K} {tol : K} (ht : 0 ≤ tol)
    (hsep : Separated dist (sites.map (·.2))) {diag : Int × Int × Int}
    (hdiag : l.copiedLength diag = sites.length) (hne : sites ≠ [])
    (hd : ∀ s ∈ sites, ∀ al, allowedFor l.siteMapping s.1 = some al →
      Distinguishable al ∧ TellsApart l.basis al.length)
    {o : Occupation} (hb : o.basis = l.basis)
    (ho : StatesOf l.basis (sites.map fun s => allowedFor l.siteMapping s.1) o.data) :
    ∃ st, getStructure l sites diag o = .ok st ∧
      getOcc l dist tol super true st none = .ok o := by
  obtain ⟨hsup, hpos⟩ := sameSites_allowed hl hs
  obtain ⟨st, hst⟩ := C72_structure_exists hne hdiag ho
  refine ⟨st, hst, ?_⟩
  rw [C72_structure_to_occupation hsup]
  obtain ⟨sps, h1, h2, h3, rfl⟩ := C72_occupation_to_structure hst
  refine ⟨hb, atomsOf sps, ?_, atomsOf_nodup sps, ?_⟩
  · rw [hpos]
    exact placed_atomsOf hsep ht (by simpa using h2)
  · have at' : ∀ (k : Nat) s, sites[k]? = some s → ∃ (sp : Specie) (v : Int) (al : List Specie) (i : Nat), sps[k]? = some sp ∧ o.data[k]? = some v ∧
        allowedFor l.siteMapping s.1 = some al ∧ al[i]? = some sp ∧ v = l.basis.stateValue (i : Int) := by
      intro k s hk
      have hkl : k < sites.length := by
        by_contra hc; rw [List.getElem?_eq_none (by omega)] at hk; cases hk
      have h4 := List.forall₂_iff_get.1 h1
      obtain ⟨al, i, h5, h6, h7⟩ := h4.2 k hkl (by simp; omega)
      rw [List.getElem?_eq_getElem hkl] at hk
      simp only [List.get_eq_getElem, List.getElem_zip] at h5 h6 h7
      rw [Option.some.inj hk] at h5
      exact ⟨sps[k], o.data[k], al, i, List.getElem?_eq_getElem (by omega),
        List.getElem?_eq_getElem (by omega), h5, h6, h7⟩
    refine ⟨by simpa using h3, ?_, ?_⟩
    · intro sp k hm
      obtain ⟨hk, hv⟩ := mem_atomsOf.1 hm
      have hkl : k < sites.length := by
        by_contra hc; rw [List.getElem?_eq_none (by omega)] at hk; cases hk
      obtain ⟨sp', v, al, i, h5, h6, h7, h8, rfl⟩ := at' k _ (List.getElem?_eq_getElem hkl)
      rw [hk] at h5
      cases h5
      refine ⟨al, i, ?_, isState_self (hd _ (List.getElem_mem hkl) al h7).1 h8, h6⟩
      rw [List.getElem?_map, List.getElem?_eq_getElem hkl]
      exact congrArg some h7
    · intro k a ha hm
      have hkl : k < sites.length := by
        by_contra hc; rw [List.getElem?_eq_none (by simp; omega)] at ha; cases ha
      obtain ⟨sp, v, al, i, h5, h6, h7, h8, rfl⟩ := at' k _ (List.getElem?_eq_getElem hkl)
      have hvac : sp.isVacancy = true := by
        cases hv : sp.isVacancy with
        | true => rfl
        | false => exact absurd (mem_atomsOf.2 ⟨h5, hv⟩) (hm sp)
      rw [List.getElem?_map, List.getElem?_eq_getElem hkl] at ha
      have ha' : some al = a := by rw [← h7]; exact Option.some.inj ha
      subst ha'
      refine ⟨_, h6, ?_⟩
      have hdist := (hd _ (List.getElem_mem hkl) al h7).1
      cases al with
      | nil => simp at h8
      | cons x xs =>
        refine .inl ⟨i, sp, h8, hvac, ?_, rfl⟩
        intro j hj c hc
        cases hcv : c.isVacancy with
        | false => rfl
        | true =>
          have := (isState_self hdist h8).2 j hj c hc
          rw [Specie.equivalent_of_vacancy hvac hcv] at this
          cases this

/-- Reading a structure and writing it again puts an equivalent species on the site of every
atom, and nothing on every other site where the vacancy is allowed. -/
theorem C72_structure_round_trip [LinearOrder K] {template : List (Specie × P)}
    {mapping : List (Specie × List Specie)} {bt : String} {l : Lattice P}
    (hl : mk' template mapping bt = .ok l) {super : List (Nat × P)} {sites : List (Specie × P)}
    (hs : SameSites l super sites) {dist : P → P → K} {tol : K} {diag : Int × Int × Int}
    (hd : ∀ s ∈ sites, ∀ al, allowedFor l.siteMapping s.1 = some al → TellsApart l.basis al.length)
    {st st' : List (Specie × P)} {o : Occupation}
    (hr : getOcc l dist tol super true st none = .ok o)
    (hw : getStructure l sites diag o = .ok st') :
    ∃ (atoms : List (Specie × Nat)) (sps : List Specie), PlacedBy dist tol (sites.map (·.2)) st atoms ∧ sps.length = sites.length ∧
      st' = (sps.zip (sites.map (·.2))).filter (fun s => !s.1.isVacancy) ∧
      (∀ sp (k : Nat), (sp, k) ∈ atoms → ∃ a, sps[k]? = some a ∧ sp.equivalent a = true) ∧
      ∀ (k : Nat) s, sites[k]? = some s → (∀ sp, (sp, k) ∉ atoms) →
        (∃ al, allowedFor l.siteMapping s.1 = some al ∧ ∃ v ∈ al, v.isVacancy = true) →
        ∃ a, sps[k]? = some a ∧ a.isVacancy = true := by
  obtain ⟨hsup, hpos⟩ := sameSites_allowed hl hs
  obtain ⟨hb, atoms, hp, hn, hdes⟩ := (C72_structure_to_occupation hsup st o).1 hr
  obtain ⟨sps, h1, h2, h3, rfl⟩ := C72_occupation_to_structure hw
  rw [hpos] at hp
  have at' : ∀ (k : Nat) s, sites[k]? = some s → ∃ (sp : Specie) (v : Int) (al : List Specie) (i : Nat), sps[k]? = some sp ∧ o.data[k]? = some v ∧
      allowedFor l.siteMapping s.1 = some al ∧ al[i]? = some sp ∧ v = l.basis.stateValue (i : Int) := by
    intro k s hk
    have hkl : k < sites.length := by
      by_contra hc; rw [List.getElem?_eq_none (by omega)] at hk; cases hk
    have h4 := List.forall₂_iff_get.1 h1
    obtain ⟨al, i, h5, h6, h7⟩ := h4.2 k hkl (by simp; omega)
    rw [List.getElem?_eq_getElem hkl] at hk
    simp only [List.get_eq_getElem, List.getElem_zip] at h5 h6 h7
    rw [Option.some.inj hk] at h5
    exact ⟨sps[k], o.data[k], al, i, List.getElem?_eq_getElem (by omega),
      List.getElem?_eq_getElem (by omega), h5, h6, h7⟩
  have lt_of : ∀ {l : List Specie} {i : Nat} {a : Specie}, l[i]? = some a → i < l.length := by
    intro l i a h
    by_contra hc; rw [List.getElem?_eq_none (by omega)] at h; cases h
  refine ⟨atoms, sps, hp, h2, rfl, ?_, ?_⟩
  · intro sp k hm
    obtain ⟨al, i, h4, ⟨⟨a, h5, h6⟩, -⟩, h7⟩ := hdes.onSite sp k hm
    have hkl : k < sites.length := by
      by_contra hc; rw [List.getElem?_eq_none (by simp; omega)] at h4; cases h4
    obtain ⟨sp', v, al', i', k1, k2, k3, k4, rfl⟩ := at' k _ (List.getElem?_eq_getElem hkl)
    rw [List.getElem?_map, List.getElem?_eq_getElem hkl] at h4
    have h8 : some al' = some al := by rw [← k3]; exact Option.some.inj h4
    cases h8
    rw [h7] at k2
    have := hd _ (List.getElem_mem hkl) al k3 i i' (lt_of h5) (lt_of k4) (Option.some.inj k2)
    subst this
    rw [h5] at k4
    cases k4
    exact ⟨a, k1, h6⟩
  · rintro k s hk hm ⟨al, hal, w, hw1, hw2⟩
    obtain ⟨sp', v, al', i', k1, k2, k3, k4, rfl⟩ := at' k s hk
    rw [hal] at k3
    cases k3
    obtain ⟨v', h4, h5⟩ := hdes.empty k (some al) (by
      rw [List.getElem?_map, hk]; exact congrArg some hal) hm
    rw [k2] at h4
    cases h4
    refine ⟨sp', k1, ?_⟩
    cases al with
    | nil => cases hw1
    | cons x xs =>
      rcases h5 with ⟨i, a, g1, g2, -, g3⟩ | ⟨g1, -⟩
      · have := hd s (List.mem_of_getElem? hk) _ hal i' i (lt_of k4) (lt_of g1) g3
        subst this
        rw [g1] at k4
        cases k4
        exact g2
      · rw [g1 w hw1] at hw2; cases hw2

/-! Examples: a sodium site next to an antimony/tungsten site, doubled along one axis; positions
are points of a line. -/

def lineDist (p q : Int) : Int := |p - q|

def exampleTemplate : List (Specie × Int) := [(sNa, 0), (sSb, 10)]

def exampleMapping : List (Specie × List Specie) :=
  [(sNa, [sNa, .vacancy]), (sSb, [sSb, sW])]

def exampleLattice : Lattice Int :=
  ⟨exampleTemplate, exampleMapping, [some [sNa, .vacancy], some [sSb, sW]], .chebyshev 2⟩

def exampleSuper : List (Nat × Int) := [(0, 0), (0, 20), (1, 10), (1, 30)]

def exampleSites : List (Specie × Int) := [(sNa, 0), (sNa, 20), (sSb, 10), (sSb, 30)]

theorem exampleLattice_ok : mk' exampleTemplate exampleMapping "chebyshev" = .ok exampleLattice := by
  rfl

/-- The hypotheses of the round trip are met by a doubled cell, and the structure is what one
expects. -/
example : SameSites exampleLattice exampleSuper exampleSites ∧
    Separated lineDist (exampleSites.map (·.2)) ∧
    exampleLattice.copiedLength (2, 1, 1) = exampleSites.length ∧
    (∀ s ∈ exampleSites, ∀ al, allowedFor exampleLattice.siteMapping s.1 = some al →
      Distinguishable al ∧ TellsApart exampleLattice.basis al.length) ∧
    StatesOf exampleLattice.basis (exampleSites.map fun s => allowedFor exampleLattice.siteMapping s.1)
      [0, 1, 1, 0] ∧
    getStructure exampleLattice exampleSites (2, 1, 1) ⟨.chebyshev 2, [0, 1, 1, 0]⟩ =
      .ok [(sNa, 0), (sW, 10), (sSb, 30)] := by
  refine ⟨rfl, ⟨by decide, ?_⟩, by decide, ?_, ?_, by decide⟩
  · intro i j p q hi hj hij
    have hi' : i < 4 := by
      by_contra hc; rw [List.getElem?_eq_none (by simp [exampleSites]; omega)] at hi; cases hi
    have hj' : j < 4 := by
      by_contra hc; rw [List.getElem?_eq_none (by simp [exampleSites]; omega)] at hj; cases hj
    interval_cases i <;> interval_cases j <;> simp_all [exampleSites] <;> subst hi <;> subst hj <;> decide
  · intro s hs al hal
    refine ⟨?_, C48_chebyshev_tells_apart _ _⟩
    have : al = [sNa, .vacancy] ∨ al = [sSb, sW] := by
      simp only [exampleSites, List.mem_cons, List.not_mem_nil, or_false] at hs
      have h1 : allowedFor exampleLattice.siteMapping sNa = some [sNa, .vacancy] := by decide
      have h2 : allowedFor exampleLattice.siteMapping sSb = some [sSb, sW] := by decide
      rcases hs with rfl | rfl | rfl | rfl
      · rw [h1] at hal; cases hal; exact .inl rfl
      · rw [h1] at hal; cases hal; exact .inl rfl
      · rw [h2] at hal; cases hal; exact .inr rfl
      · rw [h2] at hal; cases hal; exact .inr rfl
    rcases this with rfl | rfl <;> simp [Distinguishable] <;> decide
  · refine .cons ⟨_, 0, rfl, by decide, rfl⟩ (.cons ⟨_, 1, rfl, by decide, rfl⟩
      (.cons ⟨_, 1, rfl, by decide, rfl⟩ (.cons ⟨_, 0, rfl, by decide, rfl⟩ .nil)))

/-- On a site where the vacancy is not allowed, a missing atom is read as the second allowed
species: removing the antimony atom of the example turns it into tungsten. -/
theorem C72_missing_atom_becomes_other_species :
    ∃ (st st' : List (Specie × Int)) (o : Occupation),
      getOcc exampleLattice lineDist 1 [(0, 0), (1, 10)] true st none = .ok o ∧
      getStructure exampleLattice exampleTemplate (1, 1, 1) o = .ok st' ∧
      st = [(sNa, 0)] ∧ (sW, 10) ∈ st' :=
  ⟨[(sNa, 0)], [(sNa, 0), (sW, 10)], ⟨.chebyshev 2, [0, 1]⟩, by decide, by decide, rfl, by decide⟩

/-- Writing works only for matrices whose diagonal product is the number of cells; reading has no
such limit.  For the matrix `[[1,1,0],[-1,1,0],[0,0,1]]`, with two cells, an occupation that can
be read cannot be written. -/
theorem C72_diagonal_only :
    (∀ (l : Lattice P) (sites : List (Specie × P)) (diag : Int × Int × Int) (o : Occupation) st,
      getStructure l sites diag o = .ok st →
      diag.1.toNat * diag.2.1.toNat * diag.2.2.toNat * l.allowed.length = sites.length) ∧
    ∃ o, getOcc exampleLattice lineDist 1 exampleSuper true [(sNa, 0), (sSb, 10), (sSb, 30)] none = .ok o ∧
      getStructure exampleLattice exampleSites (1, 1, 1) o = .error .valueError := by
  refine ⟨?_, ⟨.chebyshev 2, [0, 1, 0, 0]⟩, by decide, by decide⟩
  intro l sites diag o st h
  unfold getStructure at h
  split at h
  · cases h
  · rename_i hc; exact not_not.1 hc

end Lattice
end KMC
