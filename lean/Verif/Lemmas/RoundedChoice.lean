import Verif.Lemmas.Clock
import Verif.Lemmas.Path
import Verif.Spec.RoundedChoice
/-
Event selection in floating-point arithmetic beside exact arithmetic.
-/
set_option linter.unusedSectionVars false

namespace KMC
open Spec MeasureTheory ProbabilityTheory

/-! ### Numbers that agree up to a factor -/

theorem Spec.WithinFactor.refl (x : ℝ) : WithinFactor 1 x x := by simp [WithinFactor]

theorem Spec.WithinFactor.trans {a b x y z : ℝ} (h : WithinFactor a x y) (h' : WithinFactor b y z) (ha : 0 ≤ a) (hb : 0 ≤ b) :
    WithinFactor (a * b) x z := by
  constructor
  · calc a * b * z = a * (b * z) := by ring
      _ ≤ a * y := mul_le_mul_of_nonneg_left h'.1 ha
      _ ≤ x := h.1
  · calc a * b * x = b * (a * x) := by ring
      _ ≤ b * y := mul_le_mul_of_nonneg_left h.2 hb
      _ ≤ z := h'.2

theorem Spec.WithinFactor.weaken {a b x y : ℝ} (h : WithinFactor a x y) (hb : b ≤ a) (hx : 0 ≤ x) (hy : 0 ≤ y) :
    WithinFactor b x y :=
  ⟨(mul_le_mul_of_nonneg_right hb hy).trans h.1, (mul_le_mul_of_nonneg_right hb hx).trans h.2⟩

theorem Spec.WithinFactor.add {a x y x' y' : ℝ} (h : WithinFactor a x y) (h' : WithinFactor a x' y') :
    WithinFactor a (x + x') (y + y') := by
  obtain ⟨h1, h2⟩ := h
  obtain ⟨h3, h4⟩ := h'
  constructor <;> linarith

theorem Spec.WithinFactor.mul {a b x y x' y' : ℝ} (h : WithinFactor a x y) (h' : WithinFactor b x' y') (ha : 0 ≤ a)
    (hb : 0 ≤ b) (hx : 0 ≤ x) (hy : 0 ≤ y) (hx' : 0 ≤ x') (hy' : 0 ≤ y') : WithinFactor (a * b) (x * x') (y * y') := by
  constructor
  · calc a * b * (y * y') = (a * y) * (b * y') := by ring
      _ ≤ x * x' := mul_le_mul h.1 h'.1 (mul_nonneg hb hy') hx
  · calc a * b * (x * x') = (a * x) * (b * x') := by ring
      _ ≤ y * y' := mul_le_mul h.2 h'.2 (mul_nonneg hb hx') hy

theorem Spec.WithinFactor.inv {a x y : ℝ} (h : WithinFactor a x y) (hx : 0 < x) (hy : 0 < y) : WithinFactor a (1 / x) (1 / y) := by
  constructor
  · rw [mul_one_div, div_le_div_iff₀ hy hx]
    linarith [h.2]
  · rw [mul_one_div, div_le_div_iff₀ hx hy]
    linarith [h.1]

section
variable {R : Rounding} {u : ℝ} (hu : Accurate R u)
include hu

theorem accurate_nonneg : 0 ≤ u := by
  have := hu 1
  rw [R.one] at this
  simpa using this

theorem rnd_within (hu1 : u ≤ 1) {x : ℝ} (hx : 0 ≤ x) : WithinFactor (1 - u) (R.rnd x) x := by
  have hu0 := accurate_nonneg hu
  obtain ⟨e1, e2⟩ := abs_le.1 (hu x)
  rw [abs_of_nonneg hx] at e1 e2
  refine ⟨by linarith, ?_⟩
  have : (1 - u) * R.rnd x ≤ (1 - u) * ((1 + u) * x) := mul_le_mul_of_nonneg_left (by linarith) (by linarith)
  nlinarith [mul_nonneg (mul_nonneg hu0 hu0) hx]

theorem rnd_within_neg (hu1 : u ≤ 1) {x : ℝ} (hx : x ≤ 0) : WithinFactor (1 - u) (-R.rnd x) (-x) := by
  have hu0 := accurate_nonneg hu
  obtain ⟨e1, e2⟩ := abs_le.1 (hu x)
  rw [abs_of_nonpos hx] at e1 e2
  refine ⟨by linarith, ?_⟩
  have : (1 - u) * (-R.rnd x) ≤ (1 - u) * ((1 + u) * (-x)) := mul_le_mul_of_nonneg_left (by linarith) (by linarith)
  nlinarith [mul_nonneg (mul_nonneg hu0 hu0) (neg_nonneg.2 hx)]

variable {ps : List ℝ} (hnn : ∀ p ∈ ps, 0 ≤ p ∧ R.Rep p)
include hnn

theorem take_nonneg (i : Nat) : 0 ≤ (ps.take i).sum := List.sum_nonneg fun a ha => (hnn a (List.mem_of_mem_take ha)).1

/-- A running sum has one rounding for every addition. -/
theorem cumsum_within (hu1 : u ≤ 1) {i : Nat} {c : ℝ} (hc : (cumsum R ps)[i]? = some c) :
    WithinFactor ((1 - u) ^ i) c (ps.take (i + 1)).sum := by
  have hrep : ∀ p ∈ ps, R.Rep p := fun p hp => (hnn p hp).2
  have hn0 : ∀ p ∈ ps, 0 ≤ p := fun p hp => (hnn p hp).1
  have hu0 := accurate_nonneg hu
  induction i generalizing c with
  | zero =>
    rw [cumsum_zero] at hc
    cases ps with
    | nil => cases hc
    | cons p l =>
      cases hc
      simpa using WithinFactor.refl _
  | succ i ih =>
    have hlt : i + 1 < ps.length := by
      have := (List.getElem?_eq_some_iff.1 hc).1
      rwa [cumsum_length] at this
    obtain ⟨c0, h0⟩ := cumsum_get R (ps := ps) (i := i) (by omega)
    have h1 : ps[i + 1]? = some ps[i + 1] := by simp [hlt]
    have h2 := cumsum_succ R h0 h1
    rw [hc] at h2
    cases h2
    have hp := hn0 _ (List.getElem_mem hlt)
    have hc0 := (cumsum_rep hrep hn0 h0).2
    have ht := take_nonneg hu hnn (i + 1)
    have e : (ps.take (i + 1 + 1)).sum = (ps.take (i + 1)).sum + ps[i + 1] := by
      rw [List.take_add_one (i := i + 1), h1, List.sum_append]
      simp
    have p1 : (1 - u) ^ i ≤ 1 := pow_le_one₀ (by linarith) (by linarith)
    have hadd := (ih h0).add ((WithinFactor.refl ps[i + 1]).weaken p1 hp hp)
    have := (rnd_within hu hu1 (add_nonneg hc0 hp)).trans hadd (by linarith) (pow_nonneg (by linarith) _)
    rw [e, pow_succ']
    exact this

theorem total_within (hu1 : u ≤ 1) {tot : ℝ} (ht : (cumsum R ps).getLast? = some tot) :
    WithinFactor ((1 - u) ^ (ps.length - 1)) tot ps.sum := by
  rw [List.getLast?_eq_getElem?, cumsum_length] at ht
  have := cumsum_within hu hnn hu1 ht
  have hl : 0 < ps.length := by
    have := (List.getElem?_eq_some_iff.1 ht).1
    rw [cumsum_length] at this
    omega
  rwa [show ps.length - 1 + 1 = ps.length by omega, List.take_length] at this

end

/-! ### The edges of the intervals of the random number -/

/-- The upper edge of the interval of the random number in which event `i` or an earlier one is selected. -/
noncomputable def edge (R : Rounding) (ps : List ℝ) (i : Nat) : ℝ :=
  R.rnd ((cumsum R ps)[i]?.getD 0 / (cumsum R ps).getLast?.getD 0)

section
variable {R : Rounding} {ps : List ℝ} (hnn : ∀ p ∈ ps, 0 ≤ p ∧ R.Rep p) (hpos : ∃ p ∈ ps, 0 < p)
include hnn hpos

theorem total_pos : ∃ tot, (cumsum R ps).getLast? = some tot ∧ 0 < tot := by
  obtain ⟨p, hp, hp0⟩ := hpos
  have hne : cumsum R ps ≠ [] := by
    intro h
    have := cumsum_length R ps
    rw [h] at this
    cases ps with
    | nil => cases hp
    | cons => simp at this
  refine ⟨_, List.getLast?_eq_some_getLast hne, ?_⟩
  exact lt_of_lt_of_le hp0 (total_ge (fun p hp => (hnn p hp).2) (fun p hp => (hnn p hp).1)
    (List.getLast?_eq_some_getLast hne) hp)

theorem picks_iff {r1 : ℝ} (i : Nat) (hi : i < ps.length) : Picks R ps r1 i ↔
    r1 < edge R ps i ∧ ∀ j, j < i → edge R ps j ≤ r1 := by
  obtain ⟨tot, ht, htot⟩ := total_pos hnn hpos
  have hs := table_sorted (fun p hp => (hnn p hp).2) (fun p hp => (hnn p hp).1) htot
  have hl : ((cumsum R ps).map fun c => R.rnd (c / tot)).length = ps.length := by simp [cumsum_length]
  have hget : ∀ j, j < ps.length → ((cumsum R ps).map fun c => R.rnd (c / tot))[j]? = some (edge R ps j) := by
    intro j hj
    obtain ⟨c, hc⟩ := cumsum_get R hj
    rw [List.getElem?_map, hc]
    simp [edge, hc, ht]
  have key := searchsortedRight_eq_iff hs r1 (i := i) (by rw [hl]; exact hi)
  have hgi : ((cumsum R ps).map fun c => R.rnd (c / tot))[i]'(by rw [hl]; exact hi) = edge R ps i := by
    have := hget i hi
    rw [List.getElem?_eq_getElem (by rw [hl]; exact hi)] at this
    exact Option.some.inj this
  rw [hgi] at key
  unfold Picks propose
  simp only [ht, if_neg htot.ne']
  constructor
  · rintro ⟨r2, dt, h⟩
    obtain ⟨h1, -⟩ := Prod.mk.inj (Except.ok.inj h)
    obtain ⟨a, b⟩ := key.1 h1
    exact ⟨a, fun j hj => b j _ hj (hget j (by omega))⟩
  · rintro ⟨a, b⟩
    have hk := key.2 ⟨a, fun j x hj hx => by
      rw [hget j (by omega)] at hx
      cases hx
      exact b j hj⟩
    exact ⟨1 / 2, waitingTime R tot (1 / 2), by rw [hk]⟩

theorem edge_mono {i j : Nat} (hij : i ≤ j) (hj : j < ps.length) : edge R ps i ≤ edge R ps j := by
  obtain ⟨tot, ht, htot⟩ := total_pos hnn hpos
  obtain ⟨c, hc⟩ := cumsum_get R (ps := ps) (i := i) (by omega)
  obtain ⟨d, hd⟩ := cumsum_get R hj
  have := cumsum_le_of_le (fun p hp => (hnn p hp).2) (fun p hp => (hnn p hp).1) hij hc hd
  simp only [edge, hc, hd, ht, Option.getD_some]
  exact R.mono (by gcongr)

theorem edge_range {i : Nat} (hi : i < ps.length) : 0 ≤ edge R ps i ∧ edge R ps i ≤ 1 := by
  obtain ⟨tot, ht, htot⟩ := total_pos hnn hpos
  obtain ⟨c, hc⟩ := cumsum_get R hi
  have h1 := (cumsum_rep (fun p hp => (hnn p hp).2) (fun p hp => (hnn p hp).1) hc).2
  have ht' := ht
  rw [List.getLast?_eq_getElem?, cumsum_length] at ht'
  have h2 := cumsum_le_of_le (fun p hp => (hnn p hp).2) (fun p hp => (hnn p hp).1) (show i ≤ ps.length - 1 by omega) hc ht'
  simp only [edge, hc, ht, Option.getD_some]
  constructor
  · calc (0 : ℝ) = R.rnd 0 := R.zero.symm
      _ ≤ _ := R.mono (div_nonneg h1 htot.le)
  · calc R.rnd (c / tot) ≤ R.rnd 1 := R.mono ((div_le_one htot).2 h2)
      _ = 1 := R.one

theorem edge_last : edge R ps (ps.length - 1) = 1 := by
  obtain ⟨tot, ht, htot⟩ := total_pos hnn hpos
  have ht' := ht
  rw [List.getLast?_eq_getElem?, cumsum_length] at ht'
  simp [edge, ht, ht', div_self htot.ne', R.one]

end

theorem sum_pos_of {ps : List ℝ} (hnn : ∀ p ∈ ps, 0 ≤ p) (hpos : ∃ p ∈ ps, 0 < p) : 0 < ps.sum := by
  obtain ⟨p, hp, hp0⟩ := hpos
  exact lt_of_lt_of_le hp0 (List.single_le_sum hnn p hp)

theorem edge_exact {ps : List ℝ} (hpos : 0 < ps.sum) {i : Nat} (hi : i < ps.length) :
    edge Rounding.exact ps i = (ps.take (i + 1)).sum / ps.sum := by
  have hne : ps ≠ [] := by rintro rfl; simp at hpos
  unfold edge
  rw [cumsum_exact ps hi, cumsum_exact_last hne]
  rfl

/-- Rounding moves the edges by little. -/
theorem edge_error {R : Rounding} {u : ℝ} (hu : Accurate R u) (hu1 : u ≤ 1) {ps : List ℝ} (hnn : ∀ p ∈ ps, 0 ≤ p ∧ R.Rep p)
    (hpos : ∃ p ∈ ps, 0 < p) {i : Nat} (hi : i < ps.length) :
    |edge R ps i - edge Rounding.exact ps i| ≤ 2 * ps.length * u := by
  have hu0 := accurate_nonneg hu
  have hn0 : ∀ p ∈ ps, 0 ≤ p := fun p hp => (hnn p hp).1
  have hsum := sum_pos_of hn0 hpos
  obtain ⟨tot, ht, htot⟩ := total_pos hnn hpos
  obtain ⟨c, hc⟩ := cumsum_get R hi
  have hc0 := (cumsum_rep (fun p hp => (hnn p hp).2) hn0 hc).2
  have htk := take_nonneg hu hnn (i + 1)
  have h1 := cumsum_within hu hnn hu1 hc
  have h2 := (total_within hu hnn hu1 ht).inv htot hsum
  have q0 : 0 ≤ 1 - u := by linarith
  have h3 := h1.mul h2 (pow_nonneg q0 _) (pow_nonneg q0 _) hc0 htk (by positivity) (by positivity)
  rw [mul_one_div, mul_one_div] at h3
  have h4 := (rnd_within hu hu1 (div_nonneg hc0 htot.le)).trans h3 q0 (by positivity)
  have he : edge R ps i = R.rnd (c / tot) := by simp [edge, hc, ht]
  have he' := edge_exact hsum hi
  rw [← he, ← he'] at h4
  obtain ⟨r0, r1⟩ := edge_range hnn hpos hi
  obtain ⟨s0, s1⟩ := edge_range (R := Rounding.exact) (fun p hp => ⟨hn0 p hp, rfl⟩) hpos hi
  have hpow : (1 - u) * ((1 - u) ^ i * (1 - u) ^ (ps.length - 1)) = (1 - u) ^ (i + ps.length) := by
    rw [← pow_add, ← pow_succ']
    congr 1
    omega
  rw [hpow] at h4
  have hb : 1 - ((i + ps.length : Nat) : ℝ) * u ≤ (1 - u) ^ (i + ps.length) := by
    have := one_add_mul_le_pow (a := -u) (by linarith) (i + ps.length)
    simpa [sub_eq_add_neg] using this
  have hin : ((i + ps.length : Nat) : ℝ) ≤ 2 * ps.length := by
    push_cast
    have : (i : ℝ) ≤ ps.length := by exact_mod_cast hi.le
    linarith
  have hin' : ((i + ps.length : Nat) : ℝ) * u ≤ 2 * ps.length * u := mul_le_mul_of_nonneg_right hin hu0
  have hp0 : 0 ≤ (1 - u) ^ (i + ps.length) := pow_nonneg q0 _
  have hp1 : (1 - u) ^ (i + ps.length) ≤ 1 := pow_le_one₀ q0 (by linarith)
  generalize (1 - u) ^ (i + ps.length) = a at *
  rw [abs_le]
  constructor
  · have : (1 - a) * edge Rounding.exact ps i ≤ 1 - a := mul_le_of_le_one_right (by linarith) s1
    have := h4.1
    nlinarith
  · have : (1 - a) * edge R ps i ≤ 1 - a := mul_le_of_le_one_right (by linarith) r1
    have := h4.2
    nlinarith

/-! ### Where the choices differ -/

/-- The random numbers between an edge in one arithmetic and the edge in the other. -/
noncomputable def between (R : Rounding) (ps : List ℝ) : Set ℝ :=
  ⋃ j ∈ Finset.range ps.length, Set.uIcc (edge R ps j) (edge Rounding.exact ps j)

theorem between_measurable (R : Rounding) (ps : List ℝ) : MeasurableSet (between R ps) :=
  Finset.measurableSet_biUnion _ fun _ _ => measurableSet_uIcc

theorem between_volume {R : Rounding} {u : ℝ} (hu : Accurate R u) (hu1 : u ≤ 1) {ps : List ℝ}
    (hnn : ∀ p ∈ ps, 0 ≤ p ∧ R.Rep p) (hpos : ∃ p ∈ ps, 0 < p) :
    volume (between R ps) ≤ ENNReal.ofReal (2 * ps.length ^ 2 * u) := by
  have hu0 := accurate_nonneg hu
  calc volume (between R ps) ≤ ∑ j ∈ Finset.range ps.length, volume (Set.uIcc (edge R ps j) (edge Rounding.exact ps j)) :=
        measure_biUnion_finset_le _ _
    _ ≤ ∑ j ∈ Finset.range ps.length, ENNReal.ofReal (2 * ps.length * u) := by
        refine Finset.sum_le_sum fun j hj => ?_
        rw [Real.volume_interval]
        refine ENNReal.ofReal_le_ofReal ?_
        rw [abs_sub_comm]
        exact edge_error hu hu1 hnn hpos (Finset.mem_range.1 hj)
    _ = ENNReal.ofReal (2 * ps.length ^ 2 * u) := by
        rw [Finset.sum_const, Finset.card_range, nsmul_eq_mul, ← ENNReal.ofReal_natCast,
          ← ENNReal.ofReal_mul (by positivity)]
        congr 1
        ring

theorem picks_lt {R : Rounding} {ps : List ℝ} (hnn : ∀ p ∈ ps, 0 ≤ p ∧ R.Rep p) (hpos : ∃ p ∈ ps, 0 < p) {r1 : ℝ}
    (h1 : r1 < 1) {i : Nat} (h : Picks R ps r1 i) : i < ps.length := by
  obtain ⟨tot, ht, htot⟩ := total_pos hnn hpos
  have hs := table_sorted (fun p hp => (hnn p hp).2) (fun p hp => (hnn p hp).1) htot
  obtain ⟨r2, dt, h⟩ := h
  simp only [propose, ht, if_neg htot.ne'] at h
  obtain ⟨h2, -⟩ := Prod.mk.inj (Except.ok.inj h)
  obtain ⟨s1, s2, -⟩ := searchsortedRight_spec hs r1
  rw [h2] at s1 s2
  have hl : ((cumsum R ps).map fun c => R.rnd (c / tot)).length = ps.length := by simp [cumsum_length]
  rw [hl] at s1
  by_contra hge
  have hi : i = ps.length := by omega
  have hp0 : 0 < ps.length := by
    obtain ⟨p, hp, -⟩ := hpos
    exact List.length_pos_of_mem hp
  have ht' := ht
  rw [List.getLast?_eq_getElem?, cumsum_length] at ht'
  have hlast : ((cumsum R ps).map fun c => R.rnd (c / tot))[ps.length - 1]? = some 1 := by
    rw [List.getElem?_map, ht']
    simp [div_self htot.ne', R.one]
  have := s2 (ps.length - 1) 1 (by omega) hlast
  linarith

theorem picks_positive {R : Rounding} {ps : List ℝ} (hnn : ∀ p ∈ ps, 0 ≤ p ∧ R.Rep p) {r1 : ℝ} {i : Nat}
    (h : Picks R ps r1 i) : ∃ p ∈ ps, 0 < p := by
  by_contra hz
  push Not at hz
  have h0 : ∀ p ∈ ps, p = 0 := fun p hp => le_antisymm (hz p hp) (hnn p hp).1
  have hc : ∀ (i : Nat) c, (cumsum R ps)[i]? = some c → c = 0 := by
    intro i
    induction i with
    | zero =>
      intro c hc
      rw [cumsum_zero] at hc
      exact h0 c (List.mem_of_getElem? hc)
    | succ i ih =>
      intro c hc
      have hlt : i + 1 < ps.length := by
        have := (List.getElem?_eq_some_iff.1 hc).1
        rwa [cumsum_length] at this
      obtain ⟨c0, hc0⟩ := cumsum_get R (ps := ps) (i := i) (by omega)
      have h1 : ps[i + 1]? = some ps[i + 1] := by simp [hlt]
      have h2 := cumsum_succ R hc0 h1
      rw [hc, ih c0 hc0, h0 _ (List.getElem_mem hlt), add_zero, R.zero] at h2
      exact Option.some.inj h2
  obtain ⟨r2, dt, h⟩ := h
  unfold propose at h
  cases ht : (cumsum R ps).getLast? with
  | none => rw [ht] at h; cases h
  | some tot =>
    have ht' := ht
    rw [List.getLast?_eq_getElem?] at ht'
    rw [ht] at h
    simp only [hc _ _ ht', if_true] at h
    cases h

/-- Outside, exact and rounded arithmetic choose the same event. -/
theorem picks_same {R : Rounding} {ps : List ℝ} (hnn : ∀ p ∈ ps, 0 ≤ p ∧ R.Rep p) (hpos : ∃ p ∈ ps, 0 < p) {r1 : ℝ}
    (h1 : r1 < 1) (hb : r1 ∉ between R ps) (i : Nat) : Picks R ps r1 i ↔ Picks Rounding.exact ps r1 i := by
  have hnn' : ∀ p ∈ ps, 0 ≤ p ∧ Rounding.exact.Rep p := fun p hp => ⟨(hnn p hp).1, rfl⟩
  have key : ∀ j, j < ps.length → (r1 < edge R ps j ↔ r1 < edge Rounding.exact ps j) := by
    intro j hj
    have : r1 ∉ Set.uIcc (edge R ps j) (edge Rounding.exact ps j) := by
      intro hm
      exact hb (Set.mem_biUnion (Finset.mem_coe.2 (Finset.mem_range.2 hj)) hm)
    rw [Set.mem_uIcc] at this
    push Not at this
    constructor
    · intro h
      by_contra h'
      exact absurd (this.2 (not_lt.1 h')) (not_lt.2 h.le)
    · intro h
      by_contra h'
      exact absurd (this.1 (not_lt.1 h')) (not_lt.2 h.le)
  have main : i < ps.length → (Picks R ps r1 i ↔ Picks Rounding.exact ps r1 i) := by
    intro hi
    rw [picks_iff hnn hpos i hi, picks_iff hnn' hpos i hi, key i hi]
    refine and_congr Iff.rfl (forall_congr' fun j => forall_congr' fun hj => ?_)
    have := key j (by omega)
    constructor
    · intro h
      by_contra h'
      exact absurd (this.2 (not_le.1 h')) (not_lt.2 h)
    · intro h
      by_contra h'
      exact absurd (this.1 (not_le.1 h')) (not_lt.2 h)
  constructor
  · intro h
    exact (main (picks_lt hnn hpos h1 h)).1 h
  · intro h
    exact (main (picks_lt hnn' hpos h1 h)).2 h

theorem picks_unique {R : Rounding} {ps : List ℝ} {r1 : ℝ} {i j : Nat} (h : Picks R ps r1 i) (h' : Picks R ps r1 j) :
    i = j := by
  obtain ⟨r2, dt, h⟩ := h
  obtain ⟨r2', dt', h'⟩ := h'
  unfold propose at h h'
  cases ht : (cumsum R ps).getLast? with
  | none => rw [ht] at h; cases h
  | some tot =>
    rw [ht] at h h'
    simp only at h h'
    split at h
    · cases h
    · rename_i hz
      rw [if_neg hz] at h'
      exact (Prod.mk.inj (Except.ok.inj h)).1.symm.trans (Prod.mk.inj (Except.ok.inj h')).1

theorem picks_propose {R : Rounding} {ps : List ℝ} {r1 : ℝ} {i : Nat} (h : Picks R ps r1 i) (r2 : ℝ) :
    ∃ tot, (cumsum R ps).getLast? = some tot ∧ tot ≠ 0 ∧
      propose R (cumsum R ps) r1 r2 = .ok (i, waitingTime R tot r2) := by
  obtain ⟨r2', dt', h⟩ := h
  unfold propose at h ⊢
  cases ht : (cumsum R ps).getLast? with
  | none => rw [ht] at h; cases h
  | some tot =>
    rw [ht] at h
    simp only at h ⊢
    by_cases hz : tot = 0
    · rw [if_pos hz] at h; cases h
    · rw [if_neg hz] at h ⊢
      exact ⟨tot, rfl, hz, by rw [(Prod.mk.inj (Except.ok.inj h)).1]⟩

theorem picks_measurable {R : Rounding} {ps : List ℝ} (hnn : ∀ p ∈ ps, 0 ≤ p ∧ R.Rep p) (hpos : ∃ p ∈ ps, 0 < p)
    (i : Nat) (hi : i < ps.length) : MeasurableSet {r1 | Picks R ps r1 i} := by
  have : {r1 | Picks R ps r1 i} = Set.Iio (edge R ps i) ∩ ⋂ j, ⋂ _ : j < i, Set.Ici (edge R ps j) := by
    ext r
    simp only [Set.mem_inter_iff, Set.mem_Iio, Set.mem_iInter, Set.mem_Ici]
    exact picks_iff hnn hpos i hi
  rw [this]
  exact measurableSet_Iio.inter (MeasurableSet.iInter fun j => MeasurableSet.iInter fun _ => measurableSet_Ici)

/-- The set of random numbers that select an event is an interval. -/
theorem picks_volume {R : Rounding} {ps : List ℝ} (hnn : ∀ p ∈ ps, 0 ≤ p ∧ R.Rep p) (hpos : ∃ p ∈ ps, 0 < p)
    (i : Nat) (hi : i < ps.length) : volume {r1 : ℝ | 0 ≤ r1 ∧ r1 < 1 ∧ Picks R ps r1 i} =
      ENNReal.ofReal (edge R ps i - if i = 0 then 0 else edge R ps (i - 1)) := by
  have h01 : 0 ≤ (if i = 0 then 0 else edge R ps (i - 1)) := by
    split
    · exact le_rfl
    · exact (edge_range hnn hpos (by omega)).1
  have : {r1 : ℝ | 0 ≤ r1 ∧ r1 < 1 ∧ Picks R ps r1 i} =
      Set.Ico (if i = 0 then 0 else edge R ps (i - 1)) (edge R ps i) := by
    ext r
    show (0 ≤ r ∧ r < 1 ∧ Picks R ps r i) ↔ _
    rw [picks_iff hnn hpos i hi, Set.mem_Ico]
    constructor
    · rintro ⟨a, -, b, c⟩
      refine ⟨?_, b⟩
      split
      · exact a
      · exact c _ (by omega)
    · rintro ⟨a, b⟩
      refine ⟨h01.trans a, lt_of_lt_of_le b (edge_range hnn hpos hi).2, b, fun j hj => ?_⟩
      rw [if_neg (by omega)] at a
      exact (edge_mono hnn hpos (by omega) (by omega)).trans a
  rw [this, Real.volume_Ico]

/-- Waiting times in the two arithmetics. -/
theorem wait_within {R : Rounding} {u : ℝ} (hu : Accurate R u) (hu1 : u ≤ 1) {ps : List ℝ} (hnn : ∀ p ∈ ps, 0 ≤ p ∧ R.Rep p)
    (hpos : ∃ p ∈ ps, 0 < p) {tot : ℝ} (ht : (cumsum R ps).getLast? = some tot) {r2 : ℝ} (h0 : 0 < r2) (h1 : r2 < 1) :
    ∃ x y : ℝ, waitingTime R tot r2 = (x : EReal) ∧ waitingTime Rounding.exact ps.sum r2 = (y : EReal) ∧ 0 ≤ x ∧ 0 ≤ y ∧
      R.Rep x ∧ WithinFactor ((1 - u) ^ (ps.length + 2)) x y := by
  have hu0 := accurate_nonneg hu
  have q0 : 0 ≤ 1 - u := by linarith
  have hn0 : ∀ p ∈ ps, 0 ≤ p := fun p hp => (hnn p hp).1
  have hsum := sum_pos_of hn0 hpos
  obtain ⟨tot', ht', htot⟩ := total_pos hnn hpos
  rw [ht] at ht'
  obtain rfl := Option.some.inj ht'
  have hlog : Real.log r2 ≤ 0 := Real.log_nonpos h0.le h1.le
  have hneg : -1 / tot ≤ 0 := div_nonpos_of_nonpos_of_nonneg (by norm_num) htot.le
  have w1 := (rnd_within_neg hu hu1 hneg).trans (z := 1 / ps.sum)
    (by rw [show -(-1 / tot) = 1 / tot by ring]; exact (total_within hu hnn hu1 ht).inv htot hsum) q0 (pow_nonneg q0 _)
  have w2 := rnd_within_neg hu hu1 hlog
  have n1 : 0 ≤ -R.rnd (-1 / tot) := by
    have : R.rnd (-1 / tot) ≤ R.rnd 0 := R.mono hneg
    rw [R.zero] at this
    linarith
  have n2 : 0 ≤ -R.rnd (Real.log r2) := by
    have : R.rnd (Real.log r2) ≤ R.rnd 0 := R.mono hlog
    rw [R.zero] at this
    linarith
  have w3 := w1.mul w2 (by positivity) q0 n1 (by positivity) n2 (by linarith)
  rw [neg_mul_neg] at w3
  have n3 : 0 ≤ R.rnd (-1 / tot) * R.rnd (Real.log r2) := by
    rw [← neg_mul_neg]; exact mul_nonneg n1 n2
  have w4 := (rnd_within hu hu1 n3).trans w3 q0 (by positivity)
  have hl : 0 < ps.length := by
    obtain ⟨p, hp, -⟩ := hpos
    exact List.length_pos_of_mem hp
  have he : (1 - u) * ((1 - u) * (1 - u) ^ (ps.length - 1) * (1 - u)) = (1 - u) ^ (ps.length + 2) := by
    rw [show ps.length + 2 = (ps.length - 1) + 1 + 1 + 1 by omega]
    ring
  rw [he, show 1 / ps.sum * -Real.log r2 = -1 / ps.sum * Real.log r2 by ring] at w4
  refine ⟨_, -1 / ps.sum * Real.log r2, ?_, ?_, ?_, ?_, R.idem _, w4⟩
  · unfold waitingTime
    rw [if_neg h0.ne']
  · unfold waitingTime
    rw [if_neg h0.ne']
    rfl
  · calc (0 : ℝ) = R.rnd 0 := R.zero.symm
      _ ≤ _ := R.mono n3
  · rw [show -1 / ps.sum * Real.log r2 = 1 / ps.sum * -Real.log r2 by ring]
    exact mul_nonneg (by positivity) (by linarith)

end KMC
