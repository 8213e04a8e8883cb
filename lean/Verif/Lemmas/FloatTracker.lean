import Mathlib.Tactic.Linarith
import Mathlib.Tactic.Ring
import Mathlib.Tactic.NormNum
import Mathlib.Tactic.Positivity
import Mathlib.Tactic.FinCases
import Verif.Lemmas.Tracker
import Verif.Spec.FloatTracker
/-
Facts about the tracker in floating-point arithmetic.
-/
namespace KMC
open Spec

theorem roundHalfEven_unique {y : ℝ} {r : ℤ} (h : |y - r| < 1 / 2) : roundHalfEven y = r := by
  obtain ⟨h1, h2⟩ := roundHalfEven_bounds y
  obtain ⟨h3, h4⟩ := abs_lt.1 h
  have a : ((roundHalfEven y : ℤ) : ℝ) < r + 1 := by linarith
  have b : (r : ℝ) < (roundHalfEven y : ℤ) + 1 := by linarith
  have a' : roundHalfEven y < r + 1 := by exact_mod_cast a
  have b' : r < roundHalfEven y + 1 := by exact_mod_cast b
  omega

theorem roundHalfEven_stable {u x y : ℝ} (h : OffHalf u x) (hy : |y - x| ≤ u * |x|) :
    roundHalfEven y = roundHalfEven x := by
  obtain ⟨h1, h2⟩ := roundHalfEven_bounds x
  have ha := h (roundHalfEven x)
  have hb := h (roundHalfEven x - 1)
  push_cast at hb
  rw [abs_of_nonpos (a := x - ((roundHalfEven x : ℝ) + 1 / 2)) (by linarith)] at ha
  rw [abs_of_nonneg (a := x - ((roundHalfEven x : ℝ) - 1 + 1 / 2)) (by linarith)] at hb
  obtain ⟨h3, h4⟩ := abs_le.1 hy
  exact roundHalfEven_unique (abs_lt.2 ⟨by linarith, by linarith⟩)

theorem offHalf_neg {u x : ℝ} (h : OffHalf u x) : OffHalf u (-x) := by
  intro k
  have := h (-k - 1)
  rw [abs_neg]
  refine lt_of_lt_of_eq this ?_
  rw [← abs_neg]
  push_cast
  congr 1
  ring

section
variable {R : Rounding} {u : ℝ}

/-- One rounded operation on a number known up to `δ`. -/
theorem rnd_near (hu : Accurate R u) (h0 : 0 ≤ u) {x y b δ : ℝ} (hb : |x| ≤ b) (h : |y - x| ≤ δ) :
    |R.rnd y - x| ≤ δ + u * (b + δ) := by
  have h1 := hu y
  have h2 : |y| ≤ b + δ := by
    calc |y| = |(y - x) + x| := by ring_nf
      _ ≤ |y - x| + |x| := abs_add_le _ _
      _ ≤ b + δ := by linarith
  calc |R.rnd y - x| = |(R.rnd y - y) + (y - x)| := by ring_nf
    _ ≤ |R.rnd y - y| + |y - x| := abs_add_le _ _
    _ ≤ δ + u * (b + δ) := by nlinarith [mul_le_mul_of_nonneg_left h2 h0]

theorem frac_near (hu : Accurate R u) (h0 : 0 ≤ u) (hu1 : u ≤ 1 / 12) {ff ft : Vec3 ℝ} {c : Fin 3} {d : Int}
    (hd : d = 1 ∨ d = -1) (hx : |ft c - ff c| ≤ 1) (hoff : OffHalf u (ft c - ff c)) :
    |wrappedFrac d ff ft c| ≤ 1 / 2 ∧ |wrappedFracFloat R d ff ft c - wrappedFrac d ff ft c| ≤ 2 * u := by
  set x := ft c - ff c with hxd
  have hdx : |(d : ℝ) * x| = |x| := by rcases hd with rfl | rfl <;> simp
  have hoff' : OffHalf u ((d : ℝ) * x) := by
    rcases hd with rfl | rfl
    · simpa using hoff
    · simpa using offHalf_neg hoff
  have hclose : |(d : ℝ) * R.rnd x - d * x| ≤ u * |(d : ℝ) * x| := by
    rw [← mul_sub, abs_mul, hdx]
    have : |(d : ℝ)| = 1 := by rcases hd with rfl | rfl <;> simp
    rw [this, one_mul]
    exact hu x
  obtain ⟨b1, b2⟩ := roundHalfEven_bounds ((d : ℝ) * x)
  have hb : |(d : ℝ) * x - roundHalfEven ((d : ℝ) * x)| ≤ 1 / 2 := abs_le.2 ⟨by linarith, b1⟩
  have e1 : wrappedFrac d ff ft c = (d : ℝ) * x - roundHalfEven ((d : ℝ) * x) := rfl
  have e2 : wrappedFracFloat R d ff ft c = R.rnd ((d : ℝ) * R.rnd x - roundHalfEven ((d : ℝ) * x)) := by
    simp only [wrappedFracFloat, ← hxd]
    rw [roundHalfEven_stable hoff' hclose]
  refine ⟨by rw [e1]; exact hb, ?_⟩
  rw [e1, e2]
  have hδ : |(d : ℝ) * R.rnd x - roundHalfEven ((d : ℝ) * x) - ((d : ℝ) * x - roundHalfEven ((d : ℝ) * x))| ≤ u := by
    calc _ = |(d : ℝ) * R.rnd x - d * x| := by congr 1; ring
      _ ≤ u * |(d : ℝ) * x| := hclose
      _ ≤ u := by rw [hdx]; nlinarith
  refine (rnd_near hu h0 hb hδ).trans ?_
  nlinarith

theorem cart_near (hu : Accurate R u) (h0 : 0 ≤ u) (hu1 : u ≤ 1 / 12) (g : Geometry ℝ) {f f' : Vec3 ℝ}
    (hf : ∀ c, |f c| ≤ 1 / 2) (hff : ∀ c, |f' c - f c| ≤ 2 * u) (c : Fin 3) :
    |g.cart f c| ≤ extent g c / 2 ∧ |g.cartFloat R f' c - g.cart f c| ≤ 6 * u * extent g c := by
  have e : g.cart f c = f 0 * g.lattice 0 c + f 1 * g.lattice 1 c + f 2 * g.lattice 2 c := by
    simp [Geometry.cart, Matrix.vecMul, dotProduct, Fin.sum_univ_three]
  have hp : ∀ k, |f k * g.lattice k c| ≤ |g.lattice k c| / 2 := by
    intro k
    rw [abs_mul]
    nlinarith [hf k, abs_nonneg (g.lattice k c)]
  have hq : ∀ k, |f' k * g.lattice k c - f k * g.lattice k c| ≤ 2 * u * |g.lattice k c| := by
    intro k
    rw [← sub_mul, abs_mul]
    exact mul_le_mul_of_nonneg_right (hff k) (abs_nonneg _)
  have hr : ∀ k, |R.rnd (f' k * g.lattice k c) - f k * g.lattice k c| ≤ (8 / 3) * u * |g.lattice k c| := by
    intro k
    refine (rnd_near hu h0 (hp k) (hq k)).trans ?_
    have := abs_nonneg (g.lattice k c)
    have h2 : 0 ≤ u * |g.lattice k c| := mul_nonneg h0 this
    nlinarith
  have n0 := abs_nonneg (g.lattice 0 c)
  have n1 := abs_nonneg (g.lattice 1 c)
  have n2 := abs_nonneg (g.lattice 2 c)
  have s1 : |f 0 * g.lattice 0 c + f 1 * g.lattice 1 c| ≤ (|g.lattice 0 c| + |g.lattice 1 c|) / 2 := by
    refine (abs_add_le _ _).trans ?_
    linarith [hp 0, hp 1]
  have s2 : |g.cart f c| ≤ extent g c / 2 := by
    rw [e, extent]
    refine (abs_add_le _ _).trans ?_
    linarith [hp 2]
  refine ⟨s2, ?_⟩
  have m1 : |R.rnd (f' 0 * g.lattice 0 c) + R.rnd (f' 1 * g.lattice 1 c) -
      (f 0 * g.lattice 0 c + f 1 * g.lattice 1 c)| ≤ (8 / 3) * u * (|g.lattice 0 c| + |g.lattice 1 c|) := by
    rw [add_sub_add_comm]
    refine (abs_add_le _ _).trans ?_
    have := hr 0
    have := hr 1
    linarith
  have r1 := rnd_near hu h0 s1 m1
  set A := |g.lattice 0 c| + |g.lattice 1 c| with hA
  have hA0 : 0 ≤ A := add_nonneg n0 n1
  have hAu : 0 ≤ u * A := mul_nonneg h0 hA0
  have r1' : |R.rnd (R.rnd (f' 0 * g.lattice 0 c) + R.rnd (f' 1 * g.lattice 1 c)) -
      (f 0 * g.lattice 0 c + f 1 * g.lattice 1 c)| ≤ (7 / 2) * u * A := by
    refine r1.trans ?_
    nlinarith
  have hS : extent g c = A + |g.lattice 2 c| := rfl
  have hS0 : 0 ≤ extent g c := by rw [hS]; exact add_nonneg hA0 n2
  have hSu : 0 ≤ u * extent g c := mul_nonneg h0 hS0
  have m2 : |R.rnd (R.rnd (f' 0 * g.lattice 0 c) + R.rnd (f' 1 * g.lattice 1 c)) + R.rnd (f' 2 * g.lattice 2 c) -
      g.cart f c| ≤ (7 / 2) * u * extent g c := by
    rw [e, add_sub_add_comm]
    refine (abs_add_le _ _).trans ?_
    have h2 := hr 2
    have : 0 ≤ u * |g.lattice 2 c| := mul_nonneg h0 n2
    rw [hS]
    nlinarith
  refine (rnd_near hu h0 s2 m2).trans ?_
  nlinarith

theorem roundingDrift_nonneg (h0 : 0 ≤ u) {S : ℝ} (hS : 0 ≤ S) (n : Nat) : 0 ≤ roundingDrift u S n := by
  unfold roundingDrift; positivity

/-- One more hop. -/
theorem add_near (hu : Accurate R u) (h0 : 0 ≤ u) {S v v' w w' : ℝ} (hS : 0 ≤ S) {n : Nat}
    (hv : |v| ≤ n * S / 2) (hv' : |v' - v| ≤ roundingDrift u S n) (hw : |w| ≤ S / 2) (hw' : |w' - w| ≤ 6 * u * S) :
    |v + w| ≤ (n + 1 : ℕ) * S / 2 ∧ |R.rnd (v' + w') - (v + w)| ≤ roundingDrift u S (n + 1) := by
  have h1 : |v + w| ≤ (n + 1 : ℕ) * S / 2 := by
    refine (abs_add_le _ _).trans ?_
    push_cast
    linarith
  refine ⟨h1, ?_⟩
  have h2 : |v' + w' - (v + w)| ≤ roundingDrift u S n + 6 * u * S := by
    rw [add_sub_add_comm]
    exact (abs_add_le _ _).trans (add_le_add hv' hw')
  refine (rnd_near hu h0 h1 h2).trans ?_
  have hp : (1 : ℝ) ≤ (1 + u) ^ n := one_le_pow₀ (by linarith)
  have hp' : (1 : ℝ) ≤ (1 + u) ^ (n + 1) := one_le_pow₀ (by linarith)
  have huS : 0 ≤ u * S := mul_nonneg h0 hS
  have e : roundingDrift u S (n + 1) = (1 + u) * roundingDrift u S n +
      (1 + u) ^ (n + 1) * (6 * u * S) + (1 + u) ^ (n + 1) * (u * ((n + 1 : ℕ) * S / 2)) := by
    simp only [roundingDrift]
    push_cast
    ring
  have a : (1 + u) * (6 * u * S) ≤ (1 + u) ^ (n + 1) * (6 * u * S) := by
    refine mul_le_mul_of_nonneg_right ?_ (by nlinarith)
    rw [pow_succ]
    nlinarith
  have b : u * ((n + 1 : ℕ) * S / 2) ≤ (1 + u) ^ (n + 1) * (u * ((n + 1 : ℕ) * S / 2)) := by
    have : 0 ≤ u * ((n + 1 : ℕ) * S / 2) := by positivity
    nlinarith
  rw [e]
  nlinarith

/-- The float tracker `t'` goes along with the exact one, `t`. -/
structure Alongside (u : ℝ) (g : Geometry ℝ) (t t' : Trajectory ℝ) : Prop where
  locations : t'.locations = t.locations
  hops : t'.hopCounter = t.hopCounter
  start : t'.r0 = t.r0
  length : t'.displacement.length = t.displacement.length
  near : ∀ (i : Nat) v v' n, t.displacement[i]? = some v → t'.displacement[i]? = some v' →
    t.hopCounter[i]? = some n →
      ∀ c, |v c| ≤ n * extent g c / 2 ∧ |v' c - v c| ≤ roundingDrift u (extent g c) n

theorem alongside_step (hu : Accurate R u) (h0 : 0 ≤ u) (hu1 : u ≤ 1 / 12) {g : Geometry ℝ}
    (hg : ∀ f ∈ g.fracCoords, ∀ c, 0 ≤ f c ∧ f c < 1) {t t1 t' : Trajectory ℝ} {occ : List Int} {e : Event}
    (hc : ClearImage u g e) (ha : Alongside u g t t') (h : t.update g occ e = (.ok (), t1)) :
    ∃ t1', t'.updateFloat R g occ e = (.ok (), t1') ∧ Alongside u g t1 t1' := by
  simp only [Trajectory.update] at h
  simp only [Trajectory.updateFloat]
  cases hd : eventDirection occ e with
  | error x => rw [hd] at h; cases h
  | ok d =>
    rw [hd] at h
    simp only at h ⊢
    by_cases hz : d = 0
    · rw [if_pos hz] at h ⊢
      simp only [Prod.mk.injEq, true_and] at h
      subst h
      exact ⟨_, rfl, ha⟩
    rw [if_neg hz] at h ⊢
    have hd1 : d = 1 ∨ d = -1 := by
      rcases eventDirection_values hd with h | h | h
      · exact .inl h
      · exact .inr h
      · exact absurd h hz
    simp only [Trajectory.recordHop] at h ⊢
    simp only [wrappedHopDisplacement, wrappedHopFloat] at h ⊢
    cases hp : unpack2 e.mobile with
    | error x => rw [hp] at h; cases h
    | ok p =>
      obtain ⟨f, w⟩ := p
      rw [hp] at h
      simp only at h ⊢
      rw [ha.locations]
      cases hm : firstMatch (if d = 1 then f else w) 0 t.locations with
      | none => rw [hm] at h; cases h
      | some i =>
        rw [hm] at h
        simp only at h ⊢
        cases hw : pyGet g.fracCoords w with
        | error x => rw [hw] at h; cases h
        | ok fw =>
          rw [hw] at h
          simp only at h ⊢
          cases hf : pyGet g.fracCoords f with
          | error x => rw [hf] at h; cases h
          | ok ff =>
            rw [hf] at h
            simp only [Prod.mk.injEq, true_and] at h ⊢
            subst h
            have mem : ∀ {j : Int} {v}, pyGet g.fracCoords j = .ok v → v ∈ g.fracCoords := by
              intro j v hj
              obtain ⟨k, -, hk⟩ := pyGet_ok_iff.1 hj
              exact List.mem_of_getElem? hk
            have hclear := hc f w ff fw (unpack2_ok_iff.1 hp) hf hw
            have hfr : ∀ c, |wrappedFrac d ff fw c| ≤ 1 / 2 ∧
                |wrappedFracFloat R d ff fw c - wrappedFrac d ff fw c| ≤ 2 * u := by
              intro c
              refine frac_near hu h0 hu1 hd1 ?_ (hclear c)
              have a := hg ff (mem hf) c
              have b := hg fw (mem hw) c
              exact abs_le.2 ⟨by linarith [a.2, b.1], by linarith [a.1, b.2]⟩
            have hcart := cart_near hu h0 hu1 g (fun c => (hfr c).1) (fun c => (hfr c).2)
            refine ⟨_, rfl, ?_⟩
            refine ⟨rfl, by simp [ha.hops], ha.start, by simp [ha.length], ?_⟩
            intro j v v' n hv hv' hn c
            rw [List.getElem?_modify] at hv hv' hn
            have hS : 0 ≤ extent g c := by unfold extent; positivity
            by_cases hij : i = j
            · subst hij
              simp only [if_true, Option.map_eq_map, Option.map_eq_some_iff] at hv hv' hn
              obtain ⟨v0, a1, rfl⟩ := hv
              obtain ⟨v0', a2, rfl⟩ := hv'
              obtain ⟨n0, a3, rfl⟩ := hn
              obtain ⟨b1, b2⟩ := ha.near i v0 v0' n0 a1 a2 a3 c
              exact add_near hu h0 hS b1 b2 (hcart c).1 (hcart c).2
            · simp only [if_neg hij, Option.map_eq_map, Option.map_id_fun', id_eq] at hv hv' hn
              exact ha.near j v v' n hv hv' hn c

end
end KMC
