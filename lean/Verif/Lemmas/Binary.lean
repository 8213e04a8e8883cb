import Verif.Model.Clock
import Verif.Lemmas.Tracker
/-
The binary rounding is a rounding in the sense of `Model/Propose`, with the usual error bound.
-/
namespace KMC

theorem roundHalfEven_int (n : ℤ) : roundHalfEven ((n : ℤ) : ℝ) = n := by
  unfold roundHalfEven
  simp

theorem roundHalfEven_close {x : ℝ} {n : ℤ} (h : |x - n| < 1 / 2) : roundHalfEven x = n := by
  obtain ⟨h1, h2⟩ := roundHalfEven_bounds x
  obtain ⟨h3, h4⟩ := abs_lt.1 h
  have a1 : ((roundHalfEven x - n : ℤ) : ℝ) < 1 := by push_cast; linarith
  have a2 : (-1 : ℝ) < ((roundHalfEven x - n : ℤ) : ℝ) := by push_cast; linarith
  have b1 : roundHalfEven x - n < 1 := by exact_mod_cast a1
  have b2 : -1 < roundHalfEven x - n := by exact_mod_cast a2
  omega

theorem roundHalfEven_monotone : Monotone (roundHalfEven : ℝ → ℤ) := by
  intro x y hxy
  by_contra hlt
  push Not at hlt
  obtain ⟨h1, h2⟩ := roundHalfEven_bounds x
  obtain ⟨h3, h4⟩ := roundHalfEven_bounds y
  have h5 : (roundHalfEven y : ℝ) + 1 ≤ roundHalfEven x := by exact_mod_cast hlt
  have hx : x = y := by linarith
  rw [hx] at hlt
  exact lt_irrefl _ hlt

theorem lastPlace_pos (p : ℕ) (x : ℝ) : 0 < lastPlace p x := by unfold lastPlace; positivity

theorem lastPlace_neg (p : ℕ) (x : ℝ) : lastPlace p (-x) = lastPlace p x := by unfold lastPlace; rw [abs_neg]

theorem binaryRnd_zero (p : ℕ) : binaryRnd p 0 = 0 := by
  unfold binaryRnd
  have := roundHalfEven_int 0
  simp only [Int.cast_zero] at this
  simp [this]

theorem binaryRnd_neg (p : ℕ) (x : ℝ) : binaryRnd p (-x) = -binaryRnd p x := by
  unfold binaryRnd
  rw [lastPlace_neg, neg_div, roundHalfEven_neg]
  push_cast
  ring

/-- A positive number lies between two powers. -/
theorem log_bounds {x : ℝ} (hx : 0 < x) : (2 : ℝ) ^ Int.log 2 |x| ≤ x ∧ x < (2 : ℝ) ^ (Int.log 2 |x| + 1) := by
  rw [abs_of_pos hx]
  have h1 := Int.zpow_log_le_self (R := ℝ) (b := 2) (by norm_num) hx
  have h2 := Int.lt_zpow_succ_log_self (R := ℝ) (b := 2) (by norm_num) x
  exact ⟨by simpa using h1, by simpa using h2⟩

theorem two_pow_split (p : ℕ) (x : ℝ) : (2 : ℝ) ^ (Int.log 2 |x| + 1) = 2 ^ p * lastPlace p x := by
  unfold lastPlace
  rw [← zpow_natCast, ← zpow_add₀ (by norm_num)]
  congr 1
  ring

theorem two_pow_split' (p : ℕ) (hp : 1 ≤ p) (x : ℝ) : (2 : ℝ) ^ Int.log 2 |x| = 2 ^ (p - 1) * lastPlace p x := by
  unfold lastPlace
  rw [← zpow_natCast, ← zpow_add₀ (by norm_num)]
  congr 1
  push_cast [hp]
  ring

/-- The digits of a positive number. -/
theorem digits_bounds {p : ℕ} (hp : 1 ≤ p) {x : ℝ} (hx : 0 < x) :
    (2 : ℝ) ^ (p - 1) ≤ x / lastPlace p x ∧ x / lastPlace p x < 2 ^ p := by
  obtain ⟨h1, h2⟩ := log_bounds hx
  rw [two_pow_split' p hp] at h1
  rw [two_pow_split p] at h2
  have := lastPlace_pos p x
  exact ⟨(le_div_iff₀ this).2 h1, (div_lt_iff₀ this).2 h2⟩

theorem rounded_digits {p : ℕ} (hp : 1 ≤ p) {x : ℝ} (hx : 0 < x) :
    (2 : ℤ) ^ (p - 1) ≤ roundHalfEven (x / lastPlace p x) ∧ roundHalfEven (x / lastPlace p x) ≤ 2 ^ p := by
  obtain ⟨h1, h2⟩ := digits_bounds hp hx
  have e1 := roundHalfEven_int (2 ^ (p - 1))
  have e2 := roundHalfEven_int (2 ^ p)
  push_cast at e1 e2
  exact ⟨e1 ▸ roundHalfEven_monotone h1, e2 ▸ roundHalfEven_monotone h2.le⟩

/-- Numbers with at most `p` bits are fixed. -/
theorem binaryRnd_fixes {p : ℕ} (hp : 1 ≤ p) {y : ℝ} (hy : 0 < y) {k e : ℤ} (hk : k ≤ 2 ^ p)
    (he : y = k * (2 : ℝ) ^ e) : binaryRnd p y = y := by
  obtain ⟨h1, h2⟩ := log_bounds hy
  have hle : y ≤ (2 : ℝ) ^ ((p : ℤ) + e) := by
    rw [he, zpow_add₀ (by norm_num), zpow_natCast]
    have : (k : ℝ) ≤ 2 ^ p := by exact_mod_cast hk
    exact mul_le_mul_of_nonneg_right this (by positivity)
  have hl : Int.log 2 |y| ≤ (p : ℤ) + e :=
    (zpow_le_zpow_iff_right₀ (by norm_num : (1 : ℝ) < 2)).1 (h1.trans hle)
  have hint : ∃ n : ℤ, y / lastPlace p y = n := by
    rcases hl.eq_or_lt with hl | hl
    · have hy2 : y = (2 : ℝ) ^ ((p : ℤ) + e) := le_antisymm hle (hl ▸ h1)
      refine ⟨2 ^ (p - 1), ?_⟩
      rw [div_eq_iff (lastPlace_pos p y).ne']
      push_cast
      rw [← two_pow_split' p hp, hl, ← hy2]
    · obtain ⟨d, hd⟩ := Int.eq_ofNat_of_zero_le (show 0 ≤ e - (Int.log 2 |y| - (p : ℤ) + 1) by omega)
      refine ⟨k * 2 ^ d, ?_⟩
      rw [div_eq_iff (lastPlace_pos p y).ne']
      conv_lhs => rw [he]
      unfold lastPlace
      push_cast
      rw [mul_assoc, ← zpow_natCast, ← zpow_add₀ (by norm_num)]
      congr 2
      omega
  obtain ⟨n, hn⟩ := hint
  unfold binaryRnd
  rw [hn, roundHalfEven_int, ← hn]
  exact div_mul_cancel₀ _ (lastPlace_pos p y).ne'

theorem binaryRnd_pos {p : ℕ} (hp : 1 ≤ p) {x : ℝ} (hx : 0 < x) : 0 < binaryRnd p x := by
  have h := (rounded_digits hp hx).1
  have : (0 : ℝ) < roundHalfEven (x / lastPlace p x) := by
    have : (0 : ℤ) < roundHalfEven (x / lastPlace p x) := lt_of_lt_of_le (by positivity) h
    exact_mod_cast this
  exact mul_pos this (lastPlace_pos p x)

theorem binaryRnd_mono_pos {p : ℕ} (hp : 1 ≤ p) {x y : ℝ} (hx : 0 < x) (hxy : x ≤ y) :
    binaryRnd p x ≤ binaryRnd p y := by
  have hy := hx.trans_le hxy
  have hl : Int.log 2 |x| ≤ Int.log 2 |y| := by
    rw [abs_of_pos hx, abs_of_pos hy]
    exact Int.log_mono_right hx hxy
  rcases hl.eq_or_lt with hl | hl
  · have hu : lastPlace p x = lastPlace p y := by unfold lastPlace; rw [hl]
    unfold binaryRnd
    rw [hu]
    refine mul_le_mul_of_nonneg_right ?_ (lastPlace_pos p y).le
    exact_mod_cast roundHalfEven_monotone ((div_le_div_iff_of_pos_right (lastPlace_pos p y)).2 hxy)
  · have h1 : binaryRnd p x ≤ 2 ^ p * lastPlace p x := by
      refine mul_le_mul_of_nonneg_right ?_ (lastPlace_pos p x).le
      exact_mod_cast (rounded_digits hp hx).2
    have h2 : 2 ^ (p - 1) * lastPlace p y ≤ binaryRnd p y := by
      refine mul_le_mul_of_nonneg_right ?_ (lastPlace_pos p y).le
      exact_mod_cast (rounded_digits hp hy).1
    rw [← two_pow_split] at h1
    rw [← two_pow_split' p hp] at h2
    refine h1.trans (le_trans ?_ h2)
    exact zpow_le_zpow_right₀ (by norm_num) (by omega)

theorem binaryRnd_mono {p : ℕ} (hp : 1 ≤ p) : Monotone (binaryRnd p) := by
  intro x y hxy
  rcases lt_trichotomy x 0 with hx | rfl | hx
  · have hnx := binaryRnd_pos hp (neg_pos.2 hx)
    rw [binaryRnd_neg] at hnx
    rcases lt_trichotomy y 0 with hy | rfl | hy
    · have := binaryRnd_mono_pos hp (neg_pos.2 hy) (neg_le_neg hxy)
      rw [binaryRnd_neg, binaryRnd_neg] at this
      linarith
    · rw [binaryRnd_zero]; linarith
    · have := binaryRnd_pos hp hy; linarith
  · rcases hxy.eq_or_lt with rfl | hy
    · exact le_rfl
    · rw [binaryRnd_zero]; exact (binaryRnd_pos hp hy).le
  · exact binaryRnd_mono_pos hp hx hxy

theorem binaryRnd_idem {p : ℕ} (hp : 1 ≤ p) (x : ℝ) : binaryRnd p (binaryRnd p x) = binaryRnd p x := by
  have key : ∀ {x : ℝ}, 0 < x → binaryRnd p (binaryRnd p x) = binaryRnd p x := by
    intro x hx
    exact binaryRnd_fixes hp (binaryRnd_pos hp hx) (rounded_digits hp hx).2 rfl
  rcases lt_trichotomy x 0 with hx | rfl | hx
  · have := key (neg_pos.2 hx)
    rw [binaryRnd_neg, binaryRnd_neg] at this
    linarith
  · rw [binaryRnd_zero, binaryRnd_zero]
  · exact key hx

/-- The rounding to `p` significant bits, ties to even. -/
noncomputable def Rounding.binary (p : ℕ) (hp : 1 ≤ p) : Rounding where
  rnd := binaryRnd p
  mono := binaryRnd_mono hp
  idem := binaryRnd_idem hp
  zero := binaryRnd_zero p
  one := binaryRnd_fixes hp one_pos (k := 1) (e := 0) (one_le_pow₀ (by norm_num)) (by simp)

/-- The arithmetic of Python floats without overflow and underflow. -/
noncomputable def Rounding.double : Rounding := .binary 53 (by norm_num)

theorem binaryRnd_error (p : ℕ) (hp : 1 ≤ p) (x : ℝ) : |binaryRnd p x - x| ≤ (1 / 2) ^ p * |x| := by
  by_cases hx : x = 0
  · subst hx; simp [binaryRnd_zero]
  have hu := lastPlace_pos p x
  obtain ⟨h1, h2⟩ := roundHalfEven_bounds (x / lastPlace p x)
  have e : binaryRnd p x - x = -((x / lastPlace p x - roundHalfEven (x / lastPlace p x)) * lastPlace p x) := by
    unfold binaryRnd
    field_simp
    ring
  rw [e, abs_neg, abs_mul, abs_of_pos hu]
  have hb : |x / lastPlace p x - roundHalfEven (x / lastPlace p x)| ≤ 1 / 2 := abs_le.2 ⟨h2, h1⟩
  refine (mul_le_mul_of_nonneg_right hb hu.le).trans ?_
  have hl := Int.zpow_log_le_self (R := ℝ) (b := 2) (by norm_num) (abs_pos.2 hx)
  simp only [Nat.cast_ofNat] at hl
  rw [two_pow_split' p hp] at hl
  calc 1 / 2 * lastPlace p x = (1 / 2) ^ p * (2 ^ (p - 1) * lastPlace p x) := by
        obtain ⟨q, rfl⟩ := Nat.exists_eq_add_of_le hp
        rw [Nat.add_sub_cancel_left, pow_add, ← mul_assoc, mul_assoc _ _ ((2 : ℝ) ^ q), ← mul_pow]
        norm_num
    _ ≤ _ := mul_le_mul_of_nonneg_left hl (by positivity)

/-- Adding less than a quarter of the last place leaves a number as it is. -/
theorem binaryRnd_absorbs {p : ℕ} (hp : 1 ≤ p) {t dt : ℝ} (ht : 0 < t) (hrep : binaryRnd p t = t) (h0 : 0 ≤ dt)
    (hdt : dt ≤ t * (1 / 2) ^ (p + 1)) : binaryRnd p (t + dt) = t := by
  have hu := lastPlace_pos p t
  obtain ⟨-, h2⟩ := log_bounds ht
  have hsmall : dt < lastPlace p t / 2 := by
    rw [two_pow_split p] at h2
    calc dt ≤ t * (1 / 2) ^ (p + 1) := hdt
      _ < (2 ^ p * lastPlace p t) * (1 / 2) ^ (p + 1) := mul_lt_mul_of_pos_right h2 (by positivity)
      _ = lastPlace p t / 2 := by
        rw [pow_succ, mul_right_comm, ← mul_assoc, ← mul_pow]
        norm_num
        ring
  have hK : t = (roundHalfEven (t / lastPlace p t) : ℝ) * lastPlace p t := hrep.symm
  have hlow := log_bounds ht
  generalize hk : roundHalfEven (t / lastPlace p t) = k at hK
  rw [two_pow_split p] at h2
  have hkU : (k : ℝ) * lastPlace p t < 2 ^ p * lastPlace p t := hK ▸ h2
  have hlt : k < 2 ^ p := by
    have : (k : ℝ) < 2 ^ p := lt_of_mul_lt_mul_right hkU hu.le
    exact_mod_cast this
  have hlt1 : (k : ℝ) + 1 ≤ 2 ^ p := by exact_mod_cast hlt
  have hnext : t + dt < 2 ^ p * lastPlace p t :=
    calc t + dt < k * lastPlace p t + lastPlace p t := by linarith
      _ = (k + 1) * lastPlace p t := by ring
      _ ≤ _ := mul_le_mul_of_nonneg_right hlt1 hu.le
  have hpos : 0 < t + dt := by linarith
  have hlog : Int.log 2 |t + dt| = Int.log 2 |t| := by
    have hb := log_bounds hpos
    rw [← two_pow_split p] at hnext
    have h3 := (zpow_lt_zpow_iff_right₀ (by norm_num : (1 : ℝ) < 2)).1 (hb.1.trans_lt hnext)
    have h4 := (zpow_lt_zpow_iff_right₀ (by norm_num : (1 : ℝ) < 2)).1
      ((hlow.1.trans (by linarith : t ≤ t + dt)).trans_lt hb.2)
    omega
  have hsame : lastPlace p (t + dt) = lastPlace p t := by unfold lastPlace; rw [hlog]
  have hdiv : (t + dt) / lastPlace p t - k = dt / lastPlace p t := by
    rw [add_div, sub_eq_iff_eq_add, add_comm]
    congr 1
    rw [div_eq_iff hu.ne']
    exact hK
  have hround : roundHalfEven ((t + dt) / lastPlace p t) = k := by
    apply roundHalfEven_close
    rw [hdiv, abs_of_nonneg (div_nonneg h0 hu.le), div_lt_iff₀ hu]
    linarith
  unfold binaryRnd
  rw [hsame, hround]
  exact hK.symm

end KMC
