import Verif.Lemmas.Transport
import Verif.Props.SamplerProps
import Verif.Props.TrackerRunProps
/-
C24 (built-in part), C25, C26, C59: the transport summary.
-/
namespace KMC
open Spec

/-! ### C24 -/

/-- C24.  Switching a built-in property (in fact setting any entry of the switch table) never
changes the value of another built-in property, and a property that is switched off is NaN. -/
theorem C24_switch_changes_only_its_own_value (p : TransportParams) (ds : List (Vec3 ℝ))
    (hops : List Nat) (t : EReal) (n : Nat) (flags : List (String × Bool)) (name : String) (b : Bool)
    (other : String) (hne : other ≠ name) :
    rowValue (computeTransport p ds hops t n (dictSet flags name b)) other =
      rowValue (computeTransport p ds hops t n flags) other := by
  have h : ∀ q, q ≠ name → isEnabled (dictSet flags name b) q = isEnabled flags q := by
    intro q hq
    unfold isEnabled
    rw [dictGet_dictSet_ne _ _ hq]
  unfold computeTransport
  unfold rowValue
  split <;> first | rfl | (simp only; rw [h _ hne])

/-- C24.  A built-in property that is switched off is NaN. -/
theorem C24_switched_off_is_nan (p : TransportParams) (ds : List (Vec3 ℝ))
    (hops : List Nat) (t : EReal) (n : Nat) (flags : List (String × Bool)) (name : String)
    (hn : name ∈ builtinPropertyFields) :
    rowValue (computeTransport p ds hops t n (dictSet flags name false)) name = some none := by
  have h : isEnabled (dictSet flags name false) name = false := by
    unfold isEnabled
    rw [dictGet_dictSet_self]; rfl
  simp only [builtinPropertyFields, List.mem_cons, List.not_mem_nil, or_false] at hn
  rcases hn with rfl | rfl | rfl | rfl | rfl | rfl <;> simp [computeTransport, rowValue, h]

/-! ### C25 -/

section
variable (p : TransportParams) (ds : List (Vec3 ℝ)) (hops : List Nat) (t : EReal)
  (flags : List (String × Bool))

/-- C25.  The mean squared displacement is NaN exactly when there is no ion. -/
theorem C25_msd (hon : SwitchedOn flags "msd") :
    (ds = [] → (computeTransport p ds hops t ds.length flags).msd = none) ∧
    (ds ≠ [] → (computeTransport p ds hops t ds.length flags).msd = some (meanSquare ds) ∧
      0 ≤ meanSquare ds) := by
  have h1 := (isEnabled_iff _ _).2 hon
  constructor
  · rintro rfl
    simp [computeTransport, h1, meanOf]
  · intro h
    refine ⟨?_, meanSquare_nonneg ds⟩
    simp only [computeTransport, h1, if_true]
    exact msd_eq ds h

/-- C25.  Diffusivities and conductivity are NaN exactly when no time has passed or there is
no ion. -/
theorem C25_nan_iff (hj : SwitchedOn flags "jump_diffusivity")
    (ht : SwitchedOn flags "tracer_diffusivity") (hc : SwitchedOn flags "conductivity") :
    let row := computeTransport p ds hops t ds.length flags
    (row.jumpDiffusivity = none ↔ ¬ 0 < t ∨ ds = []) ∧
    (row.tracerDiffusivity = none ↔ ¬ 0 < t ∨ ds = []) ∧
    (row.conductivity = none ↔ ¬ 0 < t ∨ ds = []) := by
  have h1 := (isEnabled_iff _ _).2 hj
  have h2 := (isEnabled_iff _ _).2 ht
  have h3 := (isEnabled_iff _ _).2 hc
  intro row
  simp only [row, computeTransport, h1, h2, h3, if_true]
  by_cases h0 : ds = []
  · subst h0
    simp
  · by_cases ht0 : 0 < t
    · have hl : 0 < ds.length := List.length_pos_iff.2 h0
      rw [msd_eq ds h0]
      simp [h0, ht0]
    · simp [ht0]

/-- C25.  The formulas, for a finite positive time: `D_J = |Σ d|² / (2 dim t N)`,
`D_tr = MSD / (2 dim t)` in cm²/s, and the Nernst–Einstein conductivity of `D_J`. -/
theorem C25_formulas (hj : SwitchedOn flags "jump_diffusivity")
    (ht : SwitchedOn flags "tracer_diffusivity") (hc : SwitchedOn flags "conductivity")
    (hne : ds ≠ []) (τ : ℝ) (hτ : 0 < τ) :
    let row := computeTransport p ds hops (τ : EReal) ds.length flags
    let dJ := sqLen ds.sum / (2 * p.dimension * τ * ds.length) * 1e-16
    row.jumpDiffusivity = some dJ ∧
    row.tracerDiffusivity = some (meanSquare ds / (2 * p.dimension * τ) * 1e-16) ∧
    row.conductivity = some (dJ * (ds.length / p.volume) * p.charge ^ 2 /
      (8.617333262145e-2 * p.temperature) * 1.602e11) := by
  have h1 := (isEnabled_iff _ _).2 hj
  have h2 := (isEnabled_iff _ _).2 ht
  have h3 := (isEnabled_iff _ _).2 hc
  have hl : 0 < ds.length := List.length_pos_iff.2 hne
  have hτ' : (0 : EReal) < (τ : EReal) := by exact_mod_cast hτ
  have hc1 : angstromSqToCmSq = 1e-16 := by unfold angstromSqToCmSq; norm_num
  intro row dJ
  simp only [row, computeTransport, h1, h2, h3, if_true]
  have hm : (decide ((0 : EReal) < (τ : EReal)) && decide (0 < ds.length)) = true := by simp [hτ', hl]
  rw [msd_eq ds hne]
  simp only [hm, if_true, overTime_finite, vecNorm_sq, hc1, Option.map_some, dJ, boltzmannMeVPerK,
    conductivityFactor]
  refine ⟨?_, ?_, ?_⟩
  · congr 3; ring
  · trivial
  · congr 6; ring

/-- C25.  The values are never negative. -/
theorem C25_nonneg (hv : 0 < p.volume) (hT : 0 < p.temperature) (n : Nat) :
    let row := computeTransport p ds hops t n flags
    (∀ x, row.msd = some x → 0 ≤ x) ∧ (∀ x, row.jumpDiffusivity = some x → 0 ≤ x) ∧
    (∀ x, row.tracerDiffusivity = some x → 0 ≤ x) ∧ (∀ x, row.conductivity = some x → 0 ≤ x) := by
  intro row
  have hmsd : ∀ x, meanOf (ds.map fun v => vecNorm v ^ 2) = some x → 0 ≤ x := by
    intro x hx
    by_cases h0 : ds = []
    · subst h0; simp [meanOf] at hx
    · rw [msd_eq ds h0] at hx
      cases hx; exact meanSquare_nonneg ds
  have hA : (0 : ℝ) ≤ angstromSqToCmSq := by unfold angstromSqToCmSq; norm_num
  have hJ : ∀ x, (if (decide ((0 : EReal) < t) && decide (0 < n)) = true then
      some (overTime (vecNorm ds.sum ^ 2) (2 * p.dimension * n) t * angstromSqToCmSq) else none)
        = some x → 0 ≤ x := by
    intro x hx
    split at hx
    · rename_i hm
      simp only [Bool.and_eq_true, decide_eq_true_eq] at hm
      cases hx
      exact mul_nonneg (overTime_nonneg (sq_nonneg _) (by positivity) hm.1) hA
    · cases hx
  have hB : (0 : ℝ) < boltzmannMeVPerK := by unfold boltzmannMeVPerK; norm_num
  have hC : (0 : ℝ) ≤ conductivityFactor := by unfold conductivityFactor; norm_num
  simp only [row, computeTransport]
  refine ⟨?_, ?_, ?_, ?_⟩
  · intro x hx; split at hx
    · exact hmsd x hx
    · cases hx
  · intro x hx
    split at hx
    · exact hJ x hx
    · cases hx
  · intro x hx
    split at hx
    · split at hx
      · rename_i hm
        simp only [Bool.and_eq_true, decide_eq_true_eq] at hm
        obtain ⟨y, hy, rfl⟩ := Option.map_eq_some_iff.1 hx
        exact mul_nonneg (overTime_nonneg (hmsd y hy) (by positivity) hm.1) hA
      · cases hx
    · cases hx
  · intro x hx
    split at hx
    · obtain ⟨y, hy, rfl⟩ := Option.map_eq_some_iff.1 hx
      have hy0 := hJ y hy
      positivity
    · cases hx

/-- C25.  The jump diffusivity never exceeds `N` times the tracer diffusivity. -/
theorem C25_jump_le_n_tracer (j tr : ℝ)
    (hj : (computeTransport p ds hops t ds.length flags).jumpDiffusivity = some j)
    (htr : (computeTransport p ds hops t ds.length flags).tracerDiffusivity = some tr) :
    j ≤ ds.length * tr := by
  simp only [computeTransport] at hj htr
  split at hj
  swap
  · cases hj
  split at htr
  swap
  · cases htr
  split at hj
  swap
  · cases hj
  rename_i hm
  simp only [Bool.and_eq_true, decide_eq_true_eq] at hm
  simp only [hm, decide_true, Bool.and_self, if_true] at htr
  have hne : ds ≠ [] := List.length_pos_iff.1 hm.2
  rw [msd_eq ds hne] at htr
  simp only [Option.map_some, Option.some.injEq] at hj htr
  subst hj; subst htr
  have hA : (0 : ℝ) ≤ angstromSqToCmSq := by unfold angstromSqToCmSq; norm_num
  rw [← mul_assoc]
  refine mul_le_mul_of_nonneg_right ?_ hA
  have hl : (0 : ℝ) < (ds.length : ℝ) := by exact_mod_cast hm.2
  by_cases htop : t = ⊤
  · subst htop; simp [overTime_top]
  · have h1 : overTime (vecNorm ds.sum ^ 2) (2 * p.dimension * ds.length) t =
        sqLen ds.sum / (2 * p.dimension * ds.length * t.toReal) := by
      simp [overTime, htop, vecNorm_sq]
    have h2 : (ds.length : ℝ) * overTime (meanSquare ds) (2 * p.dimension) t =
        (ds.length * (ds.map sqLen).sum) / (2 * p.dimension * ds.length * t.toReal) := by
      simp only [overTime, htop, if_false, meanSquare]
      field_simp
    rw [h1, h2]
    refine div_le_div_of_nonneg_right (sqLen_sum_le ds) ?_
    have := EReal.toReal_nonneg hm.1.le
    positivity

/-! ### C26 -/

/-- C26.  The Haven ratio is tracer over jump diffusivity when the latter is not zero, and NaN
when it is zero or NaN. -/
theorem C26_haven_ratio (n : Nat) (hj : SwitchedOn flags "jump_diffusivity")
    (ht : SwitchedOn flags "tracer_diffusivity") (hh : SwitchedOn flags "havens_ratio") :
    let row := computeTransport p ds hops t n flags
    (∀ j tr, row.jumpDiffusivity = some j → row.tracerDiffusivity = some tr → j ≠ 0 →
      row.havensRatio = some (tr / j)) ∧
    (row.jumpDiffusivity = some 0 ∨ row.jumpDiffusivity = none ∨ row.tracerDiffusivity = none →
      row.havensRatio = none) := by
  have h1 := (isEnabled_iff _ _).2 hj
  have h2 := (isEnabled_iff _ _).2 ht
  have h3 := (isEnabled_iff _ _).2 hh
  intro row
  simp only [row, computeTransport, h1, h2, h3, if_true]
  constructor
  · intro j tr e1 e2 hne
    rw [e1, e2]
    simp [hne]
  · rintro (e | e | e)
    · rw [e]
      split
      · rename_i e1 e2; cases e1; simp
      · rfl
    · rw [e]
    · rw [e]
      split
      · rename_i e2; cases e2
      · rfl

theorem sqLen_pos {v : Vec3 ℝ} (h : v ≠ 0) : 0 < sqLen v := by
  rcases (sqLen_nonneg v).lt_or_eq with h1 | h1
  · exact h1
  · exfalso
    apply h
    funext c
    have := (Finset.sum_eq_zero_iff_of_nonneg (fun c _ => sq_nonneg (v c))).1 h1.symm c (Finset.mem_univ c)
    exact pow_eq_zero_iff (two_ne_zero) |>.1 this

/-- C26.  The Haven ratio of a single ion that moved is one. -/
theorem C26_haven_single_ion (hh : SwitchedOn flags "havens_ratio") (v : Vec3 ℝ) (hv : v ≠ 0)
    (hd : 0 < p.dimension) (τ : ℝ) (hτ : 0 < τ) :
    (computeTransport p [v] hops (τ : EReal) 1 flags).havensRatio = some 1 := by
  have h3 := (isEnabled_iff _ _).2 hh
  have hτ' : (0 : EReal) < (τ : EReal) := by exact_mod_cast hτ
  have hA : (0 : ℝ) < angstromSqToCmSq := by unfold angstromSqToCmSq; norm_num
  have hs := sqLen_pos hv
  have hd' : (0 : ℝ) < p.dimension := by exact_mod_cast hd
  simp only [computeTransport, h3, if_true, hτ', decide_true, Bool.and_self,
    overTime_finite, vecNorm_sq, List.map_cons, List.map_nil, meanOf, List.sum_cons, List.sum_nil,
    add_zero, Option.map_some, zero_lt_one, List.length_cons, List.length_nil]
  rw [if_pos (by positivity)]
  congr 1
  have h1 := hs.ne'
  have h2 := hd'.ne'
  have h3 := hτ.ne'
  have h4 := hA.ne'
  simp only [Nat.cast_one, mul_one, zero_add, div_one]
  field_simp

/-- C26.  The correlation factor is the mean over the ions of squared displacement over hops
times squared hop distance, an ion without hops counting zero; NaN without ions. -/
theorem C26_correlation_formula (n : Nat) (hlen : hops.length = ds.length)
    (hon : SwitchedOn flags "correlation_factor") :
    let row := computeTransport p ds hops t n flags
    (ds = [] → row.correlationFactor = none) ∧
    (ds ≠ [] → row.correlationFactor = some ((List.zipWith
      (fun (v : Vec3 ℝ) (h : Nat) => if h = 0 then 0 else sqLen v / ((h : ℝ) * p.hopDistance ^ 2)) ds hops).sum /
        ds.length)) := by
  have h1 := (isEnabled_iff _ _).2 hon
  intro row
  simp only [row, computeTransport, h1, if_true]
  constructor
  · rintro rfl
    simp at hlen
    simp [hlen]
  · intro hne
    have hl : 0 < ds.length := List.length_pos_iff.2 hne
    rw [if_pos (by omega)]
    unfold correlationByIon
    rw [List.zipWith_map_left]
    rw [meanOf_eq]
    · simp [vecNorm_sq, hlen]
    · intro h0
      have := congrArg List.length h0
      simp [hlen] at this
      exact hne this

theorem zipWith_sum_congr {α β : Type} (f g : α → β → ℝ) (l1 : List α) (l2 : List β)
    (h : ∀ (i : Nat) a b, l1[i]? = some a → l2[i]? = some b → f a b = g a b) :
    (List.zipWith f l1 l2).sum = (List.zipWith g l1 l2).sum := by
  congr 1
  apply List.ext_getElem?
  intro i
  rw [List.getElem?_zipWith, List.getElem?_zipWith]
  cases h1 : l1[i]? with
  | none => rfl
  | some a =>
    cases h2 : l2[i]? with
    | none => rfl
    | some b => simp [h i a b h1 h2]

theorem zipWith_sum_le {α β : Type} (f g : α → β → ℝ) (l1 : List α) (l2 : List β)
    (h : ∀ (i : Nat) a b, l1[i]? = some a → l2[i]? = some b → f a b ≤ g a b) :
    (List.zipWith f l1 l2).sum ≤ (List.zipWith g l1 l2).sum := by
  induction l1 generalizing l2 with
  | nil => simp
  | cons a l1 ih =>
    cases l2 with
    | nil => simp
    | cons b l2 =>
      simp only [List.zipWith_cons_cons, List.sum_cons]
      exact add_le_add (h 0 a b rfl rfl) (ih l2 fun i x y hx hy => h (i + 1) x y (by simpa using hx)
        (by simpa using hy))

theorem zipWith_snd_sum (l1 : List (Vec3 ℝ)) (l2 : List Nat) (h : l2.length = l1.length) :
    (List.zipWith (fun (_ : Vec3 ℝ) (n : Nat) => (n : ℝ)) l1 l2).sum = ((l2.sum : Nat) : ℝ) := by
  induction l1 generalizing l2 with
  | nil =>
    have : l2 = [] := List.eq_nil_of_length_eq_zero (by simpa using h)
    subst this; simp
  | cons a l1 ih =>
    cases l2 with
    | nil => simp at h
    | cons b l2 =>
      simp only [List.zipWith_cons_cons, List.sum_cons, Nat.cast_add]
      rw [ih l2 (by simpa using h)]

/-- C26.  The correlation factor is zero when no ion has moved. -/
theorem C26_correlation_unmoved (n : Nat) (hlen : hops.length = ds.length) (hne : ds ≠ [])
    (hon : SwitchedOn flags "correlation_factor") (h0 : ∀ v ∈ ds, v = 0) :
    (computeTransport p ds hops t n flags).correlationFactor = some 0 := by
  rw [(C26_correlation_formula p ds hops t flags n hlen hon).2 hne]
  rw [zipWith_sum_congr _ (fun (_ : Vec3 ℝ) (_ : Nat) => (0 : ℝ))]
  · have : ∀ (l1 : List (Vec3 ℝ)) (l2 : List Nat),
        (List.zipWith (fun (_ : Vec3 ℝ) (_ : Nat) => (0 : ℝ)) l1 l2).sum = 0 := by
      intro l1
      induction l1 with
      | nil => intro l2; simp
      | cons a l1 ih => intro l2; cases l2 <;> simp [ih]
    rw [this]; simp
  · intro i v h hv _
    rw [h0 v (List.mem_of_getElem? hv)]
    simp [sqLen]

/-- C26.  If every ion moved on a straight line by hops of exactly the elementary distance, the
correlation factor is the mean number of hops per ion; in particular it is one when every
ion made a single hop. -/
theorem C26_correlation_straight (n : Nat) (hlen : hops.length = ds.length) (hne : ds ≠ [])
    (hon : SwitchedOn flags "correlation_factor") (ha : p.hopDistance ≠ 0)
    (hst : ∀ (i : Nat) v h, ds[i]? = some v → hops[i]? = some h →
      ∃ u : Vec3 ℝ, sqLen u = p.hopDistance ^ 2 ∧ v = fun c => (h : ℝ) * u c) :
    (computeTransport p ds hops t n flags).correlationFactor =
      some (((hops.sum : Nat) : ℝ) / ds.length) := by
  rw [(C26_correlation_formula p ds hops t flags n hlen hon).2 hne]
  rw [zipWith_sum_congr _ (fun (_ : Vec3 ℝ) (h : Nat) => (h : ℝ)), zipWith_snd_sum _ _ hlen]
  intro i v h hv hh
  obtain ⟨u, hu, rfl⟩ := hst i v h hv hh
  have : sqLen (fun c => (h : ℝ) * u c) = (h : ℝ) ^ 2 * sqLen u := by
    simp only [sqLen, mul_pow, Finset.mul_sum]
  rw [this, hu]
  by_cases h0 : h = 0
  · subst h0; simp
  · have : (h : ℝ) ≠ 0 := by exact_mod_cast h0
    rw [if_neg h0]
    field_simp

/-- C26.  If no ion is farther from its start than its number of hops times the elementary
distance, the correlation factor is at most the mean number of hops per ion. -/
theorem C26_correlation_bound (n : Nat) (hlen : hops.length = ds.length) (hne : ds ≠ [])
    (hon : SwitchedOn flags "correlation_factor") (ha : 0 < p.hopDistance)
    (hb : ∀ (i : Nat) v h, ds[i]? = some v → hops[i]? = some h →
      sqLen v ≤ ((h : ℝ) * p.hopDistance) ^ 2) :
    ∃ f, (computeTransport p ds hops t n flags).correlationFactor = some f ∧ 0 ≤ f ∧
      f ≤ ((hops.sum : Nat) : ℝ) / ds.length := by
  rw [(C26_correlation_formula p ds hops t flags n hlen hon).2 hne]
  refine ⟨_, rfl, ?_, ?_⟩
  · refine div_nonneg (List.sum_nonneg ?_) (by positivity)
    intro x hx
    obtain ⟨i, hi, rfl⟩ := List.mem_iff_getElem.1 hx
    simp only [List.getElem_zipWith]
    split
    · exact le_refl _
    · exact div_nonneg (sqLen_nonneg _) (by positivity)
  · refine div_le_div_of_nonneg_right ?_ (by positivity)
    rw [← zipWith_snd_sum ds hops hlen]
    apply zipWith_sum_le
    intro i v h hv hh
    split
    · positivity
    · rename_i h0
      have h1 : (0 : ℝ) < (h : ℝ) := by exact_mod_cast Nat.pos_of_ne_zero h0
      rw [div_le_iff₀ (by positivity)]
      have := hb i v h hv hh
      nlinarith

end

/-! ### Runs -/

section
variable {σ φ M R U V : Type}

theorem observed_aligned {T : Type} [Add T] {k : Kernel R T U} {m : RateModel M R T}
    {g : Geometry ℝ} {rng : Nat → U × U} {c : Nat} {s s' : Sim σ φ M R T} {t t' : Trajectory ℝ}
    {obs : List (State T × Trajectory ℝ)} (h : Observed k m g rng c s t obs s' t')
    (ha : Aligned t) :
    ∀ p ∈ obs, Aligned p.2 ∧ p.2.locations.length = t.locations.length := by
  induction h with
  | nil => simp
  | @cons c s s1 s2 t t1 t2 e dt obs hp ht hu _ ih =>
    have ha1 := aligned_update ha ht
    have hl : t1.locations.length = t.locations.length := by
      obtain ⟨d, -, ⟨-, rfl⟩ | ⟨-, f, to', j, disp, -, -, -, rfl⟩⟩ := traj_update_ok ht <;> simp
    intro p hp'
    rcases List.mem_cons.1 hp' with rfl | hp'
    · exact ⟨ha1, hl⟩
    · obtain ⟨h1, h2⟩ := ih ha1 p hp'
      exact ⟨h1, h2.trans hl⟩

/-- C25.  In every finished run every row of the built-in table holds the transport values of
the trajectory arrays at that moment, one entry per tracked ion; so with positive time and at
least one ion no enabled diffusivity or conductivity is NaN, and the jump diffusivity is at
most the number of ions times the tracer diffusivity. -/
theorem C25_run_rows (k : Kernel R EReal U) (m : RateModel M R EReal) (g : Geometry ℝ)
    (lookup : Option HopStateLookup) (p : TransportParams) (ops : List (PlanOp EReal V))
    (rng : Nat → U × U) (len equil prod : Nat) (s : Sim σ φ M R EReal)
    (h : (s.run k m g lookup (transportSummary p) (planAfter ops) rng len equil prod).outcome
      = .ok ()) :
    ∃ rs, (s.run k m g lookup (transportSummary p) (planAfter ops) rng len equil prod).tracker
        = some rs ∧
      ∀ t row, (t, row) ∈ rs.sampler.results →
        (0 < t → 0 < rs.traj.locations.length →
          (SwitchedOn (planAfter ops).builtin "jump_diffusivity" → row.jumpDiffusivity ≠ none) ∧
          (SwitchedOn (planAfter ops).builtin "tracer_diffusivity" → row.tracerDiffusivity ≠ none) ∧
          (SwitchedOn (planAfter ops).builtin "conductivity" → row.conductivity ≠ none) ∧
          (SwitchedOn (planAfter ops).builtin "correlation_factor" → row.correlationFactor ≠ none)) ∧
        (∀ j tr, row.jumpDiffusivity = some j → row.tracerDiffusivity = some tr →
          j ≤ rs.traj.locations.length * tr) := by
  obtain ⟨s1, traj, obs, rs, fired, h1, h2, h3, h4, h5, h6, -, h8⟩ :=
    C58_summary_schedule k m g lookup (transportSummary p) ops rng len equil prod s h
  refine ⟨rs, h3, ?_⟩
  have hA := observed_aligned h4 (traj_init_aligned h2)
  have hfin : rs.traj.locations.length = traj.locations.length := by
    clear h8 h6 h5 hA
    have : ∀ {c : Nat} {s s' : Sim σ φ M R EReal} {t t' : Trajectory ℝ}
        {obs : List (State EReal × Trajectory ℝ)}, Observed k m g rng c s t obs s' t' →
        t'.locations.length = t.locations.length := by
      intro c s s' t t' obs ho
      induction ho with
      | nil => rfl
      | @cons c s s1 s2 t t1 t2 e dt obs hp ht hu _ ih =>
        rw [ih]
        obtain ⟨d, -, ⟨-, rfl⟩ | ⟨-, f, to', j, disp, -, -, -, rfl⟩⟩ := traj_update_ok ht <;> simp
    exact this h4
  intro t row hrow
  rw [h8] at hrow
  obtain ⟨q, hq, hq2⟩ := List.mem_map.1 hrow
  obtain ⟨rfl, rfl⟩ := Prod.mk.inj hq2
  obtain ⟨ha, hl⟩ := hA q (h6.subset hq)
  have hd : q.2.displacement.length = rs.traj.locations.length := by rw [ha.disp, hl, hfin]
  rw [hfin, ← hl, ← ha.disp]
  unfold transportSummary
  rw [← ha.disp]
  constructor
  · intro ht hpos
    have hne : q.2.displacement ≠ [] := List.length_pos_iff.1 hpos
    refine ⟨?_, ?_, ?_, ?_⟩
    · intro on
      have := (isEnabled_iff _ _).2 on
      simp [computeTransport, this, ht, hne]
    · intro on
      have := (isEnabled_iff _ _).2 on
      simp only [computeTransport, this, if_true]
      rw [msd_eq _ hne]
      simp [ht, hne]
    · intro on
      have := (isEnabled_iff _ _).2 on
      simp [computeTransport, this, ht, hne]
    · intro on
      rw [(C26_correlation_formula p _ _ q.1.time _ _ (by rw [ha.hops, ha.disp]) on).2 hne]
      simp
  · intro j tr hj htr
    exact C25_jump_le_n_tracer p _ _ _ _ j tr hj htr

theorem steps_lib {T : Type} [Add T] [Zero T] {k : Kernel R T U} {m : RateModel M R T}
    {rng : Nat → U × U} {b : Bool} {c : Nat} {s s' : Sim σ φ M R T} {h : List (Event × T)}
    (hs : Steps k m rng b c s h s') : s'.lib = s.lib := by
  induction hs with
  | nil => rfl
  | @cons c s s1 s2 e dt h hp hu _ ih =>
    rw [ih, ← update_lib k m s e _, hu]

/-- C26.  After a finished run in which no hop is longer than the elementary hop distance, the
correlation factor lies between zero and the number of production steps per ion. -/
theorem C26_run_correlation_bound (k : Kernel R EReal U) (m : RateModel M R EReal) (g : Geometry ℝ)
    (lookup : Option HopStateLookup) (p : TransportParams)
    (summary : Trajectory ℝ → EReal → List (String × Bool) → TransportRow)
    (plan : PropertyPlan EReal V)
    (rng : Nat → U × U) (len equil prod : Nat) (s : Sim σ φ M R EReal)
    (ha : 0 < p.hopDistance) (hw : HopsWithin g p.hopDistance s.lib.events)
    (h : (s.run k m g lookup summary plan rng len equil prod).outcome = .ok ()) :
    ∃ rs, (s.run k m g lookup summary plan rng len equil prod).tracker = some rs ∧
      ∀ t flags, SwitchedOn flags "correlation_factor" → 0 < rs.traj.locations.length →
        ∃ f, (transportSummary p rs.traj t flags).correlationFactor = some f ∧ 0 ≤ f ∧
          f ≤ ((prod * len : Nat) : ℝ) / rs.traj.locations.length := by
  obtain ⟨s1, traj, sm, rs, a1, a2, -, a4, a5⟩ := run_ok h
  obtain ⟨hist, hl, hh⟩ := passes_tracked a4
  simp only at hh
  have hal := traj_init_aligned a2
  have hal2 := trackedSteps_aligned hh hal
  obtain ⟨-, b2, b3, -⟩ := traj_init_ok a2
  obtain ⟨eqs, -, heq⟩ := equilSteps_steps a1
  have hlib : s1.lib = s.lib := by
    exact steps_lib heq
  have hb := hops_bound hh ha.le (by rw [hlib]; exact hw) (by
    intro i v n hv hn
    rw [b2] at hv
    simp only [List.getElem?_map, Option.map_eq_some_iff] at hv
    obtain ⟨-, -, rfl⟩ := hv
    have : vecNorm 0 = 0 := by simp [vecNorm]
    rw [this]; positivity)
  have hc := C16_counters_count_hops hh hal
  rw [a5]
  refine ⟨rs, rfl, ?_⟩
  intro t flags on hpos
  have hne : rs.traj.displacement ≠ [] := by
    apply List.length_pos_iff.1; rw [hal2.disp]; exact hpos
  obtain ⟨f, f1, f2, f3⟩ := C26_correlation_bound p rs.traj.displacement rs.traj.hopCounter t flags
    rs.traj.locations.length (by rw [hal2.hops, hal2.disp]) hne on ha (by
      intro i v n hv hn
      have h1 := hb i v n hv hn
      rw [← vecNorm_sq]
      exact pow_le_pow_left₀ (vecNorm_nonneg v) h1 2)
  refine ⟨f, f1, f2, f3.trans ?_⟩
  rw [hal2.disp]
  refine div_le_div_of_nonneg_right ?_ (by positivity)
  have h0 : traj.hopCounter.sum = 0 := by rw [b3]; simp
  have h1 : rs.traj.hopCounter.sum ≤ prod * len := by
    rw [hc, h0, ← hl]
    have := List.length_filter_le (fun p : List Int × Event => decide (eventDirection p.1 p.2 ≠ .ok 0)) hist
    omega
  exact_mod_cast h1

/-! ### C59: the time a diffusivity refers to -/

/-- C59.  What a row means, in every finished run: the jump diffusivity is the collective
squared displacement gained since production started, over the absolute time of the state (not
the time since production started). -/
theorem C59_rows_use_absolute_time (k : Kernel R EReal U) (m : RateModel M R EReal)
    (g : Geometry ℝ) (lookup : Option HopStateLookup) (p : TransportParams)
    (ops : List (PlanOp EReal V)) (rng : Nat → U × U) (len equil prod : Nat)
    (s : Sim σ φ M R EReal)
    (hj : SwitchedOn (planAfter ops).builtin "jump_diffusivity")
    (h : (s.run k m g lookup (transportSummary p) (planAfter ops) rng len equil prod).outcome
      = .ok ()) :
    ∃ s1 traj obs rs, s.equilSteps k m rng (equil * len) 0 = (.ok (), s1) ∧
      Trajectory.init g lookup s1.st.occ = .ok traj ∧
      (s.run k m g lookup (transportSummary p) (planAfter ops) rng len equil prod).tracker
        = some rs ∧
      Observed k m g rng (equil * len) s1 traj obs rs.sim rs.traj ∧
      ∀ t row, (t, row) ∈ rs.sampler.results → ∃ q ∈ obs, t = q.1.time ∧
        ∀ τ : ℝ, 0 < τ → t = τ → q.2.displacement ≠ [] → row.jumpDiffusivity =
          some (sqLen q.2.displacement.sum /
            (2 * p.dimension * τ * q.2.displacement.length) * 1e-16) := by
  obtain ⟨s1, traj, obs, rs, fired, h1, h2, h3, h4, h5, h6, -, h8⟩ :=
    C58_summary_schedule k m g lookup (transportSummary p) ops rng len equil prod s h
  refine ⟨s1, traj, obs, rs, h1, h2, h3, h4, ?_⟩
  have hA := observed_aligned h4 (traj_init_aligned h2)
  intro t row hrow
  rw [h8] at hrow
  obtain ⟨q, hq, hq2⟩ := List.mem_map.1 hrow
  obtain ⟨rfl, rfl⟩ := Prod.mk.inj hq2
  refine ⟨q, h6.subset hq, rfl, ?_⟩
  obtain ⟨ha, hl⟩ := hA q (h6.subset hq)
  intro τ hτ ht hne
  have hl : 0 < q.2.displacement.length := List.length_pos_iff.2 hne
  have hτ' : (0 : EReal) < (τ : EReal) := by exact_mod_cast hτ
  have hc1 : angstromSqToCmSq = 1e-16 := by unfold angstromSqToCmSq; norm_num
  have h1 := (isEnabled_iff _ _).2 hj
  unfold transportSummary
  rw [← ha.disp, ht]
  have hm : (decide ((0 : EReal) < (τ : EReal)) && decide (0 < q.2.displacement.length)) = true := by
    simp [hτ', hl]
  simp only [computeTransport, h1, if_true, hm, overTime_finite, vecNorm_sq, hc1]
  congr 3; ring

/-- C59 (partial).  In a run of a simulation whose time is zero, the jump diffusivity of every
row is that of the production window: collective squared displacement gained in production
over the time elapsed in production (equilibration does not advance the time).

Missing for the full statement: simulations whose time is not zero when the run starts, after
a restart from a checkpoint or an earlier run.  The code then divides the displacement of the
window by the absolute time, and the value is too small: `C59_late_start_underestimates`. -/
theorem C59_rows_refer_to_window_partial (k : Kernel R EReal U) (m : RateModel M R EReal)
    (g : Geometry ℝ) (lookup : Option HopStateLookup) (p : TransportParams)
    (ops : List (PlanOp EReal V)) (rng : Nat → U × U) (len equil prod : Nat)
    (s : Sim σ φ M R EReal) (hz : s.st.time = 0)
    (hj : SwitchedOn (planAfter ops).builtin "jump_diffusivity")
    (h : (s.run k m g lookup (transportSummary p) (planAfter ops) rng len equil prod).outcome
      = .ok ()) :
    ∃ s1 traj obs rs, s.equilSteps k m rng (equil * len) 0 = (.ok (), s1) ∧
      Trajectory.init g lookup s1.st.occ = .ok traj ∧
      (s.run k m g lookup (transportSummary p) (planAfter ops) rng len equil prod).tracker
        = some rs ∧
      Observed k m g rng (equil * len) s1 traj obs rs.sim rs.traj ∧
      ∀ t row, (t, row) ∈ rs.sampler.results → ∃ q ∈ obs, t = q.1.time ∧
        ∀ w : ℝ, 0 < w → t = s1.st.time + w → q.2.displacement ≠ [] → row.jumpDiffusivity =
          some (sqLen q.2.displacement.sum /
            (2 * p.dimension * w * q.2.displacement.length) * 1e-16) := by
  obtain ⟨s1, traj, obs, rs, h1, h2, h3, h4, h5⟩ :=
    C59_rows_use_absolute_time k m g lookup p ops rng len equil prod s hj h
  refine ⟨s1, traj, obs, rs, h1, h2, h3, h4, ?_⟩
  obtain ⟨eqs, -, heq⟩ := equilSteps_steps h1
  intro t row hrow
  obtain ⟨q, hq, e, hw⟩ := h5 t row hrow
  refine ⟨q, hq, e, ?_⟩
  intro w hw0 ht
  rw [(steps_accounting (fun t => add_zero t) heq).2, if_neg (by simp), hz, zero_add] at ht
  exact hw w hw0 ht

/-- C59, negation of the full statement.  Whenever production starts at a positive time `t0`
and the ions have moved collectively, the reported jump diffusivity after a window of length
`w` is strictly below that of the window. -/
theorem C59_late_start_underestimates (p : TransportParams) (ds : List (Vec3 ℝ))
    (hops : List Nat) (flags : List (String × Bool)) (hj : SwitchedOn flags "jump_diffusivity")
    (hd : 0 < p.dimension) (hne : ds ≠ []) (hs : ds.sum ≠ 0) (t0 w : ℝ) (h0 : 0 < t0) (hw : 0 < w) :
    ∃ reported,
      (computeTransport p ds hops ((t0 + w : ℝ) : EReal) ds.length flags).jumpDiffusivity =
        some reported ∧
      reported < sqLen ds.sum / (2 * p.dimension * w * ds.length) * 1e-16 := by
  have hl : (0 : ℝ) < ds.length := by exact_mod_cast List.length_pos_iff.2 hne
  have hl' : 0 < ds.length := List.length_pos_iff.2 hne
  have hτ' : (0 : EReal) < ((t0 + w : ℝ) : EReal) := by exact_mod_cast (by linarith)
  have hc1 : angstromSqToCmSq = 1e-16 := by unfold angstromSqToCmSq; norm_num
  have h1 := (isEnabled_iff _ _).2 hj
  have hm : (decide ((0 : EReal) < ((t0 + w : ℝ) : EReal)) && decide (0 < ds.length)) = true := by
    rw [decide_eq_true hτ', decide_eq_true hl']; rfl
  refine ⟨sqLen ds.sum / (2 * p.dimension * ds.length * (t0 + w)) * 1e-16, ?_, ?_⟩
  · simp only [computeTransport, h1, if_true, hm, overTime_finite, vecNorm_sq, hc1]
  · have := sqLen_pos hs
    apply mul_lt_mul_of_pos_right _ (by norm_num)
    apply div_lt_div_of_pos_left this (by positivity)
    have hd' : (0 : ℝ) < p.dimension := by exact_mod_cast hd
    have : (0 : ℝ) < 2 * p.dimension * ds.length := by positivity
    nlinarith

end

/-! ### Examples -/

/-- Two ions; the first made one hop of length one, the second two hops along y. -/
noncomputable def exampleDisplacement : List (Vec3 ℝ) := [![1, 0, 0], ![0, 2, 0]]

/-- Parameters of the example. -/
noncomputable def exampleParams : TransportParams :=
  { dimension := 3
    hopDistance := 1
    volume := 100
    charge := 1
    temperature := 300 }

theorem exampleDisplacement_sum : exampleDisplacement.sum = ![1, 2, 0] := by
  ext i; fin_cases i <;> simp [exampleDisplacement]

/- Formulas: MSD 5/2, D_J = 5 / (2·3·4·2), D_tr = (5/2) / (2·3·4), correlation factor 3/2. -/
example : meanSquare exampleDisplacement = 5 / 2 ∧ sqLen exampleDisplacement.sum = 5 := by
  rw [exampleDisplacement_sum]
  constructor
  · have e1 : (![1, 0, 0] : Vec3 ℝ) 2 = 0 := rfl
    have e2 : (![0, 2, 0] : Vec3 ℝ) 2 = 0 := rfl
    norm_num [meanSquare, exampleDisplacement, sqLen, Fin.sum_univ_three, e1, e2]
  · have e1 : (![1, 2, 0] : Vec3 ℝ) 2 = 0 := rfl
    norm_num [sqLen, Fin.sum_univ_three, e1]

example : (computeTransport exampleParams exampleDisplacement [1, 2] ((4 : ℝ) : EReal) 2 []).jumpDiffusivity
    = some (5 / 48 * 1e-16) := by
  have h := (C25_formulas exampleParams exampleDisplacement [1, 2] [] (by simp [SwitchedOn, dictGet])
    (by simp [SwitchedOn, dictGet]) (by simp [SwitchedOn, dictGet]) (by simp [exampleDisplacement]) 4
    (by norm_num)).1
  have e : sqLen exampleDisplacement.sum = 5 := by
    rw [exampleDisplacement_sum]
    have e1 : (![1, 2, 0] : Vec3 ℝ) 2 = 0 := rfl
    norm_num [sqLen, Fin.sum_univ_three, e1]
  rw [e] at h
  refine Eq.trans h ?_
  simp only [exampleParams, exampleDisplacement, List.length_cons, List.length_nil]
  norm_num

example : (computeTransport exampleParams exampleDisplacement [1, 2] ((4 : ℝ) : EReal) 2 []).correlationFactor
    = some (3 / 2) := by
  have h := C26_correlation_straight exampleParams exampleDisplacement [1, 2] ((4 : ℝ) : EReal) [] 2
    rfl (by simp [exampleDisplacement]) (by simp [SwitchedOn, dictGet]) (by simp [exampleParams])
    (by
      intro i v h hv hh
      match i with
      | 0 =>
        simp [exampleDisplacement] at hv hh
        subst hv hh
        exact ⟨![1, 0, 0], by simp [sqLen, Fin.sum_univ_three, exampleParams],
          by ext c; fin_cases c <;> simp⟩
      | 1 =>
        simp [exampleDisplacement] at hv hh
        subst hv hh
        exact ⟨![0, 1, 0], by simp [sqLen, Fin.sum_univ_three, exampleParams],
          by ext c; fin_cases c <;> simp⟩
      | i + 2 => simp [exampleDisplacement] at hv)
  refine Eq.trans h ?_
  simp [exampleDisplacement]

/-- The geometry of the run example: two sites, half a cell of length one apart along `x`. -/
noncomputable def realGeometry : Geometry ℝ :=
  { fracCoords := [fun _ => 0, ![1 / 4, 0, 0]]
    lattice := 1
    nMobileSymbolSites := 1 }

/-- Arithmetic of the run example: always event 0, one time unit per step. -/
noncomputable def realToyKernel : Kernel Int EReal Unit :=
  { cumsum := fun l => l
    propose := fun _ _ _ => .ok (0, 1) }

/-- Rate model of the run example. -/
def realToyModel : RateModel Unit Int EReal :=
  { initializeState := fun _ _ => .ok ()
    applyEvent := fun _ _ _ => (.ok (), ())
    computeProbability := fun _ _ _ => .ok 1 }

/-- Initial simulation of the run example. -/
noncomputable def realToySim : Sim Unit Unit Unit Int EReal :=
  { lib := toyLib
    st := ⟨[0, 1], 0, 0⟩
    ms := ()
    prob := [1]
    cum := [1] }

/- The hypotheses of the run theorems: two equilibration and three production steps, starting at
time zero; every hop is within the hop distance. -/
example : realToySim.st.time = 0 ∧
    SwitchedOn (planAfter ([] : List (PlanOp EReal Nat))).builtin "jump_diffusivity" ∧
    (realToySim.run realToyKernel realToyModel realGeometry none (transportSummary exampleParams)
      (planAfter ([] : List (PlanOp EReal Nat))) (fun _ => ((), ())) 1 2 3).outcome = .ok () := by
  refine ⟨rfl, ?_, ?_⟩
  · unfold SwitchedOn; decide
  · rfl

/- The remaining hypothesis of `C26_run_correlation_bound`: wrapped hops in the unit cube are
shorter than the hop distance 1. -/
example : 0 < exampleParams.hopDistance ∧
    HopsWithin realGeometry exampleParams.hopDistance realToySim.lib.events := by
  refine ⟨by norm_num [exampleParams], ?_⟩
  intro e he d disp h
  unfold wrappedHopDisplacement at h
  split at h
  · cases h
  · split at h
    · cases h
    · split at h
      · cases h
      · rename_i f t _ _ ft _ _ ff _
        cases h
        have hb : ∀ c, (wrappedFrac d ff ft c) ^ 2 ≤ 1 / 4 := by
          intro c
          obtain ⟨h1, h2⟩ := roundHalfEven_bounds ((d : ℝ) * (ft c - ff c))
          have e : wrappedFrac d ff ft c =
            (d : ℝ) * (ft c - ff c) - (roundHalfEven ((d : ℝ) * (ft c - ff c)) : ℝ) := rfl
          rw [e]; nlinarith
        simp only [sqLen, Geometry.cart, realGeometry, Matrix.vecMul_one, Fin.sum_univ_three,
          exampleParams]
        have := hb 0; have := hb 1; have := hb 2
        norm_num; linarith

end KMC
