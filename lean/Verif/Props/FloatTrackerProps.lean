import Mathlib.Tactic.FieldSimp
import Verif.Lemmas.FloatTracker
import Verif.Lemmas.Binary
import Verif.Lemmas.Network
import Verif.Props.TransportProps
import Verif.Props.ClockProps
/-
C133: displacements in floating-point arithmetic.
-/
namespace KMC
open Spec

section
variable {σ φ M RR T U V Row : Type} [Add T] [Zero T] [Sub T] [LE T] [DecidableLE T]

theorem follow_alongside {R : Rounding} {u : ℝ} (hu : Accurate R u) (h0 : 0 ≤ u) (hu1 : u ≤ 1 / 12) {g : Geometry ℝ}
    (hg : ∀ f ∈ g.fracCoords, ∀ c, 0 ≤ f c ∧ f c < 1) {k : Kernel RR T U} {m : RateModel M RR T} {rng : Nat → U × U}
    {c : Nat} {s s' : Sim σ φ M RR T} {t t' : Trajectory ℝ} {hist : List (List Int × Event)}
    (h : TrackedSteps k m g rng c s t hist s' t') (hc : ∀ e ∈ s.lib.events, ClearImage u g e) {x : Trajectory ℝ}
    (ha : Alongside u g t x) : ∃ x', x.followFloat R g hist = (.ok (), x') ∧ Alongside u g t' x' := by
  induction h generalizing x with
  | nil => exact ⟨x, rfl, ha⟩
  | cons hp ht hup _ ih =>
    obtain ⟨x1, e1, a1⟩ := alongside_step hu h0 hu1 hg (hc _ (propose_event_mem hp)) ha ht
    have hl := update_lib k m _ _ _ |>.symm.trans (congrArg (fun r : Py Unit × Sim σ φ M RR T => r.2.lib) hup)
    obtain ⟨x2, e2, a2⟩ := ih (by rw [← hl]; exact hc) a1
    exact ⟨x2, by simp only [Trajectory.followFloat, e1, e2], a2⟩

/-- C133.  A tracker that rounds every operation, following the hops of a completed run, finds the ions on the same
sites with the same hop counters as exact arithmetic, and the displacement of an ion that has made `n` hops is off by
at most `(1 + u)ⁿ u S (6 n + n (n + 1) / 4)` along an axis along which the three lattice vectors extend by `S` in
total. -/
theorem C133_displacements (R : Rounding) (u : ℝ) (hu : Accurate R u) (h0 : 0 ≤ u) (hu1 : u ≤ 1 / 12)
    (k : Kernel RR T U) (m : RateModel M RR T) (g : Geometry ℝ) (hg : ∀ f ∈ g.fracCoords, ∀ c, 0 ≤ f c ∧ f c < 1)
    (lookup : Option HopStateLookup) (summary : Trajectory ℝ → T → List (String × Bool) → Row)
    (plan : PropertyPlan T V) (rng : Nat → U × U) (len equil prod : Nat) (s : Sim σ φ M RR T)
    (hc : ∀ e ∈ s.lib.events, ClearImage u g e)
    (hok : (s.run k m g lookup summary plan rng len equil prod).outcome = .ok ()) :
    ∃ s1 t0 rs hist, s.equilSteps k m rng (equil * len) 0 = (.ok (), s1) ∧
      Trajectory.init g lookup s1.st.occ = .ok t0 ∧
      (s.run k m g lookup summary plan rng len equil prod).tracker = some rs ∧ hist.length = prod * len ∧
      TrackedSteps k m g rng (equil * len) s1 t0 hist rs.sim rs.traj ∧
      ∃ t, t0.followFloat R g hist = (.ok (), t) ∧ t.locations = rs.traj.locations ∧
        t.hopCounter = rs.traj.hopCounter ∧ t.displacement.length = rs.traj.displacement.length ∧
        ∀ (i : Nat) v v' n, rs.traj.displacement[i]? = some v → t.displacement[i]? = some v' →
          rs.traj.hopCounter[i]? = some n →
            ∀ c, |v' c - v c| ≤ (1 + u) ^ n * u * extent g c * (6 * n + n * (n + 1) / 4) := by
  obtain ⟨s1, traj, sm, rs, a1, a2, -, a4, a5⟩ := run_ok hok
  obtain ⟨hist, hl, hh⟩ := passes_tracked a4
  have hlib : s1.lib = s.lib := by
    have := (equilSteps_inv k m rng s.lib.events (fun _ => True) (by simp) (equil * len) 0 s rfl trivial).1
    rwa [a1] at this
  have hstart : Alongside u g traj traj := by
    refine ⟨rfl, rfl, rfl, rfl, ?_⟩
    intro i v v' n hv hv' hn c
    obtain ⟨-, h2, h3, -⟩ := traj_init_ok a2
    have e : v = v' := by rw [hv] at hv'; exact Option.some.inj hv'
    subst e
    have hv0 : v = 0 := by
      simp only [h2, List.getElem?_map, Option.map_eq_some_iff] at hv
      obtain ⟨_, -, rfl⟩ := hv
      rfl
    have hn0 : n = 0 := by
      simp only [h3, List.getElem?_map, Option.map_eq_some_iff] at hn
      obtain ⟨_, -, rfl⟩ := hn
      rfl
    subst hv0 hn0
    simp [roundingDrift]
  obtain ⟨t, b1, b2⟩ := follow_alongside hu h0 hu1 hg hh (by simp only [hlib]; exact hc) hstart
  rw [a5]
  exact ⟨s1, traj, rs, hist, a1, a2, rfl, hl, hh, t, b1, b2.locations, b2.hops, b2.length,
    fun i v v' n x1 x2 x3 c => (b2.near i v v' n x1 x2 x3 c).2⟩

end

/-- C133.  What the bound of `C133_displacements` means for Python floats, up to `2⁵²` hops of an ion. -/
theorem C133_double (n : Nat) (hn : n ≤ 2 ^ 52) (S : ℝ) (hS : 0 ≤ S) :
    (1 + (1 / 2 : ℝ) ^ 53) ^ n * (1 / 2) ^ 53 * S * (6 * n + n * (n + 1) / 4) ≤
      (1 / 2) ^ 52 * S * (6 * n + n * (n + 1) / 4) := by
  have h := C123_double_clock n hn ((1 + (1 / 2 : ℝ) ^ 53) ^ n) 1 zero_le_one ?_ (by simp)
  · have hn' : (n : ℝ) ≤ 2 ^ 52 := by exact_mod_cast hn
    have h2 : (1 + (1 / 2 : ℝ) ^ 53) ^ n ≤ 2 := by
      have := (abs_le.1 h).2
      have e : (n : ℝ) * (1 / 2) ^ 52 ≤ 1 := by
        calc (n : ℝ) * (1 / 2) ^ 52 ≤ 2 ^ 52 * (1 / 2) ^ 52 := mul_le_mul_of_nonneg_right hn' (by positivity)
          _ = 1 := by norm_num
      linarith
    have e : (1 / 2 : ℝ) ^ 52 * S * (6 * n + n * (n + 1) / 4) =
      2 * (1 / 2) ^ 53 * S * (6 * n + n * (n + 1) / 4) := by ring
    rw [e]
    gcongr
  · rw [mul_one]
    exact pow_le_pow_left₀ (by norm_num) (by norm_num) n

/-- C133.  With a rounding that treats both signs alike, as that of Python floats, a hop and the same hop back are
recorded as exactly opposite. -/
theorem C133_there_and_back (R : Rounding) (hodd : ∀ x, R.rnd (-x) = -R.rnd x) (g : Geometry ℝ) (e : Event) (d : Int)
    (v : Vec3 ℝ) (h : wrappedHopFloat R g e d = .ok v) : wrappedHopFloat R g e (-d) = .ok (-v) := by
  simp only [wrappedHopFloat] at h ⊢
  cases hp : unpack2 e.mobile with
  | error x => rw [hp] at h; cases h
  | ok p =>
    obtain ⟨f, w⟩ := p
    rw [hp] at h
    simp only at h ⊢
    cases hw : pyGet g.fracCoords w with
    | error x => rw [hw] at h; cases h
    | ok fw =>
      rw [hw] at h
      simp only at h ⊢
      cases hf : pyGet g.fracCoords f with
      | error x => rw [hf] at h; cases h
      | ok ff =>
        rw [hf] at h
        simp only [Except.ok.injEq] at h ⊢
        subst h
        have e1 : wrappedFracFloat R (-d) ff fw = -wrappedFracFloat R d ff fw := by
          funext c
          simp only [wrappedFracFloat, Pi.neg_apply, Int.cast_neg, neg_mul, roundHalfEven_neg]
          rw [← hodd]
          congr 1
          ring
        funext c
        rw [e1]
        simp only [Geometry.cartFloat, Pi.neg_apply, neg_mul, hodd, ← neg_add]

theorem C133_double_is_odd (x : ℝ) : Rounding.double.rnd (-x) = -Rounding.double.rnd x := binaryRnd_neg 53 x

/-- C133, negative result.  Clear images are needed: with Python floats, for two sites whose distance along an axis is
half a cell up to `2⁻⁶⁰`, the difference is rounded to half a cell and the hop is recorded in the other direction; the
displacement is off by a whole lattice vector after one hop. -/
theorem C133_half_cell : ∃ (g : Geometry ℝ) (e : Event) (v v' : Vec3 ℝ),
    (∀ f ∈ g.fracCoords, ∀ c, (0 ≤ f c ∧ f c < 1) ∧ Rounding.double.rnd (f c) = f c) ∧
    wrappedHopDisplacement g e 1 = .ok v ∧ wrappedHopFloat .double g e 1 = .ok v' ∧
    (1 : ℝ) - (1 / 2) ^ 50 ≤ v' 0 - v 0 := by
  have z : Rounding.double.rnd 0 = 0 := Rounding.double.zero
  have hhalf : Rounding.double.rnd (1 / 2) = 1 / 2 :=
    binaryRnd_fixes (p := 53) (by norm_num) (by norm_num) (k := 1) (e := -1) (by norm_num) (by norm_num)
  have ha : Rounding.double.rnd ((1 / 2) ^ 53 - (1 / 2) ^ 60) = (1 / 2) ^ 53 - (1 / 2) ^ 60 :=
    binaryRnd_fixes (p := 53) (by norm_num) (by norm_num) (k := 127) (e := -60) (by norm_num) (by norm_num)
  have hb : Rounding.double.rnd (1 / 2 + (1 / 2) ^ 53) = 1 / 2 + (1 / 2) ^ 53 :=
    binaryRnd_fixes (p := 53) (by norm_num) (by norm_num) (k := 2 ^ 52 + 1) (e := -53) (by norm_num) (by norm_num)
  have hd : Rounding.double.rnd (1 / 2 + (1 / 2) ^ 53 - ((1 / 2) ^ 53 - (1 / 2) ^ 60)) = 1 / 2 := by
    have := binaryRnd_absorbs (p := 53) (by norm_num) (t := 1 / 2) (dt := (1 / 2) ^ 60) (by norm_num) hhalf
      (by positivity) (by norm_num)
    rw [show (1 / 2 : ℝ) + (1 / 2) ^ 53 - ((1 / 2) ^ 53 - (1 / 2) ^ 60) = 1 / 2 + (1 / 2) ^ 60 by ring]
    exact this
  have r0 : roundHalfEven (1 / 2 : ℝ) = 0 := by
    unfold roundHalfEven
    have : ⌊(1 / 2 : ℝ)⌋ = 0 := by norm_num
    simp only [this]
    norm_num
  have r1 : roundHalfEven (1 / 2 + (1 / 2) ^ 53 - ((1 / 2) ^ 53 - (1 / 2) ^ 60) : ℝ) = 1 :=
    roundHalfEven_unique (by
      rw [show (1 / 2 : ℝ) + (1 / 2) ^ 53 - ((1 / 2) ^ 53 - (1 / 2) ^ 60) - ((1 : ℤ) : ℝ) = -(1 / 2 - (1 / 2) ^ 60) by
        push_cast; ring, abs_neg, abs_of_pos (by norm_num)]
      norm_num)
  refine ⟨⟨[![(1 / 2) ^ 53 - (1 / 2) ^ 60, 0, 0], ![1 / 2 + (1 / 2) ^ 53, 0, 0]], 1, 1⟩, ⟨[0, 1], [], none⟩, _, _, ?_,
    rfl, rfl, ?_⟩
  · intro f hf c
    simp only [List.mem_cons, List.not_mem_nil, or_false] at hf
    rcases hf with rfl | rfl
    · fin_cases c
      · exact ⟨⟨by norm_num, by norm_num⟩, ha⟩
      · exact ⟨⟨le_refl _, one_pos⟩, z⟩
      · exact ⟨⟨le_refl _, one_pos⟩, z⟩
    · fin_cases c
      · exact ⟨⟨by norm_num, by norm_num⟩, hb⟩
      · exact ⟨⟨le_refl _, one_pos⟩, z⟩
      · exact ⟨⟨le_refl _, one_pos⟩, z⟩
  · have e1 : Geometry.cart (⟨[![(1 / 2) ^ 53 - (1 / 2) ^ 60, 0, 0], ![1 / 2 + (1 / 2) ^ 53, 0, 0]], 1, 1⟩ : Geometry ℝ)
        (wrappedFrac 1 ![(1 / 2) ^ 53 - (1 / 2) ^ 60, 0, 0] ![1 / 2 + (1 / 2) ^ 53, 0, 0]) 0 =
        1 / 2 + (1 / 2) ^ 60 - 1 := by
      simp only [Geometry.cart, Matrix.vecMul_one, wrappedFrac, Matrix.cons_val_zero, Int.cast_one, one_mul]
      rw [r1]
      push_cast
      ring
    have e2 : Geometry.cartFloat .double
        (⟨[![(1 / 2) ^ 53 - (1 / 2) ^ 60, 0, 0], ![1 / 2 + (1 / 2) ^ 53, 0, 0]], 1, 1⟩ : Geometry ℝ)
        (wrappedFracFloat .double 1 ![(1 / 2) ^ 53 - (1 / 2) ^ 60, 0, 0] ![1 / 2 + (1 / 2) ^ 53, 0, 0]) 0 = 1 / 2 := by
      have f0 : wrappedFracFloat .double 1 ![(1 / 2) ^ 53 - (1 / 2) ^ 60, 0, 0] ![1 / 2 + (1 / 2) ^ 53, 0, 0] 0
          = 1 / 2 := by
        simp only [wrappedFracFloat, Matrix.cons_val_zero, Int.cast_one, one_mul, hd, r0, Int.cast_zero, sub_zero, hhalf]
      simp only [Geometry.cartFloat, f0, Matrix.one_apply_eq, mul_one, hhalf]
      have i1 : (1 : Matrix (Fin 3) (Fin 3) ℝ) 1 0 = 0 := rfl
      have i2 : (1 : Matrix (Fin 3) (Fin 3) ℝ) 2 0 = 0 := rfl
      simp only [i1, i2, mul_zero, z, add_zero, hhalf]
    rw [e1, e2]
    norm_num

/-- The hypotheses of `C133_displacements` can be met with Python floats: two sites a quarter of a cell apart, two
equilibration and three production steps. -/
example : Accurate Rounding.double ((1 / 2) ^ 53) ∧ ((1 / 2 : ℝ) ^ 53 ≤ 1 / 12) ∧
    (∀ f ∈ realGeometry.fracCoords, ∀ c, 0 ≤ f c ∧ f c < 1) ∧
    (∀ e ∈ realToySim.lib.events, ClearImage ((1 / 2) ^ 53) realGeometry e) ∧
    (realToySim.run realToyKernel realToyModel realGeometry none (transportSummary exampleParams)
      (planAfter ([] : List (PlanOp EReal Nat))) (fun _ => ((), ())) 1 2 3).outcome = .ok () := by
  refine ⟨C123_double_accuracy, by norm_num, ?_, ?_, rfl⟩
  · intro f hf c
    simp only [realGeometry, List.mem_cons, List.not_mem_nil, or_false] at hf
    rcases hf with rfl | rfl
    · exact ⟨le_refl _, one_pos⟩
    · fin_cases c
      · exact ⟨by norm_num, by norm_num⟩
      · exact ⟨le_refl _, one_pos⟩
      · exact ⟨le_refl _, one_pos⟩
  · intro e he f t ff ft hm hf ht c k
    have hk : (1 : ℝ) / 4 ≤ |1 / 4 - ((k : ℝ) + 1 / 2)| := by
      rcases le_or_gt k (-1) with h | h
      · have : (k : ℝ) ≤ -1 := by exact_mod_cast h
        rw [abs_of_nonneg (by linarith)]; linarith
      · have : (0 : ℝ) ≤ k := by exact_mod_cast h
        rw [abs_of_nonpos (by linarith)]; linarith
    have hk0 : (1 : ℝ) / 2 ≤ |0 - ((k : ℝ) + 1 / 2)| := by
      rcases le_or_gt k (-1) with h | h
      · have : (k : ℝ) ≤ -1 := by exact_mod_cast h
        rw [abs_of_nonneg (by linarith)]; linarith
      · have : (0 : ℝ) ≤ k := by exact_mod_cast h
        rw [abs_of_nonpos (by linarith)]; linarith
    have he' : e = ⟨[0, 1], [], none⟩ := by simpa [realToySim, toyLib, EventLib.addEvent, EventLib.addAll] using he
    subst he'
    simp only [List.cons.injEq, and_true] at hm
    obtain ⟨rfl, rfl⟩ := hm
    obtain rfl : (fun _ => (0 : ℝ)) = ff := Except.ok.inj hf
    obtain rfl : (![1 / 4, 0, 0] : Vec3 ℝ) = ft := Except.ok.inj ht
    fin_cases c
    · simp only [Fin.zero_eta, Matrix.cons_val_zero, sub_zero]
      refine lt_of_lt_of_le ?_ hk
      rw [abs_of_pos (by norm_num)]
      norm_num
    · simp only [Fin.mk_one, Matrix.cons_val_one, Matrix.cons_val_zero, sub_zero]
      refine lt_of_lt_of_le ?_ hk0
      norm_num
    · simp only [Fin.reduceFinMk, Matrix.cons_val, sub_zero]
      refine lt_of_lt_of_le ?_ hk0
      norm_num

end KMC
