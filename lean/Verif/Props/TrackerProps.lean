import Verif.Lemmas.Tracker
import Verif.Lemmas.Table
import Verif.Spec.HopSystem
import Verif.Props.ProposeProps
import Verif.Props.HopProps
/-
C15-C18: the tracker follows the ions.
-/
set_option linter.unusedSectionVars false

namespace KMC
open Spec

section
variable {K : Type} [Field K] [LinearOrder K] [FloorRing K]

/-! ### C16 -/

theorem modify_sum (l : List Nat) (i : Nat) (h : i < l.length) :
    (l.modify i (· + 1)).sum = l.sum + 1 := by
  induction l generalizing i with
  | nil => simp at h
  | cons a l ih =>
    cases i with
    | zero => simp [List.modify_cons]; omega
    | succ i => simp only [List.modify_succ_cons, List.sum_cons]; rw [ih i (by simpa using h)]; omega

/-- C16.  A tracker update of an event with non-zero direction moves exactly one ion: the
one on the source site.  Its counter grows by one, all other counters, positions and
displacements are unchanged. -/
theorem C16_one_ion_per_hop (g : Geometry K) (t t' : Trajectory K) (ha : Aligned t)
    (occ : List Int) (e : Event) (d f to' : Int) (hd : eventDirection occ e = .ok d) (hd0 : d ≠ 0)
    (he : e.mobile = [f, to']) (h : t.update g occ e = (.ok (), t')) :
    ∃ (i c : Nat), t.locations[i]? = some (if d = 1 then f else to') ∧
      t'.locations[i]? = some (if d = 1 then to' else f) ∧
      t.hopCounter[i]? = some c ∧ t'.hopCounter[i]? = some (c + 1) ∧
      ∀ j, j ≠ i → t'.locations[j]? = t.locations[j]? ∧ t'.hopCounter[j]? = t.hopCounter[j]? ∧
        t'.displacement[j]? = t.displacement[j]? := by
  obtain ⟨d', hd', ⟨h0, -⟩ | ⟨-, f', to'', i, disp, he', hl, -, rfl⟩⟩ := traj_update_ok h
  · rw [hd] at hd'; cases hd'; exact absurd h0 hd0
  · rw [hd] at hd'; cases hd'
    rw [he] at he'; cases he'
    have hi : i < t.locations.length := (List.getElem?_eq_some_iff.1 hl).1
    have hi2 : i < t.hopCounter.length := by rw [ha.hops]; exact hi
    refine ⟨i, t.hopCounter[i], hl, by simp [hi], by simp [hi2], by simp [hi2], ?_⟩
    intro j hj
    refine ⟨by simp [Ne.symm hj], ?_, ?_⟩
    · simp [Ne.symm hj]
    · simp [Ne.symm hj]

/-- C16, the other case: direction zero changes nothing. -/
theorem C16_no_hop_no_change (g : Geometry K) (t t' : Trajectory K) (occ : List Int) (e : Event)
    (hd : eventDirection occ e = .ok 0) (h : t.update g occ e = (.ok (), t')) : t' = t := by
  obtain ⟨d', hd', ⟨-, h0⟩ | ⟨h0, -⟩⟩ := traj_update_ok h
  · exact h0
  · rw [hd] at hd'; cases hd'; exact absurd rfl h0

variable {σ φ M R T U : Type} [Add T]

theorem trackedSteps_aligned {k : Kernel R T U} {m : RateModel M R T} {g : Geometry K}
    {rng : Nat → U × U} {c : Nat} {s s' : Sim σ φ M R T} {t t' : Trajectory K}
    {h : List (List Int × Event)} (hs : TrackedSteps k m g rng c s t h s' t') (ha : Aligned t) :
    Aligned t' := by
  induction hs with
  | nil => exact ha
  | cons _ hu _ _ ih => exact ih (aligned_update ha hu)

/-- C16.  Over any number of production steps the sum of all hop counters grows by the
number of events that had a non-zero direction when they were executed. -/
theorem C16_counters_count_hops {k : Kernel R T U} {m : RateModel M R T} {g : Geometry K}
    {rng : Nat → U × U} {c : Nat} {s s' : Sim σ φ M R T} {t t' : Trajectory K}
    {h : List (List Int × Event)} (hs : TrackedSteps k m g rng c s t h s' t') (ha : Aligned t) :
    t'.hopCounter.sum = t.hopCounter.sum +
      (h.filter fun p => decide (eventDirection p.1 p.2 ≠ .ok 0)).length := by
  induction hs with
  | nil => simp
  | @cons c s s1 s2 t t1 t2 e dt h hp hu hu2 hr ih =>
    rw [ih (aligned_update ha hu)]
    obtain ⟨d, hd, ⟨h0, rfl⟩ | ⟨h0, f, to', i, disp, he, hl, -, rfl⟩⟩ := traj_update_ok hu
    · subst h0
      rw [List.filter_cons_of_neg (by simp [hd])]
    · have hi : i < t.hopCounter.length := by
        rw [ha.hops]; exact (List.getElem?_eq_some_iff.1 hl).1
      rw [List.filter_cons_of_pos (by simp [hd, h0])]
      simp only [modify_sum _ _ hi, List.length_cons]
      omega

/-! ### C18 -/

variable [IsStrictOrderedRing K]

/-- C18.  A hop displacement is the Cartesian image of a fractional vector that differs
from the coordinate difference along the hop by integers and has every component in
`[-1/2, 1/2]`. -/
theorem C18_minimum_image (g : Geometry K) (e : Event) (d f to' : Int) (disp ff ft : Vec3 K)
    (he : e.mobile = [f, to']) (hf : pyGet g.fracCoords f = .ok ff)
    (ht : pyGet g.fracCoords to' = .ok ft) (h : wrappedHopDisplacement g e d = .ok disp) :
    ∃ w : Vec3 K, disp = Matrix.vecMul w g.lattice ∧
      ∀ c, -(1 / 2) ≤ w c ∧ w c ≤ 1 / 2 ∧
        ∃ n : ℤ, w c = (d : K) * (ft c - ff c) - (n : K) := by
  unfold wrappedHopDisplacement at h
  rw [he] at h
  simp only [unpack2] at h
  rw [hf, ht] at h
  cases h
  refine ⟨wrappedFrac d ff ft, rfl, ?_⟩
  intro c
  have := roundHalfEven_bounds ((d : K) * (ft c - ff c))
  exact ⟨this.2, this.1, _, rfl⟩

theorem wrappedFrac_neg (d : Int) (a b : Vec3 K) : wrappedFrac (-d) a b = -wrappedFrac d a b := by
  funext c
  simp only [wrappedFrac, Pi.neg_apply]
  rw [show ((-d : Int) : K) * (b c - a c) = -((d : K) * (b c - a c)) by push_cast; ring,
    roundHalfEven_neg]
  push_cast
  ring

/-- C18.  The displacement of the same event executed in the opposite direction is exactly
the negative. -/
theorem C18_reverse_hop (g : Geometry K) (e : Event) (d : Int) (disp : Vec3 K)
    (h : wrappedHopDisplacement g e d = .ok disp) :
    wrappedHopDisplacement g e (-d) = .ok (-disp) := by
  unfold wrappedHopDisplacement at h ⊢
  cases hu : unpack2 e.mobile with
  | error x => rw [hu] at h; cases h
  | ok p =>
    obtain ⟨f, to'⟩ := p
    rw [hu] at h
    simp only at h ⊢
    cases h1 : pyGet g.fracCoords to' with
    | error x => rw [h1] at h; cases h
    | ok ft =>
      rw [h1] at h
      simp only at h ⊢
      cases h2 : pyGet g.fracCoords f with
      | error x => rw [h2] at h; cases h
      | ok ff =>
        rw [h2] at h
        cases h
        simp only [Except.ok.injEq, Geometry.cart]
        rw [wrappedFrac_neg, Matrix.neg_vecMul]

/-- C18.  A hop and then the same event with the opposite direction (the ion hops back)
restores every ion's position and accumulated displacement; the ion's counter has grown by
two. -/
theorem C18_hop_and_back (g : Geometry K) (t t1 t2 : Trajectory K) (ha : Aligned t)
    (occ occ1 : List Int) (e : Event) (d f to' : Int) (he : e.mobile = [f, to']) (hd0 : d ≠ 0)
    (hd : eventDirection occ e = .ok d) (hd1 : eventDirection occ1 e = .ok (-d))
    (hfree : (if d = 1 then to' else f) ∉ t.locations)
    (h1 : t.update g occ e = (.ok (), t1)) (h2 : t1.update g occ1 e = (.ok (), t2)) :
    t2.locations = t.locations ∧ t2.displacement = t.displacement ∧ t2.r0 = t.r0 ∧
      t2.hopCounter.sum = t.hopCounter.sum + 2 := by
  obtain ⟨d', hd', ⟨h0, -⟩ | ⟨-, f', to'', i, disp, he', hl, hw, rfl⟩⟩ := traj_update_ok h1
  · rw [hd] at hd'; cases hd'; exact absurd h0 hd0
  rw [hd] at hd'; cases hd'
  rw [he] at he'; cases he'
  obtain ⟨d', hd', ⟨h0, -⟩ | ⟨-, f', to'', j, disp', he', hl', hw', rfl⟩⟩ := traj_update_ok h2
  · rw [hd1] at hd'; cases hd'; omega
  rw [hd1] at hd'; cases hd'
  rw [he] at he'; cases he'
  have hv := eventDirection_values hd
  have hsrc : (if -d = 1 then f else to') = (if d = 1 then to' else f) := by
    rcases hv with rfl | rfl | rfl <;> simp_all
  have hdst : (if -d = 1 then to' else f) = (if d = 1 then f else to') := by
    rcases hv with rfl | rfl | rfl <;> simp_all
  rw [hsrc] at hl'
  have hi : i < t.locations.length := (List.getElem?_eq_some_iff.1 hl).1
  have hij : j = i := by
    by_contra hne
    simp only [List.getElem?_set_ne (Ne.symm hne)] at hl'
    exact hfree (List.mem_of_getElem? hl')
  subst hij
  rw [C18_reverse_hop g e d disp hw] at hw'
  cases hw'
  refine ⟨?_, ?_, rfl, ?_⟩
  · simp only [hdst, List.set_set]
    apply List.ext_getElem?
    intro q
    by_cases hq : q = j
    · subst hq; rw [hl]; simp [hi]
    · simp [Ne.symm hq]
  · apply List.ext_getElem?
    intro q
    by_cases hq : q = j
    · subst hq
      cases hx : t.displacement[q]? with
      | none => simp [hx]
      | some v => simp [hx]
    · simp [Ne.symm hq]
  · have hi2 : j < t.hopCounter.length := by rw [ha.hops]; exact hi
    simp only
    rw [modify_sum _ _ (by simpa using hi2), modify_sum _ _ hi2]

/-! ### C17 -/

theorem unwrapped_update {g : Geometry K} {t t' : Trajectory K} {occ : List Int} {e : Event}
    (h : t.update g occ e = (.ok (), t')) (hw : ∀ i < t.locations.length, Unwrapped g t i) :
    ∀ i < t'.locations.length, Unwrapped g t' i := by
  obtain ⟨d, hd, ⟨-, rfl⟩ | ⟨h0, f, to', i, disp, he, hl, hdisp, rfl⟩⟩ := traj_update_ok h
  · exact hw
  · intro j hj
    simp only [List.length_set] at hj
    obtain ⟨loc, r, dd, fr, n, a1, a2, a3, a4, a5⟩ := hw j hj
    by_cases hji : j = i
    · subst hji
      rw [hl] at a1
      simp only [Option.some.injEq] at a1
      unfold wrappedHopDisplacement at hdisp
      rw [he] at hdisp
      simp only [unpack2] at hdisp
      cases h1 : pyGet g.fracCoords to' with
      | error x => rw [h1] at hdisp; cases hdisp
      | ok ft =>
        rw [h1] at hdisp
        simp only at hdisp
        cases h2 : pyGet g.fracCoords f with
        | error x => rw [h2] at hdisp; cases hdisp
        | ok ff =>
          rw [h2] at hdisp
          cases hdisp
          have hnew : r + (dd + g.cart (wrappedFrac d ff ft)) =
              Matrix.vecMul (fun c => fr c + (n c : K) + wrappedFrac d ff ft c) g.lattice := by
            rw [← add_assoc, a5, Geometry.cart, ← Matrix.add_vecMul]
            rfl
          rcases eventDirection_values hd with rfl | rfl | rfl
          · simp only [if_true] at a1 hl
            subst a1
            rw [h2] at a4
            obtain rfl : ff = fr := by simpa using a4
            refine ⟨to', r, dd + g.cart (wrappedFrac 1 ff ft), ft,
              fun c => n c - roundHalfEven ((1 : ℤ) * (ft c - ff c) : K), by simp [hj], a2,
              by simp [a3], h1, ?_⟩
            rw [hnew]
            congr 1
            funext c
            simp only [wrappedFrac]
            push_cast
            ring
          · simp only [show ¬ ((-1 : Int) = 1) by decide, if_false] at a1 hl
            subst a1
            rw [h1] at a4
            obtain rfl : ft = fr := by simpa using a4
            refine ⟨f, r, dd + g.cart (wrappedFrac (-1) ff ft), ff,
              fun c => n c - roundHalfEven (((-1 : ℤ) : K) * (ft c - ff c)), by simp [hj], a2,
              by simp [a3], h2, ?_⟩
            rw [hnew]
            congr 1
            funext c
            simp only [wrappedFrac]
            push_cast
            ring
          · exact absurd rfl h0
    · refine ⟨loc, r, dd, fr, n, ?_, a2, ?_, a4, a5⟩
      · rw [List.getElem?_set_ne (Ne.symm hji)]; exact a1
      · simpa [List.getElem?_modify, Ne.symm hji] using a3

/-- C17.  Starting from a freshly initialised tracker, after any number of production steps
each ion's initial position plus its accumulated displacement is the position of the site
it is now on, up to an integer combination of the lattice vectors. -/
theorem C17_unwrapped_trajectory {k : Kernel R T U} {m : RateModel M R T} {g : Geometry K}
    {rng : Nat → U × U} {c : Nat} {s s' : Sim σ φ M R T} {t t' : Trajectory K}
    {lookup : Option HopStateLookup} {h : List (List Int × Event)}
    (hinit : Trajectory.init g lookup s.st.occ = .ok t)
    (hs : TrackedSteps k m g rng c s t h s' t') :
    ∀ i < t'.locations.length, Unwrapped g t' i := by
  have h0 := traj_init_unwrapped hinit
  clear hinit
  induction hs with
  | nil => exact h0
  | cons _ hu _ _ ih => exact ih (unwrapped_update hu h0)

end

/-- Squared length of a vector. -/
def sqLength {K : Type} [Field K] (v : Vec3 K) : K := ∑ c, v c * v c

/-- C18, what it does not say.  In a skewed cell the component-wise minimum-image vector need
not be the shortest periodic image in space: here the recorded displacement has squared
length 0.9125, while the image shifted by one lattice vector has 0.0125. -/
theorem C18_not_shortest_in_skewed_cell :
    ∃ (g : Geometry ℚ) (e : Event) (disp other : Vec3 ℚ) (n : Fin 3 → ℤ),
      wrappedHopDisplacement g e 1 = .ok disp ∧
      other = disp + Matrix.vecMul (fun c => (n c : ℚ)) g.lattice ∧
      sqLength other < sqLength disp := by
  let g : Geometry ℚ :=
    { fracCoords := [fun _ => 0, ![1 / 2, 1 / 2, 0]]
      lattice := !![1, 0, 0; 9 / 10, 1 / 5, 0; 0, 0, 1]
      nMobileSymbolSites := 1 }
  have hr : roundHalfEven (1 / 2 : ℚ) = 0 := by
    have : ⌊(1 / 2 : ℚ)⌋ = 0 := by rw [Int.floor_eq_iff]; norm_num
    unfold roundHalfEven
    simp only [this]
    norm_num
  have h0 : roundHalfEven (0 : ℚ) = 0 := by simp [roundHalfEven]
  have hw : wrappedFrac 1 (fun _ => (0 : ℚ)) ![1 / 2, 1 / 2, 0] = ![1 / 2, 1 / 2, 0] := by
    funext c
    fin_cases c
    · simp only [wrappedFrac]; norm_num [hr]
    · simp only [wrappedFrac]; norm_num [hr]
    · simp only [wrappedFrac]; norm_num [h0]
  refine ⟨g, ⟨[0, 1], [], none⟩, g.cart ![1 / 2, 1 / 2, 0],
    g.cart ![1 / 2, 1 / 2, 0] + Matrix.vecMul (fun c => ((![-1, 0, 0] : Fin 3 → ℤ) c : ℚ)) g.lattice,
    ![-1, 0, 0], ?_, rfl, ?_⟩
  · show Except.ok (g.cart (wrappedFrac 1 (fun _ => (0 : ℚ)) ![1 / 2, 1 / 2, 0])) = _
    rw [hw]
  · simp [sqLength, Geometry.cart, Matrix.vecMul, dotProduct, Fin.sum_univ_three, g, Matrix.vecHead,
      Matrix.vecTail]
    norm_num

/-- Non-vacuity of C16, C17 and C18: an ion hops from site 0 to site 1 (half a cell away, the
tie of the rounding) and back. -/
example : ∃ t1 t2 : Trajectory ℚ, ∃ disp,
    (⟨[0], [0], [0], [0]⟩ : Trajectory ℚ).update toyGeometry [0, 1] ⟨[0, 1], [], none⟩ = (.ok (), t1) ∧
    t1.update toyGeometry [1, 0] ⟨[0, 1], [], none⟩ = (.ok (), t2) ∧
    eventDirection [0, 1] ⟨[0, 1], [], none⟩ = .ok 1 ∧
    eventDirection [1, 0] ⟨[0, 1], [], none⟩ = .ok (-1) ∧
    wrappedHopDisplacement toyGeometry ⟨[0, 1], [], none⟩ 1 = .ok disp :=
  ⟨_, _, _, rfl, rfl, rfl, rfl, rfl⟩
example : Aligned (⟨[0], [0], [0], [0]⟩ : Trajectory ℚ) := ⟨rfl, rfl, rfl⟩
example : (if (1 : Int) = 1 then (1 : Int) else 0) ∉ (⟨[0], [0], [0], [0]⟩ : Trajectory ℚ).locations := by
  decide

end KMC
