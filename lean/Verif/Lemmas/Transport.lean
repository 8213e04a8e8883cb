import Verif.Spec.Transport
import Verif.Lemmas.SamplerRun
import Verif.Lemmas.TrackerRun
import Mathlib.Analysis.InnerProductSpace.PiL2
/-
Lemmas about the transport formulas.
-/
namespace KMC
open Spec

theorem vecNorm_sq (v : Vec3 ℝ) : vecNorm v ^ 2 = sqLen v := by
  unfold vecNorm sqLen
  rw [Real.sq_sqrt (by positivity), Fin.sum_univ_three]

theorem sqLen_nonneg (v : Vec3 ℝ) : 0 ≤ sqLen v :=
  Finset.sum_nonneg fun _ _ => sq_nonneg _

theorem vecNorm_nonneg (v : Vec3 ℝ) : 0 ≤ vecNorm v := Real.sqrt_nonneg _

theorem vecNorm_eq_norm (v : Vec3 ℝ) : vecNorm v = ‖(WithLp.toLp 2 v : EuclideanSpace ℝ (Fin 3))‖ := by
  rw [EuclideanSpace.norm_eq, Fin.sum_univ_three]
  simp [vecNorm]

theorem vecNorm_add_le (u v : Vec3 ℝ) : vecNorm (u + v) ≤ vecNorm u + vecNorm v := by
  simp only [vecNorm_eq_norm, WithLp.toLp_add]
  exact norm_add_le _ _

theorem meanOf_eq (l : List ℝ) (h : l ≠ []) : meanOf l = some (l.sum / (l.length : ℝ)) := by
  cases l with
  | nil => exact absurd rfl h
  | cons a l => rfl

theorem msd_eq (ds : List (Vec3 ℝ)) (h : ds ≠ []) :
    meanOf (ds.map fun v => vecNorm v ^ 2) = some (meanSquare ds) := by
  rw [meanOf_eq _ (by simpa using h)]
  have : (ds.map fun v => vecNorm v ^ 2) = ds.map sqLen := List.map_congr_left fun v _ => vecNorm_sq v
  rw [this, List.length_map]; rfl

theorem meanSquare_nonneg (ds : List (Vec3 ℝ)) : 0 ≤ meanSquare ds := by
  unfold meanSquare
  refine div_nonneg (List.sum_nonneg ?_) (by positivity)
  intro x hx
  obtain ⟨v, -, rfl⟩ := List.mem_map.1 hx
  exact sqLen_nonneg v

theorem sq_sum_le (l : List ℝ) : l.sum ^ 2 ≤ (l.length : ℝ) * (l.map (· ^ 2)).sum := by
  induction l with
  | nil => simp
  | cons a l ih =>
    simp only [List.sum_cons, List.length_cons, List.map_cons]
    push_cast
    rcases Nat.eq_zero_or_pos l.length with h0 | h0
    · have : l = [] := List.eq_nil_of_length_eq_zero h0
      subst this; simp
    · have hn : (0 : ℝ) < (l.length : ℝ) := by exact_mod_cast h0
      have h1 : 2 * (a * l.sum) ≤ (l.length : ℝ) * a ^ 2 + (l.map (· ^ 2)).sum := by
        have h2 := sq_nonneg ((l.length : ℝ) * a - l.sum)
        have h3 : (l.length : ℝ) * (2 * (a * l.sum)) ≤
            (l.length : ℝ) * ((l.length : ℝ) * a ^ 2 + (l.map (· ^ 2)).sum) := by nlinarith
        exact le_of_mul_le_mul_left h3 hn
      nlinarith

theorem list_sum_apply (ds : List (Vec3 ℝ)) (c : Fin 3) : ds.sum c = (ds.map fun v => v c).sum := by
  induction ds with
  | nil => rfl
  | cons v l ih => simp [ih]

theorem sum_sqLen (ds : List (Vec3 ℝ)) :
    (ds.map sqLen).sum = ∑ c, (ds.map fun v => v c ^ 2).sum := by
  induction ds with
  | nil => simp
  | cons v l ih =>
    simp only [List.map_cons, List.sum_cons, ih, sqLen, Finset.sum_add_distrib]

/-- Cauchy–Schwarz for the total displacement. -/
theorem sqLen_sum_le (ds : List (Vec3 ℝ)) :
    sqLen ds.sum ≤ (ds.length : ℝ) * (ds.map sqLen).sum := by
  rw [sum_sqLen, Finset.mul_sum]
  unfold sqLen
  refine Finset.sum_le_sum fun c _ => ?_
  rw [list_sum_apply]
  have := sq_sum_le (ds.map fun v => v c)
  simpa [List.map_map, Function.comp_def] using this

theorem isEnabled_iff (f : List (String × Bool)) (n : String) :
    isEnabled f n = true ↔ SwitchedOn f n := by
  unfold isEnabled SwitchedOn
  cases dictGet f n with
  | none => simp
  | some b => cases b <;> simp

theorem overTime_finite (x k : ℝ) (t : ℝ) : overTime x k (t : EReal) = x / (k * t) := by
  simp [overTime, EReal.coe_ne_top]

theorem overTime_top (x k : ℝ) : overTime x k ⊤ = 0 := by simp [overTime]

theorem overTime_nonneg {x k : ℝ} {t : EReal} (hx : 0 ≤ x) (hk : 0 ≤ k) (ht : 0 < t) :
    0 ≤ overTime x k t := by
  unfold overTime
  split
  · exact le_refl _
  · exact div_nonneg hx (mul_nonneg hk (EReal.toReal_nonneg ht.le))

/-- Along any production steps the displacement of every ion is at most its number of hops
times the longest hop. -/
theorem hops_bound {σ φ M R T U : Type} [Add T] {k : Kernel R T U} {m : RateModel M R T}
    {g : Geometry ℝ} {rng : Nat → U × U} {c : Nat} {s s' : Sim σ φ M R T} {t t' : Trajectory ℝ}
    {h : List (List Int × Event)} (hs : TrackedSteps k m g rng c s t h s' t') {a : ℝ} (ha : 0 ≤ a)
    (hw : HopsWithin g a s.lib.events)
    (hb : ∀ (i : Nat) v n, t.displacement[i]? = some v → t.hopCounter[i]? = some n →
      vecNorm v ≤ (n : ℝ) * a) :
    ∀ (i : Nat) v n, t'.displacement[i]? = some v → t'.hopCounter[i]? = some n →
      vecNorm v ≤ (n : ℝ) * a := by
  induction hs with
  | nil => exact hb
  | @cons c s s1 s2 t t1 t2 e dt h hp hu hu2 hr ih =>
    have hlib : s1.lib = s.lib := by
      obtain ⟨st, ms, i, prob, -, -, -, -, rfl⟩ := update_ok hu2
      rfl
    have he : e ∈ s.lib.events := by
      unfold Sim.propose at hp
      cases hk : k.propose s.cum (rng c).1 (rng c).2 with
      | error x => rw [hk] at hp; cases hp
      | ok p =>
        rw [hk] at hp
        simp only at hp
        cases hg : s.lib.events[p.1]? with
        | none => rw [hg] at hp; cases hp
        | some e' =>
          rw [hg] at hp; cases hp
          exact List.mem_of_getElem? hg
    refine ih (by rw [hlib]; exact hw) ?_
    obtain ⟨d, -, ⟨-, rfl⟩ | ⟨h0, f, to', j, disp, -, hl, hdisp, rfl⟩⟩ := traj_update_ok hu
    · exact hb
    · intro i v n hv hn
      simp only [List.getElem?_modify] at hv hn
      by_cases hij : j = i
      · subst hij
        simp only [if_true] at hv hn
        obtain ⟨v0, hv0, rfl⟩ := Option.map_eq_some_iff.1 hv
        obtain ⟨n0, hn0, rfl⟩ := Option.map_eq_some_iff.1 hn
        have h1 := hb j v0 n0 hv0 hn0
        have h2 : vecNorm disp ≤ a := by
          have := hw e he d disp hdisp
          rw [← vecNorm_sq] at this
          exact abs_le_of_sq_le_sq' this ha |>.2
        have h3 := vecNorm_add_le v0 disp
        push_cast
        linarith
      · simp only [hij, if_false] at hv hn
        exact hb i v n (by simpa using hv) (by simpa using hn)

end KMC
