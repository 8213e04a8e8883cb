import Verif.Lemmas.Description
import Verif.Props.NetworkProps
/-
C118.  Transport results do not depend on how the crystal is described.
-/
set_option linter.unusedSectionVars false

namespace KMC
open Spec

theorem sum_map_vecMul (Q : Matrix (Fin 3) (Fin 3) ℝ) (ds : List (Vec3 ℝ)) :
    (ds.map fun v => Matrix.vecMul v Q).sum = Matrix.vecMul ds.sum Q := by
  induction ds with
  | nil => simp
  | cons v ds ih => simp [ih, Matrix.add_vecMul]

/-- The transport summary of two trackers that agree is the same. -/
theorem transportSummary_sameTracks {Q : Matrix (Fin 3) (Fin 3) ℝ} (hQ : Q * Q.transpose = 1)
    (p : TransportParams) {t t' : Trajectory ℝ} (h : SameTracks Q t t') :
    transportSummary p t' = transportSummary p t := by
  funext time flags
  unfold transportSummary
  rw [h.locations, h.hops, h.displacement]
  unfold computeTransport
  have e1 : ((t.displacement.map fun v => Matrix.vecMul v Q).map fun v => vecNorm v ^ 2) =
      t.displacement.map fun v => vecNorm v ^ 2 := by
    rw [List.map_map]
    refine List.map_congr_left fun v _ => ?_
    simp only [Function.comp_apply, sqNorm_orthogonal hQ]
  have e2 : vecNorm (t.displacement.map fun v => Matrix.vecMul v Q).sum = vecNorm t.displacement.sum := by
    rw [sum_map_vecMul, sqNorm_orthogonal hQ]
  rw [e1, e2]

section
variable {σ φ M R U V : Type}

/-- C118.  Rotating, mirroring or relabelling the Cartesian axes of the crystal and moving the
origin of the fractional coordinates changes nothing in a run except the components of the
displacements: outcome, states, sites of the ions, hop counts, sampled properties and every
transport summary are the same. -/
theorem C118_axes_and_origin {Q : Matrix (Fin 3) (Fin 3) ℝ} (hQ : Q * Q.transpose = 1) {w : Vec3 ℝ}
    {g g' : Geometry ℝ} (hg : Redrawn Q w g g') (k : Kernel R EReal U) (m : RateModel M R EReal)
    (lookup : Option HopStateLookup) (p : TransportParams) (plan : PropertyPlan EReal V)
    (rng : Nat → U × U) (len equil prod : Nat) (s : Sim σ φ M R EReal) :
    SameRun Q (s.run k m g lookup (transportSummary p) plan rng len equil prod)
      (s.run k m g' lookup (transportSummary p) plan rng len equil prod) :=
  run_sameRun k m lookup (fun _ _ h => transportSummary_sameTracks hQ p h)
    (by rw [hg.sites, List.length_map]) hg.symbols plan rng len equil prod s
    (fun e _ => redrawn_hopAgrees hg e)

/-- C118.  Choosing another cell of the same lattice, or other periodic images of the sites,
changes nothing in a run, provided the connections of the events are shorter than half a cell
along each lattice direction in both cells.  Not even the displacements change. -/
theorem C118_other_cell {N N' : Matrix (Fin 3) (Fin 3) ℤ} {g g' : Geometry ℝ}
    (hg : Recelled N N' g g') (k : Kernel R EReal U) (m : RateModel M R EReal)
    (lookup : Option HopStateLookup) (p : TransportParams) (plan : PropertyPlan EReal V)
    (rng : Nat → U × U) (len equil prod : Nat) (s : Sim σ φ M R EReal)
    (hs : ShortHops N' g s.lib.events) :
    SameRun 1 (s.run k m g lookup (transportSummary p) plan rng len equil prod)
      (s.run k m g' lookup (transportSummary p) plan rng len equil prod) :=
  run_sameRun k m lookup (fun _ _ h => transportSummary_sameTracks (by simp) p h) hg.count
    hg.symbols plan rng len equil prod s (fun _ he => recelled_hopAgrees hg hs he)

end

/-- C118.  Both changes of description keep the cell volume, which enters the conductivity. -/
theorem C118_volume {g g' : Geometry ℝ} :
    (∀ (Q : Matrix (Fin 3) (Fin 3) ℝ) (w : Vec3 ℝ), Q * Q.transpose = 1 → Redrawn Q w g g' →
      |g'.lattice.det| = |g.lattice.det|) ∧
    (∀ N N' : Matrix (Fin 3) (Fin 3) ℤ, Recelled N N' g g' →
      |g'.lattice.det| = |g.lattice.det|) := by
  constructor
  · intro Q w hQ hg
    have h1 : |Q.det| = 1 := by
      have := congrArg Matrix.det hQ
      rw [Matrix.det_mul, Matrix.det_transpose, Matrix.det_one] at this
      rcases mul_self_eq_one_iff.1 this with h | h <;> simp [h]
    rw [hg.lattice, Matrix.det_mul, abs_mul, h1, mul_one]
  · intro N N' hg
    have h1 : |(N.map (fun z : ℤ => (z : ℝ))).det| = 1 := by
      have e : (N.map (fun z : ℤ => (z : ℝ))).det = ((N.det : ℤ) : ℝ) :=
        ((Int.castRingHom ℝ).map_det N).symm
      have h2 := congrArg Matrix.det hg.inverse
      rw [Matrix.det_mul, Matrix.det_one] at h2
      rw [e]
      rcases Int.isUnit_iff.1 (IsUnit.of_mul_eq_one _ h2) with h | h <;> simp [h]
    rw [hg.lattice, Matrix.det_mul, abs_mul, h1, one_mul]

/-! ### Concrete descriptions meet the hypotheses -/

namespace DescriptionSamples
open NetworkSamples

/-- The two layers of `NetworkSamples` in a cubic cell. -/
noncomputable def cubic : Geometry ℝ := ⟨coords, 1, 4⟩

/-- Swap the axes x and y. -/
def swapXY : Matrix (Fin 3) (Fin 3) ℝ := !![0, 1, 0; 1, 0, 0; 0, 0, 1]

example : swapXY * swapXY.transpose = 1 ∧
    Redrawn swapXY ![1 / 3, 0, 0] cubic ⟨coords.map (fun a => a + ![1 / 3, 0, 0]), swapXY, 4⟩ := by
  refine ⟨?_, ?_, rfl, rfl⟩
  · ext i j
    fin_cases i <;> fin_cases j <;> simp [swapXY, Matrix.mul_apply, Fin.sum_univ_three]
  · simp [cubic]

/-- A sheared cell of the same lattice. -/
def shear : Matrix (Fin 3) (Fin 3) ℤ := !![1, 1, 0; 0, 1, 0; 0, 0, 1]

/-- Its inverse. -/
def unshear : Matrix (Fin 3) (Fin 3) ℤ := !![1, -1, 0; 0, 1, 0; 0, 0, 1]

theorem shear_unshear : shear * unshear = 1 := by decide

theorem unshear_shear : unshear * shear = 1 := by decide

/-- The crystal in the sheared cell. -/
noncomputable def sheared : Geometry ℝ :=
  ⟨coords.map (fun a => Matrix.vecMul a (unshear.map (fun z : ℤ => (z : ℝ)))),
    shear.map (fun z : ℤ => (z : ℝ)) * 1, 4⟩

example : Recelled shear unshear cubic sheared := by
  refine ⟨shear_unshear, rfl, by simp [cubic, sheared], ?_, rfl⟩
  intro i a a' ha ha'
  simp only [sheared, List.getElem?_map] at ha'
  rw [show coords[i]? = some a from ha] at ha'
  have ha' := Option.some.inj ha'
  refine ⟨0, ?_⟩
  have hu : (unshear.map (fun z : ℤ => (z : ℝ))) * (shear.map (fun z : ℤ => (z : ℝ))) = 1 := by
    have := congrArg (fun A : Matrix (Fin 3) (Fin 3) ℤ => A.map (Int.castRingHom ℝ)) unshear_shear
    simp only [Matrix.map_mul] at this
    rw [Matrix.map_one _ (map_zero _) (map_one _)] at this
    exact this
  rw [← ha', Matrix.vecMul_vecMul, hu, Matrix.vecMul_one]
  funext c
  simp

example : ShortHops unshear cubic sim.lib.events := by
  have key : ∀ c : Fin 3, |(![1 / 4, 0, 0] : Vec3 ℝ) c| < 1 / 2 ∧
      |Matrix.vecMul ![1 / 4, 0, 0] (unshear.map (fun z : ℤ => (z : ℝ))) c| < 1 / 2 := by
    intro c
    fin_cases c <;>
      simp [unshear, Matrix.vecMul, dotProduct, Fin.sum_univ_three, abs_lt] <;> norm_num
  intro e he
  rw [events_eq] at he
  simp only [List.mem_cons, List.not_mem_nil, or_false] at he
  rcases he with rfl | rfl
  · refine ⟨0, 1, ![0, 0, 0], ![1 / 4, 0, 0], ![1 / 4, 0, 0], rfl, rfl, rfl, ?_,
      fun c => (key c).1, fun c => (key c).2⟩
    intro c
    exact ⟨0, by fin_cases c <;> simp⟩
  · refine ⟨2, 3, ![0, 0, 1 / 2], ![1 / 4, 0, 1 / 2], ![1 / 4, 0, 0], rfl, rfl, rfl, ?_,
      fun c => (key c).1, fun c => (key c).2⟩
    intro c
    exact ⟨0, by fin_cases c <;> simp⟩

/-! ### Hops of exactly half a cell -/

/-- Two rows of two sites half a cell apart. -/
def rows : Geometry ℚ := ⟨[![0, 0, 0], ![1 / 2, 0, 0], ![0, 1 / 2, 0], ![1 / 2, 1 / 2, 0]], 1, 4⟩

/-- The same crystal; the last site is given by another periodic image. -/
def rows' : Geometry ℚ := ⟨[![0, 0, 0], ![1 / 2, 0, 0], ![0, 1 / 2, 0], ![-1 / 2, 1 / 2, 0]], 1, 4⟩

/-- One ion in each row. -/
def start : Sim Unit Unit Unit Int Int := { sim with st := ⟨[0, 1, 0, 1], 0, 0⟩ }

/-- One pass of two steps: first the ion of the first row hops, then the other. -/
def outcome (g : Geometry ℚ) : RunResult Unit Unit Unit Int Int ℚ Unit Unit :=
  start.run kernel model g none (fun _ _ _ => ()) {} (fun c => (c, 0)) 2 0 1

/-- Total displacement along x. -/
def totalX (g : Geometry ℚ) : Option ℚ :=
  (outcome g).tracker.map fun r => (r.traj.displacement.map fun v => v 0).sum

/-- C118, negative result.  The condition on the hops is needed: when sites are exactly half a cell
apart (a supercell of two cells), which periodic image of a site the structure file lists decides
the direction of the counted displacement.  The same two hops give a total displacement of one
cell with one image and of zero with the other, so the jump diffusivity, conductivity and Haven
ratio of the run depend on it. -/
theorem C118_half_cell_image_matters :
    Recelled 1 1 rows rows' ∧ (outcome rows).outcome = .ok () ∧ (outcome rows').outcome = .ok () ∧
    (outcome rows).sim.st.occ = (outcome rows').sim.st.occ ∧
    totalX rows = some 1 ∧ totalX rows' = some 0 := by
  refine ⟨⟨by simp, ?_, rfl, ?_, rfl⟩, by decide +kernel, by decide +kernel, by decide +kernel,
    by decide +kernel, by decide +kernel⟩
  · simp [rows, rows']
  · intro i a a' ha ha'
    have hone : (1 : Matrix (Fin 3) (Fin 3) ℤ).map (fun z : ℤ => (z : ℚ)) = 1 := by simp
    rw [hone, Matrix.vecMul_one]
    match i with
    | 0 | 1 | 2 =>
      cases ha; cases ha'
      exact ⟨0, by funext c; simp⟩
    | 3 =>
      cases ha; cases ha'
      refine ⟨![1, 0, 0], ?_⟩
      funext c
      fin_cases c <;> simp
      norm_num
    | n + 4 => simp [rows] at ha

end DescriptionSamples
end KMC
