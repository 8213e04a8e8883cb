import Verif.Lemmas.Scale
import Verif.Props.DescriptionProps
/-
C122: how lengths and the transport parameters enter a run and its report.
-/
namespace KMC
open Spec
variable {σ φ M R U V : Type}

/-- C122.  The same simulation on a crystal enlarged by `x`, or reported with another dimension, volume, charge or hop
distance: every hop, time, exception and sampled property is the same; displacements are `x` times as large, and in
every summary row the mean squared displacement is multiplied by `x²`, the diffusivities by `x² d/d'`, the conductivity
by `x² (d/d') (V/V') (q'/q)²`, the correlation factor by `x² (a/a')²`; the Haven ratio is the same. -/
theorem C122_scaled_run {x : ℝ} (hx : 0 < x) {g g' : Geometry ℝ} (hg : Enlarged x g g') {p p' : TransportParams}
    (hd : 0 < p.dimension) (hd' : 0 < p'.dimension) (ha : p.hopDistance ≠ 0) (ha' : p'.hopDistance ≠ 0)
    (hv : p.volume ≠ 0) (hv' : p'.volume ≠ 0) (hq : p.charge ≠ 0) (ht : p'.temperature = p.temperature)
    (k : Kernel R EReal U) (m : RateModel M R EReal) (lookup : Option HopStateLookup) (plan : PropertyPlan EReal V)
    (rng : Nat → U × U) (len equil prod : Nat) (s : Sim σ φ M R EReal) :
    SameRunUpTo x
      (rowTimes (x ^ 2) (x ^ 2 * (p.dimension / p'.dimension)) (x ^ 2 * (p.dimension / p'.dimension))
        (x ^ 2 * (p.dimension / p'.dimension) * (p.volume / p'.volume) * (p'.charge / p.charge) ^ 2) 1
        (x ^ 2 * (p.hopDistance / p'.hopDistance) ^ 2))
      (s.run k m g lookup (transportSummary p) plan rng len equil prod)
      (s.run k m g' lookup (transportSummary p') plan rng len equil prod) :=
  run_sameRunUpTo k m lookup
    (fun _ _ h time flags => transportSummary_scaled hx hd hd' ha ha' hv hv' hq ht h time flags) hg plan rng len equil
    prod s

/-- C122.  Enlarging the crystal consistently, with the hop distance and the cell volume that belong to it: mean
squared displacement and diffusivities grow as the square of the length, the conductivity as its inverse, and the
dimensionless results do not change. -/
theorem C122_enlarged_crystal {x : ℝ} (hx : 0 < x) {g g' : Geometry ℝ} (hg : Enlarged x g g') {p : TransportParams}
    (hd : 0 < p.dimension) (ha : p.hopDistance ≠ 0) (hv : p.volume ≠ 0) (hq : p.charge ≠ 0)
    (k : Kernel R EReal U) (m : RateModel M R EReal) (lookup : Option HopStateLookup) (plan : PropertyPlan EReal V)
    (rng : Nat → U × U) (len equil prod : Nat) (s : Sim σ φ M R EReal) :
    SameRunUpTo x (rowTimes (x ^ 2) (x ^ 2) (x ^ 2) (1 / x) 1 1)
      (s.run k m g lookup (transportSummary p) plan rng len equil prod)
      (s.run k m g' lookup
        (transportSummary { p with hopDistance := x * p.hopDistance, volume := x ^ 3 * p.volume }) plan rng len equil
        prod) := by
  have hD : (p.dimension : ℝ) ≠ 0 := by positivity
  have := C122_scaled_run hx hg (p := p)
    (p' := { p with hopDistance := x * p.hopDistance, volume := x ^ 3 * p.volume }) hd hd ha
    (mul_ne_zero hx.ne' ha) hv (mul_ne_zero (pow_ne_zero 3 hx.ne') hv) hq rfl k m lookup plan rng len equil prod s
  have e1 : x ^ 2 * ((p.dimension : ℝ) / p.dimension) = x ^ 2 := by field_simp
  have e2 : x ^ 2 * (p.volume / (x ^ 3 * p.volume)) * (p.charge / p.charge) ^ 2 = 1 / x := by field_simp
  have e3 : x ^ 2 * (p.hopDistance / (x * p.hopDistance)) ^ 2 = 1 := by field_simp
  simp only [e1, e2, e3] at this
  exact this

/-- C122.  The volume the package reads off the enlarged structure is the one used above. -/
theorem C122_enlarged_volume {x : ℝ} (hx : 0 < x) {g g' : Geometry ℝ} (hg : Enlarged x g g') :
    |g'.lattice.det| = x ^ 3 * |g.lattice.det| := by
  rw [hg.lattice, Matrix.det_smul, abs_mul, Fintype.card_fin, abs_of_pos (pow_pos hx 3)]

/-- C122.  Wrong numbers in the input leave the run as it is and put their factor on the results that use them: reading
a two-dimensional conductor as three-dimensional gives two thirds of its diffusivities and conductivity, twice the
charge four times the conductivity, half the hop distance four times the correlation factor, and nothing else
changes. -/
theorem C122_parameters_only {g : Geometry ℝ} {p : TransportParams} (ha : p.hopDistance ≠ 0) (hv : p.volume ≠ 0)
    (hq : p.charge ≠ 0) (hd : p.dimension = 2)
    (k : Kernel R EReal U) (m : RateModel M R EReal) (lookup : Option HopStateLookup) (plan : PropertyPlan EReal V)
    (rng : Nat → U × U) (len equil prod : Nat) (s : Sim σ φ M R EReal) :
    let run := fun q : TransportParams => s.run k m g lookup (transportSummary q) plan rng len equil prod
    SameRunUpTo 1 (rowTimes 1 (2 / 3) (2 / 3) (2 / 3) 1 1) (run p) (run { p with dimension := 3 }) ∧
      SameRunUpTo 1 (rowTimes 1 1 1 4 1 1) (run p) (run { p with charge := 2 * p.charge }) ∧
      SameRunUpTo 1 (rowTimes 1 1 1 1 1 4) (run p) (run { p with hopDistance := p.hopDistance / 2 }) := by
  have hg : Enlarged 1 g g := ⟨by simp, rfl, rfl⟩
  have hp : 0 < p.dimension := by omega
  have hD : (p.dimension : ℝ) = 2 := by rw [hd]; norm_num
  refine ⟨?_, ?_, ?_⟩
  · have := C122_scaled_run one_pos hg (p := p) (p' := { p with dimension := 3 }) hp (by simp) ha ha hv hv hq rfl
      k m lookup plan rng len equil prod s
    have e2 : (p.volume / p.volume) * (p.charge / p.charge) ^ 2 = 1 := by field_simp
    have e3 : (p.hopDistance / p.hopDistance) ^ 2 = 1 := by field_simp
    simp only [hD, one_pow, one_mul, mul_assoc, e2, e3, mul_one, Nat.cast_ofNat] at this
    exact this
  · have := C122_scaled_run one_pos hg (p := p) (p' := { p with charge := 2 * p.charge }) hp hp ha ha hv hv hq rfl
      k m lookup plan rng len equil prod s
    have e2 : (p.volume / p.volume) * (2 * p.charge / p.charge) ^ 2 = 4 := by field_simp; norm_num
    have e3 : (p.hopDistance / p.hopDistance) ^ 2 = 1 := by field_simp
    simp only [hD, one_pow, one_mul, mul_assoc, e2, e3, mul_one, div_self (two_ne_zero (α := ℝ))] at this
    exact this
  · have := C122_scaled_run one_pos hg (p := p) (p' := { p with hopDistance := p.hopDistance / 2 }) hp hp ha
      (div_ne_zero ha two_ne_zero) hv hv hq rfl k m lookup plan rng len equil prod s
    have e2 : (p.volume / p.volume) * (p.charge / p.charge) ^ 2 = 1 := by field_simp
    have e3 : (p.hopDistance / (p.hopDistance / 2)) ^ 2 = 4 := by field_simp; norm_num
    simp only [hD, one_pow, one_mul, mul_assoc, e2, e3, div_self (two_ne_zero (α := ℝ))] at this
    exact this

/-! ### Concrete crystals and parameters meet the hypotheses -/

namespace ScaleSamples

example : Enlarged 2 DescriptionSamples.cubic ⟨NetworkSamples.coords, 2 • 1, 4⟩ := by
  refine ⟨?_, rfl, rfl⟩
  simp [DescriptionSamples.cubic, two_smul]

/-- Two ions that moved one ångström along x and y, one hop each. -/
noncomputable def moved : Trajectory ℝ := ⟨[0, 1], [![1, 0, 0], ![0, 1, 0]], [1, 1], [![1, 0, 0], ![0, 1, 0]]⟩

/-- Parameters of a layered conductor. -/
def layered : TransportParams := ⟨2, 1, 1, 1, 300⟩

/-- The rows of such a trajectory hold numbers that are not zero, so the factors can be seen. -/
example : (transportSummary layered moved 1 []).msd = some 1 ∧
    (transportSummary layered moved 1 []).correlationFactor = some 1 ∧
    (rowTimes 4 4 4 (1 / 2) 1 1 (transportSummary layered moved 1 [])).msd = some 4 := by
  have h : (transportSummary layered moved 1 []).msd = some 1 := by
    simp [transportSummary, computeTransport, moved, isEnabled, meanOf, vecNorm, dictGet]
  refine ⟨h, ?_, ?_⟩
  · simp [transportSummary, computeTransport, moved, layered, isEnabled, meanOf, vecNorm, correlationByIon, dictGet]
  · rw [rowTimes, h]; simp

end ScaleSamples
end KMC
