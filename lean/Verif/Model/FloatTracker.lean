import Verif.Model.Tracker
import Verif.Model.Propose
/-
The tracker in floating-point arithmetic.  `Model/Tracker` adds displacements up exactly; here every operation on
coordinates is rounded.
-/
namespace KMC

/-- `tracker.py:477-480` with rounded operations.  The product with the direction `1` or `-1` is exact.  The rounded
difference is below `2⁵³`, so that `np.round` of it is an exact integer. -/
noncomputable def wrappedFracFloat (R : Rounding) (direction : Int) (fFrom fTo : Vec3 ℝ) : Vec3 ℝ := fun c =>
  let d := (direction : ℝ) * R.rnd (fTo c - fFrom c)
  R.rnd (d - (roundHalfEven d : ℝ))

/-- `lattice.get_cartesian_coords(frac)`, `tracker.py:481`, as three rounded products added up from the left.  (The
library that multiplies the matrices may add in another order or round less often.) -/
noncomputable def Geometry.cartFloat (R : Rounding) (g : Geometry ℝ) (f : Vec3 ℝ) : Vec3 ℝ := fun c =>
  R.rnd (R.rnd (R.rnd (f 0 * g.lattice 0 c) + R.rnd (f 1 * g.lattice 1 c)) + R.rnd (f 2 * g.lattice 2 c))

/-- `_wrapped_hop_displacement`, `tracker.py:474-481`, with rounded operations. -/
noncomputable def wrappedHopFloat (R : Rounding) (g : Geometry ℝ) (e : Event) (direction : Int) : Py (Vec3 ℝ) :=
  match unpack2 e.mobile with
  | .error x => .error x
  | .ok (f, to') =>
    match pyGet g.fracCoords to' with
    | .error x => .error x
    | .ok ft =>
      match pyGet g.fracCoords f with
      | .error x => .error x
      | .ok ff => .ok (g.cartFloat R (wrappedFracFloat R direction ff ft))

/-- `Tracker.update`, `tracker.py:436-455`, with rounded operations. -/
noncomputable def Trajectory.updateFloat (R : Rounding) (g : Geometry ℝ) (t : Trajectory ℝ) (occ : List Int)
    (e : Event) : Py Unit × Trajectory ℝ :=
  match eventDirection occ e with
  | .error x => (.error x, t)
  | .ok d =>
    if d = 0 then (.ok (), t)
    else
      match t.recordHop e d with
      | (.error x, t1) => (.error x, t1)
      | (.ok i, t1) =>
        match wrappedHopFloat R g e d with
        | .error x => (.error x, t1)
        | .ok disp =>
          (.ok (),
            { t1 with
              displacement := t1.displacement.modify i (fun v c => R.rnd (v c + disp c))
              hopCounter := t1.hopCounter.modify i (· + 1) })

/-- The calls of `Tracker.update` that a run makes, `kmc.py:537-541`, one after the other. -/
noncomputable def Trajectory.followFloat (R : Rounding) (g : Geometry ℝ) (t : Trajectory ℝ) :
    List (List Int × Event) → Py Unit × Trajectory ℝ
  | [] => (.ok (), t)
  | (occ, e) :: rest =>
    match t.updateFloat R g occ e with
    | (.error x, t1) => (.error x, t1)
    | (.ok _, t1) => t1.followFloat R g rest

end KMC
