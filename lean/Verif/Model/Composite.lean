import Verif.Model.LCE
import Verif.Model.KMC
import Verif.Model.Hop
import Mathlib.Analysis.SpecialFunctions.Exp
/-
Model of `kmcpy/models/composite_lce_model.py`: the barrier expansion plus a source of
site-energy differences.

Energies and rates are real numbers; `np.exp` is the exponential function.  Overflow of a
float to infinity is not represented.
-/
namespace KMC

/-- What `CompositeLCEModel` does with its `site_model`: the loops of `initialize_state`
(`composite_lce_model.py:147-171`) and `apply_event` (173-178) and
`_compute_site_energy_difference` (127-145).  `M` is the site model's own mutable state.
Methods left at the defaults of `models/base.py:86-111` do nothing. -/
structure SiteSource (M T : Type) where
  initializeState : State T → List Event → Py M
  applyEvent : M → Event → State T → Py Unit × M
  difference : M → Event → State T → Int → Py ℝ

namespace SiteSource
variable {T : Type}

/-- `site_model=None`: the difference is `0.0` (`composite_lce_model.py:134-135`). -/
def none : SiteSource Unit T where
  initializeState := fun _ _ => .ok ()
  applyEvent := fun _ _ _ => (.ok (), ())
  difference := fun _ _ _ _ => .ok 0

/-- A `LocalClusterExpansion` as site model: the value times the direction
(`composite_lce_model.py:136-145`). -/
def expansion (m : LCE ℝ) : SiteSource Unit T where
  initializeState := fun _ _ => .ok ()
  applyEvent := fun _ _ _ => (.ok (), ())
  difference := fun _ e st direction =>
    match m.compute st.occ e with
    | .error x => .error x
    | .ok v => .ok ((direction : ℝ) * v)

/-- Any other site model: its `compute` value as it is (`composite_lce_model.py:136-145`). -/
def model {M : Type} (initializeState : State T → List Event → Py M)
    (applyEvent : M → Event → State T → Py Unit × M) (compute : M → Event → State T → Py ℝ) :
    SiteSource M T where
  initializeState := initializeState
  applyEvent := applyEvent
  difference := fun ms e st _ => compute ms e st

end SiteSource

/-- `CompositeLCEModel`, `composite_lce_model.py:78-117`, after its type checks. -/
structure Composite (M T : Type) where
  kra : Option (LCE ℝ)
  site : SiteSource M T

namespace Composite
variable {M T : Type}

/-- `compute_probability`, `composite_lce_model.py:180-236`.  Without a KRA model the attribute
access fails. -/
noncomputable def computeProbability (c : Composite M T) (kB temperature frequency : ℝ) (ms : M)
    (e : Event) (st : State T) : Py ℝ :=
  match eventDirection st.occ e with
  | .error x => .error x
  | .ok direction =>
    if direction = 0 then .ok 0
    else
      match c.kra with
      | none => .error .attributeError
      | some kra =>
        match kra.compute st.occ e with
        | .error x => .error x
        | .ok eKra =>
          match c.site.difference ms e st direction with
          | .error x => .error x
          | .ok delta =>
            .ok (frequency * Real.exp (-(eKra + delta / 2) / (kB * temperature)))

/-- The rate model used by the simulator: `initialize_state` and `apply_event` pass through to
the site model (`composite_lce_model.py:147-178`; the KRA expansion has neither state nor
effect). -/
noncomputable def rateModel (c : Composite M T) (kB temperature frequency : ℝ) :
    RateModel M ℝ T where
  initializeState := c.site.initializeState
  applyEvent := c.site.applyEvent
  computeProbability := c.computeProbability kB temperature frequency

end Composite

end KMC
