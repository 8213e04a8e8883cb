import Verif.Spec.Trace
import Verif.Spec.Tracking
import Verif.Model.Propose
/-
The set-up of an ordinary simulation, as one list of assumptions.
-/
namespace KMC.Spec
open KMC

/-- An ordinary hopping simulation:
* the hop lookup belongs to the active-site order and the mobile species,
* every site of the initial state holds one of its allowed species,
* every event has two endpoints that allow the same species, and all its indices are
  valid site numbers,
* the structure has coordinates for every site,
* the rate model only reads the sites an event lists, its rates are non-negative (and
  representable), and a hop that is impossible in the current state has rate zero. -/
structure HopSystem {σ φ ψ K : Type} (o : ActiveSiteOrder String ψ) (mobile : String)
    (h : HopStateLookup) (R : Rounding) (m : RateModel Unit ℝ EReal) (g : Geometry K)
    (lib : EventLib σ φ) (st : State EReal) : Prop where
  lookup : HopStateLookup.fromActiveSiteOrder o mobile = .ok h
  labelled : WellLabelled o mobile st.occ
  fit : IndicesFit st.occ.length lib.events
  endpoints : ∀ e ∈ lib.events, ∃ f t : Nat, e.mobile = [(f : Int), (t : Int)] ∧
    allowedAt o f = allowedAt o t
  coords : g.fracCoords.length = st.occ.length
  loc : LocalModel m
  rates : ∀ e st p, m.computeProbability () e st = .ok p → 0 ≤ p ∧ R.Rep p
  forbidden : ∀ e st p, eventDirection st.occ e = .ok 0 →
    m.computeProbability () e st = .ok p → p = 0

end KMC.Spec
