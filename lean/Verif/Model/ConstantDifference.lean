import Verif.Model.Composite
/-
`kmcpy/models/site_energy.py`, the helper `constant_site_energy_difference`.
-/
namespace KMC
namespace SiteSource
variable {T : Type}

/-- A site model whose difference is `constant_site_energy_difference` with the given `value`
(`site_energy.py:554-561`): whatever the event and the state, the value is returned.  The composite model takes it
as it is, without the direction (`composite_lce_model.py:127-145`).  Simplified: `float(value)` is the real number
`value`; the wrapping `SiteEnergyModel` adds nothing but a unit factor, which is taken to be applied already. -/
def constantDifference (value : ℝ) : SiteSource Unit T :=
  SiteSource.model (fun _ _ => .ok ()) (fun _ _ _ => (.ok (), ())) (fun _ _ _ => .ok value)

end SiteSource
end KMC
