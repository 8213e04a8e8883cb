import Verif.Spec.Description
/-
The same crystal larger or smaller, and other numbers for what enters the transport results.
-/
namespace KMC.Spec
open KMC

/-- The crystal `g'` is `g` enlarged by the factor `x`: all lattice vectors are `x` times as long, the fractional
coordinates are the same. -/
structure Enlarged (x : ℝ) (g g' : Geometry ℝ) : Prop where
  lattice : g'.lattice = x • g.lattice
  sites : g'.fracCoords = g.fracCoords
  symbols : g'.nMobileSymbolSites = g.nMobileSymbolSites

/-- A row with every number multiplied by its factor; what is not a number stays so. -/
def rowTimes (msd jump tracer conductivity havens correlation : ℝ) (r : TransportRow) : TransportRow :=
  { msd := r.msd.map (msd * ·)
    jumpDiffusivity := r.jumpDiffusivity.map (jump * ·)
    tracerDiffusivity := r.tracerDiffusivity.map (tracer * ·)
    conductivity := r.conductivity.map (conductivity * ·)
    havensRatio := r.havensRatio.map (havens * ·)
    correlationFactor := r.correlationFactor.map (correlation * ·) }

/-- Two runs differ only in the displacements, which are multiplied by `x`, and in the rows of the summary, which are
changed by `f`: same outcome, simulation object, sites of the ions, hop counts, schedules and sampled properties. -/
structure SameRunUpTo {σ φ M R T V Row : Type} (x : ℝ) (f : Row → Row)
    (r r' : RunResult σ φ M R T ℝ V Row) : Prop where
  outcome : r'.outcome = r.outcome
  sim : r'.sim = r.sim
  tracker : ∀ a, r.tracker = some a → ∃ b, r'.tracker = some b ∧ b.sim = a.sim ∧
    b.currentPass = a.currentPass ∧ b.traj.locations = a.traj.locations ∧
    b.traj.hopCounter = a.traj.hopCounter ∧ b.traj.displacement = a.traj.displacement.map (fun v => x • v) ∧
    b.sampler.records = a.sampler.records ∧ b.sampler.properties = a.sampler.properties ∧
    b.sampler.results = a.sampler.results.map fun row => (row.1, f row.2)
  noTracker : r.tracker = none → r'.tracker = none

end KMC.Spec
