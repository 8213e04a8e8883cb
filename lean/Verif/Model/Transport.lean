import Verif.Model.Propose
import Mathlib.Analysis.SpecialFunctions.Pow.Real
/-
Model of the built-in transport summary, `kmcpy/simulator/property.py:318-425`,
`kmcpy/units.py` and `kmcpy/simulator/tracker.py:316-329, 371-376, 422-434, 507-525`.

Numbers are exact reals; `none` is NaN.  Simulation times are extended reals because a
waiting time can be infinite (`Model/Propose.lean`).  Division by zero other than by an
elapsed time of zero is outside the model: dimension, volume and temperature are positive in
every valid configuration, and theorems that need a non-zero hop distance say so.
-/
namespace KMC

/-- `BOLTZMANN_CONSTANT_MEV_PER_K`, `units.py:12`. -/
noncomputable def boltzmannMeVPerK : ℝ := 8.617333262145e-2

/-- `ANGSTROM_SQUARED_TO_CM_SQUARED`, `units.py:16-17`. -/
noncomputable def angstromSqToCmSq : ℝ := 1.0e-8 ^ 2

/-- `CONDUCTIVITY_MS_PER_CM_FACTOR`, `units.py:30`. -/
noncomputable def conductivityFactor : ℝ := 1.602e11

/-- The keyword arguments of `compute_transport_properties`, `property.py:325-336`, that do not
change during a run. -/
structure TransportParams where
  dimension : Nat
  hopDistance : ℝ
  volume : ℝ
  charge : ℝ
  temperature : ℝ

/-- The returned dictionary, `property.py:404-425`; `none` is NaN. -/
structure TransportRow where
  msd : Option ℝ
  jumpDiffusivity : Option ℝ
  tracerDiffusivity : Option ℝ
  conductivity : Option ℝ
  havensRatio : Option ℝ
  correlationFactor : Option ℝ

/-- `np.linalg.norm` of a vector, `property.py:357,361`. -/
noncomputable def vecNorm (v : Vec3 ℝ) : ℝ := Real.sqrt (v 0 ^ 2 + v 1 ^ 2 + v 2 ^ 2)

/-- `np.mean` of a list of numbers, `property.py:358,400`: NaN for an empty one. -/
noncomputable def meanOf : List ℝ → Option ℝ
  | [] => none
  | l => some (l.sum / (l.length : ℝ))

/-- `_is_enabled`, `property.py:318-322`. -/
def isEnabled (enabled : List (String × Bool)) (name : String) : Bool :=
  (dictGet enabled name).getD true

/-- `x / (factor * sim_time)`, `property.py:363,368`, for a positive time; dividing by an
infinite time gives zero. -/
noncomputable def overTime (x factor : ℝ) (t : EReal) : ℝ :=
  if t = ⊤ then 0 else x / (factor * t.toReal)

/-- `correlation_factor_by_ion`, `property.py:392-398`: hop counts of zero give zero.  The two
arrays have the same length in every call of the package. -/
noncomputable def correlationByIon (a : ℝ) (normSq : List ℝ) (hops : List Nat) : List ℝ :=
  List.zipWith (fun (d : ℝ) (h : Nat) => if h = 0 then 0 else d / ((h : ℝ) * a ^ 2)) normSq hops

open Classical in
/-- `compute_transport_properties`, `property.py:325-425`. -/
noncomputable def computeTransport (p : TransportParams) (displacement : List (Vec3 ℝ))
    (hops : List Nat) (simTime : EReal) (n : Nat) (enabled : List (String × Bool)) :
    TransportRow :=
  let normSq := displacement.map fun v => vecNorm v ^ 2
  let msd := meanOf normSq
  let moving := decide (0 < simTime) && decide (0 < n)
  let jump : Option ℝ :=
    if moving then
      some (overTime (vecNorm displacement.sum ^ 2) (2 * p.dimension * n) simTime * angstromSqToCmSq)
    else none
  let tracer : Option ℝ :=
    if moving then msd.map fun x => overTime x (2 * p.dimension) simTime * angstromSqToCmSq
    else none
  let conductivity := jump.map fun d =>
    d * (n / p.volume) * p.charge ^ 2 / (boltzmannMeVPerK * p.temperature) * conductivityFactor
  let havens : Option ℝ :=
    match jump, tracer with
    | some j, some t => if j ≠ 0 then some (t / j) else none
    | _, _ => none
  let correlation : Option ℝ :=
    if 0 < hops.length then meanOf (correlationByIon p.hopDistance normSq hops) else none
  { msd := if isEnabled enabled "msd" then msd else none
    jumpDiffusivity := if isEnabled enabled "jump_diffusivity" then jump else none
    tracerDiffusivity := if isEnabled enabled "tracer_diffusivity" then tracer else none
    conductivity := if isEnabled enabled "conductivity" then conductivity else none
    havensRatio := if isEnabled enabled "havens_ratio" then havens else none
    correlationFactor := if isEnabled enabled "correlation_factor" then correlation else none }

/-- `Tracker._compute_transport_summary`, `tracker.py:316-329`: the time passed on is the
absolute time of the state. -/
noncomputable def transportSummary (p : TransportParams) (t : Trajectory ℝ) (simTime : EReal)
    (enabled : List (String × Bool)) : TransportRow :=
  computeTransport p t.displacement t.hopCounter simTime t.locations.length enabled

/-- `return_current_info`, `tracker.py:507-525`: the last row, or an exception. -/
def Sampler.returnCurrentInfo {T V Row : Type} (s : Sampler T V Row) : Py (T × Row) :=
  match s.results.getLast? with
  | none => .error .valueError
  | some r => .ok r

/-- `_latest_property_value`, `tracker.py:371-376`: `none` is NaN. -/
def Sampler.latestPropertyValue {T V Row : Type} (s : Sampler T V Row) (name : String) : Option V :=
  match (dictGet s.records name).getD [] with
  | [] => none
  | recs => recs.getLast?.map PropertyRecord.value

/-- `get_property_records(name)`, `tracker.py:422-429`. -/
def Sampler.getPropertyRecords {T V Row : Type} (s : Sampler T V Row) (name : String) :
    Py (List (PropertyRecord T V)) :=
  match dictGet s.records name with
  | none => .error .valueError
  | some recs => .ok recs

end KMC
