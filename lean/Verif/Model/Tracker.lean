import Verif.Model.Property
import Verif.Model.Hop
import Mathlib.Algebra.Order.Round
import Mathlib.LinearAlgebra.Matrix.Notation
/-
Model of `kmcpy/simulator/tracker.py`.

Coordinates live in an ordered field `K` (ℝ, or ℚ for computable examples).
Vectors are `Fin 3 → K`.
-/
namespace KMC

/-- Vectors with three components (`displacement`, `frac_coords` rows). -/
abbrev Vec3 (K : Type) := Fin 3 → K

/-- `np.round` (round half to even) of one component, used in
`tracker.py:480`. -/
def roundHalfEven {K : Type} [Field K] [LinearOrder K] [FloorRing K] (x : K) : ℤ :=
  let f := ⌊x⌋
  let r := x - (f : K)
  if r < 1 / 2 then f
  else if 1 / 2 < r then f + 1
  else if f % 2 = 0 then f
  else f + 1

/-- The structure data the tracker reads: fractional coordinates of the active
sites, the lattice matrix (rows are lattice vectors) and, for runs without hop
lookup, how many sites carry the mobile symbol (`tracker.py:128-131`). -/
structure Geometry (K : Type) where
  fracCoords : List (Vec3 K)
  lattice : Matrix (Fin 3) (Fin 3) K
  nMobileSymbolSites : Nat

/-- Trajectory part of `Tracker`, `tracker.py:126-149`. -/
structure Trajectory (K : Type) where
  locations : List Int
  displacement : List (Vec3 K)
  hopCounter : List Nat
  r0 : List (Vec3 K)

section
variable {K : Type} [Field K] [LinearOrder K] [FloorRing K]

/-- `lattice.get_cartesian_coords(frac)` / `frac @ matrix`, `tracker.py:149,481`. -/
def Geometry.cart (g : Geometry K) (f : Vec3 K) : Vec3 K := Matrix.vecMul f g.lattice

/-- Indices `i` (from `start`) with `mask[i]`: `np.where(mask)[0]`,
`tracker.py:142`. -/
def whereTrue : Nat → List Bool → List Int
  | _, [] => []
  | i, b :: bs => if b then (i : Int) :: whereTrue (i + 1) bs else whereTrue (i + 1) bs

/-- The boolean mask of `_initialize_mobile_ion_tracking`, `tracker.py:128-141`. -/
def mobileMask (g : Geometry K) (lookup : Option HopStateLookup) (occ : List Int) : List Bool :=
  match lookup with
  | none => (occ.take g.nMobileSymbolSites).map fun o => o == 0
  | some h =>
    List.zipWith (fun m o => m != invalidState && o == m) h.mobileStateBySite
      (occ.take h.mobileStateBySite.length)

/-- `frac_coords[locations] @ matrix`, `tracker.py:149`. -/
def pickCoords (g : Geometry K) : List Int → Py (List (Vec3 K))
  | [] => .ok []
  | i :: is =>
    match pyGet g.fracCoords i with
    | .error e => .error e
    | .ok f =>
      match pickCoords g is with
      | .error e => .error e
      | .ok r => .ok (g.cart f :: r)

/-- `_initialize_mobile_ion_tracking`, `tracker.py:126-149`.  With a lookup, an
occupation vector shorter than the lookup makes the array comparison fail. -/
def Trajectory.init (g : Geometry K) (lookup : Option HopStateLookup) (occ : List Int) :
    Py (Trajectory K) :=
  let tooShort := match lookup with
    | none => false
    | some h => decide (occ.length < h.mobileStateBySite.length)
  if tooShort then .error .valueError
  else
    let locs := whereTrue 0 (mobileMask g lookup occ)
    match pickCoords g locs with
    | .error e => .error e
    | .ok r0 => .ok
        { locations := locs
          displacement := locs.map fun _ => 0
          hopCounter := locs.map fun _ => 0
          r0 := r0 }

/-- `np.where(locations == site)[0][0]`, `tracker.py:463-470`. -/
def firstMatch (site : Int) : Nat → List Int → Option Nat
  | _, [] => none
  | i, l :: ls => if l = site then some i else firstMatch site (i + 1) ls

/-- `_record_mobile_ion_hop`, `tracker.py:457-472`. -/
def Trajectory.recordHop (t : Trajectory K) (e : Event) (direction : Int) :
    Py Nat × Trajectory K :=
  match unpack2 e.mobile with
  | .error x => (.error x, t)
  | .ok (f, to') =>
    let source := if direction = 1 then f else to'
    let dest := if direction = 1 then to' else f
    match firstMatch source 0 t.locations with
    | none => (.error .runtimeError, t)
    | some i => (.ok i, { t with locations := t.locations.set i dest })

/-- `_wrapped_hop_displacement`, `tracker.py:474-481`: fractional part before the
Cartesian conversion. -/
def wrappedFrac (direction : Int) (fFrom fTo : Vec3 K) : Vec3 K := fun c =>
  let d := (direction : K) * (fTo c - fFrom c)
  d - (roundHalfEven d : K)

/-- `_wrapped_hop_displacement`, `tracker.py:474-481`. -/
def wrappedHopDisplacement (g : Geometry K) (e : Event) (direction : Int) : Py (Vec3 K) :=
  match unpack2 e.mobile with
  | .error x => .error x
  | .ok (f, to') =>
    match pyGet g.fracCoords to' with
    | .error x => .error x
    | .ok ft =>
      match pyGet g.fracCoords f with
      | .error x => .error x
      | .ok ff => .ok (g.cart (wrappedFrac direction ff ft))

/-- `Tracker.update`, `tracker.py:436-455`, on the trajectory arrays; `occ` is the
pre-event occupation vector.  A zero direction only logs an error. -/
def Trajectory.update (g : Geometry K) (t : Trajectory K) (occ : List Int) (e : Event) :
    Py Unit × Trajectory K :=
  match eventDirection occ e with
  | .error x => (.error x, t)
  | .ok d =>
    if d = 0 then (.ok (), t)
    else
      match t.recordHop e d with
      | (.error x, t1) => (.error x, t1)
      | (.ok i, t1) =>
        match wrappedHopDisplacement g e d with
        | .error x => (.error x, t1)
        | .ok disp =>
          (.ok (),
            { t1 with
              displacement := t1.displacement.modify i (fun v => v + disp)
              hopCounter := t1.hopCounter.modify i (· + 1) })

end

/-- The step interval a plan gives a tracker, `tracker.py:227-231`: the default is used only
when the plan sets neither interval. -/
def PropertyPlan.trackerInterval {T V : Type} (p : PropertyPlan T V)
    (defaultInterval : Option Int) : Option Int :=
  match p.globalInterval with
  | some i => some i
  | none =>
    match p.globalTimeInterval with
    | some _ => none
    | none => defaultInterval

/-- Sampling part of `Tracker`, `tracker.py:100-111`.  `Row` is the type of one
built-in summary row. -/
structure Sampler (T V Row : Type) where
  globalInterval : Option Int := some 1
  globalTimeInterval : Option T := none
  builtin : List (String × Bool) := builtinPropertyFields.map fun n => (n, true)
  properties : List (String × PropertySpec T V) := []
  records : List (String × List (PropertyRecord T V)) := []
  results : List (T × Row) := []
  lastSummaryTriggerTime : Option T := none

namespace Sampler
variable {T V Row : Type}

/-- `set_global_property_frequency`, `tracker.py:211-219`. -/
def setGlobalFrequency [Zero T] [LE T] [DecidableLE T] (s : Sampler T V Row)
    (interval : Option Int) (timeInterval : Option T) : Py Unit × Sampler T V Row :=
  match validateSchedule interval timeInterval with
  | .error e => (.error e, s)
  | .ok _ => (.ok (), { s with globalInterval := interval, globalTimeInterval := timeInterval })

/-- `set_property_enabled`, `tracker.py:307-314`. -/
def setPropertyEnabled (s : Sampler T V Row) (name : String) (enabled : Bool) :
    Py Unit × Sampler T V Row :=
  let r := setPropertyEnabledFlag s.builtin s.properties name enabled
  (r.1, { s with builtin := r.2.1, properties := r.2.2 })

/-- `attach`, `tracker.py:244-269`. -/
def attach [Zero T] [LE T] [DecidableLE T] (s : Sampler T V Row) (a : AttachArgs T V) :
    Py String × Sampler T V Row :=
  match makePropertySpec a (dictKeys s.properties) with
  | .error e => (.error e, s)
  | .ok spec =>
    (.ok spec.name,
      { s with
        properties := dictSet s.properties spec.name spec
        records := dictSet s.records spec.name [] })

/-- The arguments `attach_spec` passes on, `tracker.py:271-282`; the callable's own
name only matters when the spec name is empty. -/
def specArgs (spec : PropertySpec T V) (funcName : String) : AttachArgs T V :=
  { callback := spec.callback
    funcName := funcName
    interval := spec.interval
    timeInterval := spec.timeInterval
    name := some spec.name
    store := spec.store
    maxRecords := spec.maxRecords
    onError := spec.onError
    enabled := spec.enabled }

/-- `detach`, `tracker.py:284-289`. -/
def detach (s : Sampler T V Row) (name : String) : Py Unit × Sampler T V Row :=
  if name ∈ dictKeys s.properties then
    (.ok (), { s with
      properties := dictDel s.properties name
      records := dictDel s.records name })
  else (.error .valueError, s)

/-- `clear_attachments`, `tracker.py:291-294`. -/
def clearAttachments (s : Sampler T V Row) : Sampler T V Row :=
  { s with properties := [], records := [] }

/-- Loop `tracker.py:238-239`. -/
def enableAll : List (String × Bool) → Sampler T V Row → Py Unit × Sampler T V Row
  | [], s => (.ok (), s)
  | (n, b) :: rest, s =>
    match s.setPropertyEnabled n b with
    | (.error e, s') => (.error e, s')
    | (.ok _, s') => enableAll rest s'

/-- Loop `tracker.py:241-242`; a spec's name doubles as the callable's name (it is
only used if the name is empty). -/
def attachAll [Zero T] [LE T] [DecidableLE T] :
    List (PropertySpec T V) → Sampler T V Row → Py Unit × Sampler T V Row
  | [], s => (.ok (), s)
  | spec :: rest, s =>
    match s.attach (specArgs spec spec.name) with
    | (.error e, s') => (.error e, s')
    | (.ok _, s') => attachAll rest s'

/-- `apply_property_plan`, `tracker.py:221-242`. -/
def applyPropertyPlan [Zero T] [LE T] [DecidableLE T] (s : Sampler T V Row)
    (p : PropertyPlan T V) (defaultInterval : Option Int) : Py Unit × Sampler T V Row :=
  match s.setGlobalFrequency (p.trackerInterval defaultInterval) p.globalTimeInterval with
  | (.error e, s1) => (.error e, s1)
  | (.ok _, s1) =>
    match enableAll p.builtin s1 with
    | (.error e, s2) => (.error e, s2)
    | (.ok _, s2) => attachAll p.freshAttachmentSpecs s2

variable [Sub T] [LE T] [DecidableLE T]

/-- `_sample_transport_summary`, `tracker.py:331-344`; `summary` is the value of
`_compute_transport_summary()` for the current enabled flags. -/
def sampleSummary (summary : List (String × Bool) → Row) (s : Sampler T V Row)
    (step : Int) (simTime : T) : Sampler T V Row :=
  if shouldTrigger step simTime s.globalInterval s.globalTimeInterval s.lastSummaryTriggerTime then
    { s with
      results := s.results ++ [(simTime, summary s.builtin)]
      lastSummaryTriggerTime := some simTime }
  else s

/-- `_handle_callback_error`, `tracker.py:346-369`: `ok` means "keep running". -/
def handleCallbackError (spec : PropertySpec T V) (st : State T) (step : Int) (simTime : T) :
    Py Unit :=
  match spec.onError with
  | none => .error .callbackError
  | some h =>
    match h st step simTime with
    | none => .error .callbackError
    | some true => .ok ()
    | some false => .error .callbackError

/-- Mark a spec as triggered, `tracker.py:406-407, 419-420`. -/
def markTriggered (s : Sampler T V Row) (spec : PropertySpec T V) (step : Int) (simTime : T) :
    Sampler T V Row :=
  let spec' := { spec with lastTriggerStep := step, lastTriggerTime := some simTime }
  { s with properties := dictSet s.properties spec.name spec' }

/-- Whether one attached property is due, `tracker.py:383-400`. -/
def due (s : Sampler T V Row) (spec : PropertySpec T V) (step : Int) (simTime : T) : Bool :=
  let interval := match spec.interval with
    | some i => some i
    | none => s.globalInterval
  let timeInterval := match spec.timeInterval with
    | some t => some t
    | none => s.globalTimeInterval
  spec.enabled && shouldTrigger step simTime interval timeInterval spec.lastTriggerTime

/-- One iteration of the loop `tracker.py:382-420`. -/
def sampleOne (st : State T) (step : Int) (simTime : T) (spec : PropertySpec T V)
    (s : Sampler T V Row) : Py Unit × Sampler T V Row :=
  if s.due spec step simTime then
    match spec.callback st step simTime with
    | .raised =>
      match handleCallbackError spec st step simTime with
      | .error e => (.error e, s)
      | .ok _ => (.ok (), s.markTriggered spec step simTime)
    | .value v =>
      if spec.store then
        match dictGet s.records spec.name with
        | none => (.error .keyError, s)
        | some recs =>
          (.ok (),
            ({ s with records :=
                dictSet s.records spec.name (appendRecord recs spec step simTime v) }).markTriggered
              spec step simTime)
      else (.ok (), s.markTriggered spec step simTime)
  else (.ok (), s)

/-- Loop `tracker.py:382-420` over the snapshot of specs. -/
def sampleLoop (st : State T) (step : Int) (simTime : T) :
    List (PropertySpec T V) → Sampler T V Row → Py Unit × Sampler T V Row
  | [], s => (.ok (), s)
  | spec :: rest, s =>
    match sampleOne st step simTime spec s with
    | (.error e, s') => (.error e, s')
    | (.ok _, s') => sampleLoop st step simTime rest s'

/-- `sample_properties`, `tracker.py:378-420`. -/
def sampleProperties (summary : List (String × Bool) → Row) (s : Sampler T V Row) (st : State T)
    (step : Int) (simTime : T) : Py Unit × Sampler T V Row :=
  let s1 := s.sampleSummary summary step simTime
  sampleLoop st step simTime (s1.properties.map Prod.snd) s1

end Sampler
end KMC
