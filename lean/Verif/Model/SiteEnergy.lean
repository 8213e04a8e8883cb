import Verif.Model.Composite
import Verif.Model.LocalBarrier
import Mathlib.Algebra.Order.Floor.Ring
import Mathlib.Data.Rat.Floor
/-
Model of `kmcpy/models/site_energy.py`: a site-energy model that keeps the occupation vector of
an external energy calculator in step with the simulation.

The external calculator is a parameter: a runtime object of type `Rt`, a function computing a
difference and optionally a function committing a change.  They are taken to be functions of
the arguments they are given (they do not modify the occupation array they receive; keyword
filtering and `module:function` look-up are not modelled).
-/
namespace KMC

/-- A value stored for an external site: an integer, a float (a rational number here) or any
other object, known by a text. -/
inductive ExtVal where
  | int (n : Int)
  | flt (q : ℚ)
  | obj (s : String)
  deriving DecidableEq, Repr

namespace ExtVal

/-- Python equality ignores the difference between `1` and `1.0`. -/
def key : ExtVal → ℚ ⊕ String
  | int n => .inl (n : ℚ)
  | flt q => .inl q
  | obj s => .inr s

/-- `old_value == new_value`, `site_energy.py:340`. -/
def pyEq (a b : ExtVal) : Bool := decide (a.key = b.key)

end ExtVal

/-- Element types of the external occupation array that `_resolve_external_dtype` chooses
between (`site_energy.py:790-808`).  Other explicit dtypes are not modelled. -/
inductive DType where
  | int64
  | float64
  /-- `<U` texts of at most this many characters -/
  | text (width : Nat)
  | object
  deriving DecidableEq, Repr

/-- Storing a value in an array of the given type: integers are converted to floats, floats
are truncated towards zero by an integer array, and an object that is not a number is refused
by a numeric array (texts that spell a number are not modelled).  An array of texts cuts what it is given to
its width; the digits of a float are represented by its fraction. -/
def DType.store : DType → ExtVal → Py ExtVal
  | .int64, .int n => .ok (.int n)
  | .int64, .flt q => .ok (.int (if 0 ≤ q then ⌊q⌋ else ⌈q⌉))
  | .int64, .obj _ => .error .valueError
  | .float64, .int n => .ok (.flt n)
  | .float64, .flt q => .ok (.flt q)
  | .float64, .obj _ => .error .valueError
  | .text w, .obj s => .ok (.obj (String.ofList (s.toList.take w)))
  | .text w, .int n => .ok (.obj (String.ofList ((intStr n).toList.take w)))
  | .text w, .flt q => .ok (.obj (String.ofList ((intStr q.num ++ "/" ++ intStr q.den).toList.take w)))
  | .object, v => .ok v

/-- `MappedOccupationChange`, `site_energy.py:28-46`. -/
structure OccupationChange where
  site : Int
  externalSite : Int
  oldState : Int
  newState : Int
  oldValue : ExtVal
  newValue : ExtVal
  deriving DecidableEq, Repr

/-- `_StateLookup`, `site_energy.py:49-54`; `none` is the missing marker. -/
structure StateLookup where
  values : List (Option ExtVal)
  offset : Int
  deriving DecidableEq, Repr

/-- What `SiteEnergyModel` uses of an active-site order: the number of active sites and the
fingerprint. -/
structure OrderRef where
  count : Nat
  fingerprint : String
  deriving DecidableEq, Repr

/-- `_UNIT_FACTORS_TO_MEV`, `site_energy.py:22-25`. -/
inductive EnergyUnit where
  | meV
  | eV
  deriving DecidableEq, Repr

/-- `_unit_factor_to_mev`, `site_energy.py:571-572`. -/
def EnergyUnit.factor : EnergyUnit → ℝ
  | .meV => 1
  | .eV => 1000

/-- `_normalize_energy_units`, `site_energy.py:564-568`, for a text. -/
def EnergyUnit.parse (units : String) : Py EnergyUnit :=
  let token := pyLower (pyStrip units)
  if token = "mev" then .ok .meV
  else if token = "ev" then .ok .eV
  else .error .valueError

/-- What the user's callable returns. -/
inductive RawEnergy where
  | number (x : ℝ)
  | bool (b : Bool)
  | other

/-- `_numeric_delta_to_mev`, `site_energy.py:575-580`. -/
noncomputable def RawEnergy.toMeV (u : EnergyUnit) : RawEnergy → Py ℝ
  | .number x => .ok (x * u.factor)
  | .bool _ => .error .typeError
  | .other => .error .typeError

/-- `{index: value for index, value in enumerate(sequence)}` in `_normalize_site_mapping` and
`_normalize_state_mapping`, `site_energy.py:590-630` (mappings are read in `Model/SiteEnergyFile`). -/
def normalizeSequence {α : Type} (values : List α) : List (Int × α) :=
  values.zipIdx.map fun p => ((p.2 : Int), p.1)

/-- `SiteEnergyModel`, `site_energy.py:96-164`: what the constructor fixes.  The mappings are
the normalised dictionaries; `initialOccupation` is the array with its element type. -/
structure SiteEnergy (Rt T : Type) where
  siteMapping : Option (List (Int × Int)) := none
  stateMapping : Option (List (Int × ExtVal)) := none
  stateMappingBySite : Option (List (Int × List (Int × ExtVal))) := none
  initialOccupation : Option (DType × List ExtVal) := none
  externalSize : Option Int := none
  fillValue : ExtVal := .int 0
  externalDtype : Option DType := none
  units : EnergyUnit := .eV
  /-- the object given as `runtime`, or the call of `runtime_ref` -/
  makeRuntime : Py Rt
  /-- `compute_fn`, or what `compute_ref` refers to -/
  computeFn : Option (Rt → List ExtVal → List OccupationChange → Event → State T → Py RawEnergy) := none
  /-- `apply_fn`, or what `apply_ref` refers to -/
  applyFn : Option (Rt → List ExtVal → List OccupationChange → Event → State T → Py Unit × Rt) := none

/-- The attributes a `SiteEnergyModel` changes while it is used. -/
structure SiteEnergyState (Rt : Type) where
  order : Option OrderRef := none
  orderHash : Option String := none
  siteLookup : Option (List Int) := none
  stateLookup : Option StateLookup := none
  stateLookupBySite : Option (List (Option StateLookup)) := none
  external : Option (DType × List ExtVal) := none
  runtime : Option Rt := none

/-- The attributes after the constructor, `site_energy.py:135-164`: an order and a hash that
disagree are refused. -/
def SiteEnergyState.make {Rt : Type} (order : Option OrderRef) (hash : Option String) :
    Py (SiteEnergyState Rt) :=
  match order, hash with
  | some o, some h =>
    if h ≠ o.fingerprint then .error .valueError
    else .ok { order := some o, orderHash := some o.fingerprint }
  | some o, none => .ok { order := some o, orderHash := some o.fingerprint }
  | none, h => .ok { orderHash := h }

namespace SiteEnergy
variable {Rt T : Type}

/-! ### Look-up tables -/

/-- Largest entry of a non-empty list (`max`). -/
def maxInt : List Int → Int
  | [] => 0
  | [a] => a
  | a :: b :: l => max a (maxInt (b :: l))

/-- Smallest entry of a non-empty list (`min`). -/
def minInt : List Int → Int
  | [] => 0
  | [a] => a
  | a :: b :: l => min a (minInt (b :: l))

/-- `[site_mapping[site] for site in range(n_sites)]` with the check for missing sites,
`site_energy.py:678-685`. -/
def mapSites (d : List (Int × Int)) (n : Nat) : Py (List Int) :=
  if (List.range n).all (fun i : Nat => (dictGet d (i : Int)).isSome) then
    .ok ((List.range n).map fun i : Nat => (dictGet d (i : Int)).getD 0)
  else .error .valueError

/-- `_build_site_lookup`, `site_energy.py:668-698`. -/
def buildSiteLookup (m : SiteEnergy Rt T) (n : Nat) : Py (List Int) :=
  let lookup : Py (List Int) :=
    match m.siteMapping with
    | none => .ok ((List.range n).map fun i : Nat => (i : Int))
    | some d => mapSites d n
  match lookup with
  | .error x => .error x
  | .ok lookup =>
    if lookup.any (· < 0) then .error .valueError
    else
      let upper : Option Int :=
        match m.initialOccupation with
        | some a => some (a.2.length : Int)
        | none => m.externalSize
      match upper with
      | none => .ok lookup
      | some u =>
        if lookup ≠ [] ∧ u ≤ maxInt lookup then .error .valueError else .ok lookup

/-- `_external_size_from_lookup`, `site_energy.py:701-711`. -/
def externalSizeFromLookup (m : SiteEnergy Rt T) (lookup : List Int) (fallback : Nat) : Int :=
  match m.externalSize with
  | some s => s
  | none => if lookup = [] then (fallback : Int) else maxInt lookup + 1

/-- Dense table of a non-empty state mapping, `site_energy.py:721-727`. -/
def fillTable (offset : Int) : List (Int × ExtVal) → List (Option ExtVal) → List (Option ExtVal)
  | [], t => t
  | (k, v) :: d, t => fillTable offset d (t.set (k - offset).toNat (some v))

/-- `_build_state_lookup`, `site_energy.py:714-728`, for a given mapping. -/
def buildStateLookup (d : List (Int × ExtVal)) : StateLookup :=
  if d = [] then ⟨[], 0⟩
  else
    let lo := minInt (dictKeys d)
    let hi := maxInt (dictKeys d)
    ⟨fillTable lo d (List.replicate (hi - lo + 1).toNat none), lo⟩

/-- One entry of the table by site, `site_energy.py:740-744`. -/
def lookupForSite (m : SiteEnergy Rt T) (d : List (Int × List (Int × ExtVal))) (i : Nat) :
    Option StateLookup :=
  match dictGet d (i : Int) with
  | some sub => some (buildStateLookup sub)
  | none => m.stateMapping.map buildStateLookup

/-- `_build_state_lookup_by_site`, `site_energy.py:731-745`. -/
def buildStateLookupBySite (m : SiteEnergy Rt T) (n : Nat) : Option (List (Option StateLookup)) :=
  match m.stateMappingBySite with
  | none => none
  | some d => some ((List.range n).map (m.lookupForSite d))

/-- `_state_lookup_value`, `site_energy.py:770-787`. -/
def stateLookupValue (l : StateLookup) (state : Int) : Py ExtVal :=
  let k := state - l.offset
  if k < 0 ∨ (l.values.length : Int) ≤ k then .error .valueError
  else
    match l.values[k.toNat]? with
    | some (some v) => .ok v
    | _ => .error .valueError

/-- `_external_value` and `_external_state_value_from_lookup`, `site_energy.py:301-307,748-767`. -/
def externalValue (s : SiteEnergyState Rt) (site state : Int) : Py ExtVal :=
  match s.stateLookupBySite with
  | some t =>
    match pyGet t site with
    | .error _ => .error .valueError
    | .ok none => .ok (.int state)
    | .ok (some l) => stateLookupValue l state
  | none =>
    match s.stateLookup with
    | none => .ok (.int state)
    | some l => stateLookupValue l state

/-- `_external_site`, `site_energy.py:296-299`. -/
def externalSite (s : SiteEnergyState Rt) (site : Int) : Py Int :=
  match s.siteLookup with
  | none => .error .runtimeError
  | some l => pyGet l site

/-! ### The external occupation -/

/-- `mapped_values`, `site_energy.py:268-271`. -/
def mappedValues (s : SiteEnergyState Rt) : Nat → List Int → Py (List ExtVal)
  | _, [] => .ok []
  | i, v :: vs =>
    match externalValue s (i : Int) v with
    | .error x => .error x
    | .ok w =>
      match mappedValues s (i + 1) vs with
      | .error x => .error x
      | .ok ws => .ok (w :: ws)

/-- `isinstance(value, (int, np.integer))`. -/
def isInt : ExtVal → Bool
  | .int _ => true
  | _ => false

/-- `isinstance(value, (int, float, np.number))`. -/
def isNumber : ExtVal → Bool
  | .int _ => true
  | .flt _ => true
  | .obj _ => false

/-- `_resolve_external_dtype`, `site_energy.py:790-808`. -/
def resolveDtype (m : SiteEnergy Rt T) (values : List ExtVal) : DType :=
  match m.externalDtype with
  | some d => d
  | none =>
    match m.initialOccupation with
    | some a => a.1
    | none =>
      if values ≠ [] ∧ values.all isInt then .int64
      else if values ≠ [] ∧ values.all isNumber then .float64
      else if isInt m.fillValue ∧ values = [] then .int64
      else .object

/-- Conversion of a whole array. -/
def storeAll (d : DType) : List ExtVal → Py (List ExtVal)
  | [] => .ok []
  | v :: vs =>
    match d.store v with
    | .error x => .error x
    | .ok w =>
      match storeAll d vs with
      | .error x => .error x
      | .ok ws => .ok (w :: ws)

/-- `external[site] = value`. -/
def storeAt (d : DType) (ext : List ExtVal) (site : Int) (v : ExtVal) : Py (List ExtVal) :=
  match d.store v with
  | .error x => .error x
  | .ok w => pySet ext site w

/-- The array before the mapped values are written, `site_energy.py:279-290`. -/
def background (m : SiteEnergy Rt T) (lookup : List Int) (d : DType) (n : Nat) :
    Py (List ExtVal) :=
  match m.initialOccupation with
  | some a => storeAll d a.2
  | none =>
    let size := m.externalSizeFromLookup lookup n
    if size < 0 then .error .valueError
    else
      match d.store m.fillValue with
      | .error x => .error x
      | .ok w => .ok (List.replicate size.toNat w)

/-- Loop `site_energy.py:292-293`. -/
def writeValues (d : DType) (lookup : List Int) : Nat → List ExtVal → List ExtVal → Py (List ExtVal)
  | _, [], ext => .ok ext
  | i, v :: vs, ext =>
    match pyGet lookup (i : Int) with
    | .error x => .error x
    | .ok p =>
      match storeAt d ext p v with
      | .error x => .error x
      | .ok ext => writeValues d lookup (i + 1) vs ext

/-- `_build_external_occupation`, `site_energy.py:267-294`. -/
def buildExternal (m : SiteEnergy Rt T) (s : SiteEnergyState Rt) (lookup : List Int)
    (occ : List Int) : Py (DType × List ExtVal) :=
  match mappedValues s 0 occ with
  | .error x => .error x
  | .ok values =>
    let d := m.resolveDtype values
    match m.background lookup d occ.length with
    | .error x => .error x
    | .ok ext =>
      match writeValues d lookup 0 values ext with
      | .error x => .error x
      | .ok ext => .ok (d, ext)

/-! ### Changes -/

/-- `_mapped_changes`, `site_energy.py:331-351`. -/
def mappedChanges (s : SiteEnergyState Rt) : List (Int × Int × Int) → Py (List OccupationChange)
  | [] => .ok []
  | (site, old, new) :: cs =>
    match externalSite s site with
    | .error x => .error x
    | .ok p =>
      match externalValue s site old with
      | .error x => .error x
      | .ok a =>
        match externalValue s site new with
        | .error x => .error x
        | .ok b =>
          match mappedChanges s cs with
          | .error x => .error x
          | .ok rest => if a.pyEq b then .ok rest else .ok (⟨site, p, old, new, a, b⟩ :: rest)

/-- `_changes_from_pre_state`, `site_energy.py:309-318`. -/
def changesPre (s : SiteEnergyState Rt) (e : Event) (occ : List Int) : Py (List OccupationChange) :=
  match unpack2 e.mobile with
  | .error x => .error x
  | .ok (f, t) =>
    match pyGet occ f with
    | .error x => .error x
    | .ok vf =>
      match pyGet occ t with
      | .error x => .error x
      | .ok vt => mappedChanges s [(f, vf, vt), (t, vt, vf)]

/-- `_changes_from_post_state`, `site_energy.py:320-329`. -/
def changesPost (s : SiteEnergyState Rt) (e : Event) (occ : List Int) : Py (List OccupationChange) :=
  match unpack2 e.mobile with
  | .error x => .error x
  | .ok (f, t) =>
    match pyGet occ f with
    | .error x => .error x
    | .ok vf =>
      match pyGet occ t with
      | .error x => .error x
      | .ok vt => mappedChanges s [(f, vt, vf), (t, vf, vt)]

/-- `_validate_event_mappings`, `site_energy.py:353-364`. -/
def validateEvents (s : SiteEnergyState Rt) (occ : List Int) : List Event → Py Unit
  | [] => .ok ()
  | e :: es =>
    match changesPre s e occ with
    | .error .indexError => .error .valueError
    | .error .keyError => .error .valueError
    | .error .valueError => .error .valueError
    | .error x => .error x
    | .ok _ => validateEvents s occ es

/-! ### Initialisation, evaluation, commitment -/

/-- `_set_active_site_order`, `site_energy.py:238-251`. -/
def setOrder (s : SiteEnergyState Rt) : Option OrderRef → Py (SiteEnergyState Rt)
  | none => .ok s
  | some o =>
    match s.orderHash with
    | some h =>
      if o.fingerprint ≠ h then .error .valueError
      else .ok { s with order := some o, orderHash := some o.fingerprint }
    | none => .ok { s with order := some o, orderHash := some o.fingerprint }

/-- `_validate_kmcpy_site_order`, `site_energy.py:253-261`. -/
def validateOrder (s : SiteEnergyState Rt) (n : Nat) : Py Unit :=
  match s.order with
  | none => .ok ()
  | some o => if o.count ≠ n then .error .valueError else .ok ()

/-- `_resolve_runtime`, `site_energy.py:177-182`. -/
def resolveRuntime (m : SiteEnergy Rt T) (s : SiteEnergyState Rt) : Py Rt × SiteEnergyState Rt :=
  match s.runtime with
  | some r => (.ok r, s)
  | none =>
    match m.makeRuntime with
    | .error x => (.error x, s)
    | .ok r => (.ok r, { s with runtime := some r })

/-- `initialize_state`, `site_energy.py:209-236`; the second component is the model as it is
left, also after an error.  `events = none` when no event library is given. -/
def initializeState (m : SiteEnergy Rt T) (s : SiteEnergyState Rt) (occ : List Int)
    (events : Option (List Event)) (order : Option OrderRef) : Py Unit × SiteEnergyState Rt :=
  match setOrder s order with
  | .error x => (.error x, s)
  | .ok s =>
    match validateOrder s occ.length with
    | .error x => (.error x, s)
    | .ok () =>
      match m.buildSiteLookup occ.length with
      | .error x => (.error x, s)
      | .ok lookup =>
        let s := { s with
          siteLookup := some lookup
          stateLookup := m.stateMapping.map buildStateLookup
          stateLookupBySite := m.buildStateLookupBySite occ.length }
        match m.buildExternal s lookup occ with
        | .error x => (.error x, s)
        | .ok ext =>
          let s := { s with external := some ext }
          match events.elim (.ok ()) (validateEvents s occ) with
          | .error x => (.error x, s)
          | .ok () =>
            match m.resolveRuntime s with
            | (.error x, s) => (.error x, s)
            | (.ok _, s) => (.ok (), s)

/-- `_ensure_initialized`, `site_energy.py:263-265`. -/
def ensureInitialized (m : SiteEnergy Rt T) (s : SiteEnergyState Rt) (occ : List Int) :
    Py Unit × SiteEnergyState Rt :=
  if s.external.isNone ∨ s.siteLookup.isNone then m.initializeState s occ none none
  else (.ok (), s)

/-- `compute`, `site_energy.py:366-384`. -/
noncomputable def compute (m : SiteEnergy Rt T) (s : SiteEnergyState Rt) (e : Event)
    (st : State T) : Py ℝ × SiteEnergyState Rt :=
  match m.ensureInitialized s st.occ with
  | (.error x, s) => (.error x, s)
  | (.ok (), s) =>
    match changesPre s e st.occ with
    | .error x => (.error x, s)
    | .ok [] => (.ok 0, s)
    | .ok changes =>
      match m.computeFn with
      | none => (.error .runtimeError, s)
      | some fn =>
        match m.resolveRuntime s with
        | (.error x, s) => (.error x, s)
        | (.ok rt, s) =>
          match s.external with
          | none => (.error .typeError, s)
          | some ext =>
            match fn rt ext.2 changes e st with
            | .error x => (.error x, s)
            | .ok raw => (raw.toMeV m.units, s)

/-- Loop `site_energy.py:404-405`. -/
def commitChanges (d : DType) : List OccupationChange → List ExtVal → Py Unit × List ExtVal
  | [], ext => (.ok (), ext)
  | c :: cs, ext =>
    match storeAt d ext c.externalSite c.newValue with
    | .error x => (.error x, ext)
    | .ok ext => commitChanges d cs ext

/-- `apply_event`, `site_energy.py:386-405`. -/
def applyEvent (m : SiteEnergy Rt T) (s : SiteEnergyState Rt) (e : Event) (st : State T) :
    Py Unit × SiteEnergyState Rt :=
  match m.ensureInitialized s st.occ with
  | (.error x, s) => (.error x, s)
  | (.ok (), s) =>
    match changesPost s e st.occ with
    | .error x => (.error x, s)
    | .ok [] => (.ok (), s)
    | .ok changes =>
      match s.external with
      | none => (.error .typeError, s)
      | some ext =>
        let called : Py Unit × SiteEnergyState Rt :=
          match m.applyFn with
          | none => (.ok (), s)
          | some fn =>
            match m.resolveRuntime s with
            | (.error x, s) => (.error x, s)
            | (.ok rt, s) =>
              match fn rt ext.2 changes e st with
              | (r, rt') => (r, { s with runtime := some rt' })
        match called with
        | (.error x, s) => (.error x, s)
        | (.ok (), s) =>
          match commitChanges ext.1 changes ext.2 with
          | (r, ext') => (r, { s with external := some (ext.1, ext') })

/-- The site model of a composite model in a simulation (`composite_lce_model.py:147-178`):
`initialize_state` receives the state, the event library and the active-site order; a fresh
model object `s0` is used. -/
noncomputable def source (m : SiteEnergy Rt T) (s0 : SiteEnergyState Rt)
    (order : Option OrderRef) : SiteSource (SiteEnergyState Rt) T :=
  SiteSource.model
    (fun st events =>
      match m.initializeState s0 st.occ (some events) order with
      | (.error x, _) => .error x
      | (.ok (), s) => .ok s)
    (fun s e st => m.applyEvent s e st)
    (fun s e st => (m.compute s e st).1)

end SiteEnergy

end KMC
