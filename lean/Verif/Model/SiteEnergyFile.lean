import Verif.Model.SiteEnergy
import Verif.Model.ActiveSiteOrder
/-
Model of how a `SiteEnergyModel` is constructed, written to and read from a dictionary:
`kmcpy/models/site_energy.py:96-164,407-469,583-665,811-824`.

JSON turns the integer keys of a dictionary into texts; lists, numbers and texts are read back as they
were written.  `V` are the values of keyword arguments.
-/
namespace KMC
namespace SiteEnergyFile
variable {σ V Rt T : Type}

/-- A key of a mapping given by the user or read from a file. -/
inductive Key where
  | int (n : Int)
  | str (s : String)
  deriving DecidableEq

/-- `int(key)`. -/
def Key.toInt : Key → Py Int
  | .int n => .ok n
  | .str s =>
    match parseInt s with
    | some n => .ok n
    | none => .error .valueError

/-- A mapping given as a dictionary or as a sequence. -/
inductive MapArg (α : Type) where
  | items (l : List (Key × α))
  | seq (l : List α)

/-- `{int(key): value for key, value in mapping.items()}`, `site_energy.py:596,606`. -/
def itemsOf {α : Type} : List (Key × α) → List (Int × α) → Py (List (Int × α))
  | [], acc => .ok acc
  | (k, v) :: l, acc =>
    match k.toInt with
    | .error e => .error e
    | .ok n => itemsOf l (dictSet acc n v)

/-- `_normalize_site_mapping` and `_normalize_state_mapping`, `site_energy.py:590-607`, for a given
mapping. -/
def normalizeMap {α : Type} : MapArg α → Py (List (Int × α))
  | .items l => itemsOf l []
  | .seq l => .ok (normalizeSequence l)

/-- The same for an optional mapping. -/
def normalizeOptional {α : Type} : Option (MapArg α) → Py (Option (List (Int × α)))
  | none => .ok none
  | some m =>
    match normalizeMap m with
    | .error e => .error e
    | .ok d => .ok (some d)

/-- `_normalize_state_mapping(mapping) or {}`, `site_energy.py:616,620`. -/
def normalizeSub : Option (MapArg ExtVal) → Py (List (Int × ExtVal))
  | none => .ok []
  | some m => normalizeMap m

/-- The dictionary of `site_energy.py:615-618`. -/
def bySiteItems : List (Key × Option (MapArg ExtVal)) → List (Int × List (Int × ExtVal)) →
    Py (List (Int × List (Int × ExtVal)))
  | [], acc => .ok acc
  | (k, m) :: l, acc =>
    match k.toInt with
    | .error e => .error e
    | .ok n =>
      match normalizeSub m with
      | .error e => .error e
      | .ok d => bySiteItems l (dictSet acc n d)

/-- The dictionary of `site_energy.py:619-623`, from site number `i` on: sites without a mapping are
left out. -/
def bySiteSeq : Nat → List (Option (MapArg ExtVal)) → Py (List (Int × List (Int × ExtVal)))
  | _, [] => .ok []
  | i, none :: l => bySiteSeq (i + 1) l
  | i, some m :: l =>
    match normalizeMap m with
    | .error e => .error e
    | .ok d =>
      match bySiteSeq (i + 1) l with
      | .error e => .error e
      | .ok rest => .ok (((i : Int), d) :: rest)

/-- `_normalize_state_mapping_by_site`, `site_energy.py:610-624`. -/
def normalizeBySite : Option (MapArg (Option (MapArg ExtVal))) →
    Py (Option (List (Int × List (Int × ExtVal))))
  | none => .ok none
  | some (.items l) =>
    match bySiteItems l [] with
    | .error e => .error e
    | .ok d => .ok (some d)
  | some (.seq l) =>
    match bySiteSeq 0 l with
    | .error e => .error e
    | .ok d => .ok (some d)

/-- `_normalize_optional_ref`, `site_energy.py:583-587`. -/
def normalizeRef : Option String → Option String
  | none => none
  | some s => if pyStrip s = "" then none else some (pyStrip s)

/-- An occupation given as an array or as a list. -/
inductive ArrayArg where
  | array (d : DType) (l : List ExtVal)
  | list (l : List ExtVal)

/-- Number of characters numpy reserves for a value in an array of texts. -/
def textWidth : ExtVal → Nat
  | .int _ => 21
  | .flt _ => 32
  | .obj s => s.length

/-- The element type of `np.asarray(list)`; objects are taken to be texts. -/
def inferDtype (l : List ExtVal) : DType :=
  if l = [] then .float64
  else if l.all SiteEnergy.isInt then .int64
  else if l.all SiteEnergy.isNumber then .float64
  else .text ((l.map textWidth).foldl max 1)

/-- `_optional_array_copy`, `site_energy.py:811-814`. -/
def arrayCopy : Option ArrayArg → Py (Option (DType × List ExtVal))
  | none => .ok none
  | some (.array d l) => .ok (some (d, l))
  | some (.list l) =>
    match SiteEnergy.storeAll (inferDtype l) l with
    | .error e => .error e
    | .ok r => .ok (some (inferDtype l, r))

/-- A user's function computing a difference, called with keyword arguments. -/
abbrev ComputeFn (V Rt T : Type) : Type :=
  List (String × V) → Rt → List ExtVal → List OccupationChange → Event → State T → Py RawEnergy

/-- A user's function committing a change. -/
abbrev ApplyFn (V Rt T : Type) : Type :=
  List (String × V) → Rt → List ExtVal → List OccupationChange → Event → State T → Py Unit × Rt

/-- `_normalize_active_site_order`, `site_energy.py:627-640`, of an order object or of its
dictionary. -/
inductive OrderArg (σ : Type) where
  | order (o : ActiveSiteOrder σ String)
  | dict (d : ActiveSiteOrder.Dict σ String)

/-- The same. -/
def normalizeOrder : Option (OrderArg σ) → Py (Option (ActiveSiteOrder σ String))
  | none => .ok none
  | some (.order o) => .ok (some o)
  | some (.dict d) =>
    match ActiveSiteOrder.fromDict d with
    | .error e => .error e
    | .ok o => .ok (some o)

/-- The arguments of the constructor, `site_energy.py:96-118`. -/
structure Args (σ V Rt T : Type) where
  computeFn : Option (ComputeFn V Rt T) := none
  computeRef : Option String := none
  computeKwargs : Option (List (String × V)) := none
  applyFn : Option (ApplyFn V Rt T) := none
  applyRef : Option String := none
  applyKwargs : Option (List (String × V)) := none
  runtime : Option Rt := none
  runtimeRef : Option String := none
  runtimeKwargs : Option (List (String × V)) := none
  siteMapping : Option (MapArg Int) := none
  stateMapping : Option (MapArg ExtVal) := none
  stateMappingBySite : Option (MapArg (Option (MapArg ExtVal))) := none
  initialOccupation : Option ArrayArg := none
  externalSize : Option Int := none
  fillValue : ExtVal := .int 0
  externalDtype : Option DType := none
  order : Option (OrderArg σ) := none
  orderHash : Option String := none
  units : String := "eV"
  name : String := "SiteEnergyModel"

/-- The attributes of a `SiteEnergyModel`, `site_energy.py:119-158`. -/
structure Object (σ V Rt T : Type) where
  computeFn : Option (ComputeFn V Rt T)
  computeRef : Option String
  computeKwargs : List (String × V)
  applyFn : Option (ApplyFn V Rt T)
  applyRef : Option String
  applyKwargs : List (String × V)
  runtime : Option Rt
  runtimeRef : Option String
  runtimeKwargs : List (String × V)
  siteMapping : Option (List (Int × Int))
  stateMapping : Option (List (Int × ExtVal))
  stateMappingBySite : Option (List (Int × List (Int × ExtVal)))
  initialOccupation : Option (DType × List ExtVal)
  externalSize : Option Int
  fillValue : ExtVal
  externalDtype : Option DType
  order : Option (ActiveSiteOrder σ String)
  orderHash : Option String
  units : EnergyUnit
  name : String

/-- The check of the order, `site_energy.py:141-157`, giving the stored hash. -/
def checkedHash (order : Option (ActiveSiteOrder σ String)) (hash : Option String) : Py (Option String) :=
  match order, hash with
  | some o, some h => if h ≠ o.fingerprint then .error .valueError else .ok (some o.fingerprint)
  | some o, none => .ok (some o.fingerprint)
  | none, h => .ok h

/-- `SiteEnergyModel.__init__`, `site_energy.py:96-164`. -/
def Object.make (a : Args σ V Rt T) : Py (Object σ V Rt T) :=
  match normalizeOptional a.siteMapping with
  | .error e => .error e
  | .ok siteMapping =>
    match normalizeOptional a.stateMapping with
    | .error e => .error e
    | .ok stateMapping =>
      match normalizeBySite a.stateMappingBySite with
      | .error e => .error e
      | .ok bySite =>
        match arrayCopy a.initialOccupation with
        | .error e => .error e
        | .ok initial =>
          match normalizeOrder a.order with
          | .error e => .error e
          | .ok order =>
            match checkedHash order (normalizeRef a.orderHash) with
            | .error e => .error e
            | .ok hash =>
              match EnergyUnit.parse a.units with
              | .error e => .error e
              | .ok units =>
                .ok { computeFn := a.computeFn
                      computeRef := normalizeRef a.computeRef
                      computeKwargs := a.computeKwargs.getD []
                      applyFn := a.applyFn
                      applyRef := normalizeRef a.applyRef
                      applyKwargs := a.applyKwargs.getD []
                      runtime := a.runtime
                      runtimeRef := normalizeRef a.runtimeRef
                      runtimeKwargs := a.runtimeKwargs.getD []
                      siteMapping := siteMapping
                      stateMapping := stateMapping
                      stateMappingBySite := bySite
                      initialOccupation := initial
                      externalSize := a.externalSize
                      fillValue := a.fillValue
                      externalDtype := a.externalDtype
                      order := order
                      orderHash := hash
                      units := units
                      name := a.name }

/-- The text stored for a unit, `site_energy.py:568`. -/
def unitText : EnergyUnit → String
  | .meV => "meV"
  | .eV => "eV"

/-- A dictionary read by `from_dict`; `none` is a missing key or `null`. -/
structure Payload (σ V : Type) where
  name : Option String
  computeRef : Option String
  computeKwargs : Option (List (String × V))
  applyRef : Option String
  applyKwargs : Option (List (String × V))
  runtimeRef : Option String
  runtimeKwargs : Option (List (String × V))
  siteMapping : Option (MapArg Int)
  stateMapping : Option (MapArg ExtVal)
  stateMappingBySite : Option (MapArg (Option (MapArg ExtVal)))
  initialOccupation : Option (List ExtVal)
  externalSize : Option Int
  fillValue : Option ExtVal
  externalDtype : Option DType
  order : Option (ActiveSiteOrder.Dict σ String)
  orderHash : Option String
  siteOrderHash : Option String
  units : Option String

/-- A dictionary with integer keys as JSON stores it. -/
def textKeys {α : Type} (d : List (Int × α)) : MapArg α := .items (d.map fun p => (.str (intStr p.1), p.2))

/-- `_external_site_order_hash`, `site_energy.py:643-665`; `digest` is the hash of the sorted site mapping,
the size and the length of the initial occupation. -/
def siteOrderHash (digest : Option (List (Int × Int)) → Option Int → Option Nat → String)
    (o : Object σ V Rt T) : String :=
  digest o.siteMapping o.externalSize (o.initialOccupation.map fun a => a.2.length)

/-- `as_dict`, `site_energy.py:407-436`, as it is found in the JSON file. -/
def Object.asDict (digest : Option (List (Int × Int)) → Option Int → Option Nat → String)
    (o : Object σ V Rt T) : Payload σ V where
  name := some o.name
  computeRef := o.computeRef
  computeKwargs := some o.computeKwargs
  applyRef := o.applyRef
  applyKwargs := some o.applyKwargs
  runtimeRef := o.runtimeRef
  runtimeKwargs := some o.runtimeKwargs
  siteMapping := o.siteMapping.map textKeys
  stateMapping := o.stateMapping.map textKeys
  stateMappingBySite := o.stateMappingBySite.map fun d => textKeys (d.map fun p => (p.1, some (textKeys p.2)))
  initialOccupation := o.initialOccupation.map fun a => a.2
  externalSize := o.externalSize
  fillValue := some o.fillValue
  externalDtype := o.externalDtype
  order := o.order.map ActiveSiteOrder.asDict
  orderHash := o.orderHash
  siteOrderHash := some (siteOrderHash digest o)
  units := some (unitText o.units)

/-- The arguments `from_dict` gives to the constructor, `site_energy.py:444-462`. -/
def argsOf (d : Payload σ V) : Args σ V Rt T where
  computeRef := d.computeRef
  computeKwargs := d.computeKwargs
  applyRef := d.applyRef
  applyKwargs := d.applyKwargs
  runtimeRef := d.runtimeRef
  runtimeKwargs := d.runtimeKwargs
  siteMapping := d.siteMapping
  stateMapping := d.stateMapping
  stateMappingBySite := d.stateMappingBySite
  initialOccupation := d.initialOccupation.map ArrayArg.list
  externalSize := d.externalSize
  fillValue := d.fillValue.getD (.int 0)
  externalDtype := d.externalDtype
  order := d.order.map OrderArg.dict
  orderHash := d.orderHash
  units := d.units.getD "eV"
  name := d.name.getD "SiteEnergyModel"

/-- `from_dict`, `site_energy.py:438-469`. -/
def Object.fromDict (digest : Option (List (Int × Int)) → Option Int → Option Nat → String)
    (d : Payload σ V) : Py (Object σ V Rt T) :=
  match Object.make (argsOf d) with
  | .error e => .error e
  | .ok o =>
    match d.siteOrderHash with
    | none => .ok o
    | some h => if h ≠ siteOrderHash digest o then .error .valueError else .ok o

/-- What references resolve to (`resolve_callable_reference`, `site_energy.py:496-516`). -/
structure Importer (V Rt T : Type) where
  compute : String → Py (ComputeFn V Rt T)
  apply : String → Py (ApplyFn V Rt T)
  runtime : String → Py (List (String × V) → Py Rt)

/-- `_resolve_runtime`, `site_energy.py:181-186`, of a new object; `absent` is the runtime `None`. -/
def Object.newRuntime (imp : Importer V Rt T) (absent : Rt) (o : Object σ V Rt T) : Py Rt :=
  match o.runtime, o.runtimeRef with
  | some r, _ => .ok r
  | none, none => .ok absent
  | none, some ref =>
    match imp.runtime ref with
    | .error e => .error e
    | .ok f => f o.runtimeKwargs

/-- `_resolve_compute_fn`, `site_energy.py:188-198`. -/
def Object.computeCallable (imp : Importer V Rt T) (o : Object σ V Rt T) :
    Option (Rt → List ExtVal → List OccupationChange → Event → State T → Py RawEnergy) :=
  match o.computeFn, o.computeRef with
  | some f, _ => some (f o.computeKwargs)
  | none, none => none
  | none, some ref => some fun rt ext cs e st =>
    match imp.compute ref with
    | .error x => .error x
    | .ok f => f o.computeKwargs rt ext cs e st

/-- `_resolve_apply_fn`, `site_energy.py:200-207`. -/
def Object.applyCallable (imp : Importer V Rt T) (o : Object σ V Rt T) :
    Option (Rt → List ExtVal → List OccupationChange → Event → State T → Py Unit × Rt) :=
  match o.applyFn, o.applyRef with
  | some f, _ => some (f o.applyKwargs)
  | none, none => none
  | none, some ref => some fun rt ext cs e st =>
    match imp.apply ref with
    | .error x => (.error x, rt)
    | .ok f => f o.applyKwargs rt ext cs e st

/-- The settings of the object as `Model/SiteEnergy` uses them. -/
def Object.settings (imp : Importer V Rt T) (absent : Rt) (o : Object σ V Rt T) : SiteEnergy Rt T where
  siteMapping := o.siteMapping
  stateMapping := o.stateMapping
  stateMappingBySite := o.stateMappingBySite
  initialOccupation := o.initialOccupation
  externalSize := o.externalSize
  fillValue := o.fillValue
  externalDtype := o.externalDtype
  units := o.units
  makeRuntime := o.newRuntime imp absent
  computeFn := o.computeCallable imp
  applyFn := o.applyCallable imp

/-- The state of a new object. -/
def Object.start (o : Object σ V Rt T) : SiteEnergyState Rt where
  order := o.order.map fun a => ⟨a.activeSiteCount, a.fingerprint⟩
  orderHash := o.orderHash

end SiteEnergyFile
end KMC
