import Verif.Model.ActiveSiteOrder
/-
Model of `kmcpy/event/base.py`: `Event`, the dependency matrix and `EventLib`.
-/
namespace KMC

/-- Hop-state codes attached to an event by `HopStateLookup.annotate_event`
(`kmcpy/event/hop.py:54-62`): mobile state of the from-site, vacancy state of the
to-site, vacancy state of the from-site, mobile state of the to-site. -/
structure HopCodes where
  mobFrom : Int
  vacTo : Int
  vacFrom : Int
  mobTo : Int
  deriving DecidableEq, Repr

/-- `Event`, `kmcpy/event/base.py:21-36`, plus the optional attribute
`hop_state_codes` set later by `annotate_event`. -/
structure Event where
  mobile : List Int
  env : List Int
  codes : Option HopCodes := none
  deriving DecidableEq, Repr

/-- Dataclass equality of events, `kmcpy/event/base.py:21`: only the two declared
fields are compared; the `hop_state_codes` attribute is not. -/
def Event.pyEq (a b : Event) : Bool := a.mobile == b.mobile && a.env == b.env

/-- All sites an event mentions: `sites_involved`, `base.py:174-180` and
`base.py:247-253`. -/
def Event.sites (e : Event) : List Int := e.mobile ++ e.env

/-- `_arrays_intersect`, `kmcpy/event/base.py:116-141`: the two-pointer loop; the
arguments are the unread suffixes `arr1[i:]`, `arr2[j:]`. -/
def arraysIntersect : List Int → List Int → Bool
  | [], _ => false
  | _ :: _, [] => false
  | a :: as, b :: bs =>
    if a = b then true
    else if a < b then arraysIntersect as (b :: bs)
    else arraysIntersect (a :: as) bs
termination_by l1 l2 => l1.length + l2.length

/-- `sites_array.sort()`, `base.py:95` (numpy in-place ascending sort). -/
def npSort (l : List Int) : List Int := l.mergeSort (fun a b => decide (a ≤ b))

/-- `_generate_event_dependency_matrix`, `kmcpy/event/base.py:71-113`. -/
def generateEventDependencyMatrix (siteLists : List (List Int)) : List (List Int) :=
  let sorted := siteLists.map npSort
  sorted.map fun si =>
    (sorted.zipIdx.filter fun p => arraysIntersect si p.1).map fun p => (p.2 : Int)

/-- `EventLib`, `kmcpy/event/base.py:160-164`. -/
structure EventLib (σ φ : Type) where
  events : List Event := []
  deps : Option (List (List Int)) := none
  siteToEvents : List (Int × List Nat) := []
  meta? : Option (ActiveSiteOrder.Dict σ φ) := none

namespace EventLib
variable {σ φ : Type}

/-- Loop body `base.py:182-185`. -/
def recordSite (idx : Nat) (d : List (Int × List Nat)) (site : Int) : List (Int × List Nat) :=
  match dictGet d site with
  | none => dictSet d site [idx]
  | some l => dictSet d site (l ++ [idx])

/-- `add_event`, `kmcpy/event/base.py:166-185`.  Stored dependencies are left
alone. -/
def addEvent (lib : EventLib σ φ) (e : Event) : EventLib σ φ :=
  { lib with
    events := lib.events ++ [e]
    siteToEvents := e.sites.foldl (recordSite lib.events.length) lib.siteToEvents }

/-- `_validate_event_indices`, `base.py:202-211`. -/
def validateEventIndices (o : ActiveSiteOrder σ φ) : List Event → Py Unit
  | [] => .ok ()
  | e :: es =>
    match o.validateActiveIndices e.mobile with
    | .error x => .error x
    | .ok _ =>
      match o.validateActiveIndices e.env with
      | .error x => .error x
      | .ok _ => validateEventIndices o es

/-- `validate_index_metadata`, `base.py:192-200`. -/
def validateIndexMetadata [DecidableEq φ] (lib : EventLib σ φ) (o : ActiveSiteOrder σ φ) :
    Py Unit :=
  match lib.meta? with
  | none => .error .valueError
  | some d =>
    match o.assertSameOrder d with
    | .error e => .error e
    | .ok _ => validateEventIndices o lib.events

/-- `set_index_metadata`, `base.py:187-190`: the metadata is stored before the
indices are validated, so it stays stored when validation raises. -/
def setIndexMetadata (lib : EventLib σ φ) (o : ActiveSiteOrder σ φ) : Py Unit × EventLib σ φ :=
  let lib' := { lib with meta? := some o.asDict }
  (validateEventIndices o lib'.events, lib')

/-- `generate_event_dependencies`, `base.py:225-260`. -/
def generateEventDependencies (lib : EventLib σ φ) : EventLib σ φ :=
  { lib with deps := some (generateEventDependencyMatrix (lib.events.map Event.sites)) }

/-- `get_dependent_events`, `base.py:262-280` for a non-negative index. -/
def getDependentEvents (lib : EventLib σ φ) (i : Nat) : List Int :=
  match lib.deps with
  | none => []
  | some d =>
    match d[i]? with
    | none => []
    | some row => row

/-- `get_events_involving_site`, `base.py:389-399`. -/
def getEventsInvolvingSite (lib : EventLib σ φ) (s : Int) : List Nat :=
  match dictGet lib.siteToEvents s with
  | none => []
  | some l => l

/-- `clear_event_dependencies`, `base.py:368-371`. -/
def clearEventDependencies (lib : EventLib σ φ) : EventLib σ φ := { lib with deps := none }

/-- The dictionary written by `as_dict`, `base.py:282-294`.  Event entries are the
`Event.as_dict` pairs (`base.py:47-52`); the keys of `site_to_events` are the
decimal strings `str(k)`. -/
structure Dict (σ φ : Type) where
  events : List (List Int × List Int)
  eventDependencies : Option (List (List Int))
  siteToEvents : List (String × List Nat)
  indexMetadata : Option (ActiveSiteOrder.Dict σ φ)

/-- `as_dict`, `base.py:282-294`. -/
def asDict (lib : EventLib σ φ) : Dict σ φ :=
  { events := lib.events.map fun e => (e.mobile, e.env)
    eventDependencies := lib.deps
    siteToEvents := lib.siteToEvents.map fun kv => (toString kv.1, kv.2)
    indexMetadata := lib.meta? }

/-- `{int(k): v for k, v in ...}`, `base.py:336-337`. -/
def readSiteKeys : List (String × List Nat) → List (Int × List Nat) → Py (List (Int × List Nat))
  | [], acc => .ok acc
  | (k, v) :: rest, acc =>
    match k.toInt? with
    | none => .error .valueError
    | some i => readSiteKeys rest (dictSet acc i v)

/-- `from_dict`, `base.py:305-339`.  An empty dependency table is falsy and is
treated like a missing one (`base.py:327`). -/
def fromDict (d : Dict σ φ) : Py (EventLib σ φ) :=
  match d.indexMetadata with
  | none => .error .valueError
  | some m =>
    match ActiveSiteOrder.fromDict m with
    | .error e => .error e
    | .ok o =>
      let events := d.events.map fun p => ({ mobile := p.1, env := p.2 } : Event)
      match validateEventIndices o events with
      | .error e => .error e
      | .ok _ =>
        let deps := match d.eventDependencies with
          | none => none
          | some [] => none
          | some rows => some rows
        match readSiteKeys d.siteToEvents [] with
        | .error e => .error e
        | .ok s => .ok { events := events, deps := deps, siteToEvents := s, meta? := some m }

/-- `from_file` after parsing a dictionary payload, `base.py:342-366`:
dependencies are regenerated when the file carried none. -/
def fromFilePayload (d : Dict σ φ) : Py (EventLib σ φ) :=
  match fromDict d with
  | .error e => .error e
  | .ok lib =>
    match lib.deps with
    | some _ => .ok lib
    | none => .ok lib.generateEventDependencies

end EventLib
end KMC
