import Verif.Model.Event
/-
Model of `kmcpy/simulator/state.py`.  Simulation time is an arbitrary type `T`
with an addition (so the statements cover floats, rationals and reals alike).
-/
namespace KMC

/-- `State`, `kmcpy/simulator/state.py:19-31`. -/
structure State (T : Type) where
  occ : List Int
  time : T
  step : Int
  deriving DecidableEq, Repr

namespace State
variable {T : Type}

/-- `apply_event`, `state.py:147-155`.  The right-hand side tuple is evaluated
before either assignment; the second component is the state left behind, also
when an exception propagates. -/
def applyEvent [Add T] (s : State T) (e : Event) (dt : T) : Py Unit × State T :=
  match unpack2 e.mobile with
  | .error x => (.error x, s)
  | .ok (f, t) =>
    match pyGet s.occ t with
    | .error x => (.error x, s)
    | .ok vt =>
      match pyGet s.occ f with
      | .error x => (.error x, s)
      | .ok vf =>
        match pySet s.occ f vt with
        | .error x => (.error x, s)
        | .ok occ1 =>
          match pySet occ1 t vf with
          | .error x => (.error x, { s with occ := occ1 })
          | .ok occ2 => (.ok (), { occ := occ2, time := s.time + dt, step := s.step + 1 })

/-- `from_occupations`, `state.py:33-45`. -/
def fromOccupations {σ φ : Type} (occ : List Int) (o : Option (ActiveSiteOrder σ φ))
    (time : T) (step : Int) : Py (State T) :=
  match o with
  | none => .ok ⟨occ, time, step⟩
  | some o =>
    match o.selectActiveValues occ with
    | .error e => .error e
    | .ok v => .ok ⟨v, time, step⟩

/-- `_initial_occupation_from_payload` with an active-site order,
`state.py:61-69`.  (The `select_sites` branch is `initialOccupationSelect`.) -/
def initialOccupationActive {σ φ : Type} (o : ActiveSiteOrder σ φ) (raw : List Int) :
    Py (List Int) :=
  if raw.length = o.activeSiteCount then .ok raw
  else o.selectActiveValues raw

/-- `occupation.reshape(site_nums, a, b, c)[select_sites].flatten("C")`,
`state.py:80-95`: the blocks of `size` consecutive entries selected by
`select_sites` (Python indexing on the first axis). -/
def selectBlocks (size nBlocks : Nat) (raw : List Int) : List Int → Py (List Int)
  | [] => .ok []
  | b :: bs =>
    match pyIdx nBlocks b with
    | none => .error .indexError
    | some k =>
      match selectBlocks size nBlocks raw bs with
      | .error e => .error e
      | .ok rest => .ok ((raw.drop (k * size)).take size ++ rest)

/-- `_initial_occupation_from_payload` without an active-site order,
`state.py:70-96`.  A zero supercell size makes `%` raise `ZeroDivisionError`. -/
def initialOccupationSelect (shape : Option (List Nat)) (select : Option (List Int))
    (raw : List Int) : Py (List Int) :=
  match select with
  | none => .error .valueError
  | some sel =>
    match shape with
    | none => .error .valueError
    | some [a, b, c] =>
      if a * b * c = 0 then .error .zeroDivisionError
      else if raw.length % (a * b * c) ≠ 0 then .error .valueError
      else selectBlocks (a * b * c) (raw.length / (a * b * c)) raw sel
    | some _ => .error .valueError

/-- The dictionary written by `as_dict`, `state.py:165-173` (class tags omitted). -/
structure Dict (T : Type) where
  occupations : List Int
  time : T
  step : Int
  deriving DecidableEq, Repr

/-- `as_dict`, `state.py:165-173`. -/
def asDict (s : State T) : Dict T := ⟨s.occ, s.time, s.step⟩

/-- `from_dict`, `state.py:175-182`. -/
def fromDict (d : Dict T) : State T := ⟨d.occupations, d.time, d.step⟩

/-- A parsed JSON state file, `state.py:122-145`: which of the keys
`occupations` / `occupation` / `time` / `step` it holds. -/
structure FilePayload (T : Type) where
  occupations : Option (List Int) := none
  occupation : Option (List Int) := none
  time : Option T := none
  step : Option Int := none
  deriving DecidableEq, Repr

/-- `save_checkpoint` to `.json`, `state.py:184-190`: the keys of `as_dict`. -/
def savePayload (s : State T) : FilePayload T :=
  { occupations := some s.occ, time := some s.time, step := some s.step }

/-- `from_file` for a `.json` payload, `state.py:122-145`, with the caller's
default `time` and `step`. -/
def fromPayload {σ φ : Type} (o : Option (ActiveSiteOrder σ φ)) (shape : Option (List Nat))
    (select : Option (List Int)) (time : T) (step : Int) (p : FilePayload T) : Py (State T) :=
  match p.occupations with
  | some occ => fromOccupations occ o (p.time.getD time) (p.step.getD step)
  | none =>
    match p.occupation with
    | some raw =>
      match o with
      | some o =>
        match initialOccupationActive o raw with
        | .error e => .error e
        | .ok v => .ok ⟨v, time, step⟩
      | none =>
        match initialOccupationSelect shape select raw with
        | .error e => .error e
        | .ok v => .ok ⟨v, time, step⟩
    | none => .error .valueError

/-- `load_checkpoint` for `.h5`, `state.py:213-225`: the stored datasets are
handed to `from_dict` with no check against an active-site order. -/
def fromH5 (d : Dict T) : State T := fromDict d

end State
end KMC
