import Verif.Model.KMC
/-
Model of the property registration methods of `KMC` (`kmcpy/simulator/kmc.py:281-388`): each
call goes to the stored plan first and then, if a run created a tracker, to that tracker.
-/
namespace KMC

/-- The registration part of a `KMC` object, `kmc.py:160-165, 530`: the plan and the tracker
of the latest run (kept after the run ends). -/
structure Registry (T V Row : Type) where
  plan : PropertyPlan T V := {}
  active : Option (Sampler T V Row) := none

namespace Registry
variable {T V Row : Type}

/-- `KMC.set_property_frequency`, `kmc.py:281-303`. -/
def setFrequency [Zero T] [LE T] [DecidableLE T] (r : Registry T V Row)
    (interval : Option Int) (timeInterval : Option T) : Py Unit × Registry T V Row :=
  match r.plan.setFrequency interval timeInterval with
  | (.error e, p) => (.error e, { r with plan := p })
  | (.ok _, p) =>
    match r.active with
    | none => (.ok (), { r with plan := p })
    | some s =>
      match s.setGlobalFrequency interval timeInterval with
      | (res, s') => (res, ⟨p, some s'⟩)

/-- `KMC.attach`, `kmc.py:305-355`. -/
def attach [Zero T] [LE T] [DecidableLE T] (r : Registry T V Row) (a : AttachArgs T V) :
    Py String × Registry T V Row :=
  match r.plan.attach a with
  | (.error e, p) => (.error e, { r with plan := p })
  | (.ok n, p) =>
    match r.active with
    | none => (.ok n, { r with plan := p })
    | some s =>
      match s.attach { a with name := some n } with
      | (.error e, s') => (.error e, ⟨p, some s'⟩)
      | (.ok _, s') => (.ok n, ⟨p, some s'⟩)

/-- `KMC.detach`, `kmc.py:357-363`. -/
def detach (r : Registry T V Row) (name : String) : Py Unit × Registry T V Row :=
  match r.plan.detach name with
  | (.error e, p) => (.error e, { r with plan := p })
  | (.ok _, p) =>
    match r.active with
    | none => (.ok (), { r with plan := p })
    | some s =>
      match s.detach name with
      | (res, s') => (res, ⟨p, some s'⟩)

/-- `KMC.clear_attachments`, `kmc.py:365-370`. -/
def clearAttachments (r : Registry T V Row) : Registry T V Row :=
  ⟨r.plan.clearAttachments, r.active.map Sampler.clearAttachments⟩

/-- `KMC.set_property_enabled`, `kmc.py:382-388`. -/
def setPropertyEnabled (r : Registry T V Row) (name : String) (enabled : Bool) :
    Py Unit × Registry T V Row :=
  match r.plan.setPropertyEnabled name enabled with
  | (.error e, p) => (.error e, { r with plan := p })
  | (.ok _, p) =>
    match r.active with
    | none => (.ok (), { r with plan := p })
    | some s =>
      match s.setPropertyEnabled name enabled with
      | (res, s') => (res, ⟨p, some s'⟩)

/-- The tracker construction in `KMC.run`, `kmc.py:522-530` with `tracker.py:100-124`: a fresh
tracker gets the plan and becomes the active one; if that fails the old one stays. -/
def startRun [Zero T] [LE T] [DecidableLE T] (r : Registry T V Row) (len : Nat) :
    Py Unit × Registry T V Row :=
  match ({} : Sampler T V Row).applyPropertyPlan r.plan (some (max len 1 : Nat)) with
  | (.error e, _) => (.error e, r)
  | (.ok _, s) => (.ok (), { r with active := some s })

/-- One sampling of the active tracker, `kmc.py:543-546`. -/
def sample [Sub T] [LE T] [DecidableLE T] (r : Registry T V Row)
    (summary : List (String × Bool) → Row) (st : State T) : Py Unit × Registry T V Row :=
  match r.active with
  | none => (.ok (), r)
  | some s =>
    match s.sampleProperties summary st st.step st.time with
    | (res, s') => (res, { r with active := some s' })

end Registry

/-- The property entries of a runtime configuration, `config.py:205-303`
(`property_sampling_interval`, `property_sampling_time_interval`,
`builtin_property_enabled`, `property_callbacks`); a callback whose reference cannot be
resolved (`kmc.py:167-187`, imports are not modelled) is the exception that causes. -/
structure RuntimeProps (T V : Type) where
  interval : Option Int := none
  timeInterval : Option T := none
  builtin : List (String × Bool) := []
  callbacks : List (Py (AttachArgs T V)) := []

namespace Registry
variable {T V Row : Type}

/-- Loop `kmc.py:198-199`. -/
def enableAll : List (String × Bool) → Registry T V Row → Py Unit × Registry T V Row
  | [], r => (.ok (), r)
  | (n, b) :: rest, r =>
    match r.setPropertyEnabled n b with
    | (.error e, r') => (.error e, r')
    | (.ok _, r') => enableAll rest r'

/-- Loop `kmc.py:201-212`. -/
def attachAll [Zero T] [LE T] [DecidableLE T] :
    List (Py (AttachArgs T V)) → Registry T V Row → Py Unit × Registry T V Row
  | [], r => (.ok (), r)
  | .error e :: _, r => (.error e, r)
  | .ok a :: rest, r =>
    match r.attach a with
    | (.error e, r') => (.error e, r')
    | (.ok _, r') => attachAll rest r'

/-- `KMC._configure_properties_from_runtime_config`, `kmc.py:189-212`. -/
def configure [Zero T] [LE T] [DecidableLE T] (r : Registry T V Row) (c : RuntimeProps T V) :
    Py Unit × Registry T V Row :=
  let r1 :=
    if c.interval.isSome || c.timeInterval.isSome then r.setFrequency c.interval c.timeInterval
    else (.ok (), r)
  match r1 with
  | (.error e, r1) => (.error e, r1)
  | (.ok _, r1) =>
    match enableAll c.builtin r1 with
    | (.error e, r2) => (.error e, r2)
    | (.ok _, r2) => attachAll c.callbacks r2

end Registry
end KMC
