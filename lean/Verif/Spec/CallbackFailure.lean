import Verif.Spec.Schedule
/-
Specification for C144: which properties have their turn at a sampling opportunity, when the
sampling goes on after a callback, and what is remembered of a callback's value.  Nothing here
refers to the sampling loop.
-/
namespace KMC.Spec

variable {T V Row : Type} [Sub T] [LE T]

/-- The opportunity `(step, t)` is one of a schedule: a positive multiple of the step interval,
or late enough after the time of the last sample. -/
def HasTurn (interval : Option Int) (timeInterval last : Option T) (step : Int) (t : T) : Prop :=
  (∃ k, interval = some k ∧ 0 < step ∧ k ∣ step) ∨
    ∃ τ, timeInterval = some τ ∧ Elapsed τ last t

/-- An attached property has its turn: it is enabled and its own intervals, or the tracker's
where it has none, say so. -/
def PropertyHasTurn (s : Sampler T V Row) (spec : PropertySpec T V) (step : Int) (t : T) : Prop :=
  spec.enabled = true ∧ HasTurn (firstGiven [spec.interval, s.globalInterval])
    (firstGiven [spec.timeInterval, s.globalTimeInterval]) spec.lastTriggerTime step t

/-- The callback returns a value, or there is an error handler and it answers "go on". -/
def GoesOn (spec : PropertySpec T V) (st : State T) (step : Int) (t : T) : Prop :=
  (∃ v, spec.callback st step t = .value v) ∨
    ∃ h, spec.onError = some h ∧ h st step t = some true

/-- The records of a property before and after its turn. -/
def TurnRecorded (spec : PropertySpec T V) (st : State T) (step : Int) (t : T)
    (old new : List (PropertyRecord T V)) : Prop :=
  (∀ v, spec.callback st step t = .value v → spec.store = true →
    new = keepLast spec.maxRecords (old ++ [⟨spec.name, step, t, v⟩])) ∧
  (spec.callback st step t = .raised ∨ spec.store = false → new = old)

end KMC.Spec
