import Verif.Model.KMC
/-
What a history of a simulation is: a list of proposed events with their waiting times,
each proposed from the current tables with the next pair of random numbers and then
executed.
-/
namespace KMC.Spec
open KMC

variable {σ φ M R T U : Type}

/-- `Steps advance c s h s'`: starting from `s` with draw number `c`, the proposals and
waiting times `h` were executed one after the other without error and led to `s'`.
With `advance = false` (equilibration) the waiting times are discarded. -/
inductive Steps [Add T] [Zero T] (k : Kernel R T U) (m : RateModel M R T) (rng : Nat → U × U)
    (advance : Bool) : Nat → Sim σ φ M R T → List (Event × T) → Sim σ φ M R T → Prop
  | nil (c : Nat) (s : Sim σ φ M R T) : Steps k m rng advance c s [] s
  | cons {c : Nat} {s s1 s2 : Sim σ φ M R T} {e : Event} {dt : T} {h : List (Event × T)} :
      s.propose k (rng c).1 (rng c).2 = .ok (e, dt) →
      s.update k m e (if advance then dt else 0) = (.ok (), s1) →
      Steps k m rng advance (c + 1) s1 h s2 →
      Steps k m rng advance c s ((e, dt) :: h) s2

/-- `Executed s h s'`: the events of `h` were executed with the given time increments
through `KMC.update`, in order and without error, from `s` to `s'` (whoever chose them). -/
inductive Executed [Add T] (k : Kernel R T U) (m : RateModel M R T) :
    Sim σ φ M R T → List (Event × T) → Sim σ φ M R T → Prop
  | nil (s : Sim σ φ M R T) : Executed k m s [] s
  | cons {s s1 s2 : Sim σ φ M R T} {e : Event} {dt : T} {h : List (Event × T)} :
      s.update k m e dt = (.ok (), s1) → Executed k m s1 h s2 → Executed k m s ((e, dt) :: h) s2

/-- The rate table of `s` is the table computed from scratch for its current state: one
entry per event, each the model's rate of that event in the current state, and the
cumulative table is computed from it. -/
structure TableFresh (k : Kernel R T U) (m : RateModel M R T) (s : Sim σ φ M R T) : Prop where
  length : s.prob.length = s.lib.events.length
  fresh : ∀ (i : Nat) e, s.lib.events[i]? = some e →
    ∃ p, s.prob[i]? = some p ∧ m.computeProbability s.ms e s.st = .ok p
  cum : s.cum = k.cumsum s.prob

/-- A rate model that keeps no state of its own and computes the rate of an event only
from the occupations of the sites the event lists. -/
structure LocalModel (m : RateModel Unit R T) : Prop where
  local_rate : ∀ (e : Event) (s s' : State T), s.occ.length = s'.occ.length →
    (∀ i ∈ e.mobile ++ e.env, pyGet s.occ i = pyGet s'.occ i) →
    m.computeProbability () e s = m.computeProbability () e s'

/-- `TrackedSteps c s t h s' t'`: production steps with tracker.  Starting from simulation
`s` and trajectory arrays `t` with draw number `c`, each step proposes an event, updates the
tracker on the state before the event and then executes it.  `h` lists the occupations before
each event, and the event. -/
inductive TrackedSteps {K : Type} [Field K] [LinearOrder K] [FloorRing K] [Add T]
    (k : Kernel R T U) (m : RateModel M R T) (g : Geometry K) (rng : Nat → U × U) :
    Nat → Sim σ φ M R T → Trajectory K → List (List Int × Event) → Sim σ φ M R T → Trajectory K →
      Prop
  | nil (c : Nat) (s : Sim σ φ M R T) (t : Trajectory K) : TrackedSteps k m g rng c s t [] s t
  | cons {c : Nat} {s s1 s2 : Sim σ φ M R T} {t t1 t2 : Trajectory K} {e : Event} {dt : T}
      {h : List (List Int × Event)} :
      s.propose k (rng c).1 (rng c).2 = .ok (e, dt) →
      t.update g s.st.occ e = (.ok (), t1) →
      s.update k m e dt = (.ok (), s1) →
      TrackedSteps k m g rng (c + 1) s1 t1 h s2 t2 →
      TrackedSteps k m g rng c s t ((s.st.occ, e) :: h) s2 t2

/-- All event indices are valid site numbers of an occupation vector with `n` entries. -/
def IndicesFit (n : Nat) (events : List Event) : Prop :=
  ∀ e ∈ events, ∀ i ∈ e.mobile ++ e.env, 0 ≤ i ∧ i < (n : Int)

end KMC.Spec
