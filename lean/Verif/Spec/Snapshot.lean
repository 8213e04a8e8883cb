import Verif.Spec.LocalBarrier
/-
Known barriers of events in known configurations.
-/
namespace KMC.Spec
open KMC KMC.LocalBarrier

/-- An event seen in a configuration, with what is known about it. -/
structure Snapshot where
  event : Event
  occ : List Int
  props : Properties
  name : Option String

/-- The event has two end points, all its sites exist, all states are natural numbers, and at least one
property with a proper name is known. -/
structure Snapshot.Sound (s : Snapshot) : Prop where
  ends : 2 ≤ s.event.mobile.length
  sites : ∀ i ∈ s.event.mobile ++ s.event.env, ∃ v, Carries s.occ i v
  states : ∀ v ∈ s.occ, (0 : Int) ≤ v
  known : s.props ≠ []
  named : ∀ q ∈ s.props, notBlank q.1 = true
  name : s.name ≠ some ""

/-- The event `e` in the configuration `occ` is the situation of the snapshot: same end points, same
surroundings, same states on all of them. -/
def Snapshot.Shows (s : Snapshot) (e : Event) (occ : List Int) : Prop :=
  e.mobile = s.event.mobile ∧ e.env = s.event.env ∧
    ∀ i ∈ s.event.mobile ++ s.event.env, ∀ v, Carries s.occ i v → Carries occ i v

/-- Two snapshots of the same end points, the same distinct sites and the same states. -/
def Snapshot.Clash (s t : Snapshot) : Prop :=
  s.event.mobile = t.event.mobile ∧
  (s.event.mobile ++ s.event.env).eraseDups = (t.event.mobile ++ t.event.env).eraseDups ∧
  ∀ i ∈ s.event.mobile ++ s.event.env, ∀ v, Carries s.occ i v → Carries t.occ i v

end KMC.Spec
