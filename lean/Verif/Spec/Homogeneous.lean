import Verif.Spec.Path
import Verif.Spec.HopSystem
import Verif.Spec.Progress
import Verif.Spec.Supercell
/-
Moving a configuration, and what it means that a set-up and a rate model know no absolute position.
-/
namespace KMC.Spec
open KMC

/-- The configuration `y` is the configuration `x` moved by `π`: what `x` holds at site `i`, `y` holds at site
`π i`. -/
structure Moved (π : Nat → Nat) (x y : List Int) : Prop where
  length : y.length = x.length
  inside : ∀ i, i < x.length → π i < x.length
  inj : ∀ i j, i < x.length → j < x.length → π i = π j → i = j
  value : ∀ i, i < x.length → y[π i]? = x[i]?

/-- `π` is a symmetry of a set-up with `n` sites: a permutation of the sites that takes every site to one that
allows the same species, and the list of events to the same list up to its order. -/
structure IsSymmetry {φ : Type} (o : ActiveSiteOrder String φ) (events : List Event) (n : Nat) (π : Nat → Nat) :
    Prop where
  inside : ∀ i, i < n → π i < n
  inj : ∀ i j, i < n → j < n → π i = π j → i = j
  allowed : ∀ i, i < n → allowedAt o (π i) = allowedAt o i
  events : (events.map (relabel π)).Perm events

/-- The model knows sites only by what they hold: an event has the rate in a state which the moved event has in
the moved state, however the sites are moved. -/
def KnowsNoPosition (m : RateModel Unit ℝ EReal) : Prop :=
  ∀ (π : Nat → Nat) (e : Event) (st st' : State EReal), IndicesFit st.occ.length [e] → Moved π st.occ st'.occ →
    m.computeProbability () (relabel π e) st' = m.computeProbability () e st

/-- A list of events and waiting times, moved by `π`. -/
def movedPath (π : Nat → Nat) (path : List (Event × ℝ)) : List (Event × ℝ) :=
  path.map fun x => (relabel π x.1, x.2)

end KMC.Spec
