import Verif.Model.Basis
import Verif.Spec.LCE
/-
What it means for a cluster expansion to determine, or to reproduce, a table of values.
-/
namespace KMC.Spec
open KMC LCE

/-- How many values the occupation of a site with `n` species takes: 0 and 1 in the occupation basis, the
numbers `0 … n-1` in the Chebyshev basis. -/
def stateCount : Basis → Nat → Nat
  | .occupation, _ => 2
  | .chebyshev _, n => n

/-- Every local site of the event is in one of its states. -/
def PossibleOccupations (b : Basis) (counts : List Nat) (occ env : List Int) : Prop :=
  env.length = counts.length ∧ ∀ (s : Nat) (i : Int) (n : Nat), env[s]? = some i → counts[s]? = some n →
    ∃ v, pyGet occ i = .ok v ∧ 0 ≤ v ∧ v < stateCount b n

/-- A group of local sites in increasing order, at least one. -/
def SiteGroup (n : Nat) (c : List Nat) : Prop := c.Pairwise (· < ·) ∧ (∀ s ∈ c, s < n) ∧ c ≠ []

/-- The states of the local sites, in order, when site `s` is in state `x s`. -/
def localStates (n : Nat) (x : Int → Int) : List Int := (List.range n).map fun s : Nat => x s

end KMC.Spec
