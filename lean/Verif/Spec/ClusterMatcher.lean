import Mathlib.Algebra.BigOperators.Group.Finset.Basic
import Verif.Model.ClusterMatcher
/-
What it means for a list of candidate sites to be a relabelling of the reference.
-/
namespace KMC.Spec
open KMC Matcher
variable {L K : Type}

/-- `π` lists, for every reference site, a candidate site: each candidate site once, with the same
label. -/
structure Relabels (reference candidate : Cluster L K) (π : List Nat) : Prop where
  length : π.length = reference.labels.length
  nodup : π.Nodup
  label : ∀ (i c : Nat), π[i]? = some c →
    c < candidate.labels.length ∧ candidate.labels[c]? = reference.labels[i]?

/-- `π` keeps the distance of every two different sites, as far as `close` can tell. -/
def KeepsDistances (close : K → K → Bool) (reference candidate : Cluster L K) (π : List Nat) : Prop :=
  ∀ (i j c d : Nat), i ≠ j → π[i]? = some c → π[j]? = some d →
    close (reference.dist i j) (candidate.dist c d) = true

/-- The distance matrix is symmetric. -/
def SymmetricDistances (a : Cluster L K) : Prop := ∀ i j, a.dist i j = a.dist j i

/-- Both: a match. -/
def IsMatch (close : K → K → Bool) (reference candidate : Cluster L K) (π : List Nat) : Prop :=
  Relabels reference candidate π ∧ KeepsDistances close reference candidate π

/-- How far `π` is from keeping the distances: the sum of all deviations. -/
def totalDeviation [Field K] [LinearOrder K] (reference candidate : Cluster L K) (π : Nat → Nat) : K :=
  ∑ i ∈ Finset.range reference.labels.length, ∑ j ∈ Finset.range reference.labels.length,
    |reference.dist i j - candidate.dist (π i) (π j)|

/-- `candidate'` lists the sites of `candidate` in another order: its site `i` is site `σ i`. -/
structure Relisted (candidate candidate' : Cluster L K) (σ : List Nat) : Prop where
  order : σ.Perm (List.range candidate.labels.length)
  labels : ∀ (i c : Nat), σ[i]? = some c → candidate'.labels[i]? = candidate.labels[c]?
  labels_length : candidate'.labels.length = candidate.labels.length
  dist : ∀ (i j c d : Nat), σ[i]? = some c → σ[j]? = some d → candidate'.dist i j = candidate.dist c d
  siteIndices : ∀ (i c : Nat), σ[i]? = some c → candidate'.siteIndices[i]? = candidate.siteIndices[c]?

end KMC.Spec
