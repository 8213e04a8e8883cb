import Mathlib.Algebra.BigOperators.Group.List.Basic
import Verif.Model.LCE
import Mathlib.Data.List.Sort
/-
What a local cluster expansion is supposed to compute, written as sums and products.
-/
namespace KMC.Spec
open KMC

variable {K : Type} [CommRing K]

/-- Correlation of one term for the local occupations `x` (occupation of each local site): sum
over its clusters of the product of the occupations of the cluster's sites. -/
def plainTerm (x : Int → Int) (clusters : List (List Int)) : K :=
  (clusters.map fun c => (c.map fun s => (x s : K)).prod).sum

/-- Correlation of one decorated term: `φ s a b` is the value of basis function `b` on site `s`
in state `a`; every cluster carries one basis-function index per site. -/
def decoratedTerm (φ : Int → Int → Int → K) (x : Int → Int) (clusters decorations : List (List Int)) :
    K :=
  ((clusters.zip decorations).map fun cd =>
    ((cd.1.zip cd.2).map fun sb => φ sb.1 (x sb.1) sb.2).prod).sum

/-- The fitted value: constant plus coefficients times correlations. -/
def expansion (e0 : K) (keci terms : List K) : K :=
  e0 + ((keci.zip terms).map fun kt => kt.1 * kt.2).sum

/-- `x` gives the occupation of every site of the event's local environment, numbered by its
position in the event's list. -/
def LocalOccupations (occ : List Int) (env : List Int) (x : Int → Int) : Prop :=
  ∀ s i, pyGet env s = .ok i → pyGet occ i = .ok (x s)

/-- The two occupation vectors agree on the given sites. -/
def AgreeOn (sites : List Int) (occ occ' : List Int) : Prop :=
  ∀ i ∈ sites, pyGet occ i = pyGet occ' i

end KMC.Spec

namespace KMC.Spec
open KMC LCE

/-- The value of basis function `f` on local site `s` in state `a`, straight from the basis
(no padded table). -/
def siteFunction {K : Type} [Zero K] (b : SiteBasis K) (counts : List Nat) (s a f : Int) : K :=
  (((b.siteBasisValues (counts[s.toNat]?.getD 0))[a.toNat]?.getD [])[f.toNat]?).getD 0

/-- A basis gives, for a site with `n` states, `n` rows of as many values as it has basis
functions. -/
structure BasisShape {K : Type} (b : SiteBasis K) : Prop where
  rows : ∀ n, (b.siteBasisValues n).length = n
  columns : ∀ n, ∀ row ∈ b.siteBasisValues n, row.length = b.numSiteBasisFunctions n

/-- The image of a cluster (an increasing list of site numbers) under a relabelling of the
local sites, again in increasing order. -/
def imageCluster (π : Nat → Nat) (c : List Nat) : List Nat := (c.map π).insertionSort (· ≤ ·)

end KMC.Spec
