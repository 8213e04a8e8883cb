import Verif.Model.ClusterShape
/-
What it means for clusters of local sites to have the same shape.  Sites are numbers into the list of
sites (species and position) of a local environment.
-/
namespace KMC.Spec
variable {P D : Type}

/-- The species of a site. -/
def siteSpecies (sites : List (String × P)) (s : Nat) : Option String := sites[s]?.map Prod.fst

/-- The distance of two sites. -/
def distanceOf (dist : P → P → D) (sites : List (String × P)) (s t : Nat) : Option D :=
  match sites[s]?, sites[t]? with
  | some a, some b => some (dist a.2 b.2)
  | _, _ => none

/-- What is used of distances. -/
structure Metric [Zero D] [LE D] (dist : P → P → D) : Prop where
  symm : ∀ p q, dist p q = dist q p
  self : ∀ p, dist p p = 0
  nonneg : ∀ p q, 0 ≤ dist p q

/-- Two clusters have the same shape: `f` takes the sites of the first to the sites of the second, keeping
species and distances. -/
def Congruent (dist : P → P → D) (sites : List (String × P)) (a b : List Nat) : Prop :=
  ∃ f : Nat → Nat, (a.map f).Perm b ∧ (∀ s ∈ a, siteSpecies sites (f s) = siteSpecies sites s) ∧
    ∀ s ∈ a, ∀ t ∈ a, distanceOf dist sites (f s) (f t) = distanceOf dist sites s t

/-- The difference of distances that is ignored: `x` passes for `y`. -/
def PassesFor [Field D] [LinearOrder D] (x y : D) : Prop := |x - y| ≤ 1 / 1000 + 1 / 1000 * |y|

/-- The second cluster passes for the first: as in `Congruent`, up to the ignored difference. -/
def NearlyCongruent [Field D] [LinearOrder D] (dist : P → P → D) (sites : List (String × P))
    (a b : List Nat) : Prop :=
  ∃ f : Nat → Nat, (a.map f).Perm b ∧ (∀ s ∈ a, siteSpecies sites (f s) = siteSpecies sites s) ∧
    ∀ s ∈ a, ∀ t ∈ a, s ≠ t → ∃ x y, distanceOf dist sites s t = some x ∧
      distanceOf dist sites (f s) (f t) = some y ∧ PassesFor x y

/-- Distances in the environment are equal or differ by more than what is ignored. -/
def SeparatedDistances [Field D] [LinearOrder D] (dist : P → P → D) (sites : List (String × P)) : Prop :=
  ∀ s t u v x y, s ≠ t → u ≠ v → distanceOf dist sites s t = some x → distanceOf dist sites u v = some y →
    PassesFor x y → x = y

/-- `π` is a symmetry of the environment: it permutes the sites and keeps species and distances. -/
structure EnvironmentSymmetry (dist : P → P → D) (sites : List (String × P)) (π : Nat → Nat) : Prop where
  maps : ∀ s, s < sites.length → π s < sites.length
  inj : ∀ s t, s < sites.length → t < sites.length → π s = π t → s = t
  species : ∀ s, s < sites.length → siteSpecies sites (π s) = siteSpecies sites s
  distance : ∀ s t, s < sites.length → t < sites.length →
    distanceOf dist sites (π s) (π t) = distanceOf dist sites s t

/-- Two environments have the same species and the same distances, site by site (for example a rotated
or mirrored copy). -/
structure SameShape (dist : P → P → D) (sites sites' : List (String × P)) : Prop where
  length : sites.length = sites'.length
  species : ∀ s, siteSpecies sites s = siteSpecies sites' s
  distance : ∀ s t, distanceOf dist sites s t = distanceOf dist sites' s t

/-- Clusters of different local sites in increasing order. -/
def IsCluster (n : Nat) (c : List Nat) : Prop := c.Pairwise (· < ·) ∧ ∀ s ∈ c, s < n

end KMC.Spec
