import Mathlib.Algebra.Order.Field.Basic
import Mathlib.Algebra.BigOperators.Group.List.Basic
import Verif.Model.LCE
/-
Model of `ClusterMatcher` in `kmcpy/structure/cluster.py`.

A cluster is known by its labels (species and role of every site), its distance matrix and its
site indices.  Distances are elements of an ordered field; labels are an arbitrary linear order.
-/
namespace KMC
namespace Matcher
variable {L K R : Type}

/-- The parts of a `Cluster` used for matching, `cluster.py:180-308`. -/
structure Cluster (L K : Type) where
  labels : List L
  dist : Nat → Nat → K
  siteIndices : List Int

/-- Loop `cluster.py:313-315`: count every label. -/
def countLabels [DecidableEq L] : List L → List (L × Nat) → List (L × Nat)
  | [], d => d
  | l :: ls, d => countLabels ls (dictSet d l ((dictGet d l).getD 0 + 1))

/-- `signature`, `cluster.py:310-316`: label counts sorted by label. -/
def signature [LinearOrder L] (labels : List L) : List (L × Nat) :=
  (countLabels labels []).mergeSort fun a b => a.1 ≤ b.1

/-- `candidate_by_label[label]`, `cluster.py:504-506`: the indices with that label, in increasing
order. -/
def withLabel [DecidableEq L] (labels : List L) (l : L) : List Nat :=
  (List.range labels.length).filter fun i => decide (labels[i]? = some l)

/-- `np.isclose(a, b, rtol, atol)`. -/
def isclose [Field K] [LinearOrder K] (rtol atol a b : K) : Bool :=
  decide (|a - b| ≤ atol + rtol * |b|)

/-- `_reference_assignment_order`, `cluster.py:541-553`; `row i` stands for the sorted and rounded
distances of site `i`. -/
def assignmentOrder [LinearOrder R] [DecidableEq L] (row : Nat → R) (reference candidate : Cluster L K) :
    List Nat :=
  let count := fun i => (reference.labels[i]?.map fun l => (withLabel candidate.labels l).length).getD 0
  (List.range reference.labels.length).mergeSort fun i j =>
    decide (count i < count j ∨ (count i = count j ∧ (row i < row j ∨ (row i = row j ∧ i ≤ j))))

/-- `_is_partial_distance_match`, `cluster.py:555-572`, from position `j` on. -/
def partialMatchFrom (close : K → K → Bool) (reference candidate : Cluster L K) (r c : Nat) :
    Nat → List (Option Nat) → Bool
  | _, [] => true
  | j, none :: rest => partialMatchFrom close reference candidate r c (j + 1) rest
  | j, some d :: rest =>
    if close (reference.dist r j) (candidate.dist c d) then
      partialMatchFrom close reference candidate r c (j + 1) rest
    else false

/-- `candidate_by_label[self.reference.labels[ref_index]]`, `cluster.py:520-522`: the candidates for
reference site `r`. -/
def candidatesFor [DecidableEq L] (reference candidate : Cluster L K) (r : Nat) : List Nat :=
  match reference.labels[r]? with
  | some l => withLabel candidate.labels l
  | none => []

/-- `backtrack`, `cluster.py:513-536`: `order` lists the reference sites still to assign, `r2c` and
`used` the assignment so far, `found` the matches so far. -/
def backtrack [DecidableEq L] (close : K → K → Bool) (reference candidate : Cluster L K)
    (stopAfter : Option Nat) : List Nat → List (Option Nat) → List Nat → List (List Nat) →
    List (List Nat)
  | order, r2c, used, found =>
    if (match stopAfter with | some k => decide (k ≤ found.length) | none => false) then found
    else
      match order with
      | [] => found ++ [r2c.map (·.getD 0)]
      | r :: rest =>
        (candidatesFor reference candidate r).foldl (fun found c =>
            if used.contains c then found
            else if !partialMatchFrom close reference candidate r c 0 r2c then found
            else backtrack close reference candidate stopAfter rest (r2c.set r (some c)) (c :: used) found)
          found

/-- `_matching_permutations`, `cluster.py:498-539`. -/
def matchingPermutations [LinearOrder R] [DecidableEq L] (row : Nat → R) (close : K → K → Bool)
    (reference candidate : Cluster L K) (stopAfter : Option Nat) : List (List Nat) :=
  backtrack close reference candidate stopAfter (assignmentOrder row reference candidate)
    (List.replicate reference.labels.length none) [] []

/-- `itertools.permutations(l)`: `n` is the number of elements still to choose. -/
def permutationsN {α : Type} : Nat → List α → List (List α)
  | 0, _ => [[]]
  | n + 1, l =>
    (List.range l.length).flatMap fun i =>
      match l[i]? with
      | some a => (permutationsN n (l.eraseIdx i)).map (a :: ·)
      | none => []

/-- `sorted(candidate_by_label)`, `cluster.py:583`. -/
def sortedLabels [LinearOrder L] (labels : List L) : List L :=
  (dictKeys (countLabels labels [])).mergeSort fun a b => a ≤ b

/-- Loops `cluster.py:598-606`: write the chosen candidates of every group. -/
def writeGroups : List (List Nat × List Nat) → List Nat → List Nat
  | [], r2c => r2c
  | (refs, cands) :: rest, r2c =>
    writeGroups rest ((refs.zip cands).foldl (fun r2c p => r2c.set p.1 p.2) r2c)

/-- The score `cluster.py:607-616`. -/
def score [Field K] [LinearOrder K] (reference candidate : Cluster L K) (r2c : List Nat) : K :=
  ((List.range reference.labels.length).map fun i =>
    ((List.range reference.labels.length).map fun j =>
      |reference.dist i j - candidate.dist (r2c[i]?.getD 0) (r2c[j]?.getD 0)|).sum).sum

/-- Loop `cluster.py:594-619`: the first assignment with the smallest score. -/
def bestOf [LinearOrder K] (f : List Nat → K) : List (List Nat) → Option (List Nat × K) →
    Option (List Nat × K)
  | [], best => best
  | r :: rs, best =>
    match best with
    | none => bestOf f rs (some (r, f r))
    | some (b, s) => bestOf f rs (if f r < s then some (r, f r) else some (b, s))

/-- `_nearest_permutation`, `cluster.py:574-623`. -/
def nearestPermutation [Field K] [LinearOrder K] [LinearOrder L] (reference candidate : Cluster L K) :
    Py (List Nat × K) :=
  let labels := sortedLabels candidate.labels
  let refs := labels.map fun l => withLabel reference.labels l
  let perms := labels.map fun l =>
    permutationsN (withLabel candidate.labels l).length (withLabel candidate.labels l)
  let assignments := (productLists perms).map fun choice =>
    writeGroups (refs.zip choice) (List.replicate reference.labels.length 0)
  match bestOf (score reference candidate) assignments none with
  | some r => .ok r
  | none => .error .valueError

/-- `ClusterMatch`, `cluster.py:429-438` (the fingerprint is left out). -/
structure Match (K : Type) where
  referenceToCandidate : List Nat
  candidateToReference : List Int
  orderedCandidateIndices : List Int
  isUnique : Bool
  score : K
  deriving DecidableEq

/-- Loop `cluster.py:634-635` from reference index `i` on. -/
def invert : Nat → List Nat → List Int → List Int
  | _, [], acc => acc
  | i, c :: cs, acc => invert (i + 1) cs (acc.set c (i : Int))

/-- `_build_match`, `cluster.py:625-660` (the reordered cluster is only used for its
fingerprint). -/
def buildMatch (candidate : Cluster L K) (r2c : List Nat) (unique : Bool) (score : K) : Match K where
  referenceToCandidate := r2c
  candidateToReference := invert 0 r2c (List.replicate r2c.length (-1))
  orderedCandidateIndices := r2c.map fun c => (candidate.siteIndices[c]?).getD 0
  isUnique := unique
  score := score

/-- `match`, `cluster.py:454-475`. -/
def matchClusters [Field K] [LinearOrder K] [LinearOrder L] [LinearOrder R] (row : Nat → R)
    (rtol atol : K) (reference candidate : Cluster L K) (requireUnique nearest : Bool) : Py (Match K) :=
  if signature reference.labels ≠ signature candidate.labels then .error .valueError
  else
    match matchingPermutations row (isclose rtol atol) reference candidate (some 2) with
    | p :: ps =>
      if requireUnique && !(ps.isEmpty) then .error .valueError
      else .ok (buildMatch candidate p ps.isEmpty 0)
    | [] =>
      if nearest then
        match nearestPermutation reference candidate with
        | .error e => .error e
        | .ok (p, s) => .ok (buildMatch candidate p true s)
      else .error .valueError

/-- `Cluster.__eq__`, `cluster.py:375-384`, with the default tolerances. -/
def clusterEqual [Field K] [LinearOrder K] [LinearOrder L] [LinearOrder R] (row : Nat → R)
    (a b : Cluster L K) : Bool :=
  if a.siteIndices.length ≠ b.siteIndices.length then false
  else
    match matchClusters row (1 / 1000) (1 / 1000) a b false false with
    | .ok _ => true
    | .error _ => false

end Matcher
end KMC
