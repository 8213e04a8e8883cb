import Verif.Model.ClusterMatcher
import Verif.Model.Value
/-
Model of the identity of a cluster in `kmcpy/structure/cluster.py`: its fingerprint, the fingerprint a match
returns, and what saving does to the data kept beside the sites.
-/
namespace KMC
namespace Matcher
variable {L K R : Type}

/-- `Cluster.fingerprint`, `cluster.py:318-326`.  `round` is rounding to eight decimals and `digest` the JSON text
and its SHA-256. -/
def fingerprint (round : K → K) (digest : List L → List (List K) → String) (c : Cluster L K) : String :=
  digest c.labels ((List.range c.labels.length).map fun i =>
    (List.range c.labels.length).map fun j => round (c.dist i j))

/-- The reordered candidate, `cluster.py:637-652`.  The entries of the correspondence are sites of the candidate
(C49), so that no index error is represented. -/
def reordered (candidate : Cluster L K) (r2c : List Nat) : Cluster L K where
  labels := r2c.filterMap fun c => candidate.labels[c]?
  dist := fun i j => candidate.dist (r2c[i]?.getD 0) (r2c[j]?.getD 0)
  siteIndices := r2c.map fun c => (candidate.siteIndices[c]?).getD 0

/-- `match_clusters(...).fingerprint`, `cluster.py:653-678`: the fingerprint of the reordered candidate. -/
def matchFingerprint [Field K] [LinearOrder K] [LinearOrder L] [LinearOrder R] (row : Nat → R) (round : K → K)
    (digest : List L → List (List K) → String) (rtol atol : K) (reference candidate : Cluster L K)
    (requireUnique nearest : Bool) : Py String :=
  match matchClusters row rtol atol reference candidate requireUnique nearest with
  | .error e => .error e
  | .ok m => .ok (fingerprint round digest (reordered candidate m.referenceToCandidate))

/-- `ordered_candidate_indices`, `cluster.py:477-489`. -/
def orderedIndices [Field K] [LinearOrder K] [LinearOrder L] [LinearOrder R] (row : Nat → R) (rtol atol : K)
    (reference candidate : Cluster L K) (requireUnique nearest : Bool) : Py (List Int) :=
  match matchClusters row rtol atol reference candidate requireUnique nearest with
  | .error e => .error e
  | .ok m => .ok m.orderedCandidateIndices

end Matcher

namespace ClusterData

/-- A value of the data kept for a site: a NumPy array (as nested lists), an object with `as_dict` (the result
of it), a plain Python value, or anything else (its text). -/
inductive Item where
  | array (entries : List PyVal)
  | object (dictionary : PyVal)
  | plain (v : PyVal)
  | other (text : String)

/-- One pass of the loop in `_json_safe_metadata`, `cluster.py:64-73`; `str` is Python's `str`. -/
def safeValue (str : PyVal → String) : Item → PyVal
  | .array entries => .list entries
  | .plain (.tuple l) => .list l
  | .object d => d
  | .plain .none => .none
  | .plain (.bool b) => .bool b
  | .plain (.int n) => .int n
  | .plain (.float f) => .float f
  | .plain (.str s) => .str s
  | .plain (.list l) => .str (str (.list l))
  | .plain (.dict d) => .str (str (.dict d))
  | .other text => .str text

/-- `_json_safe_metadata`, `cluster.py:59-74`. -/
def safeMetadata (str : PyVal → String) : List (String × Item) → List (String × PyVal)
  | [] => []
  | (key, value) :: rest =>
    if key = "site" then safeMetadata str rest
    else (key, safeValue str value) :: safeMetadata str rest

/-- Writing the dictionary to a JSON file and `Cluster.from_dict`, `cluster.py:411-421`: the values come back as
plain values, tuples as lists. -/
def loadMetadata (saved : List (String × PyVal)) : List (String × Item) :=
  saved.map fun kv => (kv.1, .plain kv.2.json)

end ClusterData
end KMC
