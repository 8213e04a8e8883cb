import Verif.Model.FitTable
/-
What a table of fitting results should contain.
-/
namespace KMC
namespace Spec
open Parameters FitTable

/-- What is assumed of pandas: writing what was read from a written column writes the same values again, and
an absent value stays absent. -/
structure Faithful (pd : Pandas) : Prop where
  rewrite : ∀ l, (∀ v ∈ l, ∃ u, v = pd.write u) → (pd.read l).map pd.write = l
  absent : pd.write .none = .none

/-- The record of one fit. -/
def fitRecord (pd : Pandas) (p : Params) : List (String × PyVal) :=
  [("time_stamp", pd.write p.timeStamp), ("time", pd.write p.time), ("keci", pd.write p.keci),
   ("empty_cluster", pd.write p.emptyCluster), ("weight", pd.write p.weight), ("alpha", pd.write p.alpha),
   ("rmse", pd.write p.rmse), ("loocv", pd.write p.loocv), ("normalize", pd.write p.normalize),
   ("orbit_fingerprints", pd.write p.orbitFingerprints),
   ("local_environment_hash", pd.write p.localEnvironmentHash)]

/-- The table of the given fits, numbered from zero. -/
def tableOf (pd : Pandas) (ps : List Params) : PyVal :=
  .dict (ps.zipIdx.map fun x => (intStr (x.2 : Int), .dict (fitRecord pd x.1)))

/-- The parameters as the table keeps them: without the cluster sites and the local site order. -/
def inTable (pd : Pandas) (p : Params) : Params where
  keci := pd.write p.keci
  emptyCluster := pd.write p.emptyCluster
  clusterSiteIndices := .list []
  weight := pd.write p.weight
  alpha := pd.write p.alpha
  timeStamp := pd.write p.timeStamp
  time := pd.write p.time
  rmse := pd.write p.rmse
  loocv := pd.write p.loocv
  normalize := pd.write p.normalize
  orbitFingerprints := pd.write p.orbitFingerprints
  localEnvironmentHash := pd.write p.localEnvironmentHash
  localSiteOrder := .none
  name := defaultName

/-- A table of records with any columns, all of them written values. -/
def WrittenTable (pd : Pandas) (recs : List (String × List (String × PyVal))) : Prop :=
  ∀ r ∈ recs, ∀ kv ∈ r.2, ∃ u, kv.2 = pd.write u

/-- The names of the columns. -/
def tableColumns : List String :=
  ["time_stamp", "time", "keci", "empty_cluster", "weight", "alpha", "rmse", "loocv", "normalize",
   "orbit_fingerprints", "local_environment_hash"]

/-- The columns without which a file is not taken for a table. -/
def tableRequired : List String :=
  ["time_stamp", "time", "keci", "empty_cluster", "weight", "alpha", "rmse", "loocv"]

/-- The file holds a table in which every required column occurs. -/
def Compatible (file : PyVal) : Prop :=
  ∃ recs : List (String × List (String × PyVal)), file = .dict (recs.map fun r => (r.1, .dict r.2)) ∧
    ∀ c ∈ tableRequired, ∃ r ∈ recs, (dictGet r.2 c).isSome

end Spec
end KMC
