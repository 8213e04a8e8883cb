import Verif.Model.Parameters
/-
What a saved and reloaded set of fitted parameters should look like.
-/
namespace KMC
namespace Spec
open Parameters

/-- A value without tuples: exactly what JSON can represent. -/
inductive PlainValue : PyVal → Prop
  | none : PlainValue .none
  | bool (b : Bool) : PlainValue (.bool b)
  | int (n : Int) : PlainValue (.int n)
  | float (f : PyFloat) : PlainValue (.float f)
  | str (s : String) : PlainValue (.str s)
  | list (l : List PyVal) (h : ∀ v ∈ l, PlainValue v) : PlainValue (.list l)
  | dict (d : List (String × PyVal)) (h : ∀ kv ∈ d, PlainValue kv.2) : PlainValue (.dict d)

/-- The fields of a record that are written to files. -/
def writtenFields (p : Params) : List PyVal :=
  [p.keci, p.emptyCluster, p.clusterSiteIndices, p.weight, p.alpha, p.timeStamp, p.time, p.rmse,
   p.loocv, p.normalize, p.orbitFingerprints, p.localEnvironmentHash]

/-- The fields that are always written. -/
def mandatoryFields (p : Params) : List PyVal :=
  [p.keci, p.emptyCluster, p.clusterSiteIndices, p.weight, p.alpha, p.timeStamp, p.time, p.rmse,
   p.loocv, p.normalize]

/-- A record of plain values. -/
def PlainRecord (p : Params) : Prop := ∀ v ∈ writtenFields p, PlainValue v

/-- A record HDF5 keeps: every value present comes back as it was, and the mandatory ones are
present. -/
def StorableRecord (store : PyVal → Py PyVal) (p : Params) : Prop :=
  (∀ v ∈ writtenFields p, v = .none ∨ store v = .ok v) ∧ ∀ v ∈ mandatoryFields p, v ≠ .none

/-- A record with nothing in the fields that files do not keep. -/
def Persistent (p : Params) : Prop := p.localSiteOrder = .none ∧ p.name = defaultName

/-- Two records agree in every field files keep. -/
def SameFit (p q : Params) : Prop := writtenFields p = writtenFields q

end Spec
end KMC
