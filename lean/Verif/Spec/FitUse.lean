import Verif.Model.FitUse
import Verif.Spec.Parameters
/-
What it means that a fit is used as it was made.
-/
namespace KMC
namespace Spec
open Parameters Fitter FitUse

/-- The coefficients and the constant are numbers that survive being written and read (doubles do). -/
structure ReadBack (out : Outside) (r : Reading) {m n : Nat} (f : Fitted m n) : Prop where
  keci : ∀ j, r.number (out.float (f.keci j)) = .ok (f.keci j)
  empty : r.number (out.float f.emptyCluster) = .ok f.emptyCluster

/-- Model `m'` is model `m` with the coefficients of a fit. -/
structure HasFit (m m' : LCE ℝ) {k n : Nat} (f : Fitted k n) : Prop where
  keci : m'.keci = some (List.ofFn f.keci)
  empty : m'.emptyCluster = some f.emptyCluster
  same : m'.clusterSiteIndices = m.clusterSiteIndices ∧ m'.basisIndices = m.basisIndices ∧
    m'.siteBasisValues = m.siteBasisValues ∧ m'.correlationFingerprints = m.correlationFingerprints ∧
    m'.orbitFingerprints = m.orbitFingerprints ∧ m'.environmentHash = m.environmentHash

/-- What h5py does with lists of texts: version 3 stores them and reads byte strings, version 2 refuses. -/
def TextsBecomeBytes (h5 : PyVal → Py Value) : Prop :=
  ∀ l : List String, l ≠ [] →
    h5 (.list (l.map .str)) = .ok (.byteStrings l) ∨ ∃ e, h5 (.list (l.map .str)) = .error e

/-- What h5py does with the other values of this record: it keeps them. -/
def KeepsOthers (h5 : PyVal → Py Value) (p : Params) : Prop :=
  (∀ v ∈ mandatoryFields p, v ≠ .none ∧ h5 v = .ok (.plain v)) ∧
    (p.localEnvironmentHash = .none ∨ h5 p.localEnvironmentHash = .ok (.plain p.localEnvironmentHash))

end Spec
end KMC
