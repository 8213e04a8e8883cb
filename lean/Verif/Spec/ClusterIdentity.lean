import Verif.Model.ClusterIdentity
/-
When two clusters are told apart by their fingerprints, and which data survive saving.
-/
namespace KMC.Spec
open KMC Matcher
variable {L K : Type}

/-- Same labels in the same order, and all distances the same after rounding. -/
def SameAfterRounding (round : K → K) (a b : Cluster L K) : Prop :=
  a.labels = b.labels ∧ ∀ i j, i < a.labels.length → j < a.labels.length → round (a.dist i j) = round (b.dist i j)

/-- Different texts have different digests. -/
def CollisionFree (digest : List L → List (List K) → String) : Prop :=
  ∀ l m l' m', digest l m = digest l' m' → l = l' ∧ m = m'

/-- A text, a number, a truth value or `None`. -/
def Scalar : PyVal → Prop
  | .none | .bool _ | .int _ | .float _ | .str _ => True
  | _ => False

end KMC.Spec
