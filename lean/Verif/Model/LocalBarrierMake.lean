import Verif.Model.LocalBarrier
/-
Model of the two class methods that make local barrier models, `kmcpy/models/local_barrier_model.py:561-646`.
-/
namespace KMC
open LocalBarrier

namespace LocalBarrierModel

/-- `constant_barrier`, `local_barrier_model.py:561-575`, without further keyword arguments. -/
def constantBarrier (barrier : PyVal) (name : String) : Py LocalBarrierModel :=
  init none name none (some barrier) "barrier" supportedMode "barrier" .none

/-- The loop of `from_exact_entries`, `local_barrier_model.py:630-635`: entry number `i` gets the type
`exact` and, unless it has a name, the name `exact_i`.  An entry is the dictionary that its `as_dict()`
or `dict(entry)` gives. -/
def exactPayloads : List (List (String × PyVal)) → Nat → List PyVal
  | [], _ => []
  | d :: ds, i =>
    .dict (setDefault (dictSet d "type" (.str "exact")) "name" (.str ("exact_" ++ intStr i))) ::
      exactPayloads ds (i + 1)

/-- `from_exact_entries`, `local_barrier_model.py:612-646`. -/
def fromExactEntries (entries : List (List (String × PyVal))) (name : String)
    (defaultProperties defaultBarrier : Option PyVal) (defaultProperty mode property : String)
    (siteSpecies : PyVal) : Py LocalBarrierModel :=
  init (some (.list (exactPayloads entries 0))) name defaultProperties defaultBarrier defaultProperty
    mode property siteSpecies

end LocalBarrierModel
end KMC
