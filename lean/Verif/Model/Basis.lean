import Mathlib.Algebra.Field.Defs
import Mathlib.Data.Int.Cast.Defs
import Verif.Model.LCE
/-
Model of `kmcpy/structure/basis.py`: the two built-in bases and the `Occupation` container.

Occupation data are integers (both built-in bases have integer match values, so numpy converts
the data to integers).  Bases registered by users are not modelled.
-/
namespace KMC

/-- The built-in bases: `OccupationBasis` (`basis.py:143-202`) and `ChebyshevBasis`
(`basis.py:206-312`) with its `max_states`. -/
inductive Basis where
  | occupation
  | chebyshev (maxStates : Int)
  deriving DecidableEq

namespace Basis

/-- `ChebyshevBasis.__init__`, `basis.py:215-219`. -/
def mkChebyshev (maxStates : Int) : Py Basis :=
  if maxStates < 2 then .error .valueError else .ok (.chebyshev maxStates)

/-- `get_basis(name)`, `basis.py:315-330`, without keyword arguments (`max_states` is 2). -/
def getBasis (name : String) : Py Basis :=
  if name = "occupation" then .ok .occupation
  else if name = "chebyshev" then mkChebyshev 2
  else .error .valueError

/-- `self.name`, `basis.py:29-30`: the class name in lower case without "basis". -/
def name : Basis → String
  | .occupation => "occupation"
  | .chebyshev _ => "chebyshev"

/-- `uses_state_indices`, `basis.py:32-35`, `basis.py:221-224`. -/
def usesStateIndices : Basis → Bool
  | .occupation => false
  | .chebyshev _ => true

/-- `match_value`, `basis.py:155-158`, `basis.py:226-229`. -/
def matchValue : Basis → Int
  | .occupation => 1
  | .chebyshev _ => 0

/-- `mismatch_value`, `basis.py:160-163`, `basis.py:231-234`. -/
def mismatchValue : Basis → Int
  | .occupation => 0
  | .chebyshev _ => 1

/-- `occupied_value`, `basis.py:171-174`, `basis.py:236-239`. -/
def occupiedValue : Basis → Int
  | .occupation => 1
  | .chebyshev m => (Basis.chebyshev m).matchValue

/-- `vacant_value`, `basis.py:166-169`, `basis.py:241-244`. -/
def vacantValue : Basis → Int
  | .occupation => 0
  | .chebyshev m => (Basis.chebyshev m).mismatchValue

/-- `value in valid_values`, `basis.py:176-178`, `basis.py:246-248`. -/
def validValue : Basis → Int → Bool
  | .occupation, v => v == 0 || v == 1
  | .chebyshev m, v => decide (0 ≤ v ∧ v < m)

/-- `flip`, `basis.py:184-186`, `basis.py:254-256`. -/
def flip : Basis → Int → Int
  | .occupation, v => 1 - v
  | .chebyshev m, v =>
    if v = (Basis.chebyshev m).matchValue then (Basis.chebyshev m).mismatchValue
    else (Basis.chebyshev m).matchValue

/-- `convert_to`, `basis.py:118-123`. -/
def convertTo (b : Basis) (v : Int) (target : Basis) : Int :=
  if v = b.mismatchValue then target.mismatchValue else target.matchValue

/-- `OccupationBasis.to_chebyshev`, `basis.py:196-198`. -/
def toChebyshev (v : Int) : Int := if v = Basis.occupation.vacantValue then 1 else 0

/-- `OccupationBasis.from_chebyshev`, `basis.py:200-202`. -/
def fromChebyshev (v : Int) : Int :=
  if v = 0 then Basis.occupation.occupiedValue else Basis.occupation.vacantValue

/-- `ChebyshevBasis.to_occupation`, `basis.py:266-273` (any `max_states`). -/
def toOccupation (v : Int) : Int := if v = (Basis.chebyshev 2).occupiedValue then 1 else 0

/-- `ChebyshevBasis.from_occupation`, `basis.py:275-282`. -/
def fromOccupation (v : Int) : Int :=
  if v = 1 then (Basis.chebyshev 2).occupiedValue else (Basis.chebyshev 2).vacantValue

/-- `state_value`, `basis.py:65-67`, `basis.py:291-293`. -/
def stateValue : Basis → Int → Int
  | .occupation, i => if i = 0 then Basis.occupation.matchValue else Basis.occupation.mismatchValue
  | .chebyshev _, i => i

/-- `num_site_basis_functions`, `basis.py:61-63`, `basis.py:284-289`. -/
def numSiteBasisFunctions : Basis → Nat → Nat
  | .occupation, _ => 1
  | .chebyshev _, n => if n < 2 then 1 else n - 1

/-- `T_k(x)` by the recurrence numpy's `chebvander` uses. -/
def chebT {K : Type} [Ring K] (x : K) : Nat → K
  | 0 => 1
  | 1 => x
  | k + 2 => 2 * x * chebT x (k + 1) - chebT x k

/-- `np.linspace(-1.0, 1.0, n)[i]` (exact arithmetic). -/
def encoded {K : Type} [Field K] (n i : Nat) : K := -1 + (i : K) * (2 / ((n : K) - 1))

/-- `site_basis_values`, `basis.py:69-77`, `basis.py:295-307`: rows are states, columns are basis
functions (`T_1` to `T_{n-1}` for Chebyshev). -/
def siteBasisValues (K : Type) [Field K] : Basis → Nat → List (List K)
  | .occupation, n => (List.range n).map fun i : Nat => [((Basis.occupation.stateValue (i : Int) : Int) : K)]
  | .chebyshev _, n =>
    if n < 2 then List.replicate n [1]
    else (List.range n).map fun i => (List.range (n - 1)).map fun k => chebT (encoded n i) (k + 1)

/-- The basis as the cluster expansion uses it. -/
def siteBasis (K : Type) [Field K] (b : Basis) : LCE.SiteBasis K where
  usesStateIndices := b.usesStateIndices
  numSiteBasisFunctions := b.numSiteBasisFunctions
  siteBasisValues := b.siteBasisValues K

end Basis

/-- An `Occupation`: its basis and its data (`basis.py:333-375`). -/
structure Occupation where
  basis : Basis
  data : List Int
  deriving DecidableEq

namespace Occupation

/-- `_validate`, `basis.py:377-382`. -/
def validate (o : Occupation) : Py Unit :=
  if o.data.all o.basis.validValue then .ok () else .error .valueError

/-- `__init__`, `basis.py:350-375`, with a basis object. -/
def mk' (data : List Int) (b : Basis) (validate : Bool) : Py Occupation :=
  if validate then
    match (Occupation.mk b data).validate with
    | .error e => .error e
    | .ok () => .ok ⟨b, data⟩
  else .ok ⟨b, data⟩

/-- `__getitem__` with an integer, `basis.py:408-417`. -/
def getItem (o : Occupation) (i : Int) : Py Int := pyGet o.data i

/-- `__getitem__` with a list of integers, `basis.py:412-414`. -/
def getItems (o : Occupation) (is : List Int) : Py Occupation :=
  match pyGetAll o.data is with
  | .error e => .error e
  | .ok d => .ok ⟨o.basis, d⟩

/-- `__setitem__` with an integer, `basis.py:419-423`: the second component is the object left
behind. -/
def setItem (o : Occupation) (i v : Int) : Py Unit × Occupation :=
  match pySet o.data i v with
  | .error e => (.error e, o)
  | .ok d => ((⟨o.basis, d⟩ : Occupation).validate, ⟨o.basis, d⟩)

/-- `__eq__`, `basis.py:429-433`: name of the basis and data. -/
def eq (o p : Occupation) : Bool := o.basis.name == p.basis.name && o.data == p.data

/-- Positions holding `v` (`np.where(data == v)[0]`), starting the count at `k`. -/
def indicesFrom (v : Int) : Nat → List Int → List Nat
  | _, [] => []
  | k, x :: xs => if x = v then k :: indicesFrom v (k + 1) xs else indicesFrom v (k + 1) xs

/-- `count_mismatch`, `basis.py:485-487`. -/
def countMismatch (o : Occupation) : Nat := o.data.count o.basis.mismatchValue
/-- `count_match`, `basis.py:489-491`. -/
def countMatch (o : Occupation) : Nat := o.data.count o.basis.matchValue
/-- `count_occupied`, `basis.py:494-496`. -/
def countOccupied (o : Occupation) : Nat := o.data.count o.basis.occupiedValue
/-- `count_vacant`, `basis.py:498-500`. -/
def countVacant (o : Occupation) : Nat := o.data.count o.basis.vacantValue
/-- `get_mismatch_indices`, `basis.py:502-504`. -/
def mismatchIndices (o : Occupation) : List Nat := indicesFrom o.basis.mismatchValue 0 o.data
/-- `get_match_indices`, `basis.py:506-508`. -/
def matchIndices (o : Occupation) : List Nat := indicesFrom o.basis.matchValue 0 o.data
/-- `get_occupied_indices`, `basis.py:510-512`. -/
def occupiedIndices (o : Occupation) : List Nat := indicesFrom o.basis.occupiedValue 0 o.data
/-- `get_vacant_indices`, `basis.py:514-516`. -/
def vacantIndices (o : Occupation) : List Nat := indicesFrom o.basis.vacantValue 0 o.data

/-- The loop of `flip` and `flip_inplace`, `basis.py:532-533`, `basis.py:547-548`; the second
component is the data when the loop ended. -/
def flipLoop (b : Basis) : List Int → List Int → Py Unit × List Int
  | [], d => (.ok (), d)
  | i :: is, d =>
    match pyGet d i with
    | .error e => (.error e, d)
    | .ok v =>
      match pySet d i (b.flip v) with
      | .error e => (.error e, d)
      | .ok d' => flipLoop b is d'

/-- `flip`, `basis.py:518-535`: a new object. -/
def flip (o : Occupation) (is : List Int) : Py Occupation :=
  match flipLoop o.basis is o.data with
  | (.error e, _) => .error e
  | (.ok (), d) => .ok ⟨o.basis, d⟩

/-- `flip_inplace`, `basis.py:537-548`: the second component is the object left behind. -/
def flipInplace (o : Occupation) (is : List Int) : Py Unit × Occupation :=
  match flipLoop o.basis is o.data with
  | (r, d) => (r, ⟨o.basis, d⟩)

/-- Both are instances of the same class (`basis.py:565`). -/
def sameClass : Basis → Basis → Bool
  | .occupation, .occupation => true
  | .chebyshev _, .chebyshev _ => true
  | _, _ => false

/-- `to_basis` with a basis object, `basis.py:550-571`. -/
def toBasis (o : Occupation) (target : Basis) : Occupation :=
  if sameClass target o.basis then ⟨target, o.data⟩
  else ⟨target, o.data.map fun v => o.basis.convertTo v target⟩

/-- `equivalent_to`, `basis.py:439-459`. -/
def equivalentTo (o p : Occupation) : Bool :=
  (o.toBasis .occupation).data == (p.toBasis .occupation).data

/-- `zeros`, `basis.py:578-596`. -/
def zeros (n : Nat) (b : Basis) : Occupation := ⟨b, List.replicate n b.vacantValue⟩
/-- `ones`, `basis.py:599-617`. -/
def ones (n : Nat) (b : Basis) : Occupation := ⟨b, List.replicate n b.occupiedValue⟩
/-- `random`, `basis.py:620-647`: `occupied` are the results of `random < fill_fraction`. -/
def random (occupied : List Bool) (b : Basis) : Occupation :=
  ⟨b, occupied.map fun o => if o then b.occupiedValue else b.vacantValue⟩

end Occupation
end KMC
