import Mathlib.Data.Rat.Floor
import Mathlib.Algebra.Order.Round
import Verif.Model.Basis
/-
Model of the registry of bases in `kmcpy/structure/basis.py` and of the `Occupation` container with a basis that a user
has registered.  `Model/Basis` models the two built-in bases only.

Floats are rational numbers.  A basis may set its values, its valid values, its own `flip` and its own entries of
`as_dict`; it does not override `convert_to`.
-/
namespace KMC
namespace UserBasis

/-- A Python number: whether it is an `int` (and not a `float`), and its value. -/
structure Num where
  isInt : Bool
  val : ℚ
  deriving DecidableEq

/-- What an instance of a basis class says about itself (`basis.py:37-59`).  `occupied` and `vacant` are not part of
the abstract interface. -/
structure Body where
  matchValue : Num
  mismatchValue : Num
  valid : List ℚ
  occupied : Option ℚ
  vacant : Option ℚ
  ownFlip : Option (ℚ → ℚ)
  attrs : List (String × Int)

/-- A class derived from `BasisFunction`; `id` is its identity, `init` its constructor. -/
structure Cls where
  id : Nat
  className : String
  init : List (String × Int) → Py Body

/-- An instance. -/
structure Obj where
  id : Nat
  className : String
  name : String
  body : Body

/-- `.replace('basis', '')`, `basis.py:30`. -/
def dropBasis : List Char → List Char
  | 'b' :: 'a' :: 's' :: 'i' :: 's' :: rest => dropBasis rest
  | c :: rest => c :: dropBasis rest
  | [] => []

/-- `self.name`, `basis.py:29-30`. -/
def derivedName (className : String) : String := String.ofList (dropBasis (className.toList.map Char.toLower))

/-- `cls(**kwargs)`. -/
def Cls.construct (c : Cls) (kwargs : List (String × Int)) : Py Obj :=
  match c.init kwargs with
  | .error e => .error e
  | .ok b => .ok ⟨c.id, c.className, derivedName c.className, b⟩

/-- `BASIS_REGISTRY`, `basis.py:17`. -/
abbrev Registry := List (String × Cls)

/-- `register_basis`, `basis.py:129-139`. -/
def register (reg : Registry) (name : String) (c : Cls) : Registry := dictSet reg name c

/-- Several registrations, one after the other. -/
def registerAll (reg : Registry) : List (String × Cls) → Registry
  | [] => reg
  | (n, c) :: rest => registerAll (register reg n c) rest

/-- `get_basis`, `basis.py:315-330`. -/
def getBasis (reg : Registry) (name : String) (kwargs : List (String × Int)) : Py Obj :=
  match dictGet reg name with
  | none => .error .valueError
  | some c => c.construct kwargs

/-- The dictionary of a basis: `@class`, `name` and the other entries. -/
structure Payload where
  cls : Option String
  name : Option String
  extra : List (String × Int)

/-- `as_dict`, `basis.py:79-85`, with the entries a class adds (as `basis.py:309-312`). -/
def Obj.asDict (o : Obj) : Payload := ⟨some o.className, some o.name, o.body.attrs⟩

/-- The class `BasisFunction.from_dict` picks, `basis.py:94-105`. -/
def pickClass (reg : Registry) (p : Payload) : Py Cls :=
  match reg.find? fun e => some e.2.className == p.cls with
  | some e => .ok e.2
  | none =>
    match p.name with
    | none => .error .valueError
    | some n =>
      match dictGet reg n with
      | some c => .ok c
      | none => .error .valueError

/-- `BasisFunction.from_dict`, `basis.py:87-112`. -/
def fromDict (reg : Registry) (p : Payload) : Py Obj :=
  match pickClass reg p with
  | .error e => .error e
  | .ok c => c.construct p.extra

/-- Rounding towards zero, as numpy converts a float to an integer. -/
def towardsZero (q : ℚ) : ℤ := if 0 ≤ q then ⌊q⌋ else ⌈q⌉

/-- One value in an array with `dtype=type(match_value)`, `basis.py:372`. -/
def Obj.stored (o : Obj) (q : ℚ) : ℚ := if o.body.matchValue.isInt then (towardsZero q : ℚ) else q

/-- `flip`, `basis.py:114-116`, unless the class has its own. -/
def Obj.flip (o : Obj) (q : ℚ) : ℚ :=
  match o.body.ownFlip with
  | some f => f q
  | none => if q = o.body.matchValue.val then o.body.mismatchValue.val else o.body.matchValue.val

/-- `convert_to`, `basis.py:118-123`. -/
def Obj.convertTo (o : Obj) (q : ℚ) (target : Obj) : ℚ :=
  if q = o.body.mismatchValue.val then target.body.mismatchValue.val else target.body.matchValue.val

/-- An `Occupation`: basis object, `_basis_name` and data. -/
structure Occ where
  obj : Obj
  name : String
  data : List ℚ

/-- The end of `__init__` and `_validate`, `basis.py:372-382`. -/
def make (obj : Obj) (name : String) (data : List ℚ) (validate : Bool) : Py Occ :=
  if validate && !(data.map obj.stored).all (fun v => decide (v ∈ obj.body.valid)) then .error .valueError
  else .ok ⟨obj, name, data.map obj.stored⟩

/-- `Occupation(data, basis='name')`, `basis.py:363-365`. -/
def ofName (reg : Registry) (data : List ℚ) (name : String) (validate : Bool) : Py Occ :=
  match getBasis reg name [] with
  | .error e => .error e
  | .ok o => make o name data validate

/-- `Occupation(data, basis=object)`, `basis.py:366-368`. -/
def ofObj (data : List ℚ) (obj : Obj) (validate : Bool) : Py Occ := make obj obj.name data validate

/-- `Occupation(data, basis=object, validate=False)`, which never raises. -/
def fresh (data : List ℚ) (obj : Obj) : Occ := ⟨obj, obj.name, data.map obj.stored⟩

/-- `copy`, `basis.py:573-575`. -/
def Occ.copy (o : Occ) : Occ := fresh o.data o.obj

/-- `__getitem__` with a list, `basis.py:412-414`. -/
def Occ.getItems (o : Occ) (is : List Int) : Py Occ :=
  match pyGetAll o.data is with
  | .error e => .error e
  | .ok d => .ok (fresh d o.obj)

/-- `__setitem__` with an integer, `basis.py:419-423`; the second component is the object left behind. -/
def Occ.setItem (o : Occ) (i : Int) (v : ℚ) : Py Unit × Occ :=
  match pySet o.data i (o.obj.stored v) with
  | .error e => (.error e, o)
  | .ok d =>
    (if d.all (fun v => decide (v ∈ o.obj.body.valid)) then .ok () else .error .valueError, { o with data := d })

/-- `__iter__` and `values`, `basis.py:399-402`, 425-427. -/
def Occ.values (o : Occ) : List ℚ := o.data

/-- `__eq__`, `basis.py:429-433`. -/
def Occ.equalTo (o p : Occ) : Bool := o.name == p.name && o.data == p.data

/-- `__ne__`, `basis.py:435-437`. -/
def Occ.notEqualTo (o p : Occ) : Bool := !o.equalTo p

/-- `array_equal`, `basis.py:461-474`. -/
def Occ.arrayEqual (o : Occ) (array : List ℚ) : Bool := o.data == array

/-- `count_match`, `basis.py:489-491`. -/
def Occ.countMatch (o : Occ) : Nat := o.data.count o.obj.body.matchValue.val

/-- `count_mismatch`, `basis.py:485-487`. -/
def Occ.countMismatch (o : Occ) : Nat := o.data.count o.obj.body.mismatchValue.val

/-- `count_occupied`, `basis.py:494-496`. -/
def Occ.countOccupied (o : Occ) : Py Nat :=
  match o.obj.body.occupied with
  | none => .error .attributeError
  | some v => .ok (o.data.count v)

/-- `count_vacant`, `basis.py:498-500`. -/
def Occ.countVacant (o : Occ) : Py Nat :=
  match o.obj.body.vacant with
  | none => .error .attributeError
  | some v => .ok (o.data.count v)

/-- The loop of `flip`, `basis.py:532-533`; an array of integers cuts off what it is given. -/
def flipLoop (o : Obj) : List Int → List ℚ → Py (List ℚ)
  | [], d => .ok d
  | i :: is, d =>
    match pyGet d i with
    | .error e => .error e
    | .ok v =>
      match pySet d i (o.stored (o.flip v)) with
      | .error e => .error e
      | .ok d' => flipLoop o is d'

/-- `flip`, `basis.py:518-535`. -/
def Occ.flip (o : Occ) (is : List Int) : Py Occ :=
  match flipLoop o.obj is o.data with
  | .error e => .error e
  | .ok d => .ok (fresh d o.obj)

/-- `to_basis` with a basis object, `basis.py:565-571`. -/
def Occ.toBasis (o : Occ) (target : Obj) : Occ :=
  if target.id = o.obj.id then fresh o.data target
  else fresh (o.data.map fun v => o.obj.convertTo v target) target

/-- `to_basis` with a name, `basis.py:560-563`. -/
def Occ.toBasisNamed (reg : Registry) (o : Occ) (name : String) : Py Occ :=
  match getBasis reg name [] with
  | .error e => .error e
  | .ok target => .ok (o.toBasis target)

/-- `equivalent_to`, `basis.py:439-459`. -/
def Occ.equivalentTo (reg : Registry) (o p : Occ) : Py Bool :=
  match o.toBasisNamed reg "occupation" with
  | .error e => .error e
  | .ok a =>
    match p.toBasisNamed reg "occupation" with
    | .error e => .error e
    | .ok b => .ok (a.data == b.data)

/-- `zeros` with a name, `basis.py:578-596`. -/
def zeros (reg : Registry) (n : Nat) (name : String) : Py Occ :=
  match getBasis reg name [] with
  | .error e => .error e
  | .ok b =>
    match b.body.vacant with
    | none => .error .attributeError
    | some v => .ok (fresh (List.replicate n v) b)

/-- `ones` with a name, `basis.py:599-617`. -/
def ones (reg : Registry) (n : Nat) (name : String) : Py Occ :=
  match getBasis reg name [] with
  | .error e => .error e
  | .ok b =>
    match b.body.occupied with
    | none => .error .attributeError
    | some v => .ok (fresh (List.replicate n v) b)

/-- `OccupationBasis`, `basis.py:142-202`. -/
def occupationCls : Cls where
  id := 0
  className := "OccupationBasis"
  init kwargs :=
    if kwargs.isEmpty then .ok ⟨⟨true, 1⟩, ⟨true, 0⟩, [0, 1], some 1, some 0, some fun q => 1 - q, []⟩
    else .error .typeError

/-- `ChebyshevBasis`, `basis.py:205-312`. -/
def chebyshevBody (maxStates : Int) : Py Body :=
  if maxStates < 2 then .error .valueError
  else .ok ⟨⟨true, 0⟩, ⟨true, 1⟩, (List.range maxStates.toNat).map (fun (k : Nat) => (k : ℚ)), some 0, some 1, none,
    [("max_states", maxStates)]⟩

/-- `ChebyshevBasis.__init__`, `basis.py:215-219`; another argument than `max_states` is refused. -/
def chebyshevCls : Cls where
  id := 1
  className := "ChebyshevBasis"
  init
    | [] => chebyshevBody 2
    | [("max_states", m)] => chebyshevBody m
    | _ => .error .typeError

/-- The registry after the module has been imported, `basis.py:142`, 205. -/
def builtins : Registry := registerAll [] [("occupation", occupationCls), ("chebyshev", chebyshevCls)]

end UserBasis
end KMC
