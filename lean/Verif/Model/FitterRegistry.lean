import Verif.Model.Py
/-
Model of `kmcpy/models/fitting/registry.py` and of the choice of a fitter by a model class,
`kmcpy/models/base.py:68-84`.

`κ` are the model classes, `F` the fitter classes, `mro` Python's method resolution order.
-/
namespace KMC
namespace FitterRegistry
variable {κ F : Type} [DecidableEq κ] [DecidableEq F]

/-- `register_fitter`, `registry.py:10-19`: the outcome and the registry afterwards. -/
def register (reg : List (κ × F)) (c : κ) (f : F) : Py Unit × List (κ × F) :=
  match dictGet reg c with
  | some existing =>
    if existing = f then (.ok (), dictSet reg c f)
    else (.error .valueError, reg)
  | none => (.ok (), dictSet reg c f)

/-- Loop `registry.py:24-27`. -/
def firstRegistered (reg : List (κ × F)) : List κ → Option F
  | [] => none
  | c :: cs =>
    match dictGet reg c with
    | some f => some f
    | none => firstRegistered reg cs

/-- `get_fitter_for_model`, `registry.py:22-28`. -/
def fitterFor (mro : κ → List κ) (reg : List (κ × F)) (c : κ) : Option F := firstRegistered reg (mro c)

/-- The attribute `cls.fitter_class`: the entry of the first class of the resolution order that sets
it (`BaseModel` sets it to `None`, `base.py:60`); `own` are the entries of the class bodies. -/
def classAttribute (own : κ → Option (Option F)) : List κ → Option F
  | [] => none
  | c :: cs =>
    match own c with
    | some v => v
    | none => classAttribute own cs

/-- `get_fitter_class`, `base.py:68-79`. -/
def fitterClass (mro : κ → List κ) (own : κ → Option (Option F)) (reg : List (κ × F)) (c : κ) : Py F :=
  match fitterFor mro reg c with
  | some f => .ok f
  | none =>
    match classAttribute own (mro c) with
    | some f => .ok f
    | none => .error .notImplementedError

/-- A sequence of registrations, each of which may raise; an exception is caught by the caller and
the sequence goes on. -/
def registerAll (reg : List (κ × F)) : List (κ × F) → List (Py Unit) × List (κ × F)
  | [] => ([], reg)
  | (c, f) :: rest =>
    let r := register reg c f
    let s := registerAll r.2 rest
    (r.1 :: s.1, s.2)

end FitterRegistry
end KMC
