import Verif.Model.SiteEnergyFile
import Verif.Model.Value
/-
Model of how user functions are found and called: `_call_with_supported_keywords` and
`resolve_callable_reference` of `kmcpy/models/site_energy.py`, `_accepts_keyword` and the calls of
`initialize_state` in `kmcpy/simulator/kmc.py` and `kmcpy/models/composite_lce_model.py`.

Python's own rule for calls with keyword arguments (`callKeywords`) is part of the model of the
environment, like the module system that references are looked up in.
-/
namespace KMC
namespace Callable
open SiteEnergyFile (ComputeFn)

/-- `inspect.Parameter.kind`. -/
inductive Kind where
  | positionalOnly
  | positionalOrKeyword
  | varPositional
  | keywordOnly
  | varKeyword
  deriving DecidableEq

/-- `inspect.Parameter`: name, kind, and whether it has a default. -/
structure Parameter where
  name : String
  kind : Kind
  hasDefault : Bool
  deriving DecidableEq

/-- What the body of a function sees after a call: the values given for named parameters and the
dictionary that a parameter `**kwargs` collects. -/
structure Given (V : Type) where
  named : List (String × V)
  rest : List (String × V)

/-- The parameter can be given by keyword (`site_energy.py:536-544`). -/
def byKeyword (p : Parameter) : Bool :=
  decide (p.kind = .positionalOrKeyword) || decide (p.kind = .keywordOnly)

/-- `any(parameter.kind == VAR_KEYWORD …)`, `site_energy.py:530-534`. -/
def catchesAll (ps : List Parameter) : Bool := ps.any fun p => decide (p.kind = .varKeyword)

/-- `accepted`, `site_energy.py:536-544`. -/
def accepted (ps : List Parameter) : List String := (ps.filter byKeyword).map Parameter.name

/-- The parameter must be given a value in every call. -/
def required (p : Parameter) : Bool :=
  (byKeyword p || decide (p.kind = .positionalOnly)) && !p.hasDefault

/-- Python's rule for `func(**kwargs)`: every keyword must be the name of a parameter that can be
given by keyword, or be collected by `**kwargs`; every parameter without default must be given. -/
def callKeywords {V : Type} (ps : List Parameter) (kwargs : List (String × V)) : Py (Given V) :=
  if !catchesAll ps && kwargs.any (fun kv => !decide (kv.1 ∈ accepted ps)) then .error .typeError
  else if ps.any (fun p => required p && !(byKeyword p && (dictGet kwargs p.name).isSome)) then
    .error .typeError
  else .ok
    { named := kwargs.filter fun kv => decide (kv.1 ∈ accepted ps)
      rest := kwargs.filter fun kv => !decide (kv.1 ∈ accepted ps) }

/-- The arguments that `_call_with_supported_keywords` passes on, `site_energy.py:518-551`; `none`
is a function without a signature. -/
def supportedKeywords {V : Type} (signature : Option (List Parameter)) (kwargs : List (String × V))
    (userNames : List String) : Py (List (String × V)) :=
  match signature with
  | none => .ok kwargs
  | some ps =>
    if catchesAll ps then .ok kwargs
    else if userNames.any (fun n => !decide (n ∈ accepted ps)) then .error .typeError
    else .ok (kwargs.filter fun kv => decide (kv.1 ∈ accepted ps))

/-- A user function: its signature, what it does without one, and its body. -/
structure Function (V O : Type) where
  signature : Option (List Parameter)
  builtin : List (String × V) → Py (Given V)
  body : Given V → Py O

/-- The call of a function with keyword arguments. -/
def Function.call {V O : Type} (f : Function V O) (kwargs : List (String × V)) : Py O :=
  match (match f.signature with
    | none => f.builtin kwargs
    | some ps => callKeywords ps kwargs) with
  | .error x => .error x
  | .ok given => f.body given

/-- `_call_with_supported_keywords`, `site_energy.py:518-551`. -/
def callWithSupported {V O : Type} (f : Function V O) (kwargs : List (String × V))
    (userNames : List String) : Py O :=
  match supportedKeywords f.signature kwargs userNames with
  | .error x => .error x
  | .ok passed => f.call passed

/-- The arguments a site-energy function can be given: what the model supplies, and the user's own
values. -/
inductive Arg (V Rt T : Type) where
  | runtime (r : Rt)
  | external (occ : List ExtVal)
  | changes (cs : List OccupationChange)
  | event (e : Event)
  | state (st : State T)
  | user (v : V)

/-- The five standard arguments, `site_energy.py:375-379` and `396-400`. -/
def standard {V Rt T : Type} (rt : Rt) (ext : List ExtVal) (cs : List OccupationChange) (e : Event)
    (st : State T) : List (String × Arg V Rt T) :=
  [("runtime", .runtime rt), ("external_occupation", .external ext), ("changes", .changes cs),
    ("event", .event e), ("simulation_state", .state st)]

/-- `{…, **self.compute_kwargs}`, `site_energy.py:374-381`: later entries replace earlier ones. -/
def offered {V Rt T : Type} (std : List (String × Arg V Rt T)) (kwargs : List (String × V)) :
    List (String × Arg V Rt T) :=
  dictUpdate std (kwargs.map fun kv => (kv.1, .user kv.2))

/-- The call in `SiteEnergyModel.compute`, `site_energy.py:372-383`, as the callable of
`Model/SiteEnergyFile`. -/
def computeFn {V Rt T : Type} (f : Function (Arg V Rt T) RawEnergy) : ComputeFn V Rt T :=
  fun kwargs rt ext cs e st =>
    callWithSupported f (offered (standard rt ext cs e st) kwargs) (kwargs.map Prod.fst)

/-- The arguments of the call in `SiteEnergyModel.apply_event`, `site_energy.py:393-402`:
`apply_fn(runtime=…, …, **apply_kwargs)` fails if a name is given twice, and passes everything. -/
def applyArguments {V Rt T : Type} (std : List (String × Arg V Rt T)) (kwargs : List (String × V)) :
    Py (List (String × Arg V Rt T)) :=
  if kwargs.any (fun kv => decide (kv.1 ∈ std.map Prod.fst)) then .error .typeError
  else .ok (std ++ kwargs.map fun kv => (kv.1, .user kv.2))

/-- The call in `SiteEnergyModel.apply_event`, `site_energy.py:393-402`. -/
def applyCall {V Rt T O : Type} (f : Function (Arg V Rt T) O) (kwargs : List (String × V)) (rt : Rt)
    (ext : List ExtVal) (cs : List OccupationChange) (e : Event) (st : State T) : Py O :=
  match applyArguments (standard rt ext cs e st) kwargs with
  | .error x => .error x
  | .ok args => f.call args

/-- `_accepts_keyword`, `kmc.py:32-41` and `composite_lce_model.py:28-37`. -/
def acceptsKeyword (signature : Option (List Parameter)) (keyword : String) : Bool :=
  match signature with
  | none => false
  | some ps => decide (keyword ∈ ps.map Parameter.name) || catchesAll ps

/-- The arguments with which `initialize_state` is called, `kmc.py:141-152` and
`composite_lce_model.py:160-171`: the active-site order only if there is one and the method accepts it. -/
def initializeArguments {V : Type} (signature : Option (List Parameter)) (state eventLib structure' config : V)
    (order : Option V) : List (String × V) :=
  [("simulation_state", state), ("event_lib", eventLib), ("structure", structure'), ("config", config)] ++
    match order with
    | none => []
    | some o => if acceptsKeyword signature "active_site_order" then [("active_site_order", o)] else []

/-! ### References -/

/-- `s.split(sep)` for one character. -/
def splitAt (sep : Char) : List Char → List (List Char)
  | [] => [[]]
  | c :: cs =>
    if c = sep then [] :: splitAt sep cs
    else
      match splitAt sep cs with
      | [] => [[c]]
      | w :: ws => (c :: w) :: ws

/-- `s.split(sep, 1)` for a text that contains the character: before and after the first one. -/
def splitFirst (sep : Char) (s : List Char) : List Char × List Char :=
  (s.takeWhile (fun c => decide (c ≠ sep)), (s.dropWhile (fun c => decide (c ≠ sep))).drop 1)

/-- `s.rpartition(sep)` without the separator: before and after the last one; without any, the
first part is empty. -/
def splitLast (sep : Char) (s : List Char) : List Char × List Char :=
  let after := (s.reverse.takeWhile (fun c => decide (c ≠ sep))).reverse
  (((s.reverse.dropWhile (fun c => decide (c ≠ sep))).drop 1).reverse, after)

/-- The modules and objects that references name: `importlib.import_module`, `getattr`, `callable`. -/
structure World (O : Type) where
  importModule : String → Py O
  getattr : O → String → Py O
  callable : O → Bool

/-- Loop `site_energy.py:511-512`. -/
def follow {O : Type} (w : World O) : O → List String → Py O
  | obj, [] => .ok obj
  | obj, a :: as =>
    match w.getattr obj a with
    | .error x => .error x
    | .ok obj' => follow w obj' as

/-- Module path and attribute path, `site_energy.py:500-503`. -/
def referenceParts (ref : List Char) : List Char × List Char :=
  if ':' ∈ ref then splitFirst ':' ref else splitLast '.' ref

/-- `resolve_callable_reference`, `site_energy.py:498-515`. -/
def resolve {O : Type} (w : World O) (ref : String) : Py O :=
  if (referenceParts ref.toList).1 = [] ∨ (referenceParts ref.toList).2 = [] then .error .valueError
  else
    match w.importModule (String.ofList (referenceParts ref.toList).1) with
    | .error x => .error x
    | .ok m =>
      match follow w m ((splitAt '.' (referenceParts ref.toList).2).map String.ofList) with
      | .error x => .error x
      | .ok obj => if w.callable obj then .ok obj else .error .typeError

end Callable
end KMC
