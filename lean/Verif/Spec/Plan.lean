import Verif.Model.Registration
/-
Sequences of registration calls.
-/
namespace KMC.Spec
open KMC

variable {T V Row : Type}

/-- A registration call on a property plan. -/
inductive PlanOp (T V : Type) where
  | attach (a : AttachArgs T V)
  | detach (name : String)
  | clear
  | setEnabled (name : String) (enabled : Bool)
  | setFrequency (interval : Option Int) (timeInterval : Option T)

/-- Result of a call whose returned value is dropped. -/
def dropValue {α : Type} : Py α → Py Unit
  | .ok _ => .ok ()
  | .error e => .error e

/-- Make the call: did it raise, and the plan left behind. -/
def PlanOp.call [Zero T] [LE T] [DecidableLE T] (p : PropertyPlan T V) :
    PlanOp T V → Py Unit × PropertyPlan T V
  | .attach a => (dropValue (p.attach a).1, (p.attach a).2)
  | .detach n => p.detach n
  | .clear => (.ok (), p.clearAttachments)
  | .setEnabled n b => p.setPropertyEnabled n b
  | .setFrequency i t => p.setFrequency i t

/-- The plan after any sequence of calls, accepted or rejected, on a new plan. -/
def planAfter [Zero T] [LE T] [DecidableLE T] (ops : List (PlanOp T V)) : PropertyPlan T V :=
  ops.foldl (fun p op => (op.call p).2) {}

/-- What a user can do to the properties of a simulation: registration calls, starting a run
and taking samples in it. -/
inductive RegOp (T V Row : Type) where
  | plan (op : PlanOp T V)
  | startRun (passLength : Nat)
  | sample (summary : List (String × Bool) → Row) (st : State T)

/-- Make the registration call on a simulation. -/
def callReg [Zero T] [LE T] [DecidableLE T] (r : Registry T V Row) :
    PlanOp T V → Py Unit × Registry T V Row
  | .attach a => (dropValue (r.attach a).1, (r.attach a).2)
  | .detach n => r.detach n
  | .clear => (.ok (), r.clearAttachments)
  | .setEnabled n b => r.setPropertyEnabled n b
  | .setFrequency i t => r.setFrequency i t

/-- Do it: did it raise, and the registry left behind. -/
def RegOp.call [Zero T] [Sub T] [LE T] [DecidableLE T] (r : Registry T V Row) :
    RegOp T V Row → Py Unit × Registry T V Row
  | .plan op => callReg r op
  | .startRun len => r.startRun len
  | .sample summary st => r.sample summary st

/-- The registry of a simulation after any sequence of operations. -/
def registryAfter [Zero T] [Sub T] [LE T] [DecidableLE T] (ops : List (RegOp T V Row)) :
    Registry T V Row :=
  ops.foldl (fun r op => (op.call r).2) {}

end KMC.Spec
