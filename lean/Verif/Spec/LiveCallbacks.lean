import Verif.Model.LiveCallbacks
import Verif.Spec.Plan
import Verif.Spec.Schedule
/-
Vocabulary for callbacks with memory.
-/
namespace KMC.Spec
open KMC

variable {W T V Row : Type}

/-- The attached functions look at the state but never alter it. -/
def OnlyLooks (b : LiveBehaviour W T V) : Prop :=
  ∀ name w st step t, (b.call name w st step t).2.1 = st ∧
    ∀ h, b.handle name = some h → (h w st step t).2.1 = st

/-- A registration call in which the functions passed are exchanged for memoryless ones,
chosen by the name the property gets. -/
def PlanOp.withFunctions (cb : String → State T → Int → T → CallResult V)
    (hd : String → Option (State T → Int → T → Option Bool)) : PlanOp T V → PlanOp T V
  | .attach a => .attach { a with callback := cb a.resolvedName, onError := hd a.resolvedName }
  | .detach n => .detach n
  | .clear => .clear
  | .setEnabled n b => .setEnabled n b
  | .setFrequency i t => .setFrequency i t

/-- What can be seen of a run after it: how it ended, the simulation, and from the tracker the
trajectory, the pass number, the records and the summary rows. -/
structure Seen (σ φ M R T K V Row : Type) where
  outcome : Py Unit
  sim : Sim σ φ M R T
  tracker : Option (Sim σ φ M R T × Trajectory K × Nat × List (String × List (PropertyRecord T V)) ×
    List (T × Row))

/-- What can be seen of a run after it. -/
def seen {σ φ M R K : Type} (r : RunResult σ φ M R T K V Row) : Seen σ φ M R T K V Row :=
  ⟨r.outcome, r.sim, r.tracker.map fun rs =>
    (rs.sim, rs.traj, rs.currentPass, rs.sampler.records, rs.sampler.results)⟩

/-- The memory after one call of the function registered under `name`, and of its error handler
if the function raised. -/
def oneCall (b : LiveBehaviour W T V) (name : String) (w : W) (st : State T) : W :=
  match b.call name w st st.step st.time with
  | (.value _, _, w1) => w1
  | (.raised, _, w1) =>
    match b.handle name with
    | none => w1
    | some h => (h w1 st st.step st.time).2.2

/-- The memory after one step that left the simulation in `st`: every enabled function of the
plan whose interval divides the step number was called once, in the order of attachment.
`passLength` is the interval of functions for which none was given. -/
def stepCalls (b : LiveBehaviour W T V) (plan : PropertyPlan T V) (passLength : Nat) (w : W)
    (st : State T) : W :=
  plan.attached.foldl (fun w kv =>
    if kv.2.enabled = true ∧ OnMultiple ((kv.2.interval.orElse fun _ => plan.globalInterval).getD
        (max passLength 1 : Nat)) (tickOf st)
    then oneCall b kv.1 w st else w) w

end KMC.Spec
