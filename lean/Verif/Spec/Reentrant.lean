import Verif.Model.Reentrant
/-
Vocabulary for registration calls made from inside callbacks.
-/
namespace KMC.Spec
open KMC Reentrant

variable {W T V Row : Type}

/-- A new tracker after these registration calls, before anything was sampled. -/
def newTracker [Zero T] [LE T] [DecidableLE T] (w : W) (cs : List (RegCall T V)) : Env W T V Row :=
  { world := w, reg := ({} : Reg T V Row).applyAll cs }

/-- Every registration call that any callback or error handler ever makes satisfies `P`. -/
def EveryCall (b : Behaviour W T V Row) (P : RegCall T V → Prop) : Prop :=
  (∀ i w st g step t, ∀ c ∈ (b.call i w st g step t).2.1, P c) ∧
  (∀ i h, b.handle i = some h → ∀ w st g step t, ∀ c ∈ (h w st g step t).2.1, P c)

/-- The call takes something out of the tracker. -/
def Removes : RegCall T V → Prop
  | .detach _ => True
  | .clear => True
  | _ => False

/-- The function of object `i`, registered as `n`, always disables or detaches itself. -/
def StopsItself (b : Behaviour W T V Row) (i : Nat) (n : String) : Prop :=
  ∀ w st g step t, ∃ c ∈ (b.call i w st g step t).2.1, c = .enable n false ∨ c = .detach n ∨ c = .clear

/-- The functions of these objects do what their specs say and make no registration calls. -/
def AsRegistered (b : Behaviour W T V Row) (objects : List (PropertySpec T V)) : Prop :=
  ∀ (i : Nat) s, objects[i]? = some s →
    (∀ w st g step t, b.call i w st g step t = (s.callback st step t, [], w)) ∧
    b.handle i = s.onError.map fun h w st _ step t => (h st step t, [], w)

/-- A tracker without object identities that shows the same: same schedule, flags, records and rows, and under
every name the spec that the object has. -/
structure ShowsSame (g : Reg T V Row) (s : Sampler T V Row) : Prop where
  interval : s.globalInterval = g.globalInterval
  timeInterval : s.globalTimeInterval = g.globalTimeInterval
  builtin : s.builtin = g.builtin
  records : s.records = g.records
  results : s.results = g.results
  lastSummary : s.lastSummaryTriggerTime = g.lastSummaryTriggerTime
  properties : List.Forall₂ (fun x y => y.1 = x.1 ∧ g.objects[x.2]? = some y.2) g.properties s.properties

/-- The same call made from outside, between samplings, on a tracker without object identities. -/
def fromOutside [Zero T] [LE T] [DecidableLE T] (s : Sampler T V Row) : RegCall T V → Sampler T V Row
  | .attach a => (s.attach a).2
  | .detach name => (s.detach name).2
  | .clear => s.clearAttachments
  | .enable name on => (s.setPropertyEnabled name on).2
  | .frequency interval timeInterval => (s.setGlobalFrequency interval timeInterval).2

end KMC.Spec
