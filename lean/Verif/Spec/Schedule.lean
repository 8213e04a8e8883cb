import Verif.Model.KMC
/-
When properties are sampled and which records are kept, independently of the code.
-/
namespace KMC.Spec
open KMC

variable {T V Row : Type}

/-- A sampling opportunity: the state that is offered to the properties, the step number
and the simulation time. -/
structure Tick (T : Type) where
  st : State T
  step : Int
  time : T

/-- `Sampled s ticks s'`: the sampling opportunities `ticks` were offered to the sampler one
after the other, none failed, and the sampler went from `s` to `s'`.  The built-in summary may
be any function, different at each opportunity. -/
inductive Sampled [Sub T] [LE T] [DecidableLE T] :
    Sampler T V Row → List (Tick T) → Sampler T V Row → Prop
  | nil (s : Sampler T V Row) : Sampled s [] s
  | cons {s s1 s2 : Sampler T V Row} {tk : Tick T} {ticks : List (Tick T)}
      (summary : List (String × Bool) → Row) :
      s.sampleProperties summary tk.st tk.step tk.time = (.ok (), s1) →
      Sampled s1 ticks s2 → Sampled s (tk :: ticks) s2

/-- At least `τ` has passed since the last sample (since time zero if there was none). -/
def Elapsed [Sub T] [LE T] (τ : T) : Option T → T → Prop
  | none, t => τ ≤ t
  | some last, t => τ ≤ t - last

/-- `Greedy τ last ticks fired`: `fired` are the opportunities taken by a sampler that takes
an opportunity exactly when `τ` has elapsed since the last one it took. -/
inductive Greedy [Sub T] [LE T] (τ : T) : Option T → List (Tick T) → List (Tick T) → Prop
  | nil (last : Option T) : Greedy τ last [] []
  | take {last : Option T} {tk : Tick T} {ticks fired : List (Tick T)} :
      Elapsed τ last tk.time → Greedy τ (some tk.time) ticks fired →
      Greedy τ last (tk :: ticks) (tk :: fired)
  | skip {last : Option T} {tk : Tick T} {ticks fired : List (Tick T)} :
      ¬ Elapsed τ last tk.time → Greedy τ last ticks fired → Greedy τ last (tk :: ticks) fired

/-- An opportunity is due for a step interval and a time interval, each optional: a positive
multiple of the step interval, or the time interval has elapsed. -/
def Due [Sub T] [LE T] (interval : Option Int) (timeInterval : Option T) (last : Option T)
    (tk : Tick T) : Prop :=
  (∃ i, interval = some i ∧ 0 < tk.step ∧ i ∣ tk.step) ∨
  (∃ τ, timeInterval = some τ ∧ Elapsed τ last tk.time)

/-- `Scheduled interval timeInterval last ticks fired`: `fired` are the opportunities that were
due, the time of the last one taken being remembered. -/
inductive Scheduled [Sub T] [LE T] (interval : Option Int) (timeInterval : Option T) :
    Option T → List (Tick T) → List (Tick T) → Prop
  | nil (last : Option T) : Scheduled interval timeInterval last [] []
  | take {last : Option T} {tk : Tick T} {ticks fired : List (Tick T)} :
      Due interval timeInterval last tk → Scheduled interval timeInterval (some tk.time) ticks fired →
      Scheduled interval timeInterval last (tk :: ticks) (tk :: fired)
  | skip {last : Option T} {tk : Tick T} {ticks fired : List (Tick T)} :
      ¬ Due interval timeInterval last tk → Scheduled interval timeInterval last ticks fired →
      Scheduled interval timeInterval last (tk :: ticks) fired

/-- The first value that is given. -/
def firstGiven {α : Type} : List (Option α) → Option α
  | [] => none
  | some a :: _ => some a
  | none :: l => firstGiven l

/-- The last `m` items of a list (all of them without a limit). -/
def keepLast {α : Type} : Option Int → List α → List α
  | none, l => l
  | some m, l => l.drop (l.length - m.toNat)

/-- The record of a callback `f` called `name` at an opportunity; none if it raised. -/
def recordAt (name : String) (f : State T → Int → T → CallResult V) (tk : Tick T) :
    Option (PropertyRecord T V) :=
  match f tk.st tk.step tk.time with
  | .value v => some ⟨name, tk.step, tk.time, v⟩
  | .raised => none

/-- A step-interval sampler takes the steps that are positive multiples of `k`. -/
def OnMultiple (k : Int) (tk : Tick T) : Prop := 0 < tk.step ∧ k ∣ tk.step

instance (k : Int) : DecidablePred (OnMultiple (T := T) k) := fun tk =>
  inferInstanceAs (Decidable (0 < tk.step ∧ k ∣ tk.step))

/-- `Visited c s states s'`: production steps from `s` to `s'` starting with draw number `c`;
`states` lists the state after each step. -/
inductive Visited {σ φ M R U : Type} [Add T] (k : Kernel R T U) (m : RateModel M R T)
    (rng : Nat → U × U) : Nat → Sim σ φ M R T → List (State T) → Sim σ φ M R T → Prop
  | nil (c : Nat) (s : Sim σ φ M R T) : Visited k m rng c s [] s
  | cons {c : Nat} {s s1 s2 : Sim σ φ M R T} {e : Event} {dt : T} {states : List (State T)} :
      s.propose k (rng c).1 (rng c).2 = .ok (e, dt) →
      s.update k m e dt = (.ok (), s1) →
      Visited k m rng (c + 1) s1 states s2 →
      Visited k m rng c s (s1.st :: states) s2

/-- `Observed c s t obs s' t'`: production steps with tracker from simulation `s` and trajectory
`t`; `obs` lists the state and the trajectory after each step. -/
inductive Observed {σ φ M R U K : Type} [Field K] [LinearOrder K] [FloorRing K] [Add T]
    (k : Kernel R T U) (m : RateModel M R T) (g : Geometry K) (rng : Nat → U × U) :
    Nat → Sim σ φ M R T → Trajectory K → List (State T × Trajectory K) → Sim σ φ M R T →
      Trajectory K → Prop
  | nil (c : Nat) (s : Sim σ φ M R T) (t : Trajectory K) : Observed k m g rng c s t [] s t
  | cons {c : Nat} {s s1 s2 : Sim σ φ M R T} {t t1 t2 : Trajectory K} {e : Event} {dt : T}
      {obs : List (State T × Trajectory K)} :
      s.propose k (rng c).1 (rng c).2 = .ok (e, dt) →
      t.update g s.st.occ e = (.ok (), t1) →
      s.update k m e dt = (.ok (), s1) →
      Observed k m g rng (c + 1) s1 t1 obs s2 t2 →
      Observed k m g rng c s t ((s1.st, t1) :: obs) s2 t2

/-- A callback that cannot stop a run: at every opportunity it returns a value, or its error
handler tolerates the exception. -/
def Tolerant (spec : PropertySpec T V) : Prop :=
  ∀ (st : State T) (step : Int) (t : T), (∃ v, spec.callback st step t = .value v) ∨
    (∃ h, spec.onError = some h ∧ h st step t = some true)

/-- The opportunity a production step offers: the new state with its own step and time. -/
def tickOf (st : State T) : Tick T := ⟨st, st.step, st.time⟩

end KMC.Spec
