import Verif.Model.Shared
/-
When simulations in one Python process are apart from each other, and what one of them looks like.
-/
namespace KMC.Spec
open KMC KMC.Shared

/-- A model object that remembers nothing: its cache is always the same value `c`. -/
structure RemembersNothing {M R T : Type} (c : M) (m : RateModel M R T) : Prop where
  start : ∀ st es c', m.initializeState st es = .ok c' → c' = c
  follow : ∀ e st, (m.applyEvent c e st).2 = c

/-- Two simulations do not disturb each other: they have different state objects, a model object
they share remembers nothing, and if they share an event object they read it with the same hop
lookup. -/
structure KeptApart {σ φ M R T U K V Row : Type} (g h : Given σ φ M R T U K V Row) : Prop where
  state : g.stateAt ≠ h.stateAt
  model : g.modelAt = h.modelAt → ∃ c, RemembersNothing c g.model ∧ RemembersNothing c h.model
  events : ∀ a, a ∈ g.eventsAt → a ∈ h.eventsAt → g.lookup = h.lookup

/-- The actions of simulation `i` in a program. -/
def ownActions {T U : Type} (i : Nat) (prog : List (Nat × Action T U)) : List (Nat × Action T U) :=
  prog.filter fun x => x.1 == i

/-- What the actions of simulation `i` returned or raised. -/
def ownOutcomes (i : Nat) (rs : List (Nat × Py Unit)) : List (Nat × Py Unit) := rs.filter fun x => x.1 == i

variable {σ φ M R T U K V Row : Type}

/-- Simulation `i` as it can be observed through its `KMC` object: state, event library, model cache,
rate tables; `none` if it has not been constructed. -/
def observed (g : Given σ φ M R T U K V Row) (i : Nat) (w : Process M R T K V Row) : Option (Sim σ φ M R T) :=
  (w.own i).map fun o =>
    { lib := g.library w.mem, st := w.mem.states g.stateAt, ms := w.mem.caches g.modelAt, prob := o.prob, cum := o.cum }

/-- The tracker of simulation `i`, if a run has created one. -/
def observedTracker (i : Nat) (w : Process M R T K V Row) : Option (Trajectory K × Sampler T V Row × Nat) :=
  (w.own i).bind fun o => o.tracker

/-- Equilibration steps with the random numbers of `rng` from number `c` on. -/
def equilActions (i : Nat) (rng : Nat → U × U) : Nat → Nat → List (Nat × Action T U)
  | 0, _ => []
  | n + 1, c => (i, .equil (rng c).1 (rng c).2) :: equilActions i rng n (c + 1)

/-- Production steps. -/
def prodActions (i : Nat) (rng : Nat → U × U) : Nat → Nat → List (Nat × Action T U)
  | 0, _ => []
  | n + 1, c => (i, .prod (rng c).1 (rng c).2) :: prodActions i rng n (c + 1)

/-- Production passes. -/
def passActions (i : Nat) (rng : Nat → U × U) (len : Nat) : Nat → Nat → Nat → List (Nat × Action T U)
  | 0, _, _ => []
  | n + 1, pass, c => prodActions i rng len c ++ (i, .endPass pass) :: passActions i rng len n (pass + 1) (c + len)

/-- The actions of constructing a simulation and running it once: `equil` equilibration passes and `prod` passes of
`len` steps, with the random numbers of `rng`. -/
def runActions (i : Nat) (rng : Nat → U × U) (len equil prod : Nat) : List (Nat × Action T U) :=
  (i, .construct) :: (equilActions i rng (equil * len) 0 ++
    (i, .track) :: passActions i rng len prod 0 (equil * len))

/-- `Tracker.time`, `tracker.py:197-199`: the time of the state object the tracker refers to. -/
def trackerTime (g : Given σ φ M R T U K V Row) (w : Process M R T K V Row) : T := (w.mem.states g.stateAt).time

end KMC.Spec
