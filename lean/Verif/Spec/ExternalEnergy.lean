import Verif.Model.Composite
import Verif.Spec.SiteEnergy
import Verif.Spec.OneSimulation
/-
A simulation without its rate model's memory, and rates computed directly from an energy of the whole
configuration.
-/
namespace KMC.Spec
open KMC

variable {σ φ M R T K V Row Rt : Type}

/-- The simulation without what its rate model remembers: events, state, rate table and cumulative table. -/
def forget (s : Sim σ φ M R T) : Sim σ φ Unit R T :=
  { lib := s.lib, st := s.st, ms := (), prob := s.prob, cum := s.cum }

/-- The same for a run under way: trajectory, records and pass number stay. -/
def forgetRun (s : RunState σ φ M R T K V Row) : RunState σ φ Unit R T K V Row :=
  { sim := forget s.sim, traj := s.traj, sampler := s.sampler, currentPass := s.currentPass }

/-- The same for everything that `run` leaves behind. -/
def forgetResult (r : RunResult σ φ M R T K V Row) : RunResult σ φ Unit R T K V Row :=
  { outcome := r.outcome, sim := forget r.sim, tracker := r.tracker.map forgetRun }

/-- The configuration after the hop: the two sites of the event have exchanged their contents. -/
def afterHop (e : Event) (occ : List Int) : Py (List Int) :=
  match e.mobile with
  | [f, t] =>
    match pyIdx occ.length f, pyIdx occ.length t with
    | some i, some j => .ok ((occ.set i (occ.getD j 0)).set j (occ.getD i 0))
    | _, _ => .error .indexError
  | _ => .error .valueError

/-- A site model that needs no memory: the energy of the whole configuration after the hop minus the energy
before. -/
noncomputable def energySource (E : List Int → ℝ) : SiteSource Unit T where
  initializeState := fun _ _ => .ok ()
  applyEvent := fun _ _ _ => (.ok (), ())
  difference := fun _ e st _ =>
    match afterHop e st.occ with
    | .error x => .error x
    | .ok occ => .ok (E occ - E st.occ)

/-- The external calculator always answers, and its answers are differences of the energy `Eext` between the
external occupation with the proposed changes and the external occupation as it is. -/
def GivesDifferences (m : SiteEnergy Rt T) (Eext : List ExtVal → ℝ) : Prop :=
  ∃ fn, m.computeFn = some fn ∧ ∀ rt ext changes e (st : State T), ∃ x : ℝ,
    fn rt ext changes e st = .ok (.number x) ∧
    x * m.units.factor = Eext (withChanges ext changes) - Eext ext

/-- If the external calculator has a function that is told of executed hops, it never fails. -/
def CommitNeverFails (m : SiteEnergy Rt T) : Prop :=
  ∀ fn, m.applyFn = some fn → ∀ rt ext changes e (st : State T), (fn rt ext changes e st).1 = .ok ()

/-- The external site `p` belongs to one of the listed active sites (of `n`). -/
def ShowsSite (m : SiteEnergy Rt T) (n : Nat) (sites : List Int) (p : Nat) : Prop :=
  ∃ i ∈ sites, ∃ k : Nat, pyIdx n i = some k ∧ extSite m k = some (p : Int)

/-- What a hop costs depends only on the sites the event lists: if two pairs of external occupations, before
and after, agree with each other on the external sites of the event, and nothing but the two ends of the hop
changes in either, then the energy changes by the same amount. -/
def LocalEnergy (m : SiteEnergy Rt T) (n : Nat) (events : List Event) (Eext : List ExtVal → ℝ) : Prop :=
  ∀ e ∈ events, ∀ a b a' b' : List ExtVal, b.length = a.length → a'.length = a.length → b'.length = a.length →
    (∀ p, ¬ ShowsSite m n e.mobile p → b[p]? = a[p]? ∧ b'[p]? = a'[p]?) →
    (∀ p, ShowsSite m n (e.mobile ++ e.env) p → a[p]? = a'[p]? ∧ b[p]? = b'[p]?) →
    Eext b - Eext a = Eext b' - Eext a'

/-- The simulation after `n` steps, as `simulated`, for a rate model with a memory. -/
noncomputable def simulatedWith (m : RateModel M ℝ EReal) (s0 : Sim σ φ M ℝ EReal) (equil : Nat)
    (draws : Nat → ℝ × ℝ) : Nat → Sim σ φ M ℝ EReal
  | 0 => s0
  | n + 1 =>
    match (simulatedWith m s0 equil draws n).propose (realKernel Rounding.exact) (draws n).1 (draws n).2 with
    | .ok (e, dt) =>
      ((simulatedWith m s0 equil draws n).update (realKernel Rounding.exact) m e
        (if n < equil then 0 else dt)).2
    | .error _ => simulatedWith m s0 equil draws n

end KMC.Spec
