import Verif.Spec.Path
import Verif.Spec.Transport
/-
Averages over all runs, and random walks.
-/
namespace KMC.Spec
open KMC

/-- The mean of `F` over the lists of the first `n` events of the Markov chain that has the model's rates and
starts in the state: the next event is chosen in proportion to its rate. -/
noncomputable def expectedOver (m : RateModel Unit ℝ EReal) (events : List Event) :
    Nat → State EReal → (List Event → ℝ) → ℝ
  | 0, _, F => F []
  | n + 1, st, F => (events.map fun e => rateIn m st e / totalRate m events st *
      expectedOver m events n (st.applyEvent e 0).2 (fun p => F (e :: p))).sum

/-- The mean time that the first `n` events of that chain take: each takes one over the total rate. -/
noncomputable def expectedTime (m : RateModel Unit ℝ EReal) (events : List Event) : Nat → State EReal → ℝ
  | 0, _ => 0
  | n + 1, st => 1 / totalRate m events st + (events.map fun e => rateIn m st e / totalRate m events st *
      expectedTime m events n (st.applyEvent e 0).2).sum

/-- `v` leads from the first site of the event to the second one: the difference of their positions, with the
image of the second site that is less than half a cell away along every axis. -/
def IsHopVector (g : Geometry ℝ) (e : Event) (v : Vec3 ℝ) : Prop :=
  ∃ (f t : Nat) (pf pt : Vec3 ℝ) (n : Fin 3 → ℤ), e.mobile = [(f : Int), (t : Int)] ∧
    g.fracCoords[f]? = some pf ∧ g.fracCoords[t]? = some pt ∧ (∀ c, |pt c - pf c + n c| < 1 / 2) ∧
    v = Matrix.vecMul (fun c => pt c - pf c + n c) g.lattice

open Classical in
/-- The way the ion of the event goes: `v e` if the ion is on the first site, back if it is on the second. -/
noncomputable def wayOf {ψ : Type} (o : ActiveSiteOrder String ψ) (mobile : String) (v : Event → Vec3 ℝ)
    (occ : List Int) (e : Event) : Vec3 ℝ :=
  match e.mobile with
  | [f, t] =>
    if speciesAt o occ f.toNat = some mobile then v e
    else if speciesAt o occ t.toNat = some mobile then -v e
    else 0
  | _ => 0

/-- A random walk without drift: all hops have the same length `a`, in no configuration that the simulation
reaches is everything at rest, and in every one the hops, weighted by their rates, lead nowhere on average. -/
structure Unbiased {σ φ ψ : Type} (o : ActiveSiteOrder String ψ) (mobile : String) (m : RateModel Unit ℝ EReal)
    (g : Geometry ℝ) (s0 : Sim σ φ Unit ℝ EReal) (v : Event → Vec3 ℝ) (a : ℝ) : Prop where
  vector : ∀ e ∈ s0.lib.events, IsHopVector g e (v e)
  length : ∀ e ∈ s0.lib.events, sqLen (v e) = a ^ 2
  alive : ∀ s, Reaches m s0 s → ¬ Stuck m s
  level : ∀ s, Reaches m s0 s →
    (s0.lib.events.map fun e => rateIn m s.st e • wayOf o mobile v s.st.occ e).sum = 0

/-- `X` is the value of `f` for the tracker and the simulation with which the completed run ends, for almost every
sequence of random numbers. -/
def AtTheEnd {σ φ V Row Θ : Type} [MeasurableSpace Θ] (μ : MeasureTheory.Measure Θ) (U : Nat → Θ → ℝ × ℝ)
    (m : RateModel Unit ℝ EReal) (g : Geometry ℝ) (lookup : Option HopStateLookup)
    (summary : Trajectory ℝ → EReal → List (String × Bool) → Row) (plan : PropertyPlan EReal V)
    (len equil prod : Nat) (s0 : Sim σ φ Unit ℝ EReal) (f : Trajectory ℝ → Sim σ φ Unit ℝ EReal → ℝ)
    (X : Θ → ℝ) : Prop :=
  ∀ᵐ ω ∂μ, ∃ rs : RunState σ φ Unit ℝ EReal ℝ V Row,
    (s0.run (realKernel Rounding.exact) m g lookup summary plan (fun k => U k ω) len equil prod).outcome = .ok () ∧
    (s0.run (realKernel Rounding.exact) m g lookup summary plan (fun k => U k ω) len equil prod).tracker =
      some rs ∧ X ω = f rs.traj rs.sim

/-- The mean of `f`, for the tracker and the simulation with which the run ends, over all sequences of random
numbers is `x`. -/
def MeanAtTheEnd {σ φ V Row Θ : Type} [MeasurableSpace Θ] (μ : MeasureTheory.Measure Θ) (U : Nat → Θ → ℝ × ℝ)
    (m : RateModel Unit ℝ EReal) (g : Geometry ℝ) (lookup : Option HopStateLookup)
    (summary : Trajectory ℝ → EReal → List (String × Bool) → Row) (plan : PropertyPlan EReal V)
    (len equil prod : Nat) (s0 : Sim σ φ Unit ℝ EReal) (f : Trajectory ℝ → Sim σ φ Unit ℝ EReal → ℝ)
    (x : ℝ) : Prop :=
  ∃ X : Θ → ℝ, MeasureTheory.Integrable X μ ∧
    AtTheEnd μ U m g lookup summary plan len equil prod s0 f X ∧ ∫ ω, X ω ∂μ = x

/-- The way out of site `k` along the event, `0` if the event does not touch it. -/
noncomputable def wayOut (v : Event → Vec3 ℝ) (k : Nat) (e : Event) : Vec3 ℝ :=
  match e.mobile with
  | [f, t] => if f = (k : Int) then v e else if t = (k : Int) then -v e else 0
  | _ => 0

/-- One ion alone in a lattice of equal sites: exactly one site holds an ion and all others are vacant, `z` hops of
length `a` lead out of every site and cancel, and every possible hop has the rate `ν`. -/
structure LoneIon {σ φ ψ : Type} (o : ActiveSiteOrder String ψ) (mobile : String) (m : RateModel Unit ℝ EReal)
    (g : Geometry ℝ) (s0 : Sim σ φ Unit ℝ EReal) (v : Event → Vec3 ℝ) (a ν : ℝ) (z : Nat) : Prop where
  ion : ∃ k, k < s0.st.occ.length ∧ speciesAt o s0.st.occ k = some mobile ∧
    ∀ j, j < s0.st.occ.length → j ≠ k → Vacant o s0.st.occ j
  vector : ∀ e ∈ s0.lib.events, IsHopVector g e (v e)
  length : ∀ e ∈ s0.lib.events, sqLen (v e) = a ^ 2
  cancel : ∀ k, k < s0.st.occ.length → (s0.lib.events.map (wayOut v k)).sum = 0
  ways : ∀ k, k < s0.st.occ.length → s0.lib.events.countP (fun e => decide ((k : Int) ∈ e.mobile)) = z
  rate : ∀ s, Reaches m s0 s → ∀ e ∈ s0.lib.events, ∀ f t : Nat, e.mobile = [(f : Int), (t : Int)] →
    (speciesAt o s.st.occ f = some mobile ∧ Vacant o s.st.occ t) ∨
      (speciesAt o s.st.occ t = some mobile ∧ Vacant o s.st.occ f) → rateIn m s.st e = ν
  positive : 0 < a ∧ 0 < ν ∧ 0 < z

end KMC.Spec
