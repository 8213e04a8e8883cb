import Verif.Spec.HopSystem
import Verif.Spec.Basic
import Mathlib.Logic.Relation
/-
When a simulation can go on: a model that always answers, a system that is stuck, and a connected network of
hops.
-/
namespace KMC.Spec
open KMC

/-- The model answers whenever the simulation asks it about one of the listed hops in a state with the same
composition as `occ` in which every site holds one of its allowed species. -/
structure Answers {φ R T : Type} (o : ActiveSiteOrder String φ) (mobile : String) (m : RateModel Unit R T)
    (events : List Event) (occ : List Int) : Prop where
  start : ∀ st es, m.initializeState st es = .ok ()
  commit : ∀ e st, (m.applyEvent () e st).1 = .ok ()
  rate : ∀ (e : Event) (st : State T), (∃ x ∈ events, e.mobile = x.mobile ∧ e.env = x.env) →
    SameComposition st.occ occ → WellLabelled o mobile st.occ → ∃ p, m.computeProbability () e st = .ok p

/-- The model gives every hop that is possible in the current state a positive rate. -/
def Willing {T : Type} (m : RateModel Unit ℝ T) : Prop :=
  ∀ (e : Event) (st : State T) d p, eventDirection st.occ e = .ok d → d ≠ 0 →
    m.computeProbability () e st = .ok p → 0 < p

/-- No event can happen any more: every event has rate zero. -/
def Stuck {σ φ : Type} (m : RateModel Unit ℝ EReal) (s : Sim σ φ Unit ℝ EReal) : Prop :=
  ∀ e ∈ s.lib.events, ∀ p, m.computeProbability () e s.st = .ok p → p = 0

/-- Some listed event joins the two sites. -/
def Linked (events : List Event) (i j : Nat) : Prop :=
  ∃ e ∈ events, e.mobile = [(i : Int), (j : Int)] ∨ e.mobile = [(j : Int), (i : Int)]

/-- Site `i` is vacant. -/
def Vacant {φ : Type} (o : ActiveSiteOrder String φ) (occ : List Int) (i : Nat) : Prop :=
  ∃ v, IsVacancyLabel v ∧ speciesAt o occ i = some v

/-- The sites `S` are a network for the mobile species: hops join only them, one can go from each to each
other by hops, they hold nothing but mobile ions and vacancies, and at least one of each. -/
structure Network {φ : Type} (o : ActiveSiteOrder String φ) (mobile : String) (events : List Event)
    (occ : List Int) (S : Nat → Prop) : Prop where
  ends : ∀ e ∈ events, ∀ f t : Nat, e.mobile = [(f : Int), (t : Int)] → S f ∧ S t
  connected : ∀ i j, S i → S j → Relation.ReflTransGen (Linked events) i j
  filled : ∀ i, S i → speciesAt o occ i = some mobile ∨ Vacant o occ i
  ion : ∃ i, S i ∧ speciesAt o occ i = some mobile
  vacancy : ∃ i, S i ∧ Vacant o occ i

end KMC.Spec
