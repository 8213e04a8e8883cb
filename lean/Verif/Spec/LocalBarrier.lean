import Verif.Spec.Basic
import Verif.Model.LocalBarrier
/-
What a local barrier rule says, in terms of sites, states and species.
-/
namespace KMC.Spec
open KMC KMC.LocalBarrier

/-- The site with Python index `i` carries state `v`. -/
def Carries (occ : List Int) (i v : Int) : Prop :=
  ∃ k, Denotes occ.length i k ∧ occ[k]? = some v

/-- The sites a selector stands for, on a structure with `n` active sites: `canonical` is the
event's endpoints and environment without repetitions, in order of first mention. -/
def selection (n : Nat) (e : Event) : Sites → List Int
  | .canonical => (e.mobile ++ e.env).eraseDups
  | .localEnv => e.env
  | .mobileIon => e.mobile
  | .fromSite => e.mobile.take 1
  | .toSite => (e.mobile.drop 1).take 1
  | .all => (List.range n).map fun (k : Nat) => (k : Int)
  | .listed l => l

/-- A number of sites satisfies the count constraints. -/
def Within (c : CountSpec) (k : Nat) : Prop :=
  (∀ a, c.count = some a → (k : Int) = a) ∧ (∀ a, c.minCount = some a → a ≤ (k : Int)) ∧
    (∀ a, c.maxCount = some a → (k : Int) ≤ a)

/-- The species table says that state `v` of site `i` is species `s`. -/
def SpeciesIs (table : List (Int × List (Int × String))) (i v : Int) (s : String) : Prop :=
  ∃ states, dictGet table i = some states ∧ dictGet states v = some s

/-- The rule describes this event in this configuration. -/
def Describes (table : List (Int × List (Int × String))) (occ : List Int) (e : Event) (r : Rule) :
    Prop :=
  (∀ l, r.mobile = some l → e.mobile = l) ∧ (∀ l, r.env = some l → e.env = l) ∧
  match r.kind with
  | .constant => True
  | .exact states sites =>
    (e.mobile ++ e.env).eraseDups = sites ∧ List.Forall₂ (Carries occ) sites states
  | .pattern s p =>
    List.Forall₂ (fun i x => ∃ v, Carries occ i v ∧ (x = none ∨ x = some v))
      (selection occ.length e s) p
  | .stateCount s v c =>
    ∃ states, List.Forall₂ (Carries occ) (selection occ.length e s) states ∧
      Within c (states.count v)
  | .speciesCount s names c =>
    ∃ found, List.Forall₂ (fun i name => ∃ v, Carries occ i v ∧ SpeciesIs table i v name)
        (selection occ.length e s) found ∧
      Within c (found.countP fun name => decide (name ∈ names))

/-- The rule can be evaluated for this event: its selected sites exist, its pattern has one
entry per selected site, and counted sites have a species. -/
def Evaluable (table : List (Int × List (Int × String))) (occ : List Int) (e : Event) (r : Rule) :
    Prop :=
  2 ≤ e.mobile.length ∧ (∀ i ∈ e.mobile ++ e.env, ∃ v, Carries occ i v) ∧
  match r.kind with
  | .constant => True
  | .exact _ _ => True
  | .pattern s p => (∀ i ∈ selection occ.length e s, ∃ v, Carries occ i v) ∧
      p.length = (selection occ.length e s).length
  | .stateCount s _ _ => ∀ i ∈ selection occ.length e s, ∃ v, Carries occ i v
  | .speciesCount s _ _ => ∀ i ∈ selection occ.length e s, ∃ v, Carries occ i v ∧
      ∃ name, SpeciesIs table i v name

/-- The rule reads no site outside the event. -/
def ReadsEventSitesOnly (r : Rule) : Prop :=
  match r.kind with
  | .constant => True
  | .exact _ _ => True
  | .pattern s _ => s ≠ .all ∧ ∀ l, s ≠ .listed l
  | .stateCount s _ _ => s ≠ .all ∧ ∀ l, s ≠ .listed l
  | .speciesCount s _ _ => s ≠ .all ∧ ∀ l, s ≠ .listed l

end KMC.Spec
