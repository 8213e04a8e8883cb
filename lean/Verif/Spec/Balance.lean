import Verif.Model.KMC
import Verif.Model.Hop
import Verif.Spec.LCE
import Mathlib.Analysis.SpecialFunctions.Exp
/-
Detailed balance, in terms of rates before and after hops.
-/
namespace KMC.Spec
open KMC

/-- The event can be undone by itself: both endpoints number the mobile ion alike and the
vacancy alike, and these numbers differ. -/
def TwoWay (e : Event) : Prop :=
  ∃ c, e.codes = some c ∧ c.mobFrom = c.mobTo ∧ c.vacFrom = c.vacTo ∧ c.mobFrom ≠ c.vacFrom

/-- In a vector of `n` sites no entry of the event's local environment is one of its two
endpoints. -/
def SurroundingsApart (n : Nat) (e : Event) : Prop :=
  ∀ i ∈ e.env, ∀ j ∈ e.mobile, pyIdx n i = none ∨ pyIdx n i ≠ pyIdx n j

/-- `HopPath m x h y`: the possible hops listed in `h` were executed one after the other from
`x` (model state and simulation state) to `y`.  For every hop `h` records the event, its rate
before the hop, and the rate of the same event (now the way back) after the hop. -/
inductive HopPath {M T : Type} [Add T] (m : RateModel M ℝ T) :
    M × State T → List (Event × ℝ × ℝ) → M × State T → Prop
  | nil (x : M × State T) : HopPath m x [] x
  | cons {ms ms' : M} {st st' : State T} {y : M × State T} {e : Event} {dt : T} {d : Int}
      {p p' : ℝ} {h : List (Event × ℝ × ℝ)} :
      eventDirection st.occ e = .ok d → d ≠ 0 →
      m.computeProbability ms e st = .ok p →
      st.applyEvent e dt = (.ok (), st') →
      m.applyEvent ms e st' = (.ok (), ms') →
      m.computeProbability ms' e st' = .ok p' →
      HopPath m (ms', st') h y →
      HopPath m (ms, st) ((e, p, p') :: h) y

/-- The product of all rates forward along a path over the product of all rates back. -/
noncomputable def pathRatio (h : List (Event × ℝ × ℝ)) : ℝ := (h.map fun x => x.2.1 / x.2.2).prod

end KMC.Spec
