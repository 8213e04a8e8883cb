import Verif.Spec.Balance
import Verif.Spec.Equilibrium
import Verif.Model.Composite
/-
The work that a site model reports along a sequence of hops.
-/
namespace KMC.Spec
open KMC

/-- `WorkPath c kB temp ν events x w y`: possible hops of listed events were executed one after the other from `x`
(model state and simulation state) to `y`, every hop and every way back has a rate, and `w` is the sum over
the hops of half of (the reported energy difference of the hop minus the reported difference of its way back).  If a
model reports the differences of an energy, then this is the energy of `y` minus the energy of `x`. -/
inductive WorkPath {M T : Type} [Add T] (c : Composite M T) (kB temp ν : ℝ) (events : List Event) :
    M × State T → ℝ → M × State T → Prop
  | nil (x : M × State T) : WorkPath c kB temp ν events x 0 x
  | cons {ms ms' : M} {st st' : State T} {y : M × State T} {e : Event} {dt : T} {d d' : Int}
      {p p' δ δ' w : ℝ} :
      e ∈ events →
      eventDirection st.occ e = .ok d → d ≠ 0 →
      c.computeProbability kB temp ν ms e st = .ok p → c.site.difference ms e st d = .ok δ →
      st.applyEvent e dt = (.ok (), st') →
      c.site.applyEvent ms e st' = (.ok (), ms') →
      eventDirection st'.occ e = .ok d' →
      c.computeProbability kB temp ν ms' e st' = .ok p' → c.site.difference ms' e st' d' = .ok δ' →
      WorkPath c kB temp ν events (ms', st') w y →
      WorkPath c kB temp ν events (ms, st) ((δ - δ') / 2 + w) y

end KMC.Spec
