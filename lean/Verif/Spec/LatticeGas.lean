import Verif.Spec.RandomWalk
/-
Ions that only block each other.
-/
namespace KMC.Spec
open KMC

/-- A lattice gas on the sites `S`: `z` hops of length `a` lead out of every site and cancel, and every hop of an ion
to a vacant site has the rate `ν`, whatever the other sites hold.  So the ions influence each other only in that two
of them cannot be on one site. -/
structure LatticeGas {σ φ ψ : Type} (o : ActiveSiteOrder String ψ) (mobile : String) (m : RateModel Unit ℝ EReal)
    (g : Geometry ℝ) (s0 : Sim σ φ Unit ℝ EReal) (v : Event → Vec3 ℝ) (a ν : ℝ) (z : Nat) (S : Nat → Prop) : Prop where
  vector : ∀ e ∈ s0.lib.events, IsHopVector g e (v e)
  length : ∀ e ∈ s0.lib.events, sqLen (v e) = a ^ 2
  cancel : ∀ k, S k → (s0.lib.events.map (wayOut v k)).sum = 0
  ways : ∀ k, S k → s0.lib.events.countP (fun e => decide ((k : Int) ∈ e.mobile)) = z
  rate : ∀ x : State EReal, WellLabelled o mobile x.occ → ∀ e ∈ s0.lib.events, ∀ f t : Nat,
    e.mobile = [(f : Int), (t : Int)] →
    (speciesAt o x.occ f = some mobile ∧ Vacant o x.occ t) ∨
      (speciesAt o x.occ t = some mobile ∧ Vacant o x.occ f) → rateIn m x e = ν
  positive : 0 < a ∧ 0 < ν

end KMC.Spec
