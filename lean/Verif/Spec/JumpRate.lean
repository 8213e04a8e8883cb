import Verif.Spec.Equilibrium
import Verif.Spec.GeneratorInputs
/-
How fast one configuration turns into another, and when a supercell is wide enough for the hops in it to be
told apart.
-/
namespace KMC.Spec
open KMC Generate

variable {σ φ S K : Type}

/-- The rate at which the simulation `s` goes to the configuration `y`: the probability that its next step leads
there, over the mean time until the next step. -/
noncomputable def jumpRate (m : RateModel Unit ℝ EReal) (r1 r2 : ℝ) (s : Sim σ φ Unit ℝ EReal) (y : List Int) : ℝ :=
  chance m r2 s y / meanStay r1 s

/-- Site `q` of the cell `v` is a neighbour of site `p` of the unit cell: it is another site, closer than the
radius for the two species. -/
def Near [LinearOrder K] [Zero K] (cell : List (LabeledSite σ)) (radius : LabeledSite σ → LabeledSite σ → K → Prop)
    (d : Nat → Nat → Cell → K) (p q : Nat) (v : Cell) : Prop :=
  (p ≠ q ∨ v ≠ (0, 0, 0)) ∧ ∃ s s' r, cell[p]? = some s ∧ cell[q]? = some s' ∧ radius s s' r ∧ d p q v < r

/-- The supercell is wide enough: no two neighbours of a site are the same site of the supercell, and no site is
its own neighbour through the boundary. -/
structure WideEnough (shape : Nat × Nat × Nat) (near : Nat → Nat → Cell → Prop) : Prop where
  once : ∀ p q v w, near p q v → near p q w → SameImage shape v w → v = w
  others : ∀ p v, near p p v → ¬ SameImage shape v (0, 0, 0)

/-- The ion of the mobile species is on site `i`, and site `j` is vacant. -/
def CanJump {ψ : Type} (o : ActiveSiteOrder String ψ) (mobile : String) (x : List Int) (i j : Nat) : Prop :=
  speciesAt o x i = some mobile ∧ ∃ v, speciesAt o x j = some v ∧ IsVacancyLabel v

end KMC.Spec
