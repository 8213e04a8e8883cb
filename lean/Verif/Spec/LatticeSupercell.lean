import Verif.Model.LatticeSupercell
/-
Words for the lattice structures made of another one.
-/
namespace KMC.Spec
open KMC

/-- The supercell of `n` cells as pymatgen lists it: all images of the first site of the template, then all
images of the second, and so on. -/
def ListsImages {P : Type} (sites n : Nat) (images : List (Nat × P)) : Prop :=
  images.length = sites * n ∧ ∀ (k : Nat) s, images[k]? = some s → s.1 = k / n

/-- pymatgen's `Species` of a text is an element, neither a text nor a vacancy. -/
def ReadsElements (parse : String → Py Specie) : Prop :=
  ∀ x s, parse x = .ok s → s.text = false ∧ s.isVacancy = false

/-- Every site of `l'` allows what the site of `l` allows that it is an image of. -/
def AllowsLikeItsSite {P : Type} (l : Lattice P) (images : List (Nat × P)) (l' : Lattice P) : Prop :=
  l'.allowed.length = images.length ∧
  ∀ (k : Nat) s, images[k]? = some s → l'.allowed[k]? = l.allowed[s.1]?

/-- All sites allow the same species in the same order. -/
def AllSitesAlike {P : Type} (l : Lattice P) : Prop := ∀ a ∈ l.allowed, ∀ b ∈ l.allowed, a = b

end KMC.Spec
