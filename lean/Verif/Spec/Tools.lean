import Verif.Model.Tools
import Verif.Spec.FromConfig
/-
What the occupations read from a Monte Carlo structure should be.
-/
namespace KMC.Spec
open Tools

variable {K : Type} [Field K] [LinearOrder K] [FloorRing K]

/-- A periodic image of the point `a` lies within a millionth of an Ångström of the point `b`. -/
def AtSite (lattice : Matrix (Fin 3) (Fin 3) K) (a b : Vec3 K) : Prop :=
  ∃ n : Fin 3 → ℤ, normSq (Matrix.vecMul (fun c => a c - b c - (n c : K)) lattice) < (1 / 10 ^ 6) ^ 2

/-- The cell is so large that vectors shorter than a millionth of an Ångström are less than half a cell long along
every axis. -/
def LargeCell (lattice : Matrix (Fin 3) (Fin 3) K) : Prop :=
  ∀ v : Vec3 K, normSq (Matrix.vecMul v lattice) < (1 / 10 ^ 6) ^ 2 → ∀ c, |v c| < 1 / 2

/-- No two atoms are at the same site of the template. -/
def OneAtomPerSite (lattice : Matrix (Fin 3) (Fin 3) K) (atoms template : Atoms K) : Prop :=
  ∀ site ∈ template, ∀ a ∈ atoms, ∀ b ∈ atoms, AtSite lattice a.1 site.1 → AtSite lattice b.1 site.1 → a = b

/-- The atom that the template has at the site is there: an atom with the same symbol. -/
def Present (lattice : Matrix (Fin 3) (Fin 3) K) (atoms : Atoms K) (site : Vec3 K × String) : Prop :=
  ∃ a ∈ atoms, AtSite lattice a.1 site.1 ∧ a.2 = site.2

end KMC.Spec
