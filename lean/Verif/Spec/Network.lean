import Verif.Model.KMC
import Mathlib.Analysis.Real.Sqrt
/-
Specification vocabulary for C117: parts of the event network that no event joins.
-/
namespace KMC.Spec

/-- Every event joins two sites, and no event joins sites of two different parts. -/
def NoBridge {P : Type} (events : List Event) (part : Nat → P) : Prop :=
  ∀ e ∈ events, ∃ i j : Nat, e.mobile = [(i : Int), (j : Int)] ∧ part i = part j

/-- How many sites of the part `p` carry the value `v`. -/
def countIn {P : Type} [DecidableEq P] (part : Nat → P) (p : P) (occ : List Int) (v : Int) : Nat :=
  ((Finset.range occ.length).filter fun i => part i = p ∧ occ[i]? = some v).card

/-- `f` is a shortest way, in fractional coordinates, from a site at `a` to a periodic image of
a site at `b`: each component is at most half a cell. -/
def ShortestStep {K : Type} [Field K] [LinearOrder K] (a b f : Vec3 K) : Prop :=
  ∀ c, |f c| ≤ 1 / 2 ∧ ∃ n : ℤ, f c = b c - a c + (n : K)

/-- The sites an event joins have the same coordinate along the lattice direction `c`, up to
whole cells: hops stay within layers. -/
def Layered {K : Type} [Field K] (coords : List (Vec3 K)) (events : List Event) (c : Fin 3) : Prop :=
  ∀ e ∈ events, ∀ (i j : Nat) (a b : Vec3 K), e.mobile = [(i : Int), (j : Int)] →
    coords[i]? = some a → coords[j]? = some b → ∃ n : ℤ, b c - a c = (n : K)

/-- Euclidean length. -/
noncomputable def length3 (v : Vec3 ℝ) : ℝ := Real.sqrt (v 0 ^ 2 + v 1 ^ 2 + v 2 ^ 2)

/-- No event joins sites further apart than `L` (shortest periodic images). -/
def HopsAtMost (coords : List (Vec3 ℝ)) (lattice : Matrix (Fin 3) (Fin 3) ℝ) (events : List Event)
    (L : ℝ) : Prop :=
  ∀ e ∈ events, ∀ (i j : Nat) (a b f : Vec3 ℝ), e.mobile = [(i : Int), (j : Int)] →
    coords[i]? = some a → coords[j]? = some b → ShortestStep a b f →
    length3 (Matrix.vecMul f lattice) ≤ L

end KMC.Spec
