import Verif.Spec.Basic
/-
Occupations chosen from an initial-state file.
-/
namespace KMC.Spec

/-- `out` holds, for every selected unit-cell site in the order of the selection, the values of its `size` copies as
they stand in `raw`, which lists the copies of one unit-cell site after the other.  Negative numbers in the selection
count from the end. -/
structure TakesSites (size : Nat) (sel : List Int) (raw out : List Int) : Prop where
  length : out.length = sel.length * size
  entry : ∀ (k : Nat) (b : Int), sel[k]? = some b → ∃ i, Denotes (raw.length / size) b i ∧
    ∀ j, j < size → ∃ v, raw[i * size + j]? = some v ∧ out[k * size + j]? = some v

end KMC.Spec
