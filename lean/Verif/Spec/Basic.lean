/-
Small specification vocabulary, independent of the model's helper functions.
-/
namespace KMC.Spec

/-- `b` is `a` with the entries at positions `i` and `j` exchanged and every other
entry untouched. -/
def Exchanged {α : Type} (i j : Nat) (a b : List α) : Prop :=
  b.length = a.length ∧ b[i]? = a[j]? ∧ b[j]? = a[i]? ∧
    ∀ k, k ≠ i → k ≠ j → b[k]? = a[k]?

/-- Same multiset of entries: every value occurs equally often. -/
def SameComposition (a b : List Int) : Prop :=
  a.length = b.length ∧ ∀ v : Int, a.count v = b.count v

/-- The position a Python index denotes in a sequence of length `n`. -/
def Denotes (n : Nat) (i : Int) (k : Nat) : Prop :=
  k < n ∧ ((0 ≤ i ∧ i = (k : Int)) ∨ (i < 0 ∧ i + (n : Int) = (k : Int)))

/-- The two index lists share a site. -/
def ShareSite (a b : List Int) : Prop := ∃ s, s ∈ a ∧ s ∈ b

end KMC.Spec
