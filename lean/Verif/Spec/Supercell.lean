import Verif.Model.Generator
/-
Specification vocabulary for supercells and generated events.
-/
namespace KMC.Spec
open KMC

/-- Number of cells of a supercell. -/
def cellCount (shape : Nat × Nat × Nat) : Nat := shape.1 * shape.2.1 * shape.2.2

/-- A cell inside the supercell. -/
def Inside (shape : Nat × Nat × Nat) (t : Cell) : Prop :=
  (0 ≤ t.1 ∧ t.1 < shape.1) ∧ (0 ≤ t.2.1 ∧ t.2.1 < shape.2.1) ∧ (0 ≤ t.2.2 ∧ t.2.2 < shape.2.2)

/-- Two cells are periodic images of each other. -/
def SameImage (shape : Nat × Nat × Nat) (t u : Cell) : Prop :=
  ∃ i j k : Int, t.1 = u.1 + i * shape.1 ∧ t.2.1 = u.2.1 + j * shape.2.1 ∧
    t.2.2 = u.2.2 + k * shape.2.2

/-- Sum of two cell vectors. -/
def shift (t v : Cell) : Cell := (t.1 + v.1, t.2.1 + v.2.1, t.2.2 + v.2.2)

/-- Event with renumbered sites. -/
def relabel (π : Nat → Nat) (e : Event) : Event :=
  { e with
    mobile := e.mobile.map fun i => ((π i.toNat : Nat) : Int)
    env := e.env.map fun i => ((π i.toNat : Nat) : Int) }

/-- `π` is the periodic translation of the numbered sites `sites` by `v`: a permutation of
the site numbers which keeps the unit-cell site and moves the cell by `v`, up to periodic
images. -/
structure IsTranslation {α : Type} (shape : Nat × Nat × Nat) (sites : List (α × Cell)) (v : Cell)
    (π : Nat → Nat) : Prop where
  inj : ∀ i j, i < sites.length → j < sites.length → π i = π j → i = j
  site : ∀ i s t, sites[i]? = some (s, t) →
    ∃ t', sites[π i]? = some (s, t') ∧ SameImage shape t' (shift t v)

end KMC.Spec
