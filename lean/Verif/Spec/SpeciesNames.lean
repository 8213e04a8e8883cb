import Mathlib.Data.List.Forall2
import Verif.Model.Lattice
/-
Words for the ways species can be written.
-/
namespace KMC.Spec
open KMC

/-- The species that a written one stands for: every name of a vacancy stands for the vacancy, another text for
what pymatgen reads in it, and a species for itself. -/
inductive StandsFor (parse : String → Py Specie) : Specie → Specie → Prop
  | vacancy (s : Specie) : s.isVacancy = true → StandsFor parse s Specie.vacancy
  | text (x : String) (t : Specie) : x ∉ Specie.vacancyLabels → parse x = .ok t →
      StandsFor parse (Specie.ofText x) t
  | itself (s : Specie) : s.isVacancy = false → s.text = false → StandsFor parse s s

/-- The mapping `m` says, after the reading of names, that the species `k` may be replaced by `v`; of several keys
that stand for the same species the last one decides. -/
def MappingSays (parse : String → Py Specie) (m : List (Specie × List Specie)) (k : Specie) (v : List Specie) :
    Prop :=
  ∃ before key value after, m = before ++ (key, value) :: after ∧ StandsFor parse key k ∧
    List.Forall₂ (StandsFor parse) value v ∧ ∀ x ∈ after, ¬ StandsFor parse x.1 k

end KMC.Spec
