import Verif.Model.Lattice
import Verif.Model.ActiveSiteOrder
/-
Model of the methods of `LatticeStructure` that make another lattice structure of one:
`make_supercell`, `copy` and `get_active_lattice_structure`, `kmcpy/structure/lattice_structure.py`.

pymatgen's supercell is given by its sites: for each the index of the template site it is an image
of and its position.
-/
namespace KMC
namespace Lattice
variable {P : Type}

/-- The sites of `template_structure.make_supercell(sc_matrix)`, `lattice_structure.py:382`: pymatgen
gives an image the species of its site; an index outside the template does not occur. -/
def imageSites (template : List (Specie × P)) (images : List (Nat × P)) : List (Specie × P) :=
  images.filterMap fun s => template[s.1]?.map fun t => (t.1, s.2)

/-- The loops `lattice_structure.py:384-389`: the whole list is appended once for every triple of
indices below the diagonal entries. -/
def repeatedAllowed (allowed : List (Option (List Specie))) (diag : Int × Int × Int) :
    List (Option (List Specie)) :=
  (List.range diag.1.toNat).flatMap fun _ => (List.range diag.2.1.toNat).flatMap fun _ =>
    (List.range diag.2.2.toNat).flatMap fun _ => allowed

/-- `make_supercell`, `lattice_structure.py:380-391`: the object afterwards and the outcome; the
object has already changed when the lengths are compared. -/
def makeSupercell (l : Lattice P) (images : List (Nat × P)) (diag : Int × Int × Int) :
    Lattice P × Py Unit :=
  let l' := { l with template := imageSites l.template images, allowed := repeatedAllowed l.allowed diag }
  (l', if l'.allowed.length ≠ l'.template.length then .error .valueError else .ok ())

/-- `copy`, `lattice_structure.py:374-378`: built afresh of the template, the (normalised) mapping and
the name of the basis. -/
def copy (parse : String → Py Specie) (l : Lattice P) : Py (Lattice P) :=
  make parse l.template l.siteMapping l.basis.name

/-- `get_active_lattice_structure`, `lattice_structure.py:82-91`: `images` are the sites of the
supercell of the order, of which `active_structure` (`active_site_order.py:263-275`) takes the active
ones. -/
def activeLattice {σ φ : Type} (parse : String → Py Specie) (l : Lattice P) (order : ActiveSiteOrder σ φ)
    (images : List (Nat × P)) : Py (Lattice P) :=
  match ActiveSiteOrder.pickAll (imageSites l.template images) order.activeToOriginal with
  | .error e => .error e
  | .ok sites => make parse sites l.siteMapping l.basis.name

/-- `get_structure_from_occ`, `lattice_structure.py:330-372`, call by call: copy, supercell, length of
the occupation, second copy, species site by site, vacancies removed. -/
def structureFromOcc (parse : String → Py Specie) (l : Lattice P) (images : List (Nat × P))
    (diag : Int × Int × Int) (occ : Occupation) : Py (List (Specie × P)) :=
  match l.copy parse with
  | .error e => .error e
  | .ok c =>
    match c.makeSupercell images diag with
    | (_, .error e) => .error e
    | (s, .ok _) =>
      if occ.data.length ≠ s.template.length then .error .valueError
      else
        match s.copy parse with
        | .error e => .error e
        | .ok n =>
          match speciesAt n.basis n.allowed 0 occ.data with
          | .error e => .error e
          | .ok ss => .ok ((ss.zip (n.template.map (·.2))).filter fun s => !s.1.isVacancy)

end Lattice
end KMC
