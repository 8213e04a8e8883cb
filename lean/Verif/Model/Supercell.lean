import Verif.Model.ActiveSiteOrder
/-
Model of `kmcpy/structure/sites.py` (supercell and site index), of
`normalize_supercell_tuple` in `kmcpy/event/generators.py`, and of the site
labelling loop in `kmcpy/io/cif.py`.

Coordinates are not part of the model: a site is its species and the properties
the indexing code reads.
-/
namespace KMC

/-- A cell of the supercell, the `supercell` site property. -/
abbrev Cell := Int × Int × Int

/-- A site of a labelled unit cell: species and the properties `label` and
`local_index` set by `kmcpy/io/cif.py:222-227`. -/
structure LabeledSite (σ : Type) where
  species : σ
  label : String
  localIndex : Int
  deriving DecidableEq, Repr

/-- The labelling loop `io/cif.py:197-227`: each group of symmetry-equivalent
positions contributes its number of positions, all with the group's label, and the
running counter `local_index` is never reset. -/
def labelGroups {σ : Type} : Int → List (σ × String × Nat) → List (LabeledSite σ)
  | _, [] => []
  | start, (s, label, n) :: rest =>
    (List.range n).map (fun k => ⟨s, label, start + (k : Int)⟩) ++ labelGroups (start + n) rest

/-- `lattice_points_in_supercell` of pymatgen for a diagonal matrix, used at
`sites.py:116`: all integer points of the box, the last coordinate fastest.  This
is external behaviour the model assumes. -/
def latticePoints (a b c : Nat) : List Cell :=
  (List.range a).flatMap fun (i : Nat) => (List.range b).flatMap fun (j : Nat) =>
    (List.range c).map fun (k : Nat) => ((i : Int), (j : Int), (k : Int))

/-- `make_kmc_supercell`, `sites.py:106-150`, for a diagonal scaling: sites outside,
translations inside; a structure without sites raises (`structure_from_sites`,
`sites.py:22-23`). -/
def makeKmcSupercell {α : Type} (sites : List α) (shape : Nat × Nat × Nat) : Py (List (α × Cell)) :=
  let new := sites.flatMap fun s =>
    (latticePoints shape.1 shape.2.1 shape.2.2).map fun t => (s, t)
  if new.length < 1 then .error .valueError else .ok new

/-- Keys of the site index. -/
abbrev SiteKey := Int × Int × Int × String × Int

/-- `site_index_key`, `sites.py:168-180`. -/
def siteIndexKey (cell : Cell) (label : String) (localIndex : Int) : SiteKey :=
  (cell.1, cell.2.1, cell.2.2, label, localIndex)

/-- Loop `sites.py:194-208` of `build_site_index`. -/
def buildSiteIndexFrom {σ : Type} (skipCheck : Bool) :
    Nat → List (LabeledSite σ × Cell) → List (SiteKey × Nat) → Py (List (SiteKey × Nat))
  | _, [], d => .ok d
  | i, (s, cell) :: rest, d =>
    let key := siteIndexKey cell s.label s.localIndex
    if !skipCheck && (dictGet d key).isSome then .error .keyError
    else buildSiteIndexFrom skipCheck (i + 1) rest (dictSet d key i)

/-- `build_site_index`, `sites.py:183-208`; the three properties are present by
typing. -/
def buildSiteIndex {σ : Type} (sites : List (LabeledSite σ × Cell)) (skipCheck : Bool) :
    Py (List (SiteKey × Nat)) :=
  buildSiteIndexFrom skipCheck 0 sites []

/-- `np.mod` on integers: the result has the sign of the divisor, and zero for a
zero divisor. -/
def npMod (x m : Int) : Int := if m = 0 then 0 else x.fmod m

/-- `normalize_supercell_tuple`, `generators.py:604-633`, without the optional extra
entry (no caller in the package passes one). -/
def normalizeSupercellTuple (cell image shape : Cell) : Cell :=
  (npMod (cell.1 + image.1) shape.1, npMod (cell.2.1 + image.2.1) shape.2.1,
    npMod (cell.2.2 + image.2.2) shape.2.2)

/-- The full supercell of an order, `_make_supercell_with_properties`,
`active_site_order.py:342-368`, on labelled sites (`full_structure_with_properties`,
249-261). -/
def fullStructure {σ : Type} (template : List (LabeledSite σ)) (shape : Nat × Nat × Nat) :
    Py (List (LabeledSite σ × Cell)) :=
  makeKmcSupercell template shape

/-- `active_structure`, `active_site_order.py:263-275`. -/
def ActiveSiteOrder.activeStructure {σ φ : Type} (o : ActiveSiteOrder σ φ)
    (template : List (LabeledSite σ)) : Py (List (LabeledSite σ × Cell)) :=
  match fullStructure template o.supercellShape with
  | .error e => .error e
  | .ok full => ActiveSiteOrder.pickAll full o.activeToOriginal

end KMC
