import Verif.Model.Lattice
/-
Model of the structure side of `kmcpy/models/local_cluster_expansion.py`: occupation and
correlation vectors computed from a structure, as the fitting data are.
-/
namespace KMC
namespace Lattice
variable {P K D : Type}

/-- `structure.remove_oxidation_states()` (pymatgen): every species becomes its element. -/
def removeOxidation (s : Specie) : Specie :=
  match s.symbol with
  | some x => ⟨false, x, some x, none⟩
  | none => s

/-- Loop `active_site_order.py:300-317`: the atoms kept, by active index. `full` are the positions
of all template sites. -/
def keepActive [LinearOrder D] (dist : P → P → D) (tol : D) (full : List P) (originalToActive : Nat → Option Nat) :
    List (Specie × P) → List (Nat × (Specie × P)) → Py (List (Nat × (Specie × P)))
  | [], acc => .ok acc
  | s :: ss, acc =>
    match argmin (full.map fun t => dist t s.2) with
    | none => .error .valueError
    | some (i, d) =>
      if tol < d then .error .valueError
      else
        match originalToActive i with
        | none => keepActive dist tol full originalToActive ss acc
        | some a =>
          if (acc.map (·.1)).contains a then .error .valueError
          else keepActive dist tol full originalToActive ss (acc ++ [(a, s)])

/-- `filter_active_structure`, `active_site_order.py:276-327`.  `tagged` says whether the structure
carries the active-site property. -/
def filterActive [LinearOrder D] (dist : P → P → D) (tol : D) (full : List P) (activeToOriginal : List Nat)
    (tagged : Bool) (structure' : List (Specie × P)) : Py (List (Specie × P)) :=
  if structure'.length = activeToOriginal.length ∧ tagged then .ok structure'
  else if structure'.length = full.length then
    pyGetAll structure' (activeToOriginal.map fun i : Nat => (i : Int))
  else
    match keepActive dist tol full (fun i => activeToOriginal.findIdx? (· == i)) structure' [] with
    | .error e => .error e
    | .ok kept => .ok ((kept.mergeSort fun a b => a.1 ≤ b.1).map (·.2))

end Lattice

namespace LCE
variable {P K D : Type} [CommRing K]

/-- The range check of `validate_reference_lattice_structure`,
`local_cluster_expansion.py:365-376`; the hash check (358-363) is the parameter `hashOk`. -/
def validateReference (m : LCE K) (hashOk : Bool) (siteCount : Nat) : Py Unit :=
  if !hashOk then .error .valueError
  else if m.clusterSiteIndices.any (fun o => o.any fun c => c.any fun i =>
      decide (i < 0 ∨ (siteCount : Int) ≤ i)) then .error .valueError
  else .ok ()

/-- `get_occ_corr_from_structure`, `local_cluster_expansion.py:380-440`.  `filter` is the
active-site filter of the reference, `siteIndices` its local sites. -/
def occCorrFromStructure [LinearOrder D] (m : LCE K) (reference : Lattice P) (siteIndices : List Int)
    (hashOk : Bool) (filter : List (Specie × P) → Py (List (Specie × P))) (dist : P → P → D) (tol : D)
    (super : List (Nat × P)) (latticeOk : Bool) (structure' : List (Specie × P)) :
    Py (Occupation × List K) :=
  match m.validateReference hashOk siteIndices.length with
  | .error e => .error e
  | .ok () =>
    match filter structure' with
    | .error e => .error e
    | .ok active =>
      match reference.getOcc dist tol super latticeOk
          (active.map fun s => (Lattice.removeOxidation s.1, s.2)) none with
      | .error e => .error e
      | .ok occ =>
        match occ.getItems siteIndices with
        | .error e => .error e
        | .ok localOcc =>
          match m.calculateCorrelation localOcc.data with
          | .error e => .error e
          | .ok corr => .ok (occ, corr)

end LCE
end KMC
