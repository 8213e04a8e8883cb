import Verif.Model.Py
/-
Model of `kmcpy/structure/active_site_order.py`.

A template structure is represented by the list of the species of its sites
(positions play no role in the numbering); species are an arbitrary type `σ`
with the boolean relation `eqv` standing for `species_equivalent`
(`kmcpy/structure/species.py`).  The SHA-256 fingerprint is a parameter `fp`.
-/
namespace KMC

/-- `kmcpy/structure/active_site_order.py:28-44` (`template_structure` is
`compare=False` and is not part of the model; species labels are `λ`). -/
structure ActiveSiteOrder (σ : Type) (φ : Type) where
  primitiveSiteCount : Nat
  originalSiteCount : Nat
  primitiveActiveIndices : List Nat
  activeToOriginal : List Nat
  activeToPrimitive : List Nat
  fixedOriginalIndices : List Nat
  supercellShape : Nat × Nat × Nat
  speciesByPrimitiveSite : List σ
  allowedSpeciesByPrimitiveSite : List (List σ)
  fingerprint : φ
  deriving DecidableEq, Repr

/-- `_normalize_supercell_shape`, `active_site_order.py:329-339`. -/
def normalizeSupercellShape (shape : Option (List Int)) : Py (Nat × Nat × Nat) :=
  match shape with
  | none => .ok (1, 1, 1)
  | some [a, b, c] =>
    if a ≤ 0 ∨ b ≤ 0 ∨ c ≤ 0 then .error .valueError
    else .ok (a.toNat, b.toNat, c.toNat)
  | some _ => .error .valueError

/-- `_allowed_species_by_site`, `active_site_order.py:371-392`: first mapping
entry whose key is equivalent to the site's species, else `ValueError`.  The
mapping values are already normalised to lists (`_normalize_allowed_species`,
395-398). -/
def allowedSpeciesBySite {σ : Type} (eqv : σ → σ → Bool)
    (mapping : List (σ × List σ)) : List σ → Py (List (List σ))
  | [] => .ok []
  | s :: rest =>
    match (mapping.filter fun kv => eqv s kv.1).map Prod.snd with
    | [] => .error .valueError
    | a :: _ =>
      match allowedSpeciesBySite eqv mapping rest with
      | .error e => .error e
      | .ok as => .ok (a :: as)

/-- Primitive-site index of every site of the full supercell, in order.
`make_kmc_supercell` (`kmcpy/structure/sites.py:106-150`) loops over primitive
sites outside and over the `cells` translations inside. -/
def supercellPrimitiveIndex (nPrim cells : Nat) : List Nat :=
  (List.range nPrim).flatMap fun i => List.replicate cells i

/-- `primitive_active_indices`, `active_site_order.py:71-75`. -/
def activePrimitives {σ : Type} (allowed : List (List σ)) : List Nat :=
  (List.range allowed.length).filter fun i =>
    match allowed[i]? with
    | some a => decide (1 < a.length)
    | none => false

/-- The three lists filled by the loop `active_site_order.py:91-100`. -/
structure SiteSplit where
  activeToOriginal : List Nat := []
  activeToPrimitive : List Nat := []
  fixedOriginal : List Nat := []
  deriving DecidableEq, Repr

/-- Loop `active_site_order.py:94-100` from position `i` on. -/
def splitSites (active : List Nat) : Nat → List Nat → SiteSplit → SiteSplit
  | _, [], acc => acc
  | i, p :: ps, acc =>
    if p ∈ active then
      splitSites active (i + 1) ps
        { acc with
          activeToOriginal := acc.activeToOriginal ++ [i]
          activeToPrimitive := acc.activeToPrimitive ++ [p] }
    else
      splitSites active (i + 1) ps
        { acc with fixedOriginal := acc.fixedOriginal ++ [i] }

/-- `ActiveSiteOrder.from_structure_and_mapping`, `active_site_order.py:60-136`.
`fp` stands for `_fingerprint` (401-403) applied to exactly the listed payload. -/
def ActiveSiteOrder.fromStructureAndMapping {σ φ : Type} (eqv : σ → σ → Bool)
    (fp : Nat → Nat → List Nat → List Nat → List Nat → Nat × Nat × Nat → List σ →
      List (List σ) → φ)
    (template : List σ) (mapping : List (σ × List σ)) (shape : Option (List Int)) :
    Py (ActiveSiteOrder σ φ) :=
  match normalizeSupercellShape shape with
  | .error e => .error e
  | .ok (a, b, c) =>
    match allowedSpeciesBySite eqv mapping template with
    | .error e => .error e
    | .ok allowed =>
      let act := activePrimitives allowed
      if act = [] then .error .valueError
      else
        let full := supercellPrimitiveIndex template.length (a * b * c)
        let sp := splitSites act 0 full {}
        .ok
          { primitiveSiteCount := template.length
            originalSiteCount := full.length
            primitiveActiveIndices := act
            activeToOriginal := sp.activeToOriginal
            activeToPrimitive := sp.activeToPrimitive
            fixedOriginalIndices := sp.fixedOriginal
            supercellShape := (a, b, c)
            speciesByPrimitiveSite := template
            allowedSpeciesByPrimitiveSite := allowed
            fingerprint := fp template.length full.length act sp.activeToOriginal
              sp.activeToPrimitive (a, b, c) template allowed }

namespace ActiveSiteOrder
variable {σ φ : Type}

/-- `active_site_count`, `active_site_order.py:171-173`. -/
def activeSiteCount (o : ActiveSiteOrder σ φ) : Nat := o.activeToOriginal.length

/-- `original_to_active`, `active_site_order.py:175-180` (dict comprehension over
`enumerate(active_to_original)`, later entries overwrite). -/
def originalToActive (o : ActiveSiteOrder σ φ) : List (Nat × Nat) :=
  (o.activeToOriginal.zipIdx).foldl (fun d p => dictSet d p.1 p.2) []

/-- The serialised metadata, `as_dict`, `active_site_order.py:189-205`: a typed
record with the same keys; `format` is the format tag. -/
structure Dict (σ φ : Type) where
  format : String
  primitiveSiteCount : Nat
  originalSiteCount : Nat
  primitiveActiveIndices : List Nat
  activeToOriginal : List Nat
  activeToPrimitive : List Nat
  fixedOriginalIndices : Option (List Nat)
  supercellShape : Nat × Nat × Nat
  speciesByPrimitiveSite : List σ
  allowedSpeciesByPrimitiveSite : List (List σ)
  fingerprint : φ
  deriving DecidableEq, Repr

/-- `ACTIVE_SITE_ORDER_FORMAT`, `active_site_order.py:21`. -/
def formatTag : String := "kmcpy.active_site_order.v1"

/-- `as_dict`, `active_site_order.py:189-205`. -/
def asDict (o : ActiveSiteOrder σ φ) : Dict σ φ :=
  { format := formatTag
    primitiveSiteCount := o.primitiveSiteCount
    originalSiteCount := o.originalSiteCount
    primitiveActiveIndices := o.primitiveActiveIndices
    activeToOriginal := o.activeToOriginal
    activeToPrimitive := o.activeToPrimitive
    fixedOriginalIndices := some o.fixedOriginalIndices
    supercellShape := o.supercellShape
    speciesByPrimitiveSite := o.speciesByPrimitiveSite
    allowedSpeciesByPrimitiveSite := o.allowedSpeciesByPrimitiveSite
    fingerprint := o.fingerprint }

/-- `from_dict`, `active_site_order.py:138-169` (`fixed_original_indices`
defaults to `()`; the other keys are present by typing). -/
def fromDict (d : Dict σ φ) : Py (ActiveSiteOrder σ φ) :=
  if d.format ≠ formatTag then .error .valueError
  else .ok
    { primitiveSiteCount := d.primitiveSiteCount
      originalSiteCount := d.originalSiteCount
      primitiveActiveIndices := d.primitiveActiveIndices
      activeToOriginal := d.activeToOriginal
      activeToPrimitive := d.activeToPrimitive
      fixedOriginalIndices := d.fixedOriginalIndices.getD []
      supercellShape := d.supercellShape
      speciesByPrimitiveSite := d.speciesByPrimitiveSite
      allowedSpeciesByPrimitiveSite := d.allowedSpeciesByPrimitiveSite
      fingerprint := d.fingerprint }

/-- `assert_same_order` with serialised metadata, `active_site_order.py:207-218`:
only the fingerprints are compared. -/
def assertSameOrder [DecidableEq φ] (o : ActiveSiteOrder σ φ) (d : Dict σ φ) : Py Unit :=
  match fromDict d with
  | .error e => .error e
  | .ok o' => if o.fingerprint ≠ o'.fingerprint then .error .valueError else .ok ()

/-- `validate_active_indices`, `active_site_order.py:220-234`. -/
def validateActiveIndices (o : ActiveSiteOrder σ φ) (idx : List Int) : Py Unit :=
  let invalid := idx.filter fun i => decide (i < 0) || decide ((o.activeSiteCount : Int) ≤ i)
  if invalid ≠ [] then .error .indexError else .ok ()

/-- `values[index] for index in active_to_original`, `active_site_order.py:242`. -/
def pickAll {α : Type} (values : List α) : List Nat → Py (List α)
  | [] => .ok []
  | i :: is =>
    match values[i]? with
    | none => .error .indexError
    | some v =>
      match pickAll values is with
      | .error e => .error e
      | .ok vs => .ok (v :: vs)

/-- `select_active_values`, `active_site_order.py:236-247`. -/
def selectActiveValues {α : Type} (o : ActiveSiteOrder σ φ) (values : List α) : Py (List α) :=
  if values.length = o.activeSiteCount then .ok values
  else if values.length = o.originalSiteCount then pickAll values o.activeToOriginal
  else .error .valueError

end ActiveSiteOrder
end KMC
