import Verif.Model.Neighbors
/-
What the cutoff tables mean.
-/
namespace KMC.Spec
variable {α K V : Type}

/-- The entry that counts for an unordered pair of species: the last one given for it, in either
order. -/
def pairEntry (cutoffs : List ((String × String) × α)) (a b : String) : Option α :=
  (cutoffs.reverse.find? fun e => e.1 = (a, b) ∨ e.1 = (b, a)).map (·.2)

/-- The neighbour search is exact: it lists precisely the neighbours within the radius. -/
def ExactSearch [LE K] (isNeighbour : Neighbors.Neighbor K V → Prop)
    (sphere : K → List (Neighbors.Neighbor K V)) : Prop :=
  ∀ r n, n ∈ sphere r ↔ isNeighbour n ∧ n.distance ≤ r

/-- The site properties copied to the neighbour entries of a structure with the given property
names. -/
def copiedNames (names : List String) : List String :=
  if "wyckoff_sequence" ∈ names then
    ["wyckoff_sequence", "local_index", "label"] ++ (if "supercell" ∈ names then ["supercell"] else [])
  else []

/-- The entry describes its neighbour: image, distance and index are the neighbour's own, and so
are the copied properties. -/
structure DescribesNeighbour (names : List String) (i : Neighbors.Info K V) : Prop where
  image : i.image = i.site.image
  weight : i.weight = i.site.distance
  index : i.siteIndex = i.site.siteIndex
  copied : i.metadata.map (·.1) = copiedNames names
  values : ∀ kv ∈ i.metadata, dictGet i.site.properties kv.1 = some kv.2

end KMC.Spec
