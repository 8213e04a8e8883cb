import Verif.Model.Supercell
import Verif.Model.Event
/-
Model of `EventGenerator.generate_events`, `kmcpy/event/generators.py:321-549`.

The CIF file is represented by its labelled sites; the neighbour search, the
neighbour-species signature and the environment matcher are parameters (the matcher
itself is modelled in `Model/ClusterMatcher`).
-/
namespace KMC

/-- A neighbour dictionary, `kmcpy/structure/neighbors.py:30-50`; `γ` stands for the
geometric part (`site`, `weight`), which only the signature and the matcher read. -/
structure Neighbor (γ : Type) where
  image : Cell
  localIndex : Int
  label : String
  payload : γ
  deriving DecidableEq, Repr

/-- The two dictionaries filled by the environment loop, `generators.py:407-408`. -/
structure EnvTables (κ γ : Type) where
  refs : List (κ × List (Neighbor γ)) := []
  envInfo : List (Int × List (Neighbor γ)) := []

section
variable {σ φ κ γ : Type} [DecidableEq κ]

/-- `_match_or_register_local_environment`, `generators.py:242-281`. -/
def matchOrRegister (signature : List (Neighbor γ) → κ)
    (matcher : List (Neighbor γ) → List (Neighbor γ) → Py (List Nat))
    (localIndex : Int) (nbrs : List (Neighbor γ)) (t : EnvTables κ γ) : Py (EnvTables κ γ) :=
  match dictGet t.refs (signature nbrs) with
  | none =>
    .ok { refs := dictSet t.refs (signature nbrs) nbrs
          envInfo := dictSet t.envInfo localIndex nbrs }
  | some ref =>
    match matcher ref nbrs with
    | .error e => .error e
    | .ok perm =>
      match ActiveSiteOrder.pickAll nbrs perm with
      | .error e => .error e
      | .ok ordered => .ok { t with envInfo := dictSet t.envInfo localIndex ordered }

/-- The environment loop, `generators.py:414-456`, over the selected primitive sites. -/
def collectEnvironments (signature : List (Neighbor γ) → κ)
    (matcher : List (Neighbor γ) → List (Neighbor γ) → Py (List Nat))
    (neighbors : Nat → List (Neighbor γ)) :
    List (Nat × LabeledSite σ) → EnvTables κ γ → Py (EnvTables κ γ)
  | [], t => .ok t
  | (i, s) :: rest, t =>
    match matchOrRegister signature matcher s.localIndex (neighbors i) t with
    | .error e => .error e
    | .ok t' => collectEnvironments signature matcher neighbors rest t'

/-- `find_atom_indices`, `generators.py:553-600`: positions of the sites accepted by
the identifier. -/
def findAtomIndices {α : Type} (accept : α → Bool) (sites : List α) : List Nat :=
  ((sites.zipIdx).filter fun p => accept p.1).map Prod.snd

/-- Neighbour loop `generators.py:487-502`. -/
def envIndices (index : List (SiteKey × Nat)) (shape cell : Cell) :
    List (Neighbor γ) → Py (List Nat)
  | [] => .ok []
  | n :: ns =>
    match dictGet index (siteIndexKey (normalizeSupercellTuple cell n.image shape) n.label
        n.localIndex) with
    | none => .error .keyError
    | some i =>
      match envIndices index shape cell ns with
      | .error e => .error e
      | .ok is => .ok (i :: is)

/-- Target loop `generators.py:505-520`. -/
def eventsToTargets (sites : List (LabeledSite σ × Cell)) (isTarget : LabeledSite σ → Bool)
    (origin : Nat) (env : List Nat) : List Event :=
  (env.filter fun t =>
    match sites[t]? with
    | some s => isTarget s.1
    | none => false).map fun (t : Nat) =>
      { mobile := [(origin : Int), (t : Int)], env := env.map fun (i : Nat) => (i : Int) }

/-- Event loop `generators.py:478-520`. -/
def eventLoop (sites : List (LabeledSite σ × Cell)) (index : List (SiteKey × Nat))
    (shape : Cell) (isTarget : LabeledSite σ → Bool) (envInfo : List (Int × List (Neighbor γ))) :
    List Nat → Py (List Event)
  | [] => .ok []
  | i :: is =>
    match sites[i]? with
    | none => .error .indexError
    | some (s, cell) =>
      match dictGet envInfo s.localIndex with
      | none => .error .keyError
      | some nbrs =>
        match envIndices index shape cell nbrs with
        | .error e => .error e
        | .ok env =>
          match eventLoop sites index shape isTarget envInfo is with
          | .error e => .error e
          | .ok rest => .ok (eventsToTargets sites isTarget i env ++ rest)

/-- The integer shape as a cell. -/
def shapeCell (s : Nat × Nat × Nat) : Cell := ((s.1 : Int), (s.2.1 : Int), (s.2.2 : Int))

/-- `generate_events`, `generators.py:377-534`: `isOrigin` and `isTarget` are the two
identifiers, `neighbors i` the sorted neighbour list of site `i` of the active
primitive cell.  Writing the file is not modelled. -/
def generateEvents (eqv : σ → σ → Bool)
    (fp : Nat → Nat → List Nat → List Nat → List Nat → Nat × Nat × Nat → List σ →
      List (List σ) → φ)
    (signature : List (Neighbor γ) → κ)
    (matcher : List (Neighbor γ) → List (Neighbor γ) → Py (List Nat))
    (neighbors : Nat → List (Neighbor γ)) (isOrigin isTarget : LabeledSite σ → Bool)
    (template : List (LabeledSite σ)) (mapping : List (σ × List σ)) (shape : Option (List Int)) :
    Py (EventLib σ φ) :=
  let shape' := shape.getD [2, 1, 1]
  match ActiveSiteOrder.fromStructureAndMapping eqv fp (template.map LabeledSite.species) mapping
      none with
  | .error e => .error e
  | .ok prim =>
    match ActiveSiteOrder.fromStructureAndMapping eqv fp (template.map LabeledSite.species) mapping
        (some shape') with
    | .error e => .error e
    | .ok order =>
      match prim.activeStructure template with
      | .error e => .error e
      | .ok active =>
        let cell := active.map Prod.fst
        match collectEnvironments signature matcher neighbors
            ((cell.zipIdx.filter fun p => isOrigin p.1).map fun p => (p.2, p.1)) {} with
        | .error e => .error e
        | .ok tables =>
          match makeKmcSupercell cell order.supercellShape with
          | .error e => .error e
          | .ok sites =>
            match buildSiteIndex sites false with
            | .error e => .error e
            | .ok index =>
              match eventLoop sites index (shapeCell order.supercellShape) isTarget
                  tables.envInfo (findAtomIndices (fun s => isOrigin s.1) sites) with
              | .error e => .error e
              | .ok [] => .error .valueError
              | .ok events =>
                match (events.foldl EventLib.addEvent ({} : EventLib σ φ)).setIndexMetadata order with
                | (.error e, _) => .error e
                | (.ok _, lib) => .ok lib.generateEventDependencies

end
end KMC
