import Mathlib.Data.Rat.Floor
import Verif.Model.Checkpoint
import Verif.Model.Config
import Verif.Model.ModelChoice
import Verif.Model.Registration
import Verif.Model.Supercell
/-
Model of `KMC.from_config` (`kmcpy/simulator/kmc.py:215-269`), `kmcpy/api.py` and of what `run` takes from the
configuration.

Reading CIF files, parsing the event file and loading the model are parameters (`World`); everything between
them is composed from the models of the functions `from_config` calls.
-/
namespace KMC
namespace FromConfig
open Config

/-- The values `from_config` and `run` read from a configuration, with the types their users expect. -/
structure Setup where
  structureFile : String
  primitive : Bool
  siteMapping : Option (List (String × List String))
  shape : List Int
  eventFile : String
  mobile : String
  initialOccupations : Option (List Int)
  /-- `""` when absent: `None` and the empty string are both skipped, `kmc.py:252` -/
  initialStateFile : String
  equilibrationPasses : Nat
  kmcPasses : Nat
  deriving DecidableEq

/-- A text entry. -/
def readStr : PyVal → Py String
  | .str s => .ok s
  | _ => .error .typeError

/-- All entries of a sequence. -/
def readAll {α : Type} (f : PyVal → Py α) : List PyVal → Py (List α)
  | [] => .ok []
  | v :: vs =>
    match f v with
    | .error e => .error e
    | .ok x =>
      match readAll f vs with
      | .error e => .error e
      | .ok xs => .ok (x :: xs)

/-- A whole number. -/
def readInt : PyVal → Py Int
  | .int n => .ok n
  | .bool b => .ok (if b then 1 else 0)
  | _ => .error .typeError

/-- A sequence of whole numbers. -/
def readInts (v : PyVal) : Py (List Int) :=
  match v with
  | .list l => readAll readInt l
  | .tuple l => readAll readInt l
  | _ => .error .typeError

/-- `_normalize_allowed_species`, `active_site_order.py:395-398`: one name or several. -/
def readAllowed : PyVal → Py (List String)
  | .list l => readAll readStr l
  | .tuple l => readAll readStr l
  | .str s => .ok [s]
  | _ => .error .typeError

/-- The entries of a site mapping. -/
def readMapping : List (String × PyVal) → Py (List (String × List String))
  | [] => .ok []
  | (k, v) :: rest =>
    match readAllowed v with
    | .error e => .error e
    | .ok a =>
      match readMapping rest with
      | .error e => .error e
      | .ok m => .ok ((k, a) :: m)

/-- The length of `np.arange(v)` (`kmc.py:513`, `kmc.py:535`): `v` rounded up, none if negative. -/
def readCount : PyVal → Py Nat
  | .int n => .ok n.toNat
  | .bool b => .ok (if b then 1 else 0)
  | .float (.fin q) => .ok ⌈q⌉.toNat
  | .float _ => .error .valueError
  | _ => .error .typeError

/-- The site mapping of a configuration; `None` stays absent. -/
def readOptMapping : PyVal → Py (Option (List (String × List String)))
  | .none => .ok none
  | .dict d =>
    match readMapping d with
    | .error e => .error e
    | .ok m => .ok (some m)
  | _ => .error .typeError

/-- The initial occupations of a configuration; `None` stays absent. -/
def readOptInts : PyVal → Py (Option (List Int))
  | .none => .ok none
  | v =>
    match readInts v with
    | .error e => .error e
    | .ok l => .ok (some l)

/-- A path; `None` is read as the empty text. -/
def readPath : PyVal → Py String
  | .none => .ok ""
  | v => readStr v

/-- The fields of a configuration as `from_config` and `run` use them.  Simplification: a value of another
type is an error here; the code raises when it first uses the value. -/
def read (c : Configuration) : Py Setup :=
  match c.system, c.runtime with
  | .cfg s, .cfg r =>
    match readStr (field s "structure_file"), readOptMapping (field s "site_mapping"),
      readInts (field s "supercell_shape"), readStr (field s "event_file"),
      readStr (field s "mobile_ion_specie"), readOptInts (field s "initial_occupations"),
      readPath (field s "initial_state_file"), readCount (field r "equilibration_passes"),
      readCount (field r "kmc_passes") with
    | .ok f, .ok m, .ok sh, .ok e, .ok mob, .ok occ, .ok st, .ok q, .ok p =>
      .ok ⟨f, ModelChoice.truthy (field s "convert_to_primitive_cell"), m, sh, e, mob, occ, st, q, p⟩
    | _, _, _, _, _, _, _, _, _ => .error .typeError
  | _, _ => .error .attributeError

/-- What `from_config` gets from the outside. -/
structure World (φ M R T K V : Type) where
  /-- `load_labeled_structure_from_cif(file, primitive=...)`; species are given by their labels -/
  loadStructure : String → Bool → Py (List (LabeledSite String))
  /-- the label of the species a name in the mapping stands for -/
  label : String → String
  /-- `species_equivalent` -/
  eqv : String → String → Bool
  /-- `_fingerprint` -/
  fp : Nat → Nat → List Nat → List Nat → List Nat → Nat × Nat × Nat → List String → List (List String) → φ
  /-- `BaseModel.from_config(config)`, with the temperature and attempt frequency of the configuration -/
  loadModel : Configuration → Py (RateModel M R T)
  /-- the parsed event file -/
  readEvents : String → Py (EventLib.Dict String φ)
  /-- the state files -/
  files : FileSystem T
  /-- the property entries of the runtime section, callback references resolved -/
  properties : Configuration → RuntimeProps T V
  /-- coordinates and lattice of a structure -/
  geometry : List (LabeledSite String × Cell) → Geometry K
  /-- the element symbol of a species label -/
  symbol : String → String

/-- The attributes of a `KMC` object. -/
structure Simulation (φ M R T V Row : Type) where
  setup : Setup
  order : ActiveSiteOrder String φ
  sites : List (LabeledSite String × Cell)
  lookup : HopStateLookup
  model : RateModel M R T
  sim : Sim String φ M R T
  registry : Registry T V Row

section
variable {φ M R T U K V Row : Type}

/-- The initial state, `kmc.py:247-261`: listed occupations, else a state file, else an error. -/
def initialState [Zero T] (w : World φ M R T K V) (s : Setup) (o : ActiveSiteOrder String φ) :
    Py (State T) :=
  match s.initialOccupations with
  | some occ => State.fromOccupations occ (some o) 0 0
  | none =>
    if s.initialStateFile ≠ "" then
      State.fromFile w.files s.initialStateFile (some (s.shape.map Int.toNat)) none (some o) 0 0
    else .error .valueError

/-- `from_config` after the fields have been read, `kmc.py:223-269` with `kmc.py:52-135`. -/
def construct [DecidableEq φ] [Zero T] [LE T] [DecidableLE T] (k : Kernel R T U) (w : World φ M R T K V)
    (c : Configuration) (s : Setup) : Py (Simulation φ M R T V Row) :=
  match s.siteMapping with
  | none => .error .valueError
  | some mapping =>
    match w.loadStructure s.structureFile s.primitive with
    | .error e => .error e
    | .ok template =>
      match ActiveSiteOrder.fromStructureAndMapping w.eqv w.fp (template.map LabeledSite.species)
          (mapping.map fun kv => (w.label kv.1, kv.2.map w.label)) (some s.shape) with
      | .error e => .error e
      | .ok order =>
        match order.activeStructure template with
        | .error e => .error e
        | .ok sites =>
          match w.loadModel c with
          | .error e => .error e
          | .ok model =>
            match w.readEvents s.eventFile with
            | .error e => .error e
            | .ok d =>
              match EventLib.fromFilePayload d with
              | .error e => .error e
              | .ok lib =>
                match lib.validateIndexMetadata order with
                | .error e => .error e
                | .ok _ =>
                  match HopStateLookup.fromActiveSiteOrder order s.mobile with
                  | .error e => .error e
                  | .ok lookup =>
                    match initialState w s order with
                    | .error e => .error e
                    | .ok st =>
                      match Sim.init k model lib (some lookup) (some st) with
                      | .error e => .error e
                      | .ok sim =>
                        match ({} : Registry T V Row).configure (w.properties c) with
                        | (.error e, _) => .error e
                        | (.ok _, reg) => .ok ⟨s, order, sites, lookup, model, sim, reg⟩

/-- `KMC.from_config`, `kmc.py:215-269`. -/
def fromConfig [DecidableEq φ] [Zero T] [LE T] [DecidableLE T] (k : Kernel R T U) (w : World φ M R T K V)
    (c : Configuration) : Py (Simulation φ M R T V Row) :=
  match read c with
  | .error e => .error e
  | .ok s => construct k w c s

/-- Substring test `a in b` of `kmc.py:504`. -/
def containsText (a b : String) : Bool := b.toList.tails.any fun t => a.toList.isPrefixOf t

/-- Steps per pass, `kmc.py:501-505`. -/
def Simulation.stepsPerPass (w : World φ M R T K V) (x : Simulation φ M R T V Row) : Nat :=
  passLength containsText x.setup.mobile (x.sites.map fun p => w.symbol p.1.species)

/-- `KMC.run`, `kmc.py:458-553`, with the values of the configuration. -/
def Simulation.run [Add T] [Zero T] [Sub T] [LE T] [DecidableLE T] [Field K] [LinearOrder K] [FloorRing K]
    (k : Kernel R T U) (w : World φ M R T K V)
    (summary : Trajectory K → T → List (String × Bool) → Row) (rng : Nat → U × U)
    (x : Simulation φ M R T V Row) : RunResult String φ M R T K V Row :=
  x.sim.run k x.model (w.geometry x.sites) (some x.lookup) summary x.registry.plan rng
    (x.stepsPerPass w) x.setup.equilibrationPasses x.setup.kmcPasses

/-- The argument of `kmcpy.api.run`. -/
inductive RunArg where
  | configuration (c : Configuration)
  | other

/-- `kmcpy.api.run`, `api.py:12-29`; the outcome of the run is that of `KMC.run`. -/
def apiRun [DecidableEq φ] [Add T] [Zero T] [Sub T] [LE T] [DecidableLE T] [Field K] [LinearOrder K]
    [FloorRing K] (k : Kernel R T U) (w : World φ M R T K V)
    (summary : Trajectory K → T → List (String × Bool) → Row) (rng : Nat → U × U) :
    RunArg → Py (RunResult String φ M R T K V Row)
  | .other => .error .typeError
  | .configuration c =>
    match fromConfig k w c with
    | .error e => .error e
    | .ok x =>
      let r := x.run k w summary rng
      match r.outcome with
      | .error e => .error e
      | .ok _ => .ok r

end
end FromConfig
end KMC
