import Verif.Model.Results
import Verif.Model.Tools
/-
Model of the result files as they are on disk, also while they are being written:
`kmcpy/simulator/kmc.py:481-553`, `kmcpy/simulator/results.py:48-131`, and of `gather_data` in
`kmcpy/tools/gather_kmc_data.py:28-47`.

All result files are compressed with gzip.  A file that has been opened but not written to reads as an empty text; a
gzip stream that ends too early is an error of the reader (both are trusted facts about gzip).
-/
namespace KMC
namespace RunFiles
open Results
variable {O K C T Row : Type}

/-- What a file holds: everything, nothing yet, or a part of a gzip stream. -/
inductive OnDisk (K C T : Type) where
  | whole (c : Content K C T)
  | empty
  | cut

/-- The files of a folder. -/
abbrev Disk (K C T : Type) := String → Option (OnDisk K C T)

/-- Replace one file. -/
def Disk.put (d : Disk K C T) (name : String) (f : OnDisk K C T) : Disk K C T :=
  fun n => if n = name then some f else d n

/-- The folder after all writes. -/
def Disk.putAll (d : Disk K C T) : Files K C T → Disk K C T
  | [] => d
  | (n, c) :: ws => (d.put n (.whole c)).putAll ws

/-- The files that one call of `KMC.run` writes, in order, `kmc.py:481-553`: only the last statement writes, and an
exception before it skips it.  (`writes` never fails, see C82.) -/
def runFiles {σ φ M R U : Type} [Field K] [LinearOrder K] [FloorRing K] [Add T] [Zero T] [Sub T] [LE T] [DecidableLE T]
    (z : Sanitizer O) (cell : T → C) (metrics : Row → Metrics C) (label : String) (k : Kernel R T U)
    (m : RateModel M R T) (g : Geometry K) (lookup : Option HopStateLookup)
    (summary : Trajectory K → T → List (String × Bool) → Row) (plan : PropertyPlan T (Val O)) (rng : Nat → U × U)
    (len equil prod : Nat) (s : Sim σ φ M R T) : Files K C T :=
  match (s.run k m g lookup summary plan rng len equil prod).outcome,
      (s.run k m g lookup summary plan rng len equil prod).tracker with
  | .ok (), some rs =>
    match writes z label (outcomeOf cell metrics rs) with
    | .ok ws => ws
    | .error _ => []
  | _, _ => []

/-- `np.loadtxt` of `displacement_*.csv.gz`; an empty file gives an empty array and a warning. -/
def readVectors : Option (OnDisk K C T) → Option (List (Vec3 K))
  | some (.whole (.vectors l)) => some l
  | some .empty => some []
  | _ => none

/-- `np.loadtxt` of `hop_counter_*.csv.gz`. -/
def readCounts : Option (OnDisk K C T) → Option (List Nat)
  | some (.whole (.counts l)) => some l
  | some .empty => some []
  | _ => none

/-- `np.loadtxt` of `current_occ_*.csv.gz`. -/
def readOccupations : Option (OnDisk K C T) → Option (List Int)
  | some (.whole (.occupations l)) => some l
  | some .empty => some []
  | _ => none

/-- `pd.read_csv` of `results*.csv.gz`; an empty file is an error. -/
def readTable : Option (OnDisk K C T) → Option (List String × List (List C))
  | some (.whole (.table h l)) => some (h, l)
  | _ => none

/-- `json.load` of `properties*.json.gz`; an empty file is an error. -/
def readRecords : Option (OnDisk K C T) → Option (List (Stored T))
  | some (.whole (.records l)) => some l
  | _ => none

/-- What a reader finds under a label. -/
structure Found (K C : Type) where
  displacement : List (Vec3 K)
  hopCounter : List Nat
  occupations : List Int
  header : List String
  lines : List (List C)

/-- Read the arrays and the table of a label. -/
def readRun (d : Disk K C T) (label : String) (pass : Nat) : Option (Found K C) :=
  match readVectors (d (displacementName label pass)), readCounts (d (hopCounterName label pass)),
      readOccupations (d (occupationsName label pass)), readTable (d (resultsName label)) with
  | some v, some c, some o, some (h, l) => some ⟨v, c, o, h, l⟩
  | _, _, _, _ => none

/-- One row of the gathered table, `gather_kmc_data.py:36-46`: the position in its file (`n_pass`), the values under
their header, composition and structure index. -/
structure Gathered (C X : Type) where
  nPass : Nat
  header : List String
  values : List C
  comp : X
  structureIndex : Int
  deriving DecidableEq

/-- The body of the loop, `gather_kmc_data.py:32-40`; `float` and `int` are parameters. -/
def gatherOne {X : Type} (float : String → Py X) (int : String → Py Int) (d : Disk K C T) (location : String) :
    Py (List (Gathered C X)) :=
  match Tools.runOfName location with
  | .error e => .error e
  | .ok (x, i) =>
    match float x with
    | .error e => .error e
    | .ok comp =>
      match int i with
      | .error e => .error e
      | .ok idx =>
        match d location with
        | none => .error .osError
        | f =>
          match readTable f with
          | none => .error .valueError
          | some (h, ls) => .ok (ls.zipIdx.map fun p => ⟨p.2, h, p.1, comp, idx⟩)

/-- The loop over the files, `gather_kmc_data.py:32-42`. -/
def gatherLoop {X : Type} (float : String → Py X) (int : String → Py Int) (d : Disk K C T) :
    List String → Py (List (Gathered C X))
  | [] => .ok []
  | l :: ls =>
    match gatherOne float int d l with
    | .error e => .error e
    | .ok rows =>
      match gatherLoop float int d ls with
      | .error e => .error e
      | .ok rest => .ok (rows ++ rest)

/-- `gather_data`, `gather_kmc_data.py:28-47`, on the files that `glob` lists; `pd.concat` of nothing raises
`ValueError`. -/
def gatherData {X : Type} (float : String → Py X) (int : String → Py Int) (d : Disk K C T) (locations : List String) :
    Py (List (Gathered C X)) :=
  match locations with
  | [] => .error .valueError
  | _ => gatherLoop float int d locations

end RunFiles
end KMC
