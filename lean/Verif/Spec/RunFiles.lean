import Verif.Model.RunFiles
import Verif.Spec.Results
/-
Interrupted writing of result files.
-/
namespace KMC.Spec
open KMC KMC.Results KMC.RunFiles
variable {O K C T : Type}

/-- `d'` is what a crash can leave of the folder `d` while the files `ws` are written one after the other, or what is there
at the end: the first files complete, the next one as it was, empty or cut, the remaining ones as they were. -/
inductive LeftBehind : Disk K C T → Files K C T → Disk K C T → Prop where
  | now (d : Disk K C T) (ws : Files K C T) : LeftBehind d ws d
  | opened (d : Disk K C T) (n : String) (c : Content K C T) (ws : Files K C T) :
      LeftBehind d ((n, c) :: ws) (fun m => if m = n then some .empty else d m)
  | cut (d : Disk K C T) (n : String) (c : Content K C T) (ws : Files K C T) :
      LeftBehind d ((n, c) :: ws) (fun m => if m = n then some .cut else d m)
  | later (d d' : Disk K C T) (n : String) (c : Content K C T) (ws : Files K C T) :
      LeftBehind (fun m => if m = n then some (.whole c) else d m) ws d' → LeftBehind d ((n, c) :: ws) d'

/-- The results of a finished run as a reader should find them. -/
def resultsOf (r : Outcome O K C T) : Found K C :=
  ⟨r.displacement, r.hopCounter, r.occupations, ["time", "jump_diffusivity", "tracer_diffusivity", "conductivity",
    "correlation_factor", "havens_ratio", "msd"], r.rows.map Results.tableLine⟩

/-- None of the files of a label is there. -/
def NoFiles (d : Disk K C T) (label : String) (pass : Nat) : Prop := ∀ n ∈ Results.fileNames label pass, d n = none

/-- A finished run of a series, with the composition and the structure index in its label. -/
structure SeriesRun (O K C T : Type) where
  comp : String
  index : String
  outcome : Outcome O K C T

/-- The label of the run. -/
def SeriesRun.label (r : SeriesRun O K C T) : String := r.comp ++ "_" ++ r.index

/-- The name of the summary file of the run. -/
def SeriesRun.file (r : SeriesRun O K C T) : String := "results_" ++ r.comp ++ "_" ++ r.index ++ ".csv.gz"

/-- Runs one after the other in one folder; the writing of the results of each one may have been interrupted. -/
inductive InSeries (z : Sanitizer O) : Disk K C T → List (SeriesRun O K C T) → Disk K C T → Prop where
  | done (d : Disk K C T) : InSeries z d [] d
  | next (d d1 d2 : Disk K C T) (r : SeriesRun O K C T) (rs : List (SeriesRun O K C T)) (ws : Files K C T) :
      writes z r.label r.outcome = .ok ws → LeftBehind d ws d1 → InSeries z d1 rs d2 → InSeries z d (r :: rs) d2

/-- Texts of numbers: no underscore and no letter `g`. -/
def PlainText (s : String) : Prop := '_' ∉ s.toList ∧ 'g' ∉ s.toList

/-- The rows of one run in the gathered table. -/
def rowsOf {X : Type} (r : SeriesRun O K C T) (x : X) (i : Int) : List (Gathered C X) :=
  (r.outcome.rows.map Results.tableLine).zipIdx.map fun p => ⟨p.2, (resultsOf r.outcome).header, p.1, x, i⟩

end KMC.Spec
