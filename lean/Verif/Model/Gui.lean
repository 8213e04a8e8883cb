import Verif.Model.Cli
import Verif.Model.FitFiles
/-
Model of the graphical commands: `kmcpy/cli/gui_wrapper.py:25-337`.  Gooey and argparse are not modelled: the functions
start from the values of the form.  The `KMCSimulation` form is in `Model/Cli`.
-/
namespace KMC
namespace Gui
open Config Cli FitFiles
variable {K : Type}

/-- The values of the `LocalClusterExpansion` form that are used before the first failure, `gui_wrapper.py:62-90`. -/
structure ExpansionForm where
  /-- the choice of `convert_to_primitive_cell` -/
  primitive : String
  /-- the text of `site_mapping` -/
  mapping : String

/-- The argument of `--find_nearest_if_fail`, `gui_wrapper.py:125`: absent it is `False`, given it is a text. -/
inductive Nearest where
  | absent
  | text (s : String)

/-- The values of the `GenerateEvents` form, `gui_wrapper.py:93-125`. -/
structure EventForm (K : Type) where
  prim : String
  primitive : String
  ion1 : String
  ion2 : String
  /-- the text of `local_env_cutoff_dict` -/
  cutoffs : String
  mapping : String
  outputDir : String
  shape : String
  exportEnv : Bool
  eventName : String
  rtol : K
  atol : K
  nearest : Nearest

/-- What `generate_events` is called with, `gui_wrapper.py:255-273`. -/
structure EventCall (K : Type) where
  structureFile : String
  primitive : Bool
  cutoffs : List ((String × String) × K)
  identifiers : String × String
  mapping : PyVal
  rtol : K
  atol : K
  nearest : Bool
  exportEnv : Bool
  shape : List Int
  eventFile : String

/-- The body of the loop, `gui_wrapper.py:229-233`: fewer than three parts raise `IndexError`, further parts are
ignored.  `float` is a parameter. -/
def parseCutoff (float : String → Py K) (part : Text) : Py ((String × String) × K) :=
  match splitOn ',' part with
  | a :: b :: r :: _ =>
    match float (String.ofList r) with
    | .error e => .error e
    | .ok v => .ok ((String.ofList a, String.ofList b), v)
  | _ => .error .indexError

/-- The loop, `gui_wrapper.py:229-233`. -/
def cutoffLoop (float : String → Py K) :
    List Text → List ((String × String) × K) → Py (List ((String × String) × K))
  | [], acc => .ok acc
  | p :: ps, acc =>
    match parseCutoff float p with
    | .error e => .error e
    | .ok (k, v) => cutoffLoop float ps (dictSet acc k v)

/-- `local_env_cutoff_dict`, `gui_wrapper.py:227-235`. -/
def parseCutoffs (float : String → Py K) (text : String) : Py (List ((String × String) × K)) :=
  cutoffLoop float (splitOn ';' text.toList) []

/-- `os.path.join` of two texts. -/
def joinPath (dir name : String) : String :=
  if name.toList.head? = some '/' then name
  else if dir = "" ∨ dir.toList.getLast? = some '/' then dir ++ name
  else dir ++ "/" ++ name

/-- `find_nearest_if_fail`, `gui_wrapper.py:243-249`. -/
def Nearest.flag : Nearest → Bool
  | .absent => false
  | .text s => ["1", "true", "yes", "y"].contains (pyLower s)

/-- The `GenerateEvents` command up to the call of `generate_events`, `gui_wrapper.py:204-273`; `lit` is
`ast.literal_eval`. -/
def EventForm.call (lit : String → Py PyVal) (float : String → Py K) (f : EventForm K) : Py (EventCall K) :=
  match lit f.mapping with
  | .error e => .error e
  | .ok mapping =>
    match parseCutoffs float f.cutoffs with
    | .error e => .error e
    | .ok cutoffs =>
      match formShape (splitCommas f.shape.toList) with
      | .error e => .error e
      | .ok shape => .ok
        { structureFile := f.prim
          primitive := f.primitive == "yes"
          cutoffs := cutoffs
          identifiers := (f.ion1, f.ion2)
          mapping := mapping
          rtol := f.rtol
          atol := f.atol
          nearest := f.nearest.flag
          exportEnv := f.exportEnv
          shape := shape
          eventFile := joinPath f.outputDir f.eventName }

/-- The values of the `fitLCEmodel` form, `gui_wrapper.py:131-148`. -/
structure FitForm where
  alpha : PyVal
  maxIter : PyVal
  ekra : String
  keci : String
  weight : String
  corr : String
  results : String
  workDir : String

/-- The chosen command with its form. -/
inductive Chosen (K : Type) where
  | none
  | expansion (f : ExpansionForm)
  | events (f : EventForm K)
  | fit (f : FitForm)
  | simulation (f : Form)

/-- `args.convert_to_primitive_cell`, `gui_wrapper.py:204`: the forms without this argument have no such attribute. -/
def Chosen.primitive : Chosen K → Option String
  | .expansion f => some f.primitive
  | .events f => some f.primitive
  | .simulation f => some f.primitive
  | .none => Option.none
  | .fit _ => Option.none

/-- What a command comes to. -/
inductive Action (K : Type) where
  | generate (c : EventCall K)
  | simulate (c : Configuration)
  /-- `LocalClusterExpansion().fit(...)` -/
  | fit (f : FitForm)

/-- `main` after parsing, `gui_wrapper.py:201-337`.  The class `LocalClusterExpansion` has no method `initialization`
(`local_cluster_expansion.py:25-800`), so that command ends in `AttributeError` once the mapping is read. -/
def main (lit : String → Py PyVal) (float : String → Py K) (c : Chosen K) : Py (Action K) :=
  match c.primitive with
  | none => .error .attributeError
  | some _ =>
    match c with
    | .none => .error .runtimeError
    | .expansion f =>
      match lit f.mapping with
      | .error e => .error e
      | .ok _ => .error .attributeError
    | .events f =>
      match f.call lit float with
      | .error e => .error e
      | .ok x => .ok (.generate x)
    | .simulation f =>
      match f.configuration lit with
      | .error e => .error e
      | .ok x => .ok (.simulate x)
    | .fit f => .ok (.fit f)

end Gui
end KMC
