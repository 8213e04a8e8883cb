import Verif.Model.Results
/-
Specification vocabulary for C82: what the result files of a run should be.
-/
namespace KMC
namespace Spec
namespace Results
open KMC.Results
variable {O K C T : Type}

/-- The files written under a label after a number of passes. -/
def fileNames (label : String) (pass : Nat) : List String :=
  if label = "" then
    ["displacement_" ++ intStr pass ++ ".csv.gz", "hop_counter_" ++ intStr pass ++ ".csv.gz",
     "current_occ_" ++ intStr pass ++ ".csv.gz", "results.csv.gz", "results_units.json.gz",
     "properties.json.gz"]
  else
    ["displacement_" ++ label ++ "_" ++ intStr pass ++ ".csv.gz",
     "hop_counter_" ++ label ++ "_" ++ intStr pass ++ ".csv.gz",
     "current_occ_" ++ label ++ "_" ++ intStr pass ++ ".csv.gz", "results_" ++ label ++ ".csv.gz",
     "results_units_" ++ label ++ ".json.gz", "properties_" ++ label ++ ".json.gz"]

/-- One line of the summary table under the header `time, jump_diffusivity, tracer_diffusivity,
conductivity, correlation_factor, havens_ratio, msd`. -/
def tableLine (r : C × Metrics C) : List C :=
  [r.1, r.2.jump, r.2.tracer, r.2.conductivity, r.2.correlation, r.2.havens, r.2.msd]

mutual
/-- A value made of texts, numbers, truth values, `None`, lists, tuples and dictionaries with text
keys, as a callback returns it. -/
def ofPy : PyVal → Val O
  | .none => .none
  | .bool b => .bool b
  | .int n => .int n
  | .float f => .float f
  | .str s => .str s
  | .list l => .list (ofPyList l)
  | .tuple l => .tuple (ofPyList l)
  | .dict d => .dict (ofPyDict d)
/-- The same for the entries of a sequence. -/
def ofPyList : List PyVal → List (Val O)
  | [] => []
  | v :: vs => ofPy v :: ofPyList vs
/-- The same for the entries of a dictionary. -/
def ofPyDict : List (String × PyVal) → List (Key × Val O)
  | [] => []
  | (k, v) :: d => (.str k, ofPy v) :: ofPyDict d
end

mutual
/-- No dictionary inside the value has a key twice (true of every Python value). -/
def WellKeyed : PyVal → Prop
  | .list l => WellKeyedList l
  | .tuple l => WellKeyedList l
  | .dict d => (dictKeys d).Nodup ∧ WellKeyedDict d
  | _ => True
/-- The same for the entries of a sequence. -/
def WellKeyedList : List PyVal → Prop
  | [] => True
  | v :: vs => WellKeyed v ∧ WellKeyedList vs
/-- The same for the entries of a dictionary. -/
def WellKeyedDict : List (String × PyVal) → Prop
  | [] => True
  | (_, v) :: d => WellKeyed v ∧ WellKeyedDict d
end

end Results
end Spec
end KMC
