import Verif.Model.FitFiles
/-
Interrupted writing of files.
-/
namespace KMC.Spec
open KMC KMC.FitFiles KMC.NEBLoader

/-- Numbers are read as they were written, and their text has no spaces or line ends. -/
structure ReadsBack {K : Type} (io : NumberText K) : Prop where
  back : ∀ v, io.read (io.write v) = some v
  nonempty : ∀ v, io.write v ≠ []
  plain : ∀ v, ' ' ∉ io.write v ∧ '\n' ∉ io.write v

/-- `d'` is what a crash can leave of the folder `d` while the files are written one after the other: everything as
it was, or the first files complete and of the next one any first part of its characters, including none. -/
inductive Interrupted : Folder → List (String × Text) → Folder → Prop where
  | before (d : Folder) (ws : List (String × Text)) : Interrupted d ws d
  | during (d : Folder) (path : String) (t part : Text) (ws : List (String × Text)) :
      part <+: t → Interrupted d ((path, t) :: ws) (fun p => if p = path then some part else d p)
  | after (d d' : Folder) (path : String) (t : Text) (ws : List (String × Text)) :
      Interrupted (fun p => if p = path then some t else d p) ws d' → Interrupted d ((path, t) :: ws) d'

/-- A table of at least two lines with at least two numbers each, all of the same length, and one target and one weight
for every line. -/
structure FittableTable {K : Type} (f : FitInputs K K K) : Prop where
  lines : 2 ≤ f.correlation.length
  columns : ∃ n, 2 ≤ n ∧ ∀ r ∈ f.correlation, r.length = n
  targets : f.ekra.length = f.correlation.length
  weights : f.weight.length = f.correlation.length

/-- Two lists that differ in nothing but the last element. -/
def SameButLast {K : Type} (a b : List K) : Prop := a.length = b.length ∧ a.dropLast = b.dropLast

end KMC.Spec
