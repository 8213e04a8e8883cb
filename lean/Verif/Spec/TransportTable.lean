import Verif.Model.TransportTable
/-
Specification for the table of transport data: what a row says about its folder and pass.
-/
namespace KMC.Spec
open KMC.TransportTable

/-- The row belongs to the folder and the pass: composition and number come from the second and the third
part of the folder's name, the four numbers from the file of the pass. -/
structure RowFor {K : Type} [Ring K] (rd : Readers K) (folder : String) (n : Nat) (r : Row K) : Prop where
  location : r.location = folder
  pass : r.pass = n
  composition : ∃ t c, (Tools.split "_" (pyStrip folder))[1]? = some t ∧ rd.float t = .ok c ∧ r.x = 3 - 3 * c
  structureId : ∃ t, (Tools.split "_" (pyStrip folder))[2]? = some t ∧ rd.int t = .ok r.structureId
  numbers : rd.loadtxt (folder ++ "/migration_" ++ intStr (n : Int) ++ ".txt") =
    .ok [r.jump, r.tracer, r.correlation, r.conductivity]
  theta : rd.spline r.x = .ok r.theta
  chemical : r.chemical = r.jump * r.theta

/-- Every folder with every pass from 0 to 1999, folders first. -/
def folderPasses (folders : List String) : List (String × Nat) :=
  folders.flatMap fun f => (List.range 2000).map fun n => (f, n)

end KMC.Spec
