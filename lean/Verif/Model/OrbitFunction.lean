import Mathlib.Algebra.Field.Basic
import Verif.Model.ModelFile
/-
Model of the cluster functions of `kmcpy/structure/cluster.py`: what a cluster or an orbit, taken alone, says
about an occupation.
-/
namespace KMC
namespace ModelFile
variable {P D K : Type}

/-- `Orbit()`, `cluster.py:80-82`. -/
def Orbit.new : Orbit P D := ⟨[], 0⟩

/-- `attach_cluster`, `cluster.py:84-86`. -/
def Orbit.attach (o : Orbit P D) (c : Cluster P D) : Orbit P D := ⟨o.clusters ++ [c], o.multiplicity + 1⟩

/-- The list comprehension of `Cluster.get_cluster_function`, `cluster.py:367`, with the product taken from the left
as `np.prod` does; the product of an empty list is one. -/
def Cluster.clusterFunction [Field K] (occ : List Int) (c : Cluster P D) : Py K :=
  match pyGetAll occ c.siteIndices with
  | .error e => .error e
  | .ok vs => .ok (vs.foldl (fun p v => p * (v : K)) 1)

/-- The argument of `sum` in `Orbit.get_cluster_function`, `cluster.py:90-92`, from the running total `acc`. -/
def sumFunctions [Field K] (occ : List Int) : List (Cluster P D) → K → Py K
  | [], acc => .ok acc
  | c :: cs, acc =>
    match c.clusterFunction (K := K) occ with
    | .error e => .error e
    | .ok p => sumFunctions occ cs (acc + p)

/-- `Orbit.get_cluster_function`, `cluster.py:88-92`: the factor is computed before the sum. -/
def Orbit.clusterFunction [Field K] (occ : List Int) (o : Orbit P D) : Py K :=
  if o.multiplicity = 0 then .error .zeroDivisionError
  else
    match sumFunctions (K := K) occ o.clusters 0 with
    | .error e => .error e
    | .ok s => .ok ((1 / (o.multiplicity : K)) * s)

/-- `Orbit.cluster_site_indices`, `cluster.py:125-131`. -/
def Orbit.clusterSiteIndices (o : Orbit P D) : List (List Int) := o.clusters.map Cluster.siteIndices

end ModelFile
end KMC
