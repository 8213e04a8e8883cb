import Mathlib.Tactic.FieldSimp
import Mathlib.Tactic.Ring
import Verif.Lemmas.LCE
import Verif.Spec.OrbitFunction
namespace KMC
open Spec ModelFile LCE
variable {P D K : Type}

theorem attached_eq (cs : List (Cluster P D)) : attached cs = Orbit.ofClusters cs := by
  have key : ∀ (cs : List (Cluster P D)) (o : Orbit P D), cs.foldl Orbit.attach o =
      ⟨o.clusters ++ cs, o.multiplicity + (cs.length : Int)⟩ := by
    intro cs
    induction cs with
    | nil => intro o; simp
    | cons c cs ih => intro o; simp [ih, Orbit.attach]; omega
  simp [attached, key, Orbit.new, Orbit.ofClusters]

theorem foldl_clusterProduct [Field K] (occ : List Int) : ∀ (c : List Int) (acc : K),
    clusterProduct occ c acc =
      (match pyGetAll occ c with
        | .error e => .error e
        | .ok vs => .ok (vs.foldl (fun p v => p * (v : K)) acc)) := by
  intro c
  induction c with
  | nil => intro acc; rfl
  | cons s c ih =>
    intro acc
    simp only [clusterProduct, pyGetAll]
    cases pyGet occ s with
    | error e => rfl
    | ok v =>
      simp only [ih]
      cases pyGetAll occ c <;> rfl

theorem sumFunctions_eq [Field K] (occ : List Int) : ∀ (cs : List (Cluster P D)) (acc : K),
    sumFunctions occ cs acc = orbitSum occ (cs.map Cluster.siteIndices) acc := by
  intro cs
  induction cs with
  | nil => intro acc; rfl
  | cons c cs ih =>
    intro acc
    simp only [sumFunctions, List.map_cons, orbitSum, Cluster.clusterFunction, foldl_clusterProduct, ih]
    cases pyGetAll occ c.siteIndices <;> rfl

theorem clusterFunction_eq [Field K] (occ : List Int) (o : Orbit P D) (h : o.multiplicity ≠ 0) :
    o.clusterFunction (K := K) occ =
      match orbitSum (K := K) occ o.clusterSiteIndices 0 with
      | .error e => .error e
      | .ok s => .ok (s / (o.multiplicity : K)) := by
  simp only [Orbit.clusterFunction, if_neg h, sumFunctions_eq, Orbit.clusterSiteIndices]
  cases orbitSum (K := K) occ (o.clusters.map Cluster.siteIndices) 0 with
  | error e => rfl
  | ok s => simp only [one_div, div_eq_mul_inv s, mul_comm s]

theorem orbitSum_gives [CommRing K] {occ : List Int} {cl : List (List Int)} {x : Int → Int} (h : Gives occ cl x) :
    orbitSum (K := K) occ cl 0 = .ok ((cl.map fun c => (c.map fun s => (x s : K)).prod).sum) := by
  rw [orbitSum_iff]
  refine ⟨cl.map fun c => (c.map fun s => (x s : K)).prod, ?_, by simp⟩
  rw [List.forall₂_map_right_iff, List.forall₂_same]
  intro c hc
  rw [clusterProduct_eq c 1 (h c hc), one_mul]

theorem buildOrbits_ne_nil {α : Type} (eq : α → α → Bool) (cs : List α) : ∀ o ∈ buildOrbits eq cs, o ≠ [] := by
  have key : ∀ (cs : List α) (acc : List α × List (List α)), (∀ o ∈ acc.2, o ≠ []) →
      ∀ o ∈ (cs.foldl (buildOrbitsStep eq) acc).2, o ≠ [] := by
    intro cs
    induction cs with
    | nil => exact fun acc h => h
    | cons c cs ih =>
      intro acc h
      refine ih _ ?_
      simp only [buildOrbitsStep]
      split
      · intro o ho
        rcases List.mem_append.1 ho with ho | ho
        · exact h o ho
        · simp only [List.mem_singleton] at ho; simp [ho]
      · intro o ho
        obtain ⟨i, hi, rfl⟩ := List.getElem_of_mem ho
        rw [List.getElem_modify]
        split
        · simp
        · exact h _ (List.getElem_mem _)
  exact key cs _ (by simp)

end KMC
