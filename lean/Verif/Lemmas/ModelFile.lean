import Verif.Spec.ModelFile
import Verif.Lemmas.LCE
/-
Lemmas for saved models.
-/
namespace KMC
namespace ModelFile
open Spec
variable {P D K : Type}

theorem zip_fst {α β : Type} (a : List α) (b : List β) (h : b.length = a.length) :
    (a.zip b).map (·.1) = a := by
  induction a generalizing b with
  | nil => rfl
  | cons x xs ih =>
    cases b with
    | nil => simp at h
    | cons y ys => simp [ih ys (by simpa using h)]

theorem zip_snd {α β : Type} (a : List α) (b : List β) (h : b.length = a.length) :
    (a.zip b).map (·.2) = b := by
  induction a generalizing b with
  | nil => cases b <;> simp_all
  | cons x xs ih =>
    cases b with
    | nil => simp at h
    | cons y ys => simp [ih ys (by simpa using h)]

theorem cluster_round {dist : P → P → D} {c : Cluster P D} (h : FromPositions dist c) :
    Cluster.fromDict dist c.asDict = .ok c := by
  obtain ⟨h1, h2, h3, h4⟩ := h
  simp only [Cluster.fromDict, Cluster.asDict, zip_fst _ _ h1, zip_snd _ _ h1, Cluster.make,
    Option.getD_some, h1, h2, h3, ne_eq, not_true_eq_false, if_false]
  cases c
  simp_all [distances]

theorem clusters_round {dist : P → P → D} {cs : List (Cluster P D)} (h : ∀ c ∈ cs, FromPositions dist c) :
    clustersFromDict dist (cs.map Cluster.asDict) = .ok cs := by
  induction cs with
  | nil => rfl
  | cons c cs ih =>
    simp only [List.map_cons, clustersFromDict, cluster_round (h c (by simp)),
      ih fun c hc => h c (by simp [hc])]

theorem orbit_round {dist : P → P → D} {o : Orbit P D} (h : ∀ c ∈ o.clusters, FromPositions dist c) :
    Orbit.fromDict dist o.asDict = .ok o := by
  simp only [Orbit.fromDict, Orbit.asDict, clusters_round h, Option.getD_some]

theorem orbits_round {dist : P → P → D} {os : List (Orbit P D)}
    (h : ∀ o ∈ os, ∀ c ∈ o.clusters, FromPositions dist c) :
    orbitsFromDict dist (os.map Orbit.asDict) = .ok os := by
  induction os with
  | nil => rfl
  | cons o os ih =>
    simp only [List.map_cons, orbitsFromDict, orbit_round (h o (by simp)),
      ih fun o ho => h o (by simp [ho])]

theorem chosen_length (sites : List (String × P)) (idx : List Nat) (h : ∀ i ∈ idx, i < sites.length) :
    (idx.filterMap fun i => sites[i]?).length = idx.length := by
  induction idx with
  | nil => rfl
  | cons i is ih =>
    have hi := List.getElem?_eq_getElem (h i (by simp))
    simp [hi, ih fun j hj => h j (by simp [hj])]

theorem clusterAt_positions (dist : P → P → D) (sym : List (String × P) → String)
    (sites : List (String × P)) (idx : List Nat) (h : ∀ i ∈ idx, i < sites.length) :
    FromPositions dist (clusterAt dist sym sites idx) := by
  have := chosen_length sites idx h
  exact ⟨by simp [clusterAt], by simp [clusterAt, this], by simp [clusterAt],
    by simp [clusterAt, distances]⟩

theorem featureFingerprints_append (h : Digests P D) (os : List (Orbit P D)) (fs gs : List FeatureMeta)
    {a b : List String} (ha : featureFingerprints h os fs = .ok a) (hb : featureFingerprints h os gs = .ok b) :
    featureFingerprints h os (fs ++ gs) = .ok (a ++ b) := by
  induction fs generalizing a with
  | nil => simp only [featureFingerprints, Except.ok.injEq] at ha; subst ha; simpa using hb
  | cons f fs ih =>
    simp only [featureFingerprints, List.cons_append] at ha ⊢
    cases hg : pyGet os f.orbitIndex with
    | error e => simp [hg] at ha
    | ok o =>
      cases hr : featureFingerprints h os fs with
      | error e => simp [hg, hr] at ha
      | ok ss =>
        simp only [hg, hr, Except.ok.injEq] at ha
        subst ha
        simp [ih hr]

theorem pyGet_nat {α : Type} (l : List α) (i : Nat) (a : α) (h : l[i]? = some a) :
    pyGet l (i : Int) = .ok a := by
  have hi : i < l.length := (List.getElem?_eq_some_iff.mp h).1
  simpa [pyGet, hi] using h

theorem orbit_features (h : Digests P D) (os : List (Orbit P D)) (fs : List FeatureMeta) (o : Orbit P D)
    (i : Nat) (hi : os[i]? = some o) (hf : ∀ f ∈ fs, f.orbitIndex = (i : Int)) :
    featureFingerprints h os fs =
      .ok (fs.map fun f => h.decorated (h.orbit o) f.basisIndices f.siteStateCounts) := by
  induction fs with
  | nil => rfl
  | cons f fs ih =>
    simp only [featureFingerprints, hf f (by simp), pyGet_nat os i o hi,
      ih fun f hf' => hf f (by simp [hf']), List.map_cons]

theorem all_features {L : Type} (dist : P → P → D) (sym : List (String × P) → String) (h : Digests P D)
    (sites : List (String × P)) (maxLength : List Nat → L) (mt : List Nat → List Nat → Bool)
    (b : LCE.SiteBasis K) (counts : List Nat) (pre rest : List (List (List Nat))) :
    featureFingerprints h ((pre ++ rest).map (orbitAt dist sym sites)) (allMeta b counts pre.length rest) =
      .ok ((rest.flatMap (LCE.orbitFeatures (geometry dist sym h sites maxLength mt) b counts)).map
        LCE.Feature.fingerprint) := by
  induction rest generalizing pre with
  | nil => rfl
  | cons o os ih =>
    simp only [allMeta, List.flatMap_cons, List.map_append]
    refine featureFingerprints_append h _ _ _ ?_ ?_
    · rw [orbit_features h _ (orbitMeta b counts pre.length o) (orbitAt dist sym sites o) pre.length]
      · simp [orbitMeta, LCE.orbitFeatures, geometry, List.map_map, Function.comp_def]
      · simp
      · intro f hf
        simp only [orbitMeta, List.mem_map] at hf
        obtain ⟨d, _, rfl⟩ := hf
        rfl
    · have := ih (pre ++ [o])
      simpa using this

end ModelFile
end KMC
