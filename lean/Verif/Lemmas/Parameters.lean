import Verif.Spec.Parameters
import Verif.Lemmas.Config
import Verif.Lemmas.LocalBarrierFile
import Verif.Lemmas.Text
/-
Reading parameter records back.
-/
namespace KMC
namespace Parameters
open Spec

theorem jsonList_eq_map (l : List PyVal) : PyVal.jsonList l = l.map PyVal.json := by
  induction l with
  | nil => simp only [PyVal.jsonList, List.map_nil]
  | cons v l ih => simp only [PyVal.jsonList, List.map_cons, ih]

theorem jsonDict_eq_map (d : List (String × PyVal)) :
    PyVal.jsonDict d = d.map fun kv => (kv.1, kv.2.json) := by
  induction d with
  | nil => simp only [PyVal.jsonDict, List.map_nil]
  | cons v l ih => obtain ⟨k, v⟩ := v; simp only [PyVal.jsonDict, List.map_cons, ih]

theorem json_of_plain {v : PyVal} (h : PlainValue v) : v.json = v := by
  induction h with
  | list l _ ih =>
    simp only [PyVal.json, jsonList_eq_map, PyVal.list.injEq]
    conv_rhs => rw [← List.map_id l]
    exact List.map_congr_left ih
  | dict d _ ih =>
    simp only [PyVal.json, jsonDict_eq_map, PyVal.dict.injEq]
    conv_rhs => rw [← List.map_id d]
    refine List.map_congr_left fun kv hk => ?_
    show (kv.1, kv.2.json) = kv
    rw [ih kv hk]
  | _ => simp only [PyVal.json]

theorem dictGet_unlessNone (k k' : String) (v : PyVal) :
    dictGet (unlessNone k v) k' = if k = k' ∧ v.isNone = false then some v else none := by
  unfold unlessNone
  cases v <;> simp [PyVal.isNone, dictGet]

/-- The record a file gives back. -/
def reload (p : Params) : Params := { p with localSiteOrder := .none, name := defaultName }

theorem fromDict_of_get {p : Params} {d : List (String × PyVal)}
    (h1 : dictGet d "keci" = some p.keci)
    (h2 : dictGet d "empty_cluster" = some p.emptyCluster)
    (h3 : dictGet d "cluster_site_indices" = some p.clusterSiteIndices)
    (h4 : dictGet d "weight" = some p.weight)
    (h5 : dictGet d "alpha" = some p.alpha)
    (h6 : dictGet d "time_stamp" = some p.timeStamp)
    (h7 : dictGet d "time" = some p.time)
    (h8 : dictGet d "rmse" = some p.rmse)
    (h9 : dictGet d "loocv" = some p.loocv)
    (h10 : dictGet d "normalize" = some p.normalize)
    (h11 : (dictGet d "orbit_fingerprints").getD .none = p.orbitFingerprints)
    (h12 : (dictGet d "local_environment_hash").getD .none = p.localEnvironmentHash)
    (h13 : dictGet d "local_site_order" = none) :
    fromDict (.dict d) = .ok (reload p) := by
  have hk : ∀ k, keptKey k = true → dictGet (d.filter fun kv => keptKey kv.1) k = dictGet d k := by
    intro k hk
    rw [dictGet_filter, if_pos hk]
  simp only [fromDict]
  rw [hk "keci" (by decide), hk "empty_cluster" (by decide), hk "cluster_site_indices" (by decide),
    hk "weight" (by decide), hk "alpha" (by decide), hk "time_stamp" (by decide),
    hk "time" (by decide), hk "rmse" (by decide), hk "loocv" (by decide),
    hk "normalize" (by decide), hk "orbit_fingerprints" (by decide),
    hk "local_environment_hash" (by decide), hk "local_site_order" (by decide),
    h1, h2, h3, h4, h5, h6, h7, h8, h9, h10, h11, h12, h13]
  rfl

theorem asDict_get (p : Params) :
    dictGet p.asDict "keci" = some p.keci ∧
    dictGet p.asDict "empty_cluster" = some p.emptyCluster ∧
    dictGet p.asDict "cluster_site_indices" = some p.clusterSiteIndices ∧
    dictGet p.asDict "weight" = some p.weight ∧
    dictGet p.asDict "alpha" = some p.alpha ∧
    dictGet p.asDict "time_stamp" = some p.timeStamp ∧
    dictGet p.asDict "time" = some p.time ∧
    dictGet p.asDict "rmse" = some p.rmse ∧
    dictGet p.asDict "loocv" = some p.loocv ∧
    dictGet p.asDict "normalize" = some p.normalize ∧
    (dictGet p.asDict "orbit_fingerprints").getD .none = p.orbitFingerprints ∧
    (dictGet p.asDict "local_environment_hash").getD .none = p.localEnvironmentHash ∧
    dictGet p.asDict "local_site_order" = none := by
  unfold Params.asDict
  simp only [LocalBarrier.dictGet_append, dictGet_unlessNone]
  simp [dictGet]
  constructor
  · cases p.orbitFingerprints <;> simp [PyVal.isNone]
  · cases p.localEnvironmentHash <;> simp [PyVal.isNone]

theorem json_asDict {p : Params} (h : PlainRecord p) : PyVal.json (.dict p.asDict) = .dict p.asDict := by
  apply json_of_plain
  apply PlainValue.dict
  intro kv hkv
  simp only [PlainRecord, writtenFields, List.forall_mem_cons] at h
  simp only [Params.asDict, List.mem_append, List.mem_cons, List.not_mem_nil, or_false, unlessNone] at hkv
  obtain ⟨h1, h2, h3, h4, h5, h6, h7, h8, h9, h10, h11, h12, -⟩ := h
  rcases hkv with ((h | h | h | h | h | h | h | h | h | h | h | h) | h) | h
  · subst h; exact .str _
  · subst h; exact .str _
  · subst h; exact h1
  · subst h; exact h2
  · subst h; exact h3
  · subst h; exact h4
  · subst h; exact h5
  · subst h; exact h6
  · subst h; exact h7
  · subst h; exact h8
  · subst h; exact h9
  · subst h; exact h10
  · split at h
    · cases h
    · rw [List.mem_singleton] at h; subst h; exact h11
  · split at h
    · cases h
    · rw [List.mem_singleton] at h; subst h; exact h12

theorem fromDict_asDict' (p : Params) : fromDict (.dict p.asDict) = .ok (reload p) := by
  obtain ⟨h1, h2, h3, h4, h5, h6, h7, h8, h9, h10, h11, h12, h13⟩ := asDict_get p
  exact fromDict_of_get h1 h2 h3 h4 h5 h6 h7 h8 h9 h10 h11 h12 h13

theorem fromDicts_map {α : Type} {l : List α} {f : α → PyVal} {g : α → Params}
    (h : ∀ a ∈ l, fromDict (f a) = .ok (g a)) : fromDicts (l.map f) = .ok (l.map g) := by
  induction l with
  | nil => rfl
  | cons a l ih =>
    rw [List.forall_mem_cons] at h
    simp only [List.map_cons, fromDicts, h.1, ih h.2]

theorem historyFromDict_asDict (h : List Params) :
    historyFromDict (historyAsDict h) = .ok (h.map reload) := by
  simp only [historyAsDict, historyFromDict, dictGet]
  simp [PyVal.toList]
  exact fromDicts_map fun p _ => fromDict_asDict' p

theorem json_history {h : List Params} (hp : ∀ p ∈ h, PlainRecord p) :
    PyVal.json (historyAsDict h) = historyAsDict h := by
  simp only [historyAsDict, PyVal.json, jsonDict_eq_map, jsonList_eq_map, List.map_cons, List.map_nil,
    List.map_map]
  congr 5
  rw [PyVal.list.injEq]
  refine List.map_congr_left fun p hm => ?_
  exact json_asDict (hp p hm)

/-! ### HDF5 -/

theorem storeGroup_faithful {store : PyVal → Py PyVal} (d : List (String × PyVal))
    (h : ∀ kv ∈ d, kv.1.toList.head? = some '@' ∨ kv.2 = .none ∨ store kv.2 = .ok kv.2) :
    storeGroup store d
      = (.ok (), d.filter fun kv => !(kv.1.toList.head? == some '@' || kv.2.isNone)) := by
  induction d with
  | nil => rfl
  | cons kv d ih =>
    obtain ⟨k, v⟩ := kv
    rw [List.forall_mem_cons] at h
    rw [storeGroup]
    split
    · next hc => rw [List.filter_cons_of_neg (by simp only [hc]; simp)]; exact ih h.2
    · next hc =>
      rw [List.filter_cons_of_pos (by simpa using hc), ih h.2]
      have hv : store v = .ok v := by
        rcases h.1 with h' | h' | h'
        · simp only at h'; rw [h'] at hc; simp at hc
        · simp only at h'; rw [h'] at hc; simp [PyVal.isNone] at hc
        · exact h'
      simp only [hv]

/-- What an HDF5 group holds after writing a record. -/
def groupOf (p : Params) : List (String × PyVal) :=
  p.asDict.filter fun kv => !(kv.1.toList.head? == some '@' || kv.2.isNone)

theorem storeGroup_asDict {store : PyVal → Py PyVal} {p : Params} (h : StorableRecord store p) :
    storeGroup store p.asDict = (.ok (), groupOf p) := by
  apply storeGroup_faithful
  intro kv hkv
  obtain ⟨h, -⟩ := h
  simp only [writtenFields, List.forall_mem_cons] at h
  simp only [Params.asDict, List.mem_append, List.mem_cons, List.not_mem_nil, or_false, unlessNone] at hkv
  obtain ⟨h1, h2, h3, h4, h5, h6, h7, h8, h9, h10, h11, h12, -⟩ := h
  rcases hkv with ((h | h | h | h | h | h | h | h | h | h | h | h) | h) | h
  · subst h; exact .inl (by decide)
  · subst h; exact .inl (by decide)
  · subst h; exact .inr h1
  · subst h; exact .inr h2
  · subst h; exact .inr h3
  · subst h; exact .inr h4
  · subst h; exact .inr h5
  · subst h; exact .inr h6
  · subst h; exact .inr h7
  · subst h; exact .inr h8
  · subst h; exact .inr h9
  · subst h; exact .inr h10
  · split at h
    · cases h
    · rw [List.mem_singleton] at h; subst h; exact .inr h11
  · split at h
    · cases h
    · rw [List.mem_singleton] at h; subst h; exact .inr h12

theorem isNone_false {v : PyVal} (h : v ≠ .none) : v.isNone = false := by
  cases v <;> simp_all [PyVal.isNone]

theorem fromDict_groupOf {store : PyVal → Py PyVal} {p : Params} (h : StorableRecord store p) :
    fromDict (.dict (groupOf p)) = .ok (reload p) := by
  obtain ⟨-, hm⟩ := h
  simp only [mandatoryFields, List.forall_mem_cons] at hm
  obtain ⟨h1, h2, h3, h4, h5, h6, h7, h8, h9, h10, -⟩ := hm
  have hg : groupOf p =
      [("keci", p.keci), ("empty_cluster", p.emptyCluster),
       ("cluster_site_indices", p.clusterSiteIndices), ("weight", p.weight), ("alpha", p.alpha),
       ("time_stamp", p.timeStamp), ("time", p.time), ("rmse", p.rmse), ("loocv", p.loocv),
       ("normalize", p.normalize)] ++
      unlessNone "orbit_fingerprints" p.orbitFingerprints ++
      unlessNone "local_environment_hash" p.localEnvironmentHash := by
    unfold groupOf Params.asDict
    have ho : ∀ k v, k.toList.head? ≠ some '@' →
        (unlessNone k v).filter (fun kv => !(kv.1.toList.head? == some '@' || kv.2.isNone))
          = unlessNone k v := by
      intro k v hk
      unfold unlessNone
      split
      · rfl
      · next hv => simp only [List.filter_cons, List.filter_nil]; simp [hk, hv]
    rw [List.filter_append, List.filter_append, ho _ _ (by decide), ho _ _ (by decide)]
    congr 2
    simp [isNone_false h1, isNone_false h2, isNone_false h3, isNone_false h4,
      isNone_false h5, isNone_false h6, isNone_false h7, isNone_false h8, isNone_false h9,
      isNone_false h10]
  have hget := asDict_get p
  have hd : ∀ k, k ≠ "@module" → k ≠ "@class" → dictGet (groupOf p) k = dictGet p.asDict k := by
    intro k hk1 hk2
    have ha : p.asDict = ("@module", .str "kmcpy.models.parameters") ::
        ("@class", .str "LCEModelParameters") :: groupOf p := by rw [hg]; rfl
    rw [ha, dictGet, dictGet, if_neg (Ne.symm hk1), if_neg (Ne.symm hk2)]
  obtain ⟨h1, h2, h3, h4, h5, h6, h7, h8, h9, h10, h11, h12, h13⟩ := hget
  apply fromDict_of_get <;> (rw [hd _ (by decide) (by decide)]; assumption)

theorem storeGroups_ok {store : PyVal → Py PyVal} (i : Nat) {h : List Params}
    (hp : ∀ p ∈ h, StorableRecord store p) :
    storeGroups store i h
      = (.ok (), (h.zipIdx i).map fun q => (groupName q.2, groupOf q.1)) := by
  induction h generalizing i with
  | nil => rfl
  | cons p h ih =>
    rw [List.forall_mem_cons] at hp
    simp only [storeGroups, storeGroup_asDict hp.1, ih (i + 1) hp.2, List.zipIdx_cons, List.map_cons]

end Parameters
end KMC
