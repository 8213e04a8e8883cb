import Verif.Lemmas.ParameterOrder
/-
C52: fitted parameters and their history survive being saved and loaded.
-/
namespace KMC
namespace Parameters
open Spec

theorem reload_of_persistent {p : Params} (h : Persistent p) : reload p = p := by
  obtain ⟨h1, h2⟩ := h
  cases p
  simp only [reload] at *
  subst h1 h2
  rfl

theorem map_reload {h : List Params} (hp : ∀ p ∈ h, Persistent p) : h.map reload = h := by
  conv_rhs => rw [← List.map_id h]
  exact List.map_congr_left fun p hm => reload_of_persistent (hp p hm)

/-- **C52.** A single record saved and loaded, as text or as HDF5, agrees in every field files keep. -/
theorem C52_record {store : PyVal → Py PyVal} {path : String} {p : Params}
    (hp : if isH5 path then StorableRecord store p else PlainRecord p) :
    ∃ disk q, p.to store path = (.ok (), disk) ∧ fromFile path disk = .ok q ∧ SameFit q p ∧
      (Persistent p → q = p) := by
  unfold Params.to fromFile
  by_cases h5 : isH5 path = true
  · rw [if_pos h5] at hp
    refine ⟨.datasets (groupOf p), reload p, ?_, ?_, rfl, reload_of_persistent⟩
    · rw [if_pos h5, storeGroup_asDict hp]
    · rw [if_pos h5]; exact fromDict_groupOf hp
  · rw [if_neg h5] at hp
    refine ⟨.text (.dict p.asDict), reload p, ?_, ?_, rfl, reload_of_persistent⟩
    · rw [if_neg h5, json_asDict hp]
    · rw [if_neg h5]; exact fromDict_asDict' p

/-- **C52, where it fails.** The local site order of a record is never in the file: whatever it was,
and whatever the form, it is absent after loading. -/
theorem C52_local_site_order_lost {store : PyVal → Py PyVal} {path : String} {p : Params}
    (hp : if isH5 path then StorableRecord store p else PlainRecord p) :
    ∃ disk q, p.to store path = (.ok (), disk) ∧ fromFile path disk = .ok q ∧
      q.localSiteOrder = .none := by
  unfold Params.to fromFile
  by_cases h5 : isH5 path = true
  · rw [if_pos h5] at hp
    refine ⟨.datasets (groupOf p), reload p, ?_, ?_, rfl⟩
    · rw [if_pos h5, storeGroup_asDict hp]
    · rw [if_pos h5]; exact fromDict_groupOf hp
  · rw [if_neg h5] at hp
    refine ⟨.text (.dict p.asDict), reload p, ?_, ?_, rfl⟩
    · rw [if_neg h5, json_asDict hp]
    · rw [if_neg h5]; exact fromDict_asDict' p

theorem text_history {store : PyVal → Py PyVal} {path : String} (hx : isH5 path = false)
    {h : List Params} (hp : ∀ p ∈ h, PlainRecord p) :
    historyTo store path h = (.ok (), .text (historyAsDict h)) ∧
      historyFromFile path (.text (historyAsDict h)) = .ok (h.map reload) := by
  unfold historyTo historyFromFile
  rw [if_neg (by simp [hx]), if_neg (by simp [hx]), json_history hp]
  exact ⟨rfl, historyFromDict_asDict h⟩

theorem h5_history {store : PyVal → Py PyVal} {path : String} (hx : isH5 path = true)
    {h : List Params} (hp : ∀ p ∈ h, StorableRecord store p) :
    historyTo store path h = (.ok (), .groups (groupsOf h)) ∧
      historyFromFile path (.groups (groupsOf h))
        = fromDicts ((sortedGroups (groupsOf h)).map fun kd => .dict kd.2) := by
  unfold historyTo historyFromFile
  rw [if_pos hx, if_pos hx]
  rw [storeGroups_ok 0 hp]
  exact ⟨rfl, rfl⟩

/-- **C52 (text files).** A history of any length, saved as text and loaded, is the same records in
the same order.  Missing: HDF5 files of more than ten records, where this is false
(`C52_h5_third_is_eleventh`), and the local site order of a record. -/
theorem C52_text_history_partial {store : PyVal → Py PyVal} {path : String} (hx : isH5 path = false)
    {h : List Params} (hp : ∀ p ∈ h, PlainRecord p) (hk : ∀ p ∈ h, Persistent p) :
    ∃ disk, historyTo store path h = (.ok (), disk) ∧ historyFromFile path disk = .ok h := by
  obtain ⟨h1, h2⟩ := text_history (store := store) hx hp
  exact ⟨_, h1, by rw [h2, map_reload hk]⟩

/-- **C52 (HDF5, short).** The same for an HDF5 history of at most ten records. -/
theorem C52_h5_history_partial {store : PyVal → Py PyVal} {path : String} (hx : isH5 path = true)
    {h : List Params} (hp : ∀ p ∈ h, StorableRecord store p) (hk : ∀ p ∈ h, Persistent p)
    (hl : h.length ≤ 10) :
    ∃ disk, historyTo store path h = (.ok (), disk) ∧ historyFromFile path disk = .ok h := by
  obtain ⟨h1, h2⟩ := h5_history hx hp
  refine ⟨_, h1, ?_⟩
  rw [h2, sortedGroups_short hl]
  unfold groupsOf
  rw [List.map_map]
  have := fromDicts_map (l := h.zipIdx) (f := fun q => .dict (groupOf q.1)) (g := fun q => q.1)
    (by
      intro q hq
      have hm : q.1 ∈ h := List.fst_mem_of_mem_zipIdx hq
      rw [← reload_of_persistent (hk q.1 hm)]
      exact fromDict_groupOf (hp q.1 hm))
  rw [List.zipIdx_map_fst] at this
  exact this

theorem fromDicts_perm {α : Type} {l : List α} {m : List α} {f : α → PyVal} {g : α → Params}
    (h : ∀ a ∈ l, fromDict (f a) = .ok (g a)) (hp : m.Perm l) :
    fromDicts (m.map f) = .ok (m.map g) :=
  fromDicts_map fun a ha => h a (hp.mem_iff.mp ha)

theorem h5_loaded {store : PyVal → Py PyVal} {h : List Params}
    (hp : ∀ p ∈ h, StorableRecord store p) (hk : ∀ p ∈ h, Persistent p) :
    ∃ l, fromDicts ((sortedGroups (groupsOf h)).map fun kd => .dict kd.2) = .ok l ∧ l.Perm h ∧
      (11 ≤ h.length → l[2]? = h[10]?) := by
  classical
  have hin : ∀ g ∈ groupsOf h, ∃ p ∈ h, fromDict (.dict g.2) = .ok p := by
    intro g hg
    obtain ⟨i, p, hi, rfl⟩ := groupsOf_mem hg
    have hm := List.mem_of_getElem? hi
    exact ⟨p, hm, by rw [fromDict_groupOf (hp p hm), reload_of_persistent (hk p hm)]⟩
  let r : String × List (String × PyVal) → Params := fun g =>
    match fromDict (.dict g.2) with
    | .ok p => p
    | .error _ => ⟨.none, .none, .none, .none, .none, .none, .none, .none, .none, .none, .none, .none, .none, ""⟩
  have hr : ∀ g ∈ groupsOf h, fromDict (.dict g.2) = .ok (r g) := by
    intro g hg
    obtain ⟨p, _, hp⟩ := hin g hg
    simp only [r, hp]
  have hrp : ∀ i p, h[i]? = some p → r (groupName i, groupOf p) = p := by
    intro i p hi
    have hm := List.mem_of_getElem? hi
    have := hr (groupName i, groupOf p) (List.mem_of_getElem? (i := i) (by
      rw [groupsOf_getElem?, hi]; rfl))
    rw [fromDict_groupOf (hp p hm), reload_of_persistent (hk p hm)] at this
    exact (Except.ok.inj this).symm
  have hmap : (groupsOf h).map r = h := by
    apply List.ext_getElem?
    intro i
    rw [List.getElem?_map, groupsOf_getElem?, Option.map_map]
    cases hi : h[i]? with
    | none => rfl
    | some p => simp only [Option.map_some, Function.comp, hrp i p hi]
  refine ⟨(sortedGroups (groupsOf h)).map r, fromDicts_perm hr (sortedGroups_perm _), ?_, ?_⟩
  · have := (sortedGroups_perm (groupsOf h)).map r
    rwa [hmap] at this
  · intro hl
    rw [List.getElem?_map, sortedGroups_long hl, ← List.getElem?_map, hmap]

/-- **C52 (HDF5, content).** An HDF5 history of any length gives back every record exactly as often
as it was saved, though not necessarily in order. -/
theorem C52_h5_loses_nothing {store : PyVal → Py PyVal} {path : String} (hx : isH5 path = true)
    {h : List Params} (hp : ∀ p ∈ h, StorableRecord store p) (hk : ∀ p ∈ h, Persistent p) :
    ∃ disk l, historyTo store path h = (.ok (), disk) ∧ historyFromFile path disk = .ok l ∧ l.Perm h := by
  obtain ⟨h1, h2⟩ := h5_history hx hp
  obtain ⟨l, hl, hperm, -⟩ := h5_loaded hp hk
  exact ⟨_, l, h1, by rw [h2, hl], hperm⟩

/-- **C52, where it fails.** In every HDF5 history of eleven records or more, the third record
loaded is the eleventh saved; if those two differ, the loaded history is not the saved one. -/
theorem C52_h5_third_is_eleventh {store : PyVal → Py PyVal} {path : String} (hx : isH5 path = true)
    {h : List Params} (hp : ∀ p ∈ h, StorableRecord store p) (hk : ∀ p ∈ h, Persistent p)
    (hl : 11 ≤ h.length) :
    ∃ disk l, historyTo store path h = (.ok (), disk) ∧ historyFromFile path disk = .ok l ∧
      l[2]? = h[10]? ∧ (h[2]? ≠ h[10]? → l ≠ h) := by
  obtain ⟨h1, h2⟩ := h5_history hx hp
  obtain ⟨l, hl', -, h10⟩ := h5_loaded hp hk
  refine ⟨_, l, h1, by rw [h2, hl'], h10 hl, ?_⟩
  rintro hne rfl
  exact hne (h10 hl)

/-! ### Repeated fits -/

/-- **C52 (fits).** Starting from a text history file that loads as `h`, any number of fits leaves a
file that loads as `h` followed by the new records in order. -/
theorem C52_fits_append {store : PyVal → Py PyVal} {path : String} (hx : isH5 path = false)
    {h ps : List Params} {disk : Disk} (hd : historyFromFile path disk = .ok h)
    (hp : ∀ p ∈ h ++ ps, PlainRecord p) (hk : ∀ p ∈ h ++ ps, Persistent p) :
    ∃ disk', appendAll store path disk ps = (.ok (), disk') ∧
      historyFromFile path disk' = .ok (h ++ ps) := by
  induction ps generalizing h disk with
  | nil => exact ⟨disk, rfl, by rw [List.append_nil]; exact hd⟩
  | cons p ps ih =>
    have hassoc : h ++ p :: ps = (h ++ [p]) ++ ps := by simp
    rw [hassoc] at hp hk ⊢
    obtain ⟨d1, h1, h2⟩ := C52_text_history_partial (store := store) hx (h := h ++ [p])
      (fun q hq => hp q (List.mem_append_left _ hq)) (fun q hq => hk q (List.mem_append_left _ hq))
    obtain ⟨d2, h3, h4⟩ := ih h2 hp hk
    refine ⟨d2, ?_, h4⟩
    have ha : appendHistory store path disk p = (.ok (), d1) := by
      unfold appendHistory
      cases disk with
      | absent => simp [historyFromFile, hx] at hd
      | _ => simp only [hd, h1]
    rw [appendAll, ha]
    exact h3

/-- **C52 (fits).** With no file to begin with, any positive number of fits leaves a file that loads
as exactly the fitted records in order. -/
theorem C52_fits_from_nothing {store : PyVal → Py PyVal} {path : String} (hx : isH5 path = false)
    {p : Params} {ps : List Params}
    (hp : ∀ q ∈ p :: ps, PlainRecord q) (hk : ∀ q ∈ p :: ps, Persistent q) :
    ∃ disk, appendAll store path .absent (p :: ps) = (.ok (), disk) ∧
      historyFromFile path disk = .ok (p :: ps) := by
  obtain ⟨d1, h1, h2⟩ := C52_text_history_partial (store := store) hx (h := [p])
    (fun q hq => hp q (by simp at hq; simp [hq])) (fun q hq => hk q (by simp at hq; simp [hq]))
  obtain ⟨d2, h3, h4⟩ := C52_fits_append (store := store) hx h2 hp hk
  exact ⟨d2, by rw [appendAll, appendHistory, h1]; exact h3, h4⟩

/-- **C52 (fits).** A fit whose history file cannot be loaded fails and leaves the file as it was. -/
theorem C52_unreadable_history_kept {store : PyVal → Py PyVal} {path : String} {disk : Disk} {e : PyErr}
    (hne : disk ≠ .absent) (hd : historyFromFile path disk = .error e) (p : Params) :
    appendHistory store path disk p = (.error e, disk) := by
  unfold appendHistory
  cases disk with
  | absent => exact absurd rfl hne
  | _ => simp only [hd]

theorem storeGroup_failed {store : PyVal → Py PyVal} {e : PyErr} {k : String} {v : PyVal}
    (d out : List (String × PyVal)) (hk : k ∉ dictKeys d)
    (h : storeGroup store (d ++ unlessNone k v) = (.error e, out)) : dictGet out k = none := by
  induction d generalizing out with
  | nil =>
    unfold unlessNone at h
    split at h
    · simp [storeGroup] at h
    · rw [List.nil_append, storeGroup] at h
      split at h
      · simp [storeGroup] at h
      · split at h
        · simp only [Prod.mk.injEq] at h; rw [← h.2]; rfl
        · simp [storeGroup] at h
  | cons kv d ih =>
    obtain ⟨k', v'⟩ := kv
    simp only [dictKeys, List.map_cons, List.mem_cons, not_or] at hk
    rw [List.cons_append, storeGroup] at h
    split at h
    · exact ih out hk.2 h
    · split at h
      · simp only [Prod.mk.injEq] at h; rw [← h.2]; rfl
      · simp only [Prod.mk.injEq] at h
        rw [← h.2, dictGet, if_neg (Ne.symm hk.1)]
        exact ih _ hk.2 (Prod.ext h.1 rfl)

theorem storeGroups_failed {store : PyVal → Py PyVal} {e : PyErr} {d : List (String × PyVal)} {p : Params}
    (i : Nat) {h : List Params} (hp : ∀ p ∈ h, StorableRecord store p)
    (hf : storeGroup store p.asDict = (.error e, d)) :
    storeGroups store i (h ++ [p]) = (.error e, ((h.zipIdx i).map fun q => (groupName q.2, groupOf q.1))
      ++ [(groupName (i + h.length), d)]) := by
  induction h generalizing i with
  | nil => simp [storeGroups, hf]
  | cons q h ih =>
    rw [List.forall_mem_cons] at hp
    have hi : i + 1 + h.length = i + (h.length + 1) := by omega
    rw [List.cons_append, storeGroups, storeGroup_asDict hp.1]
    simp only [ih (i + 1) hp.2, List.zipIdx_cons, List.map_cons, List.length_cons, List.cons_append, hi]

/-- **C52, where it fails.** A fit whose new record HDF5 refuses reports the error, but the history
file then loads as the earlier records followed by a truncated one. -/
theorem C52_h5_failed_fit_leaves_record {store : PyVal → Py PyVal} {path : String} (hx : isH5 path = true)
    {h : List Params} {p : Params} {e : PyErr}
    (hp : ∀ p ∈ h, StorableRecord store p) (hk : ∀ p ∈ h, Persistent p) (hl : h.length ≤ 9)
    (hf : (p.to store path).1 = .error e) :
    ∃ disk0 disk q, historyTo store path h = (.ok (), disk0) ∧
      appendHistory store path disk0 p = (.error e, disk) ∧
      historyFromFile path disk = .ok (h ++ [q]) ∧ q.localEnvironmentHash = .none := by
  obtain ⟨h1, h2⟩ := h5_history hx hp
  obtain ⟨disk0, h3, h4⟩ := C52_h5_history_partial hx hp hk (by omega)
  rw [h1] at h3
  simp only [Prod.mk.injEq, true_and] at h3
  obtain ⟨d, hd⟩ : ∃ d, storeGroup store p.asDict = (.error e, d) := by
    unfold Params.to at hf
    rw [if_pos hx] at hf
    exact ⟨_, Prod.ext hf rfl⟩
  have hst := storeGroups_failed (p := p) 0 hp hd
  rw [Nat.zero_add] at hst
  obtain ⟨q, hq, hqh⟩ : ∃ q, fromDict (.dict d) = .ok q ∧ q.localEnvironmentHash = .none := by
    refine ⟨_, rfl, ?_⟩
    show ((dictGet (d.filter fun kv => keptKey kv.1) "local_environment_hash").getD .none) = .none
    rw [dictGet_filter, if_pos (by decide)]
    have hnone : dictGet d "local_environment_hash" = none := by
      refine storeGroup_failed _ d ?_ (by rw [Params.asDict] at hd; exact hd)
      simp only [dictKeys, List.map_append, List.mem_append, not_or]
      refine ⟨by simp, ?_⟩
      unfold unlessNone
      split <;> simp
    rw [hnone]
    rfl
  refine ⟨_, .groups (groupsOf h ++ [(groupName h.length, d)]), q, h1, ?_, ?_, hqh⟩
  · have ha : historyFromFile path (.groups (groupsOf h)) = .ok h := by rw [h3]; exact h4
    unfold appendHistory
    simp only [ha]
    unfold historyTo
    rw [if_pos hx, hst]
    rfl
  · unfold historyFromFile
    rw [if_pos hx]
    have hs : sortedGroups (groupsOf h ++ [(groupName h.length, d)])
        = groupsOf h ++ [(groupName h.length, d)] := by
      unfold sortedGroups
      apply List.mergeSort_of_pairwise
      rw [List.pairwise_append]
      refine ⟨?_, List.pairwise_singleton .., ?_⟩
      · refine (pairwise_groups (k := 0) (h := h) fun i j hij hj _ => ?_).imp ?_
        · exact groupName_lt_small hij (by omega)
        · intro a b hab
          simpa using hab
      · intro a ha b hb
        rw [List.mem_singleton] at hb
        subst hb
        obtain ⟨i, p', hi, rfl⟩ := groupsOf_mem ha
        have hil : i < h.length := (List.getElem?_eq_some_iff.mp hi).1
        simpa using le_of_lt (groupName_lt_small hil (by omega))
    have hload : fromDicts ((groupsOf h).map fun kd => .dict kd.2) = .ok h := by
      rw [← sortedGroups_short (show h.length ≤ 10 by omega), ← h2, h3]
      exact h4
    have happ : ∀ (a : List PyVal) {x : List Params} {v : PyVal} {y : Params}, fromDicts a = .ok x →
        fromDict v = .ok y → fromDicts (a ++ [v]) = .ok (x ++ [y]) := by
      intro a
      induction a with
      | nil =>
        intro x v y hx hy
        simp only [fromDicts, Except.ok.injEq] at hx
        subst hx
        simp [fromDicts, hy]
      | cons w a ih =>
        intro x v y hx hy
        rw [fromDicts] at hx
        split at hx
        · cases hx
        · next r hr =>
          split at hx
          · cases hx
          · next rs hrs =>
            cases hx
            rw [List.cons_append, fromDicts]
            simp only [hr, ih hrs hy, List.cons_append]
    simp only [hs, List.map_append, List.map_cons, List.map_nil]
    exact happ _ hload hq

/-! ### Examples -/

/-- A record as a fit makes it. -/
def exampleParams (n : Int) : Params where
  keci := .list [.float (.fin (n / 2)), .float (.fin 3)]
  emptyCluster := .float (.fin n)
  clusterSiteIndices := .list []
  weight := .list [.float (.fin 1)]
  alpha := .float (.fin (1 / 10))
  timeStamp := .float (.fin 7)
  time := .str "today"
  rmse := .float (.fin 0)
  loocv := .float (.fin 1)
  normalize := .bool true
  orbitFingerprints := .none
  localEnvironmentHash := .str "abc"
  localSiteOrder := .none
  name := defaultName

/-- Non-vacuity of the text theorems: records of every kind, both readable and distinct. -/
example : isH5 "history.json" = false ∧ isH5 "out.d/history.h5" = true ∧ isH5 "history.H5" = false := by
  decide +kernel

theorem exampleParams_plain (n : Int) : PlainRecord (exampleParams n) ∧ Persistent (exampleParams n) := by
  refine ⟨?_, rfl, rfl⟩
  intro v hv
  simp only [writtenFields, exampleParams, List.mem_cons, List.not_mem_nil, or_false] at hv
  rcases hv with h | h | h | h | h | h | h | h | h | h | h | h <;> subst h
  · exact .list _ (by simp only [List.forall_mem_cons]; exact ⟨.float _, .float _, by simp⟩)
  · exact .float _
  · exact .list _ (by simp)
  · exact .list _ (by simp only [List.forall_mem_cons]; exact ⟨.float _, by simp⟩)
  · exact .float _
  · exact .float _
  · exact .str _
  · exact .float _
  · exact .float _
  · exact .bool _
  · exact .none
  · exact .str _

theorem exampleParams_storable (n : Int) : StorableRecord .ok (exampleParams n) :=
  ⟨fun _ _ => .inr rfl, by simp [mandatoryFields, exampleParams]⟩

/-- Twelve distinct records meet the hypotheses of the HDF5 theorems, and the third and eleventh
differ. -/
example : let h := (List.range 12).map fun n => exampleParams n
    11 ≤ h.length ∧ (∀ p ∈ h, StorableRecord .ok p) ∧ (∀ p ∈ h, Persistent p) ∧ h[2]? ≠ h[10]? := by
  refine ⟨by simp, ?_, ?_, ?_⟩
  · intro p hp
    simp only [List.mem_map] at hp
    obtain ⟨n, -, rfl⟩ := hp
    exact exampleParams_storable n
  · intro p hp
    simp only [List.mem_map] at hp
    obtain ⟨n, -, rfl⟩ := hp
    exact (exampleParams_plain n).2
  · intro h
    have : some (exampleParams 2) = some (exampleParams 10) := h
    have := congrArg (fun o => o.map Params.emptyCluster) this
    simp [exampleParams] at this

/-- Twelve fits in a row meet the hypotheses of `C52_fits_from_nothing`. -/
example : ∃ disk, appendAll .ok "history.json" .absent
      (exampleParams 0 :: (List.range 11).map fun n => exampleParams (n + 1)) = (.ok (), disk) ∧
    historyFromFile "history.json" disk
      = .ok (exampleParams 0 :: (List.range 11).map fun n => exampleParams (n + 1)) := by
  apply C52_fits_from_nothing (by decide +kernel)
  · intro q hq
    simp only [List.mem_cons, List.mem_map] at hq
    rcases hq with rfl | ⟨n, -, rfl⟩
    · exact (exampleParams_plain _).1
    · exact (exampleParams_plain _).1
  · intro q hq
    simp only [List.mem_cons, List.mem_map] at hq
    rcases hq with rfl | ⟨n, -, rfl⟩
    · exact (exampleParams_plain _).2
    · exact (exampleParams_plain _).2

/-- A store that refuses booleans makes the example record fail after nine datasets. -/
example : ((exampleParams 1).to (fun v => match v with | .bool _ => .error .typeError | v => .ok v)
    "history.h5").1 = .error .typeError := by
  simp [Params.to, show isH5 "history.h5" = true by decide +kernel, Params.asDict, exampleParams,
    storeGroup, PyVal.isNone]

/-- A record with a local site order loses it. -/
example : PlainRecord { exampleParams 1 with localSiteOrder := .list [.int 0] } :=
  (exampleParams_plain 1).1

end Parameters
end KMC
