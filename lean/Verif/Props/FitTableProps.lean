import Verif.Spec.FitTable
import Verif.Spec.Parameters
import Verif.Lemmas.Parameters
import Verif.Lemmas.Config
import Verif.Lemmas.LocalBarrierFile
import Verif.Lemmas.Text
/-
C89: the table of fitting results, and loading a fitter.
-/
namespace KMC
namespace FitTable
open Spec Parameters LocalBarrier

theorem objects_map (recs : List (String × List (String × PyVal))) :
    objects (recs.map fun r => (r.1, .dict r.2)) = some (recs.map Prod.snd) := by
  induction recs with
  | nil => rfl
  | cons r rs ih => simp only [List.map_cons, objects, ih, Option.map_some]

theorem objects_some : ∀ {d : List (String × PyVal)} {recs : List (List (String × PyVal))},
    objects d = some recs → ∃ l : List (String × List (String × PyVal)),
      d = l.map (fun r => (r.1, .dict r.2)) ∧ recs = l.map Prod.snd := by
  intro d
  induction d with
  | nil => intro recs h; cases h; exact ⟨[], rfl, rfl⟩
  | cons kv rest ih =>
    intro recs h
    obtain ⟨k, v⟩ := kv
    cases v with
    | dict r =>
      simp only [objects, Option.map_eq_some_iff] at h
      obtain ⟨rs, hrs, rfl⟩ := h
      obtain ⟨l, rfl, rfl⟩ := ih hrs
      exact ⟨(k, r) :: l, rfl, rfl⟩
    | _ => cases h

theorem mem_unionKeys : ∀ (recs : List (List (String × PyVal))) (acc : List String) (c : String),
    c ∈ unionKeys recs acc ↔ c ∈ acc ∨ ∃ r ∈ recs, (dictGet r c).isSome := by
  intro recs
  induction recs with
  | nil => intro acc c; simp [unionKeys]
  | cons r rs ih =>
    intro acc c
    rw [unionKeys, ih]
    simp only [List.mem_append, List.mem_filter, List.mem_cons]
    rw [← dictGet_isSome_iff, ← Option.isSome_iff_exists]
    constructor
    · rintro ((h | ⟨h, -⟩) | ⟨r', h1, h2⟩)
      · exact .inl h
      · exact .inr ⟨r, .inl rfl, h⟩
      · exact .inr ⟨r', .inr h1, h2⟩
    · rintro (h | ⟨r', rfl | h1, h2⟩)
      · exact .inl (.inl h)
      · by_cases hc : c ∈ acc
        · exact .inl (.inl hc)
        · exact .inl (.inr ⟨h2, by simpa using hc⟩)
      · exact .inr ⟨r', h1, h2⟩

theorem ensure_get (df : Frame) (name c : String) (v : PyVal) :
    dictGet (df.ensure name v).cols c =
      match dictGet df.cols c with
      | some l => some l
      | none => if c = name then some (List.replicate df.count v) else none := by
  unfold Frame.ensure
  split
  · rename_i h
    cases hc : dictGet df.cols c with
    | some l => rfl
    | none =>
      have : c ≠ name := by
        rintro rfl
        have := (dictGet_eq_none_iff _ _).1 hc
        exact this (by simpa using h)
      simp [this]
  · simp only [dictGet_append]
    cases dictGet df.cols c with
    | some l => rfl
    | none =>
      simp only [dictGet, Option.none_or]
      by_cases h : name = c
      · subst h; simp
      · rw [if_neg h, if_neg (Ne.symm h)]

theorem ensure_count (df : Frame) (name : String) (v : PyVal) : (df.ensure name v).count = df.count := by
  unfold Frame.ensure
  split <;> rfl

/-- What is written into a column that a record does not have. -/
def fill (pd : Pandas) (recs : List (String × List (String × PyVal))) (c : String) : PyVal :=
  if c = "normalize" ∧ ¬∃ r ∈ recs, (dictGet r.2 c).isSome then pd.write (.bool true) else .none

/-- What an old record has in a column of the new table. -/
def oldCell (pd : Pandas) (recs : List (String × List (String × PyVal))) (r : String × List (String × PyVal))
    (c : String) : PyVal := (dictGet r.2 c).getD (fill pd recs c)

/-- The columns of the table before the new row. -/
theorem column_cells {pd : Pandas} (hf : Faithful pd) {recs : List (String × List (String × PyVal))}
    (hw : WrittenTable pd recs) {df : Frame}
    (hdf : readJson pd (some (.dict (recs.map fun r => (r.1, .dict r.2)))) = some df)
    (hreq : ∀ c ∈ requiredColumns, c ∈ dictKeys df.cols) {c : String} (hc : c ∈ columns) :
    ∃ l, dictGet (((df.ensure "normalize" (.bool true)).ensure "orbit_fingerprints" .none).ensure
        "local_environment_hash" .none).cols c = some l ∧ l.map pd.write = recs.map fun r => oldCell pd recs r c := by
  simp only [readJson, objects_map, Option.some.injEq] at hdf
  subst hdf
  have hlen : ∀ l, (∀ v ∈ l, ∃ u, v = pd.write u) → (pd.read l).map pd.write = l := hf.rewrite
  have hget := dictGet_table (unionKeys (recs.map Prod.snd) [])
    (fun c => pd.read ((recs.map Prod.snd).map fun r => (dictGet r c).getD .none)) c
  simp only [ensure_get, ensure_count]
  rw [hget]
  by_cases hm : c ∈ unionKeys (recs.map Prod.snd) []
  · rw [if_pos hm]
    refine ⟨_, rfl, ?_⟩
    have hex : ∃ r ∈ recs, (dictGet r.2 c).isSome := by
      rcases (mem_unionKeys _ _ _).1 hm with h | ⟨r, hr, h⟩
      · cases h
      · obtain ⟨r', hr', rfl⟩ := List.mem_map.1 hr
        exact ⟨r', hr', h⟩
    rw [hf.rewrite]
    · rw [List.map_map]
      apply List.map_congr_left
      intro r hr
      show (dictGet r.2 c).getD .none = oldCell pd recs r c
      unfold oldCell fill
      rw [if_neg (fun h => h.2 hex)]
    · intro v hv
      rw [List.map_map] at hv
      obtain ⟨r, hr, rfl⟩ := List.mem_map.1 hv
      show ∃ u, (dictGet r.2 c).getD .none = pd.write u
      cases h : dictGet r.2 c with
      | none => exact ⟨.none, hf.absent.symm⟩
      | some v => exact hw r hr _ (mem_of_dictGet h)
  · rw [if_neg hm]
    have hno : ¬∃ r ∈ recs, (dictGet r.2 c).isSome := by
      rintro ⟨r, hr, h⟩
      exact hm ((mem_unionKeys _ _ _).2 (.inr ⟨r.2, List.mem_map_of_mem hr, h⟩))
    have hnone : ∀ r ∈ recs, dictGet r.2 c = none := by
      intro r hr
      cases h : dictGet r.2 c with
      | none => rfl
      | some v => exact absurd ⟨r, hr, by rw [h]; rfl⟩ hno
    have hold : (recs.map fun r => oldCell pd recs r c) = List.replicate recs.length (fill pd recs c) := by
      rw [List.eq_replicate_iff]
      refine ⟨by simp, ?_⟩
      intro v hv
      obtain ⟨r, hr, rfl⟩ := List.mem_map.1 hv
      simp [oldCell, hnone r hr]
    rw [hold]
    have hcc : c = "normalize" ∨ c = "orbit_fingerprints" ∨ c = "local_environment_hash" := by
      simp only [columns, List.mem_append] at hc
      rcases hc with hc | hc
      · exfalso
        apply hm
        have := hreq c hc
        simpa [dictKeys] using this
      · simpa using hc
    rcases hcc with rfl | rfl | rfl
    · refine ⟨List.replicate recs.length (.bool true), by simp, ?_⟩
      rw [List.map_replicate]
      unfold fill
      rw [if_pos ⟨rfl, hno⟩]
    · refine ⟨List.replicate recs.length .none, by simp, ?_⟩
      rw [List.map_replicate, hf.absent]
      unfold fill
      rw [if_neg (by simp)]
    · refine ⟨List.replicate recs.length .none, by simp, ?_⟩
      rw [List.map_replicate, hf.absent]
      unfold fill
      rw [if_neg (by simp)]

theorem save_eq {pd : Pandas} (hf : Faithful pd) {recs : List (String × List (String × PyVal))}
    (hw : WrittenTable pd recs) (hreq : ∀ c ∈ requiredColumns, ∃ r ∈ recs, (dictGet r.2 c).isSome) (p : Params) :
    save pd (some (.dict (recs.map fun r => (r.1, .dict r.2)))) p =
      .dict (((recs.map fun r => columns.map fun c => (c, oldCell pd recs r c)) ++ [fitRecord pd p]).zipIdx.map
        fun x => (intStr (x.2 : Int), .dict x.1)) := by
  obtain ⟨df, hdf⟩ : ∃ df, readJson pd (some (.dict (recs.map fun r => (r.1, .dict r.2)))) = some df := by
    simp only [readJson, objects_map]
    exact ⟨_, rfl⟩
  have hkeys : ∀ c ∈ requiredColumns, c ∈ dictKeys df.cols := by
    intro c hc
    simp only [readJson, objects_map, Option.some.injEq] at hdf
    subst hdf
    obtain ⟨r, hr, h⟩ := hreq c hc
    have : c ∈ unionKeys (recs.map Prod.snd) [] :=
      (mem_unionKeys _ _ _).2 (.inr ⟨r.2, List.mem_map_of_mem hr, h⟩)
    simpa [dictKeys] using this
  have hcount : df.count = recs.length := by
    simp only [readJson, objects_map, Option.some.injEq] at hdf
    subst hdf
    simp
  have hcells := fun c hc => column_cells hf hw hdf hkeys (c := c) hc
  unfold save
  rw [hdf]
  simp only
  rw [if_neg (by
    simp only [List.any_eq_true, not_exists, not_and]
    intro c hc
    simpa using hkeys c hc)]
  simp only [Frame.toJson, Frame.concat, ensure_count, hcount]
  congr 1
  apply List.ext_getElem
  · simp
  · intro i h1 h2
    have hi : i < recs.length + 1 := by simpa using h1
    simp only [List.getElem_map, List.getElem_range, List.getElem_zipIdx, Nat.zero_add, List.map_map]
    refine Prod.ext rfl ?_
    show PyVal.dict _ = PyVal.dict _
    congr 1
    by_cases hl : i < recs.length
    · rw [List.getElem_append_left (by simpa using hl)]
      rw [List.getElem_map]
      have hz : columns = (columns.zip (row p)).map Prod.fst := rfl
      conv_rhs => rw [hz]
      rw [List.map_map]
      apply List.map_congr_left
      intro cv hcv
      obtain ⟨l, hl1, hl2⟩ := hcells cv.1 (List.of_mem_zip (a := cv.1) (b := cv.2) hcv).1
      have hll : l.length = recs.length := by simpa using congrArg List.length hl2
      simp only [Function.comp_apply, hl1, Option.getD_some]
      refine Prod.ext rfl ?_
      show pd.write _ = oldCell pd recs recs[i] cv.1
      rw [List.getElem?_append_left (by omega), List.getElem?_eq_getElem (by omega), Option.getD_some]
      have := congrArg (fun m => m[i]?) hl2
      simp only [List.getElem?_map, List.getElem?_eq_getElem (show i < l.length by omega),
        List.getElem?_eq_getElem hl, Option.map_some, Option.some.injEq] at this
      exact this
    · have hie : i = recs.length := by omega
      subst hie
      rw [List.getElem_append_right (by simp)]
      have hz : fitRecord pd p = (columns.zip (row p)).map fun cv => (cv.1, pd.write cv.2) := rfl
      simp only [List.length_map, Nat.sub_self, List.getElem_cons_zero, hz]
      apply List.map_congr_left
      intro cv hcv
      obtain ⟨l, hl1, hl2⟩ := hcells cv.1 (List.of_mem_zip (a := cv.1) (b := cv.2) hcv).1
      have hll : l.length = recs.length := by simpa using congrArg List.length hl2
      simp only [Function.comp_apply, hl1, Option.getD_some]
      rw [List.getElem?_append_right (by omega)]
      simp [hll]

/-- C89.  Adding a fit to a table, whatever records and columns it has: every old record stays where it was with
the values it had in the columns of the table, and the new fit is the last record.  Old tables without a column for
the normalisation are taken as normalised. -/
theorem C89_table_kept {pd : Pandas} (hf : Faithful pd) {recs : List (String × List (String × PyVal))}
    (hw : WrittenTable pd recs) (hc : ∀ c ∈ tableRequired, ∃ r ∈ recs, (dictGet r.2 c).isSome) (p : Params) :
    ∃ old : List (List (String × PyVal)),
      save pd (some (.dict (recs.map fun r => (r.1, .dict r.2)))) p =
        .dict ((old ++ [fitRecord pd p]).zipIdx.map fun x => (intStr (x.2 : Int), .dict x.1)) ∧
      old.length = recs.length ∧
      ∀ (i : Nat) (k : String) (r : List (String × PyVal)), recs[i]? = some (k, r) →
        ∃ r', old[i]? = some r' ∧ dictKeys r' = tableColumns ∧
          (∀ c ∈ tableColumns, ∀ v, dictGet r c = some v → dictGet r' c = some v) ∧
          (∀ c ∈ tableColumns, dictGet r c = none → c ≠ "normalize" → dictGet r' c = some .none) ∧
          ((∀ x ∈ recs, dictGet x.2 "normalize" = none) → dictGet r' "normalize" = some (pd.write (.bool true))) := by
  refine ⟨_, save_eq hf hw hc p, by simp, ?_⟩
  intro i k r hi
  refine ⟨_, by rw [List.getElem?_map, hi]; rfl, ?_, ?_, ?_, ?_⟩
  · simp [dictKeys, columns, requiredColumns, tableColumns]
  · intro c hcc v hv
    rw [dictGet_table, if_pos (show c ∈ columns from hcc)]
    simp [oldCell, hv]
  · intro c hcc hv hne
    rw [dictGet_table, if_pos (show c ∈ columns from hcc)]
    simp [oldCell, hv, fill, hne]
  · intro hno
    rw [dictGet_table, if_pos (by decide)]
    have hr := hno _ (List.mem_of_getElem? hi)
    simp only at hr
    have : ¬∃ x ∈ recs, (dictGet x.2 "normalize").isSome := by
      rintro ⟨x, hx, h⟩
      rw [hno x hx] at h
      cases h
    simp only [oldCell, hr, Option.getD_none, fill]
    rw [if_pos ⟨trivial, this⟩]

theorem tableOf_eq (pd : Pandas) (ps : List Params) : tableOf pd ps =
    .dict ((ps.zipIdx.map fun x => (intStr (x.2 : Int), fitRecord pd x.1)).map fun r => (r.1, .dict r.2)) := by
  simp [tableOf]

theorem single_eq (pd : Pandas) (p : Params) : (single (row p)).toJson pd = tableOf pd [p] := rfl

/-- C89.  A fit is appended to the table of the fits before. -/
theorem C89_fit_appended {pd : Pandas} (hf : Faithful pd) (ps : List Params) (p : Params) :
    save pd (some (tableOf pd ps)) p = tableOf pd (ps ++ [p]) := by
  cases ps with
  | nil => rfl
  | cons q qs =>
    rw [tableOf_eq, save_eq hf]
    · unfold tableOf
      congr 1
      have hrec : ((((q :: qs).zipIdx.map fun x => (intStr (x.2 : Int), fitRecord pd x.1)).map fun r =>
          columns.map fun c => (c, oldCell pd
            ((q :: qs).zipIdx.map fun x => (intStr (x.2 : Int), fitRecord pd x.1)) r c)) ++ [fitRecord pd p]) =
          ((q :: qs) ++ [p]).map (fitRecord pd) := by
        rw [List.map_append, List.map_map]
        congr 1
        apply List.ext_getElem
        · simp
        · intro i h1 h2
          simp only [List.getElem_map, List.getElem_zipIdx, Function.comp_apply]
          rfl
      rw [hrec, List.zipIdx_map, List.map_map]
      rfl
    · intro r hr kv hkv
      obtain ⟨x, -, rfl⟩ := List.mem_map.1 hr
      simp only [fitRecord, List.mem_cons, List.not_mem_nil, or_false] at hkv
      rcases hkv with h | h | h | h | h | h | h | h | h | h | h <;> exact ⟨_, by rw [h]⟩
    · intro c hc
      refine ⟨(intStr 0, fitRecord pd q), by simp, ?_⟩
      simp only [requiredColumns, List.mem_cons, List.not_mem_nil, or_false] at hc
      rcases hc with rfl | rfl | rfl | rfl | rfl | rfl | rfl | rfl <;> rfl

/-- C89.  Any number of fits with one table: the table holds all of them in order, whether or not it existed
before. -/
theorem C89_fits_recorded {pd : Pandas} (hf : Faithful pd) (ps : List Params) :
    (∀ qs, saveAll pd (some (tableOf pd qs)) ps = some (tableOf pd (qs ++ ps))) ∧
    (ps ≠ [] → saveAll pd none ps = some (tableOf pd ps)) := by
  have key : ∀ ps qs, saveAll pd (some (tableOf pd qs)) ps = some (tableOf pd (qs ++ ps)) := by
    intro ps
    induction ps with
    | nil => intro qs; simp [saveAll]
    | cons p ps ih =>
      intro qs
      rw [saveAll, C89_fit_appended hf, ih]
      simp
  refine ⟨key ps, ?_⟩
  intro hne
  cases ps with
  | nil => exact absurd rfl hne
  | cons p ps =>
    show saveAll pd (some (tableOf pd [p])) ps = _
    rw [key]
    rfl

/-- C89, disagreement.  A file that is not a table with the required columns is replaced by a table of one fit:
whatever it held is lost. -/
theorem C89_other_file_replaced (pd : Pandas) (file : PyVal) (h : ¬Compatible file) (p : Params) :
    save pd (some file) p = tableOf pd [p] := by
  unfold save
  split
  · exact single_eq pd p
  · rename_i df hdf
    rw [if_pos, single_eq]
    by_contra hno
    apply h
    cases file with
    | dict d =>
      simp only [readJson] at hdf
      cases ho : objects d with
      | none => rw [ho] at hdf; cases hdf
      | some recs =>
        rw [ho] at hdf
        simp only [Option.some.injEq] at hdf
        subst hdf
        obtain ⟨l, rfl, rfl⟩ := objects_some ho
        refine ⟨l, rfl, ?_⟩
        intro c hc
        simp only [List.any_eq_true, not_exists, not_and] at hno
        have hm := hno c hc
        have hm : c ∈ unionKeys (l.map Prod.snd) [] := by
          simpa [dictKeys] using hm
        rcases (mem_unionKeys _ _ _).1 hm with h | ⟨r, hr, h⟩
        · cases h
        · obtain ⟨r', hr', rfl⟩ := List.mem_map.1 hr
          exact ⟨r', hr', h⟩
    | _ => cases hdf

/-- The history file of the same fit is not a table: given its name, the whole history is lost. -/
theorem C89_history_file_replaced (pd : Pandas) (ps : List Params) (p : Params) :
    save pd (some (historyAsDict ps)) p = tableOf pd [p] := by
  apply C89_other_file_replaced
  rintro ⟨recs, h, -⟩
  simp only [historyAsDict, PyVal.dict.injEq] at h
  cases recs with
  | nil => cases h
  | cons r rs =>
    simp only [List.map_cons, List.cons.injEq, Prod.mk.injEq] at h
    cases h.1.2

/-! ### Loading -/

theorem numbered_spec : ∀ (d : List (String × PyVal)) (n : Int) (r : List (String × PyVal)),
    (n, r) ∈ numbered d ↔ ∃ k, (k, PyVal.dict r) ∈ d ∧ parseInt k = some n := by
  intro d
  induction d with
  | nil => intro n r; simp [numbered]
  | cons kv rest ih =>
    intro n r
    obtain ⟨k, v⟩ := kv
    cases v with
    | dict r' =>
      simp only [numbered]
      cases hk : parseInt k with
      | some m =>
        simp only [List.mem_cons, ih, Prod.mk.injEq, PyVal.dict.injEq]
        constructor
        · rintro (⟨rfl, rfl⟩ | ⟨k', h1, h2⟩)
          · exact ⟨k, .inl ⟨rfl, rfl⟩, hk⟩
          · exact ⟨k', .inr h1, h2⟩
        · rintro ⟨k', ⟨rfl, rfl⟩ | h1, h2⟩
          · rw [hk] at h2; exact .inl ⟨(Option.some.inj h2).symm, rfl⟩
          · exact .inr ⟨k', h1, h2⟩
      | none =>
        simp only [ih, List.mem_cons, Prod.mk.injEq, PyVal.dict.injEq]
        constructor
        · rintro ⟨k', h1, h2⟩
          exact ⟨k', .inr h1, h2⟩
        · rintro ⟨k', ⟨rfl, rfl⟩ | h1, h2⟩
          · rw [hk] at h2; cases h2
          · exact ⟨k', h1, h2⟩
    | _ =>
      simp only [numbered, ih, List.mem_cons, Prod.mk.injEq, reduceCtorEq, and_false, false_or]

theorem maxRecord_spec : ∀ (l : List (Int × List (String × PyVal))),
    (maxRecord l = none ↔ l = []) ∧
    ∀ a, maxRecord l = some a → a ∈ l ∧ ∀ b ∈ l, b.1 ≤ a.1 := by
  intro l
  induction l with
  | nil => simp [maxRecord]
  | cons x l ih =>
    unfold maxRecord
    cases h : maxRecord l with
    | none =>
      have := ih.1.1 h
      subst this
      simp
    | some b =>
      obtain ⟨h1, h2⟩ := ih.2 b h
      simp only
      split
      · rename_i hle
        refine ⟨by simp, ?_⟩
        intro a ha
        cases ha
        refine ⟨by simp, ?_⟩
        intro c hc
        rcases List.mem_cons.1 hc with rfl | hc
        · exact le_refl _
        · exact le_trans (h2 c hc) hle
      · rename_i hle
        refine ⟨by simp, ?_⟩
        intro a ha
        cases ha
        refine ⟨by simp [h1], ?_⟩
        intro c hc
        rcases List.mem_cons.1 hc with rfl | hc
        · omega
        · exact h2 c hc

/-- C89.  From an object without coefficients of its own, a fitter is loaded from the numbered record with the
largest number, and only if there is one; other entries are ignored. -/
theorem C89_record_chosen {d : List (String × PyVal)} (hk : dictGet d "keci" = none) :
    (∀ q, fitterFromDict (.dict d) = .ok q → ∃ k n r, (k, PyVal.dict r) ∈ d ∧ parseInt k = some n ∧
      Parameters.fromDict (.dict r) = .ok q ∧
      ∀ k' n' r', (k', PyVal.dict r') ∈ d → parseInt k' = some n' → n' ≤ n) ∧
    ((∃ e, fitterFromDict (.dict d) = .error e) ↔
      ¬∃ k n r, (k, PyVal.dict r) ∈ d ∧ parseInt k = some n) := by
  simp only [fitterFromDict, extractRecord, hk, Option.isSome_none, Bool.false_eq_true, if_false]
  obtain ⟨s1, s2⟩ := maxRecord_spec (numbered d)
  cases hm : maxRecord (numbered d) with
  | none =>
    have he := s1.1 hm
    refine ⟨fun q h => (by cases h), ⟨fun _ => ?_, fun _ => ⟨_, rfl⟩⟩⟩
    rintro ⟨k, n, r, h1, h2⟩
    have := (numbered_spec d n r).2 ⟨k, h1, h2⟩
    rw [he] at this
    cases this
  | some a =>
    obtain ⟨h1, h2⟩ := s2 a hm
    obtain ⟨n, r⟩ := a
    obtain ⟨k, hk1, hk2⟩ := (numbered_spec d n r).1 h1
    refine ⟨?_, ?_, ?_⟩
    · intro q hq
      exact ⟨k, n, r, hk1, hk2, hq, fun k' n' r' g1 g2 => h2 (n', r') ((numbered_spec d n' r').2 ⟨k', g1, g2⟩)⟩
    · rintro ⟨e, he⟩
      cases he
    · intro hno
      exact absurd ⟨k, n, r, hk1, hk2⟩ hno

theorem fromDict_eq (d : List (String × PyVal)) : Parameters.fromDict (.dict d) = .ok
    { keci := (dictGet d "keci").getD (.list [])
      emptyCluster := (dictGet d "empty_cluster").getD (.float (.fin 0))
      clusterSiteIndices := (dictGet d "cluster_site_indices").getD (.list [])
      weight := (dictGet d "weight").getD (.list [])
      alpha := (dictGet d "alpha").getD (.float (.fin 0))
      timeStamp := (dictGet d "time_stamp").getD (.str "")
      time := (dictGet d "time").getD (.str "")
      rmse := (dictGet d "rmse").getD (.float (.fin 0))
      loocv := (dictGet d "loocv").getD (.float (.fin 0))
      normalize := (dictGet d "normalize").getD (.bool true)
      orbitFingerprints := (dictGet d "orbit_fingerprints").getD .none
      localEnvironmentHash := (dictGet d "local_environment_hash").getD .none
      localSiteOrder := (dictGet d "local_site_order").getD .none
      name := defaultName } := by
  have hk : ∀ k, keptKey k = true → dictGet (d.filter fun kv => keptKey kv.1) k = dictGet d k := by
    intro k hk
    rw [dictGet_filter, if_pos hk]
  simp only [Parameters.fromDict]
  rw [hk _ (by decide), hk _ (by decide), hk _ (by decide), hk _ (by decide), hk _ (by decide), hk _ (by decide),
    hk _ (by decide), hk _ (by decide), hk _ (by decide), hk _ (by decide), hk _ (by decide), hk _ (by decide),
    hk _ (by decide)]

theorem numbered_table (pd : Pandas) (ps : List Params) (i : Nat) :
    numbered ((ps.zipIdx i).map fun x => (intStr (x.2 : Int), .dict (fitRecord pd x.1))) =
      (ps.zipIdx i).map fun x => ((x.2 : Int), fitRecord pd x.1) := by
  induction ps generalizing i with
  | nil => rfl
  | cons p ps ih =>
    simp only [List.zipIdx_cons, List.map_cons, numbered, parseInt_intStr, ih]

/-- C89.  A fitter loaded from a table has the parameters of the last fit, as written. -/
theorem C89_latest_loaded (pd : Pandas) (ps : List Params) (p : Params) :
    fitterFromDict (tableOf pd (ps ++ [p])) = .ok (inTable pd p) := by
  have hk : dictGet ((ps ++ [p]).zipIdx.map fun x => (intStr (x.2 : Int), PyVal.dict (fitRecord pd x.1))) "keci" =
      none := by
    rw [dictGet_eq_none_iff]
    intro h
    simp only [dictKeys, List.map_map, List.mem_map] at h
    obtain ⟨x, -, hx⟩ := h
    have h1 := parseInt_intStr (x.2 : Int)
    have h2 : intStr (x.2 : Int) = "keci" := hx
    rw [h2] at h1
    have h3 : parseInt "keci" = none := by decide +kernel
    rw [h3] at h1
    cases h1
  unfold tableOf
  simp only [fitterFromDict, extractRecord, hk, Option.isSome_none, Bool.false_eq_true, if_false]
  rw [numbered_table]
  obtain ⟨s1, s2⟩ := maxRecord_spec ((ps ++ [p]).zipIdx.map fun x => ((x.2 : Int), fitRecord pd x.1))
  cases hm : maxRecord ((ps ++ [p]).zipIdx.map fun x => ((x.2 : Int), fitRecord pd x.1)) with
  | none =>
    have := congrArg List.length (s1.1 hm)
    simp at this
  | some a =>
    obtain ⟨h1, h2⟩ := s2 a hm
    obtain ⟨x, hx, rfl⟩ := List.mem_map.1 h1
    have hlast : ((ps.length : Int), fitRecord pd p) ∈
        (ps ++ [p]).zipIdx.map fun x => ((x.2 : Int), fitRecord pd x.1) := by
      refine List.mem_map.2 ⟨(p, ps.length), ?_, rfl⟩
      rw [List.mem_zipIdx_iff_getElem?]
      simp
    have hge := h2 _ hlast
    simp only at hge
    rw [List.mem_zipIdx_iff_getElem?] at hx
    have hlt : x.2 < (ps ++ [p]).length := by
      obtain ⟨h, -⟩ := List.getElem?_eq_some_iff.1 hx
      exact h
    have hxe : x.2 = ps.length := by simp at hlt; omega
    rw [hxe] at hx
    simp at hx
    rw [← hx]
    simp only [fromDict_eq]
    rfl

/-- C89.  A fitter written to a file and loaded again has the same parameters, apart from the cluster sites and
the local site order, which a fit leaves empty. -/
theorem C89_fitter_reloaded (p : Params) (hp : PlainRecord p) :
    fitterReload p = .ok { p with clusterSiteIndices := .list [], localSiteOrder := .none, name := defaultName } := by
  have hj : ∀ v ∈ writtenFields p, v.json = v := fun v hv => json_of_plain (hp v hv)
  simp only [writtenFields, List.mem_cons, List.not_mem_nil, or_false, forall_eq_or_imp, forall_eq] at hj
  obtain ⟨j1, j2, j3, j4, j5, j6, j7, j8, j9, j10, j11, j12⟩ := hj
  unfold fitterReload fitterDict
  simp only [PyVal.json, jsonDict_eq_map, List.map_append, List.map_cons, List.map_nil, j1, j2, j4, j5, j6,
    j7, j8, j9, j10]
  have hu : ∀ (k : String) (v : PyVal), v.json = v →
      (unlessNone k v).map (fun kv => (kv.1, kv.2.json)) = unlessNone k v := by
    intro k v hv
    unfold unlessNone
    split <;> simp [hv]
  rw [hu _ _ j11, hu _ _ j12]
  clear hu j1 j2 j3 j4 j5 j6 j7 j8 j9 j10 j11 j12 hp
  obtain ⟨a1, a2, a3, a4, a5, a6, a7, a8, a9, a10, a11, a12, a13, a14⟩ := p
  have hx : ∀ d, (dictGet d "keci").isSome → fitterFromDict (.dict d) = Parameters.fromDict (.dict d) := by
    intro d hd
    simp only [fitterFromDict, extractRecord, hd, if_true]
  rw [hx _ rfl, fromDict_eq]
  cases h11 : a11.isNone <;> cases h12 : a12.isNone <;> simp only [unlessNone, h11, h12]
  · rfl
  · cases a12 with
    | none => rfl
    | _ => cases h12
  · cases a11 with
    | none => rfl
    | _ => cases h11
  · cases a11 with
    | none =>
      cases a12 with
      | none => rfl
      | _ => cases h12
    | _ => cases h11

/-- C89.  The record of a fit is loaded from the fitter's file exactly. -/
theorem C89_fit_reloaded (out : Fitter.Outside) (o : Fitter.FitOptions) {m n : Nat} (f : Fitter.Fitted m n)
    (weight : Fin m → ℝ) (rmse loocv : ℝ) (hp : PlainRecord (Fitter.record out o f weight rmse loocv)) :
    fitterReload (Fitter.record out o f weight rmse loocv) = .ok (Fitter.record out o f weight rmse loocv) := by
  rw [C89_fitter_reloaded _ hp]
  rfl

/-! ### Non-vacuity -/

/-- Pandas that changes nothing. -/
def plainPandas : Pandas := ⟨id, id⟩

example : Faithful plainPandas := ⟨fun l _ => List.map_id l, rfl⟩

/-- A sample record. -/
def sample (alpha : Int) : Params :=
  ⟨.list [.int 1, .int 2], .int 3, .list [], .list [.int 1], .int alpha, .int 0, .str "now", .int 0, .int 0,
    .bool true, .none, .none, .none, defaultName⟩

example : saveAll plainPandas none [sample 1, sample 2] = some (tableOf plainPandas [sample 1, sample 2]) := rfl
example : fitterFromDict (tableOf plainPandas [sample 1, sample 2]) = .ok (inTable plainPandas (sample 2)) :=
  C89_latest_loaded plainPandas [sample 1] (sample 2)
example : ¬Compatible (.dict [("keci", .list [])]) := by
  rintro ⟨recs, h, -⟩
  cases recs with
  | nil => cases h
  | cons r rs =>
    simp only [List.map_cons, PyVal.dict.injEq, List.cons.injEq, Prod.mk.injEq] at h
    cases h.1.2
example : PlainRecord (sample 1) := by
  intro v hv
  simp only [sample, writtenFields, List.mem_cons, List.not_mem_nil, or_false] at hv
  rcases hv with rfl | rfl | rfl | rfl | rfl | rfl | rfl | rfl | rfl | rfl | rfl | rfl <;>
    first
      | exact .int _
      | exact .str _
      | exact .bool _
      | exact .none
      | (apply PlainValue.list; intro v hv; simp at hv; rcases hv with rfl | rfl <;> exact .int _)
      | (apply PlainValue.list; intro v hv; cases hv)

end FitTable
end KMC
