import Verif.Lemmas.DataSetFile
/-
C140: what the data file of a fit says about the calculations it was made of.
-/
namespace KMC
namespace DataSetFile
open NEBLoader Spec Spec.DataSets
variable {M R S V α β J E : Type}
variable {featurize : M → Option R → S → Py (List α × List β)} {io : Outside M S J} {model0 : Option M}
  {ref0 : Option R}

/-- **C140 (rows).** Every sequence of calls, whatever their outcomes, determines one list of accepted calculations;
all of them have features of one length. -/
theorem C140_rows (calls : List (Call M R S V J)) :
    ∃ rows : List (Row M S V α β J), Holds featurize io model0 ref0 calls rows ∧
      (∀ rows', Holds featurize io model0 ref0 calls rows' → rows' = rows) ∧
      ∀ r ∈ rows, ∀ r' ∈ rows,
        r.occupation.length = r'.occupation.length ∧ r.correlation.length = r'.correlation.length := by
  obtain ⟨rows, h1, h2⟩ := refines_after (featurize := featurize) (io := io) (model0 := model0) (ref0 := ref0)
    (α := α) (β := β) calls
  exact ⟨rows, h1, fun rows' h => holds_unique h h1, h2.shape⟩

/-- **C140 (one structure).** After any calls, `add_structure` succeeds exactly if it has a row to add: the structure
can be had, the value is a number, there is a model, and the features fit those of all rows before. -/
theorem C140_add_succeeds {calls : List (Call M R S V J)} {rows : List (Row M S V α β J)}
    (h : Holds featurize io model0 ref0 calls rows) (q : Request M R S V J) :
    (addStructure featurize io (dataSetAfter featurize io (create io model0 ref0 : DataSet M R S V α β J) calls) q).1
      = .ok () ↔ ∃ r, Adds featurize io model0 ref0 rows q r := by
  rcases addStructure_step (featurize := featurize) (refines_holds h) q with ⟨r, g1, g2, -⟩ | ⟨g1, ⟨e, g2⟩, -⟩
  · exact ⟨fun _ => ⟨r, g1⟩, fun _ => g2⟩
  · rw [g2]
    constructor
    · intro H; cases H
    · rintro ⟨r, hr⟩; exact absurd hr (g1 r)

/-- What one entry of a batch asks for: the structure, the value and the metadata at one position. -/
theorem C140_batch_positions (b : Batch M R S V J) (hb : Fits b) :
    b.requests.length = b.sources.length ∧
    ∀ (k : Nat) q, b.requests[k]? = some q →
      b.sources[k]? = some q.source ∧ b.values[k]? = some q.value ∧
      (∀ l, b.metadata = some l → l[k]? = some q.metadata) ∧ (b.metadata = none → q.metadata = none) ∧
      q.model = b.model ∧ q.reference = b.reference ∧ q.kwargs = b.kwargs := by
  obtain ⟨h1, h2⟩ := hb
  have hlen : b.requests.length = b.sources.length := by
    simp [Batch.requests, h1]
  refine ⟨hlen, ?_⟩
  intro k q hq
  have hk : k < b.sources.length := by
    rw [← hlen]; exact (List.getElem?_eq_some_iff.1 hq).1
  have hk' : k < b.values.length := by rw [h1]; exact hk
  have hz : (b.sources.zip b.values)[k]? = some (b.sources[k], b.values[k]) := by
    rw [List.getElem?_zip_eq_some]
    exact ⟨List.getElem?_eq_getElem hk, List.getElem?_eq_getElem hk'⟩
  simp only [Batch.requests, List.getElem?_map, List.getElem?_zipIdx, hz, Option.map_some, Nat.zero_add,
    Option.some.injEq] at hq
  subst hq
  refine ⟨List.getElem?_eq_getElem hk, List.getElem?_eq_getElem hk', ?_, ?_, rfl, rfl, rfl⟩
  · intro l hl
    have hkl : k < l.length := by rw [h2 l hl]; exact hk
    simp [hl, List.getElem?_eq_getElem hkl]
  · intro hl
    simp [hl]

/-- **C140 (many structures).** `add_structures` with sequences of different lengths is refused and changes nothing.
Otherwise it adds the structures one after the other until the first that is refused; it succeeds exactly if all were
added, and those added before a refused one stay. -/
theorem C140_add_many {calls : List (Call M R S V J)} {rows : List (Row M S V α β J)}
    (h : Holds featurize io model0 ref0 calls rows) (b : Batch M R S V J) :
    (¬ Fits b → addStructures featurize io
        (dataSetAfter featurize io (create io model0 ref0 : DataSet M R S V α β J) calls) b
      = (.error .valueError, dataSetAfter featurize io (create io model0 ref0) calls)) ∧
    (Fits b → ∃ added, Holds featurize io model0 ref0 (calls ++ [.many b]) (rows ++ added) ∧
      ((addStructures featurize io
          (dataSetAfter featurize io (create io model0 ref0 : DataSet M R S V α β J) calls) b).1 = .ok () ↔
        added.length = b.sources.length) ∧
      (∀ (k : Nat) r, added[k]? = some r → ∃ q, b.requests[k]? = some q ∧
        Adds featurize io model0 ref0 (rows ++ added.take k) q r) ∧
      ∀ q, b.requests[added.length]? = some q → ∀ r, ¬ Adds featurize io model0 ref0 (rows ++ added) q r) := by
  have key : ∀ (rows : List (Row M S V α β J)) l rows', AddsMany featurize io model0 ref0 rows l rows' →
      ∃ added, rows' = rows ++ added ∧
      (∀ (k : Nat) r, added[k]? = some r → ∃ q, l[k]? = some q ∧
        Adds featurize io model0 ref0 (rows ++ added.take k) q r) ∧
      ∀ q, l[added.length]? = some q → ∀ r, ¬ Adds featurize io model0 ref0 (rows ++ added) q r := by
    intro rows l rows' H
    induction H with
    | done rows => exact ⟨[], by simp, by simp, by simp⟩
    | refused rows q rest hq =>
      refine ⟨[], by simp, by simp, ?_⟩
      intro q' hq'
      simp only [List.length_nil, List.getElem?_cons_zero, Option.some.injEq] at hq'
      subst hq'
      simpa using hq
    | next rows q rest r rows' hr _ ih =>
      obtain ⟨added, h1, h2, h3⟩ := ih
      refine ⟨r :: added, by rw [h1]; simp, ?_, ?_⟩
      · intro k r' hk
        cases k with
        | zero =>
          simp only [List.getElem?_cons_zero, Option.some.injEq] at hk
          subst hk
          exact ⟨q, rfl, by simpa using hr⟩
        | succ k =>
          rw [List.getElem?_cons_succ] at hk
          obtain ⟨q', g1, g2⟩ := h2 k r' hk
          exact ⟨q', by simpa using g1, by simpa using g2⟩
      · intro q' hq'
        rw [List.length_cons, List.getElem?_cons_succ] at hq'
        have := h3 q' hq'
        simpa using this
  constructor
  · intro hb
    rcases addStructures_step (featurize := featurize) (refines_holds h) b with ⟨hb', -⟩ | ⟨-, g⟩
    · exact absurd hb' hb
    · exact g
  · intro hb
    rcases addStructures_step (featurize := featurize) (refines_holds h) b with ⟨-, rows', g1, g2, g3⟩ | ⟨hb', -⟩
    · obtain ⟨added, e1, e2, e3⟩ := key _ _ _ g1
      refine ⟨added, e1 ▸ .many calls rows b rows' h hb g1, ?_, e2, e3⟩
      rw [g3, e1, List.length_append, (C140_batch_positions b hb).1]
      omega
    · exact absurd hb hb'

/-- **C140 (the file).** After any calls, `to` refuses to write an empty data set and leaves the disk alone.
Otherwise, if all metadata can be written, the file holds the accepted calculations in order: row `k` of both matrices,
entry `k` of the properties and entry `k` of the metadata belong to the `k`-th of them, the count is their number and
the model named is that of the last one.  If some metadata cannot be written, the call raises and leaves the
beginning of a document. -/
theorem C140_file {calls : List (Call M R S V J)} {rows : List (Row M S V α β J)}
    (h : Holds featurize io model0 ref0 calls rows) (encode : J → Py E) (join : String → String → String)
    (disk : Disk V α β E) (dir pre : String) :
    (rows = [] → save encode join (dataSetAfter featurize io (create io model0 ref0) calls) disk dir pre
      = (.error .valueError, disk)) ∧
    (∀ last, rows.getLast? = some last → (∀ r ∈ rows, Writable encode r.metadata) → ∃ md,
      List.Forall₂ (fun r d => SameDict encode r.metadata d) rows md ∧
      save encode join (dataSetAfter featurize io (create io model0 ref0) calls) disk dir pre
        = (.ok (join dir (pre ++ ".json")), disk.put (join dir (pre ++ ".json")) (.complete
          { correlation := rows.map Row.correlation
            occupation := rows.map Row.occupation
            properties := rows.map Row.value
            metadata := md
            count := rows.length
            modelName := (io.name last.model).getD "unknown" }))) ∧
    ((∃ r ∈ rows, ¬ Writable encode r.metadata) → ∃ e,
      save encode join (dataSetAfter featurize io (create io model0 ref0) calls) disk dir pre
        = (.error e, disk.put (join dir (pre ++ ".json")) .torn)) := by
  have hR := refines_holds h
  have hlen : (dataSetAfter featurize io (create io model0 ref0 : DataSet M R S V α β J) calls).loader.entries.length
      = rows.length := by
    have := congrArg List.length hR.cells
    simpa using this
  refine ⟨?_, ?_, ?_⟩
  · intro hr
    have he := (entries_nil_iff hR).2 hr
    simp only [save, saveSteps, if_pos he]
    rfl
  · intro last hlast hw
    have hne : rows ≠ [] := by rintro rfl; cases hlast
    have he := fun H => hne ((entries_nil_iff hR).1 H)
    obtain ⟨m1, m2, m3⟩ := matrices_rows hR hne
    obtain ⟨md, g1, g2⟩ := encodeAll_ok (encode := encode) (l := rows.map Row.metadata)|>.1 (by
      intro d hd
      obtain ⟨r, hr, rfl⟩ := List.mem_map.1 hd
      exact hw r hr)
    refine ⟨md, (List.forall₂_map_left_iff).1 g2, ?_⟩
    have hname : (dataSetAfter featurize io (create io model0 ref0 : DataSet M R S V α β J) calls).name
        = some ((io.name last.model).getD "unknown") := by
      rw [hR.name]
      simp [currentModel, hlast]
    simp only [save, saveSteps, if_neg he, m1, m2, m3, metadata_rows hR, g1, hname, hlen]
    rfl
  · rintro ⟨r, hr, hw⟩
    have hne : rows ≠ [] := by rintro rfl; cases hr
    have he := fun H => hne ((entries_nil_iff hR).1 H)
    obtain ⟨m1, m2, m3⟩ := matrices_rows hR hne
    obtain ⟨e, g⟩ := encodeAll_ok (encode := encode) (l := rows.map Row.metadata)|>.2 (by
      intro H
      exact hw (H _ (List.mem_map_of_mem hr)))
    refine ⟨e, ?_⟩
    simp only [save, saveSteps, if_neg he, m1, m2, m3, metadata_rows hR, g]
    rfl

/-- **C140 (refused calls leave no trace).** Whatever is written after a refused call is what would have been written
without it: a refused call does not even change the model that is named. -/
theorem C140_refused_no_trace (calls : List (Call M R S V J)) (q : Request M R S V J) (encode : J → Py E)
    (join : String → String → String) (disk : Disk V α β E) (dir pre : String) (e : PyErr)
    (he : (addStructure featurize io
      (dataSetAfter featurize io (create io model0 ref0 : DataSet M R S V α β J) calls) q).1 = .error e) :
    save encode join (dataSetAfter featurize io (create io model0 ref0 : DataSet M R S V α β J) (calls ++ [.one q]))
        disk dir pre
      = save encode join (dataSetAfter featurize io (create io model0 ref0) calls) disk dir pre := by
  obtain ⟨rows, h, hR⟩ := refines_after (featurize := featurize) (io := io) (model0 := model0) (ref0 := ref0)
    (α := α) (β := β) calls
  have hR' : Refines io model0 ref0
      (dataSetAfter featurize io (create io model0 ref0 : DataSet M R S V α β J) (calls ++ [.one q])) rows := by
    have hd : dataSetAfter featurize io (create io model0 ref0 : DataSet M R S V α β J) (calls ++ [.one q])
        = (addStructure featurize io (dataSetAfter featurize io (create io model0 ref0) calls) q).2 := by
      simp only [dataSetAfter, List.foldl_append]; rfl
    rw [hd]
    rcases addStructure_step (featurize := featurize) hR q with ⟨r, -, g2, -⟩ | ⟨-, -, g⟩
    · rw [g2] at he; cases he
    · exact g
  have hl : ∀ D : DataSet M R S V α β J, Refines io model0 ref0 D rows → D.loader.entries.length = rows.length := by
    intro D hD
    have := congrArg List.length hD.cells
    simpa using this
  by_cases hne : rows = []
  · simp only [save, saveSteps, if_pos ((entries_nil_iff hR).2 hne), if_pos ((entries_nil_iff hR').2 hne)]
  · obtain ⟨m1, m2, m3⟩ := matrices_rows hR hne
    obtain ⟨n1, n2, n3⟩ := matrices_rows hR' hne
    simp only [save, saveSteps, if_neg fun H => hne ((entries_nil_iff hR).1 H),
      if_neg fun H => hne ((entries_nil_iff hR').1 H), m1, m2, m3, n1, n2, n3, metadata_rows hR, metadata_rows hR',
      hR.name, hR'.name, hl _ hR, hl _ hR']

/-- **C140 (the fit sees the same numbers).** The file and the tables written for the fit hold the same correlations
and the same values. -/
theorem C140_same_as_fit {W : Type} {calls : List (Call M R S V J)} {encode : J → Py E}
    {join : String → String → String} {disk disk' : Disk V α β E} {dir pre path : String} {d : Document V α β E}
    (hs : save encode join (dataSetAfter featurize io (create io model0 ref0 : DataSet M R S V α β J) calls)
      disk dir pre = (.ok path, disk')) (hd : disk' path = some (.complete d)) {w : Weight W}
    {f : FitInputs β V W}
    (hf : fittingInputs (dataSetAfter featurize io (create io model0 ref0 : DataSet M R S V α β J) calls).loader w
      = .ok f) : f.correlation = d.correlation ∧ f.ekra = d.properties ∧ f.weight.length = d.count := by
  obtain ⟨rows, h, hR⟩ := refines_after (featurize := featurize) (io := io) (model0 := model0) (ref0 := ref0)
    (α := α) (β := β) calls
  obtain ⟨f1, f2, f3⟩ := C140_file h encode join disk dir pre
  have hne : rows ≠ [] := by
    intro H
    rw [f1 H] at hs; cases hs
  have hw : ∀ r ∈ rows, Writable encode r.metadata := by
    intro r hr
    by_contra H
    obtain ⟨e, g⟩ := f3 ⟨r, hr, H⟩
    rw [g] at hs; cases hs
  obtain ⟨last, hlast⟩ : ∃ last, rows.getLast? = some last := ⟨rows.getLast hne, List.getLast?_eq_getLast_of_ne_nil hne⟩
  obtain ⟨md, -, g⟩ := f2 last hlast hw
  rw [g] at hs
  obtain ⟨hp, hdisk⟩ := Prod.mk.inj hs
  cases hp
  subst hdisk
  simp only [Disk.put, if_true, Option.some.injEq, Content.complete.injEq] at hd
  subst hd
  obtain ⟨m1, m2, m3⟩ := matrices_rows hR hne
  have hlen := congrArg List.length hR.cells
  simp only [List.length_map] at hlen
  simp only [fittingInputs, if_neg fun H => hne ((entries_nil_iff hR).1 H), m1, m3] at hf
  cases hws : weights w (dataSetAfter featurize io (create io model0 ref0 : DataSet M R S V α β J)
      calls).loader.entries.length with
  | error e => rw [hws] at hf; cases hf
  | ok ws =>
    rw [hws] at hf
    cases hf
    refine ⟨rfl, rfl, ?_⟩
    cases w with
    | scalar x =>
      simp only [weights, Except.ok.injEq] at hws
      subst hws
      simp [hlen]
    | perEntry l =>
      simp only [weights] at hws
      split at hws
      · next hl => cases hws; exact hl.trans hlen
      · cases hws

/-- **C140 (where a structure came from).** The metadata of an entry are the caller's; for a structure read from a
file the path is added under `structure_file`, unless the caller used that key.  A structure object comes without
reading options, and anything that is neither an object nor a path is refused. -/
theorem C140_metadata (io : Outside M S J) (source : Source S) (metadata : Option (Metadata J))
    (kwargs : Metadata J) :
    (∀ s, source = .object s → loadSource io source metadata kwargs
      = if kwargs = [] then .ok (s, metadata.getD []) else .error .valueError) ∧
    (source = .other → loadSource io source metadata kwargs = .error .typeError) ∧
    ∀ p, source = .path p →
      (∀ e, io.read (io.pathText p) kwargs = .error e → loadSource io source metadata kwargs = .error e) ∧
      ∀ s, io.read (io.pathText p) kwargs = .ok s → ∃ md, loadSource io source metadata kwargs = .ok (s, md) ∧
        (∀ k, k ≠ "structure_file" → dictGet md k = dictGet (metadata.getD []) k) ∧
        (∀ v, dictGet (metadata.getD []) "structure_file" = some v → md = metadata.getD []) ∧
        (dictGet (metadata.getD []) "structure_file" = none →
          dictGet md "structure_file" = some (io.text (io.pathText p))) := by
  have hget : ∀ (d : Metadata J) (k k' : String) (v : J),
      dictGet (d ++ [(k', v)]) k = (dictGet d k).orElse fun _ => if k' = k then some v else none := by
    intro d k k' v
    induction d with
    | nil => simp [dictGet]
    | cons a d ih =>
      obtain ⟨a, x⟩ := a
      by_cases ha : a = k
      · simp [dictGet, ha]
      · simp only [List.cons_append, dictGet, if_neg ha]
        exact ih
  refine ⟨?_, ?_, ?_⟩
  · rintro s rfl
    by_cases hk : kwargs = []
    · simp [loadSource, hk]
    · simp [loadSource, hk]
  · rintro rfl; rfl
  · rintro p rfl
    refine ⟨?_, ?_⟩
    · intro e he
      simp only [loadSource, he]
    · intro s hs
      refine ⟨withDefault (metadata.getD []) "structure_file" (io.text (io.pathText p)), by
        simp only [loadSource, hs], ?_, ?_, ?_⟩
      · intro k hk
        unfold withDefault
        split
        · rfl
        · rw [hget, if_neg (Ne.symm hk)]
          cases dictGet (metadata.getD []) k <;> rfl
      · intro v hv
        simp [withDefault, hv]
      · intro hv
        unfold withDefault
        rw [hv]
        simp [hget, hv]

/-- **C140 (crashes while saving).** Whenever the process dies while `to` runs, all other files are as before, and the
file itself is as before, incomplete or the finished one. -/
theorem C140_crash (encode : J → Py E) (join : String → String → String) (D : DataSet M R S V α β J)
    (disk : Disk V α β E) (dir pre : String) :
    ∀ d ∈ (saveSteps encode join D disk dir pre).2,
      (∀ p, p ≠ join dir (pre ++ ".json") → d p = disk p) ∧
      (d (join dir (pre ++ ".json")) = some .torn ∨
        ((∃ path, (saveSteps encode join D disk dir pre).1 = .ok path) ∧
          d = (save encode join D disk dir pre).2)) := by
  intro d hd
  have hput : ∀ c : Content V α β E, ∀ p, p ≠ join dir (pre ++ ".json") →
      disk.put (join dir (pre ++ ".json")) c p = disk p := fun c p hp => if_neg hp
  unfold save
  unfold saveSteps at hd ⊢
  split at hd
  · cases hd
  · next h0 =>
    split at hd
    · cases hd
    · next c hc =>
      split at hd
      · cases hd
      · next o ho =>
        split at hd
        · cases hd
        · next v hv =>
          simp only [if_neg h0, hc, ho, hv]
          split at hd
          · next e he =>
            simp only [List.mem_singleton] at hd
            subst hd
            exact ⟨hput _, .inl (if_pos rfl)⟩
          · next md he =>
            simp only [List.mem_cons, List.not_mem_nil, or_false] at hd
            rcases hd with rfl | rfl
            · exact ⟨hput _, .inl (if_pos rfl)⟩
            · refine ⟨hput _, .inr ?_⟩
              simp only [he]
              exact ⟨⟨_, rfl⟩, rfl⟩

/-! ### Where the file misleads -/

/-- **C140 (the model named need not be the model used), disagreement.** If the features of two models have equal
lengths, a structure may be added with the one and then another with the other.  Both calls succeed, and the file
names the second model for a matrix whose first row was computed with the first. -/
theorem C140_names_last_model (m1 m2 : M) (s1 s2 : S) (v1 v2 : V) {o1 o2 : List α} {c1 c2 : List β}
    (h1 : featurize m1 ref0 s1 = .ok (o1, c1)) (h2 : featurize m2 ref0 s2 = .ok (o2, c2))
    (ho : o2.length = o1.length) (hc : c2.length = c1.length) (encode : J → Py E)
    (join : String → String → String) (disk : Disk V α β E) (dir pre : String) :
    save encode join (dataSetAfter featurize io (create io model0 ref0 : DataSet M R S V α β J)
        [.one ⟨.object s1, .ok v1, some m1, none, none, []⟩, .one ⟨.object s2, .ok v2, some m2, none, none, []⟩])
        disk dir pre
      = (.ok (join dir (pre ++ ".json")), disk.put (join dir (pre ++ ".json")) (.complete
          { correlation := [c1, c2]
            occupation := [o1, o2]
            properties := [v1, v2]
            metadata := [[], []]
            count := 2
            modelName := (io.name m2).getD "unknown" })) := by
  have a1 : Adds featurize io model0 ref0 ([] : List (Row M S V α β J))
      ⟨.object s1, .ok v1, some m1, none, none, []⟩ ⟨s1, v1, m1, o1, c1, []⟩ :=
    ⟨s1, [], v1, m1, o1, c1, rfl, rfl, rfl, h1, by simp⟩
  have a2 : Adds featurize io model0 ref0 ([⟨s1, v1, m1, o1, c1, []⟩] : List (Row M S V α β J))
      ⟨.object s2, .ok v2, some m2, none, none, []⟩ ⟨s2, v2, m2, o2, c2, []⟩ :=
    ⟨s2, [], v2, m2, o2, c2, rfl, rfl, rfl, h2, by simp [ho, hc]⟩
  have hH : Holds featurize io model0 ref0
      ([.one ⟨.object s1, .ok v1, some m1, none, none, []⟩] ++ [.one ⟨.object s2, .ok v2, some m2, none, none, []⟩])
      [⟨s1, v1, m1, o1, c1, []⟩, ⟨s2, v2, m2, o2, c2, []⟩] :=
    .one _ _ _ _ (.one [] [] _ _ .start (.next _ _ _ _ _ a1 (.done _))) (.next _ _ _ _ _ a2 (.done _))
  obtain ⟨md, g1, g2⟩ := (C140_file hH encode join disk dir pre).2.1 ⟨s2, v2, m2, o2, c2, []⟩ rfl (by simp [Writable])
  have hmd : md = [[], []] := by
    obtain _ | ⟨x1, t⟩ := g1
    obtain _ | ⟨x2, t2⟩ := t
    cases t2; cases x1; cases x2; rfl
  subst hmd
  exact g2

/-- **C140 (a failed save destroys the file that was there), disagreement.** If one entry has metadata that cannot be
written, saving to a path where a complete data file exists raises and leaves an incomplete file in its place. -/
theorem C140_failed_save_destroys {calls : List (Call M R S V J)} {rows : List (Row M S V α β J)}
    (h : Holds featurize io model0 ref0 calls rows) {encode : J → Py E} (hr : ∃ r ∈ rows, ¬ Writable encode r.metadata)
    (join : String → String → String) (disk : Disk V α β E) (dir pre : String) (d : Document V α β E)
    (hd : disk (join dir (pre ++ ".json")) = some (.complete d)) :
    (∃ e, (save encode join (dataSetAfter featurize io (create io model0 ref0) calls) disk dir pre).1 = .error e) ∧
    (save encode join (dataSetAfter featurize io (create io model0 ref0) calls) disk dir pre).2
      (join dir (pre ++ ".json")) ≠ disk (join dir (pre ++ ".json")) ∧
    (save encode join (dataSetAfter featurize io (create io model0 ref0) calls) disk dir pre).2
      (join dir (pre ++ ".json")) = some .torn := by
  obtain ⟨e, g⟩ := (C140_file h encode join disk dir pre).2.2 hr
  rw [g]
  have ht : disk.put (join dir (pre ++ ".json")) .torn (join dir (pre ++ ".json")) = some .torn := if_pos rfl
  refine ⟨⟨e, rfl⟩, ?_, ht⟩
  show disk.put (join dir (pre ++ ".json")) .torn (join dir (pre ++ ".json")) ≠ _
  rw [ht, hd]
  intro H
  cases H

/-! ### A data set -/

/-- Models are numbers and named by them; the features of a structure (a list) are its entries and their multiples. -/
def exampleFeatures (m : Int) (_ : Option Unit) (s : List Int) : Py (List Int × List Int) :=
  if s = [] then .error .valueError else .ok (s, s.map (m * ·))

/-- The file `a.cif` holds a structure; text values are kept as they are. -/
def exampleOutside : Outside Int (List Int) (Option String) where
  read p _ := if p = "a.cif" then .ok [1, 0] else .error .osError
  pathText p := p
  text t := some t
  name m := if m = 2 then some "second" else none

/-- Values without a text cannot be written. -/
def exampleEncode : Option String → Py String
  | some t => .ok t
  | none => .error .typeError

/-- Three calls: a file, a structure of a wrong length, a batch whose second structure does not exist. -/
def exampleCalls : List (Call Int Unit (List Int) Int (Option String)) :=
  [.one ⟨.path "a.cif", .ok 300, some 2, some [("run", some "7")], none, []⟩,
   .one ⟨.object [1, 1, 1], .ok 310, some 5, none, none, []⟩,
   .many ⟨[.object [0, 1], .path "b.cif", .object [1, 1]], [.ok 320, .ok 330, .ok 340], none,
     some [none, none, none], none, []⟩]

/-- The hypotheses of the theorems above are met: two calculations are accepted, from different calls, the file is
written and names their model. -/
example : ∃ rows : List (Row Int (List Int) Int Int Int (Option String)),
    Holds exampleFeatures exampleOutside none none exampleCalls rows ∧ rows.length = 2 ∧
    (∀ r ∈ rows, Writable exampleEncode r.metadata) ∧
    ((save exampleEncode (fun d n => d ++ "/" ++ n)
      (dataSetAfter exampleFeatures exampleOutside
        (create exampleOutside none none : DataSet Int Unit (List Int) Int Int Int (Option String)) exampleCalls)
      (fun _ => none) "out" "ekra").2 "out/ekra.json")
      = some (.complete ⟨[[2, 0], [0, 2]], [[1, 0], [0, 1]], [300, 320],
          [[("run", "7"), ("structure_file", "a.cif")], []], 2, "second"⟩) := by
  obtain ⟨rows, h, -⟩ := C140_rows (featurize := exampleFeatures) (io := exampleOutside) (model0 := none)
    (ref0 := none) (α := Int) (β := Int) exampleCalls
  have hfile : ((save exampleEncode (fun d n => d ++ "/" ++ n)
      (dataSetAfter exampleFeatures exampleOutside
        (create exampleOutside none none : DataSet Int Unit (List Int) Int Int Int (Option String)) exampleCalls)
      (fun _ => none) "out" "ekra"))
      = (.ok "out/ekra.json", Disk.put (fun _ => none) "out/ekra.json"
        (.complete ⟨[[2, 0], [0, 2]], [[1, 0], [0, 1]], [300, 320],
          [[("run", "7"), ("structure_file", "a.cif")], []], 2, "second"⟩)) := by
    rfl
  have hR := refines_holds h
  have hlen := congrArg List.length hR.cells
  simp only [List.length_map] at hlen
  refine ⟨rows, h, ?_, ?_, ?_⟩
  · rw [← hlen]; rfl
  · intro r hr
    by_contra H
    obtain ⟨e, g⟩ := (C140_file h exampleEncode (fun d n => d ++ "/" ++ n) (fun _ => none) "out" "ekra").2.2 ⟨r, hr, H⟩
    rw [hfile] at g
    cases g
  · rw [hfile]; rfl

/-- A data set with an entry whose metadata cannot be written. -/
example : ∃ r : Row Int (List Int) Int Int Int (Option String),
    Holds exampleFeatures exampleOutside none (none : Option Unit)
      [.one ⟨.object [1], .ok 300, some 2, some [("note", none)], none, []⟩] [r] ∧
    ¬ Writable exampleEncode r.metadata := by
  refine ⟨⟨[1], 300, 2, [1], [2], [("note", none)]⟩, ?_, ?_⟩
  · exact .one [] [] _ _ .start (.next _ _ _ _ _ ⟨[1], _, 300, 2, [1], [2], rfl, rfl, rfl, rfl, by simp⟩ (.done _))
  · intro H
    obtain ⟨x, hx⟩ := H ("note", none) (by simp)
    cases hx

end DataSetFile
end KMC
