import Verif.Lemmas.Results
import Verif.Props.SamplerProps
/-
C82: the result files of a run.
-/
namespace KMC
namespace Results
open Spec Spec.Results
variable {O K C T : Type}

theorem writes_eq (z : Sanitizer O) (label : String) (r : Outcome O K C T) :
    writes z label r = .ok ([(displacementName label r.pass, .vectors r.displacement),
      (hopCounterName label r.pass, .counts r.hopCounter),
      (occupationsName label r.pass, .occupations r.occupations),
      (resultsName label, .table resultFields (r.rows.map tableLine)),
      (unitsName label, .units resultUnits)] ++ propertyWrites z label r) := by
  simp only [writes, dataFrame_storeOf]

theorem names_nodup (label : String) (pass : Nat) : (fileNames label pass).Nodup := by
  rw [names_eq]
  have f : ∀ {a b x y : String}, a.toList.head? ≠ b.toList.head? → a.toList ≠ [] → b.toList ≠ [] →
      a ++ x ++ ".csv.gz" ≠ b ++ y ++ ".csv.gz" := by
    intro a b x y h1 h2 h3
    rw [String.append_assoc, String.append_assoc]
    exact head_ne h1 h2 h3
  simp only [List.nodup_cons, List.mem_cons, List.not_mem_nil, or_false, not_or, not_false_eq_true,
    List.nodup_nil, and_true]
  refine ⟨⟨f (by decide) (by decide) (by decide), f (by decide) (by decide) (by decide),
      f (by decide) (by decide) (by decide), ending_ne, ending_ne⟩,
    ⟨f (by decide) (by decide) (by decide), f (by decide) (by decide) (by decide), ending_ne, ending_ne⟩,
    ⟨f (by decide) (by decide) (by decide), ending_ne, ending_ne⟩, ⟨ending_ne, ending_ne⟩, ?_⟩
  rw [unitsName, propertiesName, String.append_assoc, String.append_assoc]
  exact head_ne (by decide) (by decide) (by decide)

/-- C82.  Writing the results never fails.  Afterwards the six files of that label hold the final
displacements, hop counts and occupations, one line per sampled summary under the header
`time, jump_diffusivity, ...`, the units, and the property records; every other file is untouched. -/
theorem C82_written (z : Sanitizer O) (label : String) (r : Outcome O K C T) (fs : Files K C T) :
    ∃ fs', writeResults z label r fs = .ok fs' ∧
      ((fileNames label r.pass)[0]?.bind (dictGet fs')) = some (.vectors r.displacement) ∧
      ((fileNames label r.pass)[1]?.bind (dictGet fs')) = some (.counts r.hopCounter) ∧
      ((fileNames label r.pass)[2]?.bind (dictGet fs')) = some (.occupations r.occupations) ∧
      ((fileNames label r.pass)[3]?.bind (dictGet fs')) =
        some (.table ["time", "jump_diffusivity", "tracer_diffusivity", "conductivity",
          "correlation_factor", "havens_ratio", "msd"] (r.rows.map tableLine)) ∧
      ((fileNames label r.pass)[4]?.bind (dictGet fs')) = some (.units
        [("time", "s"), ("msd", "Angstrom^2"), ("jump_diffusivity", "cm^2/s"), ("tracer_diffusivity", "cm^2/s"),
         ("conductivity", "mS/cm"), ("havens_ratio", "dimensionless"), ("correlation_factor", "dimensionless")]) ∧
      (storedPayload z r.records ≠ [] → ((fileNames label r.pass)[5]?.bind (dictGet fs')) =
        some (.records (storedPayload z r.records))) ∧
      ∀ n, n ∉ fileNames label r.pass → dictGet fs' n = dictGet fs n := by
  have hd := names_nodup label r.pass
  rw [names_eq] at hd ⊢
  have hk : ∃ ws, writes z label r = .ok ws ∧ (dictKeys ws).Nodup ∧
      dictGet ws (displacementName label r.pass) = some (.vectors r.displacement) ∧
      dictGet ws (hopCounterName label r.pass) = some (.counts r.hopCounter) ∧
      dictGet ws (occupationsName label r.pass) = some (.occupations r.occupations) ∧
      dictGet ws (resultsName label) = some (.table resultFields (r.rows.map tableLine)) ∧
      dictGet ws (unitsName label) = some (.units resultUnits) ∧
      (storedPayload z r.records ≠ [] → dictGet ws (propertiesName label) =
        some (.records (storedPayload z r.records))) ∧
      (∀ n, n ∉ [displacementName label r.pass, hopCounterName label r.pass,
        occupationsName label r.pass, resultsName label, unitsName label, propertiesName label] →
        dictGet ws n = none) := by
    refine ⟨_, writes_eq z label r, ?_⟩
    simp only [List.nodup_cons, List.mem_cons, List.not_mem_nil, or_false, not_or, not_false_eq_true,
      List.nodup_nil, and_true] at hd
    obtain ⟨⟨a1, a2, a3, a4, a5⟩, ⟨b1, b2, b3, b4⟩, ⟨c1, c2, c3⟩, ⟨d1, d2⟩, e1⟩ := hd
    simp only [propertyWrites]
    split
    · rename_i hp
      refine ⟨?_, ?_, ?_, ?_, ?_, ?_, ?_, ?_⟩
      · simp only [dictKeys, List.append_nil, List.map_cons, List.map_nil, List.nodup_cons,
          List.mem_cons, List.not_mem_nil, or_false, not_or, not_false_eq_true, List.nodup_nil, and_true]
        exact ⟨⟨a1, a2, a3, a4⟩, ⟨b1, b2, b3⟩, ⟨c1, c2⟩, d1⟩
      · simp [dictGet]
      · simp [dictGet, a1]
      · simp [dictGet, a2, b1]
      · simp [dictGet, a3, b2, c1]
      · simp [dictGet, a4, b3, c2, d1]
      · exact fun h => absurd hp h
      · intro n hn
        simp only [List.mem_cons, List.not_mem_nil, or_false, not_or] at hn
        simp [dictGet, Ne.symm hn.1, Ne.symm hn.2.1, Ne.symm hn.2.2.1, Ne.symm hn.2.2.2.1,
          Ne.symm hn.2.2.2.2.1]
    · refine ⟨?_, ?_, ?_, ?_, ?_, ?_, ?_, ?_⟩
      · simp only [dictKeys, List.cons_append, List.nil_append, List.map_cons, List.map_nil,
          List.nodup_cons, List.mem_cons, List.not_mem_nil, or_false, not_or, not_false_eq_true,
          List.nodup_nil, and_true]
        exact ⟨⟨a1, a2, a3, a4, a5⟩, ⟨b1, b2, b3, b4⟩, ⟨c1, c2, c3⟩, ⟨d1, d2⟩, e1⟩
      · simp [dictGet]
      · simp [dictGet, a1]
      · simp [dictGet, a2, b1]
      · simp [dictGet, a3, b2, c1]
      · simp [dictGet, a4, b3, c2, d1]
      · intro _
        simp [dictGet, a5, b4, c3, d2, e1]
      · intro n hn
        simp only [List.mem_cons, List.not_mem_nil, or_false, not_or] at hn
        simp [dictGet, Ne.symm hn.1, Ne.symm hn.2.1, Ne.symm hn.2.2.1, Ne.symm hn.2.2.2.1,
          Ne.symm hn.2.2.2.2.1, Ne.symm hn.2.2.2.2.2]
  obtain ⟨ws, hw, hn, w0, w1, w2, w3, w4, w5, w6⟩ := hk
  refine ⟨writeAll fs ws, by simp only [writeResults, hw], ?_, ?_, ?_, ?_, ?_, ?_, ?_⟩
  · show dictGet _ _ = _
    rw [writeAll_get _ _ hn, w0]
  · show dictGet _ _ = _
    rw [writeAll_get _ _ hn, w1]
  · show dictGet _ _ = _
    rw [writeAll_get _ _ hn, w2]
  · show dictGet _ _ = _
    rw [writeAll_get _ _ hn, w3]
    rfl
  · show dictGet _ _ = _
    rw [writeAll_get _ _ hn, w4]
    rfl
  · intro h
    show dictGet _ _ = _
    rw [writeAll_get _ _ hn, w5 h]
  · intro n h
    rw [writeAll_get _ _ hn, w6 n h]

/-- C82.  Runs with different labels never write to the same file, however many passes they made. -/
theorem C82_labels_apart (l l' : String) (h : l ≠ l') (p p' : Nat) :
    ∀ n ∈ fileNames l p, n ∉ fileNames l' p' := by
  have e : ∀ x y : String, x ++ ".json.gz" ≠ y ++ ".csv.gz" := fun x y => ending_ne.symm
  have f : ∀ {a b x y c : String}, a.toList.head? ≠ b.toList.head? → a.toList ≠ [] → b.toList ≠ [] →
      a ++ x ++ c ≠ b ++ y ++ c := by
    intro a b x y c h1 h2 h3
    rw [String.append_assoc, String.append_assoc]
    exact head_ne h1 h2 h3
  rw [names_eq, names_eq]
  simp only [List.mem_cons, List.not_mem_nil, or_false, not_or]
  have u : ∀ {a c : String}, a ++ prefixOf l p ++ c ≠ a ++ prefixOf l' p' ++ c :=
    fun he => h (prefixOf_injective (around_injective he)).1
  have v : ∀ {a c : String}, a ++ suffixOf l ++ c ≠ a ++ suffixOf l' ++ c :=
    fun he => h (suffixOf_injective (around_injective he))
  rintro n (rfl | rfl | rfl | rfl | rfl | rfl)
  · exact ⟨u, f (by decide) (by decide) (by decide), f (by decide) (by decide) (by decide),
      f (by decide) (by decide) (by decide), ending_ne, ending_ne⟩
  · exact ⟨f (by decide) (by decide) (by decide), u, f (by decide) (by decide) (by decide),
      f (by decide) (by decide) (by decide), ending_ne, ending_ne⟩
  · exact ⟨f (by decide) (by decide) (by decide), f (by decide) (by decide) (by decide), u,
      f (by decide) (by decide) (by decide), ending_ne, ending_ne⟩
  · exact ⟨f (by decide) (by decide) (by decide), f (by decide) (by decide) (by decide),
      f (by decide) (by decide) (by decide), v, ending_ne, ending_ne⟩
  · exact ⟨e _ _, e _ _, e _ _, e _ _, v, f (by decide) (by decide) (by decide)⟩
  · exact ⟨e _ _, e _ _, e _ _, e _ _, f (by decide) (by decide) (by decide), v⟩

/-- C82.  Runs with one label but different numbers of passes keep their own displacements, hop counts
and occupations; the summary, the units and the records are replaced. -/
theorem C82_passes_apart (l : String) (p p' : Nat) (h : p ≠ p') :
    (∀ n ∈ (fileNames l p).take 3, n ∉ fileNames l p') ∧
      (fileNames l p).drop 3 = (fileNames l p').drop 3 := by
  have f : ∀ {a b x y : String}, a.toList.head? ≠ b.toList.head? → a.toList ≠ [] → b.toList ≠ [] →
      a ++ x ++ ".csv.gz" ≠ b ++ y ++ ".csv.gz" := by
    intro a b x y h1 h2 h3
    rw [String.append_assoc, String.append_assoc]
    exact head_ne h1 h2 h3
  rw [names_eq, names_eq]
  refine ⟨?_, rfl⟩
  simp only [List.take_succ_cons, List.take_zero, List.mem_cons, List.not_mem_nil, or_false, not_or]
  have u : ∀ {a c : String}, a ++ prefixOf l p ++ c ≠ a ++ prefixOf l p' ++ c :=
    fun he => h (prefixOf_injective (around_injective he)).2
  rintro n (rfl | rfl | rfl)
  · exact ⟨u, f (by decide) (by decide) (by decide), f (by decide) (by decide) (by decide),
      f (by decide) (by decide) (by decide), ending_ne, ending_ne⟩
  · exact ⟨f (by decide) (by decide) (by decide), u, f (by decide) (by decide) (by decide),
      f (by decide) (by decide) (by decide), ending_ne, ending_ne⟩
  · exact ⟨f (by decide) (by decide) (by decide), f (by decide) (by decide) (by decide), u,
      f (by decide) (by decide) (by decide), ending_ne, ending_ne⟩

/-- C82.  Under the run's label (the argument of `run`, or else the configured name), the properties file
of a finished run lists, for every attached property, exactly its records in the order in which they were
taken. -/
theorem C82_run_records {σ φ M R U Row : Type} [Field K] [LinearOrder K] [FloorRing K]
    [Add T] [Zero T] [Sub T] [LE T] [DecidableLE T] (z : Sanitizer O) (cell : T → C)
    (metrics : Row → Metrics C) (k : Kernel R T U) (m : RateModel M R T) (g : Geometry K)
    (lookup : Option HopStateLookup) (summary : Trajectory K → T → List (String × Bool) → Row)
    (ops : List (PlanOp T (Val O))) (rng : Nat → U × U) (len equil prod : Nat) (s : Sim σ φ M R T)
    (rs : RunState σ φ M R T K (Val O) Row)
    (h : (s.run k m g lookup summary (planAfter ops) rng len equil prod).outcome = .ok ())
    (ht : (s.run k m g lookup summary (planAfter ops) rng len equil prod).tracker = some rs)
    (label : String) (fs fs' : Files K C T)
    (hw : writeResults z label (outcomeOf cell metrics rs) fs = .ok fs')
    (hne : storedPayload z rs.sampler.records ≠ []) :
    ∃ l, dictGet fs' (if label = "" then "properties.json.gz" else "properties_" ++ label ++ ".json.gz") =
        some (.records l) ∧
      (∀ n recs, rs.sampler.getPropertyRecords n = .ok recs → l.filter (fun e => e.name = n) =
        recs.map fun r => ⟨n, r.step, r.time, toJsonSafe z r.value⟩) ∧
      ∀ e ∈ l, ∃ recs, rs.sampler.getPropertyRecords e.name = .ok recs := by
  obtain ⟨s1, states, rs', -, h2, -, -, -, hs, -⟩ := run_records (planWF_after ops) h
  rw [ht] at h2
  cases h2
  have hwf := planWF_after ops
  obtain ⟨hn, hk⟩ := sampled_named hs (by
    intro n l hl
    have := mem_of_dictGet hl
    simp only [List.mem_map, Prod.mk.injEq] at this
    obtain ⟨_, _, _, rfl⟩ := this
    simp)
  have hnd : (dictKeys rs.sampler.records).Nodup := by
    rw [hk]
    have := hwf.nodup
    simpa [dictKeys, List.map_map, Function.comp_def] using this
  obtain ⟨fs'', hw', -, -, -, -, -, h5, -⟩ := C82_written z label (outcomeOf cell metrics rs) fs
  rw [hw] at hw'
  cases hw'
  refine ⟨storedPayload z rs.sampler.records, ?_, ?_, ?_⟩
  · have := h5 hne
    simp only [fileNames] at this
    split at this
    · rename_i hl
      rw [if_pos hl]; exact this
    · rename_i hl
      rw [if_neg hl]; exact this
  · intro n recs hr
    have hg : dictGet rs.sampler.records n = some recs := by
      simp only [Sampler.getPropertyRecords] at hr
      split at hr
      · cases hr
      · cases hr; assumption
    rw [storedPayload_filter z hnd hn hg]
    apply List.map_congr_left
    intro r hr
    rw [hn n recs hg r hr]
  · intro e he
    have : ∀ recs : List (String × List (PropertyRecord T (Val O))), e ∈ storedPayload z recs →
        ∃ p ∈ recs, ∃ r ∈ p.2, e.name = r.name := by
      intro recs
      induction recs with
      | nil => intro h; cases h
      | cons p recs ih =>
        intro h
        simp only [storedPayload, List.mem_append, storedRecords, List.mem_map] at h
        rcases h with ⟨r, hr, rfl⟩ | h
        · exact ⟨p, by simp, r, hr, rfl⟩
        · obtain ⟨q, hq, w⟩ := ih h
          exact ⟨q, by simp [hq], w⟩
    obtain ⟨p, hp, r, hr, hen⟩ := this _ he
    have hg := dictGet_of_mem hnd hp
    rw [hen, hn p.1 p.2 hg r hr]
    exact ⟨p.2, by simp only [Sampler.getPropertyRecords]; rw [hg]⟩

/-- C82.  The files of a run hold that run's tracker and simulation: the displacements and hop counts of its ions,
the occupations at its end, and one line per summary sampled, with the time it was sampled at. -/
theorem C82_run_files {σ φ M R Row : Type} (z : Sanitizer O) (cell : T → C) (metrics : Row → Metrics C)
    (rs : RunState σ φ M R T K (Val O) Row) (label : String) (fs : Files K C T) :
    ∃ fs', writeResults z label (outcomeOf cell metrics rs) fs = .ok fs' ∧
      ((fileNames label rs.currentPass)[0]?.bind (dictGet fs')) = some (.vectors rs.traj.displacement) ∧
      ((fileNames label rs.currentPass)[1]?.bind (dictGet fs')) = some (.counts rs.traj.hopCounter) ∧
      ((fileNames label rs.currentPass)[2]?.bind (dictGet fs')) = some (.occupations rs.sim.st.occ) ∧
      ∃ header, ((fileNames label rs.currentPass)[3]?.bind (dictGet fs')) =
        some (.table header (rs.sampler.results.map fun row => tableLine (cell row.1, metrics row.2))) := by
  obtain ⟨fs', h, h0, h1, h2, h3, -⟩ := C82_written z label (outcomeOf cell metrics rs) fs
  refine ⟨fs', h, h0, h1, h2, ["time", "jump_diffusivity", "tracer_diffusivity", "conductivity",
    "correlation_factor", "havens_ratio", "msd"], ?_⟩
  refine Eq.trans h3 ?_
  simp [outcomeOf, Function.comp_def]

/-- C82.  The files of `run(label)` are those of the argument, also if this is the empty text; only without an argument
they are those of the configured name. -/
theorem C82_label_of_run (name : String) (pass : Nat) :
    (∀ l, fileNames (runLabel (some l) name) pass = fileNames l pass) ∧
    fileNames (runLabel none name) pass = fileNames name pass :=
  ⟨fun _ => rfl, rfl⟩

/-- C82.  A value made of texts, numbers, truth values, `None`, lists and dictionaries with text keys is
stored as JSON stores it (tuples become lists): nothing is dropped or changed. -/
theorem C82_plain_values (z : Sanitizer O) (v : PyVal) (h : WellKeyed v) :
    toJsonSafe z (ofPy v) = v.json := safe_ofPy z v h

/-- C82 does not extend to dictionaries with other keys: two keys with the same text are merged, and a
value is lost without a message. -/
theorem C82_keys_merged (z : Sanitizer O) (a b : Int) :
    toJsonSafe z (.dict [(.int 1, .int a), (.str "1", .int b)]) = .dict [("1", .int b)] := by
  have h1 : intStr 1 = "1" := by
    show String.ofList (natDigits 1) = "1"
    rw [natDigits]
    rfl
  simp only [toJsonSafe, safeDict, Key.text, h1]
  rfl

/-- C82 fails for the properties file: a run without records does not touch it, so that beside its new
summary the file of an earlier run with the same label remains. -/
theorem C82_stale_records (z : Sanitizer O) (label : String) (r : Outcome O K C T)
    (h : ∀ p ∈ r.records, p.2 = []) (fs fs' : Files K C T) (hw : writeResults z label r fs = .ok fs') :
    dictGet fs' (if label = "" then "properties.json.gz" else "properties_" ++ label ++ ".json.gz") =
      dictGet fs (if label = "" then "properties.json.gz" else "properties_" ++ label ++ ".json.gz") := by
  have hp : storedPayload z r.records = [] := by
    generalize r.records = recs at h
    induction recs with
    | nil => rfl
    | cons p recs ih =>
      have h1 := h p (by simp)
      simp [storedPayload, storedRecords, h1, ih fun q hq => h q (by simp [hq])]
  have hname : (if label = "" then "properties.json.gz" else "properties_" ++ label ++ ".json.gz") =
      propertiesName label := by
    have := names_eq label 0
    simp only [fileNames] at this
    split at this <;> simp_all
  have hd := names_nodup label r.pass
  rw [names_eq] at hd
  simp only [List.nodup_cons, List.mem_cons, List.not_mem_nil, or_false, not_or, not_false_eq_true,
    List.nodup_nil, and_true] at hd
  obtain ⟨⟨a1, a2, a3, a4, a5⟩, ⟨b1, b2, b3, b4⟩, ⟨c1, c2, c3⟩, ⟨d1, d2⟩, e1⟩ := hd
  rw [hname]
  simp only [writeResults, writes_eq, propertyWrites, hp, List.append_nil, Except.ok.injEq] at hw
  rw [← hw, writeAll_get]
  · simp [dictGet, a5, b4, c3, d2, e1]
  · simp only [dictKeys, List.map_cons, List.map_nil, List.nodup_cons,
      List.mem_cons, List.not_mem_nil, or_false, not_or, not_false_eq_true, List.nodup_nil, and_true]
    exact ⟨⟨a1, a2, a3, a4⟩, ⟨b1, b2, b3⟩, ⟨c1, c2⟩, d1⟩

/-- The files of a run named `NaSICON` whose last pass is number 9. -/
example : fileNames "NaSICON" 9 =
    ["displacement_NaSICON_9.csv.gz", "hop_counter_NaSICON_9.csv.gz", "current_occ_NaSICON_9.csv.gz",
     "results_NaSICON.csv.gz", "results_units_NaSICON.json.gz", "properties_NaSICON.json.gz"] := by
  decide +kernel

/-- A value with everything in it. -/
example : WellKeyed (.dict [("a", .list [.int 1, .float .nan, .none]), ("b", .tuple [.str "x", .bool true]),
    ("c", .dict [("a", .int 2)])]) := by
  simp [WellKeyed, WellKeyedDict, WellKeyedList, dictKeys]

/-- A stale file: the first run recorded a property, the second did not. -/
example : ∃ (r r' : Outcome Unit Int Int Int) (fs fs' : Files Int Int Int),
    writeResults ⟨fun _ => none, fun _ => ""⟩ "a" r [] = .ok fs ∧
    writeResults ⟨fun _ => none, fun _ => ""⟩ "a" r' fs = .ok fs' ∧
    dictGet fs' "properties_a.json.gz" = some (.records [⟨"n", 1, 1, .int 5⟩]) ∧
    ∀ p ∈ r'.records, p.2 = [] := by
  obtain ⟨fs, h, -, -, -, -, -, h5, -⟩ := C82_written (K := Int) (C := Int) (T := Int)
    (⟨fun _ => none, fun _ => ""⟩ : Sanitizer Unit) "a"
    ⟨0, [], [], [], [], [("n", [⟨"n", 1, 1, .int 5⟩])]⟩ []
  obtain ⟨fs', h', -⟩ := C82_written (K := Int) (C := Int) (T := Int)
    (⟨fun _ => none, fun _ => ""⟩ : Sanitizer Unit) "a" ⟨0, [], [], [], [], []⟩ fs
  refine ⟨_, _, fs, fs', h, h', ?_, by simp⟩
  have e := C82_stale_records _ "a" _ (by simp) fs fs' h'
  have h6 := h5 (by simp [storedPayload, storedRecords])
  rw [show "properties_a.json.gz" = (if ("a" : String) = "" then "properties.json.gz" else
    "properties_" ++ "a" ++ ".json.gz") from rfl, e]
  simpa [fileNames, storedPayload, storedRecords, toJsonSafe] using h6

/-- The hypotheses of `C82_run_records`: a run of seven steps with a property recorded at every second. -/
example : ((toySim.run toyKernel toyLocal toyGeometry none (fun _ t _ => t) (planAfter
      [.attach { callback := fun _ step _ => .value (.int step : Val Unit), funcName := "q", interval := some 2 }])
      (fun _ => ((), ())) 1 0 7).outcome = .ok ()) ∧
    ∃ rs, (toySim.run toyKernel toyLocal toyGeometry none (fun _ t _ => t) (planAfter
      [.attach { callback := fun _ step _ => .value (.int step : Val Unit), funcName := "q", interval := some 2 }])
      (fun _ => ((), ())) 1 0 7).tracker = some rs ∧
      (storedPayload ⟨fun _ => none, fun _ => ""⟩ rs.sampler.records).length = 3 :=
  ⟨by decide, _, rfl, by decide⟩

end Results
end KMC
