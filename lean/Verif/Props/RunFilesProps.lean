import Verif.Lemmas.RunFiles
/-
C129: what an interrupted simulation leaves in the folder, and gathering the results of many runs.
-/
namespace KMC
namespace RunFiles
open Spec Results
variable {O K C T Row : Type}

section
variable {σ φ M R U : Type} [Field K] [LinearOrder K] [FloorRing K] [Add T] [Zero T] [Sub T] [LE T] [DecidableLE T]
  (z : Sanitizer O) (cell : T → C) (metrics : Row → Metrics C) (label : String) (k : Kernel R T U)
  (m : RateModel M R T) (g : Geometry K) (lookup : Option HopStateLookup)
  (summary : Trajectory K → T → List (String × Bool) → Row) (plan : PropertyPlan T (Val O)) (rng : Nat → U × U)
  (len equil prod : Nat) (s : Sim σ φ M R T)

/-- **C129.**  A run that ends in an exception, at any step and for any reason, leaves the folder exactly as it was: all of
its results are lost, and no earlier file is. -/
theorem C129_exception (e : PyErr) (h : (s.run k m g lookup summary plan rng len equil prod).outcome = .error e)
    {d d' : Disk K C T}
    (hl : LeftBehind d (runFiles z cell metrics label k m g lookup summary plan rng len equil prod s) d') : d' = d := by
  have : runFiles z cell metrics label k m g lookup summary plan rng len equil prod s = [] := by
    unfold runFiles
    rw [h]
  rw [this] at hl
  cases hl
  rfl

/-- **C129.**  After a finished run its results can be read, whatever the folder held before. -/
theorem C129_finished {rs : RunState σ φ M R T K (Val O) Row}
    (h : (s.run k m g lookup summary plan rng len equil prod).outcome = .ok ())
    (ht : (s.run k m g lookup summary plan rng len equil prod).tracker = some rs) (d : Disk K C T) :
    readRun (d.putAll (runFiles z cell metrics label k m g lookup summary plan rng len equil prod s)) label
      rs.currentPass = some (resultsOf (outcomeOf cell metrics rs)) := by
  have hn := names_apart label rs.currentPass
  simp only [List.nodup_cons, List.mem_cons, List.not_mem_nil, or_false, not_or, not_false_eq_true, List.nodup_nil,
    and_true] at hn
  obtain ⟨⟨a1, a2, a3, a4, a5⟩, ⟨b2, b3, b4, b5⟩, ⟨c3, c4, c5⟩, ⟨e4, e5⟩, f5⟩ := hn
  have : runFiles z cell metrics label k m g lookup summary plan rng len equil prod s =
      [(displacementName label rs.currentPass, .vectors rs.traj.displacement),
      (hopCounterName label rs.currentPass, .counts rs.traj.hopCounter),
      (occupationsName label rs.currentPass, .occupations rs.sim.st.occ),
      (resultsName label, .table resultFields ((outcomeOf cell metrics rs).rows.map Spec.Results.tableLine)),
      (unitsName label, .units resultUnits)] ++ propertyWrites z label (outcomeOf cell metrics rs) := by
    unfold runFiles
    rw [h, ht]
    simp only [writes_eq]
    rfl
  rw [this]
  rcases propertyWrites_cases z label (outcomeOf cell metrics rs) with ⟨-, h2⟩ | ⟨-, h2⟩ <;> rw [h2] <;>
    simp [Disk.putAll, Disk.put, readRun, readVectors, readCounts, readOccupations, readTable, resultsOf, outcomeOf,
      a1, a2, a3, a4, a5, b2, b3, b4, b5, c3, c4, c5, e4, e5, f5, resultFields]

/-- **C129.**  If the folder had no files of the label, then whatever can be read after a crash at any point is the run's:
where the table can be read the arrays are complete too, and where the property records can be read everything is. -/
theorem C129_fresh_folder {rs : RunState σ φ M R T K (Val O) Row}
    (h : (s.run k m g lookup summary plan rng len equil prod).outcome = .ok ())
    (ht : (s.run k m g lookup summary plan rng len equil prod).tracker = some rs) {d d' : Disk K C T}
    (hd : NoFiles d label rs.currentPass)
    (hl : LeftBehind d (runFiles z cell metrics label k m g lookup summary plan rng len equil prod s) d') :
    (∀ x, readRun d' label rs.currentPass = some x → x = resultsOf (outcomeOf cell metrics rs)) ∧
    (∀ l, readRecords (d' (if label = "" then "properties.json.gz" else "properties_" ++ label ++ ".json.gz")) =
        some l →
      readRun d' label rs.currentPass = some (resultsOf (outcomeOf cell metrics rs)) ∧
      l = storedPayload z rs.sampler.records) := by
  have hp : (if label = "" then "properties.json.gz" else "properties_" ++ label ++ ".json.gz") =
      propertiesName label := by
    have := names_eq label 0
    unfold Spec.Results.fileNames at this
    split at this <;> rename_i hlab <;> simp only [hlab, if_true, if_false] <;> simp at this
    · rw [hlab] at this; exact this.2.2.2.2.2
    · exact this.2.2.2.2.2
  obtain ⟨ws, hw, hl'⟩ : ∃ ws, writes z label (outcomeOf cell metrics rs) = .ok ws ∧ LeftBehind d ws d' := by
    refine ⟨_, writes_eq z label _, ?_⟩
    unfold runFiles at hl
    rw [h, ht] at hl
    simp only [writes_eq] at hl
    exact hl
  obtain ⟨h1, h2⟩ := left_fresh hw hd hl'
  have key : ∀ t, readTable (d' (resultsName label)) = some t →
      readRun d' label rs.currentPass = some (resultsOf (outcomeOf cell metrics rs)) := by
    intro t ht'
    obtain ⟨k1, k2, k3, k4⟩ := h1 t ht'
    simp only [outcomeOf] at k1 k2 k3
    unfold readRun
    rw [k1, k2, k3, k4]
    rfl
  constructor
  · intro x hx
    cases ht' : readTable (d' (resultsName label)) with
    | none => simp [readRun, ht'] at hx
    | some t =>
      rw [key t ht'] at hx
      exact (Option.some.inj hx).symm
  · rw [hp]
    intro l hl2
    obtain ⟨k1, -, k3⟩ := h2 l hl2
    exact ⟨key _ (by rw [k1]; rfl), k3⟩

end

/-- **C129, disagreement.**  Over an earlier run with the same label and number of passes, a crash can leave files that
all can be read, of which the arrays are the new run's and the table is the earlier run's. -/
theorem C129_mixed_runs (z : Sanitizer O) (label : String) (r0 r1 : Outcome O K C T) (hp : r0.pass = r1.pass)
    {ws0 ws1 : Files K C T} (h0 : writes z label r0 = .ok ws0) (h1 : writes z label r1 = .ok ws1) (d : Disk K C T) :
    ∃ d', LeftBehind (d.putAll ws0) ws1 d' ∧ readRun d' label r1.pass =
      some { resultsOf r1 with lines := (resultsOf r0).lines } := by
  have hn := names_apart label r1.pass
  simp only [List.nodup_cons, List.mem_cons, List.not_mem_nil, or_false, not_or, not_false_eq_true, List.nodup_nil,
    and_true] at hn
  obtain ⟨⟨a1, a2, a3, a4, a5⟩, ⟨b2, b3, b4, b5⟩, ⟨c3, c4, c5⟩, ⟨e4, e5⟩, f5⟩ := hn
  rw [writes_eq] at h0 h1
  cases h0
  cases h1
  refine ⟨_, putAll_prefix _ [(displacementName label r1.pass, .vectors r1.displacement),
      (hopCounterName label r1.pass, .counts r1.hopCounter),
      (occupationsName label r1.pass, .occupations r1.occupations)] _, ?_⟩
  rw [hp]
  rcases propertyWrites_cases z label r0 with ⟨-, h2⟩ | ⟨-, h2⟩ <;> rw [h2] <;>
    simp [Disk.putAll, Disk.put, readRun, readVectors, readCounts, readOccupations, readTable, resultsOf, resultFields,
      a1, a2, a3, a4, a5, b2, b3, b4, b5, c3, c4, c5, e4, e5, f5,
      Ne.symm a1, Ne.symm a2, Ne.symm a3, Ne.symm b2, Ne.symm b3, Ne.symm c3]

/-- **C129, disagreement.**  A crash can also leave the earlier results with an empty displacement array, read with
no more than a warning. -/
theorem C129_empty_array (z : Sanitizer O) (label : String) (r0 r1 : Outcome O K C T) (hp : r0.pass = r1.pass)
    {ws0 ws1 : Files K C T} (h0 : writes z label r0 = .ok ws0) (h1 : writes z label r1 = .ok ws1) (d : Disk K C T) :
    ∃ d', LeftBehind (d.putAll ws0) ws1 d' ∧ readRun d' label r1.pass =
      some { resultsOf r0 with displacement := [] } := by
  have hn := names_apart label r1.pass
  simp only [List.nodup_cons, List.mem_cons, List.not_mem_nil, or_false, not_or, not_false_eq_true, List.nodup_nil,
    and_true] at hn
  obtain ⟨⟨a1, a2, a3, a4, a5⟩, ⟨b2, b3, b4, b5⟩, ⟨c3, c4, c5⟩, ⟨e4, e5⟩, f5⟩ := hn
  rw [writes_eq] at h0 h1
  cases h0
  cases h1
  refine ⟨_, .opened _ (displacementName label r1.pass) (.vectors r1.displacement) _, ?_⟩
  rw [hp]
  rcases propertyWrites_cases z label r0 with ⟨-, h2⟩ | ⟨-, h2⟩ <;> rw [h2] <;>
    simp [Disk.putAll, Disk.put, readRun, readVectors, readCounts, readOccupations, readTable, resultsOf, resultFields,
      a1, a2, a3, a4, a5, b2, b3, b4, b5, c3, c4, c5, e4, e5, f5,
      Ne.symm a1, Ne.symm a2, Ne.symm a3, Ne.symm b2, Ne.symm b3, Ne.symm c3]

/-- **C129, disagreement.**  A crash just before the property records are written leaves the folder of a finished run
without records: nothing shows that they are missing. -/
theorem C129_records_missing (z : Sanitizer O) (label : String) (r : Outcome O K C T) (d : Disk K C T)
    {ws ws' : Files K C T} (hw : writes z label r = .ok ws) (hw' : writes z label { r with records := [] } = .ok ws') :
    LeftBehind d ws (d.putAll ws') := by
  rw [writes_eq] at hw hw'
  cases hw
  cases hw'
  have : propertyWrites z label ({ r with records := [] } : Outcome O K C T) = [] := rfl
  rw [this, List.append_nil]
  exact putAll_prefix d _ _

/-- **C129.**  Files of other labels, and all files that are not results, are never touched. -/
theorem C129_other_labels {z : Sanitizer O} {label : String} {r : Outcome O K C T} {ws : Files K C T}
    (hw : writes z label r = .ok ws) {d d' : Disk K C T} (hl : LeftBehind d ws d') :
    (∀ n, n ∉ Spec.Results.fileNames label r.pass → d' n = d n) ∧
    ∀ label' pass, label' ≠ label → readRun d' label' pass = readRun d label' pass := by
  have key : ∀ n, n ∉ Spec.Results.fileNames label r.pass → d' n = d n := fun n hn =>
    left_other hl n fun hc => hn (dictKeys_writes hw n hc)
  refine ⟨key, fun label' pass hne => ?_⟩
  have hap := C82_labels_apart label' label hne pass r.pass
  rw [names_eq] at hap
  simp only [List.mem_cons, List.not_mem_nil, or_false, forall_eq_or_imp, forall_eq] at hap
  obtain ⟨h0, h1, h2, h3, -, -⟩ := hap
  unfold readRun
  rw [key _ h0, key _ h1, key _ h2, key _ h3]

/-- A run of the series, later: its table is complete or cannot be read. -/
theorem series_table {z : Sanitizer O} {runs : List (SeriesRun O K C T)} {d d' : Disk K C T}
    (hs : InSeries z d runs d') (hd : ∀ r ∈ runs, NoFiles d r.label r.outcome.pass)
    (hn : (runs.map SeriesRun.label).Nodup) :
    (∀ n, (∀ r ∈ runs, n ∉ Spec.Results.fileNames r.label r.outcome.pass) → d' n = d n) ∧
    ∀ r ∈ runs, ∀ t, readTable (d' r.file) = some t →
      t = (resultFields, r.outcome.rows.map Spec.Results.tableLine) := by
  induction hs with
  | done d => exact ⟨fun _ _ => rfl, by simp⟩
  | next d d1 d2 r rs ws hw hl _ ih =>
    simp only [List.map_cons, List.nodup_cons] at hn
    have ho := (C129_other_labels hw hl).1
    have happ : ∀ q ∈ rs, ∀ n ∈ Spec.Results.fileNames q.label q.outcome.pass,
        n ∉ Spec.Results.fileNames r.label r.outcome.pass := by
      intro q hq
      exact C82_labels_apart _ _ (fun he => hn.1 (by rw [← he]; exact List.mem_map_of_mem hq)) _ _
    obtain ⟨i1, i2⟩ := ih (fun q hq n hnq => by
      rw [ho n (happ q hq n hnq)]
      exact hd q (by simp [hq]) n hnq) hn.2
    constructor
    · intro n hno
      rw [i1 n fun q hq => hno q (by simp [hq]), ho n (hno r (by simp))]
    · intro q hq
      simp only [List.mem_cons] at hq
      rcases hq with rfl | hq
      · intro t ht
        have hin : q.file ∈ Spec.Results.fileNames q.label q.outcome.pass := by
          rw [file_eq, names_eq]; simp
        rw [i1 q.file fun q' hq' hc => happ q' hq' _ hc hin] at ht
        have := (left_fresh hw (hd q (by simp)) hl).1 t (by rw [← file_eq]; exact ht)
        rw [file_eq, this.2.2.2] at ht
        exact (Option.some.inj ht).symm
      · exact i2 q hq

/-- **C129.**  Gathering the result files of a series of runs gives, if it gives anything, exactly the lines of these
runs, each with its composition, structure index and number, although any of the runs may have been interrupted while
writing: an incomplete table is refused. -/
theorem C129_gathered {X : Type} (float : String → Py X) (int : String → Py Int) {z : Sanitizer O}
    {runs : List (SeriesRun O K C T)} {d d' : Disk K C T} (hs : InSeries z d runs d')
    (hd : ∀ r ∈ runs, NoFiles d r.label r.outcome.pass) (hn : (runs.map SeriesRun.label).Nodup)
    (hplain : ∀ r ∈ runs, PlainText r.comp ∧ PlainText r.index)
    {found : List (SeriesRun O K C T)} (hf : ∀ r ∈ found, r ∈ runs) {rows : List (Gathered C X)}
    (hg : gatherData float int d' (found.map SeriesRun.file) = .ok rows) :
    ∃ numbers : List (X × Int),
      List.Forall₂ (fun r p => float r.comp = .ok p.1 ∧ int r.index = .ok p.2) found numbers ∧
      rows = (List.zipWith (fun r p => rowsOf r p.1 p.2) found numbers).flatten := by
  have hloop : gatherLoop float int d' (found.map SeriesRun.file) = .ok rows := by
    unfold gatherData at hg
    split at hg
    · cases hg
    · exact hg
  clear hg
  induction found generalizing rows with
  | nil =>
    simp only [List.map_nil, gatherLoop, Except.ok.injEq] at hloop
    exact ⟨[], .nil, by simp [← hloop]⟩
  | cons r found ih =>
    simp only [List.map_cons, gatherLoop] at hloop
    cases h1 : gatherOne float int d' r.file with
    | error e => rw [h1] at hloop; cases hloop
    | ok here =>
      rw [h1] at hloop
      cases h2 : gatherLoop float int d' (found.map SeriesRun.file) with
      | error e => rw [h2] at hloop; cases hloop
      | ok rest =>
        rw [h2] at hloop
        cases hloop
        obtain ⟨numbers, n1, n2⟩ := ih (fun q hq => hf q (by simp [hq])) h2
        have hr := hf r (by simp)
        unfold gatherOne at h1
        rw [SeriesRun.file, C104_run_of_name r.comp r.index (hplain r hr).1 (hplain r hr).2] at h1
        simp only at h1
        cases hx : float r.comp with
        | error e => rw [hx] at h1; cases h1
        | ok x =>
          rw [hx] at h1
          simp only at h1
          cases hi : int r.index with
          | error e => rw [hi] at h1; cases h1
          | ok i =>
            rw [hi] at h1
            simp only at h1
            have htab := (series_table hs hd hn).2 r hr
            unfold SeriesRun.file at htab
            split at h1
            · cases h1
            · split at h1
              · cases h1
              · rename_i hh ls htl
                have := htab _ htl
                cases this
                cases h1
                exact ⟨(x, i) :: numbers, .cons ⟨hx, hi⟩ n1, by
                  simp only [List.zipWith_cons_cons, List.flatten_cons, n2]; rfl⟩

/-- **C129.**  When the table of every run is complete, and compositions and indices are numbers, gathering succeeds. -/
theorem C129_gather_succeeds {X : Type} (float : String → Py X) (int : String → Py Int)
    {runs : List (SeriesRun O K C T)} (hne : runs ≠ []) {d : Disk K C T}
    (hplain : ∀ r ∈ runs, PlainText r.comp ∧ PlainText r.index)
    (hnum : ∀ r ∈ runs, ∃ x i, float r.comp = .ok x ∧ int r.index = .ok i)
    (hd : ∀ r ∈ runs, ∃ h l, d r.file = some (.whole (.table h l))) :
    ∃ rows, gatherData float int d (runs.map SeriesRun.file) = .ok rows := by
  have hloop : ∃ rows, gatherLoop float int d (runs.map SeriesRun.file) = .ok rows := by
    clear hne
    induction runs with
    | nil => exact ⟨[], rfl⟩
    | cons r rs ih =>
      obtain ⟨rest, hrest⟩ := ih (fun q hq => hplain q (by simp [hq])) (fun q hq => hnum q (by simp [hq]))
        fun q hq => hd q (by simp [hq])
      obtain ⟨x, i, hx, hi⟩ := hnum r (by simp)
      obtain ⟨h, l, hfile⟩ := hd r (by simp)
      have : gatherOne float int d r.file = .ok (l.zipIdx.map fun p => ⟨p.2, h, p.1, x, i⟩) := by
        unfold gatherOne
        rw [SeriesRun.file, C104_run_of_name r.comp r.index (hplain r (by simp)).1 (hplain r (by simp)).2]
        rw [SeriesRun.file] at hfile
        simp only [hx, hi, hfile, readTable]
      exact ⟨(l.zipIdx.map fun p => ⟨p.2, h, p.1, x, i⟩) ++ rest, by simp only [List.map_cons, gatherLoop, this, hrest]⟩
  cases runs with
  | nil => exact absurd rfl hne
  | cons r rs => exact hloop

/-- Two short results, with numbers in place of everything that is measured. -/
def shortRun (n : Int) : Outcome Unit ℚ Int ℚ :=
  ⟨4, [fun _ => 1], [n.toNat], [0, 1], [(n, ⟨n, n, n, n, n, n⟩)], [("energy", [⟨"energy", 1, 1, .int n⟩])]⟩

/-- A way to make values writable. -/
def plainSanitizer : Sanitizer Unit := ⟨fun _ => none, fun _ => ""⟩

/-- Non-vacuity: the mixture of two runs differs from both. -/
example : ∃ ws0 ws1 d', writes plainSanitizer "Na" (shortRun 1) = .ok ws0 ∧
    writes plainSanitizer "Na" (shortRun 2) = .ok ws1 ∧
    LeftBehind (Disk.putAll (fun _ => none) ws0) ws1 d' ∧
    ∃ x, readRun d' "Na" 4 = some x ∧ x ≠ resultsOf (shortRun 1) ∧ x ≠ resultsOf (shortRun 2) := by
  obtain ⟨d', h1, h2⟩ := C129_mixed_runs plainSanitizer "Na" (shortRun 1) (shortRun 2) rfl
    (writes_eq _ _ _) (writes_eq _ _ _) (fun _ => none)
  refine ⟨_, _, d', writes_eq _ _ _, writes_eq _ _ _, h1, _, h2, ?_, ?_⟩
  · intro h
    have := congrArg Found.hopCounter h
    revert this
    decide
  · intro h
    have := congrArg Found.lines h
    revert this
    decide

/-- Non-vacuity: two runs of a series, the second of them interrupted while its table is written.  The first one alone
can be gathered, both together cannot. -/
example : ∃ d', InSeries plainSanitizer (fun _ => none) [⟨"0.5", "1", shortRun 3⟩, ⟨"0.5", "2", shortRun 5⟩] d' ∧
    gatherData (fun t => .ok t) (fun _ => .ok 7) d' ["results_0.5_1.csv.gz"] =
      .ok [⟨0, resultFields, [3, 3, 3, 3, 3, 3, 3], "0.5", 7⟩] ∧
    gatherData (fun t => .ok t) (fun _ => .ok 7) d' ["results_0.5_1.csv.gz", "results_0.5_2.csv.gz"] =
      .error .valueError := by
  let r1 : SeriesRun Unit ℚ Int ℚ := ⟨"0.5", "1", shortRun 3⟩
  let r2 : SeriesRun Unit ℚ Int ℚ := ⟨"0.5", "2", shortRun 5⟩
  have f1 : r1.file = "results_0.5_1.csv.gz" := by decide
  have f2 : r2.file = "results_0.5_2.csv.gz" := by decide
  have hw1 := writes_eq plainSanitizer r1.label r1.outcome
  have hw2 := writes_eq plainSanitizer r2.label r2.outcome
  obtain ⟨ws1, hws1⟩ : ∃ ws1, writes plainSanitizer r1.label r1.outcome = .ok ws1 := ⟨_, hw1⟩
  obtain ⟨d2, hl2, hcut⟩ : ∃ d2 : Disk ℚ Int ℚ, LeftBehind (Disk.putAll (fun _ => none) ws1)
      ([(displacementName r2.label r2.outcome.pass, .vectors r2.outcome.displacement),
      (hopCounterName r2.label r2.outcome.pass, .counts r2.outcome.hopCounter),
      (occupationsName r2.label r2.outcome.pass, .occupations r2.outcome.occupations),
      (resultsName r2.label, .table resultFields (r2.outcome.rows.map Spec.Results.tableLine)),
      (unitsName r2.label, .units resultUnits)] ++ propertyWrites plainSanitizer r2.label r2.outcome) d2 ∧
      d2 r2.file = some .cut := by
    refine ⟨_, .later _ _ _ _ _ (.later _ _ _ _ _ (.later _ _ _ _ _ (.cut _ _ _ _))), ?_⟩
    simp [file_eq]
  have hser : InSeries plainSanitizer (fun _ => none) [r1, r2] d2 :=
    .next _ _ d2 r1 [r2] _ hws1 (putAll_left _ _) (.next _ d2 d2 r2 [] _ hw2 hl2 (.done d2))
  have hfile1 : d2 r1.file = some (.whole (.table resultFields (r1.outcome.rows.map Spec.Results.tableLine))) := by
    have hap := C82_labels_apart r1.label r2.label (by decide) r1.outcome.pass r2.outcome.pass
    rw [(C129_other_labels hw2 hl2).1 r1.file (hap _ (by rw [file_eq, names_eq]; simp))]
    rw [hw1] at hws1
    cases hws1
    have hn := names_apart r1.label r1.outcome.pass
    simp only [List.nodup_cons, List.mem_cons, List.not_mem_nil, or_false, not_or, not_false_eq_true, List.nodup_nil,
      and_true] at hn
    obtain ⟨-, -, -, ⟨e4, e5⟩, -⟩ := hn
    rcases propertyWrites_cases plainSanitizer r1.label r1.outcome with ⟨-, h2⟩ | ⟨-, h2⟩ <;> rw [h2, file_eq] <;>
      simp [Disk.putAll, Disk.put, e4, e5]
  have hp1 : Tools.runOfName "results_0.5_1.csv.gz" = .ok ("0.5", "1") := by decide +kernel
  have hp2 : Tools.runOfName "results_0.5_2.csv.gz" = .ok ("0.5", "2") := by decide +kernel
  rw [f1] at hfile1
  rw [f2] at hcut
  refine ⟨d2, hser, ?_, ?_⟩
  · simp [gatherData, gatherLoop, gatherOne, hp1, hfile1, readTable, r1, shortRun, Spec.Results.tableLine]
  · simp [gatherData, gatherLoop, gatherOne, hp1, hp2, hfile1, hcut, readTable]

end RunFiles
end KMC
