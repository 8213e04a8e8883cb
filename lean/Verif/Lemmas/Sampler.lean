import Verif.Lemmas.Py
import Verif.Lemmas.KMC
import Verif.Spec.Schedule
/-
Helper facts about the sampling loop.
-/
set_option linter.unusedSectionVars false

namespace KMC
open Spec

variable {T V Row : Type}

/-- Registration invariant of a sampler. -/
structure SamplerWF (s : Sampler T V Row) : Prop where
  nodup : (dictKeys s.properties).Nodup
  named : ∀ k spec, (k, spec) ∈ s.properties → spec.name = k
  recs : ∀ k ∈ dictKeys s.properties, k ∈ dictKeys s.records
  recNodup : (dictKeys s.records).Nodup

theorem dictSet_mem_named {d : List (String × PropertySpec T V)} {x : PropertySpec T V}
    (h : ∀ k spec, (k, spec) ∈ d → spec.name = k) :
    ∀ k spec, (k, spec) ∈ dictSet d x.name x → spec.name = k := by
  induction d with
  | nil =>
    intro k spec hm
    simp only [dictSet, List.mem_singleton, Prod.mk.injEq] at hm
    obtain ⟨rfl, rfl⟩ := hm; rfl
  | cons hd tl ih =>
    obtain ⟨k1, v1⟩ := hd
    intro k spec hm
    by_cases h1 : k1 = x.name
    · simp only [dictSet, h1, if_true, List.mem_cons, Prod.mk.injEq] at hm
      rcases hm with ⟨rfl, rfl⟩ | hm
      · rfl
      · exact h k spec (List.mem_cons_of_mem _ hm)
    · simp only [dictSet, h1, if_false, List.mem_cons, Prod.mk.injEq] at hm
      rcases hm with ⟨rfl, rfl⟩ | hm
      · exact h _ _ List.mem_cons_self
      · exact ih (fun k s hs => h k s (List.mem_cons_of_mem _ hs)) k spec hm

variable [Sub T] [LE T] [DecidableLE T]

/-- `due`, seen through the two global intervals only. -/
def dueAt (gi : Option Int) (gt : Option T) (spec : PropertySpec T V) (step : Int) (t : T) : Bool :=
  spec.enabled && shouldTrigger step t (spec.interval.orElse fun _ => gi)
    (spec.timeInterval.orElse fun _ => gt) spec.lastTriggerTime

theorem due_eq (s : Sampler T V Row) (spec : PropertySpec T V) (step : Int) (t : T) :
    s.due spec step t = dueAt s.globalInterval s.globalTimeInterval spec step t := by
  unfold Sampler.due dueAt
  cases spec.interval <;> cases spec.timeInterval <;> rfl

/-- The spec after one opportunity. -/
def specAfter (gi : Option Int) (gt : Option T) (tk : Tick T) (spec : PropertySpec T V) :
    PropertySpec T V :=
  if dueAt gi gt spec tk.step tk.time then
    { spec with lastTriggerStep := tk.step, lastTriggerTime := some tk.time }
  else spec

/-- The records after one opportunity. -/
def recsAfter (gi : Option Int) (gt : Option T) (tk : Tick T) (spec : PropertySpec T V)
    (recs : List (PropertyRecord T V)) : List (PropertyRecord T V) :=
  if dueAt gi gt spec tk.step tk.time then
    match spec.callback tk.st tk.step tk.time with
    | .value v => if spec.store then appendRecord recs spec tk.step tk.time v else recs
    | .raised => recs
  else recs

theorem sampleOne_globals {st : State T} {step : Int} {t : T} {spec : PropertySpec T V}
    {s s' : Sampler T V Row} {r : Py Unit} (h : Sampler.sampleOne st step t spec s = (r, s')) :
    s'.globalInterval = s.globalInterval ∧ s'.globalTimeInterval = s.globalTimeInterval ∧
      s'.builtin = s.builtin ∧ s'.results = s.results ∧
      s'.lastSummaryTriggerTime = s.lastSummaryTriggerTime := by
  unfold Sampler.sampleOne at h
  split at h
  · split at h
    · split at h <;> · cases h; simp [Sampler.markTriggered]
    · split at h
      · split at h <;> · cases h; simp [Sampler.markTriggered]
      · cases h; simp [Sampler.markTriggered]
  · cases h; simp

theorem sampleOne_ok {st : State T} {step : Int} {t : T} {spec : PropertySpec T V}
    {s s' : Sampler T V Row} (h : Sampler.sampleOne st step t spec s = (.ok (), s')) :
    (s'.properties =
        if dueAt s.globalInterval s.globalTimeInterval spec step t then
          dictSet s.properties spec.name
            (specAfter s.globalInterval s.globalTimeInterval ⟨st, step, t⟩ spec)
        else s.properties) ∧
    (s'.records = s.records ∨ ∃ recs, dictGet s.records spec.name = some recs ∧
        s'.records = dictSet s.records spec.name
          (recsAfter s.globalInterval s.globalTimeInterval ⟨st, step, t⟩ spec recs)) ∧
    (s'.records = s.records → ∀ recs, dictGet s.records spec.name = some recs →
      recsAfter s.globalInterval s.globalTimeInterval ⟨st, step, t⟩ spec recs = recs) := by
  unfold Sampler.sampleOne at h
  rw [due_eq] at h
  by_cases hd : dueAt s.globalInterval s.globalTimeInterval spec step t = true
  · simp only [hd, if_true] at h
    cases hc : spec.callback st step t with
    | raised =>
      rw [hc] at h
      simp only at h
      split at h
      · cases h
      · cases h
        refine ⟨by simp [hd, specAfter, Sampler.markTriggered], Or.inl rfl, ?_⟩
        intro _ recs _
        simp [recsAfter, hc]
    | value v =>
      rw [hc] at h
      simp only at h
      by_cases hst : spec.store = true
      · simp only [hst, if_true] at h
        cases hg : dictGet s.records spec.name with
        | none => rw [hg] at h; cases h
        | some recs =>
          rw [hg] at h
          cases h
          refine ⟨by simp [hd, specAfter, Sampler.markTriggered], Or.inr ⟨recs, rfl, ?_⟩, ?_⟩
          · simp [Sampler.markTriggered, recsAfter, hd, hc, hst]
          · intro he recs' hr
            cases hr
            have := congrArg (fun d => dictGet d spec.name) he
            simp only [Sampler.markTriggered, dictGet_dictSet_self, hg, Option.some.injEq] at this
            simp [recsAfter, hd, hc, hst, this]
      · simp only [hst, if_false, Bool.false_eq_true] at h
        cases h
        refine ⟨by simp [hd, specAfter, Sampler.markTriggered], Or.inl rfl, ?_⟩
        intro _ recs _
        simp [recsAfter, hc, hst]
  · simp only [hd, if_false, Bool.false_eq_true] at h
    cases h
    refine ⟨by simp [hd], Or.inl rfl, ?_⟩
    intro _ recs _
    simp [recsAfter, hd]

theorem specAfter_name (gi : Option Int) (gt : Option T) (tk : Tick T) (spec : PropertySpec T V) :
    (specAfter gi gt tk spec).name = spec.name := by
  unfold specAfter; split <;> rfl

/-- Effect of one iteration on every name. -/
theorem sampleOne_get {st : State T} {step : Int} {t : T} {spec : PropertySpec T V}
    {s s' : Sampler T V Row} (hw : SamplerWF s) (hm : dictGet s.properties spec.name = some spec)
    (h : Sampler.sampleOne st step t spec s = (.ok (), s')) :
    SamplerWF s' ∧ dictKeys s'.properties = dictKeys s.properties ∧
    (∀ n, n ≠ spec.name → dictGet s'.properties n = dictGet s.properties n ∧
      dictGet s'.records n = dictGet s.records n) ∧
    dictGet s'.properties spec.name =
      some (specAfter s.globalInterval s.globalTimeInterval ⟨st, step, t⟩ spec) ∧
    dictGet s'.records spec.name = (dictGet s.records spec.name).map
      (recsAfter s.globalInterval s.globalTimeInterval ⟨st, step, t⟩ spec) := by
  obtain ⟨h1, h2, h3⟩ := sampleOne_ok h
  have hk : spec.name ∈ dictKeys s.properties := (dictGet_isSome_iff _ _).1 ⟨_, hm⟩
  have hkeys : dictKeys s'.properties = dictKeys s.properties := by
    rw [h1]; split
    · exact dictKeys_dictSet_of_mem _ _ hk
    · rfl
  have hrk : ∀ k, k ∈ dictKeys s.records → k ∈ dictKeys s'.records := by
    intro k hkr
    rcases h2 with h2 | ⟨recs, hr, h2⟩
    · rw [h2]; exact hkr
    · rw [h2, dictSet_keys_mem]; exact Or.inr hkr
  refine ⟨⟨hkeys ▸ hw.nodup, ?_, fun k hk' => hrk k (hw.recs k (hkeys ▸ hk')), ?_⟩, hkeys, ?_,
    ?_, ?_⟩
  · rw [h1]
    split
    · have := dictSet_mem_named (x := specAfter s.globalInterval s.globalTimeInterval
        ⟨st, step, t⟩ spec) hw.named
      rw [specAfter_name] at this
      exact this
    · exact hw.named
  · rcases h2 with h2 | ⟨recs, -, h2⟩
    · rw [h2]; exact hw.recNodup
    · rw [h2]; exact dictKeys_dictSet_nodup _ _ _ hw.recNodup
  · intro n hn
    constructor
    · rw [h1]; split
      · exact dictGet_dictSet_ne _ _ hn
      · rfl
    · rcases h2 with h2 | ⟨recs, hr, h2⟩
      · rw [h2]
      · rw [h2, dictGet_dictSet_ne _ _ hn]
  · rw [h1]
    split
    · simp
    · rename_i hd
      rw [hm]; simp [specAfter, hd]
  · rcases h2 with h2 | ⟨recs, hr, h2⟩
    · have := h3 h2
      rw [h2]
      cases hg : dictGet s.records spec.name with
      | none => rfl
      | some recs => simp [this recs hg]
    · rw [h2, hr]; simp

theorem sampleLoop_get {st : State T} {step : Int} {t : T} :
    ∀ (specs : List (PropertySpec T V)) (s s' : Sampler T V Row), SamplerWF s →
      (specs.map PropertySpec.name).Nodup →
      (∀ spec ∈ specs, dictGet s.properties spec.name = some spec) →
      Sampler.sampleLoop st step t specs s = (.ok (), s') →
      SamplerWF s' ∧ s'.globalInterval = s.globalInterval ∧
      s'.globalTimeInterval = s.globalTimeInterval ∧ s'.builtin = s.builtin ∧
      s'.results = s.results ∧ s'.lastSummaryTriggerTime = s.lastSummaryTriggerTime ∧
      dictKeys s'.properties = dictKeys s.properties ∧
      (∀ n, n ∉ specs.map PropertySpec.name → dictGet s'.properties n = dictGet s.properties n ∧
        dictGet s'.records n = dictGet s.records n) ∧
      (∀ spec ∈ specs,
        dictGet s'.properties spec.name =
          some (specAfter s.globalInterval s.globalTimeInterval ⟨st, step, t⟩ spec) ∧
        dictGet s'.records spec.name = (dictGet s.records spec.name).map
          (recsAfter s.globalInterval s.globalTimeInterval ⟨st, step, t⟩ spec)) := by
  intro specs
  induction specs with
  | nil =>
    intro s s' hw _ _ h
    simp only [Sampler.sampleLoop, Prod.mk.injEq, true_and] at h
    subst h
    exact ⟨hw, rfl, rfl, rfl, rfl, rfl, rfl, fun n _ => ⟨rfl, rfl⟩, by simp⟩
  | cons sp rest ih =>
    intro s s' hw hn hm h
    simp only [Sampler.sampleLoop] at h
    rcases e1 : Sampler.sampleOne st step t sp s with ⟨r1, s1⟩
    rw [e1] at h
    cases r1 with
    | error x => cases h
    | ok u =>
      simp only at h
      obtain ⟨g1, g2, g3, g4, g5⟩ := sampleOne_globals e1
      obtain ⟨w1, k1, o1, p1, q1⟩ := sampleOne_get hw (hm sp List.mem_cons_self) e1
      simp only [List.map_cons, List.nodup_cons] at hn
      have hne : ∀ spec ∈ rest, spec.name ≠ sp.name := by
        intro spec hs he
        exact hn.1 (List.mem_map.2 ⟨spec, hs, he⟩)
      obtain ⟨w2, a1, a2, a3, a4, a5, a6, a7, a8⟩ := ih s1 s' w1 hn.2
        (fun spec hs => by
          rw [(o1 _ (hne spec hs)).1]; exact hm spec (List.mem_cons_of_mem _ hs)) h
      refine ⟨w2, a1.trans g1, a2.trans g2, a3.trans g3, a4.trans g4, a5.trans g5, a6.trans k1,
        ?_, ?_⟩
      · intro n hnn
        simp only [List.map_cons, List.mem_cons, not_or] at hnn
        obtain ⟨b1, b2⟩ := a7 n hnn.2
        obtain ⟨c1, c2⟩ := o1 n hnn.1
        exact ⟨b1.trans c1, b2.trans c2⟩
      · intro spec hs
        rcases List.mem_cons.1 hs with rfl | hs
        · obtain ⟨b1, b2⟩ := a7 _ hn.1
          rw [b1, b2]
          exact ⟨p1, q1⟩
        · obtain ⟨b1, b2⟩ := a8 spec hs
          rw [b1, b2, g1, g2, (o1 _ (hne spec hs)).2]
          exact ⟨rfl, rfl⟩

theorem wf_specs {s : Sampler T V Row} (hw : SamplerWF s) :
    ((s.properties.map Prod.snd).map PropertySpec.name).Nodup ∧
    ∀ spec ∈ s.properties.map Prod.snd, dictGet s.properties spec.name = some spec := by
  have hmap : (s.properties.map Prod.snd).map PropertySpec.name = dictKeys s.properties := by
    unfold dictKeys
    rw [List.map_map]
    apply List.map_congr_left
    rintro ⟨k, spec⟩ hm
    exact hw.named k spec hm
  refine ⟨hmap ▸ hw.nodup, ?_⟩
  intro spec hs
  obtain ⟨⟨k, spec'⟩, hm, rfl⟩ := List.mem_map.1 hs
  simp only
  rw [hw.named k spec' hm]
  exact dictGet_of_mem hw.nodup hm

theorem sampleSummary_fields (summary : List (String × Bool) → Row) (s : Sampler T V Row)
    (step : Int) (t : T) :
    (s.sampleSummary summary step t).properties = s.properties ∧
    (s.sampleSummary summary step t).records = s.records ∧
    (s.sampleSummary summary step t).globalInterval = s.globalInterval ∧
    (s.sampleSummary summary step t).globalTimeInterval = s.globalTimeInterval ∧
    (s.sampleSummary summary step t).builtin = s.builtin := by
  unfold Sampler.sampleSummary; split <;> simp

theorem sampleSummary_wf {s : Sampler T V Row} (hw : SamplerWF s)
    (summary : List (String × Bool) → Row) (step : Int) (t : T) :
    SamplerWF (s.sampleSummary summary step t) := by
  obtain ⟨h1, h2, -⟩ := sampleSummary_fields summary s step t
  exact ⟨by rw [h1]; exact hw.nodup, by rw [h1]; exact hw.named, by rw [h1, h2]; exact hw.recs,
    by rw [h2]; exact hw.recNodup⟩

/-- One successful sampling, seen from one attached property. -/
theorem sampleProperties_get {summary : List (String × Bool) → Row} {s s' : Sampler T V Row}
    {st : State T} {step : Int} {t : T} (hw : SamplerWF s)
    (h : s.sampleProperties summary st step t = (.ok (), s')) :
    SamplerWF s' ∧ s'.globalInterval = s.globalInterval ∧
    s'.globalTimeInterval = s.globalTimeInterval ∧ s'.builtin = s.builtin ∧
    s'.results = (s.sampleSummary summary step t).results ∧
    s'.lastSummaryTriggerTime = (s.sampleSummary summary step t).lastSummaryTriggerTime ∧
    dictKeys s'.properties = dictKeys s.properties ∧
    (∀ n spec, dictGet s.properties n = some spec →
      dictGet s'.properties n =
        some (specAfter s.globalInterval s.globalTimeInterval ⟨st, step, t⟩ spec) ∧
      dictGet s'.records n = (dictGet s.records n).map
        (recsAfter s.globalInterval s.globalTimeInterval ⟨st, step, t⟩ spec)) := by
  unfold Sampler.sampleProperties at h
  obtain ⟨f1, f2, f3, f4, f5⟩ := sampleSummary_fields summary s step t
  have hw1 := sampleSummary_wf hw summary step t
  obtain ⟨n1, n2⟩ := wf_specs hw1
  obtain ⟨w, a1, a2, a3, a4, a5, a6, a7, a8⟩ := sampleLoop_get _ _ _ hw1 n1 n2 h
  refine ⟨w, a1.trans f3, a2.trans f4, a3.trans f5, a4, a5, a6.trans (by rw [f1]), ?_⟩
  intro n spec hg
  have hmem := mem_of_dictGet hg
  have hname := hw.named n spec hmem
  have := a8 spec (by rw [f1]; exact List.mem_map.2 ⟨_, hmem, rfl⟩)
  rw [f2, f3, f4, hname] at this
  exact this

/-- The opportunities a property with these effective intervals takes. -/
def firedTicks (iv : Option Int) (tiv : Option T) : Option T → List (Tick T) → List (Tick T)
  | _, [] => []
  | last, tk :: tks =>
    if shouldTrigger tk.step tk.time iv tiv last then
      tk :: firedTicks iv tiv (some tk.time) tks
    else firedTicks iv tiv last tks

/-- Two values of a spec that differ at most in what was triggered last. -/
def SameButTrigger (a b : PropertySpec T V) : Prop :=
  ∃ st t, a = { b with lastTriggerStep := st, lastTriggerTime := t }

omit [Sub T] [LE T] [DecidableLE T] in
theorem appendRecord_keepLast (m : Option Int) (hm : ∀ k, m = some k → 0 < k)
    (recs : List (PropertyRecord T V)) (spec : PropertySpec T V) (hs : spec.maxRecords = m)
    (step : Int) (t : T) (v : V) :
    appendRecord recs spec step t v = keepLast m (recs ++ [⟨spec.name, step, t, v⟩]) := by
  unfold appendRecord keepLast
  rw [hs]
  cases m with
  | none => rfl
  | some k =>
    have := hm k rfl
    simp only
    split
    · congr 1; omega
    · rename_i hle
      have : (recs ++ [({ name := spec.name, step := step, time := t, value := v } :
          PropertyRecord T V)]).length - k.toNat = 0 := by omega
      rw [this]; rfl

theorem keepLast_append {α : Type} (m : Option Int) (a b : List α) :
    keepLast m (keepLast m a ++ b) = keepLast m (a ++ b) := by
  cases m with
  | none => rfl
  | some k =>
    simp only [keepLast, List.length_append, List.length_drop]
    by_cases h : a.length ≤ k.toNat
    · have : a.length - k.toNat = 0 := by omega
      simp [this]
    · rw [show a.length - (a.length - k.toNat) + b.length - k.toNat = b.length by omega]
      rw [List.drop_append, List.drop_append, List.drop_drop, List.length_drop]
      congr 2
      · omega
      · omega

/-- A whole history of successful samplings, seen from one enabled attached property. -/
theorem sampled_get {ticks : List (Tick T)} {s s' : Sampler T V Row} (h : Sampled s ticks s')
    (hw : SamplerWF s) :
    SamplerWF s' ∧ s'.globalInterval = s.globalInterval ∧
    s'.globalTimeInterval = s.globalTimeInterval ∧ s'.builtin = s.builtin ∧
    dictKeys s'.properties = dictKeys s.properties ∧
    ∀ n spec recs, dictGet s.properties n = some spec → dictGet s.records n = some recs →
      (∀ k, spec.maxRecords = some k → 0 < k) → spec.enabled = true →
      (∃ spec', dictGet s'.properties n = some spec' ∧ SameButTrigger spec' spec) ∧
      dictGet s'.records n = some
        (if spec.store then
          if (firedTicks (spec.interval.orElse fun _ => s.globalInterval)
            (spec.timeInterval.orElse fun _ => s.globalTimeInterval) spec.lastTriggerTime
            ticks).filterMap (recordAt n spec.callback) = [] then recs
          else keepLast spec.maxRecords (recs ++
            (firedTicks (spec.interval.orElse fun _ => s.globalInterval)
              (spec.timeInterval.orElse fun _ => s.globalTimeInterval) spec.lastTriggerTime
              ticks).filterMap (recordAt n spec.callback))
        else recs) := by
  induction h with
  | nil s =>
    refine ⟨hw, rfl, rfl, rfl, rfl, ?_⟩
    intro n spec recs h1 h2 _ _
    refine ⟨⟨spec, h1, spec.lastTriggerStep, spec.lastTriggerTime, rfl⟩, ?_⟩
    simp [firedTicks, h2]
  | @cons s s1 s2 tk ticks summary h1 _ ih =>
    obtain ⟨w1, a1, a2, a3, -, -, a4, a5⟩ := sampleProperties_get hw h1
    obtain ⟨w2, b1, b2, b3, b4, b5⟩ := ih w1
    refine ⟨w2, b1.trans a1, b2.trans a2, b3.trans a3, b4.trans a4, ?_⟩
    intro n spec recs hs hr hmax hen
    obtain ⟨c1, c2⟩ := a5 n spec hs
    rw [hr, Option.map_some] at c2
    have hname : spec.name = n := hw.named n spec (mem_of_dictGet hs)
    set sa := specAfter s.globalInterval s.globalTimeInterval ⟨tk.st, tk.step, tk.time⟩ spec with hsa
    have hsame : SameButTrigger sa spec := by
      rw [hsa]; unfold specAfter
      split
      · exact ⟨_, _, rfl⟩
      · exact ⟨spec.lastTriggerStep, spec.lastTriggerTime, rfl⟩
    obtain ⟨x, y, hxy⟩ := hsame
    have hmaxa : ∀ k, sa.maxRecords = some k → 0 < k := by rw [hxy]; exact hmax
    obtain ⟨⟨spec', d1, u, v, d2⟩, d3⟩ := b5 n sa _ c1 c2 hmaxa (by rw [hxy]; exact hen)
    refine ⟨⟨spec', d1, u, v, by rw [d2, hxy]⟩, ?_⟩
    rw [d3, a1, a2]
    have e1 : sa.store = spec.store := by rw [hxy]
    have e2 : sa.interval = spec.interval := by rw [hxy]
    have e3 : sa.timeInterval = spec.timeInterval := by rw [hxy]
    have e4 : sa.maxRecords = spec.maxRecords := by rw [hxy]
    have e5 : sa.callback = spec.callback := by rw [hxy]
    rw [e1, e2, e3, e4, e5]
    have hdue : dueAt s.globalInterval s.globalTimeInterval spec tk.step tk.time =
        shouldTrigger tk.step tk.time (spec.interval.orElse fun _ => s.globalInterval)
          (spec.timeInterval.orElse fun _ => s.globalTimeInterval) spec.lastTriggerTime := by
      simp [dueAt, hen]
    rw [firedTicks]
    by_cases hd : dueAt s.globalInterval s.globalTimeInterval spec tk.step tk.time = true
    · have e6 : sa.lastTriggerTime = some tk.time := by
        rw [hsa]; simp [specAfter, hd]
      rw [e6]
      rw [hdue] at hd
      simp only [hd, if_true, List.filterMap_cons]
      rw [← hdue] at hd
      cases hc : spec.callback tk.st tk.step tk.time with
      | raised =>
        simp [recsAfter, hd, hc, recordAt]
      | value val =>
        by_cases hst : spec.store = true
        · simp only [hst, if_true, recsAfter, hd, hc, recordAt]
          rw [appendRecord_keepLast spec.maxRecords hmax recs spec rfl, hname]
          generalize List.filterMap _ _ = L
          cases L with
          | nil => simp
          | cons r rs =>
            simp only [reduceCtorEq, if_false, Option.some.injEq]
            rw [keepLast_append]; simp
        · simp [hst, recsAfter, hc]
    · have e6 : sa = spec := by rw [hsa]; simp [specAfter, hd]
      rw [e6]
      have hd2 := hd
      rw [hdue] at hd
      simp only [hd, if_false, Bool.false_eq_true]
      simp [recsAfter, hd2]

end KMC
