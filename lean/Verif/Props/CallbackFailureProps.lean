import Verif.Lemmas.CallbackFailure
/-
C144: what a failing property callback does to a sampling, and what can be read back afterwards.
-/
set_option linter.unusedSectionVars false

namespace KMC
open Spec

variable {T V Row : Type} [Zero T] [Sub T] [LE T] [DecidableLE T]

/-- A sampling succeeds exactly if every attached property that has its turn returns a value or
has an error handler that answers "go on"; otherwise it raises a callback error. -/
theorem C144_sampling_succeeds (ops : List (RegOp T V Row)) (s : Sampler T V Row)
    (hs : (registryAfter ops).active = some s)
    (summary : List (String × Bool) → Row) (st : State T) (step : Int) (t : T) :
    ((s.sampleProperties summary st step t).1 = .ok () ↔
      ∀ name spec, dictGet s.properties name = some spec → PropertyHasTurn s spec step t →
        GoesOn spec st step t) ∧
    ((s.sampleProperties summary st step t).1 ≠ .ok () →
      (s.sampleProperties summary st step t).1 = .error .callbackError) := by
  have hw := ((regWF_after ops).active s hs).wf
  have hw1 := sampleSummary_wf hw summary step t
  obtain ⟨f1, f2, f3, f4, -⟩ := sampleSummary_fields summary s step t
  obtain ⟨n1, n2⟩ := wf_specs hw1
  have hmem : ∀ spec, spec ∈ (s.sampleSummary summary step t).properties.map Prod.snd ↔
      ∃ name, dictGet s.properties name = some spec := by
    intro spec
    rw [f1]
    constructor
    · intro h
      obtain ⟨⟨k, sp⟩, hm, rfl⟩ := List.mem_map.1 h
      exact ⟨k, dictGet_of_mem hw.nodup hm⟩
    · rintro ⟨k, h⟩
      exact List.mem_map.2 ⟨(k, spec), mem_of_dictGet h, rfl⟩
  unfold Sampler.sampleProperties
  simp only
  rcases sampleLoop_goesOn (st := st) (step := step) (t := t) _ _ hw1 n1 n2 with
    ⟨ha, hk⟩ | ⟨pre, spec, post, s', he, ha, hp, hb, hl, hk⟩
  · refine ⟨⟨fun _ name spec h htn => ?_, fun _ => hk⟩, fun h => absurd hk h⟩
    exact ha spec ((hmem spec).2 ⟨name, h⟩) ((hasTurn_congr f3 f4 _ _ _).2 htn)
  · rw [hk]
    refine ⟨⟨fun h => (nomatch h), fun h => ?_⟩, fun _ => rfl⟩
    obtain ⟨name, hn⟩ := (hmem spec).1 (by rw [he]; simp)
    exact absurd (h name spec hn ((hasTurn_congr f3 f4 _ _ _).1 hp)) hb

/-- When a sampling fails, it fails at the first attached property that has its turn and does not
go on.  The properties attached before it have had their turn and keep their records of it; it
and the ones attached after it are as before. -/
theorem C144_stops_at_first_failure (ops : List (RegOp T V Row)) (s s' : Sampler T V Row)
    (hs : (registryAfter ops).active = some s)
    (summary : List (String × Bool) → Row) (st : State T) (step : Int) (t : T) (e : PyErr)
    (h : s.sampleProperties summary st step t = (.error e, s')) :
    ∃ pre name spec post, s.properties = pre ++ (name, spec) :: post ∧
      PropertyHasTurn s spec step t ∧ ¬ GoesOn spec st step t ∧
      (∀ p ∈ pre, PropertyHasTurn s p.2 step t → GoesOn p.2 st step t) ∧
      (∀ p ∈ pre, ∃ old new, dictGet s.records p.1 = some old ∧
        dictGet s'.records p.1 = some new ∧
        (PropertyHasTurn s p.2 step t → TurnRecorded p.2 st step t old new) ∧
        (¬ PropertyHasTurn s p.2 step t → new = old)) ∧
      (∀ p ∈ (name, spec) :: post, dictGet s'.properties p.1 = some p.2 ∧
        dictGet s'.records p.1 = dictGet s.records p.1) := by
  have hw := ((regWF_after ops).active s hs).wf
  have hw1 := sampleSummary_wf hw summary step t
  obtain ⟨f1, f2, f3, f4, -⟩ := sampleSummary_fields summary s step t
  obtain ⟨n1, n2⟩ := wf_specs hw1
  unfold Sampler.sampleProperties at h
  simp only at h
  rcases sampleLoop_goesOn (st := st) (step := step) (t := t) _ _ hw1 n1 n2 with
    ⟨ha, hk⟩ | ⟨pre, spec, post, s2, he, ha, hp, hb, hl, hk⟩
  · rw [h] at hk; cases hk
  · rw [h] at hk
    cases hk
    have he' := he
    rw [f1] at he
    obtain ⟨qpre, qrest, hq, hqpre, hqrest⟩ := List.map_eq_append_iff.1 he
    obtain ⟨⟨name, sp⟩, qpost, hq2, hsp, hqpost⟩ := List.map_eq_cons_iff.1 hqrest
    simp only at hsp
    subst hsp hq2
    have hpn : (pre.map PropertySpec.name).Nodup := by
      rw [he', List.map_append] at n1
      exact (List.nodup_append.1 n1).1
    have hpm : ∀ p ∈ pre, dictGet (s.sampleSummary summary step t).properties p.name = some p :=
      fun p hp => n2 p (by rw [he']; exact List.mem_append_left _ hp)
    obtain ⟨-, -, -, -, -, -, -, hout, hin⟩ := sampleLoop_get pre _ _ hw1 hpn hpm hl
    refine ⟨qpre, name, sp, qpost, hq, (hasTurn_congr f3 f4 _ _ _).1 hp, hb, ?_, ?_, ?_⟩
    · intro p hm
      have : p.2 ∈ pre := by rw [← hqpre]; exact List.mem_map_of_mem hm
      exact fun htn => ha _ this ((hasTurn_congr f3 f4 _ _ _).2 htn)
    · intro p hm
      have hmem : (p.1, p.2) ∈ s.properties := by rw [hq]; exact List.mem_append_left _ hm
      have hin' := hin p.2 (by rw [← hqpre]; exact List.mem_map_of_mem hm)
      rw [hw.named p.1 p.2 hmem, f2, f3, f4] at hin'
      have hget := dictGet_of_mem hw.nodup hmem
      obtain ⟨old, ho⟩ := (dictGet_isSome_iff _ _).2
        (hw.recs p.1 ((dictGet_isSome_iff _ _).1 ⟨_, hget⟩))
      rw [ho, Option.map_some] at hin'
      exact ⟨old, _, ho, hin'.2,
        fun htn => recsAfter_turnRecorded (reachable_limit ops hs hget) htn old,
        fun htn => recsAfter_noTurn htn old⟩
    · intro p hm
      have hmem : (p.1, p.2) ∈ s.properties := by rw [hq]; exact List.mem_append_right _ hm
      have hget := dictGet_of_mem hw.nodup hmem
      have hne : p.1 ∉ pre.map PropertySpec.name := by
        rw [he', List.map_append] at n1
        have hd := (List.nodup_append.1 n1).2.2
        intro hc
        refine hd _ hc _ (List.mem_map.2 ⟨p.2, ?_, hw.named p.1 p.2 hmem⟩) rfl
        rw [← hqrest]
        exact List.mem_map_of_mem hm
      obtain ⟨a1, a2⟩ := hout p.1 hne
      rw [f1] at a1
      rw [f2] at a2
      exact ⟨a1.trans hget, a2⟩

/-- Whether the sampling succeeds or fails, the summary comes first: when it has its turn the row
reported as current is the one of this moment, and otherwise no row is added. -/
theorem C144_current_summary (ops : List (RegOp T V Row)) (s : Sampler T V Row)
    (hs : (registryAfter ops).active = some s)
    (summary : List (String × Bool) → Row) (st : State T) (step : Int) (t : T) :
    (HasTurn s.globalInterval s.globalTimeInterval s.lastSummaryTriggerTime step t →
      (s.sampleProperties summary st step t).2.returnCurrentInfo = .ok (t, summary s.builtin) ∧
      (s.sampleProperties summary st step t).2.results =
        s.results ++ [(t, summary s.builtin)]) ∧
    (¬ HasTurn s.globalInterval s.globalTimeInterval s.lastSummaryTriggerTime step t →
      (s.sampleProperties summary st step t).2.returnCurrentInfo = s.returnCurrentInfo ∧
      (s.sampleProperties summary st step t).2.results = s.results) ∧
    (s.returnCurrentInfo = .error .valueError ↔ s.results = []) := by
  have hres : ∀ (specs : List (PropertySpec T V)) (u : Sampler T V Row),
      (Sampler.sampleLoop st step t specs u).2.results = u.results := by
    intro specs
    induction specs with
    | nil => intro u; rfl
    | cons sp rest ih =>
      intro u
      simp only [Sampler.sampleLoop]
      rcases e1 : Sampler.sampleOne st step t sp u with ⟨r1, u1⟩
      have hg := (sampleOne_globals e1).2.2.2.1
      cases r1 with
      | error e => exact hg
      | ok x => exact (ih u1).trans hg
  have hr : (s.sampleProperties summary st step t).2.results =
      (s.sampleSummary summary step t).results := by
    unfold Sampler.sampleProperties; exact hres _ _
  refine ⟨fun htn => ?_, fun htn => ?_, ?_⟩
  · have : (s.sampleSummary summary step t).results = s.results ++ [(t, summary s.builtin)] := by
      unfold Sampler.sampleSummary
      rw [if_pos ((shouldTrigger_hasTurn _ _ _ _ _).2 htn)]
    rw [this] at hr
    refine ⟨?_, hr⟩
    unfold Sampler.returnCurrentInfo
    rw [hr]
    simp
  · have : (s.sampleSummary summary step t).results = s.results := by
      unfold Sampler.sampleSummary
      rw [if_neg (fun hc => htn ((shouldTrigger_hasTurn _ _ _ _ _).1 hc))]
    rw [this] at hr
    refine ⟨?_, hr⟩
    unfold Sampler.returnCurrentInfo
    rw [hr]
  · unfold Sampler.returnCurrentInfo
    cases hl : s.results.getLast? with
    | none => simpa using List.getLast?_eq_none_iff.1 hl
    | some r =>
      simp only [reduceCtorEq, false_iff]
      rintro h0
      rw [h0] at hl
      cases hl

/-- After a successful sampling a property that had its turn, is stored and returned `v` has `v`
as its latest value, and its last record carries its name, the step, the time and `v`.  A property
that had no turn, is not stored or raised has the records and the latest value it had. -/
theorem C144_latest_value (ops : List (RegOp T V Row)) (s s' : Sampler T V Row)
    (hs : (registryAfter ops).active = some s)
    (summary : List (String × Bool) → Row) (st : State T) (step : Int) (t : T)
    (h : s.sampleProperties summary st step t = (.ok (), s'))
    (name : String) (spec : PropertySpec T V) (hspec : dictGet s.properties name = some spec) :
    (∀ v, PropertyHasTurn s spec step t → spec.store = true →
      spec.callback st step t = .value v →
      s'.latestPropertyValue name = some v ∧
      ∃ recs, s'.getPropertyRecords name = .ok recs ∧ recs.getLast? = some ⟨name, step, t, v⟩) ∧
    (¬ PropertyHasTurn s spec step t ∨ spec.store = false ∨ spec.callback st step t = .raised →
      s'.latestPropertyValue name = s.latestPropertyValue name ∧
      s'.getPropertyRecords name = s.getPropertyRecords name) := by
  have hw := ((regWF_after ops).active s hs).wf
  obtain ⟨-, -, -, -, -, -, -, hall⟩ := sampleProperties_get hw h
  have hr := (hall name spec hspec).2
  have hname : spec.name = name := hw.named name spec (mem_of_dictGet hspec)
  obtain ⟨old, ho⟩ := (dictGet_isSome_iff _ _).2
    (hw.recs name ((dictGet_isSome_iff _ _).1 ⟨_, hspec⟩))
  rw [ho, Option.map_some] at hr
  refine ⟨fun v htn hst hv => ?_, fun hno => ?_⟩
  · have hlim := reachable_limit ops hs hspec
    have hnew := (recsAfter_turnRecorded (st := st) hlim htn old).1 v hv hst
    rw [hnew] at hr
    have hlast := keepLast_getLast spec.maxRecords hlim old ⟨spec.name, step, t, v⟩
    rw [hname] at hlast hr
    refine ⟨?_, _, by unfold Sampler.getPropertyRecords; rw [hr], hlast⟩
    unfold Sampler.latestPropertyValue
    rw [hr, Option.getD_some]
    generalize keepLast spec.maxRecords (old ++ [⟨name, step, t, v⟩]) = l at hlast
    cases l with
    | nil => cases hlast
    | cons a l => simp only [hlast, Option.map_some]
  · have hnew : recsAfter s.globalInterval s.globalTimeInterval ⟨st, step, t⟩ spec old = old := by
      by_cases htn : PropertyHasTurn s spec step t
      · have := (recsAfter_turnRecorded (st := st) (reachable_limit ops hs hspec) htn old).2
        rcases hno with hno | hno | hno
        · exact absurd htn hno
        · exact this (.inr hno)
        · exact this (.inl hno)
      · exact recsAfter_noTurn htn old
    rw [hnew] at hr
    unfold Sampler.latestPropertyValue Sampler.getPropertyRecords
    rw [hr, ho]
    exact ⟨rfl, rfl⟩

/-- At any moment records can be asked for exactly the attached names: every other name is
refused.  The latest value of a name is the value of the last of its records, and there is none
(not a number) exactly if the name is not attached or nothing has been stored for it. -/
theorem C144_reading_back (ops : List (RegOp T V Row)) (s : Sampler T V Row)
    (hs : (registryAfter ops).active = some s) (name : String) :
    (name ∉ dictKeys s.properties → s.getPropertyRecords name = .error .valueError ∧
      s.latestPropertyValue name = none) ∧
    (name ∈ dictKeys s.properties → ∃ recs, s.getPropertyRecords name = .ok recs ∧
      ((s.latestPropertyValue name = none ↔ recs = []) ∧
        ∀ old r, recs = old ++ [r] → s.latestPropertyValue name = some r.value)) := by
  have hi := (regWF_after ops).active s hs
  constructor
  · intro hn
    have : dictGet s.records name = none := by
      rw [hi.keys, ← hi.recKeys name] at hn
      cases hg : dictGet s.records name with
      | none => rfl
      | some r => exact absurd ((dictGet_isSome_iff _ _).1 ⟨_, hg⟩) hn
    unfold Sampler.getPropertyRecords Sampler.latestPropertyValue
    rw [this]
    exact ⟨rfl, rfl⟩
  · intro hn
    obtain ⟨recs, hr⟩ := (dictGet_isSome_iff _ _).2 (hi.wf.recs name hn)
    unfold Sampler.getPropertyRecords Sampler.latestPropertyValue
    rw [hr, Option.getD_some]
    refine ⟨recs, rfl, ?_, ?_⟩
    · cases recs with
      | nil => simp
      | cons a l => simp
    · rintro old r rfl
      cases old with
      | nil => rfl
      | cons a l =>
        have hlast : (a :: l ++ [r]).getLast? = some r := by
          rw [List.getLast?_append]; rfl
        simp only [List.cons_append] at hlast ⊢
        simp only [hlast, Option.map_some]

/-! A run with three properties: one stored, one that raises and is tolerated, one that raises
and is not. -/

namespace CallbackFailureExample

def good : AttachArgs Int Int :=
  { callback := fun _ step _ => .value (step * 10), funcName := "good", interval := some 1 }
def tolerated : AttachArgs Int Int :=
  { callback := fun _ _ _ => .raised, funcName := "tolerated", interval := some 2
    onError := some fun _ _ _ => some true }
def fatal : AttachArgs Int Int :=
  { callback := fun _ _ _ => .raised, funcName := "fatal", interval := some 3
    onError := some fun _ _ _ => some false }

def ops : List (RegOp Int Int Nat) :=
  [.plan (.attach good), .plan (.attach tolerated), .plan (.attach fatal), .startRun 1]

/-- The run is under way with the three properties attached. -/
example : ((registryAfter ops).active.map fun s => dictKeys s.properties) =
    some ["good", "tolerated", "fatal"] := by decide +kernel

/-- The second step goes well although one callback raises; the third fails, and keeps the value
of the property attached before the failing one. -/
example (st : State Int) :
    ((registryAfter ops).active.map fun s =>
      let r := s.sampleProperties (fun _ => 7) st 2 2
      (r.1.toOption.isSome, r.2.latestPropertyValue "good", r.2.latestPropertyValue "tolerated",
        r.2.returnCurrentInfo.toOption)) =
      some (true, some 20, none, some (2, 7)) ∧
    ((registryAfter ops).active.map fun s =>
      let r := s.sampleProperties (fun _ => 7) st 3 3
      (r.1.toOption.isSome, r.2.latestPropertyValue "good", r.2.returnCurrentInfo.toOption)) =
      some (false, some 30, some (3, 7)) := by
  constructor <;> rfl

end CallbackFailureExample
end KMC
