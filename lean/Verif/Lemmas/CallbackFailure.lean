import Verif.Spec.CallbackFailure
import Verif.Lemmas.Progress
import Verif.Lemmas.Registration
import Verif.Model.Transport
/-
Lemmas for C144.
-/
set_option linter.unusedSectionVars false

namespace KMC
open Spec

variable {T V Row : Type} [Sub T] [LE T] [DecidableLE T]

theorem shouldTrigger_hasTurn (i : Option Int) (ti last : Option T) (step : Int) (t : T) :
    shouldTrigger step t i ti last = true ↔ HasTurn i ti last step t := by
  cases i <;> cases ti <;> cases last <;>
    simp [shouldTrigger, HasTurn, Elapsed]

theorem dueAt_hasTurn (s : Sampler T V Row) (spec : PropertySpec T V) (step : Int) (t : T) :
    dueAt s.globalInterval s.globalTimeInterval spec step t = true ↔
      PropertyHasTurn s spec step t := by
  have h1 : (spec.interval.orElse fun _ => s.globalInterval) =
      firstGiven [spec.interval, s.globalInterval] := by
    cases spec.interval <;> cases s.globalInterval <;> rfl
  have h2 : (spec.timeInterval.orElse fun _ => s.globalTimeInterval) =
      firstGiven [spec.timeInterval, s.globalTimeInterval] := by
    cases spec.timeInterval <;> cases s.globalTimeInterval <;> rfl
  simp only [dueAt, PropertyHasTurn, Bool.and_eq_true, shouldTrigger_hasTurn, h1, h2]

/-- One iteration goes well exactly if the property has no turn or goes on; if it does not go
well the sampler is as before. -/
theorem sampleOne_goesOn {st : State T} {step : Int} {t : T} {spec : PropertySpec T V}
    {s : Sampler T V Row} (hw : SamplerWF s) (hm : dictGet s.properties spec.name = some spec) :
    ((PropertyHasTurn s spec step t → GoesOn spec st step t) ∧
      (Sampler.sampleOne st step t spec s).1 = .ok ()) ∨
    (PropertyHasTurn s spec step t ∧ ¬ GoesOn spec st step t ∧
      Sampler.sampleOne st step t spec s = (.error .callbackError, s)) := by
  unfold Sampler.sampleOne
  rw [due_eq]
  by_cases hd : dueAt s.globalInterval s.globalTimeInterval spec step t = true
  · have hp := (dueAt_hasTurn s spec step t).1 hd
    simp only [hd, if_true]
    cases hc : spec.callback st step t with
    | value v =>
      refine .inl ⟨fun _ => .inl ⟨v, hc⟩, ?_⟩
      simp only
      split
      · obtain ⟨recs, hr⟩ := (dictGet_isSome_iff _ _).2
          (hw.recs spec.name ((dictGet_isSome_iff _ _).1 ⟨_, hm⟩))
        rw [hr]
      · rfl
    | raised =>
      simp only [Sampler.handleCallbackError]
      cases ho : spec.onError with
      | none => exact .inr ⟨hp, by simp [GoesOn, hc, ho], rfl⟩
      | some h =>
        simp only
        cases hb : h st step t with
        | none => exact .inr ⟨hp, by simp [GoesOn, hc, ho, hb], rfl⟩
        | some b =>
          cases b with
          | true => exact .inl ⟨fun _ => .inr ⟨h, ho, hb⟩, rfl⟩
          | false => exact .inr ⟨hp, by simp [GoesOn, hc, ho, hb], rfl⟩
  · refine .inl ⟨fun hp => absurd ((dueAt_hasTurn s spec step t).2 hp) hd, ?_⟩
    simp [hd]

theorem hasTurn_congr {s s' : Sampler T V Row} (h1 : s'.globalInterval = s.globalInterval)
    (h2 : s'.globalTimeInterval = s.globalTimeInterval) (spec : PropertySpec T V) (step : Int)
    (t : T) : PropertyHasTurn s' spec step t ↔ PropertyHasTurn s spec step t := by
  unfold PropertyHasTurn; rw [h1, h2]

/-- The loop goes well if every property with a turn goes on; otherwise it stops at the first
one that does not, in the state reached by the ones before it. -/
theorem sampleLoop_goesOn {st : State T} {step : Int} {t : T} :
    ∀ (specs : List (PropertySpec T V)) (s : Sampler T V Row), SamplerWF s →
      (specs.map PropertySpec.name).Nodup →
      (∀ spec ∈ specs, dictGet s.properties spec.name = some spec) →
      ((∀ spec ∈ specs, PropertyHasTurn s spec step t → GoesOn spec st step t) ∧
        (Sampler.sampleLoop st step t specs s).1 = .ok ()) ∨
      ∃ pre spec post s', specs = pre ++ spec :: post ∧
        (∀ p ∈ pre, PropertyHasTurn s p step t → GoesOn p st step t) ∧
        PropertyHasTurn s spec step t ∧ ¬ GoesOn spec st step t ∧
        Sampler.sampleLoop st step t pre s = (.ok (), s') ∧
        Sampler.sampleLoop st step t specs s = (.error .callbackError, s') := by
  intro specs
  induction specs with
  | nil => intro s _ _ _; exact .inl ⟨fun _ h => absurd h List.not_mem_nil, rfl⟩
  | cons sp rest ih =>
    intro s hw hn hm
    rcases sampleOne_goesOn (st := st) (step := step) (t := t) hw (hm sp List.mem_cons_self) with
      ⟨hg, h1⟩ | ⟨hp, hg, h1⟩
    · rcases e1 : Sampler.sampleOne st step t sp s with ⟨r1, s1⟩
      rw [e1] at h1
      simp only at h1
      subst h1
      obtain ⟨w1, k1, o1, -, -⟩ := sampleOne_get hw (hm sp List.mem_cons_self) e1
      obtain ⟨g1, g2, -⟩ := sampleOne_globals e1
      simp only [List.map_cons, List.nodup_cons] at hn
      have hm1 : ∀ spec ∈ rest, dictGet s1.properties spec.name = some spec := by
        intro spec hs
        have hne : spec.name ≠ sp.name := fun he => hn.1 (List.mem_map.2 ⟨spec, hs, he⟩)
        rw [(o1 _ hne).1]
        exact hm spec (List.mem_cons_of_mem _ hs)
      rcases ih s1 w1 hn.2 hm1 with ⟨ha, hk⟩ | ⟨pre, spec, post, s', rfl, ha, hp, hb, hl, hk⟩
      · left
        refine ⟨?_, by simp only [Sampler.sampleLoop, e1]; exact hk⟩
        intro spec hs
        rcases List.mem_cons.1 hs with rfl | hs
        · exact hg
        · exact fun h => ha spec hs ((hasTurn_congr g1 g2 _ _ _).2 h)
      · right
        refine ⟨sp :: pre, spec, post, s', rfl, ?_, (hasTurn_congr g1 g2 _ _ _).1 hp, hb, ?_, ?_⟩
        · intro p hs
          rcases List.mem_cons.1 hs with rfl | hs
          · exact hg
          · exact fun h => ha p hs ((hasTurn_congr g1 g2 _ _ _).2 h)
        · simp only [Sampler.sampleLoop, e1]; exact hl
        · simp only [List.cons_append, Sampler.sampleLoop, e1]; exact hk
    · right
      refine ⟨[], sp, rest, s, rfl, fun _ h => absurd h List.not_mem_nil, hp, hg, rfl, ?_⟩
      simp only [Sampler.sampleLoop, h1]

theorem recsAfter_turnRecorded {s : Sampler T V Row} {spec : PropertySpec T V} {st : State T}
    {step : Int} {t : T} (hm : ∀ k, spec.maxRecords = some k → 0 < k)
    (hp : PropertyHasTurn s spec step t) (old : List (PropertyRecord T V)) :
    TurnRecorded spec st step t old
      (recsAfter s.globalInterval s.globalTimeInterval ⟨st, step, t⟩ spec old) := by
  have hd := (dueAt_hasTurn s spec step t).2 hp
  unfold recsAfter
  simp only [hd, if_true]
  refine ⟨?_, ?_⟩
  · intro v hv hs
    simp only [hv, hs, if_true]
    exact appendRecord_keepLast _ hm _ _ rfl _ _ _
  · rintro (hr | hs)
    · simp only [hr]
    · simp only [hs]
      split <;> rfl

theorem recsAfter_noTurn {s : Sampler T V Row} {spec : PropertySpec T V} {st : State T}
    {step : Int} {t : T} (hp : ¬ PropertyHasTurn s spec step t) (old : List (PropertyRecord T V)) :
    recsAfter s.globalInterval s.globalTimeInterval ⟨st, step, t⟩ spec old = old := by
  have hd := mt (dueAt_hasTurn s spec step t).1 hp
  unfold recsAfter
  simp [hd]

omit [Sub T] [LE T] [DecidableLE T] in
theorem keepLast_getLast (m : Option Int) (hm : ∀ k, m = some k → 0 < k) {α : Type} (l : List α)
    (x : α) : (keepLast m (l ++ [x])).getLast? = some x := by
  cases m with
  | none => simp [keepLast]
  | some k =>
    have hk := hm k rfl
    have : (l ++ [x]).length - k.toNat ≤ l.length := by simp; omega
    simp only [keepLast]
    rw [List.drop_append_of_le_length this]
    simp

/-- Record limits of what is attached are positive. -/
theorem reachable_limit [Zero T] (ops : List (RegOp T V Row)) {s : Sampler T V Row}
    (hs : (registryAfter ops).active = some s) {name : String} {spec : PropertySpec T V}
    (h : dictGet s.properties name = some spec) : ∀ k, spec.maxRecords = some k → 0 < k := by
  have hr := regWF_after ops
  have hi := hr.active s hs
  have hk : name ∈ dictKeys (registryAfter ops).plan.attached := by
    rw [← hi.keys]; exact (dictGet_isSome_iff _ _).1 ⟨_, h⟩
  obtain ⟨a, ha⟩ := (dictGet_isSome_iff _ _).2 hk
  obtain ⟨b, hb, hsame⟩ := hi.specs name a ha
  rw [h] at hb
  cases hb
  obtain ⟨x, y, rfl⟩ := hsame
  have hv := (hr.plan.sched name a (mem_of_dictGet ha)).2
  intro k hk
  simp only at hk
  rw [hk] at hv
  simp only [validateMaxRecords] at hv
  by_contra hc
  rw [if_pos (by omega)] at hv
  cases hv

end KMC
