import Verif.Lemmas.Plan
/-
Sampling inside whole runs.
-/
set_option linter.unusedSectionVars false

namespace KMC
open Spec

section
variable {σ φ M R T U K V Row : Type} [Field K] [LinearOrder K] [FloorRing K]
variable [Add T] [Sub T] [LE T] [DecidableLE T]

theorem Visited.append {k : Kernel R T U} {m : RateModel M R T} {rng : Nat → U × U}
    {c : Nat} {s1 s2 s3 : Sim σ φ M R T} {h1 h2 : List (State T)}
    (p : Visited k m rng c s1 h1 s2) (q : Visited k m rng (c + h1.length) s2 h2 s3) :
    Visited k m rng c s1 (h1 ++ h2) s3 := by
  induction p with
  | nil => simpa using q
  | cons hp hu _ ih =>
    refine .cons hp hu (ih ?_)
    simpa [Nat.add_assoc, Nat.add_comm 1] using q

theorem Sampled.append {s1 s2 s3 : Sampler T V Row} {t1 t2 : List (Tick T)}
    (p : Sampled s1 t1 s2) (q : Sampled s2 t2 s3) : Sampled s1 (t1 ++ t2) s3 := by
  induction p with
  | nil => simpa using q
  | cons sm h _ ih => exact .cons sm h (ih q)

theorem prodSteps_sampled {k : Kernel R T U} {m : RateModel M R T} {g : Geometry K}
    {summary : Trajectory K → T → List (String × Bool) → Row} {rng : Nat → U × U}
    {n c : Nat} {s s' : RunState σ φ M R T K V Row}
    (h : s.prodSteps k m g summary rng n c = (.ok (), s')) :
    ∃ states, states.length = n ∧ Visited k m rng c s.sim states s'.sim ∧
      Sampled s.sampler (states.map tickOf) s'.sampler := by
  induction n generalizing c s with
  | zero =>
    simp only [RunState.prodSteps, Prod.mk.injEq, true_and] at h
    subst h; exact ⟨[], rfl, .nil _ _, .nil _⟩
  | succ n ih =>
    unfold RunState.prodSteps at h
    rcases h1 : s.prodStep k m g summary (rng c).1 (rng c).2 with ⟨r, s1⟩
    rw [h1] at h
    cases r with
    | error x => cases h
    | ok u =>
      obtain ⟨e, dt, hp, -, hu, hs, -⟩ := prodStep_ok h1
      obtain ⟨states, hl, hv, hsm⟩ := ih h
      exact ⟨s1.sim.st :: states, by simp [hl], .cons hp hu hv, .cons _ hs hsm⟩

theorem passes_sampled {k : Kernel R T U} {m : RateModel M R T} {g : Geometry K}
    {summary : Trajectory K → T → List (String × Bool) → Row} {rng : Nat → U × U}
    {len n p c : Nat} {s s' : RunState σ φ M R T K V Row}
    (h : s.passes k m g summary rng len n p c = (.ok (), s')) :
    ∃ states, states.length = n * len ∧ Visited k m rng c s.sim states s'.sim ∧
      Sampled s.sampler (states.map tickOf) s'.sampler := by
  induction n generalizing p c s with
  | zero =>
    simp only [RunState.passes, Prod.mk.injEq, true_and] at h
    subst h; exact ⟨[], by simp, .nil _ _, .nil _⟩
  | succ n ih =>
    unfold RunState.passes at h
    rcases h1 : s.prodSteps k m g summary rng len c with ⟨r, s1⟩
    rw [h1] at h
    cases r with
    | error x => cases h
    | ok u =>
      obtain ⟨h1', hl1, hv1, hs1⟩ := prodSteps_sampled h1
      obtain ⟨h2', hl2, hv2, hs2⟩ := ih h
      refine ⟨h1' ++ h2', by simp [hl1, hl2]; ring, Visited.append hv1 ?_, ?_⟩
      · rw [hl1]; exact hv2
      · rw [List.map_append]; exact Sampled.append hs1 hs2

theorem visited_steps {k : Kernel R T U} {m : RateModel M R T} {rng : Nat → U × U}
    {c : Nat} {s s' : Sim σ φ M R T} {states : List (State T)}
    (h : Visited k m rng c s states s') :
    ∀ (i : Nat) st, states[i]? = some st → st.step = s.st.step + (i + 1 : Nat) := by
  induction h with
  | nil => simp
  | @cons c s s1 s2 e dt states hp hu _ ih =>
    have h1 : s1.st.step = s.st.step + 1 := by
      obtain ⟨st, ms, i, prob, h1, -, -, -, rfl⟩ := update_ok hu
      obtain ⟨f, t, i, j, hi, hj, he, -, -, rfl⟩ := applyEvent_ok h1
      rfl
    intro i st hst
    cases i with
    | zero => simp at hst; subst hst; rw [h1]; simp
    | succ i =>
      simp only [List.getElem?_cons_succ] at hst
      rw [ih i st hst, h1]
      push_cast; ring

theorem ite_keepLast {α : Type} (m : Option Int) (L : List α) [Decidable (L = [])] :
    (if L = [] then [] else keepLast m ([] ++ L)) = keepLast m L := by
  split
  · rename_i h; subst h; cases m <;> simp [keepLast]
  · simp

/-- One finished run, seen from one attached enabled property. -/
theorem run_records [Zero T] {k : Kernel R T U} {m : RateModel M R T} {g : Geometry K}
    {lookup : Option HopStateLookup}
    {summary : Trajectory K → T → List (String × Bool) → Row} {plan : PropertyPlan T V}
    (hp : PlanWF plan)
    {rng : Nat → U × U} {len equil prod : Nat} {s : Sim σ φ M R T}
    (h : (s.run k m g lookup summary plan rng len equil prod).outcome = .ok ()) :
    ∃ s1 states rs,
      s.equilSteps k m rng (equil * len) 0 = (.ok (), s1) ∧
      (s.run k m g lookup summary plan rng len equil prod).tracker = some rs ∧
      (s.run k m g lookup summary plan rng len equil prod).sim = rs.sim ∧
      Visited k m rng (equil * len) s1 states rs.sim ∧ states.length = prod * len ∧
      Sampled (Row := Row)
        { globalInterval := plan.trackerInterval (some (max len 1 : Nat))
          globalTimeInterval := plan.globalTimeInterval
          builtin := plan.builtin
          properties := plan.attached.map fun kv => (kv.1, freshSpec kv.2)
          records := plan.attached.map fun kv => (kv.1, []) }
        (states.map tickOf) rs.sampler ∧
      ∀ n spec, dictGet plan.attached n = some spec → spec.enabled = true → spec.store = true →
        dictGet rs.sampler.records n = some (keepLast spec.maxRecords
          ((firedTicks (spec.interval.orElse fun _ => plan.trackerInterval (some (max len 1 : Nat)))
            (spec.timeInterval.orElse fun _ => plan.globalTimeInterval) none
            (states.map tickOf)).filterMap (recordAt n spec.callback))) := by
  obtain ⟨s1, traj, sm, rs, h1, h2, h3, h4, h5⟩ := run_ok h
  rw [applyPlan_ok hp] at h3
  simp only [Prod.mk.injEq, true_and] at h3
  obtain ⟨states, hl, hv, hs⟩ := passes_sampled h4
  refine ⟨s1, states, rs, h1, by rw [h5], by rw [h5], hv, hl, by rw [h3]; exact hs, ?_⟩
  intro n spec hn hen hst
  simp only [← h3] at hs
  obtain ⟨-, -, -, -, -, hall⟩ := sampled_get hs (applyPlan_wf hp _ _)
  have hg : dictGet (plan.attached.map fun kv => (kv.1, freshSpec kv.2)) n = some (freshSpec spec) := by
    rw [dictGet_map, hn]; rfl
  have hg2 : dictGet (plan.attached.map fun kv => (kv.1, ([] : List (PropertyRecord T V)))) n =
      some [] := by
    have := dictGet_map (fun _ : PropertySpec T V => ([] : List (PropertyRecord T V)))
      plan.attached n
    rw [this, hn]; rfl
  have hmax : ∀ k, (freshSpec spec).maxRecords = some k → 0 < k := by
    intro k hk
    have hv := (hp.sched n spec (mem_of_dictGet hn)).2
    have hk' : spec.maxRecords = some k := hk
    rw [hk'] at hv
    unfold validateMaxRecords at hv
    by_contra hc
    simp only at hv
    rw [if_pos (by omega)] at hv
    cases hv
  obtain ⟨-, hrec⟩ := hall n (freshSpec spec) [] hg hg2 hmax hen
  rw [hrec]
  have e : (freshSpec spec).store = true := hst
  rw [if_pos e]
  exact congrArg some (ite_keepLast _ _)

/-! Built-in summary rows. -/

/-- The pairs whose first component is taken. -/
def firedObs (iv : Option Int) (tiv : Option T) :
    Option T → List (State T × Trajectory K) → List (State T × Trajectory K)
  | _, [] => []
  | last, p :: ps =>
    if shouldTrigger p.1.step p.1.time iv tiv last then
      p :: firedObs iv tiv (some p.1.time) ps
    else firedObs iv tiv last ps

theorem Observed.append {k : Kernel R T U} {m : RateModel M R T} {g : Geometry K}
    {rng : Nat → U × U} {c : Nat} {s1 s2 s3 : Sim σ φ M R T} {t1 t2 t3 : Trajectory K}
    {h1 h2 : List (State T × Trajectory K)}
    (p : Observed k m g rng c s1 t1 h1 s2 t2)
    (q : Observed k m g rng (c + h1.length) s2 t2 h2 s3 t3) :
    Observed k m g rng c s1 t1 (h1 ++ h2) s3 t3 := by
  induction p with
  | nil => simpa using q
  | cons hp ht hu _ ih =>
    refine .cons hp ht hu (ih ?_)
    simpa [Nat.add_assoc, Nat.add_comm 1] using q

theorem firedObs_append (iv : Option Int) (tiv : Option T) (last : Option T)
    (a b : List (State T × Trajectory K)) :
    firedObs iv tiv last (a ++ b) = firedObs iv tiv last a ++
      firedObs iv tiv (((firedObs iv tiv last a).getLast?.map fun p => p.1.time).or last) b := by
  induction a generalizing last with
  | nil => simp [firedObs]
  | cons p ps ih =>
    simp only [List.cons_append, firedObs]
    split
    · rw [ih]
      simp only [List.cons_append, List.cons.injEq, true_and, List.append_cancel_left_eq]
      congr 1
      cases hbl : (firedObs iv tiv (some p.1.time) ps).getLast? with
      | none =>
        rw [List.getLast?_eq_none_iff] at hbl
        rw [hbl]; simp
      | some x => rw [List.getLast?_cons, hbl]; simp
    · exact ih last

theorem prodSteps_observed {k : Kernel R T U} {m : RateModel M R T} {g : Geometry K}
    {summary : Trajectory K → T → List (String × Bool) → Row} {rng : Nat → U × U}
    {n c : Nat} {s s' : RunState σ φ M R T K V Row} (hw : SamplerWF s.sampler)
    (h : s.prodSteps k m g summary rng n c = (.ok (), s')) :
    ∃ obs, obs.length = n ∧ Observed k m g rng c s.sim s.traj obs s'.sim s'.traj ∧
      SamplerWF s'.sampler ∧ s'.sampler.globalInterval = s.sampler.globalInterval ∧
      s'.sampler.globalTimeInterval = s.sampler.globalTimeInterval ∧
      s'.sampler.builtin = s.sampler.builtin ∧
      s'.sampler.results = s.sampler.results ++
        (firedObs s.sampler.globalInterval s.sampler.globalTimeInterval
          s.sampler.lastSummaryTriggerTime obs).map
          (fun p => (p.1.time, summary p.2 p.1.time s.sampler.builtin)) ∧
      s'.sampler.lastSummaryTriggerTime =
        ((firedObs s.sampler.globalInterval s.sampler.globalTimeInterval
          s.sampler.lastSummaryTriggerTime obs).getLast?.map fun p => p.1.time).or
          s.sampler.lastSummaryTriggerTime := by
  induction n generalizing c s with
  | zero =>
    simp only [RunState.prodSteps, Prod.mk.injEq, true_and] at h
    subst h; exact ⟨[], rfl, .nil _ _ _, hw, rfl, rfl, rfl, by simp [firedObs], by simp [firedObs]⟩
  | succ n ih =>
    unfold RunState.prodSteps at h
    rcases h1 : s.prodStep k m g summary (rng c).1 (rng c).2 with ⟨r, s1⟩
    rw [h1] at h
    cases r with
    | error x => cases h
    | ok u =>
      obtain ⟨e, dt, hp, ht, hu, hs, -⟩ := prodStep_ok h1
      obtain ⟨w1, a1, a2, a3, a4, a5, -, -⟩ := sampleProperties_get hw hs
      obtain ⟨obs, hl, hv, w2, b1, b2, b3, b4, b5⟩ := ih w1 h
      refine ⟨(s1.sim.st, s1.traj) :: obs, by simp [hl], .cons hp ht hu hv, w2, b1.trans a1,
        b2.trans a2, b3.trans a3, ?_, ?_⟩
      · rw [b4, a1, a2, a3, a4, a5]
        simp only [firedObs, Sampler.sampleSummary]
        by_cases hd : shouldTrigger s1.sim.st.step s1.sim.st.time s.sampler.globalInterval
          s.sampler.globalTimeInterval s.sampler.lastSummaryTriggerTime = true
        · simp [hd]
        · simp [hd]
      · rw [b5, a1, a2, a5]
        simp only [firedObs, Sampler.sampleSummary]
        by_cases hd : shouldTrigger s1.sim.st.step s1.sim.st.time s.sampler.globalInterval
          s.sampler.globalTimeInterval s.sampler.lastSummaryTriggerTime = true
        · simp only [hd, if_true]
          cases hbl : (firedObs s.sampler.globalInterval s.sampler.globalTimeInterval
              (some s1.sim.st.time) obs).getLast? with
          | none => rw [List.getLast?_eq_none_iff] at hbl; rw [hbl]; simp
          | some x => rw [List.getLast?_cons, hbl]; simp
        · simp [hd]

theorem passes_observed {k : Kernel R T U} {m : RateModel M R T} {g : Geometry K}
    {summary : Trajectory K → T → List (String × Bool) → Row} {rng : Nat → U × U}
    {len n p c : Nat} {s s' : RunState σ φ M R T K V Row} (hw : SamplerWF s.sampler)
    (h : s.passes k m g summary rng len n p c = (.ok (), s')) :
    ∃ obs, obs.length = n * len ∧ Observed k m g rng c s.sim s.traj obs s'.sim s'.traj ∧
      s'.sampler.results = s.sampler.results ++
        (firedObs s.sampler.globalInterval s.sampler.globalTimeInterval
          s.sampler.lastSummaryTriggerTime obs).map
          (fun p => (p.1.time, summary p.2 p.1.time s.sampler.builtin)) := by
  induction n generalizing p c s with
  | zero =>
    simp only [RunState.passes, Prod.mk.injEq, true_and] at h
    subst h; exact ⟨[], by simp, .nil _ _ _, by simp [firedObs]⟩
  | succ n ih =>
    unfold RunState.passes at h
    rcases h1 : s.prodSteps k m g summary rng len c with ⟨r, s1⟩
    rw [h1] at h
    cases r with
    | error x => cases h
    | ok u =>
      obtain ⟨o1, hl1, hv1, w1, b1, b2, b3, b4, b5⟩ := prodSteps_observed hw h1
      obtain ⟨o2, hl2, hv2, hr2⟩ := ih (s := { s1 with currentPass := p }) w1 h
      refine ⟨o1 ++ o2, by simp [hl1, hl2]; ring, Observed.append hv1 (by rw [hl1]; exact hv2), ?_⟩
      rw [hr2, firedObs_append, List.map_append]
      simp only
      rw [b1, b2, b3, b4, b5, List.append_assoc]

end
end KMC
