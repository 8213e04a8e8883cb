import Verif.Lemmas.Registration
/-
C23 and C56: registration of properties.
-/
set_option linter.unusedSectionVars false

namespace KMC
open Spec

variable {T V Row : Type} [Zero T] [LE T] [DecidableLE T]

/-- C23.  After any sequence of registration calls, accepted or rejected, the attached names
are pairwise distinct and none is a built-in name. -/
theorem C23_names_unique_and_not_builtin (ops : List (PlanOp T V)) :
    (planAfter ops).listAttachments.Nodup ∧
    ∀ n ∈ (planAfter ops).listAttachments,
      n ∉ ["msd", "jump_diffusivity", "tracer_diffusivity", "conductivity", "havens_ratio",
        "correlation_factor"] :=
  ⟨(planWF_after ops).nodup, (planWF_after ops).notBuiltin⟩

/-- C23.  A rejected call leaves the plan unchanged, whatever the plan. -/
theorem C23_rejected_call_changes_nothing (p p' : PropertyPlan T V) (op : PlanOp T V) (e : PyErr)
    (h : op.call p = (.error e, p')) : p' = p := by
  cases op with
  | attach a =>
    simp only [PlanOp.call, PropertyPlan.attach] at h
    split at h
    · simp only [dropValue, Prod.mk.injEq] at h; exact h.2.symm
    · simp [dropValue] at h
  | detach n =>
    simp only [PlanOp.call, PropertyPlan.detach] at h
    split at h
    · cases h
    · cases h; rfl
  | clear => simp [PlanOp.call] at h
  | setEnabled n b =>
    simp only [PlanOp.call, PropertyPlan.setPropertyEnabled, setPropertyEnabledFlag] at h
    cases hb : dictGet p.builtin n with
    | some v => rw [hb] at h; cases h
    | none =>
      rw [hb] at h
      cases ha : dictGet p.attached n with
      | none => rw [ha] at h; cases h; rfl
      | some sp => rw [ha] at h; cases h
  | setFrequency i t =>
    simp only [PlanOp.call, PropertyPlan.setFrequency] at h
    split at h
    · cases h; rfl
    · cases h

/-- C23.  Detaching a property right after attaching it restores the plan. -/
theorem C23_detach_undoes_attach (p p' : PropertyPlan T V) (a : AttachArgs T V) (n : String)
    (h : p.attach a = (.ok n, p')) : p'.detach n = (.ok (), p) := by
  simp only [PropertyPlan.attach] at h
  cases hm : makePropertySpec a (dictKeys p.attached) with
  | error e => rw [hm] at h; cases h
  | ok spec =>
    rw [hm] at h
    simp only [Prod.mk.injEq, Except.ok.injEq] at h
    obtain ⟨rfl, rfl⟩ := h
    obtain ⟨-, -, m3, -⟩ := makePropertySpec_ok hm
    unfold PropertyPlan.detach
    rw [dictKeys_dictSet_of_not_mem _ _ m3]
    rw [if_pos (by simp [dictKeys]), dictDel_append_single m3]

/-- C23.  An attachment is accepted exactly when its intervals and record limit are positive
(where given) and its name is neither built in nor taken; it then appears last in the list
under the requested name, or under the callable's name if none was requested. -/
theorem C23_attach_accepted_iff (p : PropertyPlan T V) (a : AttachArgs T V) :
    (∃ n p', p.attach a = (.ok n, p')) ↔
      (∀ i, a.interval = some i → 0 < i) ∧ (∀ t, a.timeInterval = some t → ¬ t ≤ 0) ∧
      (∀ m, a.maxRecords = some m → 0 < m) ∧
      a.resolvedName ∉ builtinPropertyFields ∧ a.resolvedName ∉ p.listAttachments := by
  have hs : validateSchedule a.interval a.timeInterval = .ok () ↔
      (∀ i, a.interval = some i → 0 < i) ∧ (∀ t, a.timeInterval = some t → ¬ t ≤ 0) := by
    unfold validateSchedule
    cases a.interval with
    | none =>
      cases a.timeInterval with
      | none => simp
      | some t => by_cases ht : t ≤ 0 <;> simp [ht]
    | some i =>
      cases a.timeInterval with
      | none => by_cases hi : i ≤ 0 <;> simp [hi]; omega
      | some t =>
        by_cases hi : i ≤ 0
        · simp only [hi, if_true, reduceCtorEq, Option.some.injEq, forall_eq', false_iff]
          intro hc; omega
        · by_cases ht : t ≤ 0 <;> simp [hi, ht]
          omega
  have hr : validateMaxRecords a.maxRecords = .ok () ↔ ∀ m, a.maxRecords = some m → 0 < m := by
    unfold validateMaxRecords
    cases a.maxRecords with
    | none => simp
    | some m => by_cases hm : m ≤ 0 <;> simp [hm]; omega
  rw [← and_assoc, ← hs, ← hr]
  unfold PropertyPlan.attach makePropertySpec PropertyPlan.listAttachments
  cases validateSchedule a.interval a.timeInterval with
  | error e => simp
  | ok u =>
    cases validateMaxRecords a.maxRecords with
    | error e => simp
    | ok u =>
      by_cases h1 : a.resolvedName ∈ builtinPropertyFields
      · simp [h1]
      · by_cases h2 : a.resolvedName ∈ dictKeys p.attached <;> simp [h1, h2]

/-- C23.  An accepted attachment appears last in the list. -/
theorem C23_attach_appends (p p' : PropertyPlan T V) (a : AttachArgs T V) (n : String)
    (h : p.attach a = (.ok n, p')) : p'.listAttachments = p.listAttachments ++ [a.resolvedName] := by
  simp only [PropertyPlan.attach] at h
  cases hm : makePropertySpec a (dictKeys p.attached) with
  | error e => rw [hm] at h; cases h
  | ok spec =>
    rw [hm] at h
    simp only [Prod.mk.injEq, Except.ok.injEq] at h
    obtain ⟨rfl, rfl⟩ := h
    obtain ⟨m1, -, m3, -⟩ := makePropertySpec_ok hm
    simp only [PropertyPlan.listAttachments]
    rw [dictKeys_dictSet_of_not_mem _ _ m3]
    simp [dictKeys, m1]

/-- C23.  Switching a property on or off succeeds exactly for built-in and attached names and
changes no other property and no name. -/
theorem C23_toggle_changes_one_flag (ops : List (PlanOp T V)) (n : String) (b : Bool) :
    let p := planAfter ops
    let r := p.setPropertyEnabled n b
    (r.1 = .ok () ↔ n ∈ builtinPropertyFields ∨ n ∈ p.listAttachments) ∧
    r.2.listAttachments = p.listAttachments ∧
    (∀ n', n' ≠ n → dictGet r.2.builtin n' = dictGet p.builtin n' ∧
      dictGet r.2.attached n' = dictGet p.attached n') ∧
    (r.1 = .ok () → n ∈ builtinPropertyFields → dictGet r.2.builtin n = some b) ∧
    (∀ spec, r.1 = .ok () → dictGet p.attached n = some spec →
      dictGet r.2.attached n = some { spec with enabled := b }) := by
  intro p r
  have hp : PlanWF p := planWF_after ops
  simp only [r, PropertyPlan.setPropertyEnabled, setPropertyEnabledFlag,
    PropertyPlan.listAttachments]
  cases hb : dictGet p.builtin n with
  | some v =>
    have hn : n ∈ builtinPropertyFields := by
      rw [← hp.builtins]; exact (dictGet_isSome_iff _ _).1 ⟨_, hb⟩
    refine ⟨by simp [hn], rfl, fun n' h => ⟨dictGet_dictSet_ne _ _ h, rfl⟩, fun _ _ => by simp, ?_⟩
    intro spec _ hs
    exact absurd hn (hp.notBuiltin n ((dictGet_isSome_iff _ _).1 ⟨_, hs⟩))
  | none =>
    have hn : n ∉ builtinPropertyFields := by
      rw [← hp.builtins]; exact (dictGet_eq_none_iff _ _).1 hb
    cases ha : dictGet p.attached n with
    | none =>
      have : n ∉ dictKeys p.attached := (dictGet_eq_none_iff _ _).1 ha
      simp [hn, this]
    | some sp =>
      have hk : n ∈ dictKeys p.attached := (dictGet_isSome_iff _ _).1 ⟨_, ha⟩
      refine ⟨by simp [hk], dictKeys_dictSet_of_mem _ _ hk,
        fun n' h => ⟨rfl, dictGet_dictSet_ne _ _ h⟩, fun _ h => absurd h hn, ?_⟩
      intro spec _ hs
      cases hs
      simp

/-- Non-vacuity of C23: two accepted attachments, a duplicate, a reserved and an invalid one,
one toggle and one detach. -/
def planExampleOps : List (PlanOp Int Nat) :=
  [.attach { callback := fun _ _ _ => .value 1, funcName := "f", interval := some 5 },
   .attach { callback := fun _ _ _ => .value 2, funcName := "f" },
   .attach { callback := fun _ _ _ => .value 3, funcName := "f", name := some "msd" },
   .attach { callback := fun _ _ _ => .value 4, funcName := "g", interval := some 0 },
   .attach { callback := fun _ _ _ => .value 5, funcName := "f", name := some "h" },
   .setEnabled "h" false, .setEnabled "nope" true, .setEnabled "msd" false, .detach "zzz"]

example : (planAfter planExampleOps).listAttachments = ["f", "h"] := by decide
example : (PlanOp.call (planAfter planExampleOps) (.detach "zzz")).1 = .error .valueError := by decide
example : ((planAfter planExampleOps).attach
    { callback := fun _ _ _ => .value 5, funcName := "k" }).1 = .ok "k" := by decide

section registry
variable [Sub T]

/-- C56.  Whatever a user does to a simulation (registration calls before, during and after
runs, starting runs, samples that succeed or fail), a simulation that has a tracker keeps the
tracker's registration equal to the plan: the same attached names in the same order, the same
built-in switches, for every attached property the same callback, intervals, limits and
enabled flag (only what was triggered last may differ), and a record list for exactly the
attached names. -/
theorem C56_plan_and_tracker_agree (ops : List (RegOp T V Row)) (s : Sampler T V Row)
    (h : (registryAfter ops).active = some s) :
    dictKeys s.properties = (registryAfter ops).plan.listAttachments ∧
    s.builtin = (registryAfter ops).plan.builtin ∧
    (∀ n a, dictGet (registryAfter ops).plan.attached n = some a → ∃ b,
      dictGet s.properties n = some b ∧ b.name = a.name ∧ b.callback = a.callback ∧
      b.interval = a.interval ∧ b.timeInterval = a.timeInterval ∧ b.store = a.store ∧
      b.maxRecords = a.maxRecords ∧ b.enabled = a.enabled ∧ b.onError = a.onError) ∧
    (∀ n, n ∈ dictKeys s.records ↔ n ∈ (registryAfter ops).plan.listAttachments) := by
  have hi := (regWF_after ops).active s h
  refine ⟨hi.keys, hi.builtin, ?_, hi.recKeys⟩
  intro n a ha
  obtain ⟨b, hb, x, y, rfl⟩ := hi.specs n a ha
  exact ⟨_, hb, rfl, rfl, rfl, rfl, rfl, rfl, rfl, rfl⟩

/-- C56.  A registration call on a simulation is accepted exactly when the plan accepts it;
a rejected call changes neither plan nor tracker. -/
theorem C56_registration_is_atomic (ops : List (RegOp T V Row)) (op : PlanOp T V) :
    let r := registryAfter ops
    (callReg r op).1 = (op.call r.plan).1 ∧ (callReg r op).2.plan = (op.call r.plan).2 ∧
    ∀ e, (callReg r op).1 = .error e → (callReg r op).2 = r := by
  intro r
  obtain ⟨-, h1, h2, h3, -⟩ :=
    regWF_callReg (res := (callReg r op).1) (r' := (callReg r op).2) (regWF_after ops) op rfl
  exact ⟨h1, h2, h3⟩

/-- C56.  Starting a run always succeeds in applying the plan, and every run starts with
empty records and no trigger history, whatever happened in earlier runs. -/
theorem C56_run_starts_clean (ops : List (RegOp T V Row)) (len : Nat) :
    ∃ s, ((registryAfter ops).startRun len) =
        (.ok (), { (registryAfter ops) with active := some s }) ∧
      (∀ n recs, dictGet s.records n = some recs → recs = []) ∧ s.results = [] ∧
      (∀ n spec, dictGet s.properties n = some spec →
        spec.lastTriggerTime = none ∧ spec.lastTriggerStep = 0) := by
  have hp := (regWF_after ops).plan
  refine ⟨{
      globalInterval := (registryAfter ops).plan.trackerInterval (some (max len 1 : Nat))
      globalTimeInterval := (registryAfter ops).plan.globalTimeInterval
      builtin := (registryAfter ops).plan.builtin
      properties := (registryAfter ops).plan.attached.map fun kv => (kv.1, freshSpec kv.2)
      records := (registryAfter ops).plan.attached.map fun kv => (kv.1, []) },
    by simp only [Registry.startRun, applyPlan_ok hp], ?_, rfl, ?_⟩
  · intro n recs hr
    have := mem_of_dictGet hr
    obtain ⟨kv, -, he⟩ := List.mem_map.1 this
    cases he; rfl
  · intro n spec hs
    simp only at hs
    rw [dictGet_map] at hs
    cases ha : dictGet (registryAfter ops).plan.attached n with
    | none => rw [ha] at hs; cases hs
    | some a => rw [ha] at hs; cases hs; exact ⟨rfl, rfl⟩

/-- C56.  Detaching a property from the simulation after a run deletes the records that run
has stored: the tracker of the finished run stays registered. -/
theorem C56_detach_after_run_deletes_records :
    let cb : AttachArgs Int Nat := { callback := fun _ _ _ => .value 7, funcName := "f", interval := some 1 }
    let before : Registry Int Nat Unit :=
      registryAfter [.plan (.attach cb), .startRun 1, .sample (fun _ => ()) ⟨[0], 3, 1⟩]
    let after : Registry Int Nat Unit :=
      registryAfter [.plan (.attach cb), .startRun 1, .sample (fun _ => ()) ⟨[0], 3, 1⟩,
        .plan (.detach "f")]
    (before.active.bind fun s => dictGet s.records "f") = some [⟨"f", 1, 3, 7⟩] ∧
    (after.active.bind fun s => dictGet s.records "f") = none := by
  decide

end registry

/-- Non-vacuity of C56: attach, run, sample, attach during the run, a rejected attach, and a
sample that fails because the callback raises. -/
def regExampleOps : List (RegOp Int Nat Unit) :=
  [.plan (.attach { callback := fun _ _ _ => .value 1, funcName := "f", interval := some 1 }),
   .startRun 4, .sample (fun _ => ()) ⟨[0, 1], 5, 1⟩,
   .plan (.attach { callback := fun _ _ _ => .raised, funcName := "g", interval := some 2 }),
   .plan (.attach { callback := fun _ _ _ => .raised, funcName := "g", interval := some 2 }),
   .sample (fun _ => ()) ⟨[1, 0], 6, 2⟩, .plan (.setEnabled "f" false)]

example : ((registryAfter regExampleOps).active.map fun s =>
    (dictKeys s.properties, (dictGet s.records "f").map List.length)) =
    some (["f", "g"], some 2) := by decide
example : ((registryAfter (regExampleOps.take 5)).sample (fun _ => ()) ⟨[1, 0], 6, 2⟩).1 =
    .error .callbackError := by decide

end KMC
