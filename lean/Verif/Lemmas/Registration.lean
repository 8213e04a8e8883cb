import Verif.Lemmas.Plan
/-
Helper facts about registration on a simulation whose tracker may be active.
-/
set_option linter.unusedSectionVars false

namespace KMC
open Spec

variable {T V Row : Type} 

section
variable [Sub T] [LE T] [DecidableLE T]

theorem SameButTrigger.refl (a : PropertySpec T V) : SameButTrigger a a :=
  ⟨a.lastTriggerStep, a.lastTriggerTime, rfl⟩

theorem SameButTrigger.trans {a b c : PropertySpec T V} (h : SameButTrigger a b)
    (h' : SameButTrigger b c) : SameButTrigger a c := by
  obtain ⟨x, y, rfl⟩ := h
  obtain ⟨u, v, rfl⟩ := h'
  exact ⟨x, y, rfl⟩

/-- What sampling leaves alone, whether or not it fails. -/
structure SameRegistration (s' s : Sampler T V Row) : Prop where
  keys : dictKeys s'.properties = dictKeys s.properties
  recs : dictKeys s'.records = dictKeys s.records
  builtin : s'.builtin = s.builtin
  gi : s'.globalInterval = s.globalInterval
  gt : s'.globalTimeInterval = s.globalTimeInterval
  spec : ∀ n a, dictGet s.properties n = some a →
    ∃ b, dictGet s'.properties n = some b ∧ SameButTrigger b a
  named : (∀ k spec, (k, spec) ∈ s.properties → spec.name = k) →
    ∀ k spec, (k, spec) ∈ s'.properties → spec.name = k

theorem SameRegistration.refl (s : Sampler T V Row) : SameRegistration s s :=
  ⟨rfl, rfl, rfl, rfl, rfl, fun _ a h => ⟨a, h, SameButTrigger.refl a⟩, fun h => h⟩

theorem SameRegistration.trans {a b c : Sampler T V Row} (h : SameRegistration a b)
    (h' : SameRegistration b c) : SameRegistration a c :=
  { keys := h.keys.trans h'.keys
    recs := h.recs.trans h'.recs
    builtin := h.builtin.trans h'.builtin
    gi := h.gi.trans h'.gi
    gt := h.gt.trans h'.gt
    spec := by
      intro n x hx
      obtain ⟨y, hy, hyx⟩ := h'.spec n x hx
      obtain ⟨z, hz, hzy⟩ := h.spec n y hy
      exact ⟨z, hz, hzy.trans hyx⟩
    named := fun hn => h.named (h'.named hn) }

theorem SamplerWF.of_same {s' s : Sampler T V Row} (hw : SamplerWF s) (h : SameRegistration s' s) :
    SamplerWF s' :=
  ⟨h.keys ▸ hw.nodup, h.named hw.named, fun k hk => h.recs ▸ hw.recs k (h.keys ▸ hk),
    h.recs ▸ hw.recNodup⟩

theorem sampleOne_same {st : State T} {step : Int} {t : T} {spec : PropertySpec T V}
    {s s' : Sampler T V Row} {r : Py Unit}
    (hm : ∃ a, dictGet s.properties spec.name = some a ∧ SameButTrigger spec a)
    (h : Sampler.sampleOne st step t spec s = (r, s')) : SameRegistration s' s := by
  obtain ⟨g1, g2, g3, -, -⟩ := sampleOne_globals h
  obtain ⟨a, hm, hsa⟩ := hm
  have hk : spec.name ∈ dictKeys s.properties := (dictGet_isSome_iff _ _).1 ⟨_, hm⟩
  cases r with
  | error x =>
    have : s' = s := by
      unfold Sampler.sampleOne at h
      split at h
      · split at h
        · split at h
          · cases h; rfl
          · cases h
        · split at h
          · split at h
            · cases h; rfl
            · cases h
          · cases h
      · cases h
    subst this; exact SameRegistration.refl _
  | ok u =>
    obtain ⟨h1, h2, -⟩ := sampleOne_ok h
    have hkeys : dictKeys s'.properties = dictKeys s.properties := by
      rw [h1]; split
      · exact dictKeys_dictSet_of_mem _ _ hk
      · rfl
    refine ⟨hkeys, ?_, g3, g1, g2, ?_, ?_⟩
    · rcases h2 with h2 | ⟨recs, hr, h2⟩
      · rw [h2]
      · rw [h2, dictKeys_dictSet_of_mem _ _ ((dictGet_isSome_iff _ _).1 ⟨_, hr⟩)]
    · intro n b hb
      rw [h1]
      split
      · by_cases hn : n = spec.name
        · subst hn
          rw [hm] at hb; cases hb
          refine ⟨_, dictGet_dictSet_self _ _ _, SameButTrigger.trans ?_ hsa⟩
          unfold specAfter
          split
          · exact ⟨_, _, rfl⟩
          · exact SameButTrigger.refl _
        · rw [dictGet_dictSet_ne _ _ hn]; exact ⟨b, hb, SameButTrigger.refl _⟩
      · exact ⟨b, hb, SameButTrigger.refl _⟩
    · intro hnm
      rw [h1]
      split
      · have := dictSet_mem_named (x := specAfter s.globalInterval s.globalTimeInterval
          ⟨st, step, t⟩ spec) hnm
        rw [specAfter_name] at this
        exact this
      · exact hnm

theorem sampleLoop_same {st : State T} {step : Int} {t : T} :
    ∀ (specs : List (PropertySpec T V)) (s s' : Sampler T V Row) (r : Py Unit),
      (specs.map PropertySpec.name).Nodup →
      (∀ spec ∈ specs, dictGet s.properties spec.name = some spec) →
      Sampler.sampleLoop st step t specs s = (r, s') → SameRegistration s' s := by
  intro specs
  induction specs with
  | nil =>
    intro s s' r _ _ h
    simp only [Sampler.sampleLoop, Prod.mk.injEq] at h
    rw [← h.2]; exact SameRegistration.refl _
  | cons sp rest ih =>
    intro s s' r hn hm h
    simp only [Sampler.sampleLoop] at h
    rcases e1 : Sampler.sampleOne st step t sp s with ⟨r1, s1⟩
    have hsame := sampleOne_same ⟨sp, hm sp List.mem_cons_self, SameButTrigger.refl _⟩ e1
    rw [e1] at h
    cases r1 with
    | error x => simp only [Prod.mk.injEq] at h; rw [← h.2]; exact hsame
    | ok u =>
      simp only at h
      simp only [List.map_cons, List.nodup_cons] at hn
      refine (ih s1 s' r hn.2 ?_ h).trans hsame
      intro spec hs
      have hne : spec.name ≠ sp.name := fun he => hn.1 (List.mem_map.2 ⟨spec, hs, he⟩)
      have h0 := hm spec (List.mem_cons_of_mem _ hs)
      obtain ⟨h1, -⟩ := sampleOne_ok e1
      rw [h1]
      split
      · rw [dictGet_dictSet_ne _ _ hne]; exact h0
      · exact h0

theorem sampleProperties_same {summary : List (String × Bool) → Row} {s s' : Sampler T V Row}
    {st : State T} {step : Int} {t : T} {r : Py Unit} (hw : SamplerWF s)
    (h : s.sampleProperties summary st step t = (r, s')) : SameRegistration s' s := by
  unfold Sampler.sampleProperties at h
  obtain ⟨f1, f2, f3, f4, f5⟩ := sampleSummary_fields summary s step t
  obtain ⟨n1, n2⟩ := wf_specs (sampleSummary_wf hw summary step t)
  refine (sampleLoop_same _ _ _ _ n1 n2 h).trans ?_
  exact ⟨by rw [f1], by rw [f2], f5, f3, f4,
    fun n a ha => ⟨a, by rw [f1]; exact ha, SameButTrigger.refl _⟩, fun hn => by rw [f1]; exact hn⟩

end

section
variable [Zero T] [Sub T] [LE T] [DecidableLE T]

/-- The active tracker carries the registration of the plan. -/
structure InStep (p : PropertyPlan T V) (s : Sampler T V Row) : Prop where
  wf : SamplerWF s
  keys : dictKeys s.properties = dictKeys p.attached
  recKeys : ∀ k, k ∈ dictKeys s.records ↔ k ∈ dictKeys p.attached
  builtin : s.builtin = p.builtin
  specs : ∀ n a, dictGet p.attached n = some a →
    ∃ b, dictGet s.properties n = some b ∧ SameButTrigger b a

theorem setFlag_inStep {p : PropertyPlan T V} {s : Sampler T V Row}
    (h : InStep p s) (n : String) (b : Bool) {p' : PropertyPlan T V} {r : Py Unit}
    (hr : p.setPropertyEnabled n b = (r, p')) :
    ∃ s', s.setPropertyEnabled n b = (r, s') ∧ InStep p' s' ∧ (∀ e, r = .error e → p' = p ∧ s' = s) := by
  simp only [PropertyPlan.setPropertyEnabled, setPropertyEnabledFlag] at hr
  simp only [Sampler.setPropertyEnabled, setPropertyEnabledFlag, h.builtin]
  cases hb : dictGet p.builtin n with
  | some v =>
    rw [hb] at hr
    cases hr
    exact ⟨_, rfl, ⟨⟨h.wf.nodup, h.wf.named, h.wf.recs, h.wf.recNodup⟩, h.keys, h.recKeys, rfl, h.specs⟩,
      (fun _ he => nomatch he)⟩
  | none =>
    rw [hb] at hr
    cases ha : dictGet p.attached n with
    | none =>
      rw [ha] at hr
      cases hr
      have hs : dictGet s.properties n = none := by
        rw [dictGet_eq_none_iff, h.keys, ← dictGet_eq_none_iff]; exact ha
      rw [hs]
      refine ⟨s, ?_, h, fun e _ => ⟨rfl, rfl⟩⟩
      have : p.builtin = s.builtin := h.builtin.symm
      simp [this]
    | some a =>
      rw [ha] at hr
      cases hr
      obtain ⟨c, hc, hca⟩ := h.specs n a ha
      rw [hc]
      have hkp : dictKeys (dictSet p.attached n { a with enabled := b }) = dictKeys p.attached :=
        dictKeys_dictSet_of_mem _ _ ((dictGet_isSome_iff _ _).1 ⟨_, ha⟩)
      have hks : dictKeys (dictSet s.properties n { c with enabled := b }) = dictKeys s.properties :=
        dictKeys_dictSet_of_mem _ _ ((dictGet_isSome_iff _ _).1 ⟨_, hc⟩)
      refine ⟨_, rfl, ⟨⟨?_, ?_, ?_, h.wf.recNodup⟩, ?_, ?_, rfl, ?_⟩, (fun _ he => nomatch he)⟩
      · show (dictKeys (dictSet s.properties n _)).Nodup
        rw [hks]; exact h.wf.nodup
      · intro k sp hm
        have hcn := h.wf.named _ _ (mem_of_dictGet hc)
        rcases dictSet_mem hm with ⟨rfl, rfl⟩ | hm
        · exact hcn
        · exact h.wf.named k sp hm
      · intro k hk
        exact h.wf.recs k (by rw [← hks]; exact hk)
      · show dictKeys (dictSet s.properties n _) = dictKeys (dictSet p.attached n _)
        rw [hks, hkp]; exact h.keys
      · intro k
        show k ∈ dictKeys s.records ↔ k ∈ dictKeys (dictSet p.attached n _)
        rw [hkp]; exact h.recKeys k
      · intro k sp hk
        simp only at hk ⊢
        by_cases hkn : k = n
        · subst hkn
          rw [dictGet_dictSet_self] at hk ⊢
          cases hk
          obtain ⟨x, y, rfl⟩ := hca
          exact ⟨_, rfl, x, y, rfl⟩
        · rw [dictGet_dictSet_ne _ _ hkn] at hk ⊢
          exact h.specs k sp hk

/-- Registration invariant of a simulation. -/
structure RegWF (r : Registry T V Row) : Prop where
  plan : PlanWF r.plan
  active : ∀ s, r.active = some s → InStep r.plan s

theorem inStep_fresh {p : PropertyPlan T V} (hp : PlanWF p) (gi : Option Int) (gt : Option T) :
    InStep (Row := Row) p
      { globalInterval := gi
        globalTimeInterval := gt
        builtin := p.builtin
        properties := p.attached.map fun kv => (kv.1, freshSpec kv.2)
        records := p.attached.map fun kv => (kv.1, []) } :=
  { wf := applyPlan_wf hp gi gt
    keys := by simp [dictKeys, Function.comp_def]
    recKeys := by intro k; simp [dictKeys, Function.comp_def]
    builtin := rfl
    specs := by
      intro n a ha
      refine ⟨freshSpec a, ?_, 0, none, rfl⟩
      show dictGet (p.attached.map _) n = _
      rw [dictGet_map, ha]; rfl }

theorem inStep_attach {p : PropertyPlan T V} {s : Sampler T V Row}
    (h : InStep p s) (a : AttachArgs T V) :
    (∀ e p', p.attach a = (.error e, p') → p' = p) ∧
    ∀ n p', p.attach a = (.ok n, p') →
      ∃ s', s.attach { a with name := some n } = (.ok n, s') ∧ InStep p' s' := by
  constructor
  · intro e p' hr
    simp only [PropertyPlan.attach] at hr
    cases hm : makePropertySpec a (dictKeys p.attached) with
    | error x => rw [hm] at hr; cases hr; rfl
    | ok spec => rw [hm] at hr; cases hr
  · intro n p' hr
    simp only [PropertyPlan.attach] at hr
    cases hm : makePropertySpec a (dictKeys p.attached) with
    | error x => rw [hm] at hr; cases hr
    | ok spec =>
      rw [hm] at hr
      simp only [Prod.mk.injEq, Except.ok.injEq] at hr
      obtain ⟨rfl, rfl⟩ := hr
      obtain ⟨m1, m2, m3, m4, m5, -⟩ := makePropertySpec_ok hm
      have hres : ({ a with name := some spec.name } : AttachArgs T V).resolvedName = spec.name := by
        simp only [AttachArgs.resolvedName]
        split
        · rename_i he
          rw [m1] at he ⊢
          unfold AttachArgs.resolvedName at he ⊢
          cases hn : a.name with
          | none => rfl
          | some x =>
            rw [hn] at he
            simp only at he ⊢
            split
            · rfl
            · rename_i hx; rw [if_neg hx] at he; exact absurd he hx
        · rfl
      have hm' : makePropertySpec { a with name := some spec.name } (dictKeys s.properties) =
          .ok spec := by
        unfold makePropertySpec at hm ⊢
        rw [h.keys, hres]
        rw [m1]
        exact hm
      have hns : spec.name ∉ dictKeys s.properties := by rw [h.keys]; exact m3
      have hnr : spec.name ∉ dictKeys s.records := by rw [h.recKeys]; exact m3
      refine ⟨{ s with
          properties := dictSet s.properties spec.name spec
          records := dictSet s.records spec.name [] }, by simp only [Sampler.attach, hm'],
        ⟨⟨?_, ?_, ?_, dictKeys_dictSet_nodup _ _ _ h.wf.recNodup⟩, ?_, ?_, h.builtin, ?_⟩⟩
      · exact dictKeys_dictSet_nodup _ _ _ h.wf.nodup
      · exact dictSet_mem_named h.wf.named
      · intro k hk
        show k ∈ dictKeys (dictSet s.records _ _)
        rw [dictSet_keys_mem]
        rcases (dictSet_keys_mem _ _ _ _).1 hk with rfl | hk
        · exact Or.inl rfl
        · exact Or.inr (h.wf.recs k hk)
      · show dictKeys (dictSet s.properties _ _) = dictKeys (dictSet p.attached _ _)
        rw [dictKeys_dictSet_of_not_mem _ _ hns, dictKeys_dictSet_of_not_mem _ _ m3]
        have := h.keys
        simp only [dictKeys] at this
        simp [dictKeys, this]
      · intro k
        show k ∈ dictKeys (dictSet s.records _ _) ↔ k ∈ dictKeys (dictSet p.attached _ _)
        rw [dictSet_keys_mem, dictSet_keys_mem, h.recKeys]
      · intro k sp hk
        simp only at hk ⊢
        rw [dictGet_dictSet] at hk ⊢
        by_cases hkn : k = spec.name
        · simp only [hkn, if_true, Option.some.injEq] at hk ⊢
          subst hk
          exact ⟨_, rfl, SameButTrigger.refl _⟩
        · simp only [hkn, if_false] at hk ⊢
          exact h.specs k sp hk

theorem dictGet_dictDel_self {κ α : Type} [DecidableEq κ] {d : List (κ × α)} {k : κ}
    (hn : (dictKeys d).Nodup) : dictGet (dictDel d k) k = none := by
  rw [dictGet_eq_none_iff, dictKeys_dictDel]
  exact fun hm => (List.Nodup.not_mem_erase hn) hm

theorem inStep_detach {p : PropertyPlan T V} {s : Sampler T V Row} (hp : PlanWF p)
    (h : InStep p s) (n : String) :
    InStep { p with attached := dictDel p.attached n }
      { s with properties := dictDel s.properties n, records := dictDel s.records n } :=
  { wf :=
      { nodup := by
          show (dictKeys (dictDel s.properties n)).Nodup
          rw [dictKeys_dictDel]; exact h.wf.nodup.erase n
        named := fun k sp hm => h.wf.named k sp (dictDel_mem hm)
        recs := by
          intro k hk
          replace hk : k ∈ dictKeys (dictDel s.properties n) := hk
          show k ∈ dictKeys (dictDel s.records n)
          rw [dictKeys_dictDel] at hk ⊢
          rw [List.Nodup.mem_erase_iff h.wf.nodup] at hk
          rw [List.Nodup.mem_erase_iff h.wf.recNodup]
          exact ⟨hk.1, h.wf.recs k hk.2⟩
        recNodup := by
          show (dictKeys (dictDel s.records n)).Nodup
          rw [dictKeys_dictDel]; exact h.wf.recNodup.erase n }
    keys := by
      show dictKeys (dictDel s.properties n) = dictKeys (dictDel p.attached n)
      rw [dictKeys_dictDel, dictKeys_dictDel, h.keys]
    recKeys := by
      intro k
      show k ∈ dictKeys (dictDel s.records n) ↔ k ∈ dictKeys (dictDel p.attached n)
      rw [dictKeys_dictDel, dictKeys_dictDel, List.Nodup.mem_erase_iff h.wf.recNodup,
        List.Nodup.mem_erase_iff hp.nodup, h.recKeys]
    builtin := h.builtin
    specs := by
      intro k a ha
      simp only at ha ⊢
      by_cases hk : k = n
      · subst hk
        rw [dictGet_dictDel_self hp.nodup] at ha; cases ha
      · rw [dictGet_dictDel_ne _ hk] at ha ⊢
        exact h.specs k a ha }

theorem regWF_empty : RegWF ({} : Registry T V Row) :=
  ⟨planWF_empty, (fun _ hs => nomatch hs)⟩

/-- One registration call on a simulation: it succeeds or fails on plan and tracker together,
and a failed call changes neither. -/
theorem regWF_callReg {r r' : Registry T V Row} (hr : RegWF r) (op : PlanOp T V) {res : Py Unit}
    (h : callReg r op = (res, r')) :
    RegWF r' ∧ res = (op.call r.plan).1 ∧ r'.plan = (op.call r.plan).2 ∧
      (∀ e, res = .error e → r' = r) ∧ (r'.active.isSome = r.active.isSome) := by
  obtain ⟨p, act⟩ := r
  have hp := planWF_call hr.plan op
  cases op with
  | attach a =>
    simp only [callReg, Registry.attach] at h
    simp only [PlanOp.call] at hp ⊢
    rcases e1 : p.attach a with ⟨r1, p1⟩
    rw [e1] at h hp
    cases act with
    | none =>
      cases r1 with
      | error e =>
        simp only [dropValue, Prod.mk.injEq] at h
        obtain ⟨rfl, rfl⟩ := h
        have hpp : p1 = p := by
          simp only [PropertyPlan.attach] at e1
          split at e1
          · cases e1; rfl
          · cases e1
        subst hpp
        exact ⟨hr, by simp [dropValue], rfl, fun _ _ => rfl, rfl⟩
      | ok n =>
        simp only [dropValue, Prod.mk.injEq] at h
        obtain ⟨rfl, rfl⟩ := h
        exact ⟨⟨hp, (fun s hs => nomatch hs)⟩, by simp [dropValue], rfl, (fun _ he => nomatch he), rfl⟩
    | some s =>
      obtain ⟨i1, i2⟩ := inStep_attach (hr.active s rfl) a
      cases r1 with
      | error e =>
        simp only [dropValue, Prod.mk.injEq] at h
        obtain ⟨rfl, rfl⟩ := h
        have := i1 _ _ e1
        subst this
        exact ⟨hr, by simp [dropValue], rfl, fun _ _ => rfl, rfl⟩
      | ok n =>
        obtain ⟨s', j1, j2⟩ := i2 _ _ e1
        simp only [j1, dropValue, Prod.mk.injEq] at h
        obtain ⟨rfl, rfl⟩ := h
        exact ⟨⟨hp, fun s hs => by cases hs; exact j2⟩, by simp [dropValue], rfl,
          (fun _ he => nomatch he), rfl⟩
  | detach n =>
    simp only [callReg, Registry.detach] at h
    simp only [PlanOp.call] at hp ⊢
    by_cases hn : n ∈ dictKeys p.attached
    · have e1 : p.detach n = (.ok (), { p with attached := dictDel p.attached n }) := by
        simp [PropertyPlan.detach, hn]
      rw [e1] at h hp
      cases act with
      | none =>
        simp only [Prod.mk.injEq] at h
        obtain ⟨rfl, rfl⟩ := h
        exact ⟨⟨hp, (fun s hs => nomatch hs)⟩, by simp [e1], by simp [e1], (fun _ he => nomatch he), rfl⟩
      | some s =>
        have hi := hr.active s rfl
        have hns : n ∈ dictKeys s.properties := by rw [hi.keys]; exact hn
        simp only [Sampler.detach, hns, if_true, Prod.mk.injEq] at h
        obtain ⟨rfl, rfl⟩ := h
        refine ⟨⟨hp, fun s' hs => ?_⟩, by simp [e1], by simp [e1], (fun _ he => nomatch he), rfl⟩
        cases hs
        exact inStep_detach hr.plan hi n
    · have e1 : p.detach n = (.error .valueError, p) := by simp [PropertyPlan.detach, hn]
      rw [e1] at h
      simp only [Prod.mk.injEq] at h
      obtain ⟨rfl, rfl⟩ := h
      exact ⟨hr, by simp [e1], by simp [e1], fun _ _ => rfl, rfl⟩
  | clear =>
    simp only [callReg, Registry.clearAttachments, Prod.mk.injEq] at h
    obtain ⟨rfl, rfl⟩ := h
    refine ⟨⟨hp, ?_⟩, rfl, rfl, (fun _ he => nomatch he), ?_⟩
    · intro s hs
      cases act with
      | none => cases hs
      | some s0 =>
        have hi := hr.active s0 rfl
        cases hs
        exact
          { wf := ⟨by simp [Sampler.clearAttachments, dictKeys], by simp [Sampler.clearAttachments],
              by simp [Sampler.clearAttachments, dictKeys],
              by simp [Sampler.clearAttachments, dictKeys]⟩
            keys := rfl
            recKeys := fun _ => Iff.rfl
            builtin := hi.builtin
            specs := by simp [PropertyPlan.clearAttachments, dictGet] }
    · cases act <;> rfl
  | setEnabled n b =>
    simp only [callReg, Registry.setPropertyEnabled] at h
    simp only [PlanOp.call] at hp ⊢
    rcases e1 : p.setPropertyEnabled n b with ⟨r1, p1⟩
    rw [e1] at h hp
    have hfail : ∀ e, r1 = .error e → p1 = p := by
      intro e he
      simp only [PropertyPlan.setPropertyEnabled, setPropertyEnabledFlag] at e1
      subst he
      cases hb : dictGet p.builtin n with
      | some v => rw [hb] at e1; cases e1
      | none =>
        rw [hb] at e1
        cases ha : dictGet p.attached n with
        | none => rw [ha] at e1; cases e1; rfl
        | some sp => rw [ha] at e1; cases e1
    cases r1 with
    | error e =>
      simp only [Prod.mk.injEq] at h
      obtain ⟨rfl, rfl⟩ := h
      have := hfail e rfl
      subst this
      exact ⟨hr, rfl, rfl, fun _ _ => rfl, rfl⟩
    | ok u =>
      cases act with
      | none =>
        simp only [Prod.mk.injEq] at h
        obtain ⟨rfl, rfl⟩ := h
        exact ⟨⟨hp, (fun s hs => nomatch hs)⟩, rfl, rfl, (fun _ he => nomatch he), rfl⟩
      | some s =>
        obtain ⟨s', j1, j2, j3⟩ := setFlag_inStep (hr.active s rfl) n b e1
        simp only [j1, Prod.mk.injEq] at h
        obtain ⟨rfl, rfl⟩ := h
        exact ⟨⟨hp, fun s hs => by cases hs; exact j2⟩, rfl, rfl, (fun _ he => nomatch he), rfl⟩
  | setFrequency i t =>
    simp only [callReg, Registry.setFrequency, PropertyPlan.setFrequency] at h
    simp only [PlanOp.call, PropertyPlan.setFrequency] at hp ⊢
    cases hv : validateSchedule i t with
    | error e =>
      rw [hv] at h
      simp only [Prod.mk.injEq] at h
      obtain ⟨rfl, rfl⟩ := h
      exact ⟨hr, rfl, rfl, fun _ _ => rfl, rfl⟩
    | ok u =>
      rw [hv] at h hp
      cases act with
      | none =>
        simp only [Prod.mk.injEq] at h
        obtain ⟨rfl, rfl⟩ := h
        exact ⟨⟨hp, (fun s hs => nomatch hs)⟩, rfl, rfl, (fun _ he => nomatch he), rfl⟩
      | some s =>
        have hi := hr.active s rfl
        simp only [Sampler.setGlobalFrequency, hv, Prod.mk.injEq] at h
        obtain ⟨rfl, rfl⟩ := h
        refine ⟨⟨hp, fun s hs => ?_⟩, rfl, rfl, (fun _ he => nomatch he), rfl⟩
        cases hs
        exact ⟨⟨hi.wf.nodup, hi.wf.named, hi.wf.recs, hi.wf.recNodup⟩, hi.keys, hi.recKeys,
          hi.builtin, hi.specs⟩

theorem regWF_call {r : Registry T V Row} (hr : RegWF r) (op : RegOp T V Row) :
    RegWF (op.call r).2 := by
  cases op with
  | plan op => exact (regWF_callReg (res := (callReg r op).1) hr op rfl).1
  | startRun len =>
    simp only [RegOp.call, Registry.startRun, applyPlan_ok hr.plan]
    refine ⟨hr.plan, fun s hs => ?_⟩
    cases hs
    exact inStep_fresh hr.plan _ _
  | sample summary st =>
    simp only [RegOp.call, Registry.sample]
    cases ha : r.active with
    | none => exact hr
    | some s =>
      simp only
      rcases e1 : s.sampleProperties summary st st.step st.time with ⟨res, s'⟩
      have hi := hr.active s ha
      have hsame := sampleProperties_same hi.wf e1
      refine ⟨hr.plan, fun s2 hs => ?_⟩
      cases hs
      exact
        { wf := hi.wf.of_same hsame
          keys := hsame.keys.trans hi.keys
          recKeys := fun k => by rw [hsame.recs]; exact hi.recKeys k
          builtin := hsame.builtin.trans hi.builtin
          specs := by
            intro n a hna
            obtain ⟨b, hb, hba⟩ := hi.specs n a hna
            obtain ⟨c, hc, hcb⟩ := hsame.spec n b hb
            exact ⟨c, hc, hcb.trans hba⟩ }

theorem regWF_after (ops : List (RegOp T V Row)) : RegWF (registryAfter ops) := by
  have : ∀ (ops : List (RegOp T V Row)) (r : Registry T V Row), RegWF r →
      RegWF (ops.foldl (fun r op => (op.call r).2) r) := by
    intro ops
    induction ops with
    | nil => intro r h; exact h
    | cons op ops ih => intro r h; exact ih _ (regWF_call h op)
  exact this ops _ regWF_empty

end
end KMC
