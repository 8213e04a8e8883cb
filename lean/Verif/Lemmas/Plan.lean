import Verif.Lemmas.Sampler
import Verif.Spec.Plan
/-
Helper facts about property plans and about applying them to a tracker.
-/
set_option linter.unusedSectionVars false

namespace KMC
open Spec

variable {T V Row : Type}

/-- Registration invariant of a plan. -/
structure PlanWF [Zero T] [LE T] [DecidableLE T] (p : PropertyPlan T V) : Prop where
  nodup : (dictKeys p.attached).Nodup
  named : ∀ k spec, (k, spec) ∈ p.attached → spec.name = k
  notBuiltin : ∀ k ∈ dictKeys p.attached, k ∉ builtinPropertyFields
  builtins : dictKeys p.builtin = builtinPropertyFields
  sched : ∀ k spec, (k, spec) ∈ p.attached →
    validateSchedule spec.interval spec.timeInterval = .ok () ∧
    validateMaxRecords spec.maxRecords = .ok ()
  glob : validateSchedule p.globalInterval p.globalTimeInterval = .ok ()

theorem dictSet_mem {κ α : Type} [DecidableEq κ] {d : List (κ × α)} {k k' : κ} {v v' : α}
    (h : (k', v') ∈ dictSet d k v) : (k' = k ∧ v' = v) ∨ (k', v') ∈ d := by
  induction d with
  | nil => simpa [dictSet] using h
  | cons hd tl ih =>
    obtain ⟨k1, v1⟩ := hd
    by_cases h1 : k1 = k
    · simp only [dictSet, h1, if_true, List.mem_cons, Prod.mk.injEq] at h ⊢
      rcases h with h | h
      · exact Or.inl h
      · exact Or.inr (Or.inr h)
    · simp only [dictSet, h1, if_false, List.mem_cons, Prod.mk.injEq] at h ⊢
      rcases h with h | h
      · exact Or.inr (Or.inl h)
      · rcases ih h with h | h
        · exact Or.inl h
        · exact Or.inr (Or.inr h)

theorem dictDel_mem {κ α : Type} [DecidableEq κ] {d : List (κ × α)} {k : κ} {x : κ × α}
    (h : x ∈ dictDel d k) : x ∈ d := by
  induction d with
  | nil => simp [dictDel] at h
  | cons hd tl ih =>
    obtain ⟨k1, v1⟩ := hd
    by_cases h1 : k1 = k
    · simp only [dictDel, h1, if_true] at h; exact List.mem_cons_of_mem _ h
    · simp only [dictDel, h1, if_false, List.mem_cons] at h
      rcases h with h | h
      · simp [h]
      · exact List.mem_cons_of_mem _ (ih h)

theorem dictDel_append_single {κ α : Type} [DecidableEq κ] {d : List (κ × α)} {k : κ} {v : α}
    (h : k ∉ dictKeys d) : dictDel (d ++ [(k, v)]) k = d := by
  induction d with
  | nil => simp [dictDel]
  | cons hd tl ih =>
    obtain ⟨k1, v1⟩ := hd
    simp only [dictKeys, List.map_cons, List.mem_cons, not_or] at h
    have := ih (by simpa [dictKeys] using h.2)
    simp [dictDel, Ne.symm h.1, this]

variable [Zero T] [LE T] [DecidableLE T]

theorem makePropertySpec_ok {a : AttachArgs T V} {ex : List String} {spec : PropertySpec T V}
    (h : makePropertySpec a ex = .ok spec) :
    spec.name = a.resolvedName ∧ spec.name ∉ builtinPropertyFields ∧ spec.name ∉ ex ∧
    validateSchedule spec.interval spec.timeInterval = .ok () ∧
    validateMaxRecords spec.maxRecords = .ok () ∧ spec.callback = a.callback ∧
    spec.interval = a.interval ∧ spec.timeInterval = a.timeInterval ∧ spec.store = a.store ∧
    spec.maxRecords = a.maxRecords ∧ spec.enabled = a.enabled ∧ spec.onError = a.onError ∧
    spec.lastTriggerStep = 0 ∧ spec.lastTriggerTime = none := by
  unfold makePropertySpec at h
  split at h
  · cases h
  · rename_i h1
    split at h
    · cases h
    · rename_i h2
      split at h
      · cases h
      · rename_i h3
        split at h
        · cases h
        · rename_i h4
          cases h
          exact ⟨rfl, h3, h4, h1, h2, rfl, rfl, rfl, rfl, rfl, rfl, rfl, rfl, rfl⟩

theorem planWF_empty : PlanWF ({} : PropertyPlan T V) :=
  { nodup := by simp [dictKeys]
    named := by simp
    notBuiltin := by simp [dictKeys]
    builtins := by simp [dictKeys, Function.comp_def]
    sched := by simp
    glob := rfl }

theorem planWF_call {p : PropertyPlan T V} (hp : PlanWF p) (op : PlanOp T V) :
    PlanWF (op.call p).2 := by
  cases op with
  | attach a =>
    simp only [PlanOp.call, PropertyPlan.attach]
    cases hm : makePropertySpec a (dictKeys p.attached) with
    | error e => exact hp
    | ok spec =>
      obtain ⟨-, m2, m3, m4, m5, -⟩ := makePropertySpec_ok hm
      simp only
      exact
        { nodup := dictKeys_dictSet_nodup _ _ _ hp.nodup
          named := dictSet_mem_named hp.named
          notBuiltin := by
            intro k hk
            rcases (dictSet_keys_mem _ _ _ _).1 hk with rfl | hk
            · exact m2
            · exact hp.notBuiltin k hk
          builtins := hp.builtins
          sched := by
            intro k sp hs
            rcases dictSet_mem hs with ⟨-, rfl⟩ | hs
            · exact ⟨m4, m5⟩
            · exact hp.sched k sp hs
          glob := hp.glob }
  | detach n =>
    simp only [PlanOp.call, PropertyPlan.detach]
    split
    · exact
        { nodup := by
            show (dictKeys (dictDel p.attached n)).Nodup
            rw [dictKeys_dictDel]; exact hp.nodup.erase n
          named := fun k s hs => hp.named k s (dictDel_mem hs)
          notBuiltin := by
            intro k hk
            rw [dictKeys_dictDel] at hk
            exact hp.notBuiltin k (List.mem_of_mem_erase hk)
          builtins := hp.builtins
          sched := fun k s hs => hp.sched k s (dictDel_mem hs)
          glob := hp.glob }
    · exact hp
  | clear =>
    exact
      { nodup := by simp [PlanOp.call, PropertyPlan.clearAttachments, dictKeys]
        named := by simp [PlanOp.call, PropertyPlan.clearAttachments]
        notBuiltin := by simp [PlanOp.call, PropertyPlan.clearAttachments, dictKeys]
        builtins := hp.builtins
        sched := by simp [PlanOp.call, PropertyPlan.clearAttachments]
        glob := hp.glob }
  | setEnabled n b =>
    simp only [PlanOp.call, PropertyPlan.setPropertyEnabled, setPropertyEnabledFlag]
    cases hb : dictGet p.builtin n with
    | some v =>
      exact
        { nodup := hp.nodup, named := hp.named, notBuiltin := hp.notBuiltin
          builtins := by
            show dictKeys (dictSet p.builtin n b) = _
            rw [dictKeys_dictSet_of_mem _ _ ((dictGet_isSome_iff _ _).1 ⟨_, hb⟩)]
            exact hp.builtins
          sched := hp.sched, glob := hp.glob }
    | none =>
      cases ha : dictGet p.attached n with
      | none => exact hp
      | some spec =>
        have hmem := mem_of_dictGet ha
        have hname := hp.named _ _ hmem
        have hsch := hp.sched _ _ hmem
        have hkeys : dictKeys (dictSet p.attached n { spec with enabled := b }) =
            dictKeys p.attached :=
          dictKeys_dictSet_of_mem _ _ ((dictGet_isSome_iff _ _).1 ⟨_, ha⟩)
        exact
          { nodup := by show (dictKeys (dictSet p.attached n _)).Nodup; rw [hkeys]; exact hp.nodup
            named := by
              intro k sp hs
              rcases dictSet_mem hs with ⟨rfl, rfl⟩ | hs
              · exact hname
              · exact hp.named k sp hs
            notBuiltin := by
              intro k hk
              exact hp.notBuiltin k (by rw [← hkeys]; exact hk)
            builtins := hp.builtins
            sched := by
              intro k sp hs
              rcases dictSet_mem hs with ⟨rfl, rfl⟩ | hs
              · exact hsch
              · exact hp.sched k sp hs
            glob := hp.glob }
  | setFrequency i t =>
    simp only [PlanOp.call, PropertyPlan.setFrequency]
    split
    · exact hp
    · rename_i hv
      exact ⟨hp.nodup, hp.named, hp.notBuiltin, hp.builtins, hp.sched, hv⟩

theorem planWF_after (ops : List (PlanOp T V)) : PlanWF (planAfter ops) := by
  have : ∀ (ops : List (PlanOp T V)) (p : PropertyPlan T V), PlanWF p →
      PlanWF (ops.foldl (fun p op => (op.call p).2) p) := by
    intro ops
    induction ops with
    | nil => intro p h; exact h
    | cons op ops ih => intro p h; exact ih _ (planWF_call h op)
  exact this ops _ planWF_empty

/-! Applying a plan to a fresh tracker. -/

theorem dictSet_same_keys_eq {d : List (String × Bool)} {k : String} {b : Bool}
    (h : k ∈ dictKeys d) : dictKeys (dictSet d k b) = dictKeys d :=
  dictKeys_dictSet_of_mem d b h

theorem dict_ext {α : Type} : ∀ (a b : List (String × α)), dictKeys a = dictKeys b →
    (dictKeys a).Nodup → (∀ k, dictGet a k = dictGet b k) → a = b
  | [], [], _, _, _ => rfl
  | [], _ :: _, h, _, _ => by simp [dictKeys] at h
  | _ :: _, [], h, _, _ => by simp [dictKeys] at h
  | (k, v) :: a, (k', v') :: b, h, hn, hg => by
    simp only [dictKeys, List.map_cons, List.cons.injEq] at h
    obtain ⟨rfl, h⟩ := h
    simp only [dictKeys, List.map_cons, List.nodup_cons] at hn
    have hv := hg k
    simp only [dictGet, if_true, Option.some.injEq] at hv
    subst hv
    congr 1
    apply dict_ext a b h hn.2
    intro k2
    by_cases hk : k = k2
    · subst hk
      have h1 : dictGet a k = none := (dictGet_eq_none_iff _ _).2 hn.1
      have h2 : dictGet b k = none := (dictGet_eq_none_iff _ _).2 (by
        show k ∉ List.map Prod.fst b
        rw [← h]; exact hn.1)
      rw [h1, h2]
    · have := hg k2
      simpa [dictGet, hk] using this

theorem enableAll_ok : ∀ (l : List (String × Bool)) (s : Sampler T V Row),
    (∀ k ∈ dictKeys l, k ∈ dictKeys s.builtin) → (dictKeys l).Nodup →
    ∃ b, Sampler.enableAll l s = (.ok (), { s with builtin := b }) ∧
      dictKeys b = dictKeys s.builtin ∧
      ∀ k, dictGet b k = (dictGet l k).orElse fun _ => dictGet s.builtin k
  | [], s, _, _ => ⟨s.builtin, rfl, rfl, by simp [dictGet]⟩
  | (n, v) :: rest, s, hk, hn => by
    simp only [dictKeys, List.map_cons, List.nodup_cons] at hn
    have hmem : n ∈ dictKeys s.builtin := hk n (by simp [dictKeys])
    obtain ⟨w, hw⟩ := (dictGet_isSome_iff _ _).2 hmem
    have hkeys := dictKeys_dictSet_of_mem s.builtin v hmem
    have hone : s.setPropertyEnabled n v = (.ok (), { s with builtin := dictSet s.builtin n v }) := by
      simp [Sampler.setPropertyEnabled, setPropertyEnabledFlag, hw]
    obtain ⟨b, h1, h2, h3⟩ := enableAll_ok rest { s with builtin := dictSet s.builtin n v }
      (by
        intro k hk'
        show k ∈ dictKeys (dictSet s.builtin n v)
        rw [hkeys]
        exact hk k (by
          simp only [dictKeys, List.map_cons, List.mem_cons] at hk' ⊢
          exact Or.inr hk')) hn.2
    refine ⟨b, ?_, h2.trans hkeys, ?_⟩
    · simp only [Sampler.enableAll, hone, h1]
    · intro k
      rw [h3 k]
      by_cases hkn : n = k
      · subst hkn
        have : dictGet rest n = none := (dictGet_eq_none_iff _ _).2 hn.1
        simp [dictGet, this]
      · simp [dictGet, hkn, dictGet_dictSet_ne _ _ (Ne.symm hkn)]

theorem attachAll_ok : ∀ (specs : List (PropertySpec T V)) (s : Sampler T V Row),
    (specs.map PropertySpec.name).Nodup →
    (∀ sp ∈ specs, sp.name ∉ dictKeys s.properties ∧ sp.name ∉ dictKeys s.records ∧
      sp.name ∉ builtinPropertyFields ∧
      validateSchedule sp.interval sp.timeInterval = .ok () ∧
      validateMaxRecords sp.maxRecords = .ok () ∧ sp.lastTriggerStep = 0 ∧
      sp.lastTriggerTime = none) →
    Sampler.attachAll specs s = (.ok (), { s with
      properties := s.properties ++ specs.map fun sp => (sp.name, sp)
      records := s.records ++ specs.map fun sp => (sp.name, []) })
  | [], s, _, _ => by simp [Sampler.attachAll]
  | sp :: rest, s, hn, hs => by
    obtain ⟨a1, a2, a3, a4, a5, a6, a7⟩ := hs sp List.mem_cons_self
    simp only [List.map_cons, List.nodup_cons] at hn
    have hres : (Sampler.specArgs sp sp.name).resolvedName = sp.name := by
      simp only [AttachArgs.resolvedName, Sampler.specArgs]
      split <;> rfl
    have hmk : makePropertySpec (Sampler.specArgs sp sp.name) (dictKeys s.properties) = .ok sp := by
      unfold makePropertySpec
      simp only [hres]
      simp only [Sampler.specArgs, a4, a5, a3, a1, if_false]
      obtain ⟨nm, cb, iv, tv, stt, mr, en, oe, l1, l2⟩ := sp
      simp only at a6 a7
      subst a6; subst a7; rfl
    have hat : s.attach (Sampler.specArgs sp sp.name) = (.ok sp.name, { s with
        properties := s.properties ++ [(sp.name, sp)], records := s.records ++ [(sp.name, [])] }) := by
      simp only [Sampler.attach, hmk]
      rw [dictKeys_dictSet_of_not_mem _ _ a1, dictKeys_dictSet_of_not_mem _ _ a2]
    simp only [Sampler.attachAll, hat]
    rw [attachAll_ok rest _ hn.2]
    · simp
    · intro sp' hsp'
      obtain ⟨b1, b2, b3⟩ := hs sp' (List.mem_cons_of_mem _ hsp')
      have hne : sp'.name ≠ sp.name := fun he => hn.1 (List.mem_map.2 ⟨sp', hsp', he⟩)
      refine ⟨?_, ?_, b3⟩
      · simp only [dictKeys, List.map_append, List.mem_append] at b1 ⊢
        simp [b1, hne]
      · simp only [dictKeys, List.map_append, List.mem_append] at b2 ⊢
        simp [b2, hne]

/-- The spec a fresh tracker starts with. -/
def freshSpec (sp : PropertySpec T V) : PropertySpec T V :=
  { sp with lastTriggerStep := 0, lastTriggerTime := none }

theorem applyPlan_ok {p : PropertyPlan T V} (hp : PlanWF p) (len : Nat) :
    ({} : Sampler T V Row).applyPropertyPlan p (some (max len 1 : Nat)) = (.ok (),
      { globalInterval := p.trackerInterval (some (max len 1 : Nat))
        globalTimeInterval := p.globalTimeInterval
        builtin := p.builtin
        properties := p.attached.map fun kv => (kv.1, freshSpec kv.2)
        records := p.attached.map fun kv => (kv.1, []) }) := by
  have hval : validateSchedule (p.trackerInterval (some (max len 1 : Nat))) p.globalTimeInterval = .ok () := by
    have := hp.glob
    unfold PropertyPlan.trackerInterval
    cases h1 : p.globalInterval with
    | some i => rw [h1] at this; simpa using this
    | none =>
      rw [h1] at this
      cases h2 : p.globalTimeInterval with
      | some t => rw [h2] at this; simpa using this
      | none =>
        simp only [validateSchedule]
        rw [if_neg (by omega)]
  unfold Sampler.applyPropertyPlan
  simp only [Sampler.setGlobalFrequency, hval]
  have hbn : (dictKeys p.builtin).Nodup := by rw [hp.builtins]; decide
  obtain ⟨b, h1, h2, h3⟩ := enableAll_ok (Row := Row) p.builtin
    { globalInterval := p.trackerInterval (some (max len 1 : Nat)), globalTimeInterval := p.globalTimeInterval }
    (by
      intro k hk
      rw [hp.builtins] at hk
      simpa [dictKeys, Function.comp_def] using hk) hbn
  have hb : b = p.builtin := by
    apply dict_ext
    · rw [h2, hp.builtins]; simp [dictKeys, Function.comp_def]
    · rw [h2]; simp only [dictKeys, List.map_map, Function.comp_def, List.map_id']; decide
    · intro k
      rw [h3 k]
      cases hg : dictGet p.builtin k with
      | some v => rfl
      | none =>
        rw [dictGet_eq_none_iff, hp.builtins] at hg
        show dictGet (builtinPropertyFields.map fun n => (n, true)) k = none
        rw [dictGet_eq_none_iff]
        simpa [dictKeys, Function.comp_def] using hg
  subst hb
  rw [h1]
  simp only
  have hnames : p.freshAttachmentSpecs.map PropertySpec.name = dictKeys p.attached := by
    unfold PropertyPlan.freshAttachmentSpecs dictKeys
    rw [List.map_map]
    apply List.map_congr_left
    rintro ⟨k, sp⟩ hm
    exact hp.named k sp hm
  rw [attachAll_ok]
  · have e : ∀ kv ∈ p.attached, kv.2.name = kv.1 := fun kv hm => hp.named kv.1 kv.2 hm
    simp only [List.nil_append, Prod.mk.injEq, true_and, Sampler.mk.injEq, and_true]
    unfold PropertyPlan.freshAttachmentSpecs
    rw [List.map_map, List.map_map]
    constructor
    · apply List.map_congr_left
      intro kv hm
      simp [freshSpec, e kv hm]
    · apply List.map_congr_left
      intro kv hm
      simp [e kv hm]
  · rw [hnames]; exact hp.nodup
  · intro sp hsp
    obtain ⟨⟨k, sp0⟩, hm, rfl⟩ := List.mem_map.1 hsp
    have hk : sp0.name = k := hp.named _ _ hm
    obtain ⟨v1, v2⟩ := hp.sched _ _ hm
    refine ⟨by simp [dictKeys], by simp [dictKeys], ?_, v1, v2, rfl, rfl⟩
    show sp0.name ∉ _
    rw [hk]
    exact hp.notBuiltin k (List.mem_map.2 ⟨_, hm, rfl⟩)

theorem dictGet_map {α β : Type} (f : α → β) (d : List (String × α)) (k : String) :
    dictGet (d.map fun kv => (kv.1, f kv.2)) k = (dictGet d k).map f := by
  induction d with
  | nil => rfl
  | cons hd tl ih =>
    obtain ⟨k1, v1⟩ := hd
    by_cases h : k1 = k <;> simp [dictGet, h, ih]

theorem applyPlan_wf {p : PropertyPlan T V} (hp : PlanWF p) (gi : Option Int) (gt : Option T) :
    SamplerWF (Row := Row)
      { globalInterval := gi
        globalTimeInterval := gt
        builtin := p.builtin
        properties := p.attached.map fun kv => (kv.1, freshSpec kv.2)
        records := p.attached.map fun kv => (kv.1, []) } :=
  { nodup := by
      have := hp.nodup
      simpa [dictKeys, Function.comp_def] using this
    named := by
      intro k sp hm
      obtain ⟨⟨k0, sp0⟩, hm0, he⟩ := List.mem_map.1 hm
      simp only [Prod.mk.injEq] at he
      obtain ⟨rfl, rfl⟩ := he
      have := hp.named _ _ hm0
      exact this
    recs := by
      intro k hk
      simpa [dictKeys, Function.comp_def] using hk
    recNodup := by
      have := hp.nodup
      simpa [dictKeys, Function.comp_def] using this }

end KMC
