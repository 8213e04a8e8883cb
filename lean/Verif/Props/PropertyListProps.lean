import Verif.Props.CallbackFailureProps
/-
C145: the listing of property calculations.
-/
set_option linter.unusedSectionVars false

namespace KMC
open Spec

variable {T V Row : Type}

/-- Keys of a dictionary whose entry passes a test, in the order of the dictionary. -/
theorem filter_map_fst {α : Type} (p : α → Bool) {d : List (String × α)} (hn : (dictKeys d).Nodup) :
    (d.filter fun kv => p kv.2).map Prod.fst =
      (dictKeys d).filter fun k => ((dictGet d k).map p).getD false := by
  induction d with
  | nil => rfl
  | cons hd tl ih =>
    obtain ⟨k, v⟩ := hd
    simp only [dictKeys, List.map_cons, List.nodup_cons] at hn
    have hrest : (List.map Prod.fst tl).filter (fun x => ((dictGet ((k, v) :: tl) x).map p).getD false) =
        (dictKeys tl).filter fun x => ((dictGet tl x).map p).getD false := by
      refine List.filter_congr ?_
      intro x hx
      have : k ≠ x := fun he => hn.1 (he ▸ hx)
      simp [dictGet, this]
    have hk : ((dictGet ((k, v) :: tl) k).map p).getD false = p v := by simp [dictGet]
    simp only [dictKeys, List.map_cons, List.filter_cons, hk]
    rw [hrest, ← ih hn.2]
    split <;> simp

theorem mem_filter_fst {α : Type} (p : α → Bool) {d : List (String × α)} (hn : (dictKeys d).Nodup)
    (name : String) : name ∈ (d.filter fun kv => p kv.2).map Prod.fst ↔
      ∃ v, dictGet d name = some v ∧ p v = true := by
  constructor
  · intro h
    obtain ⟨⟨k, v⟩, hm, rfl⟩ := List.mem_map.1 h
    obtain ⟨hm, hp⟩ := List.mem_filter.1 hm
    exact ⟨v, dictGet_of_mem hn hm, hp⟩
  · rintro ⟨v, hv, hp⟩
    exact List.mem_map.2 ⟨(name, v), List.mem_filter.2 ⟨mem_of_dictGet hv, hp⟩, rfl⟩

variable [Zero T] [Sub T] [LE T] [DecidableLE T]

/-- The listing names every built-in quantity once, as enabled exactly if its flag is set, in the
fixed order; and every attached property once, as enabled exactly if it is, in the order they were
attached. -/
theorem C145_listing (ops : List (RegOp T V Row)) :
    let p := (registryAfter ops).plan
    let l := describePropertyCalculations p.builtin p.attached
    l.builtInEnabled.Sublist builtinPropertyFields ∧
    l.builtInDisabled.Sublist builtinPropertyFields ∧
    (∀ name, name ∈ l.builtInEnabled ↔ dictGet p.builtin name = some true) ∧
    (∀ name, name ∈ l.builtInDisabled ↔ dictGet p.builtin name = some false) ∧
    l.attachedEnabled.Sublist p.listAttachments ∧ l.attachedDisabled.Sublist p.listAttachments ∧
    (∀ name, name ∈ l.attachedEnabled ↔
      ∃ spec, dictGet p.attached name = some spec ∧ spec.enabled = true) ∧
    (∀ name, name ∈ l.attachedDisabled ↔
      ∃ spec, dictGet p.attached name = some spec ∧ spec.enabled = false) ∧
    (l.builtInEnabled ++ l.builtInDisabled).Perm builtinPropertyFields ∧
    (l.attachedEnabled ++ l.attachedDisabled).Perm p.listAttachments ∧
    p.listAttachments.Nodup := by
  intro p l
  have hw := (regWF_after ops).plan
  have hbi : ∀ name, name ∈ builtinPropertyFields ↔ ∃ b, dictGet p.builtin name = some b := by
    intro name
    rw [← hw.builtins, ← dictGet_isSome_iff]
  have hen := fun name => mem_filter_fst PropertySpec.enabled hw.nodup name
  have hdis := fun name => mem_filter_fst (fun s : PropertySpec T V => !s.enabled) hw.nodup name
  have hkeys : p.listAttachments = p.attached.map Prod.fst := rfl
  refine ⟨List.filter_sublist, List.filter_sublist, ?_, ?_, ?_, ?_, hen, ?_, ?_, ?_, hw.nodup⟩
  · intro name
    simp only [l, describePropertyCalculations, List.mem_filter, hbi]
    constructor
    · rintro ⟨⟨b, hb⟩, h⟩
      rw [hb] at h ⊢
      simpa using h
    · intro h
      exact ⟨⟨true, h⟩, by rw [h]; rfl⟩
  · intro name
    simp only [l, describePropertyCalculations, List.mem_filter, hbi]
    constructor
    · rintro ⟨⟨b, hb⟩, h⟩
      rw [hb] at h ⊢
      simpa using h
    · intro h
      exact ⟨⟨false, h⟩, by rw [h]; rfl⟩
  · rw [hkeys]; exact List.filter_sublist.map _
  · rw [hkeys]; exact List.filter_sublist.map _
  · intro name
    refine (hdis name).trans ?_
    simp only [Bool.not_eq_true']
    exact Iff.rfl
  · exact List.filter_append_perm _ _
  · rw [hkeys]
    simp only [l, describePropertyCalculations, ← List.map_append]
    exact (List.filter_append_perm _ _).map _

/-- While a run is under way its tracker gives the same listing as the simulation. -/
theorem C145_same_listing (ops : List (RegOp T V Row)) (s : Sampler T V Row)
    (hs : (registryAfter ops).active = some s) :
    describePropertyCalculations s.builtin s.properties =
      describePropertyCalculations (registryAfter ops).plan.builtin
        (registryAfter ops).plan.attached := by
  have hr := regWF_after ops
  have hi := hr.active s hs
  have hget : ∀ k, (dictGet s.properties k).map PropertySpec.enabled =
      (dictGet (registryAfter ops).plan.attached k).map PropertySpec.enabled := by
    intro k
    cases ha : dictGet (registryAfter ops).plan.attached k with
    | none =>
      cases hb : dictGet s.properties k with
      | none => rfl
      | some b =>
        have hk : k ∈ dictKeys s.properties := (dictGet_isSome_iff _ _).1 ⟨_, hb⟩
        rw [hi.keys, ← dictGet_isSome_iff] at hk
        obtain ⟨a, ha'⟩ := hk
        rw [ha] at ha'
        cases ha'
    | some a =>
      obtain ⟨b, hb, x, y, rfl⟩ := hi.specs k a ha
      rw [hb]
      rfl
  have hmapnot : ∀ o : Option (PropertySpec T V),
      o.map (fun s => !s.enabled) = (o.map PropertySpec.enabled).map not := by
    intro o; cases o <;> rfl
  have h1 := filter_map_fst (PropertySpec.enabled (T := T) (V := V)) hi.wf.nodup
  have h2 := filter_map_fst (PropertySpec.enabled (T := T) (V := V)) hr.plan.nodup
  have h3 := filter_map_fst (fun s : PropertySpec T V => !s.enabled) hi.wf.nodup
  have h4 := filter_map_fst (fun s : PropertySpec T V => !s.enabled) hr.plan.nodup
  simp only [hmapnot, hget, hi.keys] at h1 h3
  simp only [hmapnot] at h4
  unfold describePropertyCalculations
  rw [h1, h2, h3, h4, hi.builtin]

/-- A property listed as disabled gets no record at a sampling, whether the sampling succeeds or
fails because of another property. -/
theorem C145_disabled_gets_no_record (ops : List (RegOp T V Row)) (s : Sampler T V Row)
    (hs : (registryAfter ops).active = some s) (name : String)
    (hn : name ∈ (describePropertyCalculations s.builtin s.properties).attachedDisabled)
    (summary : List (String × Bool) → Row) (st : State T) (step : Int) (t : T) :
    (s.sampleProperties summary st step t).2.getPropertyRecords name =
      s.getPropertyRecords name := by
  have hw := ((regWF_after ops).active s hs).wf
  obtain ⟨spec, hspec, hen⟩ := (mem_filter_fst (fun s : PropertySpec T V => !s.enabled) hw.nodup name).1 hn
  simp only [Bool.not_eq_true'] at hen
  have hno : ¬ PropertyHasTurn s spec step t := fun h => by rw [h.1] at hen; cases hen
  rcases e : s.sampleProperties summary st step t with ⟨r, s'⟩
  cases r with
  | ok u =>
    exact ((C144_latest_value ops s s' hs summary st step t e name spec hspec).2 (.inl hno)).2
  | error err =>
    obtain ⟨pre, n0, sp0, post, hp, -, -, -, hpre, hpost⟩ :=
      C144_stops_at_first_failure ops s s' hs summary st step t err e
    have hm := mem_of_dictGet hspec
    unfold Sampler.getPropertyRecords
    rw [hp] at hm
    rcases List.mem_append.1 hm with hm | hm
    · obtain ⟨old, new, h1, h2, -, h3⟩ := hpre _ hm
      simp only at h1 h2
      rw [h1, h2, h3 hno]
    · have := (hpost _ hm).2
      simp only at this
      rw [this]

/-- Three properties attached, one disabled, one built-in quantity switched off. -/
example : let p := (registryAfter (CallbackFailureExample.ops ++
      [.plan (.setEnabled "tolerated" false), .plan (.setEnabled "msd" false)])).plan
    describePropertyCalculations p.builtin p.attached =
      ⟨["jump_diffusivity", "tracer_diffusivity", "conductivity", "havens_ratio",
        "correlation_factor"], ["msd"], ["good", "fatal"], ["tolerated"]⟩ := by decide +kernel

end KMC
