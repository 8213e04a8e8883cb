import Verif.Model.Reentrant
import Verif.Lemmas.Plan
import Mathlib.Data.List.Count
/-
Helper facts about registration calls made while sampling.
-/
set_option linter.unusedSectionVars false

namespace KMC.Reentrant

variable {W T V Row : Type} [Zero T] [Sub T] [LE T] [DecidableLE T]

/-- Registration invariant of a tracker with spec objects. -/
structure Sound (g : Reg T V Row) : Prop where
  nodup : (dictKeys g.properties).Nodup
  obj : ∀ k i, (k, i) ∈ g.properties → ∃ s, g.objects[i]? = some s ∧ s.name = k
  builtins : dictKeys g.builtin = builtinPropertyFields
  notBuiltin : ∀ k ∈ dictKeys g.properties, k ∉ builtinPropertyFields
  recs : ∀ k ∈ dictKeys g.properties, ∃ r, dictGet g.records k = some r

/-- Spec objects stay, with their names and store flags. -/
def Keeps (g g' : Reg T V Row) : Prop :=
  ∀ (i : Nat) s, g.objects[i]? = some s → ∃ s', g'.objects[i]? = some s' ∧ s'.name = s.name ∧ s'.store = s.store

theorem Keeps.refl (g : Reg T V Row) : Keeps g g := fun _ s h => ⟨s, h, rfl, rfl⟩

theorem Keeps.trans {a b c : Reg T V Row} (h1 : Keeps a b) (h2 : Keeps b c) : Keeps a c := by
  intro i s h
  obtain ⟨s1, e1, n1, t1⟩ := h1 i s h
  obtain ⟨s2, e2, n2, t2⟩ := h2 i s1 e1
  exact ⟨s2, e2, n2.trans n1, t2.trans t1⟩

theorem keeps_modify (g : Reg T V Row) (j : Nat) (f : PropertySpec T V → PropertySpec T V)
    (hf : ∀ s, (f s).name = s.name ∧ (f s).store = s.store) (g' : Reg T V Row)
    (hg : g'.objects = g.objects.modify j f) : Keeps g g' := by
  intro i s h
  rw [hg, List.getElem?_modify, h]
  by_cases hj : j = i
  · exact ⟨f s, by simp [hj], hf s⟩
  · exact ⟨s, by simp [hj], rfl, rfl⟩

theorem keeps_apply (g : Reg T V Row) (c : RegCall T V) : Keeps g (g.apply c) := by
  cases c with
  | attach a =>
    simp only [Reg.apply]
    split
    · exact .refl g
    · intro i s h
      refine ⟨s, ?_, rfl, rfl⟩
      simp only
      rw [List.getElem?_append_left]
      · exact h
      · exact (List.getElem?_eq_some_iff.1 h).1
  | detach n =>
    simp only [Reg.apply]
    split <;> exact fun i s h => ⟨s, h, rfl, rfl⟩
  | clear => exact fun i s h => ⟨s, h, rfl, rfl⟩
  | enable n on =>
    simp only [Reg.apply]
    split
    · exact fun i s h => ⟨s, h, rfl, rfl⟩
    · split
      · exact .refl g
      · exact keeps_modify g _ (fun s => { s with enabled := on }) (fun s => ⟨rfl, rfl⟩) _ rfl
  | frequency a b =>
    simp only [Reg.apply]
    split
    · exact .refl g
    · exact fun i s h => ⟨s, h, rfl, rfl⟩

theorem keeps_applyAll (cs : List (RegCall T V)) (g : Reg T V Row) : Keeps g (g.applyAll cs) := by
  induction cs generalizing g with
  | nil => exact .refl g
  | cons c cs ih => exact (keeps_apply g c).trans (ih _)

theorem keeps_mark (g : Reg T V Row) (i : Nat) (step : Int) (t : T) : Keeps g (g.mark i step t) :=
  keeps_modify g i (fun s => { s with lastTriggerStep := step, lastTriggerTime := some t }) (fun _ => ⟨rfl, rfl⟩) _ rfl

theorem sound_new : Sound ({} : Reg T V Row) where
  nodup := by simp [dictKeys]
  obj := by simp
  builtins := rfl
  notBuiltin := by simp [dictKeys]
  recs := by simp [dictKeys]

/-- Anything that keeps the listed properties, objects, built-ins' names and records' names keeps the invariant. -/
theorem Sound.congr {g g' : Reg T V Row} (h : Sound g) (hp : g'.properties = g.properties) (hk : Keeps g g')
    (hb : dictKeys g'.builtin = dictKeys g.builtin)
    (hr : ∀ k r, dictGet g.records k = some r → ∃ r', dictGet g'.records k = some r') : Sound g' where
  nodup := by rw [hp]; exact h.nodup
  obj := by
    intro k i hi
    rw [hp] at hi
    obtain ⟨s, e, n⟩ := h.obj k i hi
    obtain ⟨s', e', n', -⟩ := hk i s e
    exact ⟨s', e', n'.trans n⟩
  builtins := hb.trans h.builtins
  notBuiltin := by rw [hp]; exact h.notBuiltin
  recs := by
    rw [hp]
    intro k hk'
    obtain ⟨r, e⟩ := h.recs k hk'
    exact hr k r e

theorem sound_apply {g : Reg T V Row} (h : Sound g) (c : RegCall T V) : Sound (g.apply c) := by
  have hk := keeps_apply g c
  cases c with
  | attach a =>
    revert hk
    simp only [Reg.apply]
    cases hm : makePropertySpec a (dictKeys g.properties) with
    | error e => exact fun _ => h
    | ok spec =>
      intro hk
      obtain ⟨-, m2, m3, -⟩ := makePropertySpec_ok hm
      refine ⟨dictKeys_dictSet_nodup _ _ _ h.nodup, ?_, h.builtins, ?_, ?_⟩
      · intro k i hi
        rcases dictSet_mem hi with ⟨rfl, rfl⟩ | hi
        · exact ⟨spec, by simp, rfl⟩
        · obtain ⟨s, e, n⟩ := h.obj k i hi
          obtain ⟨s', e', n', -⟩ := hk i s e
          exact ⟨s', e', n'.trans n⟩
      · intro k hk'
        rcases (dictSet_keys_mem _ _ _ _).1 hk' with rfl | hk'
        · exact m2
        · exact h.notBuiltin k hk'
      · intro k hk'
        simp only [dictGet_dictSet]
        rcases (dictSet_keys_mem _ _ _ _).1 hk' with rfl | hk'
        · exact ⟨[], by simp⟩
        · by_cases hkn : k = spec.name
          · exact ⟨[], by simp [hkn]⟩
          · simpa [hkn] using h.recs k hk'
  | detach n =>
    simp only [Reg.apply]
    split
    · rename_i hn
      refine ⟨?_, ?_, h.builtins, ?_, ?_⟩
      · rw [dictKeys_dictDel]; exact h.nodup.erase _
      · intro k i hi
        exact h.obj k i (dictDel_mem hi)
      · intro k hk'
        rw [dictKeys_dictDel] at hk'
        exact h.notBuiltin k (List.mem_of_mem_erase hk')
      · intro k hk'
        rw [dictKeys_dictDel] at hk'
        have hne : k ≠ n := by
          rintro rfl
          exact (List.Nodup.not_mem_erase h.nodup) hk'
        simp only [dictGet_dictDel_ne _ hne]
        exact h.recs k (List.mem_of_mem_erase hk')
    · exact h
  | clear => exact ⟨by simp [Reg.apply, dictKeys], by simp [Reg.apply], h.builtins, by simp [Reg.apply, dictKeys],
      by simp [Reg.apply, dictKeys]⟩
  | enable n on =>
    revert hk
    simp only [Reg.apply]
    cases hb : dictGet g.builtin n with
    | some x =>
      intro hk
      refine h.congr rfl hk ?_ fun k r hr => ⟨r, hr⟩
      exact dictKeys_dictSet_of_mem _ _ ((dictGet_isSome_iff _ _).1 ⟨x, hb⟩)
    | none =>
      simp only
      split
      · exact fun _ => h
      · exact fun hk => h.congr rfl hk rfl fun k r hr => ⟨r, hr⟩
  | frequency a b =>
    revert hk
    simp only [Reg.apply]
    split
    · exact fun _ => h
    · exact fun hk => h.congr rfl hk rfl fun k r hr => ⟨r, hr⟩

theorem sound_applyAll (cs : List (RegCall T V)) {g : Reg T V Row} (h : Sound g) : Sound (g.applyAll cs) := by
  induction cs generalizing g with
  | nil => exact h
  | cons c cs ih => exact ih (sound_apply h c)

theorem sound_mark {g : Reg T V Row} (h : Sound g) (i : Nat) (step : Int) (t : T) : Sound (g.mark i step t) :=
  h.congr rfl (keeps_mark g i step t) rfl fun _ r hr => ⟨r, hr⟩

theorem sound_setRecords {g : Reg T V Row} (h : Sound g) (n : String) (r : List (PropertyRecord T V)) :
    Sound ({ g with records := dictSet g.records n r } : Reg T V Row) := by
  refine h.congr rfl (fun i s h => ⟨s, h, rfl, rfl⟩) rfl fun k r' hr => ?_
  simp only [dictGet_dictSet]
  by_cases hk : k = n
  · exact ⟨r, by simp [hk]⟩
  · exact ⟨r', by simpa [hk] using hr⟩

theorem sound_summary {g : Reg T V Row} (h : Sound g) (summary : List (String × Bool) → Row) (step : Int) (t : T) :
    Sound (g.sampleSummary summary step t) := by
  unfold Reg.sampleSummary
  split
  · exact h.congr rfl (fun i s h => ⟨s, h, rfl, rfl⟩) rfl fun k r hr => ⟨r, hr⟩
  · exact h

/-- Two entries that refer to one object are one entry. -/
theorem Sound.inj {g : Reg T V Row} (h : Sound g) {k k' : String} {i : Nat} (h1 : (k, i) ∈ g.properties)
    (h2 : (k', i) ∈ g.properties) : k = k' := by
  obtain ⟨s, e, n⟩ := h.obj k i h1
  obtain ⟨s', e', n'⟩ := h.obj k' i h2
  rw [e] at e'
  cases e'
  exact n.symm.trans n'

theorem Sound.refs_nodup {g : Reg T V Row} (h : Sound g) : (g.properties.map Prod.snd).Nodup := by
  have hn := h.nodup
  unfold dictKeys at hn
  have hp : g.properties.Nodup := List.Nodup.of_map _ hn
  refine List.Nodup.map_on ?_ hp
  rintro ⟨k, i⟩ h1 ⟨k', i'⟩ h2 rfl
  rw [h.inj h1 h2]

/-- The object is disabled, or no longer listed. -/
def Stopped (i : Nat) (g : Reg T V Row) : Prop :=
  (∀ s, g.objects[i]? = some s → s.enabled = false) ∨ i ∉ g.properties.map Prod.snd

theorem disabled_modify {g g' : Reg T V Row} {i j : Nat} {f : PropertySpec T V → PropertySpec T V}
    (hg : g'.objects = g.objects.modify j f) (hf : j = i → ∀ s, s.enabled = false → (f s).enabled = false)
    (h : ∀ s, g.objects[i]? = some s → s.enabled = false) : ∀ s, g'.objects[i]? = some s → s.enabled = false := by
  intro s hs
  rw [hg, List.getElem?_modify] at hs
  cases hi : g.objects[i]? with
  | none => rw [hi] at hs; simp at hs
  | some s0 =>
    rw [hi] at hs
    by_cases hj : j = i
    · simp [hj] at hs
      subst hs
      exact hf hj s0 (h s0 hi)
    · simp [hj] at hs
      subst hs
      exact h _ hi

/-- Whether object `i` is disabled is not changed by calls other than enabling its name. -/
theorem disabled_apply {g : Reg T V Row} (hs : Sound g) {i : Nat} {n : String}
    (hi : ∃ s, g.objects[i]? = some s ∧ s.name = n) (c : RegCall T V) (hc : c ≠ .enable n true)
    (h : ∀ s, g.objects[i]? = some s → s.enabled = false) :
    ∀ s, (g.apply c).objects[i]? = some s → s.enabled = false := by
  obtain ⟨s0, e0, n0⟩ := hi
  cases c with
  | attach a =>
    simp only [Reg.apply]
    split
    · exact h
    · simp only
      rw [List.getElem?_append_left (List.getElem?_eq_some_iff.1 e0).1]
      exact h
  | detach m =>
    simp only [Reg.apply]
    split <;> exact h
  | clear => exact h
  | enable m on =>
    simp only [Reg.apply]
    split
    · exact h
    · split
      · exact h
      · rename_i j hj
        refine disabled_modify (g := g) rfl ?_ h
        rintro rfl s hs'
        obtain ⟨s1, e1, n1⟩ := hs.obj m j (mem_of_dictGet hj)
        rw [e0] at e1
        cases e1
        have : m = n := n1.symm.trans n0
        subst this
        cases on with
        | true => exact absurd rfl hc
        | false => rfl
  | frequency a b =>
    simp only [Reg.apply]
    split <;> exact h

theorem stopped_apply {g : Reg T V Row} (hs : Sound g) {i : Nat} {n : String}
    (hi : ∃ s, g.objects[i]? = some s ∧ s.name = n) (c : RegCall T V) (hc : c ≠ .enable n true) (h : Stopped i g) :
    Stopped i (g.apply c) := by
  rcases h with h | h
  · exact .inl (disabled_apply hs hi c hc h)
  · refine .inr ?_
    obtain ⟨s0, e0, n0⟩ := hi
    have hlt := (List.getElem?_eq_some_iff.1 e0).1
    cases c with
    | attach a =>
      simp only [Reg.apply]
      split
      · exact h
      · intro hm
        obtain ⟨⟨k, j⟩, hj, hji⟩ := List.mem_map.1 hm
        simp only at hji
        subst hji
        rcases dictSet_mem hj with ⟨-, hj⟩ | hj
        · omega
        · exact h (List.mem_map.2 ⟨_, hj, rfl⟩)
    | detach m =>
      simp only [Reg.apply]
      split
      · intro hm
        obtain ⟨x, hx, rfl⟩ := List.mem_map.1 hm
        exact h (List.mem_map.2 ⟨_, dictDel_mem hx, rfl⟩)
      · exact h
    | clear => simp [Reg.apply]
    | enable m on =>
      simp only [Reg.apply]
      split
      · exact h
      · split <;> exact h
    | frequency a b =>
      simp only [Reg.apply]
      split <;> exact h

theorem stopped_applyAll {i : Nat} {n : String} (cs : List (RegCall T V)) (hc : RegCall.enable n true ∉ cs)
    {g : Reg T V Row} (hs : Sound g) (hi : ∃ s, g.objects[i]? = some s ∧ s.name = n) (h : Stopped i g) :
    Stopped i (g.applyAll cs) := by
  induction cs generalizing g with
  | nil => exact h
  | cons c cs ih =>
    have h1 : c ≠ .enable n true := fun e => hc (e ▸ List.mem_cons_self)
    obtain ⟨s0, e0, n0⟩ := hi
    obtain ⟨s1, e1, n1, -⟩ := keeps_apply g c i s0 e0
    exact ih (fun e => hc (List.mem_cons_of_mem _ e)) (sound_apply hs c) ⟨s1, e1, n1.trans n0⟩
      (stopped_apply hs ⟨s0, e0, n0⟩ c h1 h)

theorem disabled_applyAll {i : Nat} {n : String} (cs : List (RegCall T V)) (hc : RegCall.enable n true ∉ cs)
    {g : Reg T V Row} (hs : Sound g) (hi : ∃ s, g.objects[i]? = some s ∧ s.name = n)
    (h : ∀ s, g.objects[i]? = some s → s.enabled = false) :
    ∀ s, (g.applyAll cs).objects[i]? = some s → s.enabled = false := by
  induction cs generalizing g with
  | nil => exact h
  | cons c cs ih =>
    have h1 : c ≠ .enable n true := fun e => hc (e ▸ List.mem_cons_self)
    obtain ⟨s0, e0, n0⟩ := hi
    obtain ⟨s1, e1, n1, -⟩ := keeps_apply g c i s0 e0
    exact ih (fun e => hc (List.mem_cons_of_mem _ e)) (sound_apply hs c) ⟨s1, e1, n1.trans n0⟩
      (disabled_apply hs ⟨s0, e0, n0⟩ c h1 h)

/-- A call that stops the property of this name. -/
def Stops (n : String) (c : RegCall T V) : Prop := c = .enable n false ∨ c = .detach n ∨ c = .clear

theorem stopped_of_stops {g : Reg T V Row} (hs : Sound g) {i : Nat} {n : String}
    (hi : ∃ s, g.objects[i]? = some s ∧ s.name = n) {c : RegCall T V} (hc : Stops n c) : Stopped i (g.apply c) := by
  obtain ⟨s0, e0, n0⟩ := hi
  have hkey : ∀ k, (k, i) ∈ g.properties → k = n := by
    intro k hk
    obtain ⟨s, e, hn⟩ := hs.obj k i hk
    rw [e0] at e
    cases e
    exact hn.symm.trans n0
  rcases hc with rfl | rfl | rfl
  · simp only [Reg.apply]
    by_cases hl : i ∈ g.properties.map Prod.snd
    · obtain ⟨⟨k, j⟩, hj, hji⟩ := List.mem_map.1 hl
      simp only at hji
      subst hji
      obtain rfl := hkey k hj
      have hb : dictGet g.builtin k = none := by
        rw [dictGet_eq_none_iff, hs.builtins]
        exact hs.notBuiltin k (List.mem_map.2 ⟨_, hj, rfl⟩)
      rw [hb, dictGet_of_mem hs.nodup hj]
      left
      intro s hs'
      simp only [List.getElem?_modify, e0] at hs'
      simp at hs'
      subst hs'
      rfl
    · right
      split
      · exact hl
      · split <;> exact hl
  · right
    simp only [Reg.apply]
    split
    · intro hm
      obtain ⟨⟨k, j⟩, hj, hji⟩ := List.mem_map.1 hm
      simp only at hji
      subst hji
      obtain rfl := hkey k (dictDel_mem hj)
      have : k ∈ dictKeys (dictDel g.properties k) := List.mem_map.2 ⟨_, hj, rfl⟩
      rw [dictKeys_dictDel] at this
      exact (List.Nodup.not_mem_erase hs.nodup) this
    · rename_i hn
      intro hm
      obtain ⟨⟨k, j⟩, hj, hji⟩ := List.mem_map.1 hm
      simp only at hji
      subst hji
      obtain rfl := hkey k hj
      exact hn (List.mem_map.2 ⟨_, hj, rfl⟩)
  · right
    simp [Reg.apply]

theorem stopped_of_mem {i : Nat} {n : String} (cs : List (RegCall T V)) (hc : RegCall.enable n true ∉ cs)
    (hst : ∃ c ∈ cs, Stops n c) {g : Reg T V Row} (hs : Sound g) (hi : ∃ s, g.objects[i]? = some s ∧ s.name = n) :
    Stopped i (g.applyAll cs) := by
  induction cs generalizing g with
  | nil =>
    obtain ⟨c, hc, -⟩ := hst
    cases hc
  | cons c cs ih =>
    obtain ⟨s0, e0, n0⟩ := hi
    obtain ⟨s1, e1, n1, -⟩ := keeps_apply g c i s0 e0
    have hc' : RegCall.enable n true ∉ cs := fun e => hc (List.mem_cons_of_mem _ e)
    obtain ⟨c', hc1, hc2⟩ := hst
    rcases List.mem_cons.1 hc1 with rfl | hc1
    · exact stopped_applyAll cs hc' (sound_apply hs _) ⟨s1, e1, n1.trans n0⟩ (stopped_of_stops hs ⟨s0, e0, n0⟩ hc2)
    · exact ih hc' ⟨c', hc1, hc2⟩ (sound_apply hs c) ⟨s1, e1, n1.trans n0⟩

/-- What one turn of the loop does to the registrations: the calls of the callback and its handler, then possibly
a record and the mark. -/
theorem one_reg (b : Behaviour W T V Row) (st : State T) (step : Int) (t : T) (j : Nat) (l : Env W T V Row) :
    ((one b st step t j l).2 = l ∧ (one b st step t j l).1 = .ok ()) ∨
    ∃ (cs cs' : List (RegCall T V)) (g : Reg T V Row) (spec : PropertySpec T V),
      l.reg.objects[j]? = some spec ∧ spec.enabled = true ∧
      (one b st step t j l).2.called = l.called ++ [j] ∧
      (∃ w, cs = (b.call j w st l.reg step t).2.1) ∧
      (cs' = [] ∨ ∃ h w g', b.handle j = some h ∧ cs' = (h w st g' step t).2.1) ∧
      (g = (l.reg.applyAll cs).applyAll cs' ∨
        ∃ r, g = { (l.reg.applyAll cs) with records := dictSet (l.reg.applyAll cs).records spec.name r }) ∧
      ((one b st step t j l).2.reg = g ∨ (one b st step t j l).2.reg = g.mark j step t) ∧
      ((one b st step t j l).1 = .ok () ∨ (one b st step t j l).1 = .error .callbackError ∨
        ((one b st step t j l).1 = .error .keyError ∧ dictGet (l.reg.applyAll cs).records spec.name = none)) := by
  unfold one
  cases ho : l.reg.objects[j]? with
  | none => exact .inl ⟨rfl, rfl⟩
  | some spec =>
    simp only
    cases hd : l.reg.due spec step t with
    | false => exact .inl ⟨rfl, rfl⟩
    | true =>
      right
      have hen : spec.enabled = true := by
        unfold Reg.due at hd
        simp only [Bool.and_eq_true] at hd
        exact hd.1
      simp only [if_true]
      rcases hc : b.call j l.world st l.reg step t with ⟨r, cs, w1⟩
      have hcs : ∃ w, cs = (b.call j w st l.reg step t).2.1 := ⟨l.world, by rw [hc]⟩
      cases r with
      | raised =>
        simp only [onRaise]
        cases hh : b.handle j with
        | none =>
          exact ⟨cs, [], _, spec, rfl, hen, rfl, hcs, .inl rfl, .inl rfl, .inl rfl, .inr (.inl rfl)⟩
        | some h =>
          simp only
          rcases hr : h w1 st (l.reg.applyAll cs) step t with ⟨o, cs', w2⟩
          have hcs' : ∃ h' w g', some h = some h' ∧ cs' = (h' w st g' step t).2.1 :=
            ⟨h, w1, _, rfl, by rw [hr]⟩
          match o with
          | none => exact ⟨cs, cs', _, spec, rfl, hen, rfl, hcs, .inr hcs', .inl rfl, .inl rfl, .inr (.inl rfl)⟩
          | some true => exact ⟨cs, cs', _, spec, rfl, hen, rfl, hcs, .inr hcs', .inl rfl, .inr rfl, .inl rfl⟩
          | some false => exact ⟨cs, cs', _, spec, rfl, hen, rfl, hcs, .inr hcs', .inl rfl, .inl rfl, .inr (.inl rfl)⟩
      | value v =>
        simp only
        cases hst : spec.store with
        | false => exact ⟨cs, [], _, spec, rfl, hen, rfl, hcs, .inl rfl, .inl rfl, .inr rfl, .inl rfl⟩
        | true =>
          simp only [if_true]
          cases hg : dictGet (l.reg.applyAll cs).records spec.name with
          | none =>
            exact ⟨cs, [], _, spec, rfl, hen, rfl, hcs, .inl rfl, .inl rfl, .inl rfl, .inr (.inr ⟨rfl, hg⟩)⟩
          | some recs => exact ⟨cs, [], _, spec, rfl, hen, rfl, hcs, .inl rfl, .inr ⟨_, rfl⟩, .inr rfl, .inl rfl⟩

theorem one_sound (b : Behaviour W T V Row) (st : State T) (step : Int) (t : T) (j : Nat) {l : Env W T V Row}
    (h : Sound l.reg) : Sound (one b st step t j l).2.reg ∧ Keeps l.reg (one b st step t j l).2.reg := by
  rcases one_reg b st step t j l with ⟨h1, -⟩ | ⟨cs, cs', g, spec, ho, -, -, -, -, hg, hr, -⟩
  · rw [h1]; exact ⟨h, .refl _⟩
  · have hgg : Sound g ∧ Keeps l.reg g := by
      rcases hg with rfl | ⟨r, rfl⟩
      · exact ⟨sound_applyAll _ (sound_applyAll _ h), (keeps_applyAll _ _).trans (keeps_applyAll _ _)⟩
      · exact ⟨sound_setRecords (sound_applyAll _ h) _ _,
          (keeps_applyAll _ _).trans fun i s h => ⟨s, h, rfl, rfl⟩⟩
    rcases hr with hr | hr
    · rw [hr]; exact hgg
    · rw [hr]; exact ⟨sound_mark hgg.1 _ _ _, hgg.2.trans (keeps_mark _ _ _ _)⟩

theorem loop_sound (b : Behaviour W T V Row) (st : State T) (step : Int) (t : T) (ids : List Nat) {l : Env W T V Row}
    (h : Sound l.reg) : Sound (loop b st step t ids l).2.reg ∧ Keeps l.reg (loop b st step t ids l).2.reg := by
  induction ids generalizing l with
  | nil => exact ⟨h, .refl _⟩
  | cons j ids ih =>
    have h1 := one_sound b st step t j h
    simp only [loop]
    rcases ho : one b st step t j l with ⟨r, l'⟩
    rw [ho] at h1
    cases r with
    | error e => exact h1
    | ok u =>
      have := ih (l := l') h1.1
      exact ⟨this.1, h1.2.trans this.2⟩

theorem sample_sound (b : Behaviour W T V Row) (p : Point T Row) {l : Env W T V Row} (h : Sound l.reg) :
    Sound (sample b p.summary p.st p.step p.time l).2.reg :=
  (loop_sound b p.st p.step p.time _ (l := { l with reg := l.reg.sampleSummary p.summary p.step p.time })
    (sound_summary h _ _ _)).1

theorem samples_sound (b : Behaviour W T V Row) (ps : List (Point T Row)) {l : Env W T V Row} (h : Sound l.reg) :
    Sound (samples b ps l).2.reg := by
  induction ps generalizing l with
  | nil => exact h
  | cons p ps ih =>
    have h1 := sample_sound b p h
    simp only [samples]
    rcases ho : sample b p.summary p.st p.step p.time l with ⟨r, l'⟩
    rw [ho] at h1
    cases r with
    | error e => exact h1
    | ok u => exact ih h1

/-- The functions called in one loop are those of a part of the list, in its order. -/
theorem loop_called (b : Behaviour W T V Row) (st : State T) (step : Int) (t : T) (ids : List Nat) (l : Env W T V Row) :
    ∃ xs, (loop b st step t ids l).2.called = l.called ++ xs ∧ xs.Sublist ids := by
  induction ids generalizing l with
  | nil => exact ⟨[], by simp [loop], .refl _⟩
  | cons j ids ih =>
    have h1 : ∃ ys, (one b st step t j l).2.called = l.called ++ ys ∧ ys.Sublist [j] := by
      rcases one_reg b st step t j l with ⟨h1, -⟩ | ⟨cs, cs', g, spec, ho, -, hcal, -⟩
      · exact ⟨[], by rw [h1]; simp, by simp⟩
      · exact ⟨[j], hcal, .refl _⟩
    obtain ⟨ys, e1, s1⟩ := h1
    simp only [loop]
    rcases ho : one b st step t j l with ⟨r, l'⟩
    rw [ho] at e1
    cases r with
    | error e =>
      exact ⟨ys, e1, s1.trans (by simp)⟩
    | ok u =>
      obtain ⟨xs, e2, s2⟩ := ih l'
      refine ⟨ys ++ xs, ?_, ?_⟩
      · simp only at e1 ⊢
        rw [e2, e1, List.append_assoc]
      · have := s1.append s2
        simpa using this

end KMC.Reentrant
