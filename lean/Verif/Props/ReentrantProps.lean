import Verif.Lemmas.Reentrant
import Verif.Spec.Reentrant
/-
C114: registration calls from inside callbacks.
-/
set_option linter.unusedSectionVars false

namespace KMC
open Spec Reentrant

variable {W T V Row : Type} [Zero T] [Sub T] [LE T] [DecidableLE T]

theorem newTracker_sound (w : W) (cs : List (RegCall T V)) : Sound (newTracker (Row := Row) w cs).reg :=
  sound_applyAll cs sound_new

/-- C114.  Whatever is registered from inside callbacks: one sampling calls functions of properties that were
attached when it began, in the order of attachment and each at most once.  A property attached while sampling is not
called before the next sampling. -/
theorem C114_called_from_the_list (b : Behaviour W T V Row) (w : W) (cs : List (RegCall T V)) (ps : List (Point T Row))
    (l : Env W T V Row) (hl : samples b ps (newTracker w cs) = (.ok (), l)) (p : Point T Row) :
    ∃ xs, (sample b p.summary p.st p.step p.time l).2.called = l.called ++ xs ∧
      xs.Sublist (l.reg.properties.map Prod.snd) ∧ xs.Nodup ∧ ∀ i ∈ xs, i < l.reg.objects.length := by
  have hs : Sound l.reg := by
    have := samples_sound b ps (l := newTracker w cs) (newTracker_sound w cs)
    rw [hl] at this
    exact this
  have hp : (l.reg.sampleSummary p.summary p.step p.time).properties = l.reg.properties := by
    unfold Reg.sampleSummary
    split <;> rfl
  obtain ⟨xs, e, sub⟩ := loop_called b p.st p.step p.time (l.reg.properties.map Prod.snd)
    { l with reg := l.reg.sampleSummary p.summary p.step p.time }
  refine ⟨xs, ?_, sub, sub.nodup hs.refs_nodup, ?_⟩
  · unfold sample
    simp only [hp]
    exact e
  · intro i hi
    obtain ⟨⟨k, j⟩, hj, rfl⟩ := List.mem_map.1 (sub.subset hi)
    obtain ⟨s, es, -⟩ := hs.obj k j hj
    exact (List.getElem?_eq_some_iff.1 es).1

/-- Records stay available under calls that remove nothing. -/
theorem records_stay (cs : List (RegCall T V)) (hc : ∀ c ∈ cs, ¬ Removes c) {g : Reg T V Row} {k : String}
    (h : ∃ r, dictGet g.records k = some r) : ∃ r, dictGet (g.applyAll cs).records k = some r := by
  induction cs generalizing g with
  | nil => exact h
  | cons c cs ih =>
    refine ih (fun c' h' => hc c' (List.mem_cons_of_mem _ h')) ?_
    have h1 := hc c List.mem_cons_self
    cases c with
    | attach a =>
      simp only [Reg.apply]
      split
      · exact h
      · obtain ⟨r, hr⟩ := h
        simp only [dictGet_dictSet]
        split
        · exact ⟨_, rfl⟩
        · exact ⟨r, hr⟩
    | detach n => exact absurd trivial h1
    | clear => exact absurd trivial h1
    | enable n on =>
      simp only [Reg.apply]
      split
      · exact h
      · split <;> exact h
    | frequency a b =>
      simp only [Reg.apply]
      split <;> exact h

theorem loop_no_key_error (b : Behaviour W T V Row) (hb : EveryCall b fun c => ¬ Removes c) (st : State T) (step : Int)
    (t : T) (ids : List Nat) {l : Env W T V Row} (hs : Sound l.reg)
    (h : ∀ j ∈ ids, ∃ s, l.reg.objects[j]? = some s ∧ ∃ r, dictGet l.reg.records s.name = some r) :
    (loop b st step t ids l).1 = .ok () ∨ (loop b st step t ids l).1 = .error .callbackError := by
  induction ids generalizing l with
  | nil => exact .inl rfl
  | cons j ids ih =>
    have hso := one_sound b st step t j hs
    have key : ((one b st step t j l).1 = .ok () ∨ (one b st step t j l).1 = .error .callbackError) ∧
        ∀ k, (∃ r, dictGet l.reg.records k = some r) → ∃ r, dictGet (one b st step t j l).2.reg.records k = some r := by
      rcases one_reg b st step t j l with ⟨h1, h2⟩ | ⟨cs, cs', g, spec, ho, -, -, ⟨w, hcs⟩, hcs', hg, hr, hres⟩
      · rw [h1]; exact ⟨.inl h2, fun k hk => hk⟩
      · have hn : ∀ c ∈ cs, ¬ Removes c := by rw [hcs]; exact hb.1 j w st l.reg step t
        have hn' : ∀ c ∈ cs', ¬ Removes c := by
          rcases hcs' with rfl | ⟨h', w', g', hh, rfl⟩
          · simp
          · exact hb.2 j h' hh w' st g' step t
        constructor
        · rcases hres with hres | hres | ⟨-, hnone⟩
          · exact .inl hres
          · exact .inr hres
          · obtain ⟨s, e, r, hr'⟩ := h j List.mem_cons_self
            rw [ho] at e
            cases e
            obtain ⟨r', hr''⟩ := records_stay cs hn (g := l.reg) ⟨r, hr'⟩
            rw [hnone] at hr''
            cases hr''
        · intro k hk
          have hgk : ∃ r, dictGet g.records k = some r := by
            rcases hg with rfl | ⟨r, rfl⟩
            · exact records_stay cs' hn' (records_stay cs hn hk)
            · obtain ⟨r', hr'⟩ := records_stay cs hn hk
              simp only [dictGet_dictSet]
              split
              · exact ⟨_, rfl⟩
              · exact ⟨r', hr'⟩
          rcases hr with hr | hr
          · rw [hr]; exact hgk
          · rw [hr]; exact hgk
    simp only [loop]
    rcases ho : one b st step t j l with ⟨r, l'⟩
    rw [ho] at hso key
    cases r with
    | error e => exact key.1
    | ok u =>
      refine ih (l := l') hso.1 fun j' hj' => ?_
      obtain ⟨s, e, hr⟩ := h j' (List.mem_cons_of_mem _ hj')
      obtain ⟨s', e', n', -⟩ := hso.2 j' s e
      exact ⟨s', e', by rw [n']; exact key.2 _ hr⟩

theorem sample_no_key_error (b : Behaviour W T V Row) (hb : EveryCall b fun c => ¬ Removes c) (p : Point T Row)
    {l : Env W T V Row} (hs : Sound l.reg) :
    (sample b p.summary p.st p.step p.time l).1 = .ok () ∨
      (sample b p.summary p.st p.step p.time l).1 = .error .callbackError := by
  have hs1 := sound_summary hs p.summary p.step p.time
  refine loop_no_key_error b hb p.st p.step p.time _
    (l := { l with reg := l.reg.sampleSummary p.summary p.step p.time }) hs1 ?_
  intro j hj
  obtain ⟨⟨k, i⟩, hi, rfl⟩ := List.mem_map.1 hj
  obtain ⟨s, e, n⟩ := hs1.obj k i hi
  exact ⟨s, e, by rw [n]; exact hs1.recs k (List.mem_map.2 ⟨_, hi, rfl⟩)⟩

/-- C114.  Callbacks may attach properties, enable and disable them and change the schedule: as long as none is
detached from inside a callback, sampling raises nothing but the error about a failed callback. -/
theorem C114_registering_is_safe (b : Behaviour W T V Row) (hb : EveryCall b fun c => ¬ Removes c) (w : W)
    (cs : List (RegCall T V)) (ps : List (Point T Row)) :
    (samples b ps (newTracker w cs)).1 = .ok () ∨ (samples b ps (newTracker w cs)).1 = .error .callbackError := by
  have : ∀ (ps : List (Point T Row)) (l : Env W T V Row), Sound l.reg →
      (samples b ps l).1 = .ok () ∨ (samples b ps l).1 = .error .callbackError := by
    intro ps
    induction ps with
    | nil => exact fun l _ => .inl rfl
    | cons p ps ih =>
      intro l hs
      have h1 := sample_no_key_error b hb p hs
      have h2 := sample_sound b p hs
      simp only [samples]
      rcases ho : sample b p.summary p.st p.step p.time l with ⟨r, l'⟩
      rw [ho] at h1 h2
      cases r with
      | error e => exact h1
      | ok u => exact ih l' h2
  exact this ps _ (newTracker_sound w cs)

/-- While nothing enables property `n` again: object `i` was called at most once, and if it was, it is stopped. -/
structure OnceAtMost (i : Nat) (n : String) (l : Env W T V Row) : Prop where
  sound : Sound l.reg
  object : ∃ s, l.reg.objects[i]? = some s ∧ s.name = n
  count : l.called.count i ≤ 1
  stopped : i ∈ l.called → Stopped i l.reg

theorem one_once {b : Behaviour W T V Row} {i : Nat} {n : String} (hi : StopsItself b i n)
    (hb : EveryCall b fun c => c ≠ .enable n true) (st : State T) (step : Int) (t : T) (j : Nat) {l : Env W T V Row}
    (h : OnceAtMost i n l)
    (hcan : i ∈ l.called → j = i → ∀ s, l.reg.objects[i]? = some s → s.enabled = false) :
    OnceAtMost i n (one b st step t j l).2 ∧
    ((∀ s, l.reg.objects[i]? = some s → s.enabled = false) →
      ∀ s, (one b st step t j l).2.reg.objects[i]? = some s → s.enabled = false) := by
  have hso := one_sound b st step t j h.sound
  obtain ⟨s0, e0, n0⟩ := h.object
  have hobj : ∃ s, (one b st step t j l).2.reg.objects[i]? = some s ∧ s.name = n := by
    obtain ⟨s1, e1, n1, -⟩ := hso.2 i s0 e0
    exact ⟨s1, e1, n1.trans n0⟩
  rcases one_reg b st step t j l with ⟨h1, h2⟩ | ⟨cs, cs', g, spec, ho, hen, hcal, ⟨w, hcs⟩, hcs', hg, hr, hres⟩
  · rw [h1]; exact ⟨h, fun hh => hh⟩
  · have hn : RegCall.enable n true ∉ cs := by
      rw [hcs]; exact fun hm => hb.1 j w st l.reg step t _ hm rfl
    have hn' : RegCall.enable n true ∉ cs' := by
      rcases hcs' with rfl | ⟨h', w', g', hh, rfl⟩
      · simp
      · exact fun hm => hb.2 j h' hh w' st g' step t _ hm rfl
    have obj1 : ∃ s, (l.reg.applyAll cs).objects[i]? = some s ∧ s.name = n := by
      obtain ⟨s1, e1, n1, -⟩ := keeps_applyAll cs l.reg i s0 e0
      exact ⟨s1, e1, n1.trans n0⟩
    have s1 := sound_applyAll cs h.sound
    have tail : Stopped i (l.reg.applyAll cs) → Stopped i (one b st step t j l).2.reg := by
      intro hst
      have hg' : Stopped i g := by
        rcases hg with rfl | ⟨r, rfl⟩
        · exact stopped_applyAll cs' hn' s1 obj1 hst
        · exact hst
      rcases hr with hr | hr
      · rw [hr]; exact hg'
      · rw [hr]
        rcases hg' with hd | hd
        · exact .inl (disabled_modify (g := g) rfl (fun _ s hs => hs) hd)
        · exact .inr hd
    have dtail : (∀ s, l.reg.objects[i]? = some s → s.enabled = false) →
        ∀ s, (one b st step t j l).2.reg.objects[i]? = some s → s.enabled = false := by
      intro hd
      have hd1 := disabled_applyAll cs hn h.sound ⟨s0, e0, n0⟩ hd
      have hg' : ∀ s, g.objects[i]? = some s → s.enabled = false := by
        rcases hg with rfl | ⟨r, rfl⟩
        · exact disabled_applyAll cs' hn' s1 obj1 hd1
        · exact hd1
      rcases hr with hr | hr
      · rw [hr]; exact hg'
      · rw [hr]
        exact disabled_modify (g := g) rfl (fun _ s hs => hs) hg'
    refine ⟨⟨hso.1, hobj, ?_, ?_⟩, dtail⟩
    · rw [hcal]
      by_cases hj : j = i
      · subst hj
        have hnot : j ∉ l.called := by
          intro hm
          have := hcan hm rfl spec ho
          rw [hen] at this
          cases this
        rw [List.count_append, List.count_eq_zero_of_not_mem hnot]
        simp
      · rw [List.count_append, List.count_singleton]
        simp [hj, h.count]
    · intro hm
      rw [hcal] at hm
      apply tail
      by_cases hj : j = i
      · subst hj
        refine stopped_of_mem cs hn ?_ h.sound ⟨s0, e0, n0⟩
        rw [hcs]
        exact hi w st l.reg step t
      · have : i ∈ l.called := by
          rcases List.mem_append.1 hm with hm | hm
          · exact hm
          · exact absurd (List.mem_singleton.1 hm).symm hj
        exact stopped_applyAll cs hn h.sound ⟨s0, e0, n0⟩ (h.stopped this)

theorem loop_once {b : Behaviour W T V Row} {i : Nat} {n : String} (hi : StopsItself b i n)
    (hb : EveryCall b fun c => c ≠ .enable n true) (st : State T) (step : Int) (t : T) (ids : List Nat)
    (hids : ids.Nodup) {l : Env W T V Row} (h : OnceAtMost i n l)
    (hcan : i ∈ l.called → i ∉ ids ∨ ∀ s, l.reg.objects[i]? = some s → s.enabled = false) :
    OnceAtMost i n (loop b st step t ids l).2 := by
  induction ids generalizing l with
  | nil => exact h
  | cons j ids ih =>
    obtain ⟨hj, hids'⟩ := List.nodup_cons.1 hids
    have h1 := one_once hi hb st step t j h (by
      rintro hm rfl
      rcases hcan hm with hc | hc
      · exact absurd List.mem_cons_self hc
      · exact hc)
    have hcal : (one b st step t j l).2.called = l.called ∨ (one b st step t j l).2.called = l.called ++ [j] := by
      rcases one_reg b st step t j l with ⟨h1, -⟩ | ⟨cs, cs', g, spec, ho, -, hcal, -⟩
      · rw [h1]; exact .inl rfl
      · exact .inr hcal
    simp only [loop]
    rcases ho : one b st step t j l with ⟨r, l'⟩
    rw [ho] at h1 hcal
    cases r with
    | error e => exact h1.1
    | ok u =>
      refine ih hids' h1.1 fun hm => ?_
      simp only at hcal hm
      by_cases hji : j = i
      · exact .inl (hji ▸ hj)
      · have hm' : i ∈ l.called := by
          rcases hcal with hcal | hcal
          · rwa [hcal] at hm
          · rw [hcal] at hm
            rcases List.mem_append.1 hm with hm | hm
            · exact hm
            · exact absurd (List.mem_singleton.1 hm).symm hji
        rcases hcan hm' with hc | hc
        · exact .inl fun hx => hc (List.mem_cons_of_mem _ hx)
        · exact .inr (h1.2 hc)

/-- C114.  A callback that disables or detaches its own property is called at most once, however often the
properties are sampled, unless some callback enables the property again. -/
theorem C114_stopped_is_never_called_again (b : Behaviour W T V Row) (w : W) (cs : List (RegCall T V)) (i : Nat)
    (n : String) (hn : ∃ s, (newTracker (Row := Row) w cs).reg.objects[i]? = some s ∧ s.name = n)
    (hi : StopsItself b i n) (hb : EveryCall b fun c => c ≠ .enable n true) (ps : List (Point T Row)) :
    (samples b ps (newTracker w cs)).2.called.count i ≤ 1 := by
  have : ∀ (ps : List (Point T Row)) (l : Env W T V Row), OnceAtMost i n l → OnceAtMost i n (samples b ps l).2 := by
    intro ps
    induction ps with
    | nil => exact fun l h => h
    | cons p ps ih =>
      intro l h
      have hs1 := sound_summary h.sound p.summary p.step p.time
      have ho1 : (l.reg.sampleSummary p.summary p.step p.time).objects = l.reg.objects := by
        unfold Reg.sampleSummary
        split <;> rfl
      have hp1 : (l.reg.sampleSummary p.summary p.step p.time).properties = l.reg.properties := by
        unfold Reg.sampleSummary
        split <;> rfl
      have hst : i ∈ l.called → Stopped i (l.reg.sampleSummary p.summary p.step p.time) := by
        intro hm
        have := h.stopped hm
        unfold Stopped at this ⊢
        rw [ho1, hp1]
        exact this
      have h1 : OnceAtMost i n (sample b p.summary p.st p.step p.time l).2 := by
        refine loop_once hi hb p.st p.step p.time _ hs1.refs_nodup
          (l := { l with reg := l.reg.sampleSummary p.summary p.step p.time })
          ⟨hs1, by simpa only [ho1] using h.object, h.count, hst⟩ ?_
        intro hm
        exact (hst hm).symm
      simp only [samples]
      rcases ho : sample b p.summary p.st p.step p.time l with ⟨r, l'⟩
      rw [ho] at h1
      cases r with
      | error e => exact h1
      | ok u => exact ih l' h1
  exact (this ps _ ⟨newTracker_sound w cs, hn, by simp [newTracker], by simp [newTracker]⟩).count

theorem due_summary (g : Reg T V Row) (summary : List (String × Bool) → Row) (step' : Int) (t' : T)
    (spec : PropertySpec T V) (step : Int) (t : T) :
    (g.sampleSummary summary step' t').due spec step t = g.due spec step t := by
  unfold Reg.sampleSummary
  split <;> rfl

/-- C114.  Detaching from inside is not safe: a property that stores its values and whose callback detaches it ends
the run with a `KeyError` when it is sampled, whatever else is registered behind it. -/
theorem C114_detaching_itself_ends_the_run (b : Behaviour W T V Row) (l : Env W T V Row) (n : String) (i : Nat)
    (rest : List (String × Nat)) (spec : PropertySpec T V) (p : Point T Row) (v : V) (w' : W)
    (hp : l.reg.properties = (n, i) :: rest) (hi : l.reg.objects[i]? = some spec) (hn : spec.name = n)
    (hk : (dictKeys l.reg.records).Nodup) (hstore : spec.store = true) (hdue : l.reg.due spec p.step p.time = true)
    (hc : b.call i l.world p.st (l.reg.sampleSummary p.summary p.step p.time) p.step p.time = (.value v, [.detach n], w')) :
    (sample b p.summary p.st p.step p.time l).1 = .error .keyError := by
  have hp1 : (l.reg.sampleSummary p.summary p.step p.time).properties = (n, i) :: rest := by
    rw [← hp]; unfold Reg.sampleSummary; split <;> rfl
  have ho1 : (l.reg.sampleSummary p.summary p.step p.time).objects = l.reg.objects := by
    unfold Reg.sampleSummary; split <;> rfl
  have hr1 : (l.reg.sampleSummary p.summary p.step p.time).records = l.reg.records := by
    unfold Reg.sampleSummary; split <;> rfl
  have hrec : dictGet (dictDel l.reg.records n) n = none := by
    rw [dictGet_eq_none_iff, dictKeys_dictDel]
    exact List.Nodup.not_mem_erase hk
  simp only [sample, hp1, List.map_cons, loop, one, ho1, hi, due_summary, hdue, if_true, hc, hstore,
    Reg.applyAll, List.foldl, Reg.apply, hn, hr1]
  simp [dictKeys, hrec]

/-- C114.  The same holds for clearing all attachments from inside: it takes the records away with the properties, so
a property that stores its values and whose callback clears everything ends the run with a `KeyError`, and no property
and no record is left. -/
theorem C114_clearing_ends_the_run (b : Behaviour W T V Row) (l : Env W T V Row) (n : String) (i : Nat)
    (rest : List (String × Nat)) (spec : PropertySpec T V) (p : Point T Row) (v : V) (w' : W)
    (hp : l.reg.properties = (n, i) :: rest) (hi : l.reg.objects[i]? = some spec)
    (hstore : spec.store = true) (hdue : l.reg.due spec p.step p.time = true)
    (hc : b.call i l.world p.st (l.reg.sampleSummary p.summary p.step p.time) p.step p.time = (.value v, [.clear], w')) :
    (sample b p.summary p.st p.step p.time l).1 = .error .keyError ∧
    (sample b p.summary p.st p.step p.time l).2.reg.properties = [] ∧
    (sample b p.summary p.st p.step p.time l).2.reg.records = [] := by
  have hp1 : (l.reg.sampleSummary p.summary p.step p.time).properties = (n, i) :: rest := by
    rw [← hp]; unfold Reg.sampleSummary; split <;> rfl
  have ho1 : (l.reg.sampleSummary p.summary p.step p.time).objects = l.reg.objects := by
    unfold Reg.sampleSummary; split <;> rfl
  simp [sample, hp1, loop, one, ho1, hi, due_summary, hdue, hc, hstore, Reg.applyAll, Reg.apply, dictGet]

/-- C114.  A callback cannot keep a later one from being called in the same sampling by detaching it: the later
function is called although its property is not attached any more, and if it stores its values the run ends with a
`KeyError`. -/
theorem C114_detached_is_still_called (b : Behaviour W T V Row) (l : Env W T V Row) (n m : String) (i j : Nat)
    (rest : List (String × Nat)) (first second : PropertySpec T V) (p : Point T Row) (v v' : V) (w' : W)
    (hp : l.reg.properties = (n, i) :: (m, j) :: rest) (hij : i ≠ j)
    (hi : l.reg.objects[i]? = some first) (hj : l.reg.objects[j]? = some second) (hm : second.name = m)
    (hk : (dictKeys l.reg.records).Nodup) (hs1 : first.store = false) (hs2 : second.store = true)
    (hd1 : l.reg.due first p.step p.time = true) (hd2 : l.reg.due second p.step p.time = true)
    (hc : b.call i l.world p.st (l.reg.sampleSummary p.summary p.step p.time) p.step p.time = (.value v, [.detach m], w'))
    (hc' : ∀ w g, (b.call j w p.st g p.step p.time).1 = .value v' ∧ (b.call j w p.st g p.step p.time).2.1 = []) :
    (sample b p.summary p.st p.step p.time l).1 = .error .keyError ∧
    (sample b p.summary p.st p.step p.time l).2.called = l.called ++ [i, j] := by
  have hp1 : (l.reg.sampleSummary p.summary p.step p.time).properties = (n, i) :: (m, j) :: rest := by
    rw [← hp]; unfold Reg.sampleSummary; split <;> rfl
  have ho1 : (l.reg.sampleSummary p.summary p.step p.time).objects = l.reg.objects := by
    unfold Reg.sampleSummary; split <;> rfl
  have hr1 : (l.reg.sampleSummary p.summary p.step p.time).records = l.reg.records := by
    unfold Reg.sampleSummary; split <;> rfl
  have hrec : dictGet (dictDel l.reg.records m) m = none := by
    rw [dictGet_eq_none_iff, dictKeys_dictDel]
    exact List.Nodup.not_mem_erase hk
  -- the first turn
  obtain ⟨l1, h1, hl1⟩ : ∃ l1, one b p.st p.step p.time i { l with reg := l.reg.sampleSummary p.summary p.step p.time } =
      (.ok (), l1) ∧ (l1.called = l.called ++ [i] ∧ l1.reg.objects[j]? = some second ∧
        l1.reg.records = dictDel l.reg.records m ∧ l1.reg.due second p.step p.time = true) := by
    refine ⟨⟨w', ((l.reg.sampleSummary p.summary p.step p.time).apply (.detach m)).mark i p.step p.time,
      l.called ++ [i]⟩, ?_, rfl, ?_, ?_, ?_⟩
    · simp only [one, ho1, hi, due_summary, hd1, if_true, hc, hs1, Reg.applyAll, List.foldl, if_neg Bool.false_ne_true]
    · simp only [Reg.mark, Reg.apply, hp1]
      simp [dictKeys, hij, ho1, hj]
    · simp only [Reg.mark, Reg.apply, hp1]
      simp [dictKeys, hr1]
    · rw [← due_summary l.reg p.summary p.step p.time second p.step p.time] at hd2
      rw [← hd2]
      simp only [Reg.mark, Reg.apply, hp1, Reg.due]
      simp [dictKeys]
  obtain ⟨q1, q2, q3, q4⟩ := hl1
  obtain ⟨c1, c2⟩ := hc' l1.world l1.reg
  rcases hcj : b.call j l1.world p.st l1.reg p.step p.time with ⟨r, cs, w2⟩
  rw [hcj] at c1 c2
  simp only at c1 c2
  subst c1 c2
  simp only [sample, hp1, List.map_cons, loop, h1]
  have h2 : one b p.st p.step p.time j l1 = (.error .keyError, ⟨w2, l1.reg, l1.called ++ [j]⟩) := by
    simp only [one, q2, q4, if_true, hcj, hs2, Reg.applyAll, List.foldl, hm, q3, hrec]
  rw [h2]
  simp [q1]

/-- C114.  A callback that detaches its property and attaches another one under the same name has its own value
stored as the first record of the new property, whose function was not called. -/
theorem C114_value_under_the_new_property (b : Behaviour W T V Row) (l : Env W T V Row) (n : String) (i : Nat)
    (spec new : PropertySpec T V) (a : AttachArgs T V) (p : Point T Row) (v : V) (w' : W)
    (hp : l.reg.properties = [(n, i)]) (hi : l.reg.objects[i]? = some spec) (hn : spec.name = n)
    (hstore : spec.store = true) (hmax : spec.maxRecords = none) (hdue : l.reg.due spec p.step p.time = true)
    (ha : makePropertySpec a [] = .ok new) (hnew : new.name = n)
    (hc : b.call i l.world p.st (l.reg.sampleSummary p.summary p.step p.time) p.step p.time =
      (.value v, [.detach n, .attach a], w')) :
    (sample b p.summary p.st p.step p.time l).1 = .ok () ∧
    (sample b p.summary p.st p.step p.time l).2.called = l.called ++ [i] ∧
    (sample b p.summary p.st p.step p.time l).2.reg.properties = [(n, l.reg.objects.length)] ∧
    dictGet (sample b p.summary p.st p.step p.time l).2.reg.records n = some [⟨n, p.step, p.time, v⟩] := by
  have hp1 : (l.reg.sampleSummary p.summary p.step p.time).properties = [(n, i)] := by
    rw [← hp]; unfold Reg.sampleSummary; split <;> rfl
  have ho1 : (l.reg.sampleSummary p.summary p.step p.time).objects = l.reg.objects := by
    unfold Reg.sampleSummary; split <;> rfl
  simp only [sample, hp1, List.map_cons, List.map_nil, loop, one, ho1, hi, due_summary, hdue, if_true, hc, hstore,
    Reg.applyAll, List.foldl, Reg.apply, hn]
  simp [dictKeys, dictDel, ha, hnew, dictSet, Reg.mark, appendRecord, hmax, hn]

/-- The entry of the list with this object shows the spec of the object. -/
theorem shows_mem {g : Reg T V Row} {s : Sampler T V Row} (h : ShowsSame g s) {k : String} {i : Nat}
    (hm : (k, i) ∈ g.properties) : ∃ spec, g.objects[i]? = some spec ∧ (k, spec) ∈ s.properties := by
  have := h.properties
  revert hm
  generalize g.properties = ps at this
  generalize s.properties = qs at this
  induction this with
  | nil => simp
  | cons hx hxs ih =>
    rename_i x y xs ys
    intro hm
    rcases List.mem_cons.1 hm with hm | hm
    · subst hm
      obtain ⟨h1, h2⟩ := hx
      refine ⟨y.2, h2, ?_⟩
      have : (k, y.2) = y := by rw [← show y.1 = k from h1]
      rw [this]
      exact List.mem_cons_self
    · obtain ⟨spec, h1, h2⟩ := ih hm
      exact ⟨spec, h1, List.mem_cons_of_mem _ h2⟩

theorem due_shows {g : Reg T V Row} {s : Sampler T V Row} (h : ShowsSame g s) (spec : PropertySpec T V) (step : Int) (t : T) :
    s.due spec step t = g.due spec step t := by
  simp only [Sampler.due, Reg.due, h.interval, h.timeInterval]
  rfl

theorem shows_elsewhere {g : Reg T V Row} {i : Nat} {f : PropertySpec T V → PropertySpec T V}
    {xs : List (String × Nat)} {ys : List (String × PropertySpec T V)}
    (h : List.Forall₂ (fun x y => y.1 = x.1 ∧ g.objects[x.2]? = some y.2) xs ys) (hi : ∀ x ∈ xs, x.2 ≠ i) :
    List.Forall₂ (fun x y => y.1 = x.1 ∧ (g.objects.modify i f)[x.2]? = some y.2) xs ys := by
  induction h with
  | nil => exact .nil
  | cons hx _ ih =>
    refine .cons ⟨hx.1, ?_⟩ (ih fun x hx => hi x (List.mem_cons_of_mem _ hx))
    have := (hi _ List.mem_cons_self).symm
    simp [this, hx.2]

theorem modify_shows {g : Reg T V Row} {s : Sampler T V Row} (hs : Sound g) (h : ShowsSame g s) {i : Nat}
    {spec : PropertySpec T V} (hm : (spec.name, i) ∈ g.properties) (hi : g.objects[i]? = some spec)
    (f : PropertySpec T V → PropertySpec T V) :
    List.Forall₂ (fun x y => y.1 = x.1 ∧ (g.objects.modify i f)[x.2]? = some y.2) g.properties
      (dictSet s.properties spec.name (f spec)) := by
  have hn := hs.nodup
  have hobj := hs.obj
  have hp := h.properties
  revert hm hn hobj
  generalize g.properties = ps at hp
  generalize s.properties = qs at hp
  induction hp with
  | nil => simp
  | cons hx hxs ih =>
    rename_i x y xs ys
    intro hm hn hobj
    obtain ⟨hx1, hx2⟩ := hx
    simp only [dictKeys, List.map_cons, List.nodup_cons] at hn
    obtain ⟨y1, y2⟩ := y
    obtain ⟨x1, x2⟩ := x
    simp only at hx1 hx2
    subst hx1
    by_cases hk : y1 = spec.name
    · have hx2i : x2 = i := by
        rcases List.mem_cons.1 hm with hm | hm
        · exact (Prod.mk.inj hm).2.symm
        · exact absurd (List.mem_map.2 ⟨_, hm, hk.symm⟩) hn.1
      subst hx2i
      simp only [dictSet, hk, if_true]
      refine .cons ⟨rfl, ?_⟩ ?_
      · simp [hi]
      · refine shows_elsewhere hxs ?_
        rintro ⟨k', j⟩ hj rfl
        obtain ⟨s1, e1, n1⟩ := hobj k' j (List.mem_cons_of_mem _ hj)
        rw [hi] at e1
        cases e1
        exact hn.1 (List.mem_map.2 ⟨_, hj, n1.symm.trans hk.symm⟩)
    · simp only [dictSet, hk, if_false]
      refine .cons ⟨rfl, ?_⟩ ?_
      · have : i ≠ x2 := by
          rintro rfl
          obtain ⟨s1, e1, n1⟩ := hobj y1 i List.mem_cons_self
          rw [hi] at e1
          cases e1
          exact hk n1.symm
        simp [this, hx2]
      · refine ih ?_ hn.2 fun k j hj => hobj k j (List.mem_cons_of_mem _ hj)
        rcases List.mem_cons.1 hm with hm | hm
        · exact absurd (Prod.mk.inj hm).1.symm hk
        · exact hm

theorem mark_shows {g : Reg T V Row} {s : Sampler T V Row} (hs : Sound g) (h : ShowsSame g s) {i : Nat}
    {spec : PropertySpec T V} (hm : (spec.name, i) ∈ g.properties) (hi : g.objects[i]? = some spec) (step : Int) (t : T) :
    ShowsSame (g.mark i step t) (s.markTriggered spec step t) :=
  ⟨h.interval, h.timeInterval, h.builtin, h.records, h.results, h.lastSummary,
    modify_shows hs h hm hi fun s => { s with lastTriggerStep := step, lastTriggerTime := some t }⟩

theorem records_shows {g : Reg T V Row} {s : Sampler T V Row} (h : ShowsSame g s)
    (r : List (String × List (PropertyRecord T V))) :
    ShowsSame ({ g with records := r } : Reg T V Row) { s with records := r } :=
  ⟨h.interval, h.timeInterval, h.builtin, rfl, h.results, h.lastSummary, h.properties⟩

theorem registered_mark {b : Behaviour W T V Row} {g : Reg T V Row} (h : AsRegistered b g.objects) (i : Nat) (step : Int)
    (t : T) : AsRegistered b (g.mark i step t).objects := by
  intro j s hj
  simp only [Reg.mark, List.getElem?_modify] at hj
  cases hg : g.objects[j]? with
  | none => rw [hg] at hj; simp at hj
  | some s0 =>
    have := h j s0 hg
    rw [hg] at hj
    by_cases hij : i = j
    · simp [hij] at hj
      subst hj
      exact this
    · simp [hij] at hj
      subst hj
      exact this

theorem one_quiet {b : Behaviour W T V Row} (st : State T) (step : Int) (t : T) {i : Nat}
    {spec : PropertySpec T V} {l : Env W T V Row} {s : Sampler T V Row} (hb : AsRegistered b l.reg.objects)
    (hs : Sound l.reg) (h : ShowsSame l.reg s)
    (hm : (spec.name, i) ∈ l.reg.properties) (hi : l.reg.objects[i]? = some spec) :
    (one b st step t i l).1 = (s.sampleOne st step t spec).1 ∧
    ShowsSame (one b st step t i l).2.reg (s.sampleOne st step t spec).2 ∧
    (one b st step t i l).2.reg.properties = l.reg.properties ∧
    AsRegistered b (one b st step t i l).2.reg.objects ∧
    ∀ j, j ≠ i → (one b st step t i l).2.reg.objects[j]? = l.reg.objects[j]? := by
  have hmark : ∀ (g : Reg T V Row) (j : Nat), j ≠ i → (g.mark i step t).objects[j]? = g.objects[j]? := by
    intro g j hj
    simp [Reg.mark, hj.symm]
  obtain ⟨hb1, hb2⟩ := hb i spec hi
  simp only [one, hi, Sampler.sampleOne, due_shows h]
  cases hd : l.reg.due spec step t with
  | false => exact ⟨rfl, h, rfl, hb, fun _ _ => rfl⟩
  | true =>
    simp only [if_true, hb1]
    cases hr : spec.callback st step t with
    | raised =>
      simp only [onRaise, hb2, Sampler.handleCallbackError, Reg.applyAll, List.foldl]
      cases ho : spec.onError with
      | none => exact ⟨rfl, h, rfl, hb, fun _ _ => rfl⟩
      | some f =>
        simp only [Option.map_some]
        match hf : f st step t with
        | none => exact ⟨rfl, h, rfl, hb, fun _ _ => rfl⟩
        | some true => exact ⟨rfl, mark_shows hs h hm hi step t, rfl, registered_mark hb _ _ _, hmark _⟩
        | some false => exact ⟨rfl, h, rfl, hb, fun _ _ => rfl⟩
    | value v =>
      simp only [Reg.applyAll, List.foldl]
      cases hst : spec.store with
      | false =>
        exact ⟨rfl, mark_shows hs h hm hi step t, rfl, registered_mark hb _ _ _, hmark _⟩
      | true =>
        simp only [if_true, h.records]
        cases hg : dictGet l.reg.records spec.name with
        | none => exact ⟨rfl, h, rfl, hb, fun _ _ => rfl⟩
        | some recs =>
          exact ⟨rfl, mark_shows (sound_setRecords hs _ _) (records_shows h _) hm hi step t, rfl, registered_mark hb _ _ _, hmark _⟩

theorem loop_quiet {b : Behaviour W T V Row} (st : State T) (step : Int) (t : T)
    (ids : List (String × Nat)) (specs : List (PropertySpec T V)) {l : Env W T V Row} {s : Sampler T V Row}
    (hb : AsRegistered b l.reg.objects) (hs : Sound l.reg) (h : ShowsSame l.reg s) (hids : (ids.map Prod.snd).Nodup) (hsub : ∀ x ∈ ids, x ∈ l.reg.properties)
    (hsp : List.Forall₂ (fun x spec => l.reg.objects[x.2]? = some spec) ids specs) :
    (loop b st step t (ids.map Prod.snd) l).1 = (s.sampleLoop st step t specs).1 ∧
    ShowsSame (loop b st step t (ids.map Prod.snd) l).2.reg (s.sampleLoop st step t specs).2 ∧
    AsRegistered b (loop b st step t (ids.map Prod.snd) l).2.reg.objects := by
  induction ids generalizing specs l s with
  | nil =>
    cases hsp
    exact ⟨rfl, h, hb⟩
  | cons x xs ih =>
    obtain ⟨k, i⟩ := x
    obtain _ | @⟨_, spec, _, rest, hx, hxs⟩ := hsp
    simp only at hx
    simp only [List.map_cons, List.nodup_cons] at hids
    have hk : spec.name = k := by
      obtain ⟨s1, e1, n1⟩ := hs.obj k i (hsub _ List.mem_cons_self)
      rw [hx] at e1
      cases e1
      exact n1
    have h1 := one_quiet st step t hb hs h (hk ▸ hsub _ List.mem_cons_self) hx
    have hso := one_sound b st step t i hs
    simp only [List.map_cons, loop, Sampler.sampleLoop]
    rcases e1 : one b st step t i l with ⟨r, l'⟩
    rcases e2 : s.sampleOne st step t spec with ⟨r', s'⟩
    rw [e1] at h1 hso
    rw [e2] at h1
    obtain ⟨q1, q2, q3, q5, q4⟩ := h1
    simp only at q1 q2 q3 q4 q5
    subst q1
    cases r with
    | error e => exact ⟨rfl, q2, q5⟩
    | ok u =>
      refine ih rest q5 hso.1 q2 hids.2 (fun x hx => q3 ▸ hsub x (List.mem_cons_of_mem _ hx)) ?_
      have hne : ∀ x ∈ xs, x.2 ≠ i := fun x hx he => hids.1 (List.mem_map.2 ⟨x, hx, he⟩)
      clear ih hids hsub
      induction hxs with
      | nil => exact .nil
      | cons hy _ ih2 =>
        refine .cons ?_ (ih2 fun x hx => hne x (List.mem_cons_of_mem _ hx))
        rw [q4 _ (hne _ List.mem_cons_self)]
        exact hy

/-- C114.  When the functions make no registration calls, sampling is the sampling of `Model/Tracker.lean`: the same
end, records, rows and specs.  So everything proved about runs there holds for trackers with spec objects. -/
theorem C114_without_calls (b : Behaviour W T V Row) (w : W) (cs : List (RegCall T V))
    (ps : List (Point T Row)) (l : Env W T V Row) (hl : samples b ps (newTracker w cs) = (.ok (), l))
    (hb : AsRegistered b l.reg.objects) (s : Sampler T V Row) (h : ShowsSame l.reg s) (p : Point T Row) :
    (sample b p.summary p.st p.step p.time l).1 = (s.sampleProperties p.summary p.st p.step p.time).1 ∧
    ShowsSame (sample b p.summary p.st p.step p.time l).2.reg (s.sampleProperties p.summary p.st p.step p.time).2 ∧
    AsRegistered b (sample b p.summary p.st p.step p.time l).2.reg.objects := by
  have hs : Sound l.reg := by
    have := samples_sound b ps (l := newTracker w cs) (newTracker_sound w cs)
    rw [hl] at this
    exact this
  have hs1 := sound_summary hs p.summary p.step p.time
  have h1 : ShowsSame (l.reg.sampleSummary p.summary p.step p.time) (s.sampleSummary p.summary p.step p.time) := by
    unfold Reg.sampleSummary Sampler.sampleSummary
    rw [h.interval, h.timeInterval, h.lastSummary]
    split
    · exact ⟨rfl, rfl, h.builtin, h.records, by simp [h.results, h.builtin], rfl, h.properties⟩
    · exact h
  have hb1 : AsRegistered b (l.reg.sampleSummary p.summary p.step p.time).objects := by
    have : (l.reg.sampleSummary p.summary p.step p.time).objects = l.reg.objects := by
      unfold Reg.sampleSummary
      split <;> rfl
    rw [this]; exact hb
  refine loop_quiet p.st p.step p.time _ _ (l := { l with reg := l.reg.sampleSummary p.summary p.step p.time }) hb1 hs1 h1
    hs1.refs_nodup (fun _ hx => hx) ?_
  have := h1.properties
  simp only
  revert this
  generalize (l.reg.sampleSummary p.summary p.step p.time).properties = xs
  generalize (s.sampleSummary p.summary p.step p.time).properties = ys
  intro hxy
  induction hxy with
  | nil => exact .nil
  | cons hx _ ih => exact .cons hx.2 ih

theorem shows_keys {g : Reg T V Row} {s : Sampler T V Row} (h : ShowsSame g s) :
    dictKeys s.properties = dictKeys g.properties := by
  have := h.properties
  unfold dictKeys
  generalize g.properties = ps at this
  generalize s.properties = qs at this
  induction this with
  | nil => rfl
  | cons hx _ ih => simp [hx.1, ih]

theorem shows_get {g : Reg T V Row} {s : Sampler T V Row} (h : ShowsSame g s) (k : String) :
    (dictGet g.properties k = none ∧ dictGet s.properties k = none) ∨
    ∃ i spec, dictGet g.properties k = some i ∧ dictGet s.properties k = some spec ∧ g.objects[i]? = some spec := by
  have := h.properties
  generalize g.properties = ps at this
  generalize s.properties = qs at this
  induction this with
  | nil => exact .inl ⟨rfl, rfl⟩
  | @cons x y _ _ hx _ ih =>
    obtain ⟨x1, x2⟩ := x
    obtain ⟨y1, y2⟩ := y
    simp only at hx
    obtain ⟨rfl, hx2⟩ := hx
    by_cases hk : y1 = k
    · simp only [dictGet, hk, if_true]
      exact .inr ⟨_, _, rfl, rfl, hx2⟩
    · simpa only [dictGet, hk, if_false] using ih

theorem shows_del {objects : List (PropertySpec T V)} {k : String} {xs : List (String × Nat)}
    {ys : List (String × PropertySpec T V)}
    (h : List.Forall₂ (fun x y => y.1 = x.1 ∧ objects[x.2]? = some y.2) xs ys) :
    List.Forall₂ (fun x y => y.1 = x.1 ∧ objects[x.2]? = some y.2) (dictDel xs k) (dictDel ys k) := by
  induction h with
  | nil => exact .nil
  | @cons x y _ _ hx hxs ih =>
    obtain ⟨x1, x2⟩ := x
    obtain ⟨y1, y2⟩ := y
    simp only at hx
    obtain ⟨rfl, hx2⟩ := hx
    by_cases hk : y1 = k
    · simpa only [dictDel, hk, if_true] using hxs
    · simpa only [dictDel, hk, if_false] using List.Forall₂.cons ⟨rfl, hx2⟩ ih

theorem shows_set {objects : List (PropertySpec T V)} {k : String} {spec : PropertySpec T V} {xs : List (String × Nat)}
    {ys : List (String × PropertySpec T V)}
    (h : List.Forall₂ (fun x y => y.1 = x.1 ∧ objects[x.2]? = some y.2) xs ys) :
    List.Forall₂ (fun x y => y.1 = x.1 ∧ (objects ++ [spec])[x.2]? = some y.2) (dictSet xs k objects.length)
      (dictSet ys k spec) := by
  have hold : ∀ (i : Nat) s, objects[i]? = some s → (objects ++ [spec])[i]? = some s := by
    intro i s hi
    rw [List.getElem?_append_left (List.getElem?_eq_some_iff.1 hi).1]
    exact hi
  induction h with
  | nil => exact .cons ⟨rfl, by simp⟩ .nil
  | @cons x y xs ys hx hxs ih =>
    obtain ⟨x1, x2⟩ := x
    obtain ⟨y1, y2⟩ := y
    simp only at hx
    obtain ⟨rfl, hx2⟩ := hx
    by_cases hk : y1 = k
    · simp only [dictSet, hk, if_true]
      exact .cons ⟨rfl, by simp⟩ (hxs.imp fun _ _ hxy => ⟨hxy.1, hold _ _ hxy.2⟩)
    · simp only [dictSet, hk, if_false]
      exact .cons ⟨rfl, hold _ _ hx2⟩ ih

theorem apply_shows {g : Reg T V Row} {s : Sampler T V Row} (hs : Sound g) (h : ShowsSame g s) (c : RegCall T V) :
    ShowsSame (g.apply c) (fromOutside s c) := by
  cases c with
  | attach a =>
    simp only [Reg.apply, fromOutside, Sampler.attach, shows_keys h]
    cases makePropertySpec a (dictKeys g.properties) with
    | error e => exact h
    | ok spec =>
      exact ⟨h.interval, h.timeInterval, h.builtin, by simp only [h.records], h.results, h.lastSummary,
        shows_set h.properties⟩
  | detach n =>
    simp only [Reg.apply, fromOutside, Sampler.detach, shows_keys h]
    split
    · exact ⟨h.interval, h.timeInterval, h.builtin, by simp only [h.records], h.results, h.lastSummary,
        shows_del h.properties⟩
    · exact h
  | clear => exact ⟨h.interval, h.timeInterval, h.builtin, rfl, h.results, h.lastSummary, .nil⟩
  | enable n on =>
    simp only [Reg.apply, fromOutside, Sampler.setPropertyEnabled, setPropertyEnabledFlag, h.builtin]
    cases dictGet g.builtin n with
    | some _ => exact ⟨h.interval, h.timeInterval, rfl, h.records, h.results, h.lastSummary, h.properties⟩
    | none =>
      rcases shows_get h n with ⟨h1, h2⟩ | ⟨i, spec, h1, h2, h3⟩
      · simp only [h1, h2]
        exact ⟨h.interval, h.timeInterval, rfl, h.records, h.results, h.lastSummary, h.properties⟩
      · simp only [h1, h2]
        have hm : (n, i) ∈ g.properties := mem_of_dictGet h1
        have hn : spec.name = n := by
          obtain ⟨s1, e1, n1⟩ := hs.obj n i hm
          rw [h3] at e1
          cases e1
          exact n1
        subst hn
        exact ⟨h.interval, h.timeInterval, rfl, h.records, h.results, h.lastSummary,
          modify_shows hs h hm h3 fun s => { s with enabled := on }⟩
  | frequency i t =>
    simp only [Reg.apply, fromOutside, Sampler.setGlobalFrequency]
    cases validateSchedule i t with
    | error e => exact h
    | ok _ => exact ⟨rfl, rfl, h.builtin, h.records, h.results, h.lastSummary, h.properties⟩

/-- C114.  A registration call made from inside a callback does to the tracker what the same call does when it is made
from outside: the schedules, flags, records and specs after it are the ones described for `attach`, `detach`,
`clear_attachments`, `set_property_enabled` and `set_global_property_frequency`, for every history of samplings
before it. -/
theorem C114_calls_as_from_outside (b : Behaviour W T V Row) (w : W) (cs : List (RegCall T V)) (ps : List (Point T Row))
    (s : Sampler T V Row) (h : ShowsSame (samples b ps (newTracker w cs)).2.reg s) (cs' : List (RegCall T V)) :
    ShowsSame ((samples b ps (newTracker w cs)).2.reg.applyAll cs') (cs'.foldl fromOutside s) := by
  have hs := samples_sound b ps (l := newTracker w cs) (newTracker_sound w cs)
  revert h hs
  generalize (samples b ps (newTracker w cs)).2.reg = g
  intro h hs
  induction cs' generalizing g s with
  | nil => exact h
  | cons c cs' ih => exact ih _ _ (apply_shows hs h c) (sound_apply hs c)

/-- C114.  A tracker set up by registration calls is the one of `Model/Tracker.lean` after the same calls. -/
theorem C114_set_up_from_outside (w : W) (cs : List (RegCall T V)) :
    ShowsSame (newTracker (Row := Row) w cs).reg (cs.foldl fromOutside {}) := by
  have h0 : ShowsSame ({} : Reg T V Row) {} := ⟨rfl, rfl, rfl, rfl, rfl, rfl, .nil⟩
  exact C114_calls_as_from_outside (Row := Row) (W := W)
    { call := fun _ w _ _ _ _ => (.raised, [], w), handle := fun _ => none } w [] [] {} h0 cs

/-- Two properties for the examples: the first at every step, the second too. -/
def exampleCalls (store : Bool) : List (RegCall ℕ ℕ) :=
  [.attach { callback := fun _ _ _ => .value 0, funcName := "count", interval := some 1, store := store },
   .attach { callback := fun _ _ _ => .value 0, funcName := "other", interval := some 1 }]

/-- The first function disables itself when it is called, the second attaches a third property at its first call. -/
def selfDisabling : Behaviour ℕ ℕ ℕ Unit where
  call := fun i w _ _ step _ =>
    match i with
    | 0 => (.value 7, [.enable "count" false], w + 1)
    | 1 => (.value 8, if step = 1 then [.attach { callback := fun _ _ _ => .value 0, funcName := "late" }] else [], w + 1)
    | _ => (.value 9, [], w + 1)
  handle := fun _ => none

/-- Three samplings. -/
def examplePoints : List (Point ℕ Unit) :=
  [⟨fun _ => (), ⟨[], 0, 0⟩, 1, 5⟩, ⟨fun _ => (), ⟨[], 0, 0⟩, 2, 6⟩, ⟨fun _ => (), ⟨[], 0, 0⟩, 3, 7⟩]

example : (samples selfDisabling examplePoints (newTracker 0 (exampleCalls true))).1 = .ok () ∧
    (samples selfDisabling examplePoints (newTracker 0 (exampleCalls true))).2.called = [0, 1, 1, 2, 1, 2] ∧
    (∀ w st g step t, ∃ c ∈ (selfDisabling.call 0 w st g step t).2.1,
      c = .enable "count" false ∨ c = .detach "count" ∨ c = .clear) ∧
    EveryCall selfDisabling (fun c => ¬ Removes c) ∧ EveryCall selfDisabling (fun c => c ≠ .enable "count" true) := by
  refine ⟨by decide +kernel, by decide +kernel, fun _ _ _ _ _ => ⟨_, List.mem_singleton.2 rfl, .inl rfl⟩, ?_, ?_⟩
  · refine ⟨fun i w st g step t c hc => ?_, fun i h hh => by cases hh⟩
    match i with
    | 0 => cases List.mem_singleton.1 hc; exact id
    | 1 =>
      simp only [selfDisabling] at hc
      split at hc
      · cases List.mem_singleton.1 hc; exact id
      · cases hc
    | i + 2 => cases hc
  · refine ⟨fun i w st g step t c hc => ?_, fun i h hh => by cases hh⟩
    match i with
    | 0 => cases List.mem_singleton.1 hc; rintro ⟨⟩
    | 1 =>
      simp only [selfDisabling] at hc
      split at hc
      · cases List.mem_singleton.1 hc; rintro ⟨⟩
      · cases hc
    | i + 2 => cases hc

/-- The first function detaches itself: with stored values the run ends, without it goes on. -/
def selfDetaching : Behaviour ℕ ℕ ℕ Unit where
  call := fun i w _ _ _ _ => match i with
    | 0 => (.value 7, [.detach "count"], w + 1)
    | _ => (.value 8, [], w + 1)
  handle := fun _ => none

example : (samples selfDetaching examplePoints (newTracker 0 (exampleCalls true))).1 = .error .keyError ∧
    (samples selfDetaching examplePoints (newTracker 0 (exampleCalls false))).1 = .ok () ∧
    (samples selfDetaching examplePoints (newTracker 0 (exampleCalls false))).2.called = [0, 1, 1, 1] := by
  decide +kernel

/-- The first function clears everything. -/
example : (samples { selfDetaching with call := fun _ w _ _ _ _ => (.value 7, [.clear], w + 1) } examplePoints
    (newTracker 0 (exampleCalls true))).1 = .error .keyError := by
  decide +kernel

/-- Functions without calls, and the tracker without object identities for them. -/
example : AsRegistered ({ call := fun _ w _ _ _ _ => (.value 0, [], w), handle := fun _ => none } :
      Behaviour ℕ ℕ ℕ Unit) (newTracker (Row := Unit) 0 (exampleCalls true)).reg.objects ∧
    ∃ s : Sampler ℕ ℕ Unit, ShowsSame (newTracker 0 (exampleCalls true)).reg s ∧ s.properties.length = 2 := by
  refine ⟨?_, { properties := [("count", _), ("other", _)], records := [("count", []), ("other", [])] },
    ⟨rfl, rfl, rfl, rfl, rfl, rfl, .cons ⟨rfl, rfl⟩ (.cons ⟨rfl, rfl⟩ .nil)⟩, rfl⟩
  intro i s h
  match i, h with
  | 0, h => cases h; exact ⟨fun _ _ _ _ _ => rfl, rfl⟩
  | 1, h => cases h; exact ⟨fun _ _ _ _ _ => rfl, rfl⟩
  | i + 2, h => cases h

end KMC
