import Verif.Lemmas.KMC
import Verif.Lemmas.Hop
/-
The incremental rate table.
-/
set_option linter.unusedSectionVars false

namespace KMC
open Spec

section
variable {σ φ M R T U : Type}

theorem pyEq_iff (a b : Event) : a.pyEq b = true ↔ a.mobile = b.mobile ∧ a.env = b.env := by
  simp [Event.pyEq]

theorem indexOfEvent_ok {events : List Event} {e : Event} {i : Nat}
    (h : indexOfEvent events e = .ok i) :
    ∃ x, events[i]? = some x ∧ x.mobile = e.mobile ∧ x.env = e.env := by
  unfold indexOfEvent at h
  split at h
  · cases h
  · rename_i j hj
    cases h
    rw [List.findIdx?_eq_some_iff_getElem] at hj
    obtain ⟨hlt, hp, -⟩ := hj
    rw [pyEq_iff] at hp
    exact ⟨events[i], by simp [hlt], hp.1, hp.2⟩

theorem recompute_ok (m : RateModel M R T) (events : List Event) (ms : M) (st : State T)
    (is : List Int) (prob prob' : List R) (hnn : ∀ i ∈ is, 0 ≤ i)
    (hlen : prob.length = events.length)
    (h : recompute m events ms st is prob = (.ok (), prob')) :
    prob'.length = prob.length ∧ ∀ j : Nat,
      ((j : Int) ∈ is → ∃ e p, events[j]? = some e ∧ m.computeProbability ms e st = .ok p ∧
        prob'[j]? = some p) ∧
      ((j : Int) ∉ is → prob'[j]? = prob[j]?) := by
  induction is generalizing prob with
  | nil =>
    simp only [recompute, Prod.mk.injEq, true_and] at h
    subst h; simp
  | cons i is ih =>
    unfold recompute at h
    cases h1 : pyGet events i with
    | error x => rw [h1] at h; cases h
    | ok e =>
      rw [h1] at h
      simp only at h
      cases h2 : m.computeProbability ms e st with
      | error x => rw [h2] at h; cases h
      | ok p =>
        rw [h2] at h
        simp only at h
        cases h3 : pySet prob i p with
        | error x => rw [h3] at h; cases h
        | ok prob1 =>
          rw [h3] at h
          simp only at h
          obtain ⟨k, hk, hke⟩ := pyGet_ok_iff.1 h1
          have hik : i = (k : Int) := pyIdx_some_nonneg hk (hnn i (by simp))
          subst hik
          obtain ⟨k', hk', rfl⟩ := pySet_ok_iff.1 h3
          rw [hlen, hk] at hk'; cases hk'
          have hklt : k < prob.length := by rw [hlen]; exact pyIdx_lt hk
          obtain ⟨hl, hj⟩ := ih (prob.set k p) (fun i hi => hnn i (by simp [hi])) (by simp [hlen]) h
          refine ⟨by simpa using hl, ?_⟩
          intro j
          obtain ⟨hj1, hj2⟩ := hj j
          constructor
          · intro hjm
            by_cases hjis : (j : Int) ∈ is
            · exact hj1 hjis
            · have hjk : j = k := by
                rcases List.mem_cons.1 hjm with h | h
                · exact_mod_cast h
                · exact absurd h hjis
              subst hjk
              refine ⟨e, p, hke, h2, ?_⟩
              rw [hj2 hjis]; simp [hklt]
          · intro hjn
            simp only [List.mem_cons, not_or] at hjn
            have hjk : k ≠ j := by intro h; apply hjn.1; rw [h]
            rw [hj2 hjn.2, List.getElem?_set_ne hjk]

/-- Executing an event does not change the rate of an event that lists neither endpoint. -/
def LocalUpdates [Add T] (m : RateModel M R T) (n : Nat) (events : List Event) : Prop :=
  ∀ (e : Event) (st st' : State T) (dt : T) (ms ms' : M) (e2 : Event),
    e2 ∈ events → (∃ x ∈ events, x.mobile = e.mobile) → st.occ.length = n →
    st.applyEvent e dt = (.ok (), st') → m.applyEvent ms e st' = (.ok (), ms') →
    (∀ i ∈ e.mobile, i ∉ e2.mobile ++ e2.env) →
    m.computeProbability ms' e2 st' = m.computeProbability ms e2 st

theorem localUpdates_of_local [Add T] (m : RateModel Unit R T) (hm : LocalModel m) (n : Nat)
    (events : List Event) (hfit : IndicesFit n events) : LocalUpdates m n events := by
  intro e st st' dt ms ms' e2 he2 hx hn happ _ hdisj
  obtain ⟨f, t, i, j, hi, hj, he, h1, h2, rfl⟩ := applyEvent_ok happ
  obtain ⟨x, hxe, hxm⟩ := hx
  have hf0 := hfit x hxe f (by simp [hxm, he])
  have ht0 := hfit x hxe t (by simp [hxm, he])
  have hfi := pyIdx_some_nonneg h1 hf0.1
  have htj := pyIdx_some_nonneg h2 ht0.1
  apply hm.local_rate
  · simp
  · intro a ha
    have hex := set_set_exchanged hi hj
    obtain ⟨ha0, ha1⟩ := hfit e2 he2 a ha
    obtain ⟨b, rfl⟩ : ∃ b : Nat, a = (b : Int) := ⟨a.toNat, by omega⟩
    have hb : b < st.occ.length := by omega
    have : ((st.occ.set i st.occ[j]).set j st.occ[i])[b]? = st.occ[b]? := by
      apply hex.2.2.2
      · rintro rfl; exact hdisj f (by simp [he]) (by rw [hfi]; exact ha)
      · rintro rfl; exact hdisj t (by simp [he]) (by rw [htj]; exact ha)
    rw [pyGet_natCast (v := st.occ[b]) (by rw [this]; simp [hb]),
      pyGet_natCast (v := st.occ[b]) (by simp [hb])]

theorem depRow_nonneg {L : List (List Int)} {a : List Int} {j : Int} (h : j ∈ depRow L a) : 0 ≤ j := by
  obtain ⟨k, -, rfl, -⟩ := mem_depRow.1 h
  omega

/-- One step, with the locality of the rates asked for this step only. -/
theorem update_fresh_at [Add T] {k : Kernel R T U} {m : RateModel M R T} {s s' : Sim σ φ M R T}
    {e : Event} {dt : T} (hloc : ∀ (st' : State T) (ms' : M) (e2 : Event),
      e2 ∈ s.lib.events → (∃ x ∈ s.lib.events, x.mobile = e.mobile) →
      s.st.applyEvent e dt = (.ok (), st') → m.applyEvent s.ms e st' = (.ok (), ms') →
      (∀ i ∈ e.mobile, i ∉ e2.mobile ++ e2.env) →
      m.computeProbability ms' e2 st' = m.computeProbability s.ms e2 s.st)
    (hdeps : s.lib.deps = some (generateEventDependencyMatrix (s.lib.events.map Event.sites)))
    (hf : TableFresh k m s) (h : s.update k m e dt = (.ok (), s')) : TableFresh k m s' := by
  obtain ⟨st, ms, i, prob, h1, h2, h3, h4, rfl⟩ := update_ok h
  obtain ⟨x, hx, hxm, hxe⟩ := indexOfEvent_ok h3
  have hrow : s.lib.getDependentEvents i = depRow (s.lib.events.map Event.sites) x.sites := by
    simp [EventLib.getDependentEvents, hdeps, generate_getElem?, hx]
  rw [hrow] at h4
  obtain ⟨hl, hj⟩ := recompute_ok m s.lib.events ms st _ s.prob prob
    (fun i hi => depRow_nonneg hi) hf.length h4
  refine ⟨by rw [← hf.length]; exact hl, ?_, rfl⟩
  intro j e2 he2
  simp only at he2
  obtain ⟨hj1, hj2⟩ := hj j
  by_cases hmem : (j : Int) ∈ depRow (s.lib.events.map Event.sites) x.sites
  · obtain ⟨e3, p, h5, h6, h7⟩ := hj1 hmem
    rw [he2] at h5; cases h5
    exact ⟨p, h7, h6⟩
  · obtain ⟨p, hp1, hp2⟩ := hf.fresh j e2 he2
    refine ⟨p, by rw [hj2 hmem]; exact hp1, ?_⟩
    have hns : ¬ ShareSite x.sites e2.sites := by
      intro hs
      exact hmem (mem_depRow.2 ⟨j, e2.sites, rfl, by simp [he2], hs⟩)
    rw [← hp2]
    refine hloc st ms e2 (List.mem_of_getElem? he2) ⟨x, List.mem_of_getElem? hx, hxm⟩ h1 h2 ?_
    intro a ha hb
    exact hns ⟨a, by simp [Event.sites, hxm, ha], by simpa [Event.sites] using hb⟩

theorem update_fresh [Add T] {k : Kernel R T U} {m : RateModel M R T} {s s' : Sim σ φ M R T}
    {e : Event} {dt : T} (hloc : LocalUpdates m s.st.occ.length s.lib.events)
    (hdeps : s.lib.deps = some (generateEventDependencyMatrix (s.lib.events.map Event.sites)))
    (hf : TableFresh k m s) (h : s.update k m e dt = (.ok (), s')) : TableFresh k m s' :=
  update_fresh_at (fun st' ms' e2 h1 h2 h3 h4 h5 => hloc e s.st st' dt s.ms ms' e2 h1 h2 rfl h3 h4 h5)
    hdeps hf h

/-- A history, with the locality of the rates asked along an invariant of the pairs of model
state and simulation state. -/
theorem executed_fresh_inv [Add T] {k : Kernel R T U} {m : RateModel M R T} {s s' : Sim σ φ M R T}
    {hist : List (Event × T)} (events : List Event) (Inv : M → State T → Prop)
    (hstep : ∀ (e : Event) (st st' : State T) (dt : T) (ms ms' : M), Inv ms st →
      (∃ x ∈ events, x.mobile = e.mobile) → st.applyEvent e dt = (.ok (), st') →
      m.applyEvent ms e st' = (.ok (), ms') → Inv ms' st' ∧
      ∀ e2 ∈ events, (∀ i ∈ e.mobile, i ∉ e2.mobile ++ e2.env) →
        m.computeProbability ms' e2 st' = m.computeProbability ms e2 st)
    (hev : s.lib.events = events)
    (hdeps : s.lib.deps = some (generateEventDependencyMatrix (s.lib.events.map Event.sites)))
    (hinv : Inv s.ms s.st) (hf : TableFresh k m s) (h : Executed k m s hist s') :
    Inv s'.ms s'.st ∧ TableFresh k m s' := by
  induction h with
  | nil => exact ⟨hinv, hf⟩
  | @cons s s1 s2 e dt h hu _ ih =>
    have hlib : s1.lib = s.lib := by
      have := update_lib k m s e dt; rw [hu] at this; exact this
    obtain ⟨st, ms, i, prob, h1, h2, h3, h4, hs1⟩ := update_ok hu
    obtain ⟨x, hx, hxm, -⟩ := indexOfEvent_ok h3
    have hmem : ∃ x ∈ events, x.mobile = e.mobile :=
      ⟨x, by rw [← hev]; exact List.mem_of_getElem? hx, hxm⟩
    refine ih (by rw [hlib]; exact hev) (by rw [hlib]; exact hdeps) ?_ ?_
    · rw [hs1]
      exact (hstep e s.st st dt s.ms ms hinv hmem h1 h2).1
    · refine update_fresh_at ?_ hdeps hf hu
      intro st' ms' e2 he2 hx h1 h2 hd
      rw [hev] at he2 hx
      exact (hstep e s.st st' dt s.ms ms' hinv hx h1 h2).2 e2 he2 hd

theorem executed_fresh [Add T] {k : Kernel R T U} {m : RateModel M R T} {s s' : Sim σ φ M R T}
    {hist : List (Event × T)} (hloc : LocalUpdates m s.st.occ.length s.lib.events)
    (hdeps : s.lib.deps = some (generateEventDependencyMatrix (s.lib.events.map Event.sites)))
    (hf : TableFresh k m s) (h : Executed k m s hist s') : TableFresh k m s' := by
  induction h with
  | nil => exact hf
  | @cons s s1 s2 e dt h hu _ ih =>
    have hlib : s1.lib = s.lib := by
      have := update_lib k m s e dt; rw [hu] at this; exact this
    have hlen : s1.st.occ.length = s.st.occ.length := by
      have := (update_perm k m s e dt).length_eq; rw [hu] at this; exact this
    exact ih (by rw [hlib, hlen]; exact hloc) (by rw [hlib]; exact hdeps) (update_fresh hloc hdeps hf hu)

theorem Steps.executed [Add T] [Zero T] {k : Kernel R T U} {m : RateModel M R T}
    {rng : Nat → U × U} {a : Bool} {c : Nat} {s s' : Sim σ φ M R T} {h : List (Event × T)}
    (hs : Steps k m rng a c s h s') :
    Executed k m s (h.map fun p => (p.1, if a then p.2 else 0)) s' := by
  induction hs with
  | nil => exact .nil _
  | cons _ hu _ ih => exact .cons hu ih

theorem initialProbs_ok {m : RateModel M R T} {ms : M} {st : State T} {es : List Event}
    {ps : List R} (h : initialProbs m ms st es = .ok ps) :
    ps.length = es.length ∧ ∀ (i : Nat) e, es[i]? = some e →
      ∃ p, ps[i]? = some p ∧ m.computeProbability ms e st = .ok p := by
  induction es generalizing ps with
  | nil => simp only [initialProbs] at h; cases h; simp
  | cons e es ih =>
    unfold initialProbs at h
    cases h1 : m.computeProbability ms e st with
    | error x => rw [h1] at h; cases h
    | ok p =>
      rw [h1] at h
      simp only at h
      cases h2 : initialProbs m ms st es with
      | error x => rw [h2] at h; cases h
      | ok ps' =>
        rw [h2] at h
        cases h
        obtain ⟨hl, hi⟩ := ih h2
        refine ⟨by simp [hl], ?_⟩
        intro i e' he'
        cases i with
        | zero => simp at he'; subst he'; exact ⟨p, by simp, h1⟩
        | succ i => simpa using hi i e' (by simpa using he')

theorem annotateEvents_ok {h : HopStateLookup} {es es' : List Event}
    (he : h.annotateEvents es = .ok es') :
    es'.map Event.mobile = es.map Event.mobile ∧ es'.map Event.env = es.map Event.env := by
  induction es generalizing es' with
  | nil => simp only [HopStateLookup.annotateEvents] at he; cases he; simp
  | cons e es ih =>
    unfold HopStateLookup.annotateEvents at he
    cases h1 : h.annotateEvent e with
    | error x => rw [h1] at he; cases he
    | ok e' =>
      rw [h1] at he
      simp only at he
      cases h2 : h.annotateEvents es with
      | error x => rw [h2] at he; cases he
      | ok es2 =>
        rw [h2] at he
        cases he
        obtain ⟨a, b⟩ := ih h2
        obtain ⟨f, t, mf, vt, vf, mt, -, -, -, -, -, rfl⟩ := annotateEvent_ok h1
        simp [a, b]

theorem annotateEvents_mem {h : HopStateLookup} {es es' : List Event}
    (he : h.annotateEvents es = .ok es') (e' : Event) (hm : e' ∈ es') :
    ∃ e ∈ es, h.annotateEvent e = .ok e' := by
  induction es generalizing es' with
  | nil => simp only [HopStateLookup.annotateEvents] at he; cases he; simp at hm
  | cons e es ih =>
    unfold HopStateLookup.annotateEvents at he
    cases h1 : h.annotateEvent e with
    | error x => rw [h1] at he; cases he
    | ok e1 =>
      rw [h1] at he
      simp only at he
      cases h2 : h.annotateEvents es with
      | error x => rw [h2] at he; cases he
      | ok es2 =>
        rw [h2] at he
        cases he
        rcases List.mem_cons.1 hm with rfl | hm
        · exact ⟨e, by simp, h1⟩
        · obtain ⟨x, hx, hxe⟩ := ih h2 hm; exact ⟨x, by simp [hx], hxe⟩

theorem sites_map_eq {es es' : List Event} (h1 : es'.map Event.mobile = es.map Event.mobile)
    (h2 : es'.map Event.env = es.map Event.env) : es'.map Event.sites = es.map Event.sites := by
  have hl : es'.length = es.length := by simpa using congrArg List.length h1
  apply List.ext_getElem?
  intro i
  have a := congrArg (fun l => l[i]?) h1
  have b := congrArg (fun l => l[i]?) h2
  simp only [List.getElem?_map] at a b ⊢
  cases hx : es'[i]? <;> cases hy : es[i]? <;> simp_all [Event.sites]

/-- What a successful construction did. -/
theorem init_ok {k : Kernel R T U} {m : RateModel M R T} {lib : EventLib σ φ}
    {lookup : Option HopStateLookup} {st : Option (State T)} {s : Sim σ φ M R T}
    (h : Sim.init k m lib lookup st = .ok s) :
    st = some s.st ∧ s.lib.deps = lib.deps ∧
    s.lib.events.map Event.mobile = lib.events.map Event.mobile ∧
    s.lib.events.map Event.env = lib.events.map Event.env ∧
    (lookup = none → s.lib = lib) ∧
    (∀ l, lookup = some l → l.annotateEvents lib.events = .ok s.lib.events) ∧
    m.initializeState s.st s.lib.events = .ok s.ms ∧ TableFresh k m s := by
  unfold Sim.init at h
  have key : ∀ lib' : EventLib σ φ, (match st with
      | none => (Except.error PyErr.valueError : Py (Sim σ φ M R T))
      | some st =>
        match m.initializeState st lib'.events with
        | .error e => .error e
        | .ok ms =>
          match initialProbs m ms st lib'.events with
          | .error e => .error e
          | .ok p => .ok { lib := lib', st := st, ms := ms, prob := p, cum := k.cumsum p }) = .ok s →
      st = some s.st ∧ s.lib = lib' ∧ m.initializeState s.st s.lib.events = .ok s.ms ∧
        TableFresh k m s := by
    intro lib' h
    cases st with
    | none => cases h
    | some st =>
      simp only at h
      cases h1 : m.initializeState st lib'.events with
      | error x => rw [h1] at h; cases h
      | ok ms =>
        rw [h1] at h
        simp only at h
        cases h2 : initialProbs m ms st lib'.events with
        | error x => rw [h2] at h; cases h
        | ok ps =>
          rw [h2] at h
          cases h
          obtain ⟨hl, hi⟩ := initialProbs_ok h2
          exact ⟨rfl, rfl, h1, ⟨hl, hi, rfl⟩⟩
  cases lookup with
  | none =>
    obtain ⟨a, b, c, d⟩ := key lib h
    exact ⟨a, by rw [b], by rw [b], by rw [b], fun _ => b, fun _ h => (nomatch h), c, d⟩
  | some l =>
    simp only at h
    cases h0 : l.annotateEvents lib.events with
    | error x => rw [h0] at h; cases h
    | ok es =>
      rw [h0] at h
      simp only at h
      obtain ⟨a, b, c, d⟩ := key { lib with events := es } h
      obtain ⟨e1, e2⟩ := annotateEvents_ok h0
      refine ⟨a, by rw [b], by rw [b]; exact e1, by rw [b]; exact e2, (nomatch ·), ?_, c, d⟩
      intro l' hl'; cases hl'; rw [b]; exact h0

theorem init_indicesFit {k : Kernel R T U} {m : RateModel M R T} {lib : EventLib σ φ}
    {lookup : Option HopStateLookup} {st : Option (State T)} {s : Sim σ φ M R T}
    (h : Sim.init k m lib lookup st = .ok s) {n : Nat} (hfit : IndicesFit n lib.events) :
    IndicesFit n s.lib.events := by
  obtain ⟨-, -, h1, h2, -⟩ := init_ok h
  intro e he i hi
  obtain ⟨j, hj, rfl⟩ := List.getElem_of_mem he
  have hl : s.lib.events.length = lib.events.length := by simpa using congrArg List.length h1
  have a := congrArg (fun l => l[j]?) h1
  have b := congrArg (fun l => l[j]?) h2
  simp only [List.getElem?_map, List.getElem?_eq_getElem hj,
    List.getElem?_eq_getElem (show j < lib.events.length by omega), Option.map_some,
    Option.some.injEq] at a b
  exact hfit lib.events[j] (List.getElem_mem _) i (by rw [← a, ← b]; exact hi)

end
end KMC
