import Verif.Spec.IdleEvents
import Verif.Props.EventOrderProps
/-
C112.  Events that never can happen make no difference to a simulation.
-/
set_option linter.unusedSectionVars false

namespace KMC
open Spec MeasureTheory

section
variable {σ φ ψ K : Type} [Field K] [LinearOrder K] [FloorRing K]
variable {o : ActiveSiteOrder String ψ} {mobile : String} {h : HopStateLookup}
  {m : RateModel Unit ℝ EReal} {g : Geometry K} {lib lib' : EventLib σ φ} {st : State EReal}
  {s0 s0' : Sim σ φ Unit ℝ EReal}

theorem annotateEvents_append {es fs es' : List Event} (h1 : h.annotateEvents (es ++ fs) = .ok es') :
    ∃ a b, h.annotateEvents es = .ok a ∧ h.annotateEvents fs = .ok b ∧ es' = a ++ b := by
  have := annotateEvents_iff.1 h1
  have ht := List.forall₂_take es.length this
  have hd := List.forall₂_drop es.length this
  rw [List.take_left] at ht
  rw [List.drop_left] at hd
  exact ⟨es'.take es.length, es'.drop es.length, annotateEvents_iff.2 ht, annotateEvents_iff.2 hd,
    (List.take_append_drop _ _).symm⟩

theorem totalRate_idle {es extra : List Event} {s : State EReal} (h0 : ∀ e ∈ extra, rateIn m s e = 0) :
    totalRate m (es ++ extra) s = totalRate m es s := by
  unfold totalRate
  rw [List.map_append, List.sum_append]
  have : (extra.map (rateIn m s)).sum = 0 := by
    apply List.sum_eq_zero
    intro x hx
    obtain ⟨e, he, rfl⟩ := List.mem_map.1 hx
    exact h0 e he
  rw [this, add_zero]

theorem pathChance_idle {es extra : List Event} {st : State EReal} (hx : ∀ e ∈ extra, Idle m es st e)
    (path : List (Event × ℝ)) : ∀ s : State EReal, CanArise m es st s →
    pathChance m (es ++ extra) s path = pathChance m es s path := by
  induction path with
  | nil => intro s _; rfl
  | cons a path ih =>
    intro s hs
    obtain ⟨e, t⟩ := a
    have h0 : ∀ e ∈ extra, rateIn m s e = 0 := fun e he => hx e he s hs
    unfold pathChance
    rw [totalRate_idle h0]
    by_cases hr : rateIn m s e = 0
    · rw [hr]; simp
    · have hne : e ∉ extra := fun he => hr (h0 e he)
      rw [List.count_append, List.count_eq_zero_of_not_mem hne, Nat.add_zero]
      by_cases he : e ∈ es
      · rw [ih _ (.next hs he hr)]
      · rw [List.count_eq_zero_of_not_mem he]; simp

/-- C112.  Without some of its events an ordinary simulation is still one, ... -/
theorem C112_fewer (hs : HopSystem o mobile h Rounding.exact m g lib' st) (hp : lib.events ⊆ lib'.events) :
    HopSystem o mobile h Rounding.exact m g lib st :=
  ⟨hs.lookup, hs.labelled, fun e he => hs.fit e (hp he), fun e he => hs.endpoints e (hp he),
    hs.coords, hs.loc, hs.rates, hs.forbidden⟩

/-- ... and the model answers it. -/
theorem C112_fewer_answers (ha : Answers o mobile m lib'.events st.occ) (hp : lib.events ⊆ lib'.events) :
    Answers o mobile m lib.events st.occ :=
  ⟨ha.start, ha.commit, fun e s ⟨x, hx, he⟩ hc hw => ha.rate e s ⟨x, hp hx, he⟩ hc hw⟩

/-- C112.  An event library that contains, besides the events of another one and at any places among them, events
that can never happen: over all random numbers the two simulations have the same law.  For every sequence of events
and times, the probability that these are the first events, each after waiting longer than its time, is the same. -/
theorem C112_idle_events (hs : HopSystem o mobile h Rounding.exact m g lib' st)
    (ha : Answers o mobile m lib'.events st.occ) {extra : List Event}
    (hp : lib'.events.Perm (lib.events ++ extra))
    (hi : Sim.init (realKernel Rounding.exact) m lib.generateEventDependencies (some h) (some st) = .ok s0)
    (hi' : Sim.init (realKernel Rounding.exact) m lib'.generateEventDependencies (some h) (some st) = .ok s0')
    (hx : ∀ e ∈ extra, ∀ e', h.annotateEvent e = .ok e' → Idle m s0.lib.events st e')
    {Θ Θ' : Type} [MeasurableSpace Θ] [MeasurableSpace Θ'] {μ : Measure Θ} {μ' : Measure Θ'}
    [IsProbabilityMeasure μ] [IsProbabilityMeasure μ'] {U : Nat → Θ → ℝ × ℝ} {U' : Nat → Θ' → ℝ × ℝ}
    (hU : RandomNumbers μ U) (hU' : RandomNumbers μ' U') (path : List (Event × ℝ)) (hpath : ∀ x ∈ path, 0 ≤ x.2) :
    μ' {ω | Follows m (fun k => U' k ω) s0' path} = μ {ω | Follows m (fun k => U k ω) s0 path} := by
  have hsub : lib.events ⊆ lib'.events := fun e he => hp.mem_iff.2 (List.mem_append_left _ he)
  rw [C94_path_law hs ha hi' hU' path hpath,
    C94_path_law (C112_fewer hs hsub) (C112_fewer_answers ha hsub) hi hU path hpath]
  obtain ⟨-, -, -, -, -, i6, -, -⟩ := init_ok hi
  obtain ⟨-, -, -, -, -, i6', -, -⟩ := init_ok hi'
  have h1 := i6 h rfl
  have h2 := i6' h rfl
  -- the extra events can be annotated, for they are among those of the larger library
  have h3 : ∃ b, h.annotateEvents (lib.events ++ extra) = .ok b := by
    have hall : ∀ e ∈ lib.events ++ extra, ∃ e', h.annotateEvent e = .ok e' := by
      intro e he
      have he' : e ∈ lib'.events := hp.mem_iff.2 he
      obtain ⟨k, hk⟩ := List.getElem?_of_mem he'
      have hf := annotateEvents_iff.1 h2
      have hlt : k < lib'.events.length := (List.getElem?_eq_some_iff.1 hk).1
      have hlt' : k < s0'.lib.events.length := by rw [← hf.length_eq]; exact hlt
      have := List.forall₂_iff_get.1 hf |>.2 k hlt hlt'
      have hke : lib'.events[k] = e := (List.getElem?_eq_some_iff.1 hk).2
      exact ⟨_, by rw [← hke]; exact this⟩
    clear hp hx
    generalize lib.events ++ extra = l at hall
    have : ∃ b, List.Forall₂ (fun e e' => h.annotateEvent e = .ok e') l b := by
      induction l with
      | nil => exact ⟨[], .nil⟩
      | cons a l ih =>
        obtain ⟨b, hb⟩ := ih fun e he => hall e (List.mem_cons_of_mem _ he)
        obtain ⟨a', ha'⟩ := hall a List.mem_cons_self
        exact ⟨a' :: b, .cons ha' hb⟩
    obtain ⟨b, hb⟩ := this
    exact ⟨b, annotateEvents_iff.2 hb⟩
  obtain ⟨b, hb⟩ := h3
  have hperm := annotateEvents_perm hp h2 hb
  obtain ⟨a1, x1, ha1, hx1, rfl⟩ := annotateEvents_append hb
  have ea : a1 = s0.lib.events := by
    have : (Except.ok a1 : Py (List Event)) = .ok s0.lib.events := by rw [← ha1]; exact h1
    exact Except.ok.inj this
  subst ea
  rw [pathChance_perm hperm path st]
  rw [pathChance_idle _ path st .start]
  intro e' he'
  have hf := annotateEvents_iff.1 hx1
  obtain ⟨k, hk⟩ := List.getElem?_of_mem he'
  have hlt' : k < x1.length := (List.getElem?_eq_some_iff.1 hk).1
  have hlt : k < extra.length := by rw [hf.length_eq]; exact hlt'
  have := List.forall₂_iff_get.1 hf |>.2 k hlt hlt'
  have hke : x1[k] = e' := (List.getElem?_eq_some_iff.1 hk).2
  refine hx extra[k] (List.getElem_mem hlt) e' ?_
  rw [← hke]; exact this

end

/-- The hops between the sites 0, 1 and 2 of the ring. -/
def arcLib : EventLib Unit Unit :=
  ({} : EventLib Unit Unit).addAll [⟨[0, 1], [4, 2], none⟩, ⟨[1, 2], [0, 3], none⟩]

/-- The same and a hop between the occupied sites 3 and 4. -/
def arcLibMore : EventLib Unit Unit :=
  ({} : EventLib Unit Unit).addAll [⟨[0, 1], [4, 2], none⟩, ⟨[3, 4], [2, 0], none⟩, ⟨[1, 2], [0, 3], none⟩]

theorem arc_events : arcLib.events = [⟨[0, 1], [4, 2], none⟩, ⟨[1, 2], [0, 3], none⟩] := by
  simp [arcLib, EventLib.addAll_events]

theorem arc_events_more : arcLibMore.events =
    [⟨[0, 1], [4, 2], none⟩, ⟨[3, 4], [2, 0], none⟩, ⟨[1, 2], [0, 3], none⟩] := by
  simp [arcLibMore, EventLib.addAll_events]

theorem arc_perm : arcLibMore.events.Perm (arcLib.events ++ [⟨[3, 4], [2, 0], none⟩]) := by
  rw [arc_events, arc_events_more]
  decide

theorem arc_sub : arcLibMore.events ⊆ ringLib.events := by
  rw [arc_events_more]
  intro e he
  simp only [List.mem_cons, List.not_mem_nil, or_false] at he
  rcases he with rfl | rfl | rfl <;> simp [ringLib, EventLib.addAll_events]

/-- Whatever happens among the sites 0, 1 and 2, the sites 3 and 4 stay occupied. -/
theorem arc_states {s : State EReal}
    (hs : CanArise ringModel [⟨[0, 1], [4, 2], some ⟨0, 1, 1, 0⟩⟩, ⟨[1, 2], [0, 3], some ⟨0, 1, 1, 0⟩⟩]
      ⟨[0, 1, 0, 1, 1], 0, 0⟩ s) : ∃ a b c, s.occ = [a, b, c, 1, 1] := by
  induction hs with
  | start => exact ⟨_, _, _, rfl⟩
  | @next s e hs he hr ih =>
    obtain ⟨a, b, c, ho⟩ := ih
    obtain ⟨occ, t, n⟩ := s
    simp only at ho
    subst ho
    simp only [List.mem_cons, List.not_mem_nil, or_false] at he
    rcases he with rfl | rfl
    · exact ⟨b, a, c, rfl⟩
    · exact ⟨a, c, b, rfl⟩

/-- C112, an instance: the hop between the occupied sites makes no difference. -/
example : ∃ s0 s0' : Sim Unit Unit Unit ℝ EReal,
    Sim.init (realKernel Rounding.exact) ringModel arcLib.generateEventDependencies
      (some ⟨[0, 0, 0, 0, 0], [1, 1, 1, 1, 1]⟩) (some ⟨[0, 1, 0, 1, 1], 0, 0⟩) = .ok s0 ∧
    Sim.init (realKernel Rounding.exact) ringModel arcLibMore.generateEventDependencies
      (some ⟨[0, 0, 0, 0, 0], [1, 1, 1, 1, 1]⟩) (some ⟨[0, 1, 0, 1, 1], 0, 0⟩) = .ok s0' ∧
    ∀ path : List (Event × ℝ), (∀ x ∈ path, 0 ≤ x.2) →
      Measure.infinitePi (fun _ : Nat => twoUniform) {ω | Follows ringModel ω s0' path} =
      Measure.infinitePi (fun _ : Nat => twoUniform) {ω | Follows ringModel ω s0 path} := by
  have hs' := C112_fewer ring_hopSystem arc_sub
  have ha' := C112_fewer_answers (st := ⟨[0, 1, 0, 1, 1], 0, 0⟩) ring_answers arc_sub
  have hsub : arcLib.events ⊆ arcLibMore.events := fun e he => arc_perm.mem_iff.2 (List.mem_append_left _ he)
  obtain ⟨s0, hi⟩ := C85_can_be_constructed (C112_fewer hs' hsub) (C112_fewer_answers ha' hsub)
  obtain ⟨s0', hi'⟩ := C85_can_be_constructed hs' ha'
  refine ⟨s0, s0', hi, hi', fun path hpath => ?_⟩
  refine C112_idle_events hs' ha' arc_perm hi hi' ?_ C93_random_numbers C93_random_numbers path hpath
  obtain ⟨-, -, -, -, -, i6, -, -⟩ := init_ok hi
  have h6 := i6 _ rfl
  have h7 : (arcLib.generateEventDependencies).events = arcLib.events := rfl
  rw [h7, arc_events] at h6
  have h8 : s0.lib.events = [⟨[0, 1], [4, 2], some ⟨0, 1, 1, 0⟩⟩, ⟨[1, 2], [0, 3], some ⟨0, 1, 1, 0⟩⟩] :=
    (Except.ok.inj h6).symm
  rw [h8]
  intro e he e' hann s hcan
  simp only [List.mem_cons, List.not_mem_nil, or_false] at he
  subst he
  cases hann
  obtain ⟨a, b, c, ho⟩ := arc_states hcan
  have hd : eventDirection s.occ ⟨[3, 4], [2, 0], some ⟨0, 1, 1, 0⟩⟩ = .ok 0 := by
    rw [ho]; rfl
  unfold rateIn
  have : ringModel.computeProbability () ⟨[3, 4], [2, 0], some ⟨0, 1, 1, 0⟩⟩ s = .ok 0 := by
    show (⟨some chainExpansion, siteSource (some chainExpansion)⟩ : Composite Unit EReal).computeProbability 1 300 1000
      () _ _ = _
    unfold Composite.computeProbability
    rw [hd]
    rfl
  rw [this]

end KMC
