import Verif.Props.PathProps
import Verif.Props.HomogeneousProps
/-
C100.  The order in which the events are listed does not matter.
-/
set_option linter.unusedSectionVars false

namespace KMC
open Spec MeasureTheory

section
variable {σ φ ψ K : Type} [Field K] [LinearOrder K] [FloorRing K]
variable {o : ActiveSiteOrder String ψ} {mobile : String} {h : HopStateLookup}
  {m : RateModel Unit ℝ EReal} {g : Geometry K} {lib lib' : EventLib σ φ} {st : State EReal}
  {s0 s0' : Sim σ φ Unit ℝ EReal}

/-- Annotated events in another order. -/
theorem annotateEvents_perm {es es' fs fs' : List Event} (hp : es.Perm fs) (h1 : h.annotateEvents es = .ok es')
    (h2 : h.annotateEvents fs = .ok fs') : es'.Perm fs' := by
  classical
  let f : Event → Event := fun e => match h.annotateEvent e with
    | .ok e' => e'
    | .error _ => e
  have key : ∀ es es' : List Event, h.annotateEvents es = .ok es' → es' = es.map f := by
    intro es es' ha
    have := annotateEvents_iff.1 ha
    induction this with
    | nil => rfl
    | @cons a b l1 l2 hab hl ih =>
      rw [List.map_cons, ← ih (annotateEvents_iff.2 hl)]
      congr 1
      simp only [f, hab]
  rw [key _ _ h1, key _ _ h2]
  exact hp.map f

theorem totalRate_perm {es fs : List Event} (hp : es.Perm fs) (st : State EReal) :
    totalRate m es st = totalRate m fs st := by
  unfold totalRate
  exact (hp.map _).sum_eq

theorem pathChance_perm {es fs : List Event} (hp : es.Perm fs) (path : List (Event × ℝ)) :
    ∀ st : State EReal, pathChance m es st path = pathChance m fs st path := by
  induction path with
  | nil => intro st; rfl
  | cons a path ih =>
    intro st
    obtain ⟨e, t⟩ := a
    unfold pathChance
    rw [totalRate_perm hp, hp.count_eq, ih]

/-- C100.  With its events in another order an ordinary simulation is still one, ... -/
theorem C100_reordered (hs : HopSystem o mobile h Rounding.exact m g lib st) (hp : lib.events.Perm lib'.events) :
    HopSystem o mobile h Rounding.exact m g lib' st :=
  ⟨hs.lookup, hs.labelled, fun e he => hs.fit e (hp.mem_iff.2 he), fun e he => hs.endpoints e (hp.mem_iff.2 he),
    hs.coords, hs.loc, hs.rates, hs.forbidden⟩

/-- ... and the model answers it. -/
theorem C100_reordered_answers (ha : Answers o mobile m lib.events st.occ) (hp : lib.events.Perm lib'.events) :
    Answers o mobile m lib'.events st.occ :=
  ⟨ha.start, ha.commit, fun e s ⟨x, hx, he⟩ hc hw => ha.rate e s ⟨x, hp.mem_iff.2 hx, he⟩ hc hw⟩

/-- C100.  Two event libraries with the same events in different orders: over all random numbers the simulations
have the same law.  For every sequence of events and times, the probability that these are the first events, each
after waiting longer than its time, is the same. -/
theorem C100_order_does_not_matter (hs : HopSystem o mobile h Rounding.exact m g lib st)
    (ha : Answers o mobile m lib.events st.occ) (hp : lib.events.Perm lib'.events)
    (hi : Sim.init (realKernel Rounding.exact) m lib.generateEventDependencies (some h) (some st) = .ok s0)
    (hi' : Sim.init (realKernel Rounding.exact) m lib'.generateEventDependencies (some h) (some st) = .ok s0')
    {Θ Θ' : Type} [MeasurableSpace Θ] [MeasurableSpace Θ'] {μ : Measure Θ} {μ' : Measure Θ'}
    [IsProbabilityMeasure μ] [IsProbabilityMeasure μ'] {U : Nat → Θ → ℝ × ℝ} {U' : Nat → Θ' → ℝ × ℝ}
    (hU : RandomNumbers μ U) (hU' : RandomNumbers μ' U') (path : List (Event × ℝ)) (hpath : ∀ x ∈ path, 0 ≤ x.2) :
    μ' {ω | Follows m (fun k => U' k ω) s0' path} = μ {ω | Follows m (fun k => U k ω) s0 path} := by
  rw [C94_path_law hs ha hi hU path hpath,
    C94_path_law (C100_reordered hs hp) (C100_reordered_answers ha hp) hi' hU' path hpath]
  obtain ⟨-, -, -, -, -, i6, -, -⟩ := init_ok hi
  obtain ⟨-, -, -, -, -, i6', -, -⟩ := init_ok hi'
  rw [pathChance_perm (annotateEvents_perm hp (i6 h rfl) (i6' h rfl)) path st]

/-- C100.  An event listed `k` times is one with `k` times the rate: the probability that it is the first event, after
more than the time `t`, is `k` times its rate over the total rate times the probability to wait longer. -/
theorem C100_listed_again (hs : HopSystem o mobile h Rounding.exact m g lib st)
    (ha : Answers o mobile m lib.events st.occ)
    (hi : Sim.init (realKernel Rounding.exact) m lib.generateEventDependencies (some h) (some st) = .ok s0)
    {Θ : Type} [MeasurableSpace Θ] {μ : Measure Θ} [IsProbabilityMeasure μ] {U : Nat → Θ → ℝ × ℝ}
    (hU : RandomNumbers μ U) (e : Event) (t : ℝ) (ht : 0 ≤ t) :
    μ {ω | Follows m (fun k => U k ω) s0 [(e, t)]} =
      ENNReal.ofReal (s0.lib.events.count e * rateIn m st e / totalRate m s0.lib.events st *
        Real.exp (-totalRate m s0.lib.events st * t)) := by
  rw [C94_path_law hs ha hi hU [(e, t)] (by simpa using ht)]
  simp [pathChance]

end

/-- The ring of five sites with its events listed from the other end. -/
def ringLibBack : EventLib Unit Unit :=
  ({} : EventLib Unit Unit).addAll
    [⟨[4, 0], [3, 1], none⟩, ⟨[3, 4], [2, 0], none⟩, ⟨[2, 3], [1, 4], none⟩, ⟨[1, 2], [0, 3], none⟩,
      ⟨[0, 1], [4, 2], none⟩]

theorem ring_back : ringLib.events.Perm ringLibBack.events := by
  rw [show ringLibBack.events = ringLib.events.reverse by
    simp [ringLib, ringLibBack, EventLib.addAll_events]]
  exact ringLib.events.reverse_perm.symm

/-- Both simulations can be constructed, and two hops after one another have the same probability in both. -/
example : ∃ s0 s0' : Sim Unit Unit Unit ℝ EReal,
    Sim.init (realKernel Rounding.exact) ringModel ringLib.generateEventDependencies
      (some ⟨[0, 0, 0, 0, 0], [1, 1, 1, 1, 1]⟩) (some ⟨[0, 1, 0, 1, 1], 0, 0⟩) = .ok s0 ∧
    Sim.init (realKernel Rounding.exact) ringModel ringLibBack.generateEventDependencies
      (some ⟨[0, 0, 0, 0, 0], [1, 1, 1, 1, 1]⟩) (some ⟨[0, 1, 0, 1, 1], 0, 0⟩) = .ok s0' ∧
    ∀ t u : ℝ, 0 ≤ t → 0 ≤ u →
      Measure.infinitePi (fun _ : Nat => twoUniform) {ω | Follows ringModel ω s0'
        [(⟨[0, 1], [4, 2], some ⟨0, 1, 1, 0⟩⟩, t), (⟨[2, 3], [1, 4], some ⟨0, 1, 1, 0⟩⟩, u)]} =
      Measure.infinitePi (fun _ : Nat => twoUniform) {ω | Follows ringModel ω s0
        [(⟨[0, 1], [4, 2], some ⟨0, 1, 1, 0⟩⟩, t), (⟨[2, 3], [1, 4], some ⟨0, 1, 1, 0⟩⟩, u)]} := by
  obtain ⟨s0, hi⟩ := C85_can_be_constructed ring_hopSystem ring_answers
  obtain ⟨s0', hi'⟩ := C85_can_be_constructed (C100_reordered ring_hopSystem ring_back)
    (C100_reordered_answers ring_answers ring_back)
  refine ⟨s0, s0', hi, hi', fun t u ht hu => ?_⟩
  refine C100_order_does_not_matter ring_hopSystem ring_answers ring_back hi hi' C93_random_numbers
    C93_random_numbers _ ?_
  intro x hx
  simp only [List.mem_cons, List.not_mem_nil, or_false] at hx
  rcases hx with rfl | rfl
  · exact ht
  · exact hu

end KMC
