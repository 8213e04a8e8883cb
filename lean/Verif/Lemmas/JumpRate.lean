import Verif.Lemmas.Equilibrium
import Verif.Props.GeneratorInputsProps
import Verif.Props.EquilibriumProps
import Verif.Spec.JumpRate
import Verif.Spec.Path
/-
Lemmas on the rate of a jump.
-/
set_option linter.unusedSectionVars false
namespace KMC
open Spec Generate MeasureTheory

section
variable {σ φ ψ K : Type} [Field K] [LinearOrder K] [FloorRing K]
variable {o : ActiveSiteOrder String ψ} {mobile : String} {h : HopStateLookup}
  {m : RateModel Unit ℝ EReal} {g : Geometry K} {lib : EventLib σ φ} {st : State EReal}
  {s0 : Sim σ φ Unit ℝ EReal}

/-- Which exchange turns one list into another one is determined, if they differ. -/
theorem exchanged_pair {i j f t : Nat} {x y : List Int} (h : Exchanged i j x y) (hij : x[i]? ≠ x[j]?) (h' : Exchanged f t x y) :
    (f = i ∧ t = j) ∨ (f = j ∧ t = i) := by
  obtain ⟨-, a1, a2, a3⟩ := h
  obtain ⟨-, b1, b2, b3⟩ := h'
  have hi : i = f ∨ i = t := by
    by_contra hc
    push Not at hc
    have := b3 i hc.1 hc.2
    exact hij (by rw [← this, a1])
  have hj : j = f ∨ j = t := by
    by_contra hc
    push Not at hc
    have := b3 j hc.1 hc.2
    exact hij (by rw [← this, a2])
  have hne : i ≠ j := fun e => hij (by rw [e])
  rcases hi with rfl | rfl <;> rcases hj with rfl | rfl
  · exact absurd rfl hne
  · exact .inl ⟨rfl, rfl⟩
  · exact .inr ⟨rfl, rfl⟩
  · exact absurd rfl hne

theorem canJump_ne (hw : WellLabelled o mobile st.occ) {x : List Int} {i j : Nat}
    (hc : CanJump o mobile x i j) (hal : allowedAt o i = allowedAt o j) : x[i]? ≠ x[j]? := by
  obtain ⟨h1, v, h2, h3⟩ := hc
  intro he
  have : speciesAt o x i = speciesAt o x j := by
    unfold speciesAt speciesOf
    rw [he, hal]
  rw [h1, h2] at this
  cases this
  exact hw.mobileNotVacancy h3

theorem flow_list : ∀ (events : List Event) (prob : List ℝ) (x y : List Int) (rate : Event → ℝ)
    [DecidablePred fun e => Leads e x y],
    List.Forall₂ (fun e p => rate e = p) events prob →
    flow events prob x y = ((events.filter fun e => Leads e x y).map rate).sum := by
  classical
  intro events
  induction events with
  | nil => intro prob x y rate _ _; simp [flow]
  | cons e l ih =>
    intro prob x y rate inst hf
    cases hf with
    | @cons _ p _ ps hp hps =>
    have := ih ps x y rate hps
    unfold flow at this ⊢
    rw [List.length_cons, Finset.sum_range_succ']
    simp only [List.getElem?_cons_succ, List.getD_cons_succ, List.getElem?_cons_zero, List.getD_cons_zero,
      Option.some.injEq, exists_eq_left']
    refine (congrArg₂ (· + ·) (Eq.trans (Finset.sum_congr rfl fun i _ => ?_) this) rfl).trans ?_
    · congr
    rw [List.filter_cons]
    by_cases hl : Leads e x y
    · simp only [hl, if_true, decide_true, List.map_cons, List.sum_cons, hp]
      ring
    · simp [hl]

/-- The table of a reached simulation holds the rates of the model. -/
theorem met_table {s : Sim σ φ Unit ℝ EReal} (hm : Met o mobile m st s0 s) :
    List.Forall₂ (fun e p => rateIn m s.st e = p) s0.lib.events s.prob := by
  rw [List.forall₂_iff_get]
  refine ⟨by rw [hm.inv.table.length, hm.inv.lib], fun i h1 h2 => ?_⟩
  obtain ⟨p, h3, h4⟩ := hm.inv.table.fresh i s0.lib.events[i] (by rw [hm.inv.lib]; simp [h1])
  rw [List.getElem?_eq_getElem h2, Option.some.injEq] at h3
  simp only [List.get_eq_getElem, h3, rateIn, h4]

/-- The rate of a jump is the sum of the rates of the events that lead there. -/
theorem jumpRate_flow (hs : HopSystem o mobile h Rounding.exact m g lib st)
    (ha : Answers o mobile m lib.events st.occ)
    (hi : Sim.init (realKernel Rounding.exact) m lib.generateEventDependencies (some h) (some st) = .ok s0)
    {s : Sim σ φ Unit ℝ EReal} (hm : Met o mobile m st s0 s) (y : List Int) (r1 r2 : ℝ) (h0 : 0 ≤ r1)
    (h1 : r1 < 1) : jumpRate m r1 r2 s y = flow s0.lib.events s.prob s.st.occ y := by
  unfold jumpRate
  have hnn := rates_nonneg hs hm.inv
  rcases (List.sum_nonneg hnn).lt_or_eq with hpos | hz
  · rw [chance_eq hs ha hi hm hpos, meanStay_eq hs hm hpos r1 h0 h1, div_div_eq_mul_div, div_one,
      div_mul_cancel₀ _ hpos.ne']
  · have hall : ∀ p ∈ s.prob, p = 0 := by
      intro p hp
      exact le_antisymm (hz ▸ List.single_le_sum hnn p hp) (hnn p hp)
    have hfl : flow s0.lib.events s.prob s.st.occ y = 0 := by
      unfold flow
      refine Finset.sum_eq_zero fun i _ => ?_
      split
      · rw [List.getD_eq_getElem?_getD]
        cases hp : s.prob[i]? with
        | none => rfl
        | some p => exact hall p (List.mem_of_getElem? hp)
      · rfl
    have hst : ∀ r2, stay s r1 r2 = 0 := by
      intro r2
      obtain ⟨x, hx⟩ := C04_frozen_raises Rounding.exact s.prob hall r1 r2
      unfold stay Sim.propose
      rw [hm.inv.table.cum]
      simp only [realKernel, hx]
    rw [hfl]
    unfold meanStay
    simp [hst]

end
end KMC
