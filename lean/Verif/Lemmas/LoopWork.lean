import Verif.Spec.LoopWork
import Verif.Lemmas.Equilibrium
import Verif.Props.EquilibriumProps
/-
Lemmas for Kolmogorov's criterion.
-/
set_option linter.unusedSectionVars false

namespace KMC
open Spec

/-! ### Abstract part: potentials on a graph -/

section abstract
variable {α : Type}

/-- A chain of steps with the product of their ratios. -/
inductive RatioChain (E : α → α → ℝ → Prop) : α → α → ℝ → Prop
  | nil (x : α) : RatioChain E x x 1
  | cons {x y z : α} {a r : ℝ} : E x y a → RatioChain E y z r → RatioChain E x z (a * r)

theorem RatioChain.append {E : α → α → ℝ → Prop} {x y z : α} {a b : ℝ} (h : RatioChain E x y a)
    (h' : RatioChain E y z b) : RatioChain E x z (a * b) := by
  induction h with
  | nil x => simpa using h'
  | cons he _ ih => rw [mul_assoc]; exact .cons he (ih h')

theorem RatioChain.back {E : α → α → ℝ → Prop} (hs : ∀ x y a, E x y a → E y x a⁻¹) {x y : α} {a : ℝ}
    (h : RatioChain E x y a) : RatioChain E y x a⁻¹ := by
  induction h with
  | nil x => simpa using RatioChain.nil (E := E) x
  | @cons x y z a r he _ ih =>
    have h1 : RatioChain E y x a⁻¹ := by simpa using RatioChain.cons (hs _ _ _ he) (.nil x)
    have := ih.append h1
    rwa [mul_inv, mul_comm]

theorem RatioChain.pos {E : α → α → ℝ → Prop} (hp : ∀ x y a, E x y a → 0 < a) {x y : α} {a : ℝ}
    (h : RatioChain E x y a) : 0 < a := by
  induction h with
  | nil x => exact one_pos
  | cons he _ ih => exact mul_pos (hp _ _ _ he) ih

/-- If the ratios multiply to one around every closed chain, they are ratios of weights. -/
theorem potential_of_loops (E : α → α → ℝ → Prop) (hs : ∀ x y a, E x y a → E y x a⁻¹)
    (hp : ∀ x y a, E x y a → 0 < a) (hl : ∀ x a, RatioChain E x x a → a = 1) :
    ∃ W : α → ℝ, (∀ x, 0 < W x) ∧ ∀ x y a, E x y a → W y = W x * a := by
  classical
  let S : Setoid α := ⟨fun x y => ∃ a, RatioChain E x y a,
    ⟨fun x => ⟨1, .nil x⟩, fun ⟨a, h⟩ => ⟨a⁻¹, h.back hs⟩, fun ⟨a, h⟩ ⟨b, h'⟩ => ⟨a * b, h.append h'⟩⟩⟩
  have hrep : ∀ x, ∃ a, RatioChain E (Quotient.mk S x).out x a := fun x => Quotient.mk_out (s := S) x
  choose W hW using hrep
  refine ⟨W, fun x => (hW x).pos hp, fun x y a he => ?_⟩
  have hsame : Quotient.mk S x = Quotient.mk S y :=
    Quotient.sound (s := S) ⟨a * 1, .cons he (.nil y)⟩
  have h1 := hW y
  rw [← hsame] at h1
  have h2 : RatioChain E (Quotient.mk S x).out y (W x * (a * 1)) := (hW x).append (.cons he (.nil y))
  have h3 := hl _ _ (h2.append (h1.back hs))
  have h4 : W y ≠ 0 := ((hW y).pos hp).ne'
  field_simp at h3
  linarith

end abstract

section
variable {σ φ ψ K : Type} [Field K] [LinearOrder K] [FloorRing K]
variable {o : ActiveSiteOrder String ψ} {mobile : String} {h : HopStateLookup}
  {m : RateModel Unit ℝ EReal} {g : Geometry K} {lib : EventLib σ φ} {st : State EReal}
  {s0 : Sim σ φ Unit ℝ EReal}

/-- A possible hop between two configurations and the ratio of its rate to the rate of the way back. -/
def HopStep (o : ActiveSiteOrder String ψ) (mobile : String) (m : RateModel Unit ℝ EReal) (events : List Event)
    (x y : List Int) (a : ℝ) : Prop :=
  ∃ e ∈ events, ∃ (st st' : State EReal) (dt : EReal) (d : Int) (p p' : ℝ), WellLabelled o mobile st.occ ∧
    eventDirection st.occ e = .ok d ∧ d ≠ 0 ∧ st.applyEvent e dt = (.ok (), st') ∧
    m.computeProbability () e st = .ok p ∧ m.computeProbability () e st' = .ok p' ∧
    st.occ = x ∧ st'.occ = y ∧ a = p / p'

/-- A hop keeps every site in an allowed state. -/
theorem hop_labelled (hs : HopSystem o mobile h Rounding.exact m g lib st)
    (hi : Sim.init (realKernel Rounding.exact) m lib.generateEventDependencies (some h) (some st) = .ok s0)
    {e : Event} (he : e ∈ s0.lib.events) {x x' : State EReal} {dt : EReal} (hw : WellLabelled o mobile x.occ)
    (ha : x.applyEvent e dt = (.ok (), x')) : WellLabelled o mobile x'.occ := by
  obtain ⟨f, t, hf, ht, hm, hall, -⟩ := event_facts hs hi he
  have hlen : x.occ.length = st.occ.length := hw.length.trans hs.labelled.length.symm
  rw [← hlen] at hf ht
  obtain ⟨f', t', a, b, ha', hb', hm', x1, x2, rfl⟩ := applyEvent_ok ha
  rw [hm] at hm'; cases hm'
  rw [pyIdx_natCast hf] at x1; rw [pyIdx_natCast ht] at x2
  cases x1; cases x2
  exact wellLabelled_exchange hw hf ht hall (set_set_exchanged hf ht)

/-- The way back of a possible hop is possible. -/
theorem hop_back (hs : HopSystem o mobile h Rounding.exact m g lib st)
    (hi : Sim.init (realKernel Rounding.exact) m lib.generateEventDependencies (some h) (some st) = .ok s0)
    {e : Event} (he : e ∈ s0.lib.events) {x x' : State EReal} {dt : EReal} {d : Int}
    (hw : WellLabelled o mobile x.occ) (hd : eventDirection x.occ e = .ok d) (h0 : d ≠ 0)
    (ha : x.applyEvent e dt = (.ok (), x')) : eventDirection x'.occ e = .ok (-d) := by
  have hlen : x.occ.length = st.occ.length := hw.length.trans hs.labelled.length.symm
  obtain ⟨hc, t1, t2, t3, t4⟩ := event_twoWay hs hi he hw hlen hd h0
  exact C13_hop_reverses_direction x x' e dt d hc t1 t2 t3 t4 hd h0 ha

theorem hopStep_pos (hs : HopSystem o mobile h Rounding.exact m g lib st) (hwl : Willing m)
    (hi : Sim.init (realKernel Rounding.exact) m lib.generateEventDependencies (some h) (some st) = .ok s0)
    {x y : List Int} {a : ℝ} (hst : HopStep o mobile m s0.lib.events x y a) : 0 < a := by
  obtain ⟨e, he, u, v, dt, d, p, p', hw, hd, h0, ha, hp, hp', -, -, rfl⟩ := hst
  exact div_pos (hwl e u d p hd h0 hp) (hwl e v (-d) p' (hop_back hs hi he hw hd h0 ha) (by omega) hp')

theorem hopStep_symm (hs : HopSystem o mobile h Rounding.exact m g lib st)
    (hi : Sim.init (realKernel Rounding.exact) m lib.generateEventDependencies (some h) (some st) = .ok s0)
    {x y : List Int} {a : ℝ} (hst : HopStep o mobile m s0.lib.events x y a) :
    HopStep o mobile m s0.lib.events y x a⁻¹ := by
  obtain ⟨e, he, u, v, dt, d, p, p', hw, hd, h0, ha, hp, hp', rfl, rfl, rfl⟩ := hst
  obtain ⟨w, hw2, hocc⟩ := C07_event_twice_restores u v e dt dt ha
  refine ⟨e, he, v, w, dt, -d, p', p, hop_labelled hs hi he hw ha, hop_back hs hi he hw hd h0 ha, by omega, hw2, hp',
    ?_, rfl, hocc, by rw [inv_div]⟩
  rw [hs.loc.local_rate e w u (by rw [hocc]) (fun _ _ => by rw [hocc])]
  exact hp

/-- Executing an event depends on the time and the step counter only in these two. -/
theorem applyEvent_same_occ {e : Event} {u u' v : State EReal} {dt dt' : EReal} (hu : u.applyEvent e dt = (.ok (), u'))
    (ho : v.occ = u.occ) : ∃ v', v.applyEvent e dt' = (.ok (), v') ∧ v'.occ = u'.occ := by
  obtain ⟨f, t, i, j, hi, hj, hm, h1, h2, rfl⟩ := applyEvent_ok hu
  rcases applyEvent_cases v e dt' with ⟨x, hx⟩ | ⟨f', t', i', j', hi', hj', hm', h1', h2', h3'⟩
  · exfalso
    obtain ⟨v', hv'⟩ : ∃ v', v.applyEvent e dt' = (.ok (), v') := by
      obtain ⟨occ, time, step⟩ := v
      simp only at ho
      subst ho
      obtain ⟨v', hv', -⟩ := C07_event_exchanges_endpoints (⟨u.occ, time, step⟩ : State EReal) f t e.env e.codes dt' i j
        (denotes_iff.2 h1) (denotes_iff.2 h2)
      refine ⟨v', ?_⟩
      rw [← hv', ← hm]
    rw [hx] at hv'
    cases hv'
  · refine ⟨_, h3', ?_⟩
    rw [hm] at hm'; cases hm'
    obtain ⟨occ, time, step⟩ := v
    simp only at ho
    subst ho
    rw [h1] at h1'; cases h1'
    rw [h2] at h2'; cases h2'
    rfl

/-- A chain of steps can be run as a path of hops from every state with the first configuration. -/
theorem path_of_chain (hs : HopSystem o mobile h Rounding.exact m g lib st)
    (hc : ∀ e st, (m.applyEvent () e st).1 = .ok ()) {events : List Event} {x y : List Int} {a : ℝ}
    (h : RatioChain (HopStep o mobile m events) x y a) : ∀ u : State EReal, u.occ = x →
    ∃ (l : List (Event × ℝ × ℝ)) (v : State EReal), HopPath m ((), u) l ((), v) ∧ (∀ z ∈ l, z.1 ∈ events) ∧
      v.occ = y ∧ pathRatio l = a := by
  induction h with
  | nil x => exact fun u hu => ⟨[], u, .nil _, by simp, hu, by simp [pathRatio]⟩
  | @cons x y z a r hst _ ih =>
    intro u hu
    obtain ⟨e, he, s, s', dt, d, p, p', hw, hd, h0, ha, hp, hp', rfl, rfl, rfl⟩ := hst
    obtain ⟨u', hu', ho'⟩ := applyEvent_same_occ (dt' := 0) ha hu
    obtain ⟨l, v, h1, h2, h3, h4⟩ := ih u' ho'
    refine ⟨(e, p, p') :: l, v, .cons (d := d) (by rw [hu]; exact hd) h0 ?_ hu' (Prod.ext (hc e u') rfl) ?_ h1, ?_, h3, ?_⟩
    · rw [hs.loc.local_rate e u s (by rw [hu]) (fun _ _ => by rw [hu])]; exact hp
    · rw [hs.loc.local_rate e u' s' (by rw [ho']) (fun _ _ => by rw [ho'])]; exact hp'
    · intro z hz
      rcases List.mem_cons.1 hz with rfl | hz
      · exact he
      · exact h2 z hz
    · simp only [pathRatio, List.map_cons, List.prod_cons] at h4 ⊢
      rw [h4]

/-- Weights with detailed balance give the ratio of every path. -/
theorem path_of_balanced (hs : HopSystem o mobile h Rounding.exact m g lib st) (hwl : Willing m)
    (hi : Sim.init (realKernel Rounding.exact) m lib.generateEventDependencies (some h) (some st) = .ok s0)
    {W : List Int → ℝ} (hb : Balanced o mobile m s0.lib.events W) {x y : Unit × State EReal}
    {l : List (Event × ℝ × ℝ)} (hp : HopPath m x l y) (hw : WellLabelled o mobile x.2.occ)
    (hev : ∀ z ∈ l, z.1 ∈ s0.lib.events) : W y.2.occ = W x.2.occ * pathRatio l := by
  induction hp with
  | nil x => simp [pathRatio]
  | @cons ms ms' u u' y e dt d p p' l hd h0 hr hap hms hr' _ ih =>
    have he := hev (e, p, p') (by simp)
    have h1 := ih (hop_labelled hs hi he hw hap) (fun z hz => hev z (by simp [hz]))
    have h2 := hb e he u u' dt d p p' hw hd h0 hap hr hr'
    have h3 : 0 < p' := hwl e u' (-d) p' (hop_back hs hi he hw hd h0 hap) (by omega) hr'
    simp only [pathRatio, List.map_cons, List.prod_cons] at h1 ⊢
    rw [h1, ← mul_assoc, mul_div_assoc', h2, mul_div_assoc, div_self h3.ne', mul_one]

end
end KMC
