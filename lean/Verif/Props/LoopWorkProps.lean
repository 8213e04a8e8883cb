import Verif.Lemmas.LoopWork
import Verif.Model.ConstantDifference
/-
C141: which models have an equilibrium with detailed balance.
-/
set_option linter.unusedSectionVars false

namespace KMC
open Spec

section
variable {σ φ ψ K : Type} [Field K] [LinearOrder K] [FloorRing K]
variable {o : ActiveSiteOrder String ψ} {mobile : String} {h : HopStateLookup}
  {m : RateModel Unit ℝ EReal} {g : Geometry K} {lib : EventLib σ φ} {st : State EReal}
  {s0 : Sim σ φ Unit ℝ EReal}

/-- C141.  Kolmogorov's criterion, both ways.  For a simulation whose model gives every possible hop a positive
rate: there are positive weights for the configurations with detailed balance exactly if along every closed sequence
of hops the products of the rates forward and of the rates back are equal. -/
theorem C141_criterion (hs : HopSystem o mobile h Rounding.exact m g lib st) (hwl : Willing m)
    (hc : ∀ e st, (m.applyEvent () e st).1 = .ok ())
    (hi : Sim.init (realKernel Rounding.exact) m lib.generateEventDependencies (some h) (some st) = .ok s0) :
    (∃ W : List Int → ℝ, (∀ x, 0 < W x) ∧ Balanced o mobile m s0.lib.events W) ↔
      ∀ (u v : State EReal) (l : List (Event × ℝ × ℝ)), WellLabelled o mobile u.occ →
        HopPath m ((), u) l ((), v) → (∀ z ∈ l, z.1 ∈ s0.lib.events) → v.occ = u.occ → pathRatio l = 1 := by
  constructor
  · rintro ⟨W, hW, hb⟩ u v l hw hp hev ho
    have := path_of_balanced hs hwl hi hb hp hw hev
    simp only [ho] at this
    exact mul_left_cancel₀ (hW u.occ).ne' (by linarith)
  · intro hl
    have hpos : ∀ x y a, HopStep o mobile m s0.lib.events x y a → 0 < a := fun _ _ _ => hopStep_pos hs hwl hi
    obtain ⟨W, hW, hstep⟩ := potential_of_loops (HopStep o mobile m s0.lib.events)
      (fun _ _ _ => hopStep_symm hs hi) hpos (by
        intro x a hch
        cases hch with
        | nil => rfl
        | cons hst hrest =>
          obtain ⟨e, he, u, u', dt, d, p, p', hw, hd, h0, ha, hp, hp', hx, hy, har⟩ := hst
          obtain ⟨l, v, h1, h2, h3, h4⟩ := path_of_chain hs hc (.cons ⟨e, he, u, u', dt, d, p, p', hw, hd, h0, ha, hp, hp',
            hx, hy, har⟩ hrest) u hx
          rw [← h4]
          exact hl u v l hw h1 h2 (by rw [h3, hx]))
    refine ⟨W, hW, ?_⟩
    intro e he u u' dt d p p' hw hd h0 ha hp hp'
    have h1 := hstep _ _ _ ⟨e, he, u, u', dt, d, p, p', hw, hd, h0, ha, hp, hp', rfl, rfl, rfl⟩
    have h3 : 0 < p' := hwl e u' (-d) p' (hop_back hs hi he hw hd h0 ha) (by omega) hp'
    rw [h1, mul_assoc, div_mul_cancel₀ _ h3.ne']

/-- C141.  The weights leave no choice: between configurations that are joined by hops they are in the ratio of the
products of the rates. -/
theorem C141_weights_fixed (hs : HopSystem o mobile h Rounding.exact m g lib st) (hwl : Willing m)
    (hi : Sim.init (realKernel Rounding.exact) m lib.generateEventDependencies (some h) (some st) = .ok s0)
    (W : List Int → ℝ) (hW : ∀ x, 0 < W x) (hb : Balanced o mobile m s0.lib.events W) (u v : State EReal)
    (l : List (Event × ℝ × ℝ)) (hw : WellLabelled o mobile u.occ) (hp : HopPath m ((), u) l ((), v))
    (hev : ∀ z ∈ l, z.1 ∈ s0.lib.events) : W v.occ / W u.occ = pathRatio l := by
  rw [path_of_balanced hs hwl hi hb hp hw hev, mul_div_assoc, mul_comm, div_mul_cancel₀ _ (hW u.occ).ne']

end

section
variable {σ φ ψ K : Type} [Field K] [LinearOrder K] [FloorRing K]
variable {o : ActiveSiteOrder String ψ} {mobile : String} {h : HopStateLookup}
  {c : Composite Unit EReal} {kB temp ν : ℝ} {g : Geometry K} {lib : EventLib σ φ} {st : State EReal}
  {s0 : Sim σ φ Unit ℝ EReal}

/-- C141, one hop.  With a barrier expansion that does not see the endpoints, the rate of a hop over the rate of the
way back depends on the site model through half of the difference of the two reported differences only, for whatever
site model. -/
theorem C141_hop_ratio {M T : Type} [Add T] (c : Composite M T) (kB temp ν : ℝ) (hν : 0 < ν) (ms ms' : M)
    (st st' : State T) (e : Event) (dt : T) (d d' : Int) (δ δ' p p' : ℝ)
    (hd : eventDirection st.occ e = .ok d) (h0 : d ≠ 0) (hap : SurroundingsApart st.occ.length e)
    (happly : st.applyEvent e dt = (.ok (), st')) (hd' : eventDirection st'.occ e = .ok d') (h0' : d' ≠ 0)
    (hs : c.site.difference ms e st d = .ok δ) (hs' : c.site.difference ms' e st' d' = .ok δ')
    (hp : c.computeProbability kB temp ν ms e st = .ok p)
    (hp' : c.computeProbability kB temp ν ms' e st' = .ok p') :
    p / p' = Real.exp (-((δ - δ') / 2) / (kB * temp)) := by
  obtain ⟨x, hx, ⟨rfl, -⟩ | ⟨-, kra, a, y, hk, ha, hy, rfl⟩⟩ := composite_ok hp
  · rw [hd] at hx; cases hx; exact absurd rfl h0
  obtain ⟨x', hx', ⟨rfl, -⟩ | ⟨-, kra', a', y', hk', ha', hy', rfl⟩⟩ := composite_ok hp'
  · rw [hd'] at hx'; cases hx'; exact absurd rfl h0'
  rw [hd] at hx; cases hx
  rw [hd'] at hx'; cases hx'
  rw [hs] at hy; cases hy
  rw [hs'] at hy'; cases hy'
  rw [hk] at hk'; cases hk'
  rw [C36_local kra e _ _ (hop_keeps_surroundings hap happly), ha] at ha'
  cases ha'
  rw [mul_div_mul_left _ _ hν.ne', ← Real.exp_sub]
  congr 1
  ring

theorem running_apart
    (hi : Sim.init (realKernel Rounding.exact) (c.rateModel kB temp ν) lib.generateEventDependencies (some h)
      (some st) = .ok s0)
    (hap : ∀ e ∈ lib.events, SurroundingsApart st.occ.length e) {e : Event} (he : e ∈ s0.lib.events) :
    SurroundingsApart st.occ.length e := by
  obtain ⟨x, hx, h1, h2⟩ := running_event hi he
  intro i hi' j hj
  rw [h2] at hi'; rw [h1] at hj
  exact hap x hx i hi' j hj

/-- Work and rates along the same path. -/
theorem work_of_path (hν : 0 < ν) (hs : HopSystem o mobile h Rounding.exact (c.rateModel kB temp ν) g lib st)
    (hi : Sim.init (realKernel Rounding.exact) (c.rateModel kB temp ν) lib.generateEventDependencies (some h)
      (some st) = .ok s0)
    (hap : ∀ e ∈ lib.events, SurroundingsApart st.occ.length e) {x y : Unit × State EReal}
    {l : List (Event × ℝ × ℝ)} (hp : HopPath (c.rateModel kB temp ν) x l y) (hw : WellLabelled o mobile x.2.occ)
    (hev : ∀ z ∈ l, z.1 ∈ s0.lib.events) :
    ∃ w, WorkPath c kB temp ν s0.lib.events x w y ∧ pathRatio l = Real.exp (-w / (kB * temp)) := by
  induction hp with
  | nil x => exact ⟨0, .nil x, by simp [pathRatio]⟩
  | @cons ms ms' u u' y e dt d p p' l hd h0 hr happ hms hr' _ ih =>
    have he := hev (e, p, p') (by simp)
    obtain ⟨w, hw1, hw2⟩ := ih (hop_labelled hs hi he hw happ) (fun z hz => hev z (by simp [hz]))
    have hd' := hop_back hs hi he hw hd h0 happ
    have h0' : -d ≠ 0 := by omega
    obtain ⟨x, hx, ⟨rfl, -⟩ | ⟨-, kra, a, δ, hk, ha, hδ, -⟩⟩ := composite_ok hr
    · rw [hd] at hx; cases hx; exact absurd rfl h0
    rw [hd] at hx; cases hx
    obtain ⟨x', hx', ⟨hz, -⟩ | ⟨-, kra', a', δ', hk', ha', hδ', -⟩⟩ := composite_ok hr'
    · rw [hd'] at hx'; rw [Except.ok.inj hx'] at h0'; exact absurd hz h0'
    rw [hd'] at hx'
    rw [← Except.ok.inj hx'] at hδ'
    have hlen : u.occ.length = st.occ.length := hw.length.trans hs.labelled.length.symm
    have hratio := C141_hop_ratio c kB temp ν hν ms ms' u u' e dt d (-d) δ δ' p p' hd h0
      (by rw [hlen]; exact running_apart hi hap he) happ hd' h0' hδ hδ' hr hr'
    refine ⟨(δ - δ') / 2 + w, .cons he hd h0 hr hδ happ hms hd' hr' hδ' hw1, ?_⟩
    simp only [pathRatio, List.map_cons, List.prod_cons] at hw2 ⊢
    rw [hw2, hratio, ← Real.exp_add]
    congr 1
    ring

theorem path_of_work (hν : 0 < ν) (hs : HopSystem o mobile h Rounding.exact (c.rateModel kB temp ν) g lib st)
    (hi : Sim.init (realKernel Rounding.exact) (c.rateModel kB temp ν) lib.generateEventDependencies (some h)
      (some st) = .ok s0)
    (hap : ∀ e ∈ lib.events, SurroundingsApart st.occ.length e) {x y : Unit × State EReal} {w : ℝ}
    (hp : WorkPath c kB temp ν s0.lib.events x w y) (hw : WellLabelled o mobile x.2.occ) :
    ∃ l, HopPath (c.rateModel kB temp ν) x l y ∧ (∀ z ∈ l, z.1 ∈ s0.lib.events) ∧
      pathRatio l = Real.exp (-w / (kB * temp)) := by
  induction hp with
  | nil x => exact ⟨[], .nil x, by simp, by simp [pathRatio]⟩
  | @cons ms ms' u u' y e dt d d' p p' δ δ' w he hd h0 hr hδ happ hms hd' hr' hδ' _ ih =>
    obtain ⟨l, h1, h2, h3⟩ := ih (hop_labelled hs hi he hw happ)
    have hdb := hop_back hs hi he hw hd h0 happ
    have h0' : d' ≠ 0 := by
      rw [hd'] at hdb
      have := Except.ok.inj hdb
      omega
    have hlen : u.occ.length = st.occ.length := hw.length.trans hs.labelled.length.symm
    have hratio := C141_hop_ratio c kB temp ν hν ms ms' u u' e dt d d' δ δ' p p' hd h0
      (by rw [hlen]; exact running_apart hi hap he) happ hd' h0' hδ hδ' hr hr'
    refine ⟨(e, p, p') :: l, .cons hd h0 hr happ hms hr' h1, ?_, ?_⟩
    · intro z hz
      rcases List.mem_cons.1 hz with rfl | hz
      · exact he
      · exact h2 z hz
    · simp only [pathRatio, List.map_cons, List.prod_cons] at h3 ⊢
      rw [h3, hratio, ← Real.exp_add]
      congr 1
      ring

/-- C141.  When a composite model has an energy.  Take any site model without memory, and expansions for the barrier
that do not see the endpoints.  There is an energy of the configurations whose Boltzmann weights balance every hop
exactly if the work along every closed sequence of hops is zero. -/
theorem C141_energy_iff_no_work (hν : 0 < ν) (hkT : kB * temp ≠ 0)
    (hs : HopSystem o mobile h Rounding.exact (c.rateModel kB temp ν) g lib st)
    (hc : ∀ e st', (c.site.applyEvent () e st').1 = .ok ())
    (hi : Sim.init (realKernel Rounding.exact) (c.rateModel kB temp ν) lib.generateEventDependencies (some h)
      (some st) = .ok s0)
    (hap : ∀ e ∈ lib.events, SurroundingsApart st.occ.length e) :
    (∃ E : List Int → ℝ, Balanced o mobile (c.rateModel kB temp ν) s0.lib.events
        fun x => Real.exp (-E x / (kB * temp))) ↔
      ∀ (u v : State EReal) (w : ℝ), WellLabelled o mobile u.occ →
        WorkPath c kB temp ν s0.lib.events ((), u) w ((), v) → v.occ = u.occ → w = 0 := by
  have hwl := C85_composite_willing c kB temp ν hν
  have hcrit := C141_criterion hs hwl hc hi
  constructor
  · rintro ⟨E, hb⟩ u v w hw hp ho
    obtain ⟨l, h1, h2, h3⟩ := path_of_work hν hs hi hap hp hw
    have := hcrit.1 ⟨_, fun _ => Real.exp_pos _, hb⟩ u v l hw h1 h2 ho
    rw [h3, Real.exp_eq_one_iff, div_eq_zero_iff] at this
    rcases this with h | h
    · linarith
    · exact absurd h hkT
  · intro hno
    obtain ⟨W, hW, hb⟩ := hcrit.2 (by
      intro u v l hw hp hev ho
      obtain ⟨w, h1, h2⟩ := work_of_path hν hs hi hap hp hw hev
      rw [h2, hno u v w hw h1 ho]
      simp)
    refine ⟨fun x => -(kB * temp) * Real.log (W x), ?_⟩
    have : (fun x => Real.exp (-(-(kB * temp) * Real.log (W x)) / (kB * temp))) = W := by
      funext x
      rw [neg_mul, neg_neg, mul_comm, mul_div_assoc, div_self hkT, mul_one, Real.exp_log (hW x)]
    rw [this]
    exact hb

/-- C141.  If there is such an energy, then its difference between two configurations is the work along any sequence
of hops between them. -/
theorem C141_energy_is_work (hν : 0 < ν) (hkT : kB * temp ≠ 0)
    (hs : HopSystem o mobile h Rounding.exact (c.rateModel kB temp ν) g lib st)
    (hi : Sim.init (realKernel Rounding.exact) (c.rateModel kB temp ν) lib.generateEventDependencies (some h)
      (some st) = .ok s0)
    (hap : ∀ e ∈ lib.events, SurroundingsApart st.occ.length e) (E : List Int → ℝ)
    (hb : Balanced o mobile (c.rateModel kB temp ν) s0.lib.events fun x => Real.exp (-E x / (kB * temp)))
    (u v : State EReal) (w : ℝ) (hw : WellLabelled o mobile u.occ)
    (hp : WorkPath c kB temp ν s0.lib.events ((), u) w ((), v)) : E v.occ - E u.occ = w := by
  obtain ⟨l, h1, h2, h3⟩ := path_of_work hν hs hi hap hp hw
  have := C141_weights_fixed hs (C85_composite_willing c kB temp ν hν) hi _ (fun _ => Real.exp_pos _) hb u v l hw h1 h2
  rw [h3, ← Real.exp_sub, Real.exp_eq_exp] at this
  rw [← sub_div, div_left_inj' hkT] at this
  linarith

/-- C141.  Without work around loops the simulation has an equilibrium: for some energy of the configurations, a
distribution of the steps is stationary exactly if it spends in each configuration a time proportional to the
Boltzmann weight. -/
theorem C141_equilibrium (hν : 0 < ν) (hkT : kB * temp ≠ 0)
    (hs : HopSystem o mobile h Rounding.exact (c.rateModel kB temp ν) g lib st)
    (ha : Answers o mobile (c.rateModel kB temp ν) lib.events st.occ)
    (hi : Sim.init (realKernel Rounding.exact) (c.rateModel kB temp ν) lib.generateEventDependencies (some h)
      (some st) = .ok s0) (hns : ¬ Stuck (c.rateModel kB temp ν) s0)
    (hap : ∀ e ∈ lib.events, SurroundingsApart st.occ.length e)
    (hno : ∀ (u v : State EReal) (w : ℝ), WellLabelled o mobile u.occ →
      WorkPath c kB temp ν s0.lib.events ((), u) w ((), v) → v.occ = u.occ → w = 0)
    (Ω : Finset (List Int)) (hΩ : ∀ x, x ∈ Ω ↔ ∃ s, Reaches (c.rateModel kB temp ν) s0 s ∧ s.st.occ = x)
    (sims : List Int → Sim σ φ Unit ℝ EReal)
    (hsims : ∀ x ∈ Ω, Reaches (c.rateModel kB temp ν) s0 (sims x) ∧ (sims x).st.occ = x) :
    ∃ E : List Int → ℝ,
      (∀ (u v : State EReal) (w : ℝ), WellLabelled o mobile u.occ →
        WorkPath c kB temp ν s0.lib.events ((), u) w ((), v) → E v.occ - E u.occ = w) ∧
      ∀ (r1 r2 : ℝ) (μ : List Int → ℝ), 0 ≤ r1 → r1 < 1 →
        (Stationary Ω (fun x y => chance (c.rateModel kB temp ν) r2 (sims x) y) μ ↔
          ∃ a, ∀ x ∈ Ω, μ x * meanStay r1 (sims x) = a * Real.exp (-E x / (kB * temp))) := by
  obtain ⟨E, hb⟩ := (C141_energy_iff_no_work hν hkT hs ha.commit hi hap).2 hno
  exact ⟨E, C141_energy_is_work hν hkT hs hi hap E hb, fun r1 r2 μ h0 h1 =>
    C90_stationary_iff hs ha hi hns _ (fun _ => Real.exp_pos _) hb Ω hΩ sims hsims r1 r2 h0 h1 μ⟩

/-- C141.  A constant reported difference is no driving force.  A composite model with
`constant_site_energy_difference` as site model is the model without site energies at another attempt frequency: all
rates are multiplied by the same factor. -/
theorem C141_constant_is_a_prefactor {T : Type} (kra : Option (LCE ℝ)) (value kB temp ν : ℝ) :
    (⟨kra, .constantDifference value⟩ : Composite Unit T).rateModel kB temp ν =
      (⟨kra, .none⟩ : Composite Unit T).rateModel kB temp (ν * Real.exp (-(value / 2) / (kB * temp))) := by
  have hcp : ∀ (ms : Unit) (e : Event) (s : State T),
      (⟨kra, .constantDifference value⟩ : Composite Unit T).computeProbability kB temp ν ms e s =
      (⟨kra, .none⟩ : Composite Unit T).computeProbability kB temp (ν * Real.exp (-(value / 2) / (kB * temp))) ms e s := by
    intro ms e s
    simp only [Composite.computeProbability, SiteSource.constantDifference, SiteSource.model, SiteSource.none]
    cases eventDirection s.occ e with
    | error x => rfl
    | ok d =>
      by_cases h0 : d = 0
      · simp [h0]
      · simp only [h0, if_false]
        cases kra with
        | none => rfl
        | some k =>
          simp only
          cases k.compute s.occ e with
          | error x => rfl
          | ok a =>
            simp only
            rw [mul_assoc, ← Real.exp_add]
            congr 3
            ring
  simp only [Composite.rateModel]
  congr 1
  funext ms e s
  exact hcp ms e s

/-- C141.  So with a constant reported difference of any size and sign all configurations have the same weight. -/
theorem C141_constant_balanced (kra : LCE ℝ) (value kB temp ν : ℝ) (hν : 0 < ν)
    (hs : HopSystem o mobile h Rounding.exact
      ((⟨some kra, .constantDifference value⟩ : Composite Unit EReal).rateModel kB temp ν) g lib st)
    (hi : Sim.init (realKernel Rounding.exact)
      ((⟨some kra, .constantDifference value⟩ : Composite Unit EReal).rateModel kB temp ν)
      lib.generateEventDependencies (some h) (some st) = .ok s0)
    (hap : ∀ e ∈ lib.events, SurroundingsApart st.occ.length e) :
    Balanced o mobile ((⟨some kra, .constantDifference value⟩ : Composite Unit EReal).rateModel kB temp ν)
      s0.lib.events fun _ => 1 := by
  rw [C141_constant_is_a_prefactor] at hs hi ⊢
  exact C90_barriers_balanced kra kB temp _ (mul_pos hν (Real.exp_pos _)) hs hi hap

end

/-! ### A ring -/

/-- The events of a ring of the first three of five sites, as the simulation holds them. -/
def ringEvents : List Event := [plainEvent 0 1 [3], plainEvent 1 2 [3], plainEvent 2 0 [3]]

/-- These are the events that a simulation of the ring holds: the annotated form of the plain list. -/
example : (HopStateLookup.mk [0, 0, 0, 0, 0] [1, 1, 1, 1, 1]).annotateEvents
    [⟨[0, 1], [3], none⟩, ⟨[1, 2], [3], none⟩, ⟨[2, 0], [3], none⟩] = .ok ringEvents := by decide

theorem ring_rate (b v kB temp ν : ℝ) (f t : Int) (x : State EReal) (d : Int) (hl : x.occ.length = 5)
    (hd : eventDirection x.occ (plainEvent f t [3]) = .ok d) (h0 : d ≠ 0) :
    ((⟨some (constantExpansion b), .expansion (constantExpansion v)⟩ : Composite Unit EReal).rateModel kB temp
      ν).computeProbability () (plainEvent f t [3]) x =
      .ok (ν * Real.exp (-(b + (d : ℝ) * v / 2) / (kB * temp))) := by
  have key : ∀ i ∈ (plainEvent f t [3]).env, ∃ a, pyGet x.occ i = .ok a := by
    intro i hi
    simp only [plainEvent, List.mem_singleton] at hi
    subst hi
    match x.occ, hl with
    | [_, _, _, a, _], _ => exact ⟨a, rfl⟩
  exact C35_composite_arrhenius (⟨some (constantExpansion b), .expansion (constantExpansion v)⟩ :
    Composite Unit EReal) kB temp ν () _ x (constantExpansion b) b ((d : ℝ) * v) d hd h0 rfl
    (constantExpansion_compute b x.occ _ key)
    (by simp [SiteSource.expansion, constantExpansion_compute v x.occ _ key])

/-- C141, limit.  A site expansion with the same nonzero value for all events of a ring: no weights whatsoever
balance the hops, at any temperature and attempt frequency. -/
theorem C141_driven_ring (b v kB temp ν : ℝ) (hν : 0 < ν) (hkT : kB * temp ≠ 0) (hv : v ≠ 0) :
    ¬ ∃ W : List Int → ℝ, (∀ x, 0 < W x) ∧ Balanced exampleOrder "Na"
      ((⟨some (constantExpansion b), .expansion (constantExpansion v)⟩ : Composite Unit EReal).rateModel kB temp ν)
      ringEvents W := by
  rintro ⟨W, hW, hb⟩
  have step : ∀ (f t : Int) (occ occ' : List Int), plainEvent f t [3] ∈ ringEvents → occ.length = 5 →
      occ'.length = 5 → (∀ z ∈ occ, z = 0 ∨ z = 1) →
      eventDirection occ (plainEvent f t [3]) = .ok 1 → eventDirection occ' (plainEvent f t [3]) = .ok (-1) →
      (⟨occ, 0, 0⟩ : State EReal).applyEvent (plainEvent f t [3]) 0 = (.ok (), ⟨occ', 0 + 0, 0 + 1⟩) →
      W occ * (ν * Real.exp (-(b + v / 2) / (kB * temp))) = W occ' * (ν * Real.exp (-(b - v / 2) / (kB * temp))) := by
    intro f t occ occ' he hl hl' h01 hd hd' ha
    have h1 := ring_rate b v kB temp ν f t ⟨occ, 0, 0⟩ 1 hl hd (by decide)
    have h2 := ring_rate b v kB temp ν f t ⟨occ', 0 + 0, 0 + 1⟩ (-1) hl' hd' (by decide)
    have := hb _ he ⟨occ, 0, 0⟩ _ 0 1 _ _ (exampleOrder_wellLabelled occ hl h01) hd (by decide) ha h1 h2
    simp only [Int.cast_one, one_mul, Int.reduceNeg, Int.cast_neg] at this
    rw [this]
    congr 4
    ring
  have e1 := step 0 1 [0, 1, 1, 1, 1] [1, 0, 1, 1, 1] (by simp [ringEvents]) rfl rfl (by decide) (by decide) (by decide) (by rfl)
  have e2 := step 1 2 [1, 0, 1, 1, 1] [1, 1, 0, 1, 1] (by simp [ringEvents]) rfl rfl (by decide) (by decide) (by decide) (by rfl)
  have e3 := step 2 0 [1, 1, 0, 1, 1] [0, 1, 1, 1, 1] (by simp [ringEvents]) rfl rfl (by decide) (by decide) (by decide) (by rfl)
  generalize hA : ν * Real.exp (-(b + v / 2) / (kB * temp)) = A at e1 e2 e3
  generalize hB : ν * Real.exp (-(b - v / 2) / (kB * temp)) = B at e1 e2 e3
  have hA0 : 0 ≤ A := by rw [← hA]; positivity
  have hB0 : 0 ≤ B := by rw [← hB]; positivity
  have h3 : W [0, 1, 1, 1, 1] * A ^ 3 = W [0, 1, 1, 1, 1] * B ^ 3 := by
    calc W [0, 1, 1, 1, 1] * A ^ 3 = W [0, 1, 1, 1, 1] * A * A * A := by ring
      _ = W [1, 0, 1, 1, 1] * A * B * A := by rw [e1]; ring
      _ = W [1, 1, 0, 1, 1] * A * B * B := by rw [e2]; ring
      _ = W [0, 1, 1, 1, 1] * B ^ 3 := by rw [e3]; ring
  have h4 : A ^ 3 = B ^ 3 := mul_left_cancel₀ (hW _).ne' h3
  have h5 : A = B := (pow_left_inj₀ hA0 hB0 (by norm_num)).1 h4
  rw [← hA, ← hB] at h5
  have h6 := Real.exp_injective (mul_left_cancel₀ hν.ne' h5)
  rw [div_left_inj' hkT] at h6
  exact hv (by linarith)

/-- Non-vacuity of C141: the simulation of the chain with an energy of the first site.  Its loops do no work. -/
example : ∃ s0 : Sim Unit Unit Unit ℝ EReal,
    Sim.init (realKernel Rounding.exact) ((⟨some chainExpansion, firstSiteModel⟩ :
        Composite Unit EReal).rateModel 1 300 1000) chainLib.generateEventDependencies
        (some ⟨[0, 0, 0, 0, 0], [1, 1, 1, 1, 1]⟩) (some ⟨[0, 1, 0, 1, 1], 0, 0⟩) = .ok s0 ∧
    ∀ (u v : State EReal) (w : ℝ), WellLabelled exampleOrder "Na" u.occ →
      WorkPath ⟨some chainExpansion, firstSiteModel⟩ 1 300 1000 s0.lib.events ((), u) w ((), v) → v.occ = u.occ →
        w = 0 := by
  obtain ⟨s0, hi⟩ := C85_can_be_constructed firstSite_hopSystem firstSite_answers
  have hap : ∀ e ∈ chainLib.events, SurroundingsApart 5 e := by
    intro e he
    rcases chain_mobile ⟨e, he, rfl, rfl⟩ with ⟨hm, hn⟩ | ⟨hm, hn⟩ | ⟨hm, hn⟩ | ⟨hm, hn⟩ <;>
      · intro i hi j hj
        rw [hn] at hi; rw [hm] at hj
        revert i j
        decide
  have hb := C90_energy_balanced _ 1 300 1000 (by norm_num) firstSite_hopSystem hi
    (fun e st' => firstSite_answers.commit e st') hap firstSiteEnergy firstSite_reports
  exact ⟨s0, hi, (C141_energy_iff_no_work (by norm_num) (by norm_num) firstSite_hopSystem
    (fun e st' => firstSite_answers.commit e st') hi hap).1 ⟨_, hb⟩⟩

end KMC
