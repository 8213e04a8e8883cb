import Verif.Model.Composite
import Verif.Spec.Balance
import Verif.Spec.HopSystem
import Verif.Props.HopProps
import Verif.Props.StateProps
import Verif.Props.LCEProps
import Verif.Props.LocalBarrierProps
import Verif.Props.TrackerRunProps
/-
Properties of `kmcpy/models/composite_lce_model.py`: C34, C35, C39 and C69.
-/
namespace KMC
open Spec

variable {M T : Type}

/-! ### C34, C35: rates -/

/-- The ingredients of a rate. -/
theorem composite_ok {c : Composite M T} {kB temp ν p : ℝ} {ms : M} {e : Event} {st : State T}
    (h : c.computeProbability kB temp ν ms e st = .ok p) :
    ∃ d, eventDirection st.occ e = .ok d ∧
      ((d = 0 ∧ p = 0) ∨
       (d ≠ 0 ∧ ∃ kra a δ, c.kra = some kra ∧ kra.compute st.occ e = .ok a ∧
        c.site.difference ms e st d = .ok δ ∧
        p = ν * Real.exp (-(a + δ / 2) / (kB * temp)))) := by
  unfold Composite.computeProbability at h
  split at h
  · cases h
  · rename_i d hd
    refine ⟨d, hd, ?_⟩
    split at h
    · rename_i h0
      cases h
      exact .inl ⟨h0, rfl⟩
    · rename_i h0
      right
      refine ⟨h0, ?_⟩
      split at h
      · cases h
      · rename_i kra hk
        split at h
        · cases h
        · rename_i a ha
          split at h
          · cases h
          · rename_i δ hδ
            cases h
            exact ⟨kra, a, δ, hk, ha, hδ, rfl⟩

/-- C34 for composite models.  Every rate is non-negative. -/
theorem C34_composite_nonneg (c : Composite M T) (kB temp ν : ℝ) (hν : 0 ≤ ν) (ms : M) (e : Event)
    (st : State T) (p : ℝ) (h : c.computeProbability kB temp ν ms e st = .ok p) : 0 ≤ p := by
  obtain ⟨d, -, ⟨-, rfl⟩ | ⟨-, kra, a, δ, -, -, -, rfl⟩⟩ := composite_ok h
  · exact le_refl _
  · positivity

/-- C34 for composite models.  With a positive attempt frequency the rate is zero exactly for
hops that are impossible in the current configuration. -/
theorem C34_composite_zero_iff_forbidden (c : Composite M T) (kB temp ν : ℝ) (hν : 0 < ν) (ms : M)
    (e : Event) (st : State T) (p : ℝ) (h : c.computeProbability kB temp ν ms e st = .ok p) :
    p = 0 ↔ eventDirection st.occ e = .ok 0 := by
  obtain ⟨d, hd, ⟨rfl, rfl⟩ | ⟨h0, kra, a, δ, -, -, -, rfl⟩⟩ := composite_ok h
  · simp [hd]
  · rw [hd]
    simp [hν.ne', h0]

/-- C34 for composite models.  An impossible hop has rate zero whatever the submodels would say,
also if they would fail. -/
theorem C34_composite_forbidden_is_zero (c : Composite M T) (kB temp ν : ℝ) (ms : M) (e : Event)
    (st : State T) (h : eventDirection st.occ e = .ok 0) :
    c.computeProbability kB temp ν ms e st = .ok 0 := by
  simp [Composite.computeProbability, h]

/-- C35 for composite models.  The barrier of a possible hop is the KRA value plus half of the
site-energy difference, and the rate follows the Arrhenius law in it. -/
theorem C35_composite_arrhenius (c : Composite M T) (kB temp ν : ℝ) (ms : M) (e : Event)
    (st : State T) (kra : LCE ℝ) (a δ : ℝ) (d : Int) (hd : eventDirection st.occ e = .ok d)
    (h0 : d ≠ 0) (hk : c.kra = some kra) (ha : kra.compute st.occ e = .ok a)
    (hs : c.site.difference ms e st d = .ok δ) :
    c.computeProbability kB temp ν ms e st =
      .ok (ν * Real.exp (-(a + δ / 2) / (kB * temp))) := by
  simp [Composite.computeProbability, hd, h0, hk, ha, hs]

/-- `IsBarrier c ms e st b`: the hop is possible and its barrier (KRA value plus half of the
site-energy difference) is `b`. -/
def IsBarrier (c : Composite M T) (ms : M) (e : Event) (st : State T) (b : ℝ) : Prop :=
  ∃ d kra a δ, eventDirection st.occ e = .ok d ∧ d ≠ 0 ∧ c.kra = some kra ∧
    kra.compute st.occ e = .ok a ∧ c.site.difference ms e st d = .ok δ ∧ b = a + δ / 2

theorem rate_of_barrier {c : Composite M T} {kB temp ν : ℝ} {ms : M} {e : Event} {st : State T}
    {b : ℝ} (hb : IsBarrier c ms e st b) :
    c.computeProbability kB temp ν ms e st = .ok (ν * Real.exp (-b / (kB * temp))) := by
  obtain ⟨d, kra, a, δ, h1, h2, h3, h4, h5, rfl⟩ := hb
  exact C35_composite_arrhenius c kB temp ν ms e st kra a δ d h1 h2 h3 h4 h5

/-- C35 for composite models.  The ratio of two possible hops' rates is the exponential of the
barrier difference over kT. -/
theorem C35_composite_ratio {M' : Type} (c : Composite M T) (c' : Composite M' T) (kB temp ν : ℝ)
    (hν : 0 < ν) (ms : M) (ms' : M') (e e' : Event) (st st' : State T) (b b' p p' : ℝ)
    (hb : IsBarrier c ms e st b) (hb' : IsBarrier c' ms' e' st' b')
    (h : c.computeProbability kB temp ν ms e st = .ok p)
    (h' : c'.computeProbability kB temp ν ms' e' st' = .ok p') :
    p / p' = Real.exp (-(b - b') / (kB * temp)) := by
  rw [rate_of_barrier hb] at h
  rw [rate_of_barrier hb'] at h'
  cases h; cases h'
  rw [mul_div_mul_left _ _ hν.ne', ← Real.exp_sub]
  congr 1
  ring

/-- C35 for composite models.  Of two possible hops the one with the lower barrier has the
strictly larger rate. -/
theorem C35_composite_lower_is_faster {M' : Type} (c : Composite M T) (c' : Composite M' T)
    (kB temp ν : ℝ) (hν : 0 < ν) (hkT : 0 < kB * temp) (ms : M) (ms' : M') (e e' : Event)
    (st st' : State T) (b b' p p' : ℝ)
    (hb : IsBarrier c ms e st b) (hb' : IsBarrier c' ms' e' st' b')
    (h : c.computeProbability kB temp ν ms e st = .ok p)
    (h' : c'.computeProbability kB temp ν ms' e' st' = .ok p') :
    p < p' ↔ b' < b := by
  rw [rate_of_barrier hb] at h
  rw [rate_of_barrier hb'] at h'
  cases h; cases h'
  rw [mul_lt_mul_iff_right₀ hν, Real.exp_lt_exp, div_lt_div_iff_of_pos_right hkT, neg_lt_neg_iff]

/-- C35 for composite models.  The rate is proportional to the attempt frequency. -/
theorem C35_composite_frequency (c : Composite M T) (kB temp ν x : ℝ) (ms : M) (e : Event)
    (st : State T) (p : ℝ) (h : c.computeProbability kB temp ν ms e st = .ok p) :
    c.computeProbability kB temp (x * ν) ms e st = .ok (x * p) := by
  obtain ⟨d, hd, ⟨rfl, rfl⟩ | ⟨h0, kra, a, δ, h1, h2, h3, rfl⟩⟩ := composite_ok h
  · rw [mul_zero]; exact C34_composite_forbidden_is_zero c kB temp _ ms e st hd
  · rw [C35_composite_arrhenius c kB temp _ ms e st kra a δ d hd h0 h1 h2 h3, mul_assoc]

/-- C35 for composite models.  For a possible hop over a positive barrier, a higher temperature
gives a strictly larger rate. -/
theorem C35_composite_temperature (c : Composite M T) (kB temp temp' ν : ℝ) (hν : 0 < ν)
    (hk : 0 < kB) (hT : 0 < temp) (hTT : temp < temp') (ms : M) (e : Event) (st : State T)
    (b p p' : ℝ) (hb0 : 0 < b) (hb : IsBarrier c ms e st b)
    (h : c.computeProbability kB temp ν ms e st = .ok p)
    (h' : c.computeProbability kB temp' ν ms e st = .ok p') : p < p' := by
  rw [rate_of_barrier hb] at h h'
  cases h; cases h'
  rw [mul_lt_mul_iff_right₀ hν, Real.exp_lt_exp, neg_div, neg_div, neg_lt_neg_iff]
  apply div_lt_div_of_pos_left hb0 (by positivity)
  exact mul_lt_mul_of_pos_left hTT hk

/-! ### C69: composite expansions in a simulation -/

/-- C69.  A composite model made of expansions is local: the rate of an event depends only on the
sites it lists, so the rate table stays up to date (C08 applies). -/
theorem C69_expansions_are_local (kra : Option (LCE ℝ)) (site : Option (LCE ℝ)) (kB temp ν : ℝ) :
    LocalModel ((⟨kra, match site with
      | none => .none
      | some m => .expansion m⟩ : Composite Unit T).rateModel kB temp ν) := by
  constructor
  intro e s s' hl h
  have henv : AgreeOn e.env s.occ s'.occ := fun i hi => h i (by simp [hi])
  simp only [Composite.rateModel, Composite.computeProbability, eventDirection_congr h]
  cases hdir : eventDirection s'.occ e with
  | error x => rfl
  | ok d =>
    by_cases h0 : d = 0
    · simp [h0]
    · simp only [h0, if_false]
      cases kra with
      | none => rfl
      | some kra =>
        simp only [C36_local kra e _ _ henv]
        cases site with
        | none => rfl
        | some m => simp only [SiteSource.expansion, C36_local m e _ _ henv]

/-- C69.  With a non-negative attempt frequency a composite model made of expansions satisfies
everything the simulation theorems (C05-C17) ask of a rate model, in exact arithmetic. -/
theorem C69_hop_system {σ φ ψ K : Type} (o : ActiveSiteOrder String ψ) (mobile : String)
    (h : HopStateLookup) (kra site : Option (LCE ℝ)) (kB temp ν : ℝ) (g : Geometry K)
    (lib : EventLib σ φ) (st : State EReal) (hν : 0 ≤ ν)
    (lookup : HopStateLookup.fromActiveSiteOrder o mobile = .ok h)
    (labelled : WellLabelled o mobile st.occ) (fit : IndicesFit st.occ.length lib.events)
    (endpoints : ∀ e ∈ lib.events, ∃ f t : Nat, e.mobile = [(f : Int), (t : Int)] ∧
      allowedAt o f = allowedAt o t)
    (coords : g.fracCoords.length = st.occ.length) :
    HopSystem o mobile h Rounding.exact ((⟨kra, match site with
      | none => .none
      | some m => .expansion m⟩ : Composite Unit EReal).rateModel kB temp ν) g lib st := by
  refine ⟨lookup, labelled, fit, endpoints, coords, C69_expansions_are_local kra site kB temp ν,
    ?_, ?_⟩
  · intro e s p hp
    exact ⟨C34_composite_nonneg _ kB temp ν hν () e s p hp, rfl⟩
  · intro e s p hd hp
    simp only [Composite.rateModel] at hp
    rw [C34_composite_forbidden_is_zero _ kB temp ν () e s hd] at hp
    exact (Except.ok.inj hp).symm

/-! ### C39: detailed balance -/

/-- A hop changes no site of surroundings that do not contain its endpoints. -/
theorem hop_keeps_surroundings [Add T] {st st' : State T} {e : Event} {dt : T}
    (hap : SurroundingsApart st.occ.length e) (h : st.applyEvent e dt = (.ok (), st')) :
    AgreeOn e.env st'.occ st.occ := by
  intro i hi
  obtain ⟨f, t, a, b, ha, hb, hm, h1, h2, rfl⟩ := applyEvent_ok h
  have hf := hap i hi f (by simp [hm])
  have ht := hap i hi t (by simp [hm])
  rw [h1] at hf
  rw [h2] at ht
  simp only [pyGet, List.length_set]
  cases hx : pyIdx st.occ.length i with
  | none => rfl
  | some x =>
    rw [hx] at hf ht
    have ha' : a ≠ x := fun h => by simp [h] at hf
    have hb' : b ≠ x := fun h => by simp [h] at ht
    simp only
    rw [List.getElem?_set_ne hb', List.getElem?_set_ne ha']

/-- C39, one hop.  If the barrier expansion does not see the endpoints and the site model gives
opposite differences forward and backward, the ratio of the two rates is
`exp (-(site-energy difference) / kT)`. -/
theorem C39_ratio_of_opposite [Add T] (c : Composite M T) (kB temp ν : ℝ) (hν : 0 < ν) (ms ms' : M)
    (st st' : State T) (e : Event) (dt : T) (d d' : Int) (δ p p' : ℝ)
    (hd : eventDirection st.occ e = .ok d) (h0 : d ≠ 0)
    (hap : SurroundingsApart st.occ.length e)
    (happly : st.applyEvent e dt = (.ok (), st'))
    (hd' : eventDirection st'.occ e = .ok d') (h0' : d' ≠ 0)
    (hs : c.site.difference ms e st d = .ok δ)
    (hs' : c.site.difference ms' e st' d' = .ok (-δ))
    (h : c.computeProbability kB temp ν ms e st = .ok p)
    (h' : c.computeProbability kB temp ν ms' e st' = .ok p') :
    p / p' = Real.exp (-δ / (kB * temp)) := by
  obtain ⟨x, hx, ⟨rfl, -⟩ | ⟨-, kra, a, y, hk, ha, hy, rfl⟩⟩ := composite_ok h
  · rw [hd] at hx; cases hx; exact absurd rfl h0
  obtain ⟨x', hx', ⟨rfl, -⟩ | ⟨-, kra', a', y', hk', ha', hy', rfl⟩⟩ := composite_ok h'
  · rw [hd'] at hx'; cases hx'; exact absurd rfl h0'
  rw [hd] at hx; cases hx
  rw [hd'] at hx'; cases hx'
  rw [hs] at hy; cases hy
  rw [hs'] at hy'; cases hy'
  rw [hk] at hk'; cases hk'
  rw [C36_local kra e _ _ (hop_keeps_surroundings hap happly), ha] at ha'
  cases ha'
  rw [mul_div_mul_left _ _ hν.ne', ← Real.exp_sub]
  congr 1
  ring

/-- C39 for two expansions.  If neither expansion sees the endpoints of the event, the rate of
a hop over the rate of the way back is `exp (-ΔE / kT)`, where `ΔE` is the site expansion's
value, counted positive in the event's own direction. -/
theorem C39_expansion_detailed_balance [Add T] (kra site : LCE ℝ) (kB temp ν : ℝ) (hν : 0 < ν)
    (st st' : State T) (e : Event) (dt : T) (d : Int) (v p p' : ℝ)
    (htw : TwoWay e) (hap : SurroundingsApart st.occ.length e)
    (hd : eventDirection st.occ e = .ok d) (h0 : d ≠ 0)
    (happly : st.applyEvent e dt = (.ok (), st')) (hv : site.compute st.occ e = .ok v)
    (h : (⟨some kra, .expansion site⟩ : Composite Unit T).computeProbability kB temp ν () e st = .ok p)
    (h' : (⟨some kra, .expansion site⟩ : Composite Unit T).computeProbability kB temp ν () e st' =
      .ok p') :
    p / p' = Real.exp (-((d : ℝ) * v) / (kB * temp)) := by
  obtain ⟨hc, h1, h2, h3, h4⟩ := htw
  have hd' := C13_hop_reverses_direction st st' e dt d hc h1 h2 h3 h4 hd h0 happly
  refine C39_ratio_of_opposite _ kB temp ν hν () () st st' e dt d (-d) _ p p' hd h0 hap happly hd'
    (by omega) (by simp [SiteSource.expansion, hv]) ?_ h h'
  simp only [SiteSource.expansion, C36_local site e _ _ (hop_keeps_surroundings hap happly), hv]
  congr 1
  push_cast
  ring

/-- C39 without a site model: a hop and its way back have the same rate. -/
theorem C39_no_site_model_symmetric [Add T] (kra : LCE ℝ) (kB temp ν : ℝ) (hν : 0 < ν)
    (st st' : State T) (e : Event) (dt : T) (d : Int) (p p' : ℝ)
    (htw : TwoWay e) (hap : SurroundingsApart st.occ.length e)
    (hd : eventDirection st.occ e = .ok d) (h0 : d ≠ 0)
    (happly : st.applyEvent e dt = (.ok (), st'))
    (h : (⟨some kra, .none⟩ : Composite Unit T).computeProbability kB temp ν () e st = .ok p)
    (h' : (⟨some kra, .none⟩ : Composite Unit T).computeProbability kB temp ν () e st' = .ok p') :
    p = p' := by
  obtain ⟨hc, h1, h2, h3, h4⟩ := htw
  have hd' := C13_hop_reverses_direction st st' e dt d hc h1 h2 h3 h4 hd h0 happly
  have := C39_ratio_of_opposite _ kB temp ν hν () () st st' e dt d (-d) 0 p p' hd h0 hap happly hd'
    (by omega) rfl (by simp [SiteSource.none]) h h'
  have hp' : p' ≠ 0 := by
    intro hz
    have := (C34_composite_zero_iff_forbidden _ kB temp ν hν () e st' p' h').1 hz
    rw [hd'] at this
    have := Except.ok.inj this
    omega
  rw [neg_zero, zero_div, Real.exp_zero, div_eq_one_iff_eq hp'] at this
  exact this

/-- A site model that reports differences of a configuration energy `E`.  `Good` describes the
pairs of model state and simulation state met along a run, `Fits` the events used. -/
structure ReportsEnergy [Add T] (src : SiteSource M T) (Good : M → State T → Prop)
    (Fits : Event → Prop) (E : List Int → ℝ) : Prop where
  step : ∀ ms ms' e st st' dt, Good ms st → Fits e → st.applyEvent e dt = (.ok (), st') →
    src.applyEvent ms e st' = (.ok (), ms') → Good ms' st'
  difference : ∀ ms e st st' dt d δ, Good ms st → Fits e → st.applyEvent e dt = (.ok (), st') →
    src.difference ms e st d = .ok δ → δ = E st'.occ - E st.occ

/-- C39 for one hop with a configuration energy: the Boltzmann weights satisfy detailed balance. -/
theorem C39_boltzmann [Add T] (c : Composite M T) (kB temp ν : ℝ) (hν : 0 < ν)
    (Good : M → State T → Prop) (Fits : Event → Prop) (E : List Int → ℝ)
    (hE : ReportsEnergy c.site Good Fits E) (ms ms' : M) (st st' : State T) (e : Event) (dt : T)
    (d : Int) (p p' : ℝ) (hgood : Good ms st) (hfits : Fits e)
    (htw : TwoWay e) (hap : SurroundingsApart st.occ.length e)
    (hd : eventDirection st.occ e = .ok d) (h0 : d ≠ 0)
    (happly : st.applyEvent e dt = (.ok (), st'))
    (hms : c.site.applyEvent ms e st' = (.ok (), ms'))
    (h : c.computeProbability kB temp ν ms e st = .ok p)
    (h' : c.computeProbability kB temp ν ms' e st' = .ok p') :
    Real.exp (-E st.occ / (kB * temp)) * p = Real.exp (-E st'.occ / (kB * temp)) * p' ∧ p' ≠ 0 := by
  obtain ⟨hc, h1, h2, h3, h4⟩ := htw
  have hd' := C13_hop_reverses_direction st st' e dt d hc h1 h2 h3 h4 hd h0 happly
  have h0' : -d ≠ 0 := by omega
  obtain ⟨x, hx, ⟨rfl, -⟩ | ⟨-, kra, a, δ, hk, ha, hs, -⟩⟩ := composite_ok h
  · rw [hd] at hx; cases hx; exact absurd rfl h0
  rw [hd] at hx; cases hx
  obtain ⟨x', hx', ⟨hz, -⟩ | ⟨-, kra', a', δ', hk', ha', hs', -⟩⟩ := composite_ok h'
  · rw [hd'] at hx'; rw [Except.ok.inj hx'] at h0'; exact absurd hz h0'
  rw [hd'] at hx'
  rw [← Except.ok.inj hx'] at hs'
  have e1 := hE.difference ms e st st' dt d δ hgood hfits happly hs
  obtain ⟨st2, happly2, hocc⟩ := C07_event_twice_restores st st' e dt dt happly
  have e2 := hE.difference ms' e st' st2 dt (-d) δ' (hE.step _ _ _ _ _ _ hgood hfits happly hms) hfits
    happly2 hs'
  rw [hocc] at e2
  have hr := C39_ratio_of_opposite c kB temp ν hν ms ms' st st' e dt d (-d) δ p p' hd h0 hap happly
    hd' h0' hs (by rw [hs', e2, e1]; congr 1; ring) h h'
  have hp' : p' ≠ 0 := by
    intro hz
    have := (C34_composite_zero_iff_forbidden c kB temp ν hν ms' e st' p' h').1 hz
    rw [hd'] at this
    exact h0' (Except.ok.inj this)
  refine ⟨?_, hp'⟩
  rw [div_eq_iff hp'] at hr
  rw [hr, ← mul_assoc, ← Real.exp_add, e1]
  congr 2
  ring

/-- C39 along any history.  Along every sequence of possible hops the product of the forward
rates over the product of the backward rates is `exp (-(E_end - E_start) / kT)`. -/
theorem C39_path [Add T] (c : Composite M T) (kB temp ν : ℝ) (hν : 0 < ν)
    (Good : M → State T → Prop) (Fits : Event → Prop) (E : List Int → ℝ)
    (hE : ReportsEnergy c.site Good Fits E) (x y : M × State T) (h : List (Event × ℝ × ℝ))
    (hgood : Good x.1 x.2) (hev : ∀ z ∈ h, Fits z.1 ∧ TwoWay z.1 ∧
      SurroundingsApart x.2.occ.length z.1)
    (hp : HopPath (c.rateModel kB temp ν) x h y) :
    pathRatio h = Real.exp (-(E y.2.occ - E x.2.occ) / (kB * temp)) := by
  induction hp with
  | nil x => simp [pathRatio]
  | @cons ms ms' st st' y e dt d p p' h hd h0 hr hap hms hr' _ ih =>
    obtain ⟨hf, htw, hsur⟩ := hev (e, p, p') (by simp)
    obtain ⟨hb, hp'⟩ := C39_boltzmann c kB temp ν hν Good Fits E hE ms ms' st st' e dt d p p' hgood hf
      htw hsur hd h0 hap hms hr hr'
    have hlen : st'.occ.length = st.occ.length := by
      have := applyEvent_length st e dt
      rw [hap] at this
      exact this
    have ih := ih (hE.step _ _ _ _ _ _ hgood hf hap hms) (fun z hz => by
      have := hev z (by simp [hz])
      refine ⟨this.1, this.2.1, ?_⟩
      simp only [hlen]
      exact this.2.2)
    simp only [pathRatio, List.map_cons, List.prod_cons] at ih ⊢
    rw [ih]
    have : p / p' = Real.exp (-(E st'.occ - E st.occ) / (kB * temp)) := by
      rw [div_eq_iff hp']
      have h1 : p = (Real.exp (-E st.occ / (kB * temp)))⁻¹ *
          (Real.exp (-E st'.occ / (kB * temp)) * p') := by
        rw [← hb, ← mul_assoc, inv_mul_cancel₀ (Real.exp_pos _).ne', one_mul]
      rw [h1, ← Real.exp_neg, ← mul_assoc, ← Real.exp_add]
      congr 2
      ring
    rw [this, ← Real.exp_add]
    congr 1
    ring

/-- C39, Kolmogorov's criterion.  Along every closed sequence of hops the products of the
forward and of the backward rates are equal. -/
theorem C39_loops_balance [Add T] (c : Composite M T) (kB temp ν : ℝ) (hν : 0 < ν)
    (Good : M → State T → Prop) (Fits : Event → Prop) (E : List Int → ℝ)
    (hE : ReportsEnergy c.site Good Fits E) (x y : M × State T) (h : List (Event × ℝ × ℝ))
    (hgood : Good x.1 x.2) (hev : ∀ z ∈ h, Fits z.1 ∧ TwoWay z.1 ∧
      SurroundingsApart x.2.occ.length z.1)
    (hp : HopPath (c.rateModel kB temp ν) x h y) (hloop : y.2.occ = x.2.occ) :
    pathRatio h = 1 := by
  rw [C39_path c kB temp ν hν Good Fits E hE x y h hgood hev hp, hloop]
  simp

/-! ### Concrete models -/

/-- An expansion with no terms: the same value everywhere. -/
def constantExpansion (v : ℝ) : LCE ℝ where
  clusterSiteIndices := []
  keci := some []
  emptyCluster := some v

theorem constantExpansion_compute (v : ℝ) (occ : List Int) (e : Event)
    (h : ∀ i ∈ e.env, ∃ a, pyGet occ i = .ok a) : (constantExpansion v).compute occ e = .ok v := by
  have hall : ∃ l, pyGetAll occ e.env = .ok l := by
    generalize e.env = env at h
    induction env with
    | nil => exact ⟨_, rfl⟩
    | cons i env ih =>
      obtain ⟨a, ha⟩ := h i (by simp)
      obtain ⟨l, hl⟩ := ih (fun j hj => h j (by simp [hj]))
      exact ⟨a :: l, by simp [pyGetAll, ha, hl]⟩
  obtain ⟨l, hl⟩ := hall
  simp [LCE.compute, constantExpansion, LCE.validateParameterOrbits, LCE.getOrbitFingerprints, hl,
    LCE.calculateCorrelation, LCE.calcCorr, LCE.npInner]

/-- An expansion with one term: the occupation of the first site of the surroundings. -/
def firstSiteExpansion : LCE ℝ where
  clusterSiteIndices := [[[0]]]
  keci := some [1]
  emptyCluster := some 0

/-- An event from site `f` to site `t` with surroundings `env`; mobile ion 0, vacancy 1. -/
def plainEvent (f t : Int) (env : List Int) : Event := ⟨[f, t], env, some ⟨0, 1, 1, 0⟩⟩

theorem plainEvent_twoWay (f t : Int) (env : List Int) : TwoWay (plainEvent f t env) :=
  ⟨_, rfl, rfl, rfl, by decide⟩

/-- C39, limit: surroundings that contain the target site.  With a barrier expansion that reads
the target site and no site model at all, a hop and its way back have different rates, so the
simulation prefers one of two states although no energy difference was ever specified. -/
theorem C39_target_in_surroundings_breaks_balance :
    ∃ (kra : LCE ℝ) (e : Event) (st st' : State ℝ) (p p' : ℝ),
      TwoWay e ∧ eventDirection st.occ e = .ok 1 ∧ st.applyEvent e 0 = (.ok (), st') ∧
      (⟨some kra, .none⟩ : Composite Unit ℝ).computeProbability 1 1 1 () e st = .ok p ∧
      (⟨some kra, .none⟩ : Composite Unit ℝ).computeProbability 1 1 1 () e st' = .ok p' ∧ p < p' := by
  refine ⟨firstSiteExpansion, plainEvent 0 1 [1], ⟨[0, 1], 0, 0⟩, ⟨[1, 0], 0 + 0, 0 + 1⟩, _, _,
    plainEvent_twoWay _ _ _, by decide, by rfl,
    C35_composite_arrhenius _ 1 1 1 () _ _ firstSiteExpansion 1 0 1 (by decide) (by decide) rfl ?_ rfl,
    C35_composite_arrhenius _ 1 1 1 () _ _ firstSiteExpansion 0 0 (-1) (by decide) (by decide) rfl ?_ rfl,
    ?_⟩
  · simp [LCE.compute, firstSiteExpansion, LCE.validateParameterOrbits, LCE.getOrbitFingerprints,
      plainEvent, pyGetAll, pyGet, pyIdx, LCE.calculateCorrelation, LCE.calcCorr, LCE.orbitSum,
      LCE.clusterProduct, LCE.npInner]
  · simp [LCE.compute, firstSiteExpansion, LCE.validateParameterOrbits, LCE.getOrbitFingerprints,
      plainEvent, pyGetAll, pyGet, pyIdx, LCE.calculateCorrelation, LCE.calcCorr, LCE.orbitSum,
      LCE.clusterProduct, LCE.npInner]
  · norm_num

/-- The rates of the ring example: a hop forward and its way back. -/
theorem ring_hop (e : Event) (occ occ' : List Int) (t t' : ℝ) (n n' : Int) (env : e.env = [3])
    (hl : occ.length = 4) (hl' : occ'.length = 4)
    (hd : eventDirection occ e = .ok 1) (hd' : eventDirection occ' e = .ok (-1)) :
    (⟨some (constantExpansion 0), .expansion (constantExpansion 1)⟩ :
        Composite Unit ℝ).computeProbability 1 1 1 () e ⟨occ, t, n⟩ = .ok (Real.exp (-(1 / 2))) ∧
    (⟨some (constantExpansion 0), .expansion (constantExpansion 1)⟩ :
        Composite Unit ℝ).computeProbability 1 1 1 () e ⟨occ', t', n'⟩ = .ok (Real.exp (1 / 2)) := by
  have key : ∀ o : List Int, o.length = 4 → ∀ i ∈ e.env, ∃ a, pyGet o i = .ok a := by
    intro o ho i hi
    rw [env] at hi
    simp only [List.mem_singleton] at hi
    subst hi
    match o, ho with
    | [a, b, c, d], _ => exact ⟨d, rfl⟩
  constructor
  · rw [C35_composite_arrhenius _ 1 1 1 () e ⟨occ, t, n⟩ (constantExpansion 0) 0 1 1 hd (by decide) rfl
      (constantExpansion_compute 0 occ e (key occ hl))
      (by simp [SiteSource.expansion, constantExpansion_compute 1 occ e (key occ hl)])]
    norm_num
  · rw [C35_composite_arrhenius _ 1 1 1 () e ⟨occ', t', n'⟩ (constantExpansion 0) 0 (-1) (-1) hd'
      (by decide) rfl (constantExpansion_compute 0 occ' e (key occ' hl'))
      (by simp [SiteSource.expansion, constantExpansion_compute 1 occ' e (key occ' hl')])]
    norm_num

/-- C39, limit: a site expansion is not the difference of an energy.  Although every single hop
of a site expansion is balanced against its way back (`C39_expansion_detailed_balance`), around a
ring of three sites the products of the rates one way and the other way differ: the values of
the three hops add up instead of cancelling, so no configuration energy belongs to the model and
the simulation carries a steady current. -/
theorem C39_expansion_loop_unbalanced :
    ∃ (kra site : LCE ℝ) (h : List (Event × ℝ × ℝ)) (x y : Unit × State ℝ),
      (∀ z ∈ h, TwoWay z.1 ∧ SurroundingsApart x.2.occ.length z.1) ∧
      HopPath ((⟨some kra, .expansion site⟩ : Composite Unit ℝ).rateModel 1 1 1) x h y ∧
      y.2.occ = x.2.occ ∧ pathRatio h ≠ 1 := by
  refine ⟨constantExpansion 0, constantExpansion 1,
    [(plainEvent 0 1 [3], Real.exp (-(1 / 2)), Real.exp (1 / 2)),
     (plainEvent 1 2 [3], Real.exp (-(1 / 2)), Real.exp (1 / 2)),
     (plainEvent 2 0 [3], Real.exp (-(1 / 2)), Real.exp (1 / 2))],
    ((), ⟨[0, 1, 1, 1], 0, 0⟩), ((), ⟨[0, 1, 1, 1], 0 + 0 + 0 + 0, 0 + 1 + 1 + 1⟩), ?_, ?_, rfl, ?_⟩
  · intro z hz
    simp only [List.mem_cons, List.not_mem_nil, or_false] at hz
    rcases hz with rfl | rfl | rfl
    all_goals
      refine ⟨plainEvent_twoWay _ _ _, ?_⟩
      simp only [SurroundingsApart]
      decide
  · have step : ∀ (f t : Int) (occ occ' : List Int) (time : ℝ) (n : Int) h y,
        occ.length = 4 → occ'.length = 4 →
        eventDirection occ (plainEvent f t [3]) = .ok 1 →
        eventDirection occ' (plainEvent f t [3]) = .ok (-1) →
        (⟨occ, time, n⟩ : State ℝ).applyEvent (plainEvent f t [3]) 0 =
          (.ok (), ⟨occ', time + 0, n + 1⟩) →
        HopPath ((⟨some (constantExpansion 0), .expansion (constantExpansion 1)⟩ :
          Composite Unit ℝ).rateModel 1 1 1) ((), ⟨occ', time + 0, n + 1⟩) h y →
        HopPath ((⟨some (constantExpansion 0), .expansion (constantExpansion 1)⟩ :
          Composite Unit ℝ).rateModel 1 1 1) ((), ⟨occ, time, n⟩)
          ((plainEvent f t [3], Real.exp (-(1 / 2)), Real.exp (1 / 2)) :: h) y := by
      intro f t occ occ' time n h y hl hl' hd hd' ha hp
      have hr := ring_hop (plainEvent f t [3]) occ occ' time (time + 0) n (n + 1) rfl hl hl' hd hd'
      exact .cons hd (by decide) hr.1 ha rfl hr.2 hp
    refine step 0 1 _ [1, 0, 1, 1] _ _ _ _ rfl rfl (by decide) (by decide) (by rfl) ?_
    refine step 1 2 _ [1, 1, 0, 1] _ _ _ _ rfl rfl (by decide) (by decide) (by rfl) ?_
    refine step 2 0 _ [0, 1, 1, 1] _ _ _ _ rfl rfl (by decide) (by decide) (by rfl) ?_
    exact .nil _
  · simp only [pathRatio, List.map_cons, List.map_nil, List.prod_cons, List.prod_nil, mul_one,
      ← Real.exp_sub, ← Real.exp_add]
    rw [ne_eq, Real.exp_eq_one_iff]
    norm_num

/-- Non-vacuity for C35 and C39: a hop with surroundings apart, both rates, and the direction. -/
example : IsBarrier (⟨some (constantExpansion 0), .expansion (constantExpansion 1)⟩ :
      Composite Unit ℝ) () (plainEvent 0 1 [3]) ⟨[0, 1, 1, 1], 0, 0⟩ (1 / 2) ∧
    IsBarrier (⟨some (constantExpansion 0), .expansion (constantExpansion 1)⟩ :
      Composite Unit ℝ) () (plainEvent 0 1 [3]) ⟨[1, 0, 1, 1], 0, 0⟩ (-1 / 2) ∧
    TwoWay (plainEvent 0 1 [3]) ∧ SurroundingsApart 4 (plainEvent 0 1 [3]) := by
  have key : ∀ o ∈ [[0, 1, 1, 1], [1, 0, 1, 1]], ∀ i ∈ (plainEvent 0 1 [3]).env,
      ∃ a : Int, pyGet o i = .ok a := by
    intro o ho i hi
    simp only [plainEvent, List.mem_singleton] at hi
    subst hi
    simp only [List.mem_cons, List.not_mem_nil, or_false] at ho
    rcases ho with rfl | rfl <;> exact ⟨1, rfl⟩
  refine ⟨⟨1, _, 0, 1, by decide, by decide, rfl, constantExpansion_compute 0 _ _ (key _ (by simp)),
    by simp [SiteSource.expansion, constantExpansion_compute 1 _ _ (key [0, 1, 1, 1] (by simp))],
    by norm_num⟩,
    ⟨-1, _, 0, -1, by decide, by decide, rfl, constantExpansion_compute 0 _ _ (key _ (by simp)),
    by simp [SiteSource.expansion, constantExpansion_compute 1 _ _ (key [1, 0, 1, 1] (by simp))],
    by norm_num⟩, plainEvent_twoWay _ _ _, ?_⟩
  simp only [SurroundingsApart]
  decide

/-- A site model that reports the difference of a pair energy (number of neighbouring mobile
ions on a line of four sites). -/
noncomputable def pairEnergy (occ : List Int) : ℝ :=
  (((List.zip occ occ.tail).filter fun p => p.1 = 0 ∧ p.2 = 0).length : ℝ)

/-- Non-vacuity for the energy theorems: the model that evaluates the pair energy before and
after the hop. -/
example : ReportsEnergy (SiteSource.model (M := Unit) (T := ℝ) (fun _ _ => .ok ())
      (fun _ _ _ => (.ok (), ()))
      (fun _ e st => match st.applyEvent e 0 with
        | (.ok (), st') => .ok (pairEnergy st'.occ - pairEnergy st.occ)
        | (.error x, _) => .error x)) (fun _ _ => True) (fun _ => True) pairEnergy := by
  refine ⟨fun _ _ _ _ _ _ _ _ _ _ => trivial, ?_⟩
  intro ms e st st' dt d δ _ _ ha h
  simp only [SiteSource.model] at h
  obtain ⟨f, t, i, j, hi, hj, hm, h1, h2, rfl⟩ := applyEvent_ok ha
  rcases applyEvent_cases st e 0 with ⟨x, hx⟩ | ⟨f', t', i', j', hi', hj', hm', h1', h2', h3'⟩
  · rw [hx] at h; cases h
  · rw [h3'] at h
    rw [hm] at hm'
    cases hm'
    rw [h1] at h1'; cases h1'
    rw [h2] at h2'; cases h2'
    exact (Except.ok.inj h).symm

/-- Non-vacuity for C69: two expansions in the example simulation. -/
example : HopSystem exampleOrder "Na" ⟨[0, 0, 0, 0, 0], [1, 1, 1, 1, 1]⟩ Rounding.exact
    ((⟨some firstSiteExpansion, .expansion (constantExpansion 1)⟩ :
      Composite Unit EReal).rateModel 1 300 5) hopGeometry hopLib ⟨[0, 1, 0, 1, 1], 0, 0⟩ :=
  C69_hop_system exampleOrder "Na" _ (some firstSiteExpansion) (some (constantExpansion 1)) 1 300 5
    hopGeometry hopLib _ (by norm_num) hopSystem_example.lookup hopSystem_example.labelled
    hopSystem_example.fit hopSystem_example.endpoints hopSystem_example.coords

end KMC
