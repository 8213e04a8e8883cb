import Verif.Lemmas.Speed
import Verif.Spec.Transport
import Verif.Props.HomogeneousProps
import Verif.Props.ProgressProps
import Verif.Props.ModelProgressProps
import Verif.Model.LocalBarrier
/-
C99.  The attempt frequency only sets the clock.
-/
namespace KMC
open Spec

section
variable {σ φ M : Type} {c : ℝ} {m m' : RateModel M ℝ EReal}

/-- C99.  If one rate model gives `c` times the rates of another, both simulations can be constructed or neither,
and with the same random numbers they propose the same events in the same order, through the same configurations;
the second takes `1 / c` of each waiting time. -/
theorem C99_same_events (hc : 0 < c) (h : SpedUp c m m') {lib : EventLib σ φ} {lookup : Option HopStateLookup}
    {st : State EReal} {s0 s0' : Sim σ φ M ℝ EReal}
    (hi : Sim.init (realKernel Rounding.exact) m lib lookup (some st) = .ok s0)
    (hi' : Sim.init (realKernel Rounding.exact) m' lib lookup (some st) = .ok s0')
    {rng : Nat → ℝ × ℝ} {advance : Bool} {n : Nat} {s : Sim σ φ M ℝ EReal} {hist : List (Event × EReal)}
    (hs : Steps (realKernel Rounding.exact) m rng advance n s0 hist s) :
    ∃ s', Steps (realKernel Rounding.exact) m' rng advance n s0' (hist.map fun q => (q.1, shorter c q.2)) s' ∧
      s'.st.occ = s.st.occ ∧ s'.st.step = s.st.step ∧
      ∃ τ, s.st.time = st.time + τ ∧ s'.st.time = st.time + shorter c τ := by
  obtain ⟨x, hx, hr⟩ := init_scale h hi
  rw [hi'] at hx
  cases hx
  obtain ⟨s', a1, a2⟩ := steps_inStep hc h hs hr
  exact ⟨s', a1, a2.occ, a2.step, a2.time⟩

theorem C99_both_constructed (hc : 0 < c) (h : SpedUp c m m') (lib : EventLib σ φ) (lookup : Option HopStateLookup)
    (st : State EReal) :
    (∃ s0, Sim.init (realKernel Rounding.exact) m lib lookup (some st) = .ok s0) ↔
      ∃ s0', Sim.init (realKernel Rounding.exact) m' lib lookup (some st) = .ok s0' := by
  constructor
  · rintro ⟨s0, hi⟩
    obtain ⟨s0', h1, -⟩ := init_scale h hi
    exact ⟨s0', h1⟩
  · rintro ⟨s0, hi⟩
    obtain ⟨s0', h1, -⟩ := init_scale (spedUp_symm hc h) hi
    exact ⟨s0', h1⟩

/-- The other way round: every history of the faster simulation is one of the slower one. -/
theorem C99_same_events_back (hc : 0 < c) (h : SpedUp c m m') {lib : EventLib σ φ} {lookup : Option HopStateLookup}
    {st : State EReal} {s0 s0' : Sim σ φ M ℝ EReal}
    (hi : Sim.init (realKernel Rounding.exact) m lib lookup (some st) = .ok s0)
    (hi' : Sim.init (realKernel Rounding.exact) m' lib lookup (some st) = .ok s0')
    {rng : Nat → ℝ × ℝ} {advance : Bool} {n : Nat} {s' : Sim σ φ M ℝ EReal} {hist : List (Event × EReal)}
    (hs : Steps (realKernel Rounding.exact) m' rng advance n s0' hist s') :
    ∃ s, Steps (realKernel Rounding.exact) m rng advance n s0 (hist.map fun q => (q.1, shorter (1 / c) q.2)) s ∧
      s.st.occ = s'.st.occ ∧ s.st.step = s'.st.step :=
  let ⟨s, a, b, d, _⟩ := C99_same_events (by positivity) (spedUp_symm hc h) hi' hi hs
  ⟨s, a, b, d⟩

/-- C99.  Two completed runs with the same random numbers: the tracker holds the same displacements, hop counts and
locations, the configurations agree, and the second run took `1 / c` of the time of the first. -/
theorem C99_same_run (hc : 0 < c) (h : SpedUp c m m') {lib : EventLib σ φ} {lookup : Option HopStateLookup}
    {st : State EReal} {s0 s0' : Sim σ φ M ℝ EReal}
    (hi : Sim.init (realKernel Rounding.exact) m lib lookup (some st) = .ok s0)
    (hi' : Sim.init (realKernel Rounding.exact) m' lib lookup (some st) = .ok s0')
    {K V Row : Type} [Field K] [LinearOrder K] [FloorRing K] {g : Geometry K} {lookup : Option HopStateLookup}
    {summary : Trajectory K → EReal → List (String × Bool) → Row} {plan plan' : PropertyPlan EReal V}
    {rng : Nat → ℝ × ℝ} {len equil prod : Nat}
    (h1 : (s0.run (realKernel Rounding.exact) m g lookup summary plan rng len equil prod).outcome = .ok ())
    (h2 : (s0'.run (realKernel Rounding.exact) m' g lookup summary plan' rng len equil prod).outcome = .ok ()) :
    ∃ rs rs' : RunState σ φ M ℝ EReal K V Row,
      (s0.run (realKernel Rounding.exact) m g lookup summary plan rng len equil prod).tracker = some rs ∧
      (s0'.run (realKernel Rounding.exact) m' g lookup summary plan' rng len equil prod).tracker = some rs' ∧
      rs'.traj = rs.traj ∧ rs'.sim.st.occ = rs.sim.st.occ ∧ rs'.sim.st.step = rs.sim.st.step ∧
      ∃ τ, rs.sim.st.time = st.time + τ ∧ rs'.sim.st.time = st.time + shorter c τ := by
  obtain ⟨x, hx, hr⟩ := init_scale h hi
  rw [hi'] at hx
  cases hx
  obtain ⟨rs, rs', a1, a2, a3, a4⟩ := run_inStep hc h hr h1 h2
  exact ⟨rs, rs', a1, a2, a3, a4.occ, a4.step, a4.time⟩

/-- C99.  The report of a trajectory that took `1 / c` of the time: the mean squared displacement, the Haven ratio
and the correlation factor are the same, the diffusivities and the conductivity are `c` times as large. -/
theorem C99_report (hc : 0 < c) (p : TransportParams) (traj : Trajectory ℝ) {t : EReal}
    (flags : List (String × Bool)) :
    (transportSummary p traj (shorter c t) flags).msd = (transportSummary p traj t flags).msd ∧
    (transportSummary p traj (shorter c t) flags).correlationFactor =
      (transportSummary p traj t flags).correlationFactor ∧
    (transportSummary p traj (shorter c t) flags).havensRatio = (transportSummary p traj t flags).havensRatio ∧
    (transportSummary p traj (shorter c t) flags).jumpDiffusivity =
      (transportSummary p traj t flags).jumpDiffusivity.map (c * ·) ∧
    (transportSummary p traj (shorter c t) flags).tracerDiffusivity =
      (transportSummary p traj t flags).tracerDiffusivity.map (c * ·) ∧
    (transportSummary p traj (shorter c t) flags).conductivity =
      (transportSummary p traj t flags).conductivity.map (c * ·) := by
  have hpos : (0 < shorter c t) ↔ 0 < t := by
    unfold shorter
    induction t using EReal.rec with
    | bot => rw [EReal.coe_mul_bot_of_pos (by positivity)]
    | top => rw [EReal.coe_mul_top_of_pos (by positivity)]
    | coe x =>
      rw [← EReal.coe_mul]
      norm_cast
      constructor
      · intro hx; exact (mul_pos_iff_of_pos_left (by positivity)).1 hx
      · intro hx; positivity
  have hover : ∀ x factor : ℝ, overTime x factor (shorter c t) = c * overTime x factor t := by
    intro x factor
    unfold overTime shorter
    induction t using EReal.rec with
    | bot => rw [EReal.coe_mul_bot_of_pos (by positivity)]; simp
    | top => rw [EReal.coe_mul_top_of_pos (by positivity)]; simp
    | coe y =>
      rw [← EReal.coe_mul, if_neg (EReal.coe_ne_top _), if_neg (EReal.coe_ne_top _), EReal.toReal_coe,
        EReal.toReal_coe]
      by_cases hz : factor * y = 0
      · rcases mul_eq_zero.1 hz with hz | hz <;> simp [hz]
      · have hf : factor ≠ 0 := left_ne_zero_of_mul hz
        have hy : y ≠ 0 := right_ne_zero_of_mul hz
        field_simp
  unfold transportSummary computeTransport
  simp only [hpos, hover]
  refine ⟨trivial, trivial, ?_, ?_, ?_, ?_⟩
  · congr 1
    split_ifs
    · cases hm : meanOf (traj.displacement.map fun v => vecNorm v ^ 2) with
      | none => rfl
      | some x =>
        simp only [Option.map_some, mul_assoc, ne_eq, mul_eq_zero, hc.ne', false_or]
        split_ifs
        · rfl
        · congr 1
          exact mul_div_mul_left _ _ hc.ne'
    · rfl
  · split_ifs <;> simp [mul_assoc]
  · split_ifs
    · cases hm : meanOf (traj.displacement.map fun v => vecNorm v ^ 2) <;> simp [mul_assoc]
    · rfl
    · rfl
  · split_ifs
    · simp only [Option.map_some]
      congr 1
      ring
    · rfl
    · rfl

/-- C99.  Put together: two completed runs from time zero with the same random numbers, one with `c` times the rates,
report the same mean squared displacement, Haven ratio and correlation factor at the end, and `c` times the
diffusivities and the conductivity. -/
theorem C99_reported (hc : 0 < c) (h : SpedUp c m m') {lib : EventLib σ φ} {lookup lookup' : Option HopStateLookup}
    {occ : List Int} {step : Int} {s0 s0' : Sim σ φ M ℝ EReal}
    (hi : Sim.init (realKernel Rounding.exact) m lib lookup (some ⟨occ, 0, step⟩) = .ok s0)
    (hi' : Sim.init (realKernel Rounding.exact) m' lib lookup (some ⟨occ, 0, step⟩) = .ok s0')
    {V Row : Type} {g : Geometry ℝ}
    {summary : Trajectory ℝ → EReal → List (String × Bool) → Row} {plan plan' : PropertyPlan EReal V}
    {rng : Nat → ℝ × ℝ} {len equil prod : Nat}
    (h1 : (s0.run (realKernel Rounding.exact) m g lookup' summary plan rng len equil prod).outcome = .ok ())
    (h2 : (s0'.run (realKernel Rounding.exact) m' g lookup' summary plan' rng len equil prod).outcome = .ok ())
    (p : TransportParams) (flags : List (String × Bool)) :
    ∃ rs rs' : RunState σ φ M ℝ EReal ℝ V Row,
      (s0.run (realKernel Rounding.exact) m g lookup' summary plan rng len equil prod).tracker = some rs ∧
      (s0'.run (realKernel Rounding.exact) m' g lookup' summary plan' rng len equil prod).tracker = some rs' ∧
      rs'.sim.st.time = shorter c rs.sim.st.time ∧
      (transportSummary p rs'.traj rs'.sim.st.time flags).msd =
        (transportSummary p rs.traj rs.sim.st.time flags).msd ∧
      (transportSummary p rs'.traj rs'.sim.st.time flags).correlationFactor =
        (transportSummary p rs.traj rs.sim.st.time flags).correlationFactor ∧
      (transportSummary p rs'.traj rs'.sim.st.time flags).havensRatio =
        (transportSummary p rs.traj rs.sim.st.time flags).havensRatio ∧
      (transportSummary p rs'.traj rs'.sim.st.time flags).jumpDiffusivity =
        (transportSummary p rs.traj rs.sim.st.time flags).jumpDiffusivity.map (c * ·) ∧
      (transportSummary p rs'.traj rs'.sim.st.time flags).tracerDiffusivity =
        (transportSummary p rs.traj rs.sim.st.time flags).tracerDiffusivity.map (c * ·) ∧
      (transportSummary p rs'.traj rs'.sim.st.time flags).conductivity =
        (transportSummary p rs.traj rs.sim.st.time flags).conductivity.map (c * ·) := by
  obtain ⟨rs, rs', a1, a2, a3, -, -, τ, a4, a5⟩ := C99_same_run hc h hi hi' h1 h2
  have e1 : rs.sim.st.time = τ := by rw [a4]; exact zero_add τ
  have e2 : rs'.sim.st.time = shorter c rs.sim.st.time := by rw [a5, e1]; exact zero_add _
  refine ⟨rs, rs', a1, a2, e2, ?_⟩
  rw [a3, e2]
  exact C99_report hc p rs.traj flags

/-- C99.  The attempt frequency of a composite model is such a factor. -/
theorem C99_attempt_frequency (c : ℝ) (model : Composite M EReal) (hn : NoClock model.site)
    (kB temperature frequency : ℝ) :
    SpedUp c (model.rateModel kB temperature frequency) (model.rateModel kB temperature (c * frequency)) := by
  refine ⟨hn.start, hn.follow, ?_, ?_⟩
  all_goals
    intro ms e st st' ho hs r hr
    change model.computeProbability kB temperature frequency ms e st = _ at hr
    show model.computeProbability kB temperature (c * frequency) ms e st' = _
    unfold Composite.computeProbability at hr ⊢
    rw [ho]
    cases h1 : eventDirection st.occ e with
    | error x => rw [h1] at hr; first | exact hr | cases hr
    | ok d =>
      rw [h1] at hr
      simp only at hr ⊢
      by_cases hd : d = 0
      · rw [if_pos hd] at hr ⊢
        cases hr
        try simp
      · rw [if_neg hd] at hr ⊢
        cases h2 : model.kra with
        | none => rw [h2] at hr; first | exact hr | cases hr
        | some kra =>
          rw [h2] at hr
          simp only at hr ⊢
          cases h3 : kra.compute st.occ e with
          | error x => rw [h3] at hr; first | exact hr | cases hr
          | ok ek =>
            rw [h3] at hr
            simp only at hr ⊢
            rw [hn.difference ms e st st' d ho hs]
            cases h4 : model.site.difference ms e st d with
            | error x => rw [h4] at hr; first | exact hr | cases hr
            | ok delta =>
              rw [h4] at hr
              cases hr
              try
                simp only
                rw [mul_assoc]

/-- C99.  Expansions do not look at the clock. -/
theorem C99_expansions (site : Option (LCE ℝ)) : NoClock (siteSource site) := by
  cases site with
  | none => exact ⟨fun _ _ _ _ _ => rfl, fun _ _ _ _ _ _ => rfl, fun _ _ _ _ _ _ _ => rfl⟩
  | some m =>
    refine ⟨fun _ _ _ _ _ => rfl, fun _ _ _ _ _ _ => rfl, fun _ e st st' d ho _ => ?_⟩
    show (SiteSource.expansion m).difference () e st' d = (SiteSource.expansion m).difference () e st d
    simp only [SiteSource.expansion, ho]

/-- C99.  The attempt frequency of a local barrier model is such a factor. -/
theorem C99_attempt_frequency_rules (c : ℝ) (model : LocalBarrierModel) (kB temperature frequency : ℝ) :
    SpedUp c (model.rateModel kB temperature frequency) (model.rateModel kB temperature (c * frequency)) := by
  have key : ∀ (f : ℝ) (b : PyFloat), LocalBarrierModel.arrhenius kB temperature (c * frequency) f b =
      (LocalBarrierModel.arrhenius kB temperature frequency f b).map (c * ·) := by
    intro f b
    cases b with
    | fin q =>
      simp only [LocalBarrierModel.arrhenius, Option.map_some]
      congr 1
      ring
    | posInf => simp [LocalBarrierModel.arrhenius]
    | negInf => rfl
    | nan => rfl
  refine ⟨fun _ _ _ _ _ => rfl, fun _ _ _ _ _ _ => rfl, ?_, ?_⟩
  all_goals
    intro ms e st st' ho hs r hr
    simp only [LocalBarrierModel.rateModel, LocalBarrierModel.computeProbability, ho] at hr ⊢
    by_cases hm : model.probabilityMode ≠ LocalBarrierModel.supportedMode
    · rw [if_pos hm] at hr ⊢
      first | exact hr | cases hr
    · rw [if_neg hm] at hr ⊢
      cases h1 : model.compute st.occ e model.probabilityProperty with
      | error x => rw [h1] at hr; first | exact hr | cases hr
      | ok b =>
        rw [h1] at hr
        simp only at hr ⊢
        cases h2 : eventDirection st.occ e with
        | error x => rw [h2] at hr; first | exact hr | cases hr
        | ok d =>
          rw [h2] at hr
          simp only [key] at hr ⊢
          cases h3 : LocalBarrierModel.arrhenius kB temperature frequency (if d ≠ 0 then 1 else 0) b with
          | none => rw [h3] at hr; first | exact hr | cases hr
          | some q => rw [h3] at hr; cases hr <;> rfl

/-- The expansion with `shift` added to its constant term. -/
def raisedBy (shift : ℝ) (m : LCE ℝ) : LCE ℝ := { m with emptyCluster := m.emptyCluster.map (· + shift) }

/-- C99.  So is a constant that is added to all barriers: raising the constant term of the barrier expansion by
`shift` multiplies all rates by `exp (-shift / (kB * temperature))`. -/
theorem C99_barrier_offset (shift : ℝ) (kra : LCE ℝ) (site : SiteSource M EReal) (hn : NoClock site)
    (kB temperature frequency : ℝ) :
    SpedUp (Real.exp (-shift / (kB * temperature)))
      ((⟨some kra, site⟩ : Composite M EReal).rateModel kB temperature frequency)
      ((⟨some (raisedBy shift kra), site⟩ : Composite M EReal).rateModel kB temperature frequency) := by
  have key : ∀ occ e, (raisedBy shift kra).compute occ e =
      match kra.compute occ e with
      | .error x => .error x
      | .ok v => .ok (v + shift) := by
    intro occ e
    unfold LCE.compute
    cases h1 : kra.keci with
    | none =>
      have h1' : (raisedBy shift kra).keci = none := h1
      rw [h1']
    | some keci =>
      have h1' : (raisedBy shift kra).keci = some keci := h1
      rw [h1']
      cases h2 : kra.emptyCluster with
      | none =>
        have h2' : (raisedBy shift kra).emptyCluster = none := by simp [raisedBy, h2]
        rw [h2']
      | some e0 =>
        have h2' : (raisedBy shift kra).emptyCluster = some (e0 + shift) := by simp [raisedBy, h2]
        rw [h2']
        simp only
        have h3 : (raisedBy shift kra).validateParameterOrbits keci (raisedBy shift kra).parameterFingerprints
          (raisedBy shift kra).parameterHash =
            kra.validateParameterOrbits keci kra.parameterFingerprints kra.parameterHash := rfl
        rw [h3]
        cases kra.validateParameterOrbits keci kra.parameterFingerprints kra.parameterHash with
        | error x => rfl
        | ok k =>
          simp only
          cases pyGetAll occ e.env with
          | error x => rfl
          | ok l =>
            simp only
            have h4 : (raisedBy shift kra).calculateCorrelation l = kra.calculateCorrelation l := rfl
            rw [h4]
            cases kra.calculateCorrelation l with
            | error x => rfl
            | ok corr =>
              simp only
              cases LCE.npInner corr k with
              | error x => rfl
              | ok v => simp only [add_assoc]
  refine ⟨hn.start, hn.follow, ?_, ?_⟩
  all_goals
    intro ms e st st' ho hs r hr
    change (⟨some kra, site⟩ : Composite M EReal).computeProbability kB temperature frequency ms e st = _ at hr
    show (⟨some (raisedBy shift kra), site⟩ : Composite M EReal).computeProbability kB temperature frequency ms e st' = _
    unfold Composite.computeProbability at hr ⊢
    rw [ho]
    cases h1 : eventDirection st.occ e with
    | error x => rw [h1] at hr; first | exact hr | cases hr
    | ok d =>
      rw [h1] at hr
      simp only at hr ⊢
      by_cases hd : d = 0
      · rw [if_pos hd] at hr ⊢
        cases hr
        try simp
      · rw [if_neg hd] at hr ⊢
        rw [key]
        cases h3 : kra.compute st.occ e with
        | error x => rw [h3] at hr; first | exact hr | cases hr
        | ok ek =>
          rw [h3] at hr
          simp only at hr ⊢
          rw [hn.difference ms e st st' d ho hs]
          cases h4 : site.difference ms e st d with
          | error x => rw [h4] at hr; first | exact hr | cases hr
          | ok delta =>
            rw [h4] at hr
            cases hr
            try
              simp only
              congr 1
              rw [mul_left_comm, ← Real.exp_add]
              congr 2
              ring

end

/-- Five sites in a ring with the rates of a cluster expansion, once with the attempt frequency `1000` and once with
`2000`: both simulations can be constructed, and with the same random numbers every history of the first is one of
the second in half the time. -/
example (rng : Nat → ℝ × ℝ) : ∃ s0 s0' : Sim Unit Unit Unit ℝ EReal,
    Sim.init (realKernel Rounding.exact) ringModel ringLib.generateEventDependencies
      (some ⟨[0, 0, 0, 0, 0], [1, 1, 1, 1, 1]⟩) (some ⟨[0, 1, 0, 1, 1], 0, 0⟩) = .ok s0 ∧
    Sim.init (realKernel Rounding.exact)
      ((⟨some chainExpansion, siteSource (some chainExpansion)⟩ : Composite Unit EReal).rateModel 1 300 2000)
      ringLib.generateEventDependencies
      (some ⟨[0, 0, 0, 0, 0], [1, 1, 1, 1, 1]⟩) (some ⟨[0, 1, 0, 1, 1], 0, 0⟩) = .ok s0' ∧
    ∀ hist s, Steps (realKernel Rounding.exact) ringModel rng true 0 s0 hist s →
      ∃ s', Steps (realKernel Rounding.exact)
        ((⟨some chainExpansion, siteSource (some chainExpansion)⟩ : Composite Unit EReal).rateModel 1 300 2000)
        rng true 0 s0' (hist.map fun q => (q.1, shorter 2 q.2)) s' ∧ s'.st.occ = s.st.occ := by
  have h := C99_attempt_frequency 2 (⟨some chainExpansion, siteSource (some chainExpansion)⟩ : Composite Unit EReal)
    (C99_expansions (some chainExpansion)) 1 300 1000
  rw [show (2 : ℝ) * 1000 = 2000 by norm_num] at h
  obtain ⟨s0, hi⟩ := C85_can_be_constructed ring_hopSystem ring_answers
  obtain ⟨s0', hi'⟩ := (C99_both_constructed (by norm_num) h _ _ _).1 ⟨s0, hi⟩
  refine ⟨s0, s0', hi, hi', fun hist s hs => ?_⟩
  obtain ⟨s', a, b, -⟩ := C99_same_events (by norm_num) h hi hi' hs
  exact ⟨s', a, b⟩

/-- A million passes on a chain with a vacancy, at the attempt frequencies `1000` and `2000`: both runs complete, with
the same trajectory. -/
example : ∃ s0 s0' : Sim Unit Unit Unit ℝ EReal, ∃ rs rs' : RunState Unit Unit Unit ℝ EReal ℚ Unit Unit,
    (s0.run (V := Unit) (realKernel Rounding.exact) ((⟨some chainExpansion,
      siteSource (some chainExpansion)⟩ : Composite Unit EReal).rateModel 1 300 1000) hopGeometry
      (some ⟨[0, 0, 0, 0, 0], [1, 1, 1, 1, 1]⟩) (fun _ _ _ => ()) (planAfter [])
      (fun n => (1 / (n + 2), 1 / 2)) 2 1000 1000000).tracker = some rs ∧
    (s0'.run (V := Unit) (realKernel Rounding.exact) ((⟨some chainExpansion,
      siteSource (some chainExpansion)⟩ : Composite Unit EReal).rateModel 1 300 2000) hopGeometry
      (some ⟨[0, 0, 0, 0, 0], [1, 1, 1, 1, 1]⟩) (fun _ _ _ => ()) (planAfter [])
      (fun n => (1 / (n + 2), 1 / 2)) 2 1000 1000000).tracker = some rs' ∧
    rs'.traj = rs.traj ∧ ∃ τ, rs.sim.st.time = 0 + τ ∧ rs'.sim.st.time = 0 + shorter 2 τ := by
  have run := fun (ν : ℝ) (hν : 0 < ν) =>
    C85_composite_completes (o := exampleOrder) (mobile := "Na") (V := Unit) (Row := Unit) (lib := chainLib)
      (h := ⟨[0, 0, 0, 0, 0], [1, 1, 1, 1, 1]⟩) (g := hopGeometry) (st := ⟨[0, 1, 0, 1, 1], 0, 0⟩)
      chainExpansion (some chainExpansion) 1 300 ν hν [2, 2] [2, 2]
      chainExpansion_built chain_surroundings
      (by rintro m ⟨⟩; exact ⟨chainExpansion_built, chain_surroundings⟩) chain_hopSystem.lookup
      chain_hopSystem.labelled chain_hopSystem.fit chain_hopSystem.endpoints rfl chain_network (fun _ _ _ => ()) []
      (by intro n spec hs; cases hs) (fun n => (1 / (n + 2), 1 / 2)) unit_draws 2 1000 1000000
  have h := C99_attempt_frequency 2 (⟨some chainExpansion, siteSource (some chainExpansion)⟩ : Composite Unit EReal)
    (C99_expansions (some chainExpansion)) 1 300 1000
  rw [show (2 : ℝ) * 1000 = 2000 by norm_num] at h
  obtain ⟨s0, hi, hr⟩ := run 1000 (by norm_num)
  obtain ⟨s0', hi', hr'⟩ := run 2000 (by norm_num)
  obtain ⟨rs, rs', a1, a2, a3, -, -, a4⟩ := C99_same_run (by norm_num) h hi hi' hr hr'
  exact ⟨s0, s0', rs, rs', a1, a2, a3, a4⟩

end KMC
