import Verif.Lemmas.RunSpread
/-
C128: how far the results of single runs lie from their mean.
-/
set_option linter.unusedSectionVars false

namespace KMC
open Spec MeasureTheory Filter Topology ProbabilityTheory

section
variable {σ φ ψ V Row : Type}
variable {o : ActiveSiteOrder String ψ} {mobile : String} {h : HopStateLookup}
  {m : RateModel Unit ℝ EReal} {g : Geometry ℝ} {lib : EventLib σ φ} {st : State EReal}
  {s0 : Sim σ φ Unit ℝ EReal} {v : Event → Vec3 ℝ} {a ν : ℝ} {z d : Nat}
variable {Θ : Type} [MeasurableSpace Θ] {μ : Measure Θ} [IsProbabilityMeasure μ]

/-- **C128.**  Without drift and preferred direction, the squared length of the sum of the displacements of one run lies
about its mean `n a²` with the mean squared deviation `(2/d) n (n-1) a⁴`, for `n` production steps: relative to the mean
that is `(2/d) (1 - 1/n)`, however long the run. -/
theorem C128_spread (hs : HopSystem o mobile h Rounding.exact m g lib st)
    (ha : Answers o mobile m lib.events st.occ)
    (hi : Sim.init (realKernel Rounding.exact) m lib.generateEventDependencies (some h) (some st) = .ok s0)
    (hub : Unbiased o mobile m g s0 v a) (hiso : Isotropic o mobile m s0 v a d) {U : Nat → Θ → ℝ × ℝ}
    (hU : RandomNumbers μ U) {summary : Trajectory ℝ → EReal → List (String × Bool) → Row}
    {plan : PropertyPlan EReal V} {len equil prod : Nat}
    (hok : ∀ᵐ ω ∂μ, (s0.run (realKernel Rounding.exact) m g (some h) summary plan (fun k => U k ω) len equil
      prod).outcome = .ok ()) :
    MeanAtTheEnd μ U m g (some h) summary plan len equil prod s0
      (fun traj _ => (sqLen traj.displacement.sum - (prod * len : Nat) * a ^ 2) ^ 2)
      (2 / d * ((prod * len : Nat) * ((prod * len : Nat) - 1)) * a ^ 4) :=
  mean_walk hs ha hi hub hU hok (fun w => (sqLen w - (prod * len : Nat) * a ^ 2) ^ 2) _ fun st' hg => by
    have key := walk_spread hs ha hi hub hiso ((prod * len : Nat) * a ^ 2) (prod * len) st' hg 0 (zero_mem _)
    have h0 : sqLen (0 : Vec3 ℝ) = 0 := by simp [sqLen]
    simp only [zero_add, h0] at key
    rw [key]
    ring

/-- **C128.**  Ions that can only get along one line are such a case, with one dimension, however many they are and
however they influence each other. -/
theorem C128_one_line (hs : HopSystem o mobile h Rounding.exact m g lib st)
    (ha : Answers o mobile m lib.events st.occ)
    (hi : Sim.init (realKernel Rounding.exact) m lib.generateEventDependencies (some h) (some st) = .ok s0)
    (hub : Unbiased o mobile m g s0 v a) {u : Vec3 ℝ} (hu : ∀ e ∈ s0.lib.events, ∃ r : ℝ, v e = r • u) :
    Isotropic o mobile m s0 v a 1 := by
  have hline : ∀ x ∈ hopDirections s0 v, ∃ r : ℝ, x = r • u := by
    intro x hx
    have : hopDirections s0 v ≤ Submodule.span ℝ {u} := by
      refine Submodule.span_le.2 ?_
      rintro x ⟨e, he, rfl⟩
      obtain ⟨r, hr⟩ := hu e he
      exact Submodule.mem_span_singleton.2 ⟨r, hr.symm⟩
    obtain ⟨r, hr⟩ := Submodule.mem_span_singleton.1 (this hx)
    exact ⟨r, hr.symm⟩
  intro s hr x hx
  obtain ⟨r, rfl⟩ := hline x hx
  unfold totalRate
  rw [← sum_map_const_mul]
  refine list_sum_congr fun e he => ?_
  rcases (rateIn_nonneg hs s.st e).lt_or_eq with hp | hp
  · have hl := way_length hs ha hi hub ⟨s, hr, rfl⟩ he hp
    obtain ⟨q, hq⟩ := hline _ (wayOf_direction_mem (o := o) (mobile := mobile) (v := v) s.st.occ he)
    rw [hq] at hl ⊢
    rw [Nat.cast_one, div_one, ← hl]
    simp only [dotVec, sqLen, Pi.smul_apply, smul_eq_mul, Fin.sum_univ_three]
    ring
  · rw [← hp]; simp

/-- **C128.**  A lone ion is such a case if the ways out of every site have no preferred direction. -/
theorem C128_lone_ion (hs : HopSystem o mobile h Rounding.exact m g lib st)
    (ha : Answers o mobile m lib.events st.occ)
    (hi : Sim.init (realKernel Rounding.exact) m lib.generateEventDependencies (some h) (some st) = .ok s0)
    (hl : LoneIon o mobile m g s0 v a ν z) (hstar : IsotropicStars s0 v a z d) : Isotropic o mobile m s0 v a d := by
  intro s hr x hx
  rw [(C98_lone_ion hs ha hi hl).2 s hr]
  obtain ⟨k, hk, hsk, hv⟩ := alone_reaches hs ha hi hl.ion hr
  have hm := met_reaches hs ha hi (met_start hs hi) hr
  have hst : s0.st = st := by
    obtain ⟨i1, -⟩ := init_ok hi
    exact (Option.some.inj i1).symm
  have hk' : k < s0.st.occ.length := by rw [hst, ← hm.perm.length_eq]; exact hk
  have key := hstar k hk' x hx
  have hν := hl.positive.2.1
  have : (s0.lib.events.map fun e => rateIn m s.st e * dotVec (wayOf o mobile v s.st.occ e) x ^ 2).sum =
      (s0.lib.events.map fun e => ν * dotVec (wayOut v k e) x ^ 2).sum := by
    refine list_sum_congr fun e he => ?_
    obtain ⟨h1, h2⟩ := lone_rate hs ha hi hl hr hsk hv he
    by_cases hc : (k : Int) ∈ e.mobile
    · rw [if_pos hc] at h1
      rw [h1] at h2 ⊢
      rw [smul_right_injective _ hν.ne' h2]
    · rw [if_neg hc] at h1
      rw [h1, zero_smul] at h2
      have : wayOut v k e = 0 := (smul_eq_zero.1 h2.symm).resolve_left hν.ne'
      rw [h1, this]
      simp [dotVec]
  rw [this, sum_map_const_mul, key]
  ring

/-- The correlation factor reported for a lone ion is its squared displacement over the number of steps times the squared
hop length. -/
theorem lone_report_end (hs : HopSystem o mobile h Rounding.exact m g lib st)
    (ha : Answers o mobile m lib.events st.occ)
    (hi : Sim.init (realKernel Rounding.exact) m lib.generateEventDependencies (some h) (some st) = .ok s0)
    (hl : LoneIon o mobile m g s0 v a ν z) {U : Nat → Θ → ℝ × ℝ} (hU : RandomNumbers μ U)
    {summary : Trajectory ℝ → EReal → List (String × Bool) → Row} {plan : PropertyPlan EReal V}
    {len equil prod : Nat} (hlen : 0 < len) (hprod : 0 < prod)
    {p : TransportParams} (hp : p.hopDistance = a) {flags : List (String × Bool)}
    (hc : SwitchedOn flags "correlation_factor") {x : ℝ} (F : ℝ → ℝ) (X : Θ → ℝ) :
    AtTheEnd μ U m g (some h) summary plan len equil prod s0
      (fun traj sim => F ((transportSummary p traj sim.st.time flags).correlationFactor.getD x)) X ↔
    AtTheEnd μ U m g (some h) summary plan len equil prod s0
      (fun traj _ => F (sqLen traj.displacement.sum / ((prod * len : Nat) * a ^ 2))) X := by
  have hn : prod * len ≠ 0 := (Nat.mul_pos hprod hlen).ne'
  have key : ∀ᵐ ω ∂μ, ∀ rs : RunState σ φ Unit ℝ EReal ℝ V Row,
      (s0.run (realKernel Rounding.exact) m g (some h) summary plan (fun k => U k ω) len equil prod).outcome = .ok () →
      (s0.run (realKernel Rounding.exact) m g (some h) summary plan (fun k => U k ω) len equil prod).tracker = some rs →
      (transportSummary p rs.traj rs.sim.st.time flags).correlationFactor.getD x =
        sqLen rs.traj.displacement.sum / ((prod * len : Nat) * a ^ 2) := by
    filter_upwards [draws_in_range hU] with ω h3 rs b1 b2
    obtain ⟨w, c1, c2, c3⟩ := lone_tracker hs ha hi hl (fun c => (h3 c).1) b1 b2
    have key := (C26_correlation_formula (p := p) (ds := rs.traj.displacement) (hops := rs.traj.hopCounter)
      (t := rs.sim.st.time) (flags := flags) rs.traj.locations.length (by rw [c1, c2]; rfl) hc).2
      (by rw [c1]; simp)
    unfold transportSummary
    rw [key, c1, c2, hp]
    simp [hn]
  constructor <;> intro hX
  · filter_upwards [hX, key] with ω h1 h2
    obtain ⟨rs, b1, b2, b3⟩ := h1
    exact ⟨rs, b1, b2, by rw [b3, h2 rs b1 b2]⟩
  · filter_upwards [hX, key] with ω h1 h2
    obtain ⟨rs, b1, b2, b3⟩ := h1
    exact ⟨rs, b1, b2, by rw [b3, h2 rs b1 b2]⟩

/-- **C128.**  The correlation factor that a run with a lone ion reports is one on average, but the single report is off
by `(2/d) (1 - 1/n)` in the mean square: a longer run does not make it more accurate. -/
theorem C128_reported (hs : HopSystem o mobile h Rounding.exact m g lib st)
    (ha : Answers o mobile m lib.events st.occ)
    (hi : Sim.init (realKernel Rounding.exact) m lib.generateEventDependencies (some h) (some st) = .ok s0)
    (hl : LoneIon o mobile m g s0 v a ν z) (hstar : IsotropicStars s0 v a z d) {U : Nat → Θ → ℝ × ℝ}
    (hU : RandomNumbers μ U) {summary : Trajectory ℝ → EReal → List (String × Bool) → Row}
    {plan : PropertyPlan EReal V} {len equil prod : Nat} (hlen : 0 < len) (hprod : 0 < prod)
    (hok : ∀ᵐ ω ∂μ, (s0.run (realKernel Rounding.exact) m g (some h) summary plan (fun k => U k ω) len equil
      prod).outcome = .ok ()) (p : TransportParams) (hp : p.hopDistance = a) (flags : List (String × Bool))
    (hc : SwitchedOn flags "correlation_factor") (x : ℝ) :
    MeanAtTheEnd μ U m g (some h) summary plan len equil prod s0
      (fun traj sim => ((transportSummary p traj sim.st.time flags).correlationFactor.getD x - 1) ^ 2)
      (2 / d * (1 - 1 / (prod * len : Nat))) := by
  have hub := (C98_lone_ion hs ha hi hl).1
  obtain ⟨X, hX, hend, hmean⟩ := C128_spread hs ha hi hub (C128_lone_ion hs ha hi hl hstar) hU hok
  have h1 : ((prod * len : Nat) : ℝ) ≠ 0 := by exact_mod_cast (Nat.mul_pos hprod hlen).ne'
  have ha' : a ≠ 0 := hl.positive.1.ne'
  refine ⟨fun ω => X ω / ((prod * len : Nat) * a ^ 2) ^ 2, hX.div_const _, ?_, ?_⟩
  · refine (lone_report_end hs ha hi hl hU hlen hprod hp hc (fun y => (y - 1) ^ 2) _).2 ?_
    filter_upwards [hend] with ω h2
    obtain ⟨rs, b1, b2, b3⟩ := h2
    refine ⟨rs, b1, b2, ?_⟩
    rw [b3]
    field_simp
  · rw [integral_div, hmean]
    rcases Nat.eq_zero_or_pos d with rfl | hd
    · simp
    have hd' : (d : ℝ) ≠ 0 := by exact_mod_cast hd.ne'
    field_simp

/-- **C128.**  So from two steps on the report of one run is off by at least `1/d` in the mean square, for every length
of the run. -/
theorem C128_never_accurate (hs : HopSystem o mobile h Rounding.exact m g lib st)
    (ha : Answers o mobile m lib.events st.occ)
    (hi : Sim.init (realKernel Rounding.exact) m lib.generateEventDependencies (some h) (some st) = .ok s0)
    (hl : LoneIon o mobile m g s0 v a ν z) (hstar : IsotropicStars s0 v a z d) {U : Nat → Θ → ℝ × ℝ}
    (hU : RandomNumbers μ U) {summary : Trajectory ℝ → EReal → List (String × Bool) → Row}
    {plan : PropertyPlan EReal V} {len equil prod : Nat} (hsteps : 2 ≤ prod * len)
    (hok : ∀ᵐ ω ∂μ, (s0.run (realKernel Rounding.exact) m g (some h) summary plan (fun k => U k ω) len equil
      prod).outcome = .ok ()) (p : TransportParams) (hp : p.hopDistance = a) (flags : List (String × Bool))
    (hc : SwitchedOn flags "correlation_factor") (x y : ℝ)
    (hy : MeanAtTheEnd μ U m g (some h) summary plan len equil prod s0
      (fun traj sim => ((transportSummary p traj sim.st.time flags).correlationFactor.getD x - 1) ^ 2) y) :
    1 / d ≤ y := by
  have hlen : 0 < len := Nat.pos_of_ne_zero (by rintro rfl; simp at hsteps)
  have hprod : 0 < prod := Nat.pos_of_ne_zero (by rintro rfl; simp at hsteps)
  rw [C98_mean_unique hy (C128_reported hs ha hi hl hstar hU hlen hprod hok p hp flags hc x)]
  have h2 : (2 : ℝ) ≤ (prod * len : Nat) := by exact_mod_cast hsteps
  have h3 : 1 / ((prod * len : Nat) : ℝ) ≤ 1 / 2 := one_div_le_one_div_of_le (by norm_num) h2
  have hd : (0 : ℝ) ≤ 1 / d := by positivity
  calc (1 : ℝ) / d = 2 / d * (1 - 1 / 2) := by ring
    _ ≤ 2 / d * (1 - 1 / (prod * len : Nat)) := by
      refine mul_le_mul_of_nonneg_left (by linarith) (by positivity)

/-- **C128.**  Averaging over runs does help: the average of a function of the sum of displacements over `K` runs with
independent random numbers lies about its mean with the `K`-th part of the mean squared deviation of one run. -/
theorem C128_average_of_runs (hs : HopSystem o mobile h Rounding.exact m g lib st)
    (ha : Answers o mobile m lib.events st.occ)
    (hi : Sim.init (realKernel Rounding.exact) m lib.generateEventDependencies (some h) (some st) = .ok s0)
    (hub : Unbiased o mobile m g s0 v a) {K : Nat} (hK : 0 < K) {U : Fin K → Nat → Θ → ℝ × ℝ}
    (hU : IndependentRuns μ U) {summary : Trajectory ℝ → EReal → List (String × Bool) → Row}
    {plan : PropertyPlan EReal V} {len equil prod : Nat}
    (hok : ∀ i, ∀ᵐ ω ∂μ, (s0.run (realKernel Rounding.exact) m g (some h) summary plan (fun k => U i k ω) len equil
      prod).outcome = .ok ()) (G : Vec3 ℝ → ℝ) {x s : ℝ}
    (hx : ∀ i, MeanAtTheEnd μ (U i) m g (some h) summary plan len equil prod s0
      (fun traj _ => G traj.displacement.sum) x)
    (hv : ∀ i, MeanAtTheEnd μ (U i) m g (some h) summary plan len equil prod s0
      (fun traj _ => (G traj.displacement.sum - x) ^ 2) s)
    {X : Fin K → Θ → ℝ} (hX : ∀ i, AtTheEnd μ (U i) m g (some h) summary plan len equil prod s0
      (fun traj _ => G traj.displacement.sum) (X i)) :
    ∫ ω, (∑ i, X i ω) / K ∂μ = x ∧ ∫ ω, ((∑ i, X i ω) / K - x) ^ 2 ∂μ = s / K := by
  have hY : ∀ i, ∃ Y : Θ → ℝ, Measurable[future (U i) 0] Y ∧ Integrable Y μ ∧ X i =ᵐ[μ] Y ∧ ∫ ω, Y ω ∂μ = x ∧
      Integrable (fun ω => (Y ω - x) ^ 2) μ ∧ ∫ ω, (Y ω - x) ^ 2 ∂μ = s := by
    intro i
    obtain ⟨Y, h1, h2, h3⟩ := walk_at_end hs ha hi hub (hU.each i) (hok i) G
    obtain ⟨Z, z1, z2, z3⟩ := hv i
    have hZ := atTheEnd_congr h3 z2 (fun y => (y - x) ^ 2) fun _ _ => rfl
    refine ⟨Y, h1, h2, atTheEnd_congr h3 (hX i) id fun _ _ => rfl, C98_mean_unique ⟨Y, h2, h3, rfl⟩ (hx i),
      z1.congr hZ, ?_⟩
    rw [← z3]
    exact integral_congr_ae hZ.symm
  choose Y y1 y2 y3 y4 y5 y6 using hY
  have hmeas : ∀ i, Measurable (Y i) := fun i =>
    (y1 i).mono (future_le (hU.each i).measurable 0) le_rfl
  have hind : ∀ i j, i ≠ j → IndepFun (Y i) (Y j) μ := by
    intro i j hij
    rw [IndepFun_iff_Indep]
    exact indep_of_indep_of_le_left (indep_of_indep_of_le_right (runs_indep hU hij) (y1 j).comap_le) (y1 i).comap_le
  have hL2 : ∀ i, MemLp (Y i) 2 μ := by
    intro i
    have : MemLp (fun ω => Y i ω - x) 2 μ := by
      rw [memLp_two_iff_integrable_sq ((hmeas i).sub_const x).aestronglyMeasurable]
      exact y5 i
    have h2 := this.add (memLp_const (μ := μ) (p := 2) x)
    refine h2.congr_norm (hmeas i).aestronglyMeasurable (Eventually.of_forall fun ω => ?_)
    simp
  have hK' : (K : ℝ) ≠ 0 := by exact_mod_cast hK.ne'
  have hsum : (fun ω => ∑ i, X i ω) =ᵐ[μ] fun ω => ∑ i, Y i ω := by
    have : ∀ᵐ ω ∂μ, ∀ i, X i ω = Y i ω := ae_all_iff.2 y3
    filter_upwards [this] with ω hω
    exact Finset.sum_congr rfl fun i _ => hω i
  have hint : ∫ ω, ∑ i, Y i ω ∂μ = K * x := by
    rw [integral_finsetSum _ fun i _ => y2 i]
    simp [y4]
  have hvar : ∫ ω, ((∑ i, Y i ω) - K * x) ^ 2 ∂μ = K * s := by
    have h1 := IndepFun.variance_sum (μ := μ) (X := Y) (s := Finset.univ) (fun i _ => hL2 i)
      (fun i _ j _ hij => hind i j hij)
    have hm : AEMeasurable (∑ i, Y i) μ := by
      have : (∑ i, Y i) = fun ω => ∑ i, Y i ω := by funext ω; simp
      rw [this]
      exact (Finset.measurable_sum Finset.univ fun i _ => hmeas i).aemeasurable
    rw [variance_eq_integral hm] at h1
    have h2 : ∀ i, variance (Y i) μ = s := by
      intro i
      rw [variance_eq_integral (hmeas i).aemeasurable, y4]
      exact y6 i
    simp only [h2, Finset.sum_const, Finset.card_univ, Fintype.card_fin, nsmul_eq_mul] at h1
    have h3 : ∫ ω, (∑ i, Y i) ω ∂μ = K * x := by
      rw [← hint]
      refine integral_congr_ae (Eventually.of_forall fun ω => ?_)
      simp
    rw [h3] at h1
    rw [← h1]
    refine integral_congr_ae (Eventually.of_forall fun ω => ?_)
    simp
  constructor
  · rw [integral_div, integral_congr_ae hsum, hint]
    field_simp
  · have e : (fun ω => ((∑ i, X i ω) / K - x) ^ 2) =ᵐ[μ] fun ω => ((∑ i, Y i ω) - K * x) ^ 2 / K ^ 2 := by
      filter_upwards [hsum] with ω hω
      rw [hω]
      field_simp
    rw [integral_congr_ae e, integral_div, hvar]
    field_simp

/-- **C128.**  The average of the correlation factors that `K` runs with a lone ion report has the mean one and the mean
squared error `(2/d) (1 - 1/n) / K`. -/
theorem C128_average_report (hs : HopSystem o mobile h Rounding.exact m g lib st)
    (ha : Answers o mobile m lib.events st.occ)
    (hi : Sim.init (realKernel Rounding.exact) m lib.generateEventDependencies (some h) (some st) = .ok s0)
    (hl : LoneIon o mobile m g s0 v a ν z) (hstar : IsotropicStars s0 v a z d) {K : Nat} (hK : 0 < K)
    {U : Fin K → Nat → Θ → ℝ × ℝ} (hU : IndependentRuns μ U)
    {summary : Trajectory ℝ → EReal → List (String × Bool) → Row}
    {plan : PropertyPlan EReal V} {len equil prod : Nat} (hlen : 0 < len) (hprod : 0 < prod)
    (hok : ∀ i, ∀ᵐ ω ∂μ, (s0.run (realKernel Rounding.exact) m g (some h) summary plan (fun k => U i k ω) len equil
      prod).outcome = .ok ()) (p : TransportParams) (hp : p.hopDistance = a) (flags : List (String × Bool))
    (hc : SwitchedOn flags "correlation_factor") (hmsd : SwitchedOn flags "msd") (x : ℝ) {X : Fin K → Θ → ℝ}
    (hX : ∀ i, AtTheEnd μ (U i) m g (some h) summary plan len equil prod s0
      (fun traj sim => (transportSummary p traj sim.st.time flags).correlationFactor.getD x) (X i)) :
    ∫ ω, (∑ i, X i ω) / K ∂μ = 1 ∧
      ∫ ω, ((∑ i, X i ω) / K - 1) ^ 2 ∂μ =
        (2 / (d : ℝ)) * (1 - 1 / ((prod * len : Nat) : ℝ)) / (K : ℝ) := by
  have hub := (C98_lone_ion hs ha hi hl).1
  refine C128_average_of_runs hs ha hi hub hK hU hok (fun w => sqLen w / ((prod * len : Nat) * a ^ 2)) ?_ ?_ ?_
  · intro i
    obtain ⟨Y, h1, h2, h3⟩ := (C98_lone_ion_report hs ha hi hl (hU.each i) hlen hprod (hok i) p hp flags hc hmsd x).1
    exact ⟨Y, h1, (lone_report_end hs ha hi hl (hU.each i) hlen hprod hp hc id Y).1 h2, h3⟩
  · intro i
    obtain ⟨Y, h1, h2, h3⟩ := C128_reported hs ha hi hl hstar (hU.each i) hlen hprod (hok i) p hp flags hc x
    exact ⟨Y, h1, (lone_report_end hs ha hi hl (hU.each i) hlen hprod hp hc (fun y => (y - 1) ^ 2) Y).1 h2, h3⟩
  · intro i
    exact (lone_report_end hs ha hi hl (hU.each i) hlen hprod hp hc id (X i)).1 (hX i)

end

/-- Independent random numbers for several runs exist. -/
theorem independent_runs_exist (K : Nat) :
    IndependentRuns (Measure.infinitePi fun _ : Fin K × Nat => twoUniform)
      (fun (i : Fin K) (n : Nat) (ω : Fin K × Nat → ℝ × ℝ) => ω (i, n)) := by
  have hall : iIndepFun (fun (p : Fin K × Nat) (ω : Fin K × Nat → ℝ × ℝ) => ω p)
      (Measure.infinitePi fun _ : Fin K × Nat => twoUniform) :=
    iIndepFun_infinitePi (P := fun _ : Fin K × Nat => twoUniform) (X := fun _ u => u) fun _ => measurable_id
  refine ⟨fun i => ⟨fun n => measurable_pi_apply _, ?_, fun n =>
    Measure.infinitePi_map_eval (fun _ : Fin K × Nat => twoUniform) (i, n)⟩, hall⟩
  exact hall.precomp (g := fun n : Nat => (i, n)) fun a b hab => (Prod.mk.inj hab).2

/-- The ways out of the sites of the ring, along its only direction. -/
theorem ring_stars {s0 : Sim Unit Unit Unit ℝ EReal}
    (hi : Sim.init (realKernel Rounding.exact) hopModel ringLib.generateEventDependencies
      (some ⟨[0, 0, 0, 0, 0], [1, 1, 1, 1, 1]⟩) (some ⟨[1, 1, 0, 1, 1], 0, 0⟩) = .ok s0) :
    IsotropicStars s0 ringVector (1 / 5) 2 1 := by
  obtain ⟨hl, hst⟩ := ring_annotated hi
  intro k hk x hx
  have hx' : ∃ r : ℝ, x = r • (![1 / 5, 0, 0] : Vec3 ℝ) := by
    have : hopDirections s0 ringVector ≤ Submodule.span ℝ {(![1 / 5, 0, 0] : Vec3 ℝ)} := by
      refine Submodule.span_le.2 ?_
      rintro y ⟨e, -, rfl⟩
      exact Submodule.mem_span_singleton_self _
    obtain ⟨r, hr⟩ := Submodule.mem_span_singleton.1 (this hx)
    exact ⟨r, hr.symm⟩
  obtain ⟨r, rfl⟩ := hx'
  rw [hst] at hk
  rw [hl]
  have : k = 0 ∨ k = 1 ∨ k = 2 ∨ k = 3 ∨ k = 4 := by simp at hk; omega
  rcases this with rfl | rfl | rfl | rfl | rfl <;>
    simp [ringHops, wayOut, ringVector, dotVec, sqLen, Fin.sum_univ_three] <;> ring

/-- Non-vacuity: one ion on a ring of five sites.  After a thousand passes of three steps the reported correlation factor
has the mean squared error `2 (1 - 1/3000)`; the average over a hundred runs has the hundredth part of it. -/
example : ∃ s0 : Sim Unit Unit Unit ℝ EReal,
    Sim.init (realKernel Rounding.exact) hopModel ringLib.generateEventDependencies
      (some ⟨[0, 0, 0, 0, 0], [1, 1, 1, 1, 1]⟩) (some ⟨[1, 1, 0, 1, 1], 0, 0⟩) = .ok s0 ∧
    ∃ X : Fin 100 → (Fin 100 × Nat → ℝ × ℝ) → ℝ,
      (∀ i, AtTheEnd (Measure.infinitePi fun _ : Fin 100 × Nat => twoUniform) (fun n ω => ω (i, n)) hopModel
        ringGeometry (some ⟨[0, 0, 0, 0, 0], [1, 1, 1, 1, 1]⟩) (fun _ _ _ => ())
        (planAfter ([] : List (PlanOp EReal Unit))) 3 10 1000 s0
        (fun traj sim => (transportSummary ⟨1, 1 / 5, 1, 300, 1⟩ traj sim.st.time []).correlationFactor.getD 0) (X i)) ∧
      ∫ ω, ((∑ i, X i ω) / (100 : Nat) - 1) ^ 2 ∂(Measure.infinitePi fun _ : Fin 100 × Nat => twoUniform) =
        2 * (1 - 1 / 3000) / 100 := by
  have hsys := ringHop_system (occ := [1, 1, 0, 1, 1]) rfl (by decide)
  have hans := ringHop_answers (occ := [1, 1, 0, 1, 1]) rfl
  obtain ⟨s0, hi⟩ := C85_can_be_constructed hsys hans
  have hU := independent_runs_exist 100
  have hok : ∀ i : Fin 100, ∀ᵐ ω ∂Measure.infinitePi fun _ : Fin 100 × Nat => twoUniform,
      (s0.run (realKernel Rounding.exact) hopModel
      ringGeometry (some ⟨[0, 0, 0, 0, 0], [1, 1, 1, 1, 1]⟩) (fun _ _ _ => ())
      (planAfter ([] : List (PlanOp EReal Unit))) (fun k => ω (i, k)) 3 10 1000).outcome = .ok () := by
    intro i
    filter_upwards [draws_in_range (hU.each i)] with ω hω
    exact C85_connected_completes hsys hans hopModel_willing (ring_network rfl (by decide) (by decide) (by decide)) hi
      _ [] (by intro n spec hn; cases hn) _ (fun c => (hω c).1) 3 10 1000
  have hl := ring_lone hi
  have hrep : ∀ i, _ := fun i => (C98_lone_ion_report hsys hans hi hl (hU.each i) (len := 3) (prod := 1000) (equil := 10)
    (by norm_num) (by norm_num) (hok i) ⟨1, 1 / 5, 1, 300, 1⟩ rfl [] (by simp [SwitchedOn, dictGet])
    (by simp [SwitchedOn, dictGet]) 0).1
  choose X x1 x2 x3 using hrep
  refine ⟨s0, hi, X, x2, ?_⟩
  have := (C128_average_report hsys hans hi hl (ring_stars hi) (by norm_num) hU (len := 3) (prod := 1000) (equil := 10)
    (by norm_num) (by norm_num) hok ⟨1, 1 / 5, 1, 300, 1⟩ rfl [] (by simp [SwitchedOn, dictGet])
    (by simp [SwitchedOn, dictGet]) 0 x2).2
  rw [this]
  norm_num

/-- Non-vacuity: two ions that block each other on a ring of five sites.  Their summed displacement has the mean square
`3000 a²`, with the mean squared deviation `2 · 3000 · 2999 a⁴`. -/
example : ∃ s0 : Sim Unit Unit Unit ℝ EReal,
    Sim.init (realKernel Rounding.exact) hopModel ringLib.generateEventDependencies
      (some ⟨[0, 0, 0, 0, 0], [1, 1, 1, 1, 1]⟩) (some ⟨[0, 1, 0, 1, 1], 0, 0⟩) = .ok s0 ∧
    MeanAtTheEnd (Measure.infinitePi fun _ : Nat => twoUniform) (fun n ω => ω n) hopModel
      ringGeometry (some ⟨[0, 0, 0, 0, 0], [1, 1, 1, 1, 1]⟩) (fun _ _ _ => ())
      (planAfter ([] : List (PlanOp EReal Unit))) 3 10 1000 s0
      (fun traj _ => (sqLen traj.displacement.sum - (1000 * 3 : Nat) * (1 / 5) ^ 2) ^ 2)
      (2 * (3000 * 2999) * (1 / 5) ^ 4) := by
  have hsys := ringHop_system (occ := [0, 1, 0, 1, 1]) rfl (by decide)
  have hans := ringHop_answers (occ := [0, 1, 0, 1, 1]) rfl
  have hnet := ring_network (occ := [0, 1, 0, 1, 1]) rfl (by decide) (by decide) (by decide)
  obtain ⟨s0, hi⟩ := C85_can_be_constructed hsys hans
  refine ⟨s0, hi, ?_⟩
  have hgas := ring_gas (occ := [0, 1, 0, 1, 1]) rfl (by decide) hi
  have hub := C126_no_drift hsys hans hopModel_willing hi hnet hgas
  have hiso := C128_one_line hsys hans hi hub (u := ![1 / 5, 0, 0]) fun e _ => ⟨1, by simp [ringVector]⟩
  have := C128_spread hsys hans hi hub hiso C93_random_numbers (V := Unit) (Row := Unit) (summary := fun _ _ _ => ())
    (plan := planAfter ([] : List (PlanOp EReal Unit))) (len := 3) (equil := 10) (prod := 1000) (by
      filter_upwards [draws_in_range C93_random_numbers] with ω hω
      exact C85_connected_completes hsys hans hopModel_willing hnet hi _ [] (by intro n spec hn; cases hn) _
        (fun c => (hω c).1) 3 10 1000)
  refine (congrArg (MeanAtTheEnd _ _ _ _ _ _ _ _ _ _ _ _) ?_).mp this
  norm_num

end KMC
