import Verif.Spec.Scale
import Verif.Lemmas.Description
/-
Runs whose summaries are computed in two ways go in step.
-/
set_option linter.unusedSectionVars false

namespace KMC
open Spec

namespace Sampler
variable {T V Row : Type}

/-- The sampler with every row changed. -/
def mapRows (f : Row → Row) (s : Sampler T V Row) : Sampler T V Row :=
  { s with results := s.results.map fun row => (row.1, f row.2) }

section
variable [Sub T] [LE T] [DecidableLE T]

theorem sampleSummary_mapRows (f : Row → Row) (summary summary' : List (String × Bool) → Row)
    (h : ∀ flags, summary' flags = f (summary flags)) (s : Sampler T V Row) (step : Int) (t : T) :
    (s.mapRows f).sampleSummary summary' step t = (s.sampleSummary summary step t).mapRows f := by
  unfold sampleSummary
  by_cases hc : shouldTrigger step t s.globalInterval s.globalTimeInterval s.lastSummaryTriggerTime = true
  · rw [if_pos hc, if_pos (show shouldTrigger step t (s.mapRows f).globalInterval (s.mapRows f).globalTimeInterval
      (s.mapRows f).lastSummaryTriggerTime = true from hc)]
    simp [mapRows, h]
  · rw [if_neg hc, if_neg (show ¬ shouldTrigger step t (s.mapRows f).globalInterval (s.mapRows f).globalTimeInterval
      (s.mapRows f).lastSummaryTriggerTime = true from hc)]

theorem sampleOne_mapRows (f : Row → Row) (st : State T) (step : Int) (t : T) (spec : PropertySpec T V)
    (s : Sampler T V Row) :
    sampleOne st step t spec (s.mapRows f) =
      ((sampleOne st step t spec s).1, (sampleOne st step t spec s).2.mapRows f) := by
  unfold sampleOne
  have hd : (s.mapRows f).due spec step t = s.due spec step t := rfl
  rw [hd]
  by_cases hc : s.due spec step t = true
  · rw [if_pos hc, if_pos hc]
    cases spec.callback st step t with
    | raised =>
      simp only
      cases handleCallbackError spec st step t <;> rfl
    | value v =>
      simp only
      by_cases hst : spec.store = true
      · rw [if_pos hst, if_pos hst]
        have hr : (s.mapRows f).records = s.records := rfl
        rw [hr]
        cases dictGet s.records spec.name <;> rfl
      · rw [if_neg hst, if_neg hst]; rfl
  · rw [if_neg hc, if_neg hc]

theorem sampleLoop_mapRows (f : Row → Row) (st : State T) (step : Int) (t : T) (specs : List (PropertySpec T V))
    (s : Sampler T V Row) :
    sampleLoop st step t specs (s.mapRows f) =
      ((sampleLoop st step t specs s).1, (sampleLoop st step t specs s).2.mapRows f) := by
  induction specs generalizing s with
  | nil => rfl
  | cons spec specs ih =>
    unfold sampleLoop
    rw [sampleOne_mapRows]
    rcases sampleOne st step t spec s with ⟨r, s'⟩
    cases r with
    | error e => rfl
    | ok u => exact ih s'

theorem sampleProperties_mapRows (f : Row → Row) (summary summary' : List (String × Bool) → Row)
    (h : ∀ flags, summary' flags = f (summary flags)) (s : Sampler T V Row) (st : State T) (step : Int) (t : T) :
    (s.mapRows f).sampleProperties summary' st step t =
      ((s.sampleProperties summary st step t).1, (s.sampleProperties summary st step t).2.mapRows f) := by
  unfold sampleProperties
  simp only
  rw [sampleSummary_mapRows f summary summary' h]
  exact sampleLoop_mapRows f st step t _ _

end
end Sampler

variable {σ φ M R T U K V Row : Type} [Field K] [LinearOrder K] [FloorRing K]
variable [Add T] [Zero T] [Sub T] [LE T] [DecidableLE T]

/-- Two production states go in step up to the rows. -/
structure AlongRows (f : Row → Row) (Q : Matrix (Fin 3) (Fin 3) K) (a b : RunState σ φ M R T K V Row) : Prop where
  sim : b.sim = a.sim
  traj : SameTracks Q a.traj b.traj
  sampler : b.sampler = a.sampler.mapRows f
  pass : b.currentPass = a.currentPass

section
variable {f : Row → Row} {Q : Matrix (Fin 3) (Fin 3) K} {g g' : Geometry K} (k : Kernel R T U)
  (m : RateModel M R T) {summary summary' : Trajectory K → T → List (String × Bool) → Row}
  (hsum : ∀ t t', SameTracks Q t t' → ∀ time flags, summary' t' time flags = f (summary t time flags))
  {events : List Event} (hop : ∀ e ∈ events, HopAgrees Q g g' e)
include hsum hop

theorem prodStep_alongRows {a b : RunState σ φ M R T K V Row} (h : AlongRows f Q a b)
    (hl : a.sim.lib.events = events) (r1 r2 : U) :
    (b.prodStep k m g' summary' r1 r2).1 = (a.prodStep k m g summary r1 r2).1 ∧
      AlongRows f Q (a.prodStep k m g summary r1 r2).2 (b.prodStep k m g' summary' r1 r2).2 := by
  unfold RunState.prodStep
  rw [h.sim]
  cases hp : a.sim.propose k r1 r2 with
  | error x => exact ⟨rfl, h⟩
  | ok q =>
    obtain ⟨e, dt⟩ := q
    simp only
    obtain ⟨h1, h2⟩ := update_sameTracks h.traj a.sim.st.occ (hop e (hl ▸ propose_event_mem hp))
    rcases hu : a.traj.update g a.sim.st.occ e with ⟨rt, traj⟩
    rcases hu' : b.traj.update g' a.sim.st.occ e with ⟨rt', traj'⟩
    rw [hu, hu'] at h1 h2
    simp only at h1 h2
    subst h1
    cases rt' with
    | error x => exact ⟨rfl, ⟨rfl, h2, h.sampler, h.pass⟩⟩
    | ok u =>
      simp only
      rcases hq : a.sim.update k m e dt with ⟨rs, sim⟩
      cases rs with
      | error x => exact ⟨rfl, ⟨rfl, h2, h.sampler, h.pass⟩⟩
      | ok u2 =>
        simp only
        rw [h.sampler, Sampler.sampleProperties_mapRows f (summary traj sim.st.time) (summary' traj' sim.st.time)
          (fun flags => hsum _ _ h2 _ flags)]
        exact ⟨rfl, ⟨rfl, h2, rfl, h.pass⟩⟩

theorem prodSteps_alongRows (rng : Nat → U × U) (n c : Nat)
    {a b : RunState σ φ M R T K V Row} (h : AlongRows f Q a b) (hl : a.sim.lib.events = events) :
    (b.prodSteps k m g' summary' rng n c).1 = (a.prodSteps k m g summary rng n c).1 ∧
      AlongRows f Q (a.prodSteps k m g summary rng n c).2 (b.prodSteps k m g' summary' rng n c).2 ∧
      (a.prodSteps k m g summary rng n c).2.sim.lib.events = events := by
  induction n generalizing c a b with
  | zero => exact ⟨rfl, h, hl⟩
  | succ n ih =>
    obtain ⟨h1, h2⟩ := prodStep_alongRows k m hsum hop h hl (rng c).1 (rng c).2
    have hlib := (prodStep_inv k m g summary events (fun _ => True) (fun _ => True)
      (fun _ _ _ _ _ => trivial) (fun _ _ _ _ _ => trivial) a (rng c).1 (rng c).2 hl trivial
      trivial).1
    unfold RunState.prodSteps
    rcases ha : a.prodStep k m g summary (rng c).1 (rng c).2 with ⟨ra, a'⟩
    rcases hb : b.prodStep k m g' summary' (rng c).1 (rng c).2 with ⟨rb, b'⟩
    rw [ha, hb] at h1 h2
    rw [ha] at hlib
    simp only at h1 h2 hlib
    subst h1
    have hl' : a'.sim.lib.events = events := by rw [hlib]; exact hl
    cases rb with
    | error x => exact ⟨rfl, h2, hl'⟩
    | ok u => exact ih (c + 1) h2 hl'

theorem passes_alongRows (rng : Nat → U × U) (len n p c : Nat)
    {a b : RunState σ φ M R T K V Row} (h : AlongRows f Q a b) (hl : a.sim.lib.events = events) :
    (b.passes k m g' summary' rng len n p c).1 = (a.passes k m g summary rng len n p c).1 ∧
      AlongRows f Q (a.passes k m g summary rng len n p c).2 (b.passes k m g' summary' rng len n p c).2 := by
  induction n generalizing p c a b with
  | zero => exact ⟨rfl, h⟩
  | succ n ih =>
    obtain ⟨h1, h2, h3⟩ := prodSteps_alongRows k m hsum hop rng len c h hl
    unfold RunState.passes
    rcases ha : a.prodSteps k m g summary rng len c with ⟨ra, a'⟩
    rcases hb : b.prodSteps k m g' summary' rng len c with ⟨rb, b'⟩
    rw [ha, hb] at h1 h2
    rw [ha] at h3
    simp only at h1 h2 h3
    subst h1
    cases rb with
    | error x => exact ⟨rfl, h2⟩
    | ok u => exact ih (p + 1) (c + len) ⟨h2.sim, h2.traj, h2.sampler, rfl⟩ h3
end

theorem attachAll_results (specs : List (PropertySpec T V)) {s s' : Sampler T V Row} {r : Py Unit}
    (h : Sampler.attachAll specs s = (r, s')) : s'.results = s.results := by
  induction specs generalizing s with
  | nil => cases h; rfl
  | cons spec specs ih =>
    unfold Sampler.attachAll at h
    rcases ha : s.attach (Sampler.specArgs spec spec.name) with ⟨q, s1⟩
    have h1 : s1.results = s.results := by
      unfold Sampler.attach at ha
      split at ha <;> · cases ha; rfl
    rw [ha] at h
    cases q with
    | error e => cases h; exact h1
    | ok u => exact (ih h).trans h1

theorem enableAll_results (flags : List (String × Bool)) {s s' : Sampler T V Row} {r : Py Unit}
    (h : Sampler.enableAll flags s = (r, s')) : s'.results = s.results := by
  induction flags generalizing s with
  | nil => cases h; rfl
  | cons flag flags ih =>
    obtain ⟨a, b⟩ := flag
    unfold Sampler.enableAll at h
    rcases ha : s.setPropertyEnabled a b with ⟨q, s1⟩
    have h1 : s1.results = s.results := by
      unfold Sampler.setPropertyEnabled at ha
      cases ha; rfl
    rw [ha] at h
    cases q with
    | error e => cases h; exact h1
    | ok u => exact (ih h).trans h1

theorem applyPropertyPlan_results (plan : PropertyPlan T V) (d : Option Int) {s s' : Sampler T V Row} {r : Py Unit}
    (h : s.applyPropertyPlan plan d = (r, s')) : s'.results = s.results := by
  unfold Sampler.applyPropertyPlan at h
  rcases ha : s.setGlobalFrequency (plan.trackerInterval d) plan.globalTimeInterval with ⟨q, s1⟩
  have h1 : s1.results = s.results := by
    unfold Sampler.setGlobalFrequency at ha
    split at ha <;> · cases ha; rfl
  rw [ha] at h
  cases q with
  | error e => cases h; exact h1
  | ok u =>
    simp only at h
    rcases hb : Sampler.enableAll plan.builtin s1 with ⟨q, s2⟩
    rw [hb] at h
    have h2 := (enableAll_results _ hb).trans h1
    cases q with
    | error e => cases h; exact h2
    | ok u => exact (attachAll_results _ h).trans h2

theorem run_sameRunUpTo {x : ℝ} {f : Row → Row} {g g' : Geometry ℝ} (k : Kernel R T U)
    (m : RateModel M R T) (lookup : Option HopStateLookup)
    {summary summary' : Trajectory ℝ → T → List (String × Bool) → Row}
    (hsum : ∀ t t', SameTracks (x • 1) t t' → ∀ time flags, summary' t' time flags = f (summary t time flags))
    (hg : Enlarged x g g')
    (plan : PropertyPlan T V) (rng : Nat → U × U) (len equil prod : Nat) (s : Sim σ φ M R T) :
    SameRunUpTo x f (s.run k m g lookup summary plan rng len equil prod)
      (s.run k m g' lookup summary' plan rng len equil prod) := by
  have hr : Redrawn (x • (1 : Matrix (Fin 3) (Fin 3) ℝ)) 0 g g' :=
    ⟨by rw [hg.lattice, Matrix.mul_smul, Matrix.mul_one], by rw [hg.sites]; simp, hg.symbols⟩
  have hop : ∀ e ∈ s.lib.events, HopAgrees (x • (1 : Matrix (Fin 3) (Fin 3) ℝ)) g g' e :=
    fun e _ => redrawn_hopAgrees hr e
  have hp := equilSteps_inv k m rng s.lib.events (fun _ => True) (fun _ _ _ _ _ => trivial)
    (equil * len) 0 s rfl trivial
  unfold Sim.run
  rcases h1 : s.equilSteps k m rng (equil * len) 0 with ⟨r, s1⟩
  rw [h1] at hp
  cases r with
  | error x => exact ⟨rfl, rfl, by rintro _ ⟨⟩, fun _ => rfl⟩
  | ok u =>
    simp only
    rcases init_sameTracks (x • (1 : Matrix (Fin 3) (Fin 3) ℝ)) (g := g) (g' := g') (by rw [hg.sites]) hg.symbols
      lookup s1.st.occ with ⟨x, e1, e2⟩ | ⟨t, t', e1, e2, ht⟩
    · rw [e1, e2]
      exact ⟨rfl, rfl, by rintro _ ⟨⟩, fun _ => rfl⟩
    · rw [e1, e2]
      simp only
      rcases h3 : ({} : Sampler T V Row).applyPropertyPlan plan (some (max len 1 : Nat)) with ⟨r3, sm⟩
      cases r3 with
      | error x => exact ⟨rfl, rfl, by rintro _ ⟨⟩, fun _ => rfl⟩
      | ok u3 =>
        simp only
        have hsm : sm = sm.mapRows f := by
          have : sm.results = [] := applyPropertyPlan_results plan _ h3
          obtain ⟨a1, a2, a3, a4, a5, a6, a7⟩ := sm
          simp only at this
          subst this
          rfl
        obtain ⟨q1, q2⟩ := passes_alongRows (f := f) (Q := x • (1 : Matrix (Fin 3) (Fin 3) ℝ)) (g := g) (g' := g') k m
          hsum hop rng len prod 0 (equil * len)
          (a := ({ sim := s1, traj := t, sampler := sm } : RunState σ φ M R T ℝ V Row))
          (b := { sim := s1, traj := t', sampler := sm }) ⟨rfl, ht, hsm, rfl⟩
          (congrArg EventLib.events hp.1)
        refine ⟨q1, q2.sim, fun y hy => ?_, fun hy => by cases hy⟩
        cases hy
        refine ⟨_, rfl, q2.sim, q2.pass, q2.traj.locations, q2.traj.hops, ?_, ?_, ?_, ?_⟩
        · rw [q2.traj.displacement]
          refine List.map_congr_left fun v _ => ?_
          rw [Matrix.vecMul_smul, Matrix.vecMul_one]
        · rw [q2.sampler]; rfl
        · rw [q2.sampler]; rfl
        · rw [q2.sampler]; rfl

/-- How a summary row follows a change of the length unit of the trajectory and of the transport parameters. -/
theorem transportSummary_scaled {x : ℝ} (hx : 0 < x) {p p' : TransportParams} (hd : 0 < p.dimension)
    (hd' : 0 < p'.dimension) (ha : p.hopDistance ≠ 0) (ha' : p'.hopDistance ≠ 0) (hv : p.volume ≠ 0)
    (hv' : p'.volume ≠ 0) (hq : p.charge ≠ 0) (ht : p'.temperature = p.temperature) {t t' : Trajectory ℝ}
    (h : SameTracks (x • 1) t t') (time : EReal) (flags : List (String × Bool)) :
    transportSummary p' t' time flags =
      rowTimes (x ^ 2) (x ^ 2 * (p.dimension / p'.dimension)) (x ^ 2 * (p.dimension / p'.dimension))
        (x ^ 2 * (p.dimension / p'.dimension) * (p.volume / p'.volume) * (p'.charge / p.charge) ^ 2) 1
        (x ^ 2 * (p.hopDistance / p'.hopDistance) ^ 2) (transportSummary p t time flags) := by
  have hD : (p.dimension : ℝ) ≠ 0 := by positivity
  have hD' : (p'.dimension : ℝ) ≠ 0 := by positivity
  have hdisp : t'.displacement = t.displacement.map (fun v => x • v) := by
    rw [h.displacement]
    refine List.map_congr_left fun v _ => ?_
    rw [Matrix.vecMul_smul, Matrix.vecMul_one]
  have hnorm : ∀ v : Vec3 ℝ, vecNorm (x • v) ^ 2 = x ^ 2 * vecNorm v ^ 2 := by
    intro v
    unfold vecNorm
    rw [Real.sq_sqrt (by positivity), Real.sq_sqrt (by positivity)]
    simp only [Pi.smul_apply, smul_eq_mul]
    ring
  have hsq : (t'.displacement.map fun v => vecNorm v ^ 2) =
      (t.displacement.map fun v => vecNorm v ^ 2).map (x ^ 2 * ·) := by
    rw [hdisp, List.map_map, List.map_map]
    exact List.map_congr_left fun v _ => hnorm v
  have hmean : ∀ (c : ℝ) (l : List ℝ), meanOf (l.map (c * ·)) = (meanOf l).map (c * ·) := by
    intro c l
    cases l with
    | nil => rfl
    | cons a l =>
      have : ((a :: l).map (c * ·)).sum = c * (a :: l).sum := by
        rw [List.sum_map_mul_left]; simp
      unfold meanOf
      simp only [List.map_cons, Option.map_some] at this ⊢
      rw [this]
      simp [mul_div_assoc]
  have hsum : vecNorm t'.displacement.sum ^ 2 = x ^ 2 * vecNorm t.displacement.sum ^ 2 := by
    rw [hdisp, ← hnorm]
    congr 2
    induction t.displacement with
    | nil => simp
    | cons a l ih => simp [ih]
  have hover : ∀ y f c : ℝ, overTime (x ^ 2 * y) (2 * p'.dimension * f) time =
      x ^ 2 * (p.dimension / p'.dimension) * overTime y (2 * p.dimension * f) time := by
    intro y f c
    unfold overTime
    split_ifs
    · simp
    · by_cases hz : f * time.toReal = 0
      · rcases mul_eq_zero.1 hz with hz | hz <;> simp [hz]
      · have hf : f ≠ 0 := left_ne_zero_of_mul hz
        have hy : time.toReal ≠ 0 := right_ne_zero_of_mul hz
        field_simp
  have hover1 : ∀ y : ℝ, overTime (x ^ 2 * y) (2 * p'.dimension) time =
      x ^ 2 * (p.dimension / p'.dimension) * overTime y (2 * p.dimension) time := by
    intro y
    have := hover y 1 1
    rwa [mul_one, mul_one] at this
  have hcorr : ∀ (l : List ℝ) (hs : List Nat), correlationByIon p'.hopDistance (l.map (x ^ 2 * ·)) hs =
      (correlationByIon p.hopDistance l hs).map (x ^ 2 * (p.hopDistance / p'.hopDistance) ^ 2 * ·) := by
    intro l hs
    unfold correlationByIon
    rw [List.map_zipWith, List.zipWith_map_left]
    congr 1
    funext d n
    split_ifs with hn
    · simp
    · have : (n : ℝ) ≠ 0 := by exact_mod_cast hn
      field_simp
  have hc : x ^ 2 * (p.dimension / p'.dimension : ℝ) ≠ 0 := by positivity
  unfold transportSummary computeTransport rowTimes
  simp only [hsq, hsum, hmean, hcorr, hover _ _ 1, h.hops, h.locations, ht, TransportRow.mk.injEq]
  refine ⟨?_, ?_, ?_, ?_, ?_, ?_⟩
  · split_ifs <;> rfl
  · split_ifs <;> simp [mul_assoc]
  · split_ifs
    · cases hm : meanOf (t.displacement.map fun v => vecNorm v ^ 2) with
      | none => rfl
      | some y => simp only [Option.map_some, hover1, mul_assoc]
    · rfl
    · rfl
  · split_ifs
    · simp only [Option.map_some]
      congr 1
      field_simp
    · rfl
    · rfl
  · split_ifs
    · cases hm : meanOf (t.displacement.map fun v => vecNorm v ^ 2) with
      | none => rfl
      | some y =>
        simp only [Option.map_some, hover1, mul_assoc (x ^ 2 * (p.dimension / p'.dimension : ℝ)), ne_eq, mul_eq_zero, hc,
          false_or]
        split_ifs
        · rfl
        · simp only [Option.map_some, one_mul]
          congr 1
          exact mul_div_mul_left _ _ hc
    · rfl
    · rfl
  · split_ifs <;> rfl

end KMC
