import Verif.Lemmas.TrackerRun
import Verif.Props.TrackerProps
import Verif.Props.HopProps
/-
C15, and C16, C17 for whole runs.
-/
set_option linter.unusedSectionVars false

namespace KMC
open Spec

section
variable {σ φ ψ K V Row : Type} [Field K] [LinearOrder K] [FloorRing K]
variable {o : ActiveSiteOrder String ψ} {mobile : String} {h : HopStateLookup} {R : Rounding}
  {m : RateModel Unit ℝ EReal} {g : Geometry K} {lib : EventLib σ φ} {st : State EReal}
  {s0 : Sim σ φ Unit ℝ EReal}

theorem ionAt_iff_species {occ : List Int} (w : WellLabelled o mobile occ)
    (hl : HopStateLookup.fromActiveSiteOrder o mobile = .ok h) (k : Nat) :
    IonAt h occ k ↔ speciesAt o occ k = some mobile := by
  by_cases hk : k < occ.length
  · obtain ⟨mc, c, h1, -, h3, -, h5⟩ := site_codes w hl (i := k) (v := occ[k]) (by simp [hk])
    constructor
    · rintro ⟨x, hx1, hx2, hx3⟩
      rw [h1] at hx1; cases hx1
      simp only [List.getElem?_eq_getElem hk, Option.some.injEq] at hx3
      exact h3.1 hx3
    · intro hs
      exact ⟨mc, h1, by rw [← h3.2 hs]; exact h5, by rw [List.getElem?_eq_getElem hk, h3.2 hs]⟩
  · have : occ[k]? = none := List.getElem?_eq_none (by omega)
    constructor
    · rintro ⟨x, -, -, hx⟩; rw [this] at hx; cases hx
    · intro hs; unfold speciesAt at hs; rw [this] at hs; cases hs

/-- C15.  In an ordinary hopping simulation the tracker can always be started. -/
theorem C15_tracker_starts (hs : HopSystem o mobile h R m g lib st)
    (hi : Sim.init (realKernel R) m lib.generateEventDependencies (some h) (some st) = .ok s0)
    (rng : Nat → ℝ × ℝ) (hr : ∀ c, 0 ≤ (rng c).1 ∧ (rng c).1 < 1) (c : Nat)
    (s1 : Sim σ φ Unit ℝ EReal) (eq : List (Event × EReal))
    (heq : Steps (realKernel R) m rng false c s0 eq s1) :
    ∃ t, Trajectory.init g (some h) s1.st.occ = .ok t := by
  have inv := sim_inv_steps hs hi hr heq (sim_init_inv hs hi)
  have hst : st = s0.st := by obtain ⟨i1, -⟩ := init_ok hi; simpa using i1
  have hlen : g.fracCoords.length = s1.st.occ.length := by rw [hs.coords, hst, inv.len]
  obtain ⟨l1, -, -⟩ := lookup_spec hs.lookup
  have hpick : ∀ l : List Int, (∀ i ∈ l, ∃ k : Nat, i = (k : Int) ∧ k < g.fracCoords.length) →
      ∃ r, pickCoords g l = .ok r := by
    intro l
    induction l with
    | nil => exact fun _ => ⟨[], rfl⟩
    | cons a l ih =>
      intro hl
      obtain ⟨k, rfl, hk⟩ := hl a (by simp)
      obtain ⟨r, hr⟩ := ih fun i hi => hl i (by simp [hi])
      refine ⟨g.cart g.fracCoords[k] :: r, ?_⟩
      simp only [pickCoords]
      rw [pyGet_natCast (v := g.fracCoords[k]) (by simp [hk]), hr]
  obtain ⟨r, hr'⟩ := hpick (whereTrue 0 (mobileMask g (some h) s1.st.occ)) (by
    intro i hi
    obtain ⟨k, hk, hm⟩ := (mem_whereTrue _ _ _).1 hi
    refine ⟨k, by simpa using hk, ?_⟩
    obtain ⟨c, -, -, hc⟩ := (mobileMask_lookup g h s1.st.occ k).1 hm
    rw [hlen]; exact (List.getElem?_eq_some_iff.1 hc).1)
  refine ⟨{ locations := whereTrue 0 (mobileMask g (some h) s1.st.occ)
            displacement := (whereTrue 0 (mobileMask g (some h) s1.st.occ)).map fun _ => 0
            hopCounter := (whereTrue 0 (mobileMask g (some h) s1.st.occ)).map fun _ => 0
            r0 := r }, ?_⟩
  unfold Trajectory.init
  simp only [hr']
  rw [if_neg (by simp [l1, inv.labelled.length])]

/-- C15.  In an ordinary hopping simulation, after any number of equilibration steps and any
number of tracked production steps: the tracked positions are pairwise distinct, they are
exactly the sites carrying the mobile species, and whatever event is proposed next, the
tracker update succeeds, so its consistency error is never raised. -/
theorem C15_tracker_follows_ions_partial (hs : HopSystem o mobile h R m g lib st)
    (hi : Sim.init (realKernel R) m lib.generateEventDependencies (some h) (some st) = .ok s0)
    (rng : Nat → ℝ × ℝ) (hr : ∀ c, 0 ≤ (rng c).1 ∧ (rng c).1 < 1) (c c' : Nat)
    (s1 s2 : Sim σ φ Unit ℝ EReal) (eq : List (Event × EReal))
    (heq : Steps (realKernel R) m rng false c s0 eq s1) (t1 t2 : Trajectory K)
    (ht1 : Trajectory.init g (some h) s1.st.occ = .ok t1) (hist : List (List Int × Event))
    (hprod : TrackedSteps (realKernel R) m g rng c' s1 t1 hist s2 t2) :
    t2.locations.Nodup ∧
    (∀ i : Int, i ∈ t2.locations ↔ ∃ k : Nat, i = (k : Int) ∧ speciesAt o s2.st.occ k = some mobile) ∧
    ∀ r1 r2 e dt, 0 ≤ r1 → r1 < 1 → s2.propose (realKernel R) r1 r2 = .ok (e, dt) →
      ∃ t3, t2.update g s2.st.occ e = (.ok (), t3) := by
  have inv1 := sim_inv_steps hs hi hr heq (sim_init_inv hs hi)
  obtain ⟨inv2, htr, -⟩ := tracked_steps_inv hs hi hr hprod inv1 (traj_init_tracks ht1)
  refine ⟨htr.nodup, ?_, ?_⟩
  · intro i
    rw [htr.sites]
    exact exists_congr fun k => and_congr_right fun _ => ionAt_iff_species inv2.labelled hs.lookup k
  · intro r1 r2 e dt h0 h1 hp
    obtain ⟨-, t', ht', -⟩ := tracked_step hs hi inv2 htr h0 h1 hp
    exact ⟨t', ht'⟩

/-- C15.  After a finished run the tracker's positions are pairwise distinct and are exactly
the sites of the final state that carry the mobile species. -/
theorem C15_run_tracks_ions_partial (hs : HopSystem o mobile h R m g lib st)
    (hi : Sim.init (realKernel R) m lib.generateEventDependencies (some h) (some st) = .ok s0)
    (rng : Nat → ℝ × ℝ) (hr : ∀ c, 0 ≤ (rng c).1 ∧ (rng c).1 < 1)
    (summary : Trajectory K → EReal → List (String × Bool) → Row) (plan : PropertyPlan EReal V)
    (len equil prod : Nat)
    (hok : (s0.run (realKernel R) m g (some h) summary plan rng len equil prod).outcome = .ok ()) :
    ∃ rs, (s0.run (realKernel R) m g (some h) summary plan rng len equil prod).tracker = some rs ∧
      rs.sim = (s0.run (realKernel R) m g (some h) summary plan rng len equil prod).sim ∧
      rs.traj.locations.Nodup ∧
      ∀ i : Int, i ∈ rs.traj.locations ↔
        ∃ k : Nat, i = (k : Int) ∧ speciesAt o rs.sim.st.occ k = some mobile := by
  obtain ⟨s1, traj, sm, rs, a1, a2, -, a4, a5⟩ := run_ok hok
  obtain ⟨eq, -, heq⟩ := equilSteps_steps a1
  obtain ⟨hist, -, hh⟩ := passes_tracked a4
  obtain ⟨b1, b2, -⟩ := C15_tracker_follows_ions_partial hs hi rng hr 0 (equil * len) s1 rs.sim eq heq traj
    rs.traj a2 hist hh
  rw [a5]
  exact ⟨rs, rfl, rfl, b1, b2⟩

/-- C16.  After a finished run of an ordinary hopping simulation the hop counters add up to
the number of production steps. -/
theorem C16_run_counts_every_step (hs : HopSystem o mobile h R m g lib st)
    (hi : Sim.init (realKernel R) m lib.generateEventDependencies (some h) (some st) = .ok s0)
    (rng : Nat → ℝ × ℝ) (hr : ∀ c, 0 ≤ (rng c).1 ∧ (rng c).1 < 1)
    (summary : Trajectory K → EReal → List (String × Bool) → Row) (plan : PropertyPlan EReal V)
    (len equil prod : Nat)
    (hok : (s0.run (realKernel R) m g (some h) summary plan rng len equil prod).outcome = .ok ()) :
    ∃ rs, (s0.run (realKernel R) m g (some h) summary plan rng len equil prod).tracker = some rs ∧
      rs.traj.hopCounter.length = rs.traj.locations.length ∧
      rs.traj.hopCounter.sum = prod * len := by
  obtain ⟨s1, traj, sm, rs, a1, a2, -, a4, a5⟩ := run_ok hok
  obtain ⟨eq, -, heq⟩ := equilSteps_steps a1
  obtain ⟨hist, hl, hh⟩ := passes_tracked a4
  have inv1 := sim_inv_steps hs hi hr heq (sim_init_inv hs hi)
  obtain ⟨-, -, hd⟩ := tracked_steps_inv hs hi hr hh inv1 (traj_init_tracks a2)
  have ha := traj_init_aligned a2
  rw [a5]
  refine ⟨rs, rfl, (trackedSteps_aligned hh ha).hops, ?_⟩
  have hc := C16_counters_count_hops hh ha
  simp only at hc
  have h0 : traj.hopCounter.sum = 0 := by
    obtain ⟨-, -, h3, -⟩ := traj_init_ok a2
    rw [h3]; simp
  rw [hc, h0, List.filter_eq_self.2, hl]
  · simp
  · intro p hp
    obtain ⟨d, h1, h2⟩ := hd p hp
    simp [h1, h2]

end

section
variable {σ φ M RR T U K V Row : Type} [Field K] [LinearOrder K] [FloorRing K]
  [IsStrictOrderedRing K] [Add T] [Sub T] [LE T] [DecidableLE T] [Zero T]

/-- C17.  After a finished run, whatever the rate model and the random numbers, every ion's
initial position plus its displacement is the position of its final site up to lattice
vectors. -/
theorem C17_run_unwrapped (k : Kernel RR T U) (m : RateModel M RR T) (g : Geometry K)
    (lookup : Option HopStateLookup) (summary : Trajectory K → T → List (String × Bool) → Row)
    (plan : PropertyPlan T V) (rng : Nat → U × U) (len equil prod : Nat) (s : Sim σ φ M RR T)
    (hok : (s.run k m g lookup summary plan rng len equil prod).outcome = .ok ()) :
    ∃ rs, (s.run k m g lookup summary plan rng len equil prod).tracker = some rs ∧
      ∀ i < rs.traj.locations.length, Unwrapped g rs.traj i := by
  obtain ⟨s1, traj, sm, rs, a1, a2, -, a4, a5⟩ := run_ok hok
  obtain ⟨hist, -, hh⟩ := passes_tracked a4
  rw [a5]
  exact ⟨rs, rfl, C17_unwrapped_trajectory a2 hh⟩

end

/-! ### Non-vacuity -/

/-- A rate model with rate 1 for every possible hop. -/
noncomputable def hopModel : RateModel Unit ℝ EReal :=
  { initializeState := fun _ _ => .ok ()
    applyEvent := fun _ _ _ => (.ok (), ())
    computeProbability := fun _ e st =>
      match eventDirection st.occ e with
      | .error x => .error x
      | .ok d => .ok (if d = 0 then 0 else 1) }

/-- Five sites, two hops. -/
def hopLib : EventLib Unit Unit :=
  ({} : EventLib Unit Unit).addAll [⟨[0, 1], [4], none⟩, ⟨[2, 3], [], none⟩]

/-- Coordinates of the five sites. -/
def hopGeometry : Geometry ℚ :=
  { fracCoords := [fun _ => 0, fun _ => 1 / 5, fun _ => 2 / 5, fun _ => 3 / 5, fun _ => 4 / 5]
    lattice := 1
    nMobileSymbolSites := 2 }

theorem hopModel_local : LocalModel hopModel := by
  constructor
  intro e s s' _ hsame
  simp only [hopModel]
  have : eventDirection s.occ e = eventDirection s'.occ e := by
    unfold eventDirection
    cases hu : unpack2 e.mobile with
    | error x => rfl
    | ok p =>
      obtain ⟨f, t⟩ := p
      rw [unpack2_ok_iff] at hu
      simp only
      rw [hsame f (by simp [hu]), hsame t (by simp [hu])]
  rw [this]

theorem hopSystem_example : HopSystem exampleOrder "Na" ⟨[0, 0, 0, 0, 0], [1, 1, 1, 1, 1]⟩
    Rounding.exact hopModel hopGeometry hopLib ⟨[0, 1, 0, 1, 1], 0, 0⟩ := by
  refine ⟨by decide, exampleOrder_wellLabelled _ rfl (by decide), ?_, ?_, rfl, hopModel_local, ?_, ?_⟩
  · intro e he i hi
    have : e = ⟨[0, 1], [4], none⟩ ∨ e = ⟨[2, 3], [], none⟩ := by
      simpa [hopLib, EventLib.addAll_events] using he
    rcases this with rfl | rfl
    · simp at hi; rcases hi with rfl | rfl | rfl <;> simp
    · simp at hi; rcases hi with rfl | rfl <;> simp
  · intro e he
    have : e = ⟨[0, 1], [4], none⟩ ∨ e = ⟨[2, 3], [], none⟩ := by
      simpa [hopLib, EventLib.addAll_events] using he
    rcases this with rfl | rfl
    · exact ⟨0, 1, rfl, by decide⟩
    · exact ⟨2, 3, rfl, by decide⟩
  · intro e st p hp
    refine ⟨?_, rfl⟩
    simp only [hopModel] at hp
    split at hp
    · cases hp
    · cases hp; split <;> norm_num
  · intro e st p hd hp
    simp only [hopModel, hd] at hp
    cases hp; simp

/-- Non-vacuity of C15-C17: the simulation can be constructed, its first proposal succeeds,
the tracker starts and follows it. -/
example : ∃ (s0 s1 : Sim Unit Unit Unit ℝ EReal) (t0 t1 : Trajectory ℚ) (e : Event),
    Sim.init (realKernel Rounding.exact) hopModel hopLib.generateEventDependencies
      (some ⟨[0, 0, 0, 0, 0], [1, 1, 1, 1, 1]⟩) (some ⟨[0, 1, 0, 1, 1], 0, 0⟩) = .ok s0 ∧
    Trajectory.init hopGeometry (some ⟨[0, 0, 0, 0, 0], [1, 1, 1, 1, 1]⟩) s0.st.occ = .ok t0 ∧
    TrackedSteps (realKernel Rounding.exact) hopModel hopGeometry (fun _ => (1 / 2, 1 / 2)) 0 s0 t0
      [(s0.st.occ, e)] s1 t1 := by
  let h : HopStateLookup := ⟨[0, 0, 0, 0, 0], [1, 1, 1, 1, 1]⟩
  have hs := hopSystem_example
  let lib : EventLib Unit Unit :=
    { hopLib with events := [⟨[0, 1], [4], some ⟨0, 1, 1, 0⟩⟩, ⟨[2, 3], [], some ⟨0, 1, 1, 0⟩⟩] }
  have hdeps : hopLib.generateEventDependencies = { hopLib with deps := some [[0], [1]] } := by
    simp [EventLib.generateEventDependencies, generateEventDependencyMatrix, hopLib, EventLib.addAll,
      EventLib.addEvent, Event.sites, npSort, List.mergeSort, List.MergeSort.Internal.splitInTwo,
      arraysIntersect, List.zipIdx]
  let s0 : Sim Unit Unit Unit ℝ EReal :=
    { lib := { lib with deps := some [[0], [1]] }, st := ⟨[0, 1, 0, 1, 1], 0, 0⟩, ms := (),
      prob := [1, 1], cum := cumsum Rounding.exact [1, 1] }
  have hp : ∀ d : Int, d ≠ 0 → (if d = 0 then (0 : ℝ) else 1) = 1 := fun d hd => if_neg hd
  have hi : Sim.init (realKernel Rounding.exact) hopModel hopLib.generateEventDependencies
      (some h) (some ⟨[0, 1, 0, 1, 1], 0, 0⟩) = .ok s0 := by
    rw [hdeps]
    have ha : h.annotateEvents hopLib.events =
      .ok [⟨[0, 1], [4], some ⟨0, 1, 1, 0⟩⟩, ⟨[2, 3], [], some ⟨0, 1, 1, 0⟩⟩] := by decide
    have d1 : eventDirection [0, 1, 0, 1, 1] ⟨[0, 1], [4], some ⟨0, 1, 1, 0⟩⟩ = .ok 1 := by decide
    have d2 : eventDirection [0, 1, 0, 1, 1] ⟨[2, 3], [], some ⟨0, 1, 1, 0⟩⟩ = .ok 1 := by decide
    simp only [Sim.init, ha, hopModel, initialProbs, d1, d2]
    simp [s0, realKernel, lib]
  obtain ⟨t0, ht0⟩ := C15_tracker_starts hs hi (fun _ => (1 / 2, 1 / 2)) (by norm_num) 0 s0 []
    (.nil _ _)
  obtain ⟨i, e, dt, p, hpr, hie, -, -⟩ := C01_propose_event Rounding.exact s0 rfl rfl
    (fun _ _ => rfl) (by simp [s0]) ⟨1, by simp [s0], by norm_num⟩ (1 / 2) (1 / 2) (by norm_num)
    (by norm_num)
  obtain ⟨-, t1, ht1, -⟩ := tracked_step hs hi (sim_init_inv hs hi) (traj_init_tracks ht0)
    (by norm_num) (by norm_num) hpr
  have hup : ∃ s1, s0.update (realKernel Rounding.exact) hopModel e dt = (.ok (), s1) := by
    have : e = ⟨[0, 1], [4], some ⟨0, 1, 1, 0⟩⟩ ∨ e = ⟨[2, 3], [], some ⟨0, 1, 1, 0⟩⟩ := by
      have := List.mem_of_getElem? hie
      simpa [s0, lib] using this
    rcases this with rfl | rfl <;> exact ⟨_, rfl⟩
  obtain ⟨s1, hs1⟩ := hup
  exact ⟨s0, s1, t0, t1, e, hi, ht0, .cons hpr ht1 hs1 (.nil _ _ _)⟩

/-- Non-vacuity of C06_time_never_decreases: the same model and initial state. -/
example : (∀ ms e st p, hopModel.computeProbability ms e st = .ok p → 0 ≤ p ∧ Rounding.exact.Rep p) ∧
    ∃ s0, Sim.init (realKernel Rounding.exact) hopModel hopLib none
      (some ⟨[0, 1, 0, 1, 1], 0, 0⟩) = .ok s0 := by
  refine ⟨fun _ e st p hp => hopSystem_example.rates e st p hp, ?_⟩
  have d1 : eventDirection [0, 1, 0, 1, 1] ⟨[0, 1], [4], none⟩ = .ok 1 := by decide
  have d2 : eventDirection [0, 1, 0, 1, 1] ⟨[2, 3], [], none⟩ = .ok 1 := by decide
  have he : hopLib.events = [⟨[0, 1], [4], none⟩, ⟨[2, 3], [], none⟩] := rfl
  simp only [Sim.init, he, hopModel, initialProbs, d1, d2]
  exact ⟨_, rfl⟩

/-! ### The assumption on equal allowed-species lists is needed -/

/-- C15, negative result.  When the two endpoints list their allowed species in different
order the property fails: after one hop the tracked position is site 1, although the mobile
ion (by species) is on site 0, and the next tracker update of the same, still allowed,
event raises the consistency error. -/
theorem C15_mixed_order_breaks_tracker :
    ∃ (o : ActiveSiteOrder String Unit) (h : HopStateLookup) (e : Event) (occ : List Int)
      (st : State Nat) (t0 : Trajectory ℚ),
      HopStateLookup.fromActiveSiteOrder o "Na" = .ok h ∧
      h.annotateEvent ⟨[0, 1], [], none⟩ = .ok e ∧ WellLabelled o "Na" occ ∧
      Trajectory.init toyGeometry (some h) occ = .ok t0 ∧ t0.locations = [0] ∧
      (t0.update toyGeometry occ e).1 = .ok () ∧
      (State.applyEvent ⟨occ, 0, 0⟩ e 1) = (.ok (), st) ∧
      (t0.update toyGeometry occ e).2.locations = [1] ∧
      speciesList o st.occ = [some "Na", some "X"] ∧
      eventDirection st.occ e = .ok 1 ∧
      ((t0.update toyGeometry occ e).2.update toyGeometry st.occ e).1 = .error .runtimeError := by
  let o : ActiveSiteOrder String Unit :=
    { primitiveSiteCount := 2, originalSiteCount := 2, primitiveActiveIndices := [0, 1],
      activeToOriginal := [0, 1], activeToPrimitive := [0, 1], fixedOriginalIndices := [],
      supercellShape := (1, 1, 1), speciesByPrimitiveSite := ["Na", "Na"],
      allowedSpeciesByPrimitiveSite := [["Na", "X"], ["X", "Na"]], fingerprint := () }
  refine ⟨o, ⟨[0, 1], [1, 0]⟩, ⟨[0, 1], [], some ⟨0, 0, 1, 1⟩⟩, [0, 0], ⟨[0, 0], 1, 1⟩,
    ⟨[0], [0], [0], [toyGeometry.cart fun _ => 0]⟩, by decide, by decide, ?_, ?_, rfl, rfl, by decide,
    rfl, by decide, by decide, rfl⟩
  · refine ⟨rfl, ?_, ?_, ?_, by simp [IsVacancyLabel]⟩
    · intro i hi
      have : i = 0 ∨ i = 1 := by simp at hi; omega
      rcases this with rfl | rfl
      · exact ⟨"Na", by decide⟩
      · exact ⟨"X", by decide⟩
    · intro a ha k l h1 h2
      simp only [o, List.mem_cons, List.not_mem_nil, or_false] at ha
      have hk : k < 2 := by
        rcases ha with rfl | rfl <;> exact (List.getElem?_eq_some_iff.1 h1).1
      have hl : l < 2 := by
        rcases ha with rfl | rfl <;> exact (List.getElem?_eq_some_iff.1 h2).1
      have hk' : k = 0 ∨ k = 1 := by omega
      have hl' : l = 0 ∨ l = 1 := by omega
      rcases ha with rfl | rfl <;> rcases hk' with rfl | rfl <;> rcases hl' with rfl | rfl <;> simp_all
    · intro a ha k l s t h1 h2 h3 h4
      simp only [o, List.mem_cons, List.not_mem_nil, or_false] at ha
      have hk : k < 2 := by
        rcases ha with rfl | rfl <;> exact (List.getElem?_eq_some_iff.1 h1).1
      have hl : l < 2 := by
        rcases ha with rfl | rfl <;> exact (List.getElem?_eq_some_iff.1 h2).1
      have hk' : k = 0 ∨ k = 1 := by omega
      have hl' : l = 0 ∨ l = 1 := by omega
      rcases ha with rfl | rfl <;> rcases hk' with rfl | rfl <;> rcases hl' with rfl | rfl <;>
        simp_all [IsVacancyLabel] <;> (subst_vars; simp_all)
  · rfl

end KMC
