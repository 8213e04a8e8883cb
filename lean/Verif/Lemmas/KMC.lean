import Verif.Spec.Trace
import Verif.Lemmas.State
import Verif.Lemmas.Event
/-
Facts about `KMC.update` and `KMC.run`.
-/
set_option linter.unusedSectionVars false

namespace KMC
open Spec

section
variable {σ φ M R T U : Type}

theorem update_st [Add T] (k : Kernel R T U) (m : RateModel M R T) (s : Sim σ φ M R T) (e : Event)
    (dt : T) : (s.update k m e dt).2.st = (s.st.applyEvent e dt).2 := by
  unfold Sim.update
  rcases h1 : s.st.applyEvent e dt with ⟨r, st⟩
  cases r with
  | error x => rfl
  | ok u =>
    simp only
    rcases h2 : m.applyEvent s.ms e st with ⟨r2, ms⟩
    cases r2 with
    | error x => rfl
    | ok u2 =>
      simp only
      cases h3 : indexOfEvent s.lib.events e with
      | error x => rfl
      | ok i =>
        simp only
        rcases h4 : recompute m s.lib.events ms st (s.lib.getDependentEvents i) s.prob with ⟨r4, p⟩
        cases r4 <;> rfl

theorem update_lib [Add T] (k : Kernel R T U) (m : RateModel M R T) (s : Sim σ φ M R T) (e : Event)
    (dt : T) : (s.update k m e dt).2.lib = s.lib := by
  unfold Sim.update
  rcases h1 : s.st.applyEvent e dt with ⟨r, st⟩
  cases r with
  | error x => rfl
  | ok u =>
    simp only
    rcases h2 : m.applyEvent s.ms e st with ⟨r2, ms⟩
    cases r2 with
    | error x => rfl
    | ok u2 =>
      simp only
      cases h3 : indexOfEvent s.lib.events e with
      | error x => rfl
      | ok i =>
        simp only
        rcases h4 : recompute m s.lib.events ms st (s.lib.getDependentEvents i) s.prob with ⟨r4, p⟩
        cases r4 <;> rfl

/-- What a successful update did. -/
theorem update_ok [Add T] {k : Kernel R T U} {m : RateModel M R T} {s s' : Sim σ φ M R T}
    {e : Event} {dt : T} (h : s.update k m e dt = (.ok (), s')) :
    ∃ st ms i prob, s.st.applyEvent e dt = (.ok (), st) ∧ m.applyEvent s.ms e st = (.ok (), ms) ∧
      indexOfEvent s.lib.events e = .ok i ∧
      recompute m s.lib.events ms st (s.lib.getDependentEvents i) s.prob = (.ok (), prob) ∧
      s' = { lib := s.lib, st := st, ms := ms, prob := prob, cum := k.cumsum prob } := by
  unfold Sim.update at h
  rcases h1 : s.st.applyEvent e dt with ⟨r, st⟩
  rw [h1] at h
  cases r with
  | error x => cases h
  | ok u =>
    simp only at h
    rcases h2 : m.applyEvent s.ms e st with ⟨r2, ms⟩
    rw [h2] at h
    cases r2 with
    | error x => cases h
    | ok u2 =>
      simp only at h
      cases h3 : indexOfEvent s.lib.events e with
      | error x => rw [h3] at h; cases h
      | ok i =>
        rw [h3] at h
        simp only at h
        rcases h4 : recompute m s.lib.events ms st (s.lib.getDependentEvents i) s.prob with ⟨r4, p⟩
        rw [h4] at h
        cases r4 with
        | error x => cases h
        | ok u4 =>
          cases h
          exact ⟨st, ms, i, p, rfl, h2, rfl, h4, rfl⟩

theorem update_perm [Add T] (k : Kernel R T U) (m : RateModel M R T) (s : Sim σ φ M R T) (e : Event)
    (dt : T) : (s.update k m e dt).2.st.occ.Perm s.st.occ := by
  rw [update_st]; exact applyEvent_perm _ _ _

theorem equilStep_perm [Add T] [Zero T] (k : Kernel R T U) (m : RateModel M R T)
    (s : Sim σ φ M R T) (r1 r2 : U) : (s.equilStep k m r1 r2).2.st.occ.Perm s.st.occ := by
  unfold Sim.equilStep
  split
  · exact List.Perm.refl _
  · exact update_perm _ _ _ _ _

theorem equilSteps_perm [Add T] [Zero T] (k : Kernel R T U) (m : RateModel M R T)
    (rng : Nat → U × U) (n c : Nat) (s : Sim σ φ M R T) :
    (s.equilSteps k m rng n c).2.st.occ.Perm s.st.occ := by
  induction n generalizing c s with
  | zero => exact List.Perm.refl _
  | succ n ih =>
    unfold Sim.equilSteps
    have hp := equilStep_perm k m s (rng c).1 (rng c).2
    rcases h : s.equilStep k m (rng c).1 (rng c).2 with ⟨r, s'⟩
    rw [h] at hp
    cases r with
    | error x => exact hp
    | ok u => exact (ih (c + 1) s').trans hp

variable {K V Row : Type} [Field K] [LinearOrder K] [FloorRing K]
variable [Add T] [Sub T] [LE T] [DecidableLE T]

/-- The simulation left by a production step: unchanged, or the result of one update. -/
theorem prodStep_sim (k : Kernel R T U) (m : RateModel M R T) (g : Geometry K)
    (summary : Trajectory K → T → List (String × Bool) → Row)
    (s : RunState σ φ M R T K V Row) (r1 r2 : U) :
    (s.prodStep k m g summary r1 r2).2.sim = s.sim ∨
    ∃ e dt, s.sim.propose k r1 r2 = .ok (e, dt) ∧
      (s.prodStep k m g summary r1 r2).2.sim = (s.sim.update k m e dt).2 := by
  unfold RunState.prodStep
  cases hp : s.sim.propose k r1 r2 with
  | error x => exact .inl rfl
  | ok p =>
    obtain ⟨e, dt⟩ := p
    simp only
    rcases ht : s.traj.update g s.sim.st.occ e with ⟨rt, traj⟩
    cases rt with
    | error x => exact .inl rfl
    | ok u =>
      right
      refine ⟨e, dt, rfl, ?_⟩
      simp only
      rcases hs : s.sim.update k m e dt with ⟨rs, sim⟩
      cases rs <;> rfl

/-- What a successful production step did. -/
theorem prodStep_ok {k : Kernel R T U} {m : RateModel M R T} {g : Geometry K}
    {summary : Trajectory K → T → List (String × Bool) → Row}
    {s s' : RunState σ φ M R T K V Row} {r1 r2 : U}
    (h : s.prodStep k m g summary r1 r2 = (.ok (), s')) :
    ∃ e dt, s.sim.propose k r1 r2 = .ok (e, dt) ∧
      s.traj.update g s.sim.st.occ e = (.ok (), s'.traj) ∧
      s.sim.update k m e dt = (.ok (), s'.sim) ∧
      s.sampler.sampleProperties (summary s'.traj s'.sim.st.time) s'.sim.st s'.sim.st.step
        s'.sim.st.time = (.ok (), s'.sampler) ∧ s'.currentPass = s.currentPass := by
  unfold RunState.prodStep at h
  cases hp : s.sim.propose k r1 r2 with
  | error x => rw [hp] at h; cases h
  | ok p =>
    obtain ⟨e, dt⟩ := p
    rw [hp] at h
    simp only at h
    rcases ht : s.traj.update g s.sim.st.occ e with ⟨rt, traj⟩
    rw [ht] at h
    cases rt with
    | error x => cases h
    | ok u =>
      simp only at h
      rcases hs : s.sim.update k m e dt with ⟨rs, sim⟩
      rw [hs] at h
      cases rs with
      | error x => cases h
      | ok u =>
        simp only at h
        rcases hq : s.sampler.sampleProperties (summary traj sim.st.time) sim.st sim.st.step
          sim.st.time with ⟨rq, sampler⟩
        rw [hq] at h
        simp only [Prod.mk.injEq] at h
        obtain ⟨h1, h2⟩ := h
        subst h1; subst h2
        exact ⟨e, dt, rfl, ht, hs, hq, rfl⟩

theorem prodStep_perm (k : Kernel R T U) (m : RateModel M R T) (g : Geometry K)
    (summary : Trajectory K → T → List (String × Bool) → Row)
    (s : RunState σ φ M R T K V Row) (r1 r2 : U) :
    (s.prodStep k m g summary r1 r2).2.sim.st.occ.Perm s.sim.st.occ := by
  rcases prodStep_sim k m g summary s r1 r2 with h | ⟨e, dt, -, h⟩
  · rw [h]
  · rw [h]; exact update_perm _ _ _ _ _

theorem prodSteps_perm (k : Kernel R T U) (m : RateModel M R T) (g : Geometry K)
    (summary : Trajectory K → T → List (String × Bool) → Row) (rng : Nat → U × U)
    (n c : Nat) (s : RunState σ φ M R T K V Row) :
    (s.prodSteps k m g summary rng n c).2.sim.st.occ.Perm s.sim.st.occ := by
  induction n generalizing c s with
  | zero => exact List.Perm.refl _
  | succ n ih =>
    unfold RunState.prodSteps
    have hp := prodStep_perm k m g summary s (rng c).1 (rng c).2
    rcases h : s.prodStep k m g summary (rng c).1 (rng c).2 with ⟨r, s'⟩
    rw [h] at hp
    cases r with
    | error x => exact hp
    | ok u => exact (ih (c + 1) s').trans hp

theorem passes_perm (k : Kernel R T U) (m : RateModel M R T) (g : Geometry K)
    (summary : Trajectory K → T → List (String × Bool) → Row) (rng : Nat → U × U)
    (len n p c : Nat) (s : RunState σ φ M R T K V Row) :
    (s.passes k m g summary rng len n p c).2.sim.st.occ.Perm s.sim.st.occ := by
  induction n generalizing p c s with
  | zero => exact List.Perm.refl _
  | succ n ih =>
    unfold RunState.passes
    have hp := prodSteps_perm k m g summary rng len c s
    rcases h : s.prodSteps k m g summary rng len c with ⟨r, s'⟩
    rw [h] at hp
    cases r with
    | error x => exact hp
    | ok u => exact (ih (p + 1) (c + len) _).trans hp

theorem prodSteps_add (k : Kernel R T U) (m : RateModel M R T) (g : Geometry K)
    (summary : Trajectory K → T → List (String × Bool) → Row) (rng : Nat → U × U)
    (a b c : Nat) (s : RunState σ φ M R T K V Row) :
    s.prodSteps k m g summary rng (a + b) c =
      match s.prodSteps k m g summary rng a c with
      | (.error x, s') => (.error x, s')
      | (.ok _, s') => s'.prodSteps k m g summary rng b (c + a) := by
  induction a generalizing c s with
  | zero => simp [RunState.prodSteps]
  | succ a ih =>
    rw [show a + 1 + b = (a + b) + 1 by omega]
    simp only [RunState.prodSteps]
    rcases h : s.prodStep k m g summary (rng c).1 (rng c).2 with ⟨r, s'⟩
    cases r with
    | error x => rfl
    | ok u =>
      simp only
      rw [ih (c + 1) s', show c + 1 + a = c + (a + 1) by omega]

theorem prodSteps_steps [Zero T] {k : Kernel R T U} {m : RateModel M R T} {g : Geometry K}
    {summary : Trajectory K → T → List (String × Bool) → Row} {rng : Nat → U × U}
    {n c : Nat} {s s' : RunState σ φ M R T K V Row}
    (h : s.prodSteps k m g summary rng n c = (.ok (), s')) :
    ∃ hist, hist.length = n ∧ Steps k m rng true c s.sim hist s'.sim := by
  induction n generalizing c s with
  | zero =>
    simp only [RunState.prodSteps, Prod.mk.injEq, true_and] at h
    subst h; exact ⟨[], rfl, .nil _ _⟩
  | succ n ih =>
    unfold RunState.prodSteps at h
    rcases h1 : s.prodStep k m g summary (rng c).1 (rng c).2 with ⟨r, s1⟩
    rw [h1] at h
    cases r with
    | error x => cases h
    | ok u =>
      obtain ⟨e, dt, hp, -, hu, -, -⟩ := prodStep_ok h1
      obtain ⟨hist, hl, hs⟩ := ih h
      exact ⟨(e, dt) :: hist, by simp [hl], .cons hp (by simpa using hu) hs⟩

theorem Steps.append [Zero T] {k : Kernel R T U} {m : RateModel M R T} {rng : Nat → U × U}
    {a : Bool} {c : Nat} {s1 s2 s3 : Sim σ φ M R T} {h1 h2 : List (Event × T)}
    (p : Steps k m rng a c s1 h1 s2) (q : Steps k m rng a (c + h1.length) s2 h2 s3) :
    Steps k m rng a c s1 (h1 ++ h2) s3 := by
  induction p with
  | nil => simpa using q
  | cons hp hu _ ih =>
    refine .cons hp hu (ih ?_)
    simpa [Nat.add_assoc, Nat.add_comm 1] using q

theorem passes_steps [Zero T] {k : Kernel R T U} {m : RateModel M R T} {g : Geometry K}
    {summary : Trajectory K → T → List (String × Bool) → Row} {rng : Nat → U × U}
    {len n p c : Nat} {s s' : RunState σ φ M R T K V Row}
    (h : s.passes k m g summary rng len n p c = (.ok (), s')) :
    ∃ hist, hist.length = n * len ∧ Steps k m rng true c s.sim hist s'.sim := by
  induction n generalizing p c s with
  | zero =>
    simp only [RunState.passes, Prod.mk.injEq, true_and] at h
    subst h; exact ⟨[], by simp, .nil _ _⟩
  | succ n ih =>
    unfold RunState.passes at h
    rcases h1 : s.prodSteps k m g summary rng len c with ⟨r, s1⟩
    rw [h1] at h
    cases r with
    | error x => cases h
    | ok u =>
      obtain ⟨hist1, hl1, hs1⟩ := prodSteps_steps h1
      obtain ⟨hist2, hl2, hs2⟩ := ih h
      refine ⟨hist1 ++ hist2, by simp [hl1, hl2]; ring, Steps.append hs1 ?_⟩
      rw [hl1]; exact hs2

theorem equilSteps_steps [Zero T] {k : Kernel R T U} {m : RateModel M R T} {rng : Nat → U × U}
    {n c : Nat} {s s' : Sim σ φ M R T} (h : s.equilSteps k m rng n c = (.ok (), s')) :
    ∃ hist, hist.length = n ∧ Steps k m rng false c s hist s' := by
  induction n generalizing c s with
  | zero =>
    simp only [Sim.equilSteps, Prod.mk.injEq, true_and] at h
    subst h; exact ⟨[], rfl, .nil _ _⟩
  | succ n ih =>
    unfold Sim.equilSteps at h
    rcases h1 : s.equilStep k m (rng c).1 (rng c).2 with ⟨r, s1⟩
    rw [h1] at h
    cases r with
    | error x => cases h
    | ok u =>
      obtain ⟨hist, hl, hs⟩ := ih h
      unfold Sim.equilStep at h1
      cases hp : s.propose k (rng c).1 (rng c).2 with
      | error x => rw [hp] at h1; cases h1
      | ok p =>
        obtain ⟨e, dt⟩ := p
        rw [hp] at h1
        exact ⟨(e, dt) :: hist, by simp [hl], .cons hp (by simpa using h1) hs⟩

/-- What a successful run consists of. -/
theorem run_ok [Zero T] {k : Kernel R T U} {m : RateModel M R T} {g : Geometry K}
    {lookup : Option HopStateLookup}
    {summary : Trajectory K → T → List (String × Bool) → Row} {plan : PropertyPlan T V}
    {rng : Nat → U × U} {len equil prod : Nat} {s : Sim σ φ M R T}
    (h : (s.run k m g lookup summary plan rng len equil prod).outcome = .ok ()) :
    ∃ s1 traj sampler rs,
      s.equilSteps k m rng (equil * len) 0 = (.ok (), s1) ∧
      Trajectory.init g lookup s1.st.occ = .ok traj ∧
      ({} : Sampler T V Row).applyPropertyPlan plan (some (max len 1 : Nat)) = (.ok (), sampler) ∧
      ({ sim := s1, traj := traj, sampler := sampler } : RunState σ φ M R T K V Row).passes k m g
        summary rng len prod 0 (equil * len) = (.ok (), rs) ∧
      s.run k m g lookup summary plan rng len equil prod = ⟨.ok (), rs.sim, some rs⟩ := by
  unfold Sim.run at h ⊢
  rcases h1 : s.equilSteps k m rng (equil * len) 0 with ⟨r, s1⟩
  rw [h1] at h
  cases r with
  | error x => cases h
  | ok u =>
    simp only at h ⊢
    cases h2 : Trajectory.init g lookup s1.st.occ with
    | error x => rw [h2] at h; cases h
    | ok traj =>
      rw [h2] at h
      simp only at h ⊢
      rcases h3 : ({} : Sampler T V Row).applyPropertyPlan plan (some (max len 1 : Nat)) with ⟨r3, sm⟩
      rw [h3] at h
      cases r3 with
      | error x => cases h
      | ok u3 =>
        simp only at h ⊢
        rcases h4 : ({ sim := s1, traj := traj, sampler := sm } : RunState σ φ M R T K V Row).passes
          k m g summary rng len prod 0 (equil * len) with ⟨r4, rs⟩
        rw [h4] at h
        simp only at h
        subst h
        exact ⟨s1, traj, sm, rs, rfl, h2, rfl, h4, rfl⟩

end
end KMC
