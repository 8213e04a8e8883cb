import Verif.Spec.ExternalEnergy
import Verif.Lemmas.Table
/-
A rate model whose memory follows the state can be replaced by one without memory.
-/
set_option linter.unusedSectionVars false
namespace KMC
open Spec

section
variable {σ φ M R T U K V Row : Type}

/-- `I` relates memory and state; while it holds, `m` answers as `m0`, and executed events keep it. -/
structure Replaces [Add T] (m : RateModel M R T) (m0 : RateModel Unit R T) (P : Event → Prop)
    (I : M → State T → Prop) : Prop where
  rate : ∀ ms st e, I ms st → P e → m.computeProbability ms e st = m0.computeProbability () e st
  follow : ∀ ms st st' e dt, I ms st → P e → st.applyEvent e dt = (.ok (), st') →
    ∃ ms', m.applyEvent ms e st' = (.ok (), ms') ∧ I ms' st'
  quiet : ∀ e st, m0.applyEvent () e st = (.ok (), ())

theorem recompute_forget [Add T] {m : RateModel M R T} {m0 : RateModel Unit R T} {P : Event → Prop}
    {I : M → State T → Prop} (hS : Replaces m m0 P I) {events : List Event} (hev : ∀ e ∈ events, P e) {ms : M}
    {st : State T} (hI : I ms st) (is : List Int) (prob : List R) :
    recompute m events ms st is prob = recompute m0 events () st is prob := by
  induction is generalizing prob with
  | nil => rfl
  | cons i is ih =>
    unfold recompute
    cases hg : pyGet events i with
    | error x => rfl
    | ok e =>
      obtain ⟨k, -, hk⟩ := pyGet_ok_iff.1 hg
      simp only [hS.rate ms st e hI (hev e (List.mem_of_getElem? hk)), ih]

theorem initialProbs_forget [Add T] {m : RateModel M R T} {m0 : RateModel Unit R T} {P : Event → Prop}
    {I : M → State T → Prop} (hS : Replaces m m0 P I) {ms : M} {st : State T} (hI : I ms st)
    {events : List Event} (hev : ∀ e ∈ events, P e) :
    initialProbs m ms st events = initialProbs m0 () st events := by
  induction events with
  | nil => rfl
  | cons e es ih =>
    unfold initialProbs
    rw [hS.rate ms st e hI (hev e (by simp)), ih (fun x hx => hev x (by simp [hx]))]

theorem update_forget [Add T] {k : Kernel R T U} {m : RateModel M R T} {m0 : RateModel Unit R T}
    {P : Event → Prop} {I : M → State T → Prop} (hS : Replaces m m0 P I) {s : Sim σ φ M R T}
    (hev : ∀ e ∈ s.lib.events, P e) (hI : I s.ms s.st) {e : Event} (he : P e) (dt : T) :
    (forget s).update k m0 e dt = ((s.update k m e dt).1, forget (s.update k m e dt).2) ∧
    (s.update k m e dt).2.lib = s.lib ∧
    I (s.update k m e dt).2.ms (s.update k m e dt).2.st := by
  unfold Sim.update
  simp only [forget]
  rcases h1 : s.st.applyEvent e dt with ⟨r, st⟩
  cases r with
  | error x =>
    have hst : st = s.st := by
      rcases applyEvent_cases s.st e dt with ⟨y, hy⟩ | ⟨_, _, _, _, _, _, _, _, _, hy⟩
      · rw [hy] at h1; cases h1; rfl
      · rw [hy] at h1; cases h1
    subst hst
    exact ⟨rfl, rfl, hI⟩
  | ok u =>
    obtain ⟨ms', h2, h3⟩ := hS.follow s.ms s.st st e dt hI he h1
    simp only [h2, hS.quiet]
    cases h4 : indexOfEvent s.lib.events e with
    | error x => exact ⟨rfl, rfl, h3⟩
    | ok i =>
      simp only
      rw [recompute_forget hS hev h3]
      rcases recompute m0 s.lib.events () st (s.lib.getDependentEvents i) s.prob with ⟨r, prob⟩
      cases r with
      | error x => exact ⟨rfl, rfl, h3⟩
      | ok u => exact ⟨rfl, rfl, h3⟩

theorem propose_forget (k : Kernel R T U) (s : Sim σ φ M R T) (r1 r2 : U) :
    (forget s).propose k r1 r2 = s.propose k r1 r2 := rfl

theorem propose_from {k : Kernel R T U} {s : Sim σ φ M R T} {r1 r2 : U} {e : Event} {dt : T}
    (h : s.propose k r1 r2 = .ok (e, dt)) : e ∈ s.lib.events := by
  unfold Sim.propose at h
  split at h
  · cases h
  · split at h
    · cases h
    · rename_i x hx
      cases h
      exact List.mem_of_getElem? hx

theorem equilSteps_forget [Add T] [Zero T] {k : Kernel R T U} {m : RateModel M R T}
    {m0 : RateModel Unit R T} {P : Event → Prop} {I : M → State T → Prop} (hS : Replaces m m0 P I)
    (rng : Nat → U × U) (n c : Nat) (s : Sim σ φ M R T) (hev : ∀ e ∈ s.lib.events, P e) (hI : I s.ms s.st) :
    (forget s).equilSteps k m0 rng n c =
      ((s.equilSteps k m rng n c).1, forget (s.equilSteps k m rng n c).2) ∧
    (s.equilSteps k m rng n c).2.lib = s.lib ∧
    I (s.equilSteps k m rng n c).2.ms (s.equilSteps k m rng n c).2.st := by
  induction n generalizing c s with
  | zero => exact ⟨rfl, rfl, hI⟩
  | succ n ih =>
    unfold Sim.equilSteps Sim.equilStep
    rw [propose_forget]
    cases hp : s.propose k (rng c).1 (rng c).2 with
    | error x => exact ⟨rfl, rfl, hI⟩
    | ok p =>
      obtain ⟨e, dt⟩ := p
      obtain ⟨h1, h2, h3⟩ := update_forget (k := k) hS hev hI (hev e (propose_from hp)) (0 : T)
      simp only [h1]
      rcases hu : s.update k m e 0 with ⟨r, s'⟩
      rw [hu] at h2 h3
      cases r with
      | error x => exact ⟨rfl, h2, h3⟩
      | ok u =>
        simp only at h2 h3
        obtain ⟨i1, i2, i3⟩ := ih (c + 1) s' (by rw [h2]; exact hev) h3
        exact ⟨i1, i2.trans h2, i3⟩

variable [Field K] [LinearOrder K] [FloorRing K]

theorem prodStep_forget [Add T] [Sub T] [LE T] [DecidableLE T] {k : Kernel R T U} {m : RateModel M R T}
    {m0 : RateModel Unit R T} {P : Event → Prop} {I : M → State T → Prop} (hS : Replaces m m0 P I)
    (g : Geometry K) (summary : Trajectory K → T → List (String × Bool) → Row)
    (s : RunState σ φ M R T K V Row) (hev : ∀ e ∈ s.sim.lib.events, P e) (hI : I s.sim.ms s.sim.st) (r1 r2 : U) :
    (forgetRun s).prodStep k m0 g summary r1 r2 =
      ((s.prodStep k m g summary r1 r2).1, forgetRun (s.prodStep k m g summary r1 r2).2) ∧
    (s.prodStep k m g summary r1 r2).2.sim.lib = s.sim.lib ∧
    I (s.prodStep k m g summary r1 r2).2.sim.ms (s.prodStep k m g summary r1 r2).2.sim.st := by
  unfold RunState.prodStep
  simp only [forgetRun, propose_forget]
  cases hp : s.sim.propose k r1 r2 with
  | error x => exact ⟨rfl, rfl, hI⟩
  | ok p =>
    obtain ⟨e, dt⟩ := p
    simp only [show (forget s.sim).st = s.sim.st from rfl]
    rcases s.traj.update g s.sim.st.occ e with ⟨r, traj⟩
    cases r with
    | error x => exact ⟨rfl, rfl, hI⟩
    | ok u =>
      obtain ⟨h1, h2, h3⟩ := update_forget (k := k) hS hev hI (hev e (propose_from hp)) dt
      simp only [h1]
      rcases hu : s.sim.update k m e dt with ⟨r, s'⟩
      rw [hu] at h2 h3
      cases r with
      | error x => exact ⟨rfl, h2, h3⟩
      | ok u => exact ⟨rfl, h2, h3⟩

theorem prodSteps_forget [Add T] [Sub T] [LE T] [DecidableLE T] {k : Kernel R T U} {m : RateModel M R T}
    {m0 : RateModel Unit R T} {P : Event → Prop} {I : M → State T → Prop} (hS : Replaces m m0 P I)
    (g : Geometry K) (summary : Trajectory K → T → List (String × Bool) → Row) (rng : Nat → U × U) (n c : Nat)
    (s : RunState σ φ M R T K V Row) (hev : ∀ e ∈ s.sim.lib.events, P e) (hI : I s.sim.ms s.sim.st) :
    (forgetRun s).prodSteps k m0 g summary rng n c =
      ((s.prodSteps k m g summary rng n c).1, forgetRun (s.prodSteps k m g summary rng n c).2) ∧
    (s.prodSteps k m g summary rng n c).2.sim.lib = s.sim.lib ∧
    I (s.prodSteps k m g summary rng n c).2.sim.ms (s.prodSteps k m g summary rng n c).2.sim.st := by
  induction n generalizing c s with
  | zero => exact ⟨rfl, rfl, hI⟩
  | succ n ih =>
    unfold RunState.prodSteps
    obtain ⟨h1, h2, h3⟩ := prodStep_forget (k := k) hS g summary s hev hI (rng c).1 (rng c).2
    rw [h1]
    rcases hu : s.prodStep k m g summary (rng c).1 (rng c).2 with ⟨r, s'⟩
    rw [hu] at h2 h3
    cases r with
    | error x => exact ⟨rfl, h2, h3⟩
    | ok u =>
      simp only at h2 h3 ⊢
      obtain ⟨i1, i2, i3⟩ := ih (c + 1) s' (by rw [h2]; exact hev) h3
      exact ⟨i1, i2.trans h2, i3⟩

theorem passes_forget [Add T] [Sub T] [LE T] [DecidableLE T] {k : Kernel R T U} {m : RateModel M R T}
    {m0 : RateModel Unit R T} {P : Event → Prop} {I : M → State T → Prop} (hS : Replaces m m0 P I)
    (g : Geometry K) (summary : Trajectory K → T → List (String × Bool) → Row) (rng : Nat → U × U)
    (len n pass c : Nat) (s : RunState σ φ M R T K V Row) (hev : ∀ e ∈ s.sim.lib.events, P e)
    (hI : I s.sim.ms s.sim.st) :
    (forgetRun s).passes k m0 g summary rng len n pass c =
      ((s.passes k m g summary rng len n pass c).1, forgetRun (s.passes k m g summary rng len n pass c).2) := by
  induction n generalizing pass c s with
  | zero => rfl
  | succ n ih =>
    unfold RunState.passes
    obtain ⟨h1, h2, h3⟩ := prodSteps_forget (k := k) hS g summary rng len c s hev hI
    rw [h1]
    rcases hu : s.prodSteps k m g summary rng len c with ⟨r, s'⟩
    rw [hu] at h2 h3
    cases r with
    | error x => rfl
    | ok u =>
      simp only at h2 h3 ⊢
      exact ih (pass + 1) (c + len) { s' with currentPass := pass } (by simp only [h2]; exact hev) h3

/-- The whole run. -/
theorem run_forget [Add T] [Zero T] [Sub T] [LE T] [DecidableLE T] {k : Kernel R T U} {m : RateModel M R T}
    {m0 : RateModel Unit R T} {P : Event → Prop} {I : M → State T → Prop} (hS : Replaces m m0 P I)
    (g : Geometry K) (lookup : Option HopStateLookup)
    (summary : Trajectory K → T → List (String × Bool) → Row) (plan : PropertyPlan T V)
    (rng : Nat → U × U) (len equil prod : Nat) (s : Sim σ φ M R T) (hev : ∀ e ∈ s.lib.events, P e)
    (hI : I s.ms s.st) :
    (forget s).run k m0 g lookup summary plan rng len equil prod =
      forgetResult (s.run k m g lookup summary plan rng len equil prod) := by
  unfold Sim.run
  obtain ⟨h1, h2, h3⟩ := equilSteps_forget (k := k) hS rng (equil * len) 0 s hev hI
  rw [h1]
  rcases hu : s.equilSteps k m rng (equil * len) 0 with ⟨r, s'⟩
  rw [hu] at h2 h3
  cases r with
  | error x => rfl
  | ok u =>
    simp only at h2 h3 ⊢
    simp only [show (forget s').st = s'.st from rfl]
    cases Trajectory.init g lookup s'.st.occ with
    | error x => rfl
    | ok traj =>
      simp only
      rcases ({} : Sampler T V Row).applyPropertyPlan plan (some (max len 1 : Nat)) with ⟨r, sampler⟩
      cases r with
      | error x => rfl
      | ok u =>
        simp only
        have := passes_forget (k := k) hS g summary rng len prod 0 (equil * len)
          ({ sim := s', traj := traj, sampler := sampler } : RunState σ φ M R T K V Row)
          (by simp only [h2]; exact hev) h3
        simp only [forgetRun] at this
        rw [this]
        rfl

/-- The construction. -/
theorem init_forget [Add T] {k : Kernel R T U} {m : RateModel M R T} {m0 : RateModel Unit R T}
    {P : Event → Prop} {I : M → State T → Prop} (hS : Replaces m m0 P I) {lib : EventLib σ φ}
    {lookup : Option HopStateLookup} {st : State T} {s : Sim σ φ M R T}
    (h : Sim.init k m lib lookup (some st) = .ok s) (hev : ∀ e ∈ s.lib.events, P e) (hI : I s.ms s.st)
    (h0 : ∀ st es, m0.initializeState st es = .ok ()) :
    Sim.init k m0 lib lookup (some st) = .ok (forget s) := by
  unfold Sim.init at h ⊢
  cases lookup with
  | none =>
    simp only [h0] at h ⊢
    cases hi : m.initializeState st lib.events with
    | error x => rw [hi] at h; cases h
    | ok ms =>
      rw [hi] at h
      simp only at h
      cases hp : initialProbs m ms st lib.events with
      | error x => rw [hp] at h; cases h
      | ok p =>
        rw [hp] at h
        cases h
        rw [← initialProbs_forget hS hI hev, hp]
        rfl
  | some l =>
    simp only [h0] at h ⊢
    cases ha : l.annotateEvents lib.events with
    | error x => rw [ha] at h; cases h
    | ok es =>
      rw [ha] at h
      simp only at h ⊢
      cases hi : m.initializeState st es with
      | error x => rw [hi] at h; cases h
      | ok ms =>
        rw [hi] at h
        simp only at h
        cases hp : initialProbs m ms st es with
        | error x => rw [hp] at h; cases h
        | ok p =>
          rw [hp] at h
          cases h
          rw [← initialProbs_forget hS hI hev, hp]
          rfl

end

/-- Step by step, with the random numbers of `simulated`. -/
theorem simulated_forget {σ φ M : Type} {m : RateModel M ℝ EReal} {m0 : RateModel Unit ℝ EReal}
    {P : Event → Prop} {I : M → State EReal → Prop} (hS : Replaces m m0 P I)
    (s : Sim σ φ M ℝ EReal) (hev : ∀ e ∈ s.lib.events, P e) (hI : I s.ms s.st)
    (equil : Nat) (draws : Nat → ℝ × ℝ)
    (n : Nat) :
    simulated m0 (forget s) equil draws n = forget (simulatedWith m s equil draws n) ∧
    (simulatedWith m s equil draws n).lib = s.lib ∧
    I (simulatedWith m s equil draws n).ms (simulatedWith m s equil draws n).st := by
  induction n with
  | zero => exact ⟨rfl, rfl, hI⟩
  | succ n ih =>
    obtain ⟨h1, h2, h3⟩ := ih
    simp only [simulated, simulatedWith, h1, quietStep, oneStep, propose_forget]
    cases hp : (simulatedWith m s equil draws n).propose (realKernel Rounding.exact) (draws n).1 (draws n).2 with
    | error x => simp only [ite_self]; exact ⟨trivial, h2, h3⟩
    | ok p =>
      obtain ⟨e, dt⟩ := p
      have hu := fun dt' => update_forget (k := realKernel Rounding.exact) hS (by rw [h2]; exact hev) h3
        (hev e (by rw [← h2]; exact propose_from hp)) dt'
      simp only
      split_ifs
      · obtain ⟨u1, u2, u3⟩ := hu 0
        rw [u1]
        exact ⟨rfl, u2.trans h2, u3⟩
      · obtain ⟨u1, u2, u3⟩ := hu dt
        rw [u1]
        exact ⟨rfl, u2.trans h2, u3⟩

end KMC
