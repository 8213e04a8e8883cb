import Verif.Spec.Network
import Verif.Lemmas.KMC
import Verif.Lemmas.Tracker
import Mathlib.Analysis.InnerProductSpace.PiL2
/-
Lemmas for C117: invariants of a whole run that only depend on the events of the library.
-/
set_option linter.unusedSectionVars false

namespace KMC
open Spec

variable {σ φ M R T U K V Row : Type} [Field K] [LinearOrder K] [FloorRing K]
variable [Add T] [Zero T] [Sub T] [LE T] [DecidableLE T]

theorem propose_event_mem {k : Kernel R T U} {s : Sim σ φ M R T} {r1 r2 : U} {e : Event} {dt : T}
    (h : s.propose k r1 r2 = .ok (e, dt)) : e ∈ s.lib.events := by
  unfold Sim.propose at h
  split at h
  · cases h
  · split at h
    · cases h
    · rename_i hi
      cases h
      exact List.mem_of_getElem? hi

/-- A property of the state kept by every event of the library survives equilibration. -/
theorem equilSteps_inv (k : Kernel R T U) (m : RateModel M R T) (rng : Nat → U × U)
    (events : List Event) (I : State T → Prop)
    (hI : ∀ st e dt, e ∈ events → I st → I (st.applyEvent e dt).2)
    (n c : Nat) (s : Sim σ φ M R T) (hl : s.lib.events = events) (hs : I s.st) :
    (s.equilSteps k m rng n c).2.lib = s.lib ∧ I (s.equilSteps k m rng n c).2.st := by
  induction n generalizing c s with
  | zero => exact ⟨rfl, hs⟩
  | succ n ih =>
    have hstep : (s.equilStep k m (rng c).1 (rng c).2).2.lib = s.lib ∧
        I (s.equilStep k m (rng c).1 (rng c).2).2.st := by
      unfold Sim.equilStep
      split
      · exact ⟨rfl, hs⟩
      · rename_i e dt hp
        refine ⟨update_lib _ _ _ _ _, ?_⟩
        rw [update_st]
        exact hI _ _ _ (hl ▸ propose_event_mem hp) hs
    unfold Sim.equilSteps
    rcases h : s.equilStep k m (rng c).1 (rng c).2 with ⟨r, s'⟩
    rw [h] at hstep
    cases r with
    | error x => exact hstep
    | ok u =>
      obtain ⟨h1, h2⟩ := ih (c + 1) s' (hstep.1 ▸ hl) hstep.2
      exact ⟨h1.trans hstep.1, h2⟩

/-- A property of state and trajectory kept by every event of the library survives a
production step, also one that raises. -/
theorem prodStep_inv (k : Kernel R T U) (m : RateModel M R T) (g : Geometry K)
    (summary : Trajectory K → T → List (String × Bool) → Row)
    (events : List Event) (I : State T → Prop) (J : Trajectory K → Prop)
    (hI : ∀ st e dt, e ∈ events → I st → I (st.applyEvent e dt).2)
    (hJ : ∀ t occ e, e ∈ events → J t → J (t.update g occ e).2)
    (s : RunState σ φ M R T K V Row) (r1 r2 : U) (hl : s.sim.lib.events = events)
    (hs : I s.sim.st) (ht : J s.traj) :
    (s.prodStep k m g summary r1 r2).2.sim.lib = s.sim.lib ∧
    I (s.prodStep k m g summary r1 r2).2.sim.st ∧ J (s.prodStep k m g summary r1 r2).2.traj := by
  unfold RunState.prodStep
  cases hp : s.sim.propose k r1 r2 with
  | error x => exact ⟨rfl, hs, ht⟩
  | ok q =>
    obtain ⟨e, dt⟩ := q
    have hm : e ∈ events := hl ▸ propose_event_mem hp
    have hJ' := hJ s.traj s.sim.st.occ e hm ht
    simp only
    rcases hu : s.traj.update g s.sim.st.occ e with ⟨rt, traj⟩
    rw [hu] at hJ'
    cases rt with
    | error x => exact ⟨rfl, hs, hJ'⟩
    | ok u =>
      simp only
      have h1 := update_lib k m s.sim e dt
      have h2 : I (s.sim.update k m e dt).2.st := by rw [update_st]; exact hI _ _ _ hm hs
      rcases hq : s.sim.update k m e dt with ⟨rs, sim⟩
      rw [hq] at h1 h2
      cases rs with
      | error x => exact ⟨h1, h2, hJ'⟩
      | ok u2 => exact ⟨h1, h2, hJ'⟩

theorem prodSteps_inv (k : Kernel R T U) (m : RateModel M R T) (g : Geometry K)
    (summary : Trajectory K → T → List (String × Bool) → Row) (rng : Nat → U × U)
    (events : List Event) (I : State T → Prop) (J : Trajectory K → Prop)
    (hI : ∀ st e dt, e ∈ events → I st → I (st.applyEvent e dt).2)
    (hJ : ∀ t occ e, e ∈ events → J t → J (t.update g occ e).2)
    (n c : Nat) (s : RunState σ φ M R T K V Row) (hl : s.sim.lib.events = events)
    (hs : I s.sim.st) (ht : J s.traj) :
    (s.prodSteps k m g summary rng n c).2.sim.lib = s.sim.lib ∧
    I (s.prodSteps k m g summary rng n c).2.sim.st ∧
    J (s.prodSteps k m g summary rng n c).2.traj := by
  induction n generalizing c s with
  | zero => exact ⟨rfl, hs, ht⟩
  | succ n ih =>
    unfold RunState.prodSteps
    have hp := prodStep_inv k m g summary events I J hI hJ s (rng c).1 (rng c).2 hl hs ht
    rcases h : s.prodStep k m g summary (rng c).1 (rng c).2 with ⟨r, s'⟩
    rw [h] at hp
    cases r with
    | error x => exact hp
    | ok u =>
      obtain ⟨h1, h2, h3⟩ := ih (c + 1) s' (hp.1 ▸ hl) hp.2.1 hp.2.2
      exact ⟨h1.trans hp.1, h2, h3⟩

theorem passes_inv (k : Kernel R T U) (m : RateModel M R T) (g : Geometry K)
    (summary : Trajectory K → T → List (String × Bool) → Row) (rng : Nat → U × U)
    (events : List Event) (I : State T → Prop) (J : Trajectory K → Prop)
    (hI : ∀ st e dt, e ∈ events → I st → I (st.applyEvent e dt).2)
    (hJ : ∀ t occ e, e ∈ events → J t → J (t.update g occ e).2)
    (len n p c : Nat) (s : RunState σ φ M R T K V Row) (hl : s.sim.lib.events = events)
    (hs : I s.sim.st) (ht : J s.traj) :
    (s.passes k m g summary rng len n p c).2.sim.lib = s.sim.lib ∧
    I (s.passes k m g summary rng len n p c).2.sim.st ∧
    J (s.passes k m g summary rng len n p c).2.traj := by
  induction n generalizing p c s with
  | zero => exact ⟨rfl, hs, ht⟩
  | succ n ih =>
    unfold RunState.passes
    have hp := prodSteps_inv k m g summary rng events I J hI hJ len c s hl hs ht
    rcases h : s.prodSteps k m g summary rng len c with ⟨r, s'⟩
    rw [h] at hp
    cases r with
    | error x => exact hp
    | ok u =>
      obtain ⟨h1, h2, h3⟩ := ih (p + 1) (c + len) { s' with currentPass := p } (hp.1 ▸ hl) hp.2.1 hp.2.2
      exact ⟨h1.trans hp.1, h2, h3⟩

/-- A property of the state kept by every event of the library holds after a run. -/
theorem run_inv (k : Kernel R T U) (m : RateModel M R T) (g : Geometry K)
    (lookup : Option HopStateLookup) (summary : Trajectory K → T → List (String × Bool) → Row)
    (plan : PropertyPlan T V) (rng : Nat → U × U) (len equil prod : Nat) (s : Sim σ φ M R T)
    (I : State T → Prop)
    (hI : ∀ st e dt, e ∈ s.lib.events → I st → I (st.applyEvent e dt).2) (hs : I s.st) :
    I (s.run k m g lookup summary plan rng len equil prod).sim.st := by
  unfold Sim.run
  have hp := equilSteps_inv k m rng s.lib.events I hI (equil * len) 0 s rfl hs
  rcases h1 : s.equilSteps k m rng (equil * len) 0 with ⟨r, s1⟩
  rw [h1] at hp
  cases r with
  | error x => exact hp.2
  | ok u =>
    simp only
    cases h2 : Trajectory.init g lookup s1.st.occ with
    | error x => exact hp.2
    | ok traj =>
      simp only
      rcases h3 : ({} : Sampler T V Row).applyPropertyPlan plan (some (max len 1 : Nat)) with ⟨r3, sm⟩
      cases r3 with
      | error x => exact hp.2
      | ok u3 =>
        exact (passes_inv k m g summary rng s.lib.events I (fun _ => True) hI
          (fun _ _ _ _ _ => trivial) len prod 0 (equil * len) _
          (by exact congrArg EventLib.events hp.1) hp.2 trivial).2.1

/-- A property of the trajectory kept by every event of the library and met when the tracker
is created holds for the tracker a run leaves. -/
theorem run_traj_inv (k : Kernel R T U) (m : RateModel M R T) (g : Geometry K)
    (lookup : Option HopStateLookup) (summary : Trajectory K → T → List (String × Bool) → Row)
    (plan : PropertyPlan T V) (rng : Nat → U × U) (len equil prod : Nat) (s : Sim σ φ M R T)
    (J : Trajectory K → Trajectory K → Prop)
    (h0 : ∀ occ t, Trajectory.init g lookup occ = .ok t → J t t)
    (hJ : ∀ t0 t occ e, e ∈ s.lib.events → J t0 t → J t0 (t.update g occ e).2)
    {rs : RunState σ φ M R T K V Row}
    (hr : (s.run k m g lookup summary plan rng len equil prod).tracker = some rs) :
    ∃ s1 t0, s.equilSteps k m rng (equil * len) 0 = (.ok (), s1) ∧
      Trajectory.init g lookup s1.st.occ = .ok t0 ∧ J t0 rs.traj := by
  unfold Sim.run at hr
  have hp := equilSteps_inv k m rng s.lib.events (fun _ => True) (fun _ _ _ _ _ => trivial)
    (equil * len) 0 s rfl trivial
  rcases h1 : s.equilSteps k m rng (equil * len) 0 with ⟨r, s1⟩
  rw [h1] at hp hr
  cases r with
  | error x => cases hr
  | ok u =>
    simp only at hr
    cases h2 : Trajectory.init g lookup s1.st.occ with
    | error x => rw [h2] at hr; cases hr
    | ok t0 =>
      rw [h2] at hr
      simp only at hr
      refine ⟨s1, t0, rfl, h2, ?_⟩
      rcases h3 : ({} : Sampler T V Row).applyPropertyPlan plan (some (max len 1 : Nat)) with ⟨r3, sm⟩
      rw [h3] at hr
      cases r3 with
      | error x => cases hr
      | ok u3 =>
        simp only at hr
        have := (passes_inv k m g summary rng s.lib.events (fun _ => True) (J t0)
          (fun _ _ _ _ _ => trivial) (hJ t0) len prod 0 (equil * len)
          ({ sim := s1, traj := t0, sampler := sm } : RunState σ φ M R T K V Row)
          (by exact congrArg EventLib.events hp.1) trivial (h0 _ _ h2)).2.2
        rcases h4 : RunState.passes k m g summary rng len prod 0 (equil * len)
          ({ sim := s1, traj := t0, sampler := sm } : RunState σ φ M R T K V Row) with ⟨r4, rs4⟩
        rw [h4] at hr this
        cases hr
        exact this

/-! ### The part of a site -/

theorem swap_countIn {P : Type} [DecidableEq P] {part : Nat → P} {i j : Nat} {x y : List Int}
    (h : Exchanged i j x y) (hi : i < x.length) (hj : j < x.length) (hij : part i = part j)
    (p : P) (v : Int) : countIn part p y v = countIn part p x v := by
  obtain ⟨hlen, h1, h2, h3⟩ := h
  have hsw : ∀ k, y[k]? = x[Equiv.swap i j k]? ∧ part (Equiv.swap i j k) = part k ∧
      (Equiv.swap i j k < x.length ↔ k < x.length) := by
    intro k
    by_cases hki : k = i
    · subst hki; rw [Equiv.swap_apply_left]; exact ⟨h1, hij.symm, by simp [hi, hj]⟩
    · by_cases hkj : k = j
      · subst hkj; rw [Equiv.swap_apply_right]; exact ⟨h2, hij, by simp [hi, hj]⟩
      · rw [Equiv.swap_apply_of_ne_of_ne hki hkj]; exact ⟨h3 k hki hkj, rfl, Iff.rfl⟩
  unfold countIn
  refine Finset.card_equiv (Equiv.swap i j) fun k => ?_
  obtain ⟨a, b, c⟩ := hsw k
  simp only [Finset.mem_filter, Finset.mem_range, hlen, a, b, c]

theorem pyIdx_nat_eq {n i k : Nat} (h : pyIdx n (i : Int) = some k) : k = i := by
  unfold pyIdx at h
  rw [if_pos (by omega)] at h
  split at h
  · simpa using h.symm
  · cases h

theorem applyEvent_countIn {P : Type} [DecidableEq P] {part : Nat → P} (st : State T) {e : Event}
    (dt : T) {i j : Nat} (he : e.mobile = [(i : Int), (j : Int)]) (hij : part i = part j) (p : P)
    (v : Int) : countIn part p (st.applyEvent e dt).2.occ v = countIn part p st.occ v := by
  rcases applyEvent_cases st e dt with ⟨x, hx⟩ | ⟨f, t, i', j', hi, hj, he', h1, h2, h3⟩
  · rw [hx]
  · rw [he] at he'
    simp only [List.cons.injEq, and_true] at he'
    obtain ⟨rfl, rfl⟩ := he'
    obtain rfl := pyIdx_nat_eq h1
    obtain rfl := pyIdx_nat_eq h2
    rw [h3]
    exact swap_countIn (set_set_exchanged hi hj) hi hj hij p v

/-! ### What a tracker update leaves -/

/-- Everything a tracker update can leave: the old arrays, a moved ion without displacement
(when computing the displacement raised), or a moved ion with its displacement. -/
theorem traj_update_cases (g : Geometry K) (t : Trajectory K) (occ : List Int) (e : Event) :
    (t.update g occ e).2 = t ∨
    ∃ (d f to' : Int) (i : Nat), (d = 1 ∨ d = -1) ∧ e.mobile = [f, to'] ∧
      t.locations[i]? = some (if d = 1 then f else to') ∧
      ((t.update g occ e).2 = { t with locations := t.locations.set i (if d = 1 then to' else f) } ∨
       ∃ disp, wrappedHopDisplacement g e d = .ok disp ∧
        (t.update g occ e).2 =
          { locations := t.locations.set i (if d = 1 then to' else f)
            displacement := t.displacement.modify i (fun v => v + disp)
            hopCounter := t.hopCounter.modify i (· + 1)
            r0 := t.r0 }) := by
  unfold Trajectory.update
  cases hd : eventDirection occ e with
  | error x => exact .inl rfl
  | ok d =>
    simp only
    by_cases h0 : d = 0
    · rw [if_pos h0]; exact .inl rfl
    · rw [if_neg h0]
      have hv : d = 1 ∨ d = -1 := by
        rcases eventDirection_values hd with h | h | h
        · exact .inl h
        · exact .inr h
        · exact absurd h h0
      unfold Trajectory.recordHop
      cases hu : unpack2 e.mobile with
      | error x => exact .inl rfl
      | ok q =>
        obtain ⟨f, to'⟩ := q
        simp only
        cases hm : firstMatch (if d = 1 then f else to') 0 t.locations with
        | none => exact .inl rfl
        | some i =>
          obtain ⟨k, hk, hl⟩ := firstMatch_some hm
          simp only [Nat.zero_add] at hk
          subst hk
          right
          refine ⟨d, f, to', i, hv, unpack2_ok_iff.1 hu, hl, ?_⟩
          simp only
          cases hw : wrappedHopDisplacement g e d with
          | error x => exact .inl rfl
          | ok disp => exact .inr ⟨disp, rfl, rfl⟩

theorem wrappedHop_ok {g : Geometry K} {e : Event} {d : Int} {disp : Vec3 K} {i j : Nat}
    (he : e.mobile = [(i : Int), (j : Int)]) (h : wrappedHopDisplacement g e d = .ok disp) :
    ∃ a b, g.fracCoords[i]? = some a ∧ g.fracCoords[j]? = some b ∧
      disp = g.cart (wrappedFrac d a b) := by
  unfold wrappedHopDisplacement at h
  rw [he] at h
  simp only [unpack2] at h
  cases hb : pyGet g.fracCoords (j : Int) with
  | error x => rw [hb] at h; cases h
  | ok b =>
    rw [hb] at h
    simp only at h
    cases ha : pyGet g.fracCoords (i : Int) with
    | error x => rw [ha] at h; cases h
    | ok a =>
      rw [ha] at h
      obtain ⟨i', hi, ha'⟩ := pyGet_ok_iff.1 ha
      obtain ⟨j', hj, hb'⟩ := pyGet_ok_iff.1 hb
      obtain rfl := pyIdx_nat_eq hi
      obtain rfl := pyIdx_nat_eq hj
      exact ⟨a, b, ha', hb', (Except.ok.inj h).symm⟩

/-- The wrapped displacement is a shortest step, in either direction. -/
theorem wrappedFrac_shortest [IsStrictOrderedRing K] {d : Int} (hd : d = 1 ∨ d = -1) (a b : Vec3 K) :
    ∃ f : Vec3 K, ShortestStep a b f ∧ (wrappedFrac d a b = f ∨ wrappedFrac d a b = -f) := by
  rcases hd with rfl | rfl
  · refine ⟨wrappedFrac 1 a b, fun c => ?_, .inl rfl⟩
    obtain ⟨h1, h2⟩ := roundHalfEven_bounds (((1 : Int) : K) * (b c - a c))
    simp only [wrappedFrac]
    refine ⟨abs_le.2 ⟨h2, h1⟩, -roundHalfEven (((1 : Int) : K) * (b c - a c)), ?_⟩
    push_cast
    ring
  · refine ⟨-wrappedFrac (-1) a b, fun c => ?_, .inr (by simp)⟩
    obtain ⟨h1, h2⟩ := roundHalfEven_bounds (((-1 : Int) : K) * (b c - a c))
    simp only [wrappedFrac, Pi.neg_apply]
    refine ⟨by rw [abs_neg]; exact abs_le.2 ⟨h2, h1⟩, roundHalfEven (((-1 : Int) : K) * (b c - a c)), ?_⟩
    push_cast
    ring

theorem shortestStep_layer [IsStrictOrderedRing K] {a b f : Vec3 K} {c : Fin 3} {n : ℤ}
    (h : ShortestStep a b f) (hn : b c - a c = (n : K)) : f c = 0 := by
  obtain ⟨h1, m, h2⟩ := h c
  rw [hn] at h2
  have h3 : |((n + m : ℤ) : K)| ≤ 1 / 2 := by push_cast; rw [← h2]; exact h1
  have h4 : n + m = 0 := by
    by_contra hne
    have : (1 : ℤ) ≤ |n + m| := Int.one_le_abs hne
    have : (1 : K) ≤ |((n + m : ℤ) : K)| := by
      rw [← Int.cast_abs]; exact_mod_cast this
    linarith [show (1 : K) / 2 < 1 by linarith]
  rw [h2]
  exact_mod_cast h4

/-! ### Length -/

theorem length3_eq (v : Vec3 ℝ) : length3 v = ‖(WithLp.toLp 2 v : EuclideanSpace ℝ (Fin 3))‖ := by
  rw [EuclideanSpace.norm_eq, Fin.sum_univ_three]
  simp [length3]

theorem length3_add (u v : Vec3 ℝ) : length3 (u + v) ≤ length3 u + length3 v := by
  rw [length3_eq, length3_eq, length3_eq, WithLp.toLp_add]
  exact norm_add_le _ _

theorem length3_neg (v : Vec3 ℝ) : length3 (-v) = length3 v := by simp [length3]

theorem length3_zero : length3 0 = 0 := by simp [length3]

end KMC
