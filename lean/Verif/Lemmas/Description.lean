import Verif.Spec.Description
import Verif.Lemmas.Network
import Mathlib.LinearAlgebra.Matrix.NonsingularInverse
/-
Lemmas for C118: runs with two descriptions of one crystal go in step.
-/
set_option linter.unusedSectionVars false

namespace KMC
open Spec

section
variable {K : Type} [Field K] [LinearOrder K] [FloorRing K]

/-- The hop of an event is the same in both descriptions. -/
def HopAgrees (Q : Matrix (Fin 3) (Fin 3) K) (g g' : Geometry K) (e : Event) : Prop :=
  ∀ d : Int, d = 1 ∨ d = -1 →
    wrappedHopDisplacement g' e d = (wrappedHopDisplacement g e d).map (fun v => Matrix.vecMul v Q)

theorem modify_map_comm {α β : Type} (f : α → β) (u : α → α) (u' : β → β) (h : ∀ x, u' (f x) = f (u x))
    (l : List α) (i : Nat) : (l.map f).modify i u' = (l.modify i u).map f := by
  apply List.ext_getElem?
  intro n
  simp only [List.getElem?_modify, List.getElem?_map]
  cases l[n]? with
  | none => rfl
  | some x =>
    simp only [Option.map_some, Option.map_eq_map]
    split <;> simp [h]

theorem update_sameTracks {Q : Matrix (Fin 3) (Fin 3) K} {g g' : Geometry K} {t t' : Trajectory K}
    (ht : SameTracks Q t t') (occ : List Int) {e : Event} (he : HopAgrees Q g g' e) :
    (t'.update g' occ e).1 = (t.update g occ e).1 ∧
      SameTracks Q (t.update g occ e).2 (t'.update g' occ e).2 := by
  unfold Trajectory.update
  cases hd : eventDirection occ e with
  | error x => exact ⟨rfl, ht⟩
  | ok d =>
    simp only
    by_cases h0 : d = 0
    · rw [if_pos h0, if_pos h0]; exact ⟨rfl, ht⟩
    · rw [if_neg h0, if_neg h0]
      have hv : d = 1 ∨ d = -1 := by
        rcases eventDirection_values hd with h | h | h
        · exact .inl h
        · exact .inr h
        · exact absurd h h0
      unfold Trajectory.recordHop
      cases hu : unpack2 e.mobile with
      | error x => exact ⟨rfl, ht⟩
      | ok q =>
        obtain ⟨f, to'⟩ := q
        simp only [ht.locations]
        cases hm : firstMatch (if d = 1 then f else to') 0 t.locations with
        | none => exact ⟨rfl, ht⟩
        | some i =>
          simp only
          rw [he d hv]
          cases hw : wrappedHopDisplacement g e d with
          | error x => exact ⟨rfl, ⟨rfl, ht.hops, ht.displacement⟩⟩
          | ok disp =>
            refine ⟨rfl, ⟨rfl, ?_, ?_⟩⟩
            · simp only [Except.map, ht.hops]
            · simp only [Except.map, ht.displacement]
              exact modify_map_comm (fun v => Matrix.vecMul v Q) (fun v => v + disp)
                (fun v => v + Matrix.vecMul disp Q) (fun x => (Matrix.add_vecMul _ _ _).symm) _ _

theorem pickCoords_outcome {g g' : Geometry K} (hl : g'.fracCoords.length = g.fracCoords.length)
    (is : List Int) :
    (∃ x, pickCoords g is = .error x ∧ pickCoords g' is = .error x) ∨
    ∃ r r', pickCoords g is = .ok r ∧ pickCoords g' is = .ok r' := by
  induction is with
  | nil => exact .inr ⟨[], [], rfl, rfl⟩
  | cons i is ih =>
    simp only [pickCoords]
    cases hi : pyIdx g.fracCoords.length i with
    | none =>
      have h1 : pyGet g.fracCoords i = .error .indexError := by simp [pyGet, hi]
      have h2 : pyGet g'.fracCoords i = .error .indexError := by simp [pyGet, hl, hi]
      rw [h1, h2]
      exact .inl ⟨_, rfl, rfl⟩
    | some k =>
      have hk := pyIdx_lt hi
      rw [pyGet_of_idx hi, pyGet_of_idx (l := g'.fracCoords) (i := i) (k := k) (by rw [hl]; exact hi)]
      simp only
      rcases ih with ⟨x, h1, h2⟩ | ⟨r, r', h1, h2⟩
      · rw [h1, h2]; exact .inl ⟨x, rfl, rfl⟩
      · rw [h1, h2]; exact .inr ⟨_, _, rfl, rfl⟩

theorem init_sameTracks (Q : Matrix (Fin 3) (Fin 3) K) {g g' : Geometry K}
    (hl : g'.fracCoords.length = g.fracCoords.length)
    (hn : g'.nMobileSymbolSites = g.nMobileSymbolSites) (lookup : Option HopStateLookup)
    (occ : List Int) :
    (∃ x, Trajectory.init g lookup occ = .error x ∧ Trajectory.init g' lookup occ = .error x) ∨
    ∃ t t', Trajectory.init g lookup occ = .ok t ∧ Trajectory.init g' lookup occ = .ok t' ∧
      SameTracks Q t t' := by
  have hmask : mobileMask g' lookup occ = mobileMask g lookup occ := by
    unfold mobileMask
    rw [hn]
  have key : ∀ c : Bool,
      (∃ x, (if c = true then (Except.error PyErr.valueError : Py (Trajectory K))
          else match pickCoords g (whereTrue 0 (mobileMask g lookup occ)) with
            | .error e => .error e
            | .ok r0 => .ok
              { locations := whereTrue 0 (mobileMask g lookup occ)
                displacement := (whereTrue 0 (mobileMask g lookup occ)).map fun _ => 0
                hopCounter := (whereTrue 0 (mobileMask g lookup occ)).map fun _ => 0
                r0 := r0 }) = .error x ∧
        (if c = true then (Except.error PyErr.valueError : Py (Trajectory K))
          else match pickCoords g' (whereTrue 0 (mobileMask g lookup occ)) with
            | .error e => .error e
            | .ok r0 => .ok
              { locations := whereTrue 0 (mobileMask g lookup occ)
                displacement := (whereTrue 0 (mobileMask g lookup occ)).map fun _ => 0
                hopCounter := (whereTrue 0 (mobileMask g lookup occ)).map fun _ => 0
                r0 := r0 }) = .error x) ∨
      ∃ t t', (if c = true then (Except.error PyErr.valueError : Py (Trajectory K))
          else match pickCoords g (whereTrue 0 (mobileMask g lookup occ)) with
            | .error e => .error e
            | .ok r0 => .ok
              { locations := whereTrue 0 (mobileMask g lookup occ)
                displacement := (whereTrue 0 (mobileMask g lookup occ)).map fun _ => 0
                hopCounter := (whereTrue 0 (mobileMask g lookup occ)).map fun _ => 0
                r0 := r0 }) = .ok t ∧
        (if c = true then (Except.error PyErr.valueError : Py (Trajectory K))
          else match pickCoords g' (whereTrue 0 (mobileMask g lookup occ)) with
            | .error e => .error e
            | .ok r0 => .ok
              { locations := whereTrue 0 (mobileMask g lookup occ)
                displacement := (whereTrue 0 (mobileMask g lookup occ)).map fun _ => 0
                hopCounter := (whereTrue 0 (mobileMask g lookup occ)).map fun _ => 0
                r0 := r0 }) = .ok t' ∧ SameTracks Q t t' := by
    intro c
    cases c with
    | true => exact .inl ⟨_, rfl, rfl⟩
    | false =>
      rcases pickCoords_outcome hl (whereTrue 0 (mobileMask g lookup occ)) with
        ⟨x, h1, h2⟩ | ⟨r, r', h1, h2⟩
      · rw [h1, h2]; exact .inl ⟨x, rfl, rfl⟩
      · rw [h1, h2]
        exact .inr ⟨_, _, rfl, rfl, ⟨rfl, rfl, by simp⟩⟩
  unfold Trajectory.init
  rw [hmask]
  cases lookup with
  | none => exact key false
  | some h => exact key (decide (occ.length < h.mobileStateBySite.length))

/-! ### Redrawing -/

theorem pyGet_map' {α β : Type} (f : α → β) (l : List α) (i : Int) :
    pyGet (l.map f) i = (pyGet l i).map f := by
  unfold pyGet
  rw [List.length_map]
  cases pyIdx l.length i with
  | none => rfl
  | some k =>
    simp only [List.getElem?_map]
    cases l[k]? <;> rfl

theorem redrawn_hopAgrees {Q : Matrix (Fin 3) (Fin 3) K} {w : Vec3 K} {g g' : Geometry K}
    (h : Redrawn Q w g g') (e : Event) : HopAgrees Q g g' e := by
  intro d _
  unfold wrappedHopDisplacement
  cases unpack2 e.mobile with
  | error x => rfl
  | ok q =>
    obtain ⟨f, to'⟩ := q
    simp only [h.sites, pyGet_map']
    cases pyGet g.fracCoords to' with
    | error x => rfl
    | ok ft =>
      simp only [Except.map]
      cases pyGet g.fracCoords f with
      | error x => rfl
      | ok ff =>
        simp only
        have hw : wrappedFrac d (ff + w) (ft + w) = wrappedFrac d ff ft := by
          funext c
          simp [wrappedFrac]
        rw [hw]
        unfold Geometry.cart
        rw [h.lattice, Matrix.vecMul_vecMul]

/-! ### Another cell -/

variable [IsStrictOrderedRing K]

theorem roundHalfEven_of_near {x : K} {n : ℤ} (h : |x - n| < 1 / 2) : roundHalfEven x = n := by
  obtain ⟨h1, h2⟩ := roundHalfEven_bounds x
  have h3 := abs_lt.1 h
  have a1 : ((roundHalfEven x - n : ℤ) : K) < 1 := by push_cast; linarith [h3.1, h3.2]
  have a2 : (-1 : K) < ((roundHalfEven x - n : ℤ) : K) := by push_cast; linarith [h3.1, h3.2]
  have b1 : roundHalfEven x - n < 1 := by exact_mod_cast a1
  have b2 : -1 < roundHalfEven x - n := by exact_mod_cast a2
  omega

/-- If the connection of two sites is shorter than half a cell, it is what the tracker uses. -/
theorem wrappedFrac_short {a b f : Vec3 K} (hf : ∀ c, ∃ n : ℤ, f c = b c - a c + (n : K))
    (hs : ∀ c, |f c| < 1 / 2) (d : Int) (hd : d = 1 ∨ d = -1) :
    wrappedFrac d a b = (d : K) • f := by
  funext c
  obtain ⟨n, hn⟩ := hf c
  have hs := hs c
  rw [Pi.smul_apply, smul_eq_mul]
  rcases hd with rfl | rfl
  · have : roundHalfEven (((1 : Int) : K) * (b c - a c)) = -n := by
      apply roundHalfEven_of_near
      rw [hn] at hs
      push_cast
      rw [show (1 : K) * (b c - a c) - -(n : K) = b c - a c + n by ring]
      exact hs
    simp only [wrappedFrac]
    rw [this, hn]
    push_cast
    ring
  · have : roundHalfEven (((-1 : Int) : K) * (b c - a c)) = n := by
      apply roundHalfEven_of_near
      rw [hn] at hs
      push_cast
      rw [show (-1 : K) * (b c - a c) - (n : K) = -(b c - a c + n) by ring, abs_neg]
      exact hs
    simp only [wrappedFrac]
    rw [this, hn]
    push_cast
    ring

theorem vecMul_int (v : Fin 3 → ℤ) (N : Matrix (Fin 3) (Fin 3) ℤ) :
    Matrix.vecMul (fun c => (v c : K)) (N.map (fun z : ℤ => (z : K))) =
      fun c => ((Matrix.vecMul v N c : ℤ) : K) := by
  funext c
  simp [Matrix.vecMul, dotProduct, Fin.sum_univ_three]

theorem recelled_hopAgrees {N N' : Matrix (Fin 3) (Fin 3) ℤ} {g g' : Geometry K}
    (h : Recelled N N' g g') {events : List Event} (hs : ShortHops N' g events) {e : Event}
    (he : e ∈ events) : HopAgrees 1 g g' e := by
  intro d hd
  obtain ⟨i, j, a, b, f, hm, ha, hb, hf, h1, h2⟩ := hs e he
  have hNK : (N.map (fun z : ℤ => (z : K))) * (N'.map (fun z : ℤ => (z : K))) = 1 := by
    have := congrArg (fun A : Matrix (Fin 3) (Fin 3) ℤ => A.map (Int.castRingHom K)) h.inverse
    simp only [Matrix.map_mul] at this
    rw [Matrix.map_one _ (map_zero _) (map_one _)] at this
    exact this
  have hNK' : (N'.map (fun z : ℤ => (z : K))) * (N.map (fun z : ℤ => (z : K))) = 1 :=
    mul_eq_one_comm.1 hNK
  obtain ⟨a', ha'⟩ : ∃ a', g'.fracCoords[i]? = some a' := by
    have : i < g'.fracCoords.length := by rw [h.count]; exact (List.getElem?_eq_some_iff.1 ha).1
    exact ⟨_, List.getElem?_eq_getElem this⟩
  obtain ⟨b', hb'⟩ : ∃ b', g'.fracCoords[j]? = some b' := by
    have : j < g'.fracCoords.length := by rw [h.count]; exact (List.getElem?_eq_some_iff.1 hb).1
    exact ⟨_, List.getElem?_eq_getElem this⟩
  obtain ⟨na, hna⟩ := h.sites i a a' ha ha'
  obtain ⟨nb, hnb⟩ := h.sites j b b' hb hb'
  choose m hmf using hf
  have hf' : ∀ c, ∃ n : ℤ, Matrix.vecMul f (N'.map (fun z : ℤ => (z : K))) c = b' c - a' c + (n : K) := by
    have e1 : f = Matrix.vecMul (b' - a') (N.map (fun z : ℤ => (z : K))) +
        fun c => ((nb c - na c + m c : ℤ) : K) := by
      funext c
      rw [hmf c, hna, hnb, Matrix.sub_vecMul]
      simp only [Pi.add_apply, Pi.sub_apply]
      push_cast
      ring
    intro c
    refine ⟨Matrix.vecMul (fun c => nb c - na c + m c) N' c, ?_⟩
    rw [e1, Matrix.add_vecMul, Matrix.vecMul_vecMul, hNK, Matrix.vecMul_one, vecMul_int]
    rfl
  have hw := wrappedFrac_short (fun c => ⟨m c, hmf c⟩) h1 d hd
  have hw' := wrappedFrac_short hf' h2 d hd
  unfold wrappedHopDisplacement
  rw [hm]
  simp only [unpack2]
  rw [pyGet_natCast ha, pyGet_natCast hb, pyGet_natCast ha', pyGet_natCast hb']
  simp only [Except.map]
  congr 1
  unfold Geometry.cart
  rw [hw, hw', h.lattice, Matrix.vecMul_one, Matrix.smul_vecMul, Matrix.smul_vecMul]
  congr 1
  rw [← Matrix.vecMul_vecMul, Matrix.vecMul_vecMul f, hNK', Matrix.vecMul_one]

end

/-! ### Whole runs -/

variable {σ φ M R T U K V Row : Type} [Field K] [LinearOrder K] [FloorRing K]
variable [Add T] [Zero T] [Sub T] [LE T] [DecidableLE T]

/-- Two production states go in step. -/
structure SideBySide (Q : Matrix (Fin 3) (Fin 3) K) (a b : RunState σ φ M R T K V Row) : Prop where
  sim : b.sim = a.sim
  traj : SameTracks Q a.traj b.traj
  sampler : b.sampler = a.sampler
  pass : b.currentPass = a.currentPass

theorem prodStep_sideBySide {Q : Matrix (Fin 3) (Fin 3) K} {g g' : Geometry K} (k : Kernel R T U)
    (m : RateModel M R T) {summary : Trajectory K → T → List (String × Bool) → Row}
    (hsum : ∀ t t', SameTracks Q t t' → summary t' = summary t) {events : List Event}
    (hop : ∀ e ∈ events, HopAgrees Q g g' e) {a b : RunState σ φ M R T K V Row} (h : SideBySide Q a b)
    (hl : a.sim.lib.events = events) (r1 r2 : U) :
    (b.prodStep k m g' summary r1 r2).1 = (a.prodStep k m g summary r1 r2).1 ∧
      SideBySide Q (a.prodStep k m g summary r1 r2).2 (b.prodStep k m g' summary r1 r2).2 := by
  unfold RunState.prodStep
  rw [h.sim]
  cases hp : a.sim.propose k r1 r2 with
  | error x => exact ⟨rfl, h⟩
  | ok q =>
    obtain ⟨e, dt⟩ := q
    simp only
    obtain ⟨h1, h2⟩ := update_sameTracks h.traj a.sim.st.occ (hop e (hl ▸ propose_event_mem hp))
    rcases hu : a.traj.update g a.sim.st.occ e with ⟨rt, traj⟩
    rcases hu' : b.traj.update g' a.sim.st.occ e with ⟨rt', traj'⟩
    rw [hu, hu'] at h1 h2
    simp only at h1 h2
    subst h1
    cases rt' with
    | error x => exact ⟨rfl, ⟨rfl, h2, h.sampler, h.pass⟩⟩
    | ok u =>
      simp only
      rcases hq : a.sim.update k m e dt with ⟨rs, sim⟩
      cases rs with
      | error x => exact ⟨rfl, ⟨rfl, h2, h.sampler, h.pass⟩⟩
      | ok u2 =>
        simp only
        rw [h.sampler, hsum _ _ h2]
        exact ⟨rfl, ⟨rfl, h2, rfl, h.pass⟩⟩

theorem prodSteps_sideBySide {Q : Matrix (Fin 3) (Fin 3) K} {g g' : Geometry K} (k : Kernel R T U)
    (m : RateModel M R T) {summary : Trajectory K → T → List (String × Bool) → Row}
    (hsum : ∀ t t', SameTracks Q t t' → summary t' = summary t) {events : List Event}
    (hop : ∀ e ∈ events, HopAgrees Q g g' e) (rng : Nat → U × U) (n c : Nat)
    {a b : RunState σ φ M R T K V Row} (h : SideBySide Q a b) (hl : a.sim.lib.events = events) :
    (b.prodSteps k m g' summary rng n c).1 = (a.prodSteps k m g summary rng n c).1 ∧
      SideBySide Q (a.prodSteps k m g summary rng n c).2 (b.prodSteps k m g' summary rng n c).2 ∧
      (a.prodSteps k m g summary rng n c).2.sim.lib.events = events := by
  induction n generalizing c a b with
  | zero => exact ⟨rfl, h, hl⟩
  | succ n ih =>
    obtain ⟨h1, h2⟩ := prodStep_sideBySide k m hsum hop h hl (rng c).1 (rng c).2
    have hlib := (prodStep_inv k m g summary events (fun _ => True) (fun _ => True)
      (fun _ _ _ _ _ => trivial) (fun _ _ _ _ _ => trivial) a (rng c).1 (rng c).2 hl trivial
      trivial).1
    unfold RunState.prodSteps
    rcases ha : a.prodStep k m g summary (rng c).1 (rng c).2 with ⟨ra, a'⟩
    rcases hb : b.prodStep k m g' summary (rng c).1 (rng c).2 with ⟨rb, b'⟩
    rw [ha, hb] at h1 h2
    rw [ha] at hlib
    simp only at h1 h2 hlib
    subst h1
    have hl' : a'.sim.lib.events = events := by rw [hlib]; exact hl
    cases rb with
    | error x => exact ⟨rfl, h2, hl'⟩
    | ok u => exact ih (c + 1) h2 hl'

theorem passes_sideBySide {Q : Matrix (Fin 3) (Fin 3) K} {g g' : Geometry K} (k : Kernel R T U)
    (m : RateModel M R T) {summary : Trajectory K → T → List (String × Bool) → Row}
    (hsum : ∀ t t', SameTracks Q t t' → summary t' = summary t) {events : List Event}
    (hop : ∀ e ∈ events, HopAgrees Q g g' e) (rng : Nat → U × U) (len n p c : Nat)
    {a b : RunState σ φ M R T K V Row} (h : SideBySide Q a b) (hl : a.sim.lib.events = events) :
    (b.passes k m g' summary rng len n p c).1 = (a.passes k m g summary rng len n p c).1 ∧
      SideBySide Q (a.passes k m g summary rng len n p c).2 (b.passes k m g' summary rng len n p c).2 := by
  induction n generalizing p c a b with
  | zero => exact ⟨rfl, h⟩
  | succ n ih =>
    obtain ⟨h1, h2, h3⟩ := prodSteps_sideBySide k m hsum hop rng len c h hl
    unfold RunState.passes
    rcases ha : a.prodSteps k m g summary rng len c with ⟨ra, a'⟩
    rcases hb : b.prodSteps k m g' summary rng len c with ⟨rb, b'⟩
    rw [ha, hb] at h1 h2
    rw [ha] at h3
    simp only at h1 h2 h3
    subst h1
    cases rb with
    | error x => exact ⟨rfl, h2⟩
    | ok u => exact ih (p + 1) (c + len) ⟨h2.sim, h2.traj, h2.sampler, rfl⟩ h3

theorem run_sameRun {Q : Matrix (Fin 3) (Fin 3) K} {g g' : Geometry K} (k : Kernel R T U)
    (m : RateModel M R T) (lookup : Option HopStateLookup)
    {summary : Trajectory K → T → List (String × Bool) → Row}
    (hsum : ∀ t t', SameTracks Q t t' → summary t' = summary t)
    (hlen : g'.fracCoords.length = g.fracCoords.length)
    (hn : g'.nMobileSymbolSites = g.nMobileSymbolSites)
    (plan : PropertyPlan T V) (rng : Nat → U × U) (len equil prod : Nat) (s : Sim σ φ M R T)
    (hop : ∀ e ∈ s.lib.events, HopAgrees Q g g' e) :
    SameRun Q (s.run k m g lookup summary plan rng len equil prod)
      (s.run k m g' lookup summary plan rng len equil prod) := by
  have hp := equilSteps_inv k m rng s.lib.events (fun _ => True) (fun _ _ _ _ _ => trivial)
    (equil * len) 0 s rfl trivial
  unfold Sim.run
  rcases h1 : s.equilSteps k m rng (equil * len) 0 with ⟨r, s1⟩
  rw [h1] at hp
  cases r with
  | error x => exact ⟨rfl, rfl, by rintro _ ⟨⟩, fun _ => rfl⟩
  | ok u =>
    simp only
    rcases init_sameTracks Q hlen hn lookup s1.st.occ with ⟨x, e1, e2⟩ | ⟨t, t', e1, e2, ht⟩
    · rw [e1, e2]
      exact ⟨rfl, rfl, by rintro _ ⟨⟩, fun _ => rfl⟩
    · rw [e1, e2]
      simp only
      rcases h3 : ({} : Sampler T V Row).applyPropertyPlan plan (some (max len 1 : Nat)) with ⟨r3, sm⟩
      cases r3 with
      | error x => exact ⟨rfl, rfl, by rintro _ ⟨⟩, fun _ => rfl⟩
      | ok u3 =>
        simp only
        obtain ⟨q1, q2⟩ := passes_sideBySide (Q := Q) (g := g) (g' := g') k m hsum hop rng len prod 0
          (equil * len)
          (a := ({ sim := s1, traj := t, sampler := sm } : RunState σ φ M R T K V Row))
          (b := { sim := s1, traj := t', sampler := sm }) ⟨rfl, ht, rfl, rfl⟩
          (congrArg EventLib.events hp.1)
        refine ⟨q1, q2.sim, fun x hx => ?_, fun hx => by cases hx⟩
        cases hx
        exact ⟨_, rfl, q2.sim, q2.sampler, q2.pass, q2.traj⟩

/-! ### The summary does not see the axes -/

theorem sqNorm_orthogonal {Q : Matrix (Fin 3) (Fin 3) ℝ} (hQ : Q * Q.transpose = 1) (v : Vec3 ℝ) :
    vecNorm (Matrix.vecMul v Q) = vecNorm v := by
  have key : ∀ w : Vec3 ℝ, w 0 ^ 2 + w 1 ^ 2 + w 2 ^ 2 = dotProduct w w := by
    intro w; simp [dotProduct, Fin.sum_univ_three]; ring
  unfold vecNorm
  rw [key, key]
  congr 1
  rw [← Matrix.dotProduct_mulVec, Matrix.mulVec_vecMul, hQ, Matrix.one_mulVec]

end KMC
