import Verif.Lemmas.Network
/-
C117.  Ions stay in the part of the event network they start in.
-/
set_option linter.unusedSectionVars false

namespace KMC
open Spec

section
variable {σ φ M R T U K V Row : Type} [Field K] [LinearOrder K] [FloorRing K]
variable [Add T] [Zero T] [Sub T] [LE T] [DecidableLE T]

/-- C117.  If no event joins two parts of the crystal, a run with any rate model, random stream,
pass counts and properties, finished or stopped by an exception, leaves every part with the
composition it had: as many sites of the part carry each value after the run as before. -/
theorem C117_part_keeps_composition {P : Type} [DecidableEq P] (k : Kernel R T U)
    (m : RateModel M R T) (g : Geometry K) (lookup : Option HopStateLookup)
    (summary : Trajectory K → T → List (String × Bool) → Row) (plan : PropertyPlan T V)
    (rng : Nat → U × U) (len equil prod : Nat) (s : Sim σ φ M R T) (part : Nat → P)
    (hb : NoBridge s.lib.events part) (p : P) (v : Int) :
    countIn part p (s.run k m g lookup summary plan rng len equil prod).sim.st.occ v =
      countIn part p s.st.occ v := by
  refine run_inv k m g lookup summary plan rng len equil prod s
    (fun st => countIn part p st.occ v = countIn part p s.st.occ v) (fun st e dt he h => ?_) rfl
  obtain ⟨i, j, hm, hij⟩ := hb e he
  rw [applyEvent_countIn st dt hm hij]
  exact h

/-- C117.  A part of the crystal with the same value on all its sites (completely filled, or
completely empty) never changes, unless an event joins it to the rest. -/
theorem C117_uniform_part_never_changes {P : Type} [DecidableEq P] (k : Kernel R T U)
    (m : RateModel M R T) (g : Geometry K) (lookup : Option HopStateLookup)
    (summary : Trajectory K → T → List (String × Bool) → Row) (plan : PropertyPlan T V)
    (rng : Nat → U × U) (len equil prod : Nat) (s : Sim σ φ M R T) (part : Nat → P)
    (hb : NoBridge s.lib.events part) (p : P) (v : Int)
    (hu : ∀ i < s.st.occ.length, part i = p → s.st.occ[i]? = some v) :
    ∀ i < s.st.occ.length, part i = p →
      (s.run k m g lookup summary plan rng len equil prod).sim.st.occ[i]? = some v := by
  have hc := C117_part_keeps_composition k m g lookup summary plan rng len equil prod s part hb p v
  have hl : (s.run k m g lookup summary plan rng len equil prod).sim.st.occ.length =
      s.st.occ.length :=
    run_inv k m g lookup summary plan rng len equil prod s
      (fun st => st.occ.length = s.st.occ.length)
      (fun st e dt _ h => (applyEvent_length st e dt).trans h) rfl
  unfold countIn at hc
  rw [hl] at hc
  have h1 : ((Finset.range s.st.occ.length).filter fun i => part i = p ∧ s.st.occ[i]? = some v) =
      (Finset.range s.st.occ.length).filter fun i => part i = p := by
    ext i
    simp only [Finset.mem_filter, Finset.mem_range]
    exact ⟨fun h => ⟨h.1, h.2.1⟩, fun h => ⟨h.1, h.2, hu i h.1 h.2⟩⟩
  rw [h1] at hc
  intro i hi hp
  have h2 := Finset.eq_of_subset_of_card_le
    (s := (Finset.range s.st.occ.length).filter fun i => part i = p ∧
      (s.run k m g lookup summary plan rng len equil prod).sim.st.occ[i]? = some v)
    (t := (Finset.range s.st.occ.length).filter fun i => part i = p)
    (fun i hi => by simp only [Finset.mem_filter, Finset.mem_range] at hi ⊢; exact ⟨hi.1, hi.2.1⟩)
    (le_of_eq hc.symm)
  have h3 : i ∈ (Finset.range s.st.occ.length).filter fun i => part i = p := by
    simp only [Finset.mem_filter, Finset.mem_range]; exact ⟨hi, hp⟩
  rw [← h2] at h3
  simp only [Finset.mem_filter] at h3
  exact h3.2.2

/-- C117.  If no event joins two parts of the crystal, every tracked ion is, when the run ends or
stops, on a site of the part it started the production phase in.  No ion is lost or added. -/
theorem C117_ion_stays_in_part {P : Type} (k : Kernel R T U)
    (m : RateModel M R T) (g : Geometry K) (lookup : Option HopStateLookup)
    (summary : Trajectory K → T → List (String × Bool) → Row) (plan : PropertyPlan T V)
    (rng : Nat → U × U) (len equil prod : Nat) (s : Sim σ φ M R T) (part : Nat → P)
    (hb : NoBridge s.lib.events part) {rs : RunState σ φ M R T K V Row}
    (hr : (s.run k m g lookup summary plan rng len equil prod).tracker = some rs) :
    ∃ s1 t0, s.equilSteps k m rng (equil * len) 0 = (.ok (), s1) ∧
      Trajectory.init g lookup s1.st.occ = .ok t0 ∧
      rs.traj.locations.length = t0.locations.length ∧
      ∀ (n : Nat) (l l0 : Int), t0.locations[n]? = some l0 → rs.traj.locations[n]? = some l →
        ∃ i j : Nat, l0 = (i : Int) ∧ l = (j : Int) ∧ part i = part j := by
  refine run_traj_inv k m g lookup summary plan rng len equil prod s
    (fun t0 t => t.locations.length = t0.locations.length ∧
      ∀ (n : Nat) (l l0 : Int), t0.locations[n]? = some l0 → t.locations[n]? = some l →
        ∃ i j : Nat, l0 = (i : Int) ∧ l = (j : Int) ∧ part i = part j) ?_ ?_ hr
  · intro occ t ht
    refine ⟨rfl, fun n l l0 h0 h1 => ?_⟩
    rw [h0] at h1
    obtain rfl := Option.some.inj h1
    have hmem : l0 ∈ whereTrue 0 (mobileMask g lookup occ) := by
      have := (traj_init_ok ht).1
      rw [← this]
      exact List.mem_of_getElem? h0
    obtain ⟨i, hi, -⟩ := (mem_whereTrue _ _ _).1 hmem
    exact ⟨0 + i, 0 + i, hi, hi, rfl⟩
  · rintro t0 t occ e he ⟨hlen, hinv⟩
    obtain ⟨i, j, hm, hij⟩ := hb e he
    have hmove : ∀ (d f to' : Int) (q : Nat), e.mobile = [f, to'] →
        t.locations[q]? = some (if d = 1 then f else to') →
        (t.locations.set q (if d = 1 then to' else f)).length = t0.locations.length ∧
        ∀ (n : Nat) (l l0 : Int), t0.locations[n]? = some l0 →
          (t.locations.set q (if d = 1 then to' else f))[n]? = some l →
          ∃ i j : Nat, l0 = (i : Int) ∧ l = (j : Int) ∧ part i = part j := by
      intro d f to' q hm' hq
      rw [hm] at hm'
      simp only [List.cons.injEq, and_true] at hm'
      obtain ⟨rfl, rfl⟩ := hm'
      refine ⟨by rw [List.length_set]; exact hlen, fun n l l0 h0 h1 => ?_⟩
      by_cases hqn : q = n
      · subst hqn
        obtain ⟨i0, j0, e1, e2, e3⟩ := hinv q _ l0 h0 hq
        have hlt : q < t.locations.length := (List.getElem?_eq_some_iff.1 hq).1
        rw [List.getElem?_set_self hlt] at h1
        have h1 := Option.some.inj h1
        by_cases hd : d = 1
        · rw [if_pos hd] at e2 h1
          have : i = j0 := by exact_mod_cast e2
          subst this
          exact ⟨i0, j, e1, h1.symm, e3.trans hij⟩
        · rw [if_neg hd] at e2 h1
          have : j = j0 := by exact_mod_cast e2
          subst this
          exact ⟨i0, i, e1, h1.symm, e3.trans hij.symm⟩
      · rw [List.getElem?_set_ne hqn] at h1
        exact hinv n l l0 h0 h1
    rcases traj_update_cases g t occ e with h | ⟨d, f, to', q, -, hm', hq, h | ⟨disp, -, h⟩⟩
    · rw [h]; exact ⟨hlen, hinv⟩
    · rw [h]; exact hmove d f to' q hm' hq
    · rw [h]; exact hmove d f to' q hm' hq

theorem displacement_modify {t : Trajectory K} {Q : Vec3 K → Prop} {q : Nat} {disp : Vec3 K}
    (hQ : ∀ v ∈ t.displacement, Q v) (hadd : ∀ v, Q v → Q (v + disp)) :
    ∀ v ∈ t.displacement.modify q (fun v => v + disp), Q v := by
  intro v hv
  obtain ⟨n, hn⟩ := List.mem_iff_getElem?.1 hv
  rw [List.getElem?_modify] at hn
  cases hx : t.displacement[n]? with
  | none => rw [hx] at hn; cases hn
  | some x =>
    rw [hx] at hn
    have hxm := hQ x (List.mem_of_getElem? hx)
    simp only [Option.map_eq_map, Option.map_some, Option.some.injEq] at hn
    split at hn
    · rw [← hn]; exact hadd x hxm
    · rw [← hn]; exact hxm

theorem init_displacement {g : Geometry K} {lookup : Option HopStateLookup} {occ : List Int}
    {t : Trajectory K} (ht : Trajectory.init g lookup occ = .ok t) :
    (∀ v ∈ t.displacement, v = 0) ∧ ∀ h ∈ t.hopCounter, h = 0 := by
  obtain ⟨-, h2, h3, -⟩ := traj_init_ok ht
  rw [h2, h3]
  simp

/-- C117.  If every event joins sites of one layer (same coordinate along the lattice direction
`c` up to whole cells), the accumulated displacement of every ion has no component along that
lattice direction: diffusion across the layers is exactly zero, for every lattice shape, rate
model and random stream. -/
theorem C117_no_motion_across_layers [IsStrictOrderedRing K] (k : Kernel R T U)
    (m : RateModel M R T) (g : Geometry K) (lookup : Option HopStateLookup)
    (summary : Trajectory K → T → List (String × Bool) → Row) (plan : PropertyPlan T V)
    (rng : Nat → U × U) (len equil prod : Nat) (s : Sim σ φ M R T) (c : Fin 3)
    (hb : NoBridge s.lib.events (fun _ => ())) (hlay : Layered g.fracCoords s.lib.events c)
    {rs : RunState σ φ M R T K V Row}
    (hr : (s.run k m g lookup summary plan rng len equil prod).tracker = some rs) :
    ∀ v ∈ rs.traj.displacement, ∃ f : Vec3 K, f c = 0 ∧ v = Matrix.vecMul f g.lattice := by
  obtain ⟨-, -, -, -, h⟩ := run_traj_inv k m g lookup summary plan rng len equil prod s
    (fun _ t => ∀ v ∈ t.displacement, ∃ f : Vec3 K, f c = 0 ∧ v = Matrix.vecMul f g.lattice)
    (fun occ t ht v hv => ⟨0, rfl, by rw [(init_displacement ht).1 v hv, Matrix.zero_vecMul]⟩)
    (fun _ t occ e he hinv => by
      obtain ⟨i, j, hm, -⟩ := hb e he
      rcases traj_update_cases g t occ e with h | ⟨d, f, to', q, hd, hm', hq, h | ⟨disp, hw, h⟩⟩
      · rw [h]; exact hinv
      · rw [h]; exact hinv
      · rw [h]
        refine displacement_modify hinv ?_
        rintro v ⟨f', hf', rfl⟩
        obtain ⟨a, b, ha, hb', rfl⟩ := wrappedHop_ok hm hw
        obtain ⟨n, hn⟩ := hlay e he i j a b hm ha hb'
        obtain ⟨w, hs, hw'⟩ := wrappedFrac_shortest hd a b
        have hz := shortestStep_layer hs hn
        have hz' : wrappedFrac d a b c = 0 := by
          rcases hw' with h' | h'
          · rw [h']; exact hz
          · rw [h', Pi.neg_apply, hz, neg_zero]
        refine ⟨f' + wrappedFrac d a b, by rw [Pi.add_apply, hf', hz', add_zero], ?_⟩
        rw [Matrix.add_vecMul]
        rfl) hr
  exact h

end

section
variable {σ φ M R T U V Row : Type}
variable [Add T] [Zero T] [Sub T] [LE T] [DecidableLE T]

/-- C117.  An ion never gets further than its hop count allows: if no event joins sites further
apart than `L`, the length of each ion's accumulated displacement is at most its number of
counted hops times `L`, whatever the rates and the random numbers are. -/
theorem C117_displacement_at_most_hops (k : Kernel R T U)
    (m : RateModel M R T) (g : Geometry ℝ) (lookup : Option HopStateLookup)
    (summary : Trajectory ℝ → T → List (String × Bool) → Row) (plan : PropertyPlan T V)
    (rng : Nat → U × U) (len equil prod : Nat) (s : Sim σ φ M R T) (L : ℝ)
    (hb : NoBridge s.lib.events (fun _ => ()))
    (hL : HopsAtMost g.fracCoords g.lattice s.lib.events L)
    {rs : RunState σ φ M R T ℝ V Row}
    (hr : (s.run k m g lookup summary plan rng len equil prod).tracker = some rs) :
    ∀ (n : Nat) (v : Vec3 ℝ) (hops : Nat), rs.traj.displacement[n]? = some v →
      rs.traj.hopCounter[n]? = some hops → length3 v ≤ (hops : ℝ) * L := by
  obtain ⟨-, -, -, -, h⟩ := run_traj_inv k m g lookup summary plan rng len equil prod s
    (fun _ t => ∀ (n : Nat) (v : Vec3 ℝ) (hops : Nat), t.displacement[n]? = some v →
      t.hopCounter[n]? = some hops → length3 v ≤ (hops : ℝ) * L)
    (fun occ t ht n v hops hv hh => by
      rw [(init_displacement ht).1 v (List.mem_of_getElem? hv),
        (init_displacement ht).2 hops (List.mem_of_getElem? hh), length3_zero]
      simp)
    (fun _ t occ e he hinv => by
      obtain ⟨i, j, hm, -⟩ := hb e he
      rcases traj_update_cases g t occ e with h | ⟨d, f, to', q, hd, hm', hq, h | ⟨disp, hw, h⟩⟩
      · rw [h]; exact hinv
      · rw [h]; exact hinv
      · rw [h]
        obtain ⟨a, b, ha, hb', rfl⟩ := wrappedHop_ok hm hw
        obtain ⟨w, hs, hw'⟩ := wrappedFrac_shortest hd a b
        have hlen : length3 (g.cart (wrappedFrac d a b)) ≤ L := by
          have h0 := hL e he i j a b w hm ha hb' hs
          rcases hw' with h' | h'
          · rw [h']; exact h0
          · rw [h']
            have : g.cart (-w) = -Matrix.vecMul w g.lattice := Matrix.neg_vecMul _ _
            rw [this, length3_neg]; exact h0
        intro n v hops hv hh
        simp only [List.getElem?_modify] at hv hh
        cases hx : t.displacement[n]? with
        | none => rw [hx] at hv; cases hv
        | some x =>
          cases hy : t.hopCounter[n]? with
          | none => rw [hy] at hh; cases hh
          | some y =>
            rw [hx] at hv
            rw [hy] at hh
            have h0 := hinv n x y hx hy
            simp only [Option.map_eq_map, Option.map_some, Option.some.injEq] at hv hh
            by_cases hqn : q = n
            · rw [if_pos hqn] at hv hh
              subst hv hh
              push_cast
              linarith [length3_add x (g.cart (wrappedFrac d a b))]
            · rw [if_neg hqn] at hv hh
              subst hv hh
              exact h0) hr
  exact h

end

/-! ### A concrete run meets the hypotheses -/

namespace NetworkSamples

/-- Two pairs of sites, one in the layer z = 0, the other in the layer z = 1/2. -/
def lib : EventLib Unit Unit :=
  ({} : EventLib Unit Unit).addAll [⟨[0, 1], [], none⟩, ⟨[2, 3], [], none⟩]

/-- Sites 0 and 1 are part 0, sites 2 and 3 are part 1. -/
def part (i : Nat) : Nat := i / 2

/-- The coordinates. -/
def coords {K : Type} [Field K] : List (Vec3 K) :=
  [![0, 0, 0], ![1 / 4, 0, 0], ![0, 0, 1 / 2], ![1 / 4, 0, 1 / 2]]

/-- A cubic cell. -/
def geometry : Geometry ℚ := ⟨coords, 1, 4⟩

/-- Draws choose the event. -/
def kernel : Kernel Int Int Nat := ⟨id, fun _ i _ => .ok (i, 1)⟩

/-- All rates are equal. -/
def model : RateModel Unit Int Int :=
  ⟨fun _ _ => .ok (), fun _ _ _ => (.ok (), ()), fun _ _ _ => .ok 1⟩

/-- The first layer holds one ion, the second is full. -/
def sim : Sim Unit Unit Unit Int Int :=
  { lib := { lib with deps := some [[0], [1]] }, st := ⟨[0, 1, 0, 0], 0, 0⟩, ms := (), prob := [1, 1],
    cum := [1, 2] }

/-- One production pass of one step in which the first event fires. -/
def result : RunResult Unit Unit Unit Int Int ℚ Unit Unit :=
  sim.run kernel model geometry none (fun _ _ _ => ()) {} (fun _ => (0, 0)) 1 0 1

/-- The run moved the ion of the first layer and left the full layer alone. -/
example : result.sim.st.occ = [1, 0, 0, 0] ∧
    result.tracker.map (·.traj.locations) = some [1, 2, 3] := by
  decide +kernel

theorem events_eq : sim.lib.events = [⟨[0, 1], [], none⟩, ⟨[2, 3], [], none⟩] := rfl

theorem noBridge : NoBridge sim.lib.events part := by
  intro e he
  rw [events_eq] at he
  simp only [List.mem_cons, List.not_mem_nil, or_false] at he
  rcases he with rfl | rfl
  · exact ⟨0, 1, rfl, rfl⟩
  · exact ⟨2, 3, rfl, rfl⟩

/-- The second layer is full and stays full. -/
example : ∀ i < 4, part i = 1 → result.sim.st.occ[i]? = some 0 :=
  C117_uniform_part_never_changes kernel model geometry none (fun _ _ _ => ()) {} (fun _ => (0, 0))
    1 0 1 sim part noBridge 1 0 (by decide)

/-- The parts are needed: as one part the four sites do change. -/
example : result.sim.st.occ ≠ sim.st.occ := by decide +kernel

/-- Hops stay within the layers. -/
theorem layered : Layered geometry.fracCoords sim.lib.events 2 := by
  intro e he i j a b hm ha hb
  rw [events_eq] at he
  simp only [List.mem_cons, List.not_mem_nil, or_false] at he
  rcases he with rfl | rfl
  · simp only [List.cons.injEq, and_true] at hm
    obtain rfl : i = 0 := by omega
    obtain rfl : j = 1 := by omega
    simp only [geometry, coords, List.getElem?_cons_zero, List.getElem?_cons_succ,
      Option.some.injEq] at ha hb
    subst ha hb
    exact ⟨0, by simp⟩
  · simp only [List.cons.injEq, and_true] at hm
    obtain rfl : i = 2 := by omega
    obtain rfl : j = 3 := by omega
    simp only [geometry, coords, List.getElem?_cons_zero, List.getElem?_cons_succ,
      Option.some.injEq] at ha hb
    subst ha hb
    exact ⟨0, by simp⟩

/-- No hop is longer than one quarter of the cell. -/
example : HopsAtMost coords 1 sim.lib.events (1 / 4) := by
  intro e he i j a b f hm ha hb hf
  have key : ∀ x y : Vec3 ℝ, y 0 - x 0 = 1 / 4 → y 1 - x 1 = 0 → y 2 - x 2 = 0 →
      ShortestStep x y f → length3 (Matrix.vecMul f 1) ≤ 1 / 4 := by
    intro x y e0 e1 e2 hs
    have h1 : f 1 = 0 := shortestStep_layer hs (n := 0) (by rw [e1]; simp)
    have h2 : f 2 = 0 := shortestStep_layer hs (n := 0) (by rw [e2]; simp)
    have h0 : f 0 = 1 / 4 := by
      obtain ⟨hle, n, hn⟩ := hs 0
      rw [e0] at hn
      have h3 := abs_le.1 hle
      rw [hn] at h3
      have h4 : n = 0 := by
        have a1 : (n : ℝ) < 1 := by linarith [h3.2]
        have a2 : (-1 : ℝ) < n := by linarith [h3.1]
        have b1 : n < 1 := by exact_mod_cast a1
        have b2 : -1 < n := by exact_mod_cast a2
        omega
      rw [hn, h4]; simp
    rw [Matrix.vecMul_one]
    unfold length3
    rw [h0, h1, h2]
    have : ((1 : ℝ) / 4) ^ 2 + 0 ^ 2 + 0 ^ 2 = (1 / 4) ^ 2 := by ring
    rw [this, Real.sqrt_sq (by norm_num)]
  rw [events_eq] at he
  simp only [List.mem_cons, List.not_mem_nil, or_false] at he
  rcases he with rfl | rfl
  · simp only [List.cons.injEq, and_true] at hm
    obtain rfl : i = 0 := by omega
    obtain rfl : j = 1 := by omega
    simp only [coords, List.getElem?_cons_zero, List.getElem?_cons_succ, Option.some.injEq] at ha hb
    subst ha hb
    exact key _ _ (by simp) (by simp) (by simp) hf
  · simp only [List.cons.injEq, and_true] at hm
    obtain rfl : i = 2 := by omega
    obtain rfl : j = 3 := by omega
    simp only [coords, List.getElem?_cons_zero, List.getElem?_cons_succ, Option.some.injEq] at ha hb
    subst ha hb
    exact key _ _ (by simp) (by simp) (by simp) hf

end NetworkSamples
end KMC
