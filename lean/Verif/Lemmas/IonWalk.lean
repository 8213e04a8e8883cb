import Verif.Lemmas.Drift
import Verif.Lemmas.ReversibleWalk
/-
Lemmas for mean square displacements in equilibrium (C131).
-/
set_option linter.unusedSectionVars false

namespace KMC
open Spec MeasureTheory Filter Topology ProbabilityTheory

/-- Where the event leaves an ion that is on site `k`. -/
def movedTo (k : Nat) (e : Event) : Nat :=
  match e.mobile with
  | [f, t] => if f = (k : Int) then t.toNat else if t = (k : Int) then f.toNat else k
  | _ => k

/-- The displacement of the ion that is on site `k` before the events. -/
noncomputable def ionWalk (v : Event → Vec3 ℝ) : Nat → List Event → Vec3 ℝ
  | _, [] => 0
  | k, e :: p => wayOut v k e + ionWalk v (movedTo k e) p

section
variable {σ φ ψ : Type}
variable {o : ActiveSiteOrder String ψ} {mobile : String} {h : HopStateLookup}
  {m : RateModel Unit ℝ EReal} {g : Geometry ℝ} {lib : EventLib σ φ} {st : State EReal}
  {s0 : Sim σ φ Unit ℝ EReal}

theorem wayOut_pair {e : Event} {f t : Nat} (he : e.mobile = [(f : Int), (t : Int)]) (v : Event → Vec3 ℝ) (k : Nat) :
    wayOut v k e = if f = k then v e else if t = k then -v e else 0 := by
  unfold wayOut
  rw [he]
  simp only [Nat.cast_inj]

theorem movedTo_pair {e : Event} {f t : Nat} (he : e.mobile = [(f : Int), (t : Int)]) (k : Nat) :
    movedTo k e = if f = k then t else if t = k then f else k := by
  unfold movedTo
  rw [he]
  simp only [Nat.cast_inj, Int.toNat_natCast]

/-- One step of the tracker, ion by ion. -/
theorem ion_step (hs : HopSystem o mobile h Rounding.exact m g lib st)
    (hi : Sim.init (realKernel Rounding.exact) m lib.generateEventDependencies (some h) (some st) = .ok s0)
    {v : Event → Vec3 ℝ} (hv : ∀ e ∈ s0.lib.events, IsHopVector g e (v e))
    {s : Sim σ φ Unit ℝ EReal} {t t1 : Trajectory ℝ} {e : Event} (he : e ∈ s0.lib.events)
    (hd0 : ∀ d, eventDirection s.st.occ e = .ok d → d ≠ 0) (hut : t.update g s.st.occ e = (.ok (), t1))
    (inv : SimInv o mobile Rounding.exact m s0 s) (htr : Tracks h t s.st.occ) (hal : Aligned t)
    {j k : Nat} (hj : t.locations[j]? = some (k : Int)) :
    t1.locations[j]? = some (movedTo k e : Int) ∧
      t1.displacement[j]? = (t.displacement[j]?).map fun x => x + wayOut v k e := by
  have hst : st = s0.st := by
    obtain ⟨i1, -⟩ := init_ok hi
    simpa using i1
  have hlen : s.st.occ.length = st.occ.length := by rw [inv.len, hst]
  obtain ⟨d, hd, ⟨h0, -⟩ | ⟨h0, f', to', i, disp, hm', hl, hvec, rfl⟩⟩ := traj_update_ok hut
  · exact absurd h0 (hd0 d hd)
  obtain ⟨f, w, h1, hf, hto, hall, d', h2, h3, h4, h5⟩ := direction_species hs hi hlen inv.labelled he
  rw [hd] at h2
  cases h2
  rw [h1] at hm'
  simp only [List.cons.injEq, and_true] at hm'
  obtain ⟨rfl, rfl⟩ := hm'
  have hion : ∀ i : Nat, (i : Int) ∈ t.locations ↔ speciesAt o s.st.occ i = some mobile := by
    intro i
    rw [htr.sites, ← ionAt_iff_species inv.labelled hs.lookup]
    constructor
    · rintro ⟨k, hk, h⟩
      rw [Nat.cast_inj] at hk
      exact hk ▸ h
    · intro h
      exact ⟨i, rfl, h⟩
  have hnot : ∀ i, Vacant o s.st.occ i → speciesAt o s.st.occ i ≠ some mobile := by
    rintro i ⟨v, hv, hv'⟩ hi'
    rw [hi'] at hv'
    cases hv'
    exact inv.labelled.mobileNotVacancy hv
  have hk : speciesAt o s.st.occ k = some mobile := (hion k).1 (List.mem_of_getElem? hj)
  have hdisp := hopVector_displacement (hv e he) hvec (by
    rcases eventDirection_values hd with h | h | h
    · exact .inl h
    · exact .inr h
    · exact absurd h h0)
  rw [wayOut_pair h1, movedTo_pair h1]
  have hne : f ≠ w := by
    rintro rfl
    rcases h5 with rfl | rfl | rfl
    · exact hnot f (h3.1 rfl).2 (h3.1 rfl).1
    · exact hnot f (h4.1 rfl).2 (h4.1 rfl).1
    · exact h0 rfl
  have hil := (List.getElem?_eq_some_iff.1 hl).1
  have hmod : ∀ (l : List (Vec3 ℝ)) (x : Vec3 ℝ), (l.modify i (fun v => v + x))[j]? =
      (l[j]?).map fun y => y + if i = j then x else 0 := by
    intro l x
    rw [List.getElem?_modify]
    by_cases hij : i = j
    · simp [hij]
    · simp [hij]
  simp only [hmod, hdisp]
  by_cases hij : i = j
  · subst hij
    rw [hl] at hj
    simp only [Option.some.injEq] at hj
    rcases h5 with rfl | rfl | rfl
    · simp only [if_true, Nat.cast_inj] at hj
      subst hj
      simp [List.getElem?_set_self hil]
    · rw [if_neg (by decide), Nat.cast_inj] at hj
      subst hj
      simp [List.getElem?_set_self hil, hne]
    · exact absurd rfl h0
  · have hkn : f ≠ k ∧ w ≠ k := by
      have hsrc : (if d = 1 then (f : Int) else (w : Int)) ≠ (k : Int) := by
        intro hc
        rw [hc] at hl
        exact hij ((List.getElem?_inj hil htr.nodup).1 (hl.trans hj.symm))
      rcases h5 with rfl | rfl | rfl
      · rw [if_pos rfl] at hsrc
        exact ⟨fun hc => hsrc (by rw [hc]), fun hc => hnot w (h3.1 rfl).2 (hc ▸ hk)⟩
      · rw [if_neg (by decide)] at hsrc
        exact ⟨fun hc => hnot f (h4.1 rfl).2 (hc ▸ hk), fun hc => hsrc (by rw [hc])⟩
      · exact absurd rfl h0
    rw [List.getElem?_set_ne hij, hj, if_neg hkn.1, if_neg hkn.2]
    simp [hij, hkn.1, hkn.2]

open Classical in
/-- The sites that hold a mobile ion. -/
noncomputable def ionsAt (o : ActiveSiteOrder String ψ) (mobile : String) (occ : List Int) : Finset Nat :=
  (Finset.range occ.length).filter fun k => speciesAt o occ k = some mobile

theorem mem_ionsAt {occ : List Int} {k : Nat} : k ∈ ionsAt o mobile occ ↔ speciesAt o occ k = some mobile := by
  unfold ionsAt
  rw [Finset.mem_filter, Finset.mem_range, and_iff_right_iff_imp]
  intro hk
  by_contra hc
  rw [speciesAt, List.getElem?_eq_none (not_lt.1 hc)] at hk
  cases hk

/-- The tracker adds up the ways of every ion. -/
theorem tracked_ions (hs : HopSystem o mobile h Rounding.exact m g lib st)
    (hi : Sim.init (realKernel Rounding.exact) m lib.generateEventDependencies (some h) (some st) = .ok s0)
    {v : Event → Vec3 ℝ} (hv : ∀ e ∈ s0.lib.events, IsHopVector g e (v e))
    {rng : Nat → ℝ × ℝ} (hr : ∀ c, 0 ≤ (rng c).1 ∧ (rng c).1 < 1) {c : Nat}
    {s s' : Sim σ φ Unit ℝ EReal} {t t' : Trajectory ℝ} {hist : List (List Int × Event)}
    (hts : TrackedSteps (realKernel Rounding.exact) m g rng c s t hist s' t')
    (inv : SimInv o mobile Rounding.exact m s0 s) (htr : Tracks h t s.st.occ) (hal : Aligned t) :
    ∃ hist', Steps (realKernel Rounding.exact) m rng true c s hist' s' ∧ hist'.length = hist.length ∧
      t'.displacement.length = t.displacement.length ∧
      ∀ j k : Nat, t.locations[j]? = some (k : Int) →
        t'.displacement[j]? = (t.displacement[j]?).map fun x => x + ionWalk v k (hist'.map (·.1)) := by
  induction hts with
  | nil => exact ⟨[], .nil _ _, rfl, rfl, fun j k _ => by simp [ionWalk]⟩
  | @cons c s s1 s2 t t1 t2 e dt hist hp hut hu _ ih =>
    obtain ⟨he, hd0⟩ := proposed_possible hs inv (hr _).1 (hr _).2 hp
    obtain ⟨-, t', h1, h2⟩ := tracked_step hs hi inv htr (hr _).1 (hr _).2 hp
    rw [hut] at h1
    simp only [Prod.mk.injEq, true_and] at h1
    subst h1
    obtain ⟨hist', j1, j2, j3, j4⟩ := ih (sim_inv_update hs hi inv he hu).1 (h2 _ hu) (aligned_update hal hut)
    refine ⟨(e, dt) :: hist', .cons hp (by simpa using hu) j1, by simp [j2], ?_, ?_⟩
    · rw [j3]
      obtain ⟨d, hd, ⟨-, rfl⟩ | ⟨h0, f, to', i, disp, -, hl, hw, rfl⟩⟩ := traj_update_ok hut
      · rfl
      · simp
    · intro j k hj
      obtain ⟨i1, i2⟩ := ion_step hs hi hv he hd0 hut inv htr hal hj
      rw [j4 j _ i1, i2, Option.map_map]
      congr 1
      funext x
      simp only [Function.comp, List.map_cons, ionWalk, add_assoc]

/-- What the tracker reports for the ions at the end of a run. -/
theorem run_ions {V Row : Type} (hs : HopSystem o mobile h Rounding.exact m g lib st)
    (ha : Answers o mobile m lib.events st.occ)
    (hi : Sim.init (realKernel Rounding.exact) m lib.generateEventDependencies (some h) (some st) = .ok s0)
    {v : Event → Vec3 ℝ} (hv : ∀ e ∈ s0.lib.events, IsHopVector g e (v e))
    {rng : Nat → ℝ × ℝ} (hr : ∀ c, 0 ≤ (rng c).1 ∧ (rng c).1 < 1)
    {summary : Trajectory ℝ → EReal → List (String × Bool) → Row} {plan : PropertyPlan EReal V}
    {len equil prod : Nat}
    (hok : (s0.run (realKernel Rounding.exact) m g (some h) summary plan rng len equil prod).outcome = .ok ()) :
    ∃ (rs : RunState σ φ Unit ℝ EReal ℝ V Row) (hist1 hist2 : List (Event × EReal)) (s1 s2 : Sim σ φ Unit ℝ EReal),
      (s0.run (realKernel Rounding.exact) m g (some h) summary plan rng len equil prod).tracker = some rs ∧
      Steps (realKernel Rounding.exact) m rng true 0 s0 hist1 s1 ∧
      Steps (realKernel Rounding.exact) m rng true (equil * len) s1 hist2 s2 ∧
      hist1.length = equil * len ∧ hist2.length = prod * len ∧
      ∀ G : Vec3 ℝ → ℝ, (rs.traj.displacement.map G).sum =
        ∑ k ∈ ionsAt o mobile (afterAll s0.st (hist1.map (·.1))).occ, G (ionWalk v k (hist2.map (·.1))) := by
  obtain ⟨s1, traj, sm, rs, a1, a2, -, a4, a5⟩ := run_ok hok
  obtain ⟨eq, hl1, heq⟩ := equilSteps_steps a1
  obtain ⟨hist, hl, hh⟩ := passes_tracked a4
  have inv1 := sim_inv_steps hs hi hr heq (sim_init_inv hs hi)
  have htr := traj_init_tracks a2
  have hal := traj_init_aligned a2
  obtain ⟨hist2, j1, j2, j3, j4⟩ := tracked_ions hs hi hv hr hh inv1 htr hal
  obtain ⟨s1', k1, k2, k3, k4⟩ := steps_congr hs ha hi true heq s0 (met_start hs hi) (met_start hs hi) rfl
  obtain ⟨s2', k5, -, -, -⟩ := steps_congr hs ha hi true j1 s1' k2 k3 k4
  refine ⟨rs, eq, hist2, s1', s2', by rw [a5], k1, k5, hl1, by rw [j2, hl], ?_⟩
  intro G
  have hnat : ∀ i ∈ traj.locations, ∃ k : Nat, i = (k : Int) ∧ speciesAt o s1.st.occ k = some mobile := by
    intro i hi'
    obtain ⟨k, hk, hk'⟩ := (htr.sites i).1 hi'
    exact ⟨k, hk, (ionAt_iff_species inv1.labelled hs.lookup _).1 hk'⟩
  have hlist : rs.traj.displacement = traj.locations.map fun i => ionWalk v i.toNat (hist2.map (·.1)) := by
    apply List.ext_getElem?
    intro j
    cases hj : traj.locations[j]? with
    | none =>
      have h1 : rs.traj.displacement.length = traj.locations.length := by rw [j3, hal.disp]
      have h2 := List.getElem?_eq_none_iff.1 hj
      rw [List.getElem?_eq_none (by omega), List.getElem?_eq_none (by simpa using h2)]
    | some i =>
      obtain ⟨k, rfl, -⟩ := hnat i (List.mem_of_getElem? hj)
      rw [j4 j k hj, List.getElem?_map, hj]
      obtain ⟨-, h2, -, -⟩ := traj_init_ok a2
      have h3 := (List.getElem?_eq_some_iff.1 hj).1
      have h0 : traj.displacement[j]? = some 0 := by
        have : j < traj.displacement.length := by rw [hal.disp]; exact h3
        rw [List.getElem?_eq_getElem this]
        simp [h2]
      rw [h0]
      simp
  have hocc : (afterAll s0.st (eq.map (·.1))).occ = s1.st.occ := by rw [steps_after k1, k4]
  rw [hlist, hocc, List.map_map]
  have e1 : (traj.locations.map (G ∘ fun i => ionWalk v i.toNat (hist2.map (·.1)))) =
      (traj.locations.map Int.toNat).map fun k => G (ionWalk v k (hist2.map (·.1))) := by
    rw [List.map_map]
    rfl
  have hnd : (traj.locations.map Int.toNat).Nodup := by
    refine htr.nodup.map_on ?_
    intro i hi' i' hi'' hii
    obtain ⟨k, rfl, -⟩ := hnat i hi'
    obtain ⟨k', rfl, -⟩ := hnat i' hi''
    simpa using hii
  rw [e1, ← List.sum_toFinset _ hnd]
  refine Finset.sum_congr ?_ fun _ _ => rfl
  ext k
  rw [List.mem_toFinset, List.mem_map, mem_ionsAt, ← ionAt_iff_species inv1.labelled hs.lookup]
  constructor
  · rintro ⟨i, hi', rfl⟩
    obtain ⟨k, rfl, hk⟩ := hnat i hi'
    rw [Int.toNat_natCast]
    exact (ionAt_iff_species inv1.labelled hs.lookup _).2 hk
  · intro hk
    exact ⟨(k : Int), (htr.sites _).2 ⟨k, rfl, hk⟩, by simp⟩

end
end KMC
