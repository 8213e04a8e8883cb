import Verif.Lemmas.Forget
import Verif.Props.SiteEnergyRunProps
import Verif.Props.OneSimulationProps
/-
C110: a simulation with an external energy calculator is the simulation of an energy of the whole
configuration; its memory makes no difference, and long runs give Boltzmann averages.
-/
set_option linter.unusedSectionVars false

namespace KMC
open Spec SiteEnergy MeasureTheory Filter Topology ProbabilityTheory

section rates
variable {Rt T : Type}

theorem afterHop_of {occ : List Int} {e : Event} {d : Int} (h : eventDirection occ e = .ok d) :
    ∃ (f t : Int) (i j : Nat) (hi : i < occ.length) (hj : j < occ.length), e.mobile = [f, t] ∧
      pyIdx occ.length f = some i ∧ pyIdx occ.length t = some j ∧
      afterHop e occ = .ok ((occ.set i occ[j]).set j occ[i]) := by
  obtain ⟨f, t, i, j, vf, vt, hm, hi, hj, -, -, -⟩ := eventDirection_ok h
  refine ⟨f, t, i, j, pyIdx_lt hi, pyIdx_lt hj, hm, hi, hj, ?_⟩
  simp only [afterHop, hm, hi, hj]
  simp [pyIdx_lt hi, pyIdx_lt hj]

theorem applyEvent_afterHop [Add T] {st st' : State T} {e : Event} {dt : T}
    (h : st.applyEvent e dt = (.ok (), st')) : afterHop e st.occ = .ok st'.occ := by
  obtain ⟨f, t, i, j, hi, hj, hm, h1, h2, rfl⟩ := applyEvent_ok h
  simp only [afterHop, hm, h1, h2]
  simp [hi, hj]

theorem applyEvent_of_direction [Add T] {st : State T} {e : Event} {d : Int}
    (h : eventDirection st.occ e = .ok d) (dt : T) :
    ∃ st', st.applyEvent e dt = (.ok (), st') ∧ afterHop e st.occ = .ok st'.occ := by
  obtain ⟨f, t, i, j, hi, hj, hm, h1, h2, h3⟩ := afterHop_of h
  refine ⟨⟨(st.occ.set i st.occ[j]).set j st.occ[i], st.time + dt, st.step + 1⟩, ?_, h3⟩
  unfold State.applyEvent
  simp only [hm, unpack2]
  rw [pyGet_of_idx h1, pyGet_of_idx h2]
  simp [pySet, h1, h2]

theorem covers_perm {m : SiteEnergy Rt T} {a b : List Int} (h : b.Perm a) (hc : MappingCovers m a) :
    MappingCovers m b :=
  fun i v hi hv => hc i v (by rw [← h.length_eq]; exact hi) (h.mem_iff.1 hv)

/-- On a faithful picture the calculator's answer is the energy after the hop minus the energy before. -/
theorem external_difference [Add T] {m : SiteEnergy Rt T} (hd : MappingsAreDicts m)
    {Eext : List ExtVal → ℝ} (hfn : GivesDifferences m Eext) {bg : List ExtVal} {E : List Int → ℝ}
    {s : SiteEnergyState Rt} {st : State T} {e : Event} {d : Int} (hF : Faithful m bg s st)
    (hcov : MappingCovers m st.occ)
    (hE : ∀ occ ext, occ.Perm st.occ → Mirrors m bg occ ext → E occ = Eext ext)
    (hdir : eventDirection st.occ e = .ok d) (dir : Int) :
    (m.compute s e st).1 = (energySource E).difference () e st dir := by
  obtain ⟨st', ha, hafter⟩ := applyEvent_of_direction hdir st.time
  obtain ⟨f, t, i, j, -, -, hm, hi, hj, -⟩ := afterHop_of hdir
  obtain ⟨fn, hcf, hall⟩ := hfn
  obtain ⟨changes, rt, dt, ext, hdesc, hrt, hx, hc⟩ :=
    C71_compute_reaches_calculator m hd bg s st e f t i j hF hcov hm hi hj fn hcf
  have hperm : st'.occ.Perm st.occ := by
    have := applyEvent_perm st e st.time
    rw [ha] at this
    exact this
  obtain ⟨d', ext', hx', -, hM⟩ := hF.picture
  rw [hx] at hx'
  cases hx'
  have hM' := C40_changes_give_next_picture m bg st st' e st.time ext changes hF.distinct hM hdesc ha
  simp only [energySource, hafter]
  rw [hc, hE _ _ hperm hM', hE _ _ (List.Perm.refl _) hM]
  split
  · rename_i h0
    subst h0
    simp [withChanges]
  · obtain ⟨x, h1, h2⟩ := hall rt ext changes e st
    rw [h1]
    simp only [RawEnergy.toMeV, h2]

/-- The external model's memory follows the state and its rates are those of the energy. -/
theorem external_replaces [Add T] {m : SiteEnergy Rt T} (hd : MappingsAreDicts m)
    {Eext : List ExtVal → ℝ} (hfn : GivesDifferences m Eext) (hok : CommitNeverFails m) {bg : List ExtVal}
    {occ0 : List Int} {E : List Int → ℝ}
    (hE : ∀ occ ext, occ.Perm occ0 → Mirrors m bg occ ext → E occ = Eext ext)
    (kra : Option (LCE ℝ)) (s0 : SiteEnergyState Rt) (order : Option OrderRef) (kB temp ν : ℝ)
    {P : Event → Prop} {src : SiteSource Unit T} (hq : ∀ e st, src.applyEvent () e st = (.ok (), ()))
    (hsrc : ∀ e (st : State T) d, P e → st.occ.length = occ0.length →
      src.difference () e st d = (energySource E).difference () e st d) :
    Replaces ((⟨kra, m.source s0 order⟩ : Composite _ T).rateModel kB temp ν)
      ((⟨kra, src⟩ : Composite _ T).rateModel kB temp ν) P
      (fun ms st => Faithful m bg ms st ∧ MappingCovers m st.occ ∧ st.occ.Perm occ0) := by
  refine ⟨?_, ?_, fun e st => hq e st⟩
  · rintro ms st e ⟨hF, hcov, hperm⟩ he
    simp only [Composite.rateModel, Composite.computeProbability]
    cases hdir : eventDirection st.occ e with
    | error x => rfl
    | ok d =>
      simp only
      split
      · rfl
      · cases kra with
        | none => rfl
        | some kra =>
          simp only
          cases kra.compute st.occ e with
          | error x => rfl
          | ok a =>
            have := external_difference hd hfn hF hcov (E := E)
              (fun occ ext hp hM => hE occ ext (hp.trans hperm) hM) hdir d
            simp only [SiteEnergy.source, SiteSource.model, this, hsrc e st d he hperm.length_eq]
  · rintro ms st st' e dt ⟨hF, hcov, hperm⟩ - ha
    obtain ⟨s', h1, h2, h3⟩ := C71_commit_succeeds m hd bg ms st st' e dt hF hcov hok ha
    refine ⟨s', h1, h2, h3, List.Perm.trans ?_ hperm⟩
    have := applyEvent_perm st e dt
    rw [ha] at this
    exact this

end rates

section run
variable {σ φ Rt T U K V Row : Type} [Field K] [LinearOrder K] [FloorRing K]
variable [Add T] [Zero T] [Sub T] [LE T] [DecidableLE T]

/-- C110.  A simulation with an external calculator that returns differences of an energy of the external
occupation is, draw by draw and for every arithmetic, the simulation whose rates are computed directly from that
energy of the whole configuration after and before each hop: same construction, same result of every run - final
state, clock, rate tables, trajectory, records and exceptions.  Nothing is left of the incrementally updated
copy of the occupation that the model keeps. -/
theorem C110_same_run (k : Kernel ℝ T U) (kra : Option (LCE ℝ)) (m : SiteEnergy Rt T)
    (s0 : SiteEnergyState Rt) (order : Option OrderRef) (kB temp ν : ℝ) (hd : MappingsAreDicts m)
    (Eext : List ExtVal → ℝ) (hE : EnergyOfValues Eext) (hfn : GivesDifferences m Eext)
    (hok : CommitNeverFails m) (lib : EventLib σ φ) (lookup : Option HopStateLookup) (st : State T)
    (sim : Sim σ φ (SiteEnergyState Rt) ℝ T) (hdist : SitesDistinct m st.occ.length)
    (hcov : MappingCovers m st.occ)
    (hinit : Sim.init k ((⟨kra, m.source s0 order⟩ : Composite _ T).rateModel kB temp ν) lib lookup
      (some st) = .ok sim)
    (hfit : ∀ d ext, sim.ms.external = some (d, ext) → ValuesFit m d st.occ) :
    ∃ d ext bg, sim.ms.external = some (d, ext) ∧ IsBackground m st.occ.length d bg ∧
      Sim.init k ((⟨kra, energySource (pictureEnergy m bg Eext)⟩ : Composite _ T).rateModel kB temp ν) lib
        lookup (some st) = .ok (forget sim) ∧
      ∀ (g : Geometry K) (lookup' : Option HopStateLookup)
        (summary : Trajectory K → T → List (String × Bool) → Row) (plan : PropertyPlan T V)
        (rng : Nat → U × U) (len equil prod : Nat),
        forgetResult (sim.run k ((⟨kra, m.source s0 order⟩ : Composite _ T).rateModel kB temp ν) g lookup'
          summary plan rng len equil prod) =
        (forget sim).run k ((⟨kra, energySource (pictureEnergy m bg Eext)⟩ : Composite _ T).rateModel kB temp ν)
          g lookup' summary plan rng len equil prod := by
  obtain ⟨h1, -, -, -, -, -, h7, -⟩ := init_ok hinit
  cases h1
  obtain ⟨d, ext, bg, x1, x2, hF⟩ := faithful_init hd hdist (source_init h7) hfit
  have hS := external_replaces hd hfn hok (bg := bg) (occ0 := sim.st.occ) (E := pictureEnergy m bg Eext)
    (fun occ ext _ hM => pictureEnergy_of hE hM) kra s0 order kB temp ν (P := fun _ => True)
    (src := energySource (pictureEnergy m bg Eext)) (fun _ _ => rfl) (fun _ _ _ _ _ => rfl)
  refine ⟨d, ext, bg, x1, x2, ?_, fun g lookup' summary plan rng len equil prod => ?_⟩
  · exact init_forget hS hinit (fun _ _ => trivial) ⟨hF, hcov, List.Perm.refl _⟩ (fun _ _ => rfl)
  · exact (run_forget hS g lookup' summary plan rng len equil prod sim (fun _ _ => trivial)
      ⟨hF, hcov, List.Perm.refl _⟩).symm

end run

/-! ### A local energy makes an ordinary simulation -/

section picture
variable {Rt T : Type}

/-- Some active site at `p` holds a state whose value is `x`. -/
def ValueAt (m : SiteEnergy Rt T) (occ : List Int) (p : Nat) (x : ExtVal) : Prop :=
  ∃ (i : Nat) (v : Int), occ[i]? = some v ∧ extSite m i = some (p : Int) ∧ extValue m i v = some x

open Classical in
/-- The entry of a picture at `p`. -/
noncomputable def entryAt (Q : ExtVal → Prop) (x : ExtVal) : ExtVal := if h : ∃ x, Q x then h.choose else x

/-- A picture for every configuration, sites without a mapped value showing the background. -/
noncomputable def anyPicture (m : SiteEnergy Rt T) (bg : List ExtVal) (occ : List Int) : List ExtVal :=
  (List.range bg.length).map fun p => entryAt (ValueAt m occ p) (bg.getD p (.int 0))

theorem anyPicture_length (m : SiteEnergy Rt T) (bg : List ExtVal) (occ : List Int) :
    (anyPicture m bg occ).length = bg.length := by simp [anyPicture]

theorem anyPicture_congr {m : SiteEnergy Rt T} {bg : List ExtVal} {occ occ' : List Int}
    (hl : occ.length = occ'.length) {p : Nat}
    (h : ∀ k < occ.length, extSite m k = some (p : Int) → occ[k]? = occ'[k]?) :
    (anyPicture m bg occ)[p]? = (anyPicture m bg occ')[p]? := by
  have hV : ValueAt m occ p = ValueAt m occ' p := by
    funext x
    apply propext
    constructor
    · rintro ⟨i, v, h1, h2, h3⟩
      have hi : i < occ.length := (List.getElem?_eq_some_iff.1 h1).1
      exact ⟨i, v, by rw [← h i hi h2]; exact h1, h2, h3⟩
    · rintro ⟨i, v, h1, h2, h3⟩
      have hi : i < occ.length := by rw [hl]; exact (List.getElem?_eq_some_iff.1 h1).1
      exact ⟨i, v, by rw [h i hi h2]; exact h1, h2, h3⟩
  unfold anyPicture
  by_cases hp : p < bg.length
  · simp only [List.getElem?_map, List.getElem?_range hp, Option.map_some, hV]
  · rw [List.getElem?_eq_none (by simp; omega), List.getElem?_eq_none (by simp; omega)]

theorem anyPicture_mirrors {m : SiteEnergy Rt T} {bg : List ExtVal} {occ : List Int}
    (hdist : SitesDistinct m occ.length) (hcov : MappingCovers m occ)
    (hin : ∀ i < occ.length, ∃ p : Nat, extSite m i = some (p : Int) ∧ p < bg.length) :
    Mirrors m bg occ (anyPicture m bg occ) := by
  refine ⟨anyPicture_length m bg occ, ?_, ?_⟩
  · intro i v hv
    have hi : i < occ.length := (List.getElem?_eq_some_iff.1 hv).1
    obtain ⟨p, hp, hpl⟩ := hin i hi
    obtain ⟨x, hx⟩ := hcov i v hi (List.mem_of_getElem? hv)
    refine ⟨p, x, x, hp, hx, ?_, rfl⟩
    have hex : ∃ x, ValueAt m occ p x := ⟨x, i, v, hv, hp, hx⟩
    have : hex.choose = x := by
      obtain ⟨i', v', h1, h2, h3⟩ := hex.choose_spec
      have hi' : i' < occ.length := (List.getElem?_eq_some_iff.1 h1).1
      have : i' = i := hdist i' i hi' hi (by rw [h2, hp])
      subst this
      rw [hv] at h1
      cases h1
      rw [hx] at h3
      exact (Option.some.inj h3).symm
    unfold anyPicture
    simp only [List.getElem?_map, List.getElem?_range hpl, Option.map_some, entryAt, dif_pos hex, this]
  · intro p hp
    have hno : ¬ ∃ x, ValueAt m occ p x := by
      rintro ⟨x, i, v, h1, h2, -⟩
      exact hp i (List.getElem?_eq_some_iff.1 h1).1 h2
    unfold anyPicture
    by_cases hpl : p < bg.length
    · simp only [List.getElem?_map, List.getElem?_range hpl, Option.map_some, entryAt, dif_neg hno]
      simp [hpl]
    · rw [List.getElem?_eq_none (by simp; omega), List.getElem?_eq_none (by omega)]

open Classical in
/-- The energy difference for hops of the given events on `n` sites. -/
noncomputable def guardedSource (n : Nat) (events : List Event) (E : List Int → ℝ) : SiteSource Unit T where
  initializeState := fun _ _ => .ok ()
  applyEvent := fun _ _ _ => (.ok (), ())
  difference := fun _ e st d =>
    if st.occ.length = n ∧ ∃ x ∈ events, e.mobile = x.mobile ∧ e.env = x.env then
      (energySource E).difference () e st d
    else .ok 0

theorem exchange_get {occ : List Int} {i j k : Nat} (hi : i < occ.length) (hj : j < occ.length) :
    ((occ.set i occ[j]).set j occ[i])[k]? = if k = j then occ[i]? else if k = i then occ[j]? else occ[k]? := by
  by_cases hkj : k = j
  · subst hkj
    rw [List.getElem?_set_self (by simpa using hj), if_pos rfl]
    simp [hi]
  · rw [List.getElem?_set_ne (Ne.symm hkj), if_neg hkj]
    by_cases hki : k = i
    · subst hki
      rw [List.getElem?_set_self hi, if_pos rfl]
      simp [hj]
    · rw [List.getElem?_set_ne (Ne.symm hki), if_neg hki]

/-- With a local energy the difference depends on the sites of the event alone. -/
theorem guarded_local {m : SiteEnergy Rt T} {n : Nat} {events : List Event} {Eext : List ExtVal → ℝ}
    (hloc : LocalEnergy m n events Eext) (hdist : SitesDistinct m n) {bg : List ExtVal} {e : Event} {s s' : State T}
    (hl : s.occ.length = s'.occ.length) (h : ∀ i ∈ e.mobile ++ e.env, pyGet s.occ i = pyGet s'.occ i)
    {d0 : Int} (hdir : eventDirection s.occ e = .ok d0) (d : Int) :
    (guardedSource n events (fun occ => Eext (anyPicture m bg occ))).difference () e s d =
      (guardedSource n events (fun occ => Eext (anyPicture m bg occ))).difference () e s' d := by
  simp only [guardedSource]
  rw [← hl]
  split
  swap
  · rfl
  rename_i hg
  obtain ⟨hn, x, hx, hxm, hxe⟩ := hg
  have hdir' : eventDirection s'.occ e = .ok d0 := by rw [← eventDirection_congr h]; exact hdir
  obtain ⟨f, t, i, j, hi, hj, hm, h1, h2, h3⟩ := afterHop_of hdir
  obtain ⟨f', t', i', j', hi', hj', hm', h1', h2', h3'⟩ := afterHop_of hdir'
  rw [hm] at hm'
  cases hm'
  rw [← hl, h1] at h1'
  cases h1'
  rw [← hl, h2] at h2'
  cases h2'
  simp only [energySource, h3, h3']
  congr 1
  have hat : ∀ a ∈ e.mobile ++ e.env, ∀ k : Nat, pyIdx n a = some k → s.occ[k]? = s'.occ[k]? := by
    intro a ha k hk
    have := h a ha
    simp only [pyGet, ← hl, hn, hk] at this
    have hk' := pyIdx_lt hk
    rw [List.getElem?_eq_getElem (by omega), List.getElem?_eq_getElem (by omega)] at this ⊢
    simpa using this
  rw [hn] at h1 h2
  have hii := hat f (by simp [hm]) i h1
  have hjj := hat t (by simp [hm]) j h2
  refine hloc x hx _ _ _ _ (by simp [anyPicture_length]) (by simp [anyPicture_length])
    (by simp [anyPicture_length]) ?_ ?_
  · intro p hp
    have key : ∀ k, extSite m k = some (p : Int) → k ≠ i ∧ k ≠ j := by
      intro k hk
      constructor
      · rintro rfl; exact hp ⟨f, by rw [← hxm, hm]; simp, k, h1, hk⟩
      · rintro rfl; exact hp ⟨t, by rw [← hxm, hm]; simp, k, h2, hk⟩
    constructor
    · apply anyPicture_congr (by simp)
      intro k _ hk
      obtain ⟨k1, k2⟩ := key k hk
      rw [exchange_get hi hj, if_neg k2, if_neg k1]
    · apply anyPicture_congr (by simp)
      intro k _ hk
      obtain ⟨k1, k2⟩ := key k hk
      rw [exchange_get hi' hj', if_neg k2, if_neg k1]
  · rintro p hp
    rw [← hxm, ← hxe] at hp
    obtain ⟨a, ha, k0, hk0, hp0⟩ := hp
    have hone : ∀ k < s.occ.length, extSite m k = some (p : Int) → s.occ[k]? = s'.occ[k]? := by
      intro k hk hkp
      have : k = k0 := hdist k k0 (by omega) (pyIdx_lt hk0) (by rw [hkp, hp0])
      subst this
      exact hat a ha k hk0
    refine ⟨anyPicture_congr hl hone, anyPicture_congr (by simpa using hl) ?_⟩
    intro k hk hkp
    rw [exchange_get hi hj, exchange_get hi' hj']
    split
    · exact hii
    · split
      · exact hjj
      · exact hone k (by simpa using hk) hkp

end picture

section ordinary
variable {σ φ ψ K V Row Rt : Type} [Field K] [LinearOrder K] [FloorRing K]
variable {o : ActiveSiteOrder String ψ} {mobile : String} {h : HopStateLookup} {g : Geometry K}
  {lib : EventLib σ φ} {st : State EReal} {kra : Option (LCE ℝ)} {kB temp ν : ℝ}

theorem init_shape {M : Type} {m : RateModel M ℝ EReal} {s0 : Sim σ φ M ℝ EReal}
    (hi : Sim.init (realKernel Rounding.exact) m lib.generateEventDependencies (some h) (some st) = .ok s0)
    {e : Event} (he : e ∈ s0.lib.events) : ∃ x ∈ lib.events, e.mobile = x.mobile ∧ e.env = x.env := by
  obtain ⟨-, -, -, -, -, hann, -, -⟩ := init_ok hi
  obtain ⟨x, hx, hye⟩ := annotateEvents_mem (hann h rfl) e he
  obtain ⟨f', t', mf, vt, vf, mt, -, -, -, -, -, rfl⟩ := annotateEvent_ok hye
  exact ⟨x, hx, rfl, rfl⟩

/-- With a local energy in place of the calculator the simulation is an ordinary one. -/
theorem guarded_hopSystem {m : SiteEnergy Rt EReal} {Eext : List ExtVal → ℝ} (bg : List ExtVal)
    (hs : HopSystem o mobile h Rounding.exact ((⟨kra, .none⟩ : Composite Unit EReal).rateModel kB temp ν) g lib st)
    (hν : 0 ≤ ν) (hdist : SitesDistinct m st.occ.length) (hloc : LocalEnergy m st.occ.length lib.events Eext) :
    HopSystem o mobile h Rounding.exact ((⟨kra, guardedSource st.occ.length lib.events
      (fun occ => Eext (anyPicture m bg occ))⟩ : Composite Unit EReal).rateModel kB temp ν) g lib st := by
  refine ⟨hs.lookup, hs.labelled, hs.fit, hs.endpoints, hs.coords, ⟨?_⟩, ?_, ?_⟩
  · intro e s s' hl hag
    have hdir := eventDirection_congr hag
    simp only [Composite.rateModel, Composite.computeProbability, hdir]
    cases hd : eventDirection s'.occ e with
    | error x => rfl
    | ok d =>
      simp only
      split
      · rfl
      · cases kra with
        | none => rfl
        | some kra =>
          simp only [C36_local kra e s.occ s'.occ (fun i hi => hag i (by simp [hi])),
            guarded_local hloc hdist hl hag (hdir.trans hd) d]
  · intro e s p hp
    exact ⟨C34_composite_nonneg _ kB temp ν hν () e s p hp, rfl⟩
  · intro e s p hd hp
    simp only [Composite.rateModel] at hp
    rw [C34_composite_forbidden_is_zero _ kB temp ν () e s hd] at hp
    exact (Except.ok.inj hp).symm

theorem guarded_answers {E : List Int → ℝ} {n : Nat}
    (ha : Answers o mobile ((⟨kra, .none⟩ : Composite Unit EReal).rateModel kB temp ν) lib.events st.occ) :
    Answers o mobile ((⟨kra, guardedSource n lib.events E⟩ : Composite Unit EReal).rateModel kB temp ν)
      lib.events st.occ := by
  refine ⟨fun _ _ => rfl, fun _ _ => rfl, ?_⟩
  intro e s he hc hw
  obtain ⟨p, hp⟩ := ha.rate e s he hc hw
  simp only [Composite.rateModel, Composite.computeProbability] at hp ⊢
  cases hd : eventDirection s.occ e with
  | error x => rw [hd] at hp; cases hp
  | ok d =>
    rw [hd] at hp
    simp only at hp ⊢
    split
    · exact ⟨_, rfl⟩
    · rename_i h0
      rw [if_neg h0] at hp
      cases kra with
      | none => cases hp
      | some kra =>
        simp only at hp ⊢
        cases hk : kra.compute s.occ e with
        | error x => rw [hk] at hp; cases hp
        | ok a =>
          obtain ⟨_, _, _, _, _, _, -, -, -, h3⟩ := afterHop_of hd
          have : ∃ δ, (guardedSource n lib.events E : SiteSource Unit EReal).difference () e s d = .ok δ := by
            simp only [guardedSource]
            split
            · simp only [energySource, h3]; exact ⟨_, rfl⟩
            · exact ⟨_, rfl⟩
          obtain ⟨δ, hδ⟩ := this
          simp only [hδ]
          exact ⟨_, rfl⟩

theorem guarded_reports (E : List Int → ℝ) (o : ActiveSiteOrder String ψ) (mobile : String)
    (hends : ∀ e ∈ lib.events, ∃ f t : Nat, e.mobile = [(f : Int), (t : Int)] ∧ allowedAt o f = allowedAt o t)
    (hlab : WellLabelled o mobile st.occ) :
    ReportsEnergy (guardedSource st.occ.length lib.events E : SiteSource Unit EReal)
      (fun _ st' => WellLabelled o mobile st'.occ)
      (fun e => ∃ x ∈ lib.events, e.mobile = x.mobile ∧ e.env = x.env) E := by
  constructor
  · intro _ _ e s s' dt hw he ha _
    have hl : s.occ.length = st.occ.length := hw.length.trans hlab.length.symm
    obtain ⟨x, hx, hxm, -⟩ := he
    obtain ⟨f, t, hft, hall⟩ := hends x hx
    obtain ⟨f', t', i, j, hi, hj, hm, h1, h2, rfl⟩ := applyEvent_ok ha
    rw [hxm, hft] at hm
    cases hm
    have e1 : f = i := by
      have := pyIdx_some_nonneg h1 (by omega)
      omega
    have e2 : t = j := by
      have := pyIdx_some_nonneg h2 (by omega)
      omega
    subst e1 e2
    exact wellLabelled_exchange hw hi hj hall (set_set_exchanged hi hj)
  · intro _ e s s' dt d δ hw he ha hδ
    have hl : s.occ.length = st.occ.length := hw.length.trans hlab.length.symm
    simp only [guardedSource] at hδ
    rw [if_pos ⟨hl, he⟩] at hδ
    simp only [energySource, applyEvent_afterHop ha] at hδ
    exact (Except.ok.inj hδ).symm

/-- What a calculator that has been initialised can be replaced by. -/
theorem external_begun {m : SiteEnergy Rt EReal} (hd : MappingsAreDicts m) {Eext : List ExtVal → ℝ}
    (hE : EnergyOfValues Eext) (hfn : GivesDifferences m Eext) (hok : CommitNeverFails m)
    {r0 ms : SiteEnergyState Rt} {order : Option OrderRef} {evs : List Event}
    (hdist : SitesDistinct m st.occ.length) (hcov : MappingCovers m st.occ)
    (hi : m.initializeState r0 st.occ (some evs) order = (.ok (), ms))
    (hfit : ∀ d ext, ms.external = some (d, ext) → ValuesFit m d st.occ) :
    ∃ d ext bg, ms.external = some (d, ext) ∧ IsBackground m st.occ.length d bg ∧
      (∀ occ : List Int, occ.Perm st.occ → Eext (anyPicture m bg occ) = pictureEnergy m bg Eext occ) ∧
      Faithful m bg ms st ∧
      Replaces ((⟨kra, m.source r0 order⟩ : Composite _ EReal).rateModel kB temp ν)
        ((⟨kra, guardedSource st.occ.length lib.events (fun occ => Eext (anyPicture m bg occ))⟩ :
          Composite _ EReal).rateModel kB temp ν)
        (fun e => ∃ x ∈ lib.events, e.mobile = x.mobile ∧ e.env = x.env)
        (fun ms st' => Faithful m bg ms st' ∧ MappingCovers m st'.occ ∧ st'.occ.Perm st.occ) := by
  obtain ⟨d, ext, bg, x1, x2, hF⟩ := faithful_init hd hdist hi hfit
  have hmir : ∀ occ : List Int, occ.Perm st.occ → Mirrors m bg occ (anyPicture m bg occ) := by
    intro occ hp
    obtain ⟨d', ext', -, -, hM⟩ := hF.picture
    refine anyPicture_mirrors (by rw [hp.length_eq]; exact hdist) (covers_perm hp hcov) ?_
    intro i hi'
    have hi2 : i < st.occ.length := by rw [← hp.length_eq]; exact hi'
    obtain ⟨p, x, w, a1, -, a3, -⟩ := hM.active i st.occ[i] (by simp [hi2])
    exact ⟨p, a1, by rw [← hM.length]; exact (List.getElem?_eq_some_iff.1 a3).1⟩
  have hS := external_replaces hd hfn hok (bg := bg) (occ0 := st.occ)
    (E := fun occ => Eext (anyPicture m bg occ))
    (fun occ ext hp hM => hE _ _ (mirrors_unique (sameArray_refl bg) (hmir occ hp) hM)) kra r0 order kB temp ν
    (P := fun e => ∃ x ∈ lib.events, e.mobile = x.mobile ∧ e.env = x.env)
    (src := guardedSource st.occ.length lib.events (fun occ => Eext (anyPicture m bg occ)))
    (fun _ _ => rfl) (fun e s d he hl => by simp only [guardedSource]; rw [if_pos ⟨hl, he⟩])
  exact ⟨d, ext, bg, x1, x2, fun occ hp => (pictureEnergy_of hE (hmir occ hp)).symm, hF, hS⟩

/-- All that is needed to apply the theorems about ordinary simulations. -/
theorem external_ordinary {m : SiteEnergy Rt EReal} (hd : MappingsAreDicts m) {Eext : List ExtVal → ℝ}
    (hE : EnergyOfValues Eext) (hfn : GivesDifferences m Eext) (hok : CommitNeverFails m)
    {r0 : SiteEnergyState Rt} {order : Option OrderRef} {s0 : Sim σ φ (SiteEnergyState Rt) ℝ EReal}
    (hdist : SitesDistinct m st.occ.length) (hcov : MappingCovers m st.occ)
    (hi : Sim.init (realKernel Rounding.exact) ((⟨kra, m.source r0 order⟩ : Composite _ EReal).rateModel kB temp ν)
      lib.generateEventDependencies (some h) (some st) = .ok s0)
    (hfit : ∀ d ext, s0.ms.external = some (d, ext) → ValuesFit m d st.occ) :
    ∃ d ext bg, s0.ms.external = some (d, ext) ∧ IsBackground m st.occ.length d bg ∧
      (∀ occ : List Int, occ.Perm st.occ → Eext (anyPicture m bg occ) = pictureEnergy m bg Eext occ) ∧
      Faithful m bg s0.ms st ∧
      Replaces ((⟨kra, m.source r0 order⟩ : Composite _ EReal).rateModel kB temp ν)
        ((⟨kra, guardedSource st.occ.length lib.events (fun occ => Eext (anyPicture m bg occ))⟩ :
          Composite _ EReal).rateModel kB temp ν)
        (fun e => ∃ x ∈ lib.events, e.mobile = x.mobile ∧ e.env = x.env)
        (fun ms st' => Faithful m bg ms st' ∧ MappingCovers m st'.occ ∧ st'.occ.Perm st.occ) ∧
      Sim.init (realKernel Rounding.exact) ((⟨kra, guardedSource st.occ.length lib.events
          (fun occ => Eext (anyPicture m bg occ))⟩ : Composite _ EReal).rateModel kB temp ν)
        lib.generateEventDependencies (some h) (some st) = .ok (forget s0) := by
  have hst : st = s0.st := by
    obtain ⟨h1, -⟩ := init_ok hi
    exact Option.some.inj h1
  obtain ⟨-, -, -, -, -, -, h7, -⟩ := init_ok hi
  rw [← hst] at h7
  obtain ⟨d, ext, bg, x1, x2, x3, hF, hS⟩ := external_begun (lib := lib) (kra := kra) (kB := kB) (temp := temp)
    (ν := ν) hd hE hfn hok hdist hcov (source_init h7) hfit
  refine ⟨d, ext, bg, x1, x2, x3, hF, hS, ?_⟩
  exact init_forget hS hi (fun e he => init_shape hi he) (by rw [← hst]; exact ⟨hF, hcov, List.Perm.refl _⟩)
    (fun _ _ => rfl)

/-- C110.  With an external calculator whose energy is local the simulation can be constructed, if the
calculator can be initialised with the annotated events. -/
theorem C110_can_be_constructed (m : SiteEnergy Rt EReal) (hd : MappingsAreDicts m) (Eext : List ExtVal → ℝ)
    (hE : EnergyOfValues Eext) (hfn : GivesDifferences m Eext) (hok : CommitNeverFails m) (hν : 0 ≤ ν)
    (hs : HopSystem o mobile h Rounding.exact ((⟨kra, .none⟩ : Composite Unit EReal).rateModel kB temp ν) g lib st)
    (ha : Answers o mobile ((⟨kra, .none⟩ : Composite Unit EReal).rateModel kB temp ν) lib.events st.occ)
    (r0 : SiteEnergyState Rt) (order : Option OrderRef)
    (hdist : SitesDistinct m st.occ.length) (hcov : MappingCovers m st.occ)
    (hloc : LocalEnergy m st.occ.length lib.events Eext)
    (hinit : ∀ evs, h.annotateEvents lib.events = .ok evs →
      ∃ ms, m.initializeState r0 st.occ (some evs) order = (.ok (), ms) ∧
        ∀ d ext, ms.external = some (d, ext) → ValuesFit m d st.occ) :
    ∃ s0 : Sim σ φ (SiteEnergyState Rt) ℝ EReal,
      Sim.init (realKernel Rounding.exact)
        ((⟨kra, m.source r0 order⟩ : Composite _ EReal).rateModel kB temp ν) lib.generateEventDependencies (some h)
        (some st) = .ok s0 ∧
      ∀ d ext, s0.ms.external = some (d, ext) → ValuesFit m d st.occ := by
  obtain ⟨s1, hi1⟩ := C85_can_be_constructed hs ha
  obtain ⟨-, -, -, -, -, hann1, -⟩ := init_ok hi1
  obtain ⟨ms, hms, hfit⟩ := hinit _ (hann1 h rfl)
  obtain ⟨d, ext, bg, -, -, -, hF, hS⟩ := external_begun (lib := lib) (kra := kra) (kB := kB) (temp := temp)
    (ν := ν) hd hE hfn hok hdist hcov hms hfit
  obtain ⟨s2, hi2⟩ := C85_can_be_constructed (guarded_hopSystem bg hs hν hdist hloc) (guarded_answers ha)
  have hshape := fun e he => init_shape hi2 (e := e) he
  have hsrc : (m.source r0 order).initializeState st s1.lib.events = .ok ms := by
    simp only [SiteEnergy.source, SiteSource.model, hms]
  have hann : h.annotateEvents lib.generateEventDependencies.events = .ok s1.lib.events := hann1 h rfl
  obtain ⟨-, -, -, -, -, hann2, -⟩ := init_ok hi2
  have hlib : s2.lib.events = s1.lib.events := Except.ok.inj ((hann2 h rfl).symm.trans hann)
  rw [hlib] at hshape
  unfold Sim.init at hi2 ⊢
  simp only [hann] at hi2 ⊢
  have hI : ((⟨kra, m.source r0 order⟩ : Composite _ EReal).rateModel kB temp ν).initializeState st s1.lib.events =
      .ok ms := hsrc
  rw [hI]
  simp only
  rw [initialProbs_forget hS ⟨hF, hcov, List.Perm.refl _⟩ hshape]
  have h0 : ((⟨kra, guardedSource st.occ.length lib.events (fun occ => Eext (anyPicture m bg occ))⟩ :
          Composite _ EReal).rateModel kB temp ν).initializeState st s1.lib.events = .ok () := rfl
  rw [h0] at hi2
  simp only at hi2
  cases hp : initialProbs ((⟨kra, guardedSource st.occ.length lib.events (fun occ => Eext (anyPicture m bg occ))⟩ :
          Composite _ EReal).rateModel kB temp ν) () st s1.lib.events with
  | error x => rw [hp] at hi2; cases hi2
  | ok p => exact ⟨_, rfl, hfit⟩

/-- C110.  With an external calculator whose energy is local, on a connected network with an ion and a vacancy,
every run completes, however long it is and whatever the random numbers are. -/
theorem C110_completes (m : SiteEnergy Rt EReal) (hd : MappingsAreDicts m) (Eext : List ExtVal → ℝ)
    (hE : EnergyOfValues Eext) (hfn : GivesDifferences m Eext) (hok : CommitNeverFails m) (hν : 0 < ν)
    (hs : HopSystem o mobile h Rounding.exact ((⟨kra, .none⟩ : Composite Unit EReal).rateModel kB temp ν) g lib st)
    (ha : Answers o mobile ((⟨kra, .none⟩ : Composite Unit EReal).rateModel kB temp ν) lib.events st.occ)
    (r0 : SiteEnergyState Rt) (order : Option OrderRef) (s0 : Sim σ φ (SiteEnergyState Rt) ℝ EReal)
    (hdist : SitesDistinct m st.occ.length) (hcov : MappingCovers m st.occ)
    (hloc : LocalEnergy m st.occ.length lib.events Eext)
    (hi : Sim.init (realKernel Rounding.exact) ((⟨kra, m.source r0 order⟩ : Composite _ EReal).rateModel kB temp ν)
      lib.generateEventDependencies (some h) (some st) = .ok s0)
    (hfit : ∀ d ext, s0.ms.external = some (d, ext) → ValuesFit m d st.occ)
    {S : Nat → Prop} (hn : Network o mobile lib.events st.occ S)
    (summary : Trajectory K → EReal → List (String × Bool) → Row) (ops : List (PlanOp EReal V))
    (ht : ∀ n spec, dictGet (planAfter ops).attached n = some spec → Tolerant spec)
    (rng : Nat → ℝ × ℝ) (hr : ∀ c, 0 ≤ (rng c).1 ∧ (rng c).1 < 1) (len equil prod : Nat) :
    (s0.run (realKernel Rounding.exact) ((⟨kra, m.source r0 order⟩ : Composite _ EReal).rateModel kB temp ν) g
      (some h) summary (planAfter ops) rng len equil prod).outcome = .ok () := by
  have hst : st = s0.st := by
    obtain ⟨h1, -⟩ := init_ok hi
    exact Option.some.inj h1
  obtain ⟨d, ext, bg, -, -, -, hF, hS, hinit⟩ := external_ordinary hd hE hfn hok hdist hcov hi hfit
  have key := run_forget (k := realKernel Rounding.exact) hS g (some h) summary (planAfter ops) rng len equil prod s0
    (fun e he => init_shape hi he) (by rw [← hst]; exact ⟨hF, hcov, List.Perm.refl _⟩)
  have := C85_connected_completes (guarded_hopSystem bg hs hν.le hdist hloc) (guarded_answers ha)
    (C85_composite_willing _ kB temp ν hν) hn hinit summary ops ht rng hr len equil prod
  rw [key] at this
  exact this

/-- C110.  Canonical averages with an external calculator.  If the calculator returns differences of a local
energy of the external occupation, then on a connected network with an ion and a vacancy, with probability one
the time average of every quantity of the configuration tends to its Boltzmann average over all arrangements,
the energy of an arrangement being the calculator's energy of its picture. -/
theorem C110_canonical_average (m : SiteEnergy Rt EReal) (hd : MappingsAreDicts m) (Eext : List ExtVal → ℝ)
    (hE : EnergyOfValues Eext) (hfn : GivesDifferences m Eext) (hok : CommitNeverFails m) (hν : 0 < ν)
    (hs : HopSystem o mobile h Rounding.exact ((⟨kra, .none⟩ : Composite Unit EReal).rateModel kB temp ν) g lib st)
    (ha : Answers o mobile ((⟨kra, .none⟩ : Composite Unit EReal).rateModel kB temp ν) lib.events st.occ)
    (r0 : SiteEnergyState Rt) (order : Option OrderRef) (s0 : Sim σ φ (SiteEnergyState Rt) ℝ EReal)
    (hdist : SitesDistinct m st.occ.length) (hcov : MappingCovers m st.occ)
    (hloc : LocalEnergy m st.occ.length lib.events Eext)
    (hi : Sim.init (realKernel Rounding.exact) ((⟨kra, m.source r0 order⟩ : Composite _ EReal).rateModel kB temp ν)
      lib.generateEventDependencies (some h) (some st) = .ok s0)
    (hfit : ∀ d ext, s0.ms.external = some (d, ext) → ValuesFit m d st.occ)
    {S : Nat → Prop} (hn : Network o mobile lib.events st.occ S)
    (hap : ∀ e ∈ lib.events, SurroundingsApart st.occ.length e)
    (Ω : Finset (List Int))
    (hΩ : ∀ x, x ∈ Ω ↔ SameComposition x st.occ ∧ ∀ i, ¬ S i → x[i]? = st.occ[i]?)
    (t0 : ℝ) (ht : st.time = (t0 : EReal)) (equil : Nat)
    {Θ : Type} [MeasurableSpace Θ] {μ : Measure Θ} [IsProbabilityMeasure μ] {U : Nat → Θ → ℝ × ℝ}
    (hU : RandomNumbers μ U) :
    ∃ d ext bg, s0.ms.external = some (d, ext) ∧ IsBackground m st.occ.length d bg ∧
      ∀ᵐ ω ∂μ, ∀ f : List Int → ℝ,
        Tendsto (timeAverage (fun k => forget (simulatedWith
            ((⟨kra, m.source r0 order⟩ : Composite _ EReal).rateModel kB temp ν) s0 equil (fun k => U k ω) k))
          equil f) atTop
          (𝓝 ((∑ x ∈ Ω, f x * Real.exp (-pictureEnergy m bg Eext x / (kB * temp))) /
            ∑ x ∈ Ω, Real.exp (-pictureEnergy m bg Eext x / (kB * temp)))) := by
  have hst : st = s0.st := by
    obtain ⟨h1, -⟩ := init_ok hi
    exact Option.some.inj h1
  obtain ⟨d, ext, bg, x1, x2, hpic, hF, hS, hinit⟩ := external_ordinary hd hE hfn hok hdist hcov hi hfit
  refine ⟨d, ext, bg, x1, x2, ?_⟩
  have key := C93_canonical_average _ kB temp ν hν (guarded_hopSystem bg hs hν.le hdist hloc) (guarded_answers ha)
    hinit hn hap (fun occ => Eext (anyPicture m bg occ))
    (guarded_reports _ o mobile hs.endpoints hs.labelled) Ω hΩ t0 ht equil hU
  have hsum : ∀ x ∈ Ω, Eext (anyPicture m bg x) = pictureEnergy m bg Eext x := fun x hx =>
    hpic x (sameComposition_iff_perm.1 ((hΩ x).1 hx).1)
  filter_upwards [key] with ω hω f
  have hf := hω f
  rw [Finset.sum_congr rfl (fun x hx => by rw [hsum x hx] :
      ∀ x ∈ Ω, f x * Real.exp (-Eext (anyPicture m bg x) / (kB * temp)) =
        f x * Real.exp (-pictureEnergy m bg Eext x / (kB * temp))),
    Finset.sum_congr rfl (fun x hx => by rw [hsum x hx] :
      ∀ x ∈ Ω, Real.exp (-Eext (anyPicture m bg x) / (kB * temp)) =
        Real.exp (-pictureEnergy m bg Eext x / (kB * temp)))] at hf
  have hsame : simulated ((⟨kra, guardedSource st.occ.length lib.events
        (fun occ => Eext (anyPicture m bg occ))⟩ : Composite _ EReal).rateModel kB temp ν) (forget s0) equil
        (fun k => U k ω) =
      fun k => forget (simulatedWith ((⟨kra, m.source r0 order⟩ : Composite _ EReal).rateModel kB temp ν) s0 equil
        (fun k => U k ω) k) := by
    funext n
    exact (simulated_forget hS s0 (fun e he => init_shape hi he)
      (by rw [← hst]; exact ⟨hF, hcov, List.Perm.refl _⟩) equil (fun k => U k ω) n).1
  rw [hsame] at hf
  exact hf

end ordinary

/-! ### A concrete calculator -/

open Classical in
/-- The energy of the first external site: 1 if it holds an ion (state 0). -/
noncomputable def firstExternal (ext : List ExtVal) : ℝ := if ext[0]?.map ExtVal.key = some (.inl 0) then 1 else 0

/-- A calculator for the five-site chain that keeps a count of the executed hops and returns differences of
`firstExternal`. -/
noncomputable def fieldModel : SiteEnergy Nat EReal where
  units := .meV
  makeRuntime := .ok 0
  computeFn := some fun _ ext changes _ _ =>
    .ok (.number (firstExternal (withChanges ext changes) - firstExternal ext))
  applyFn := some fun n _ _ _ _ => (.ok (), n + 1)

theorem firstExternal_values : EnergyOfValues firstExternal := by
  intro a b h
  have : a[0]?.map ExtVal.key = b[0]?.map ExtVal.key := by
    cases ha : a[0]? with
    | none =>
      have : b[0]? = none := by
        rw [List.getElem?_eq_none_iff] at ha ⊢
        rw [← h.1]
        exact ha
      rw [this]
    | some x =>
      have hb : 0 < b.length := by
        rw [← h.1]
        exact (List.getElem?_eq_some_iff.1 ha).1
      have hb' : b[0]? = some b[0] := by simp [hb]
      have h0 := h.2 0 x b[0] ha hb'
      rw [hb']
      simpa [SameValue] using h0
  unfold firstExternal
  rw [this]

theorem field_differences : GivesDifferences fieldModel firstExternal :=
  ⟨_, rfl, fun _ ext changes _ _ => ⟨_, rfl, by simp [fieldModel, EnergyUnit.factor]⟩⟩

theorem field_local (n : Nat) (events : List Event) : LocalEnergy fieldModel n events firstExternal := by
  intro e he a b a' b' _ _ _ h1 h2
  by_cases hs : ShowsSite fieldModel n e.mobile 0
  · obtain ⟨i, hi, k, hk⟩ := hs
    obtain ⟨x1, x2⟩ := h2 0 ⟨i, by simp [hi], k, hk⟩
    unfold firstExternal
    rw [x1, x2]
  · obtain ⟨x1, x2⟩ := h1 0 hs
    unfold firstExternal
    rw [x1, x2]
    simp

theorem field_covers (occ : List Int) : MappingCovers fieldModel occ := fun _ v _ _ => ⟨.int v, rfl⟩

theorem field_distinct (n : Nat) : SitesDistinct fieldModel n := by
  intro i j _ _ h
  simpa [extSite, fieldModel] using h

theorem field_dicts : MappingsAreDicts fieldModel :=
  ⟨fun d h => by simp [fieldModel] at h, fun d h => by simp [fieldModel] at h⟩

theorem field_starts {evs : List Event}
    (h : HopStateLookup.annotateEvents ⟨[0, 0, 0, 0, 0], [1, 1, 1, 1, 1]⟩ chainLib.events = .ok evs) :
    ∃ ms, fieldModel.initializeState {} [0, 1, 0, 1, 1] (some evs) none = (.ok (), ms) := by
  cases h
  exact ⟨_, rfl⟩

/-- The picture of an occupation vector has the vector's energy. -/
theorem field_picture {bg : List ExtVal} {occ : List Int} {ext : List ExtVal} (h : Mirrors fieldModel bg occ ext)
    (h5 : occ.length = 5) : firstExternal ext = firstSiteEnergy occ := by
  obtain ⟨p, x, w, a1, a2, a3, a4⟩ := h.active 0 (occ[0]'(by omega)) (by simp [h5])
  simp only [extSite, fieldModel, Option.some.injEq] at a1
  have hp : p = 0 := by omega
  subst hp
  simp only [extValue, fieldModel, Option.bind_none, Option.some.injEq] at a2
  subst a2
  have a5 : w.key = .inl ((occ[0]'(by omega) : Int) : ℚ) := a4
  have h0 : occ[0]? = some (occ[0]'(by omega)) := by simp [h5]
  simp only [firstExternal, firstSiteEnergy, a3, h0, Option.map_some, Option.some.injEq, a5, Sum.inl.injEq,
    Int.cast_eq_zero]

/-- Non-vacuity: two ions on the chain with the calculator above, which charges 1 meV for an ion on the first
site.  With probability one the share of the time that the first site holds an ion tends to
`4 w / (4 w + 6)`, where `w = exp (-1 / 300)`: 4 of the 10 arrangements have an ion there. -/
example : ∃ s0 : Sim Unit Unit (SiteEnergyState Nat) ℝ EReal,
    Sim.init (realKernel Rounding.exact) ((⟨some chainExpansion, fieldModel.source {} none⟩ :
      Composite _ EReal).rateModel 1 300 1000) chainLib.generateEventDependencies
      (some ⟨[0, 0, 0, 0, 0], [1, 1, 1, 1, 1]⟩) (some ⟨[0, 1, 0, 1, 1], 0, 0⟩) = .ok s0 ∧
    ∀ᵐ ω ∂Measure.infinitePi fun _ : Nat => twoUniform,
      Tendsto (timeAverage (fun k => forget (simulatedWith ((⟨some chainExpansion, fieldModel.source {} none⟩ :
          Composite _ EReal).rateModel 1 300 1000) s0 10 ω k)) 10 firstSiteEnergy) atTop
        (𝓝 (4 * Real.exp (-1 / 300) / (4 * Real.exp (-1 / 300) + 6))) := by
  have hs := C69_hop_system exampleOrder "Na" _ (some chainExpansion) none 1 300 1000 hopGeometry chainLib
    ⟨[0, 1, 0, 1, 1], 0, 0⟩ (by norm_num) chain_hopSystem.lookup chain_hopSystem.labelled chain_hopSystem.fit
    chain_hopSystem.endpoints chain_hopSystem.coords
  have ha : Answers exampleOrder "Na" ((⟨some chainExpansion, .none⟩ : Composite Unit EReal).rateModel 1 300 1000)
      chainLib.events [0, 1, 0, 1, 1] :=
    C85_composite_answers chainExpansion none 1 300 1000 chainLib.events [0, 1, 0, 1, 1] [2, 2] [2, 2]
      chainExpansion_built chain_surroundings (by rintro m ⟨⟩) chain_hopSystem.fit (by
        intro e he
        obtain ⟨f, t, h1, -⟩ := chain_hopSystem.endpoints e he
        exact ⟨f, t, h1⟩)
  have hok : CommitNeverFails fieldModel := by
    rintro fn ⟨⟩ _ _ _ _ _
    rfl
  obtain ⟨s0, hi, hfit⟩ := C110_can_be_constructed (Rt := Nat) fieldModel field_dicts firstExternal
    firstExternal_values field_differences hok (by norm_num) hs ha {} none (field_distinct _) (field_covers _)
    (field_local _ _) (by
      intro evs hevs
      obtain ⟨ms, hms⟩ := field_starts hevs
      exact ⟨ms, hms, C40_chosen_type_fits fieldModel field_dicts {} ms [0, 1, 0, 1, 1] _ none rfl rfl rfl hms⟩)
  refine ⟨s0, hi, ?_⟩
  obtain ⟨d, ext, bg, h1, h2, key⟩ := C110_canonical_average fieldModel field_dicts firstExternal
    firstExternal_values field_differences hok (by norm_num) hs ha {} none s0 (field_distinct _) (field_covers _)
    (field_local _ _) hi hfit chain_network chain_apart ([0, 1, 0, 1, 1] : List Int).permutations'.toFinset
    (by
      intro x
      rw [List.mem_toFinset, List.mem_permutations', sameComposition_iff_perm]
      refine ⟨fun hp => ⟨hp, fun i hi => ?_⟩, fun hp => hp.1⟩
      have h1 : x.length ≤ i := by rw [hp.length_eq]; simpa using hi
      rw [List.getElem?_eq_none_iff.2 h1, List.getElem?_eq_none_iff.2 (by simpa using hi)])
    0 rfl 10 C93_random_numbers
  have hen : ∀ x ∈ ([0, 1, 0, 1, 1] : List Int).permutations'.toFinset,
      pictureEnergy fieldModel bg firstExternal x = firstSiteEnergy x := by
    intro x hx
    have hx5 : x.length = 5 := (List.mem_permutations'.1 (List.mem_toFinset.1 hx)).length_eq
    have hM : Mirrors fieldModel bg x (anyPicture fieldModel bg x) := by
      refine anyPicture_mirrors (field_distinct _) (field_covers _) fun i hi' => ⟨i, rfl, ?_⟩
      have := (h2.2.2 rfl (by decide)).1 i (i : Int) (by rw [hx5] at hi'; exact hi') rfl
      exact_mod_cast this
    rw [pictureEnergy_of firstExternal_values hM, field_picture hM hx5]
  have hset : ([0, 1, 0, 1, 1] : List Int).permutations'.toFinset =
    {[0, 0, 1, 1, 1], [0, 1, 0, 1, 1], [0, 1, 1, 0, 1], [0, 1, 1, 1, 0], [1, 0, 0, 1, 1], [1, 0, 1, 0, 1],
      [1, 0, 1, 1, 0], [1, 1, 0, 0, 1], [1, 1, 0, 1, 0], [1, 1, 1, 0, 0]} := by decide +kernel
  filter_upwards [key] with ω hω
  have hf := hω firstSiteEnergy
  rw [Finset.sum_congr rfl (fun x hx => by rw [hen x hx] :
      ∀ x ∈ ([0, 1, 0, 1, 1] : List Int).permutations'.toFinset,
        firstSiteEnergy x * Real.exp (-pictureEnergy fieldModel bg firstExternal x / (1 * 300)) =
        firstSiteEnergy x * Real.exp (-firstSiteEnergy x / (1 * 300))),
    Finset.sum_congr rfl (fun x hx => by rw [hen x hx] :
      ∀ x ∈ ([0, 1, 0, 1, 1] : List Int).permutations'.toFinset,
        Real.exp (-pictureEnergy fieldModel bg firstExternal x / (1 * 300)) =
        Real.exp (-firstSiteEnergy x / (1 * 300))), hset] at hf
  convert hf using 2
  congr 1
  · simp [firstSiteEnergy]
    ring
  · simp [firstSiteEnergy]
    ring

end KMC
