import Verif.Lemmas.Homogeneous
import Verif.Props.PathProps
import Verif.Props.CompositeProps
import Verif.Props.GeneratorProps
import Verif.Props.FromConfigProps
/-
C96: simulations know no absolute position.
-/
set_option linter.unusedSectionVars false

namespace KMC
open Spec MeasureTheory

section
variable {σ φ ψ K : Type} [Field K] [LinearOrder K] [FloorRing K]
variable {o : ActiveSiteOrder String ψ} {mobile : String} {h : HopStateLookup}
  {m : RateModel Unit ℝ EReal} {g : Geometry K} {lib : EventLib σ φ} {st st' : State EReal}
  {s0 s0' : Sim σ φ Unit ℝ EReal} {π : Nat → Nat}

/-- A permutation of the sites reaches every site. -/
theorem moved_surj {x y : List Int} (h : Moved π x y) {j : Nat} (hj : j < x.length) :
    ∃ i, i < x.length ∧ π i = j := by
  have hinj : Function.Injective (fun i : Fin x.length => (⟨π i, h.inside i i.2⟩ : Fin x.length)) := by
    intro a b hab
    exact Fin.ext (h.inj a b a.2 b.2 (by simpa using congrArg Fin.val hab))
  obtain ⟨i, hi⟩ := (Finite.injective_iff_surjective.1 hinj) ⟨j, hj⟩
  exact ⟨i, i.2, by simpa using congrArg Fin.val hi⟩

theorem moved_labelled {x y : List Int} (hm : Moved π x y)
    (hall : ∀ i, i < x.length → allowedAt o (π i) = allowedAt o i) (w : WellLabelled o mobile x) :
    WellLabelled o mobile y := by
  refine ⟨hm.length.trans w.length, ?_, w.mobileOnce, w.vacancyOnce, w.mobileNotVacancy⟩
  intro j hj
  obtain ⟨i, hi, rfl⟩ := moved_surj hm (by rw [← hm.length]; exact hj)
  obtain ⟨s, hs⟩ := w.valid i hi
  refine ⟨s, ?_⟩
  rw [← hs]
  unfold Spec.speciesAt Spec.speciesOf
  rw [hm.value i hi, hall i hi]

/-- C96.  The moved configuration is a starting point of the same kind: if a simulation can be set up from a
configuration, it can be set up from the moved one, ... -/
theorem C96_moved_start (hs : HopSystem o mobile h Rounding.exact m g lib st)
    (hsym : IsSymmetry o lib.events st.occ.length π) (hm : Moved π st.occ st'.occ) :
    HopSystem o mobile h Rounding.exact m g lib st' :=
  ⟨hs.lookup, moved_labelled hm hsym.allowed hs.labelled, by rw [hm.length]; exact hs.fit, hs.endpoints,
    by rw [hm.length]; exact hs.coords, hs.loc, hs.rates, hs.forbidden⟩

/-- C96.  ... and the model answers there as well. -/
theorem C96_moved_answers (ha : Answers o mobile m lib.events st.occ) (hm : Moved π st.occ st'.occ) :
    Answers o mobile m lib.events st'.occ :=
  ⟨ha.start, ha.commit, fun e s he hc hw => ha.rate e s he
    (sameComposition_iff_perm.2 ((sameComposition_iff_perm.1 hc).trans hm.perm)) hw⟩

/-- Rates, waiting times and choices agree along moved paths. -/
theorem pathChance_moved (hk : KnowsNoPosition m) {events : List Event} {n : Nat} (hfit : IndicesFit n events)
    (hinj : ∀ i j, i < n → j < n → π i = π j → i = j)
    (hends : ∀ e ∈ events, ∃ f t : Nat, e.mobile = [(f : Int), (t : Int)])
    (hperm : (events.map (relabel π)).Perm events) (path : List (Event × ℝ)) :
    (∀ x ∈ path, x.1 ∈ events) → ∀ st st' : State EReal, st.occ.length = n → Moved π st.occ st'.occ →
      pathChance m events st' (movedPath π path) = pathChance m events st path := by
  induction path with
  | nil => intros; rfl
  | cons a path ih =>
    obtain ⟨e, t⟩ := a
    intro hmem st st' hn hm
    have he : e ∈ events := hmem (e, t) (by simp)
    have hrate : ∀ e ∈ events, rateIn m st' (relabel π e) = rateIn m st e := by
      intro e he
      unfold rateIn
      rw [hk π e st st' (by intro x hx; simp only [List.mem_singleton] at hx; subst hx; rw [hn]; exact hfit x he) hm]
    have htotal : totalRate m events st' = totalRate m events st := by
      unfold totalRate
      rw [← (hperm.map (rateIn m st')).sum_eq, List.map_map]
      congr 1
      exact List.map_congr_left fun e he => hrate e he
    have hcount : events.count (relabel π e) = events.count e := by
      rw [← hperm.count_eq]
      have : ∀ l : List Event, (∀ x ∈ l, x ∈ events) → (l.map (relabel π)).count (relabel π e) = l.count e := by
        intro l
        induction l with
        | nil => intro _; rfl
        | cons x l ihl =>
          intro hx
          rw [List.map_cons, List.count_cons, List.count_cons, ihl fun y hy => hx y (by simp [hy])]
          congr 1
          have : relabel π x = relabel π e ↔ x = e :=
            ⟨fun hc => relabel_inj hinj (hfit x (hx x (by simp))) (hfit e he) hc, fun hc => by rw [hc]⟩
          simp only [beq_iff_eq, this]
      exact this events fun x hx => hx
    obtain ⟨f, t', hmob⟩ := hends e he
    have hf := hfit e he f (by simp [hmob])
    have ht := hfit e he t' (by simp [hmob])
    have hnext := applyEvent_moved hm hmob (by omega) (by omega) 0 0
    have := ih (fun x hx => hmem x (by simp [hx])) (st.applyEvent e 0).2 (st'.applyEvent (relabel π e) 0).2
      (by rw [applyEvent_length]; exact hn) hnext
    show pathChance m events st' ((relabel π e, t) :: movedPath π path) = _
    rw [pathChance, pathChance, this, hcount, hrate e he, htotal]

/-- C96.  Simulations know no absolute position.  Take a symmetry of the set-up, such as a translation of the
supercell, and a model that knows sites only by what they hold.  Then a simulation started from the moved
configuration executes the moved events, each after more than the same waiting time, with exactly the probability
with which the simulation started from the original configuration executes the original ones. -/
theorem C96_no_absolute_position (hs : HopSystem o mobile h Rounding.exact m g lib st)
    (ha : Answers o mobile m lib.events st.occ) (hk : KnowsNoPosition m)
    (hsym : IsSymmetry o lib.events st.occ.length π) (hm : Moved π st.occ st'.occ)
    (hi : Sim.init (realKernel Rounding.exact) m lib.generateEventDependencies (some h) (some st) = .ok s0)
    (hi' : Sim.init (realKernel Rounding.exact) m lib.generateEventDependencies (some h) (some st') = .ok s0')
    {Θ Θ' : Type} [MeasurableSpace Θ] [MeasurableSpace Θ'] {μ : Measure Θ} {μ' : Measure Θ'}
    [IsProbabilityMeasure μ] [IsProbabilityMeasure μ'] {U : Nat → Θ → ℝ × ℝ} {U' : Nat → Θ' → ℝ × ℝ}
    (hU : RandomNumbers μ U) (hU' : RandomNumbers μ' U') (path : List (Event × ℝ))
    (hpath : ∀ x ∈ path, x.1 ∈ s0.lib.events ∧ 0 ≤ x.2) :
    μ' {ω | Follows m (fun k => U' k ω) s0' (movedPath π path)} = μ {ω | Follows m (fun k => U k ω) s0 path} := by
  rw [C94_path_law hs ha hi hU path fun x hx => (hpath x hx).2,
    C94_path_law (C96_moved_start hs hsym hm) (C96_moved_answers ha hm) hi' hU' (movedPath π path) (by
      intro x hx
      obtain ⟨y, hy, rfl⟩ := List.mem_map.1 hx
      exact (hpath y hy).2)]
  congr 1
  obtain ⟨-, -, i3, i4, -, i6, -, -⟩ := init_ok hi
  obtain ⟨-, -, -, -, -, i6', -, -⟩ := init_ok hi'
  have e1 : s0'.lib.events = s0.lib.events := by
    have a := i6 h rfl
    have b := i6' h rfl
    rw [a] at b
    exact (Except.ok.inj b).symm
  rw [e1]
  have hmem := annotateEvents_mem (i6 h rfl)
  have hlist : ∀ e ∈ s0.lib.events, ∃ x ∈ lib.events, e.mobile = x.mobile ∧ e.env = x.env := by
    intro e he
    obtain ⟨x, hx, hxe⟩ := hmem e he
    obtain ⟨f, t, mf, vt, vf, mt, hmob, -, -, -, -, rfl⟩ := annotateEvent_ok hxe
    exact ⟨x, hx, rfl, rfl⟩
  refine pathChance_moved hk (n := st.occ.length) ?_ hsym.inj ?_ ?_ path (fun x hx => (hpath x hx).1) st st' rfl hm
  · intro e he i hi
    obtain ⟨x, hx, e1, e2⟩ := hlist e he
    rw [e1, e2] at hi
    exact hs.fit x hx i hi
  · intro e he
    obtain ⟨x, hx, e1, e2⟩ := hlist e he
    obtain ⟨f, t, hft, -⟩ := hs.endpoints x hx
    exact ⟨f, t, e1.trans hft⟩
  · exact annotateEvents_symmetric hs.lookup hs.labelled.length hsym hs.fit (i6 h rfl)

/-- C96.  ... and after the moved events the moved simulation is in the moved configuration. -/
theorem C96_moved_ends (hs : HopSystem o mobile h Rounding.exact m g lib st) (hm : Moved π st.occ st'.occ) (hist : List Event)
    (hh : ∀ e ∈ hist, e ∈ lib.events) :
    Moved π (hist.foldl (fun s e => (s.applyEvent e 0).2) st).occ
      ((hist.map (relabel π)).foldl (fun s e => (s.applyEvent e 0).2) st').occ := by
  have : ∀ (hist : List Event) (st st' : State EReal), (∀ e ∈ hist, e ∈ lib.events) →
      IndicesFit st.occ.length lib.events → Moved π st.occ st'.occ →
      Moved π (hist.foldl (fun s e => (s.applyEvent e 0).2) st).occ
        ((hist.map (relabel π)).foldl (fun s e => (s.applyEvent e 0).2) st').occ := by
    intro hist
    induction hist with
    | nil => intro _ _ _ _ hm; exact hm
    | cons e hist ih =>
      intro st st' hh hfit hm
      obtain ⟨f, t, hft, -⟩ := hs.endpoints e (hh e (by simp))
      have hf := hfit e (hh e (by simp)) f (by simp [hft])
      have ht := hfit e (hh e (by simp)) t (by simp [hft])
      exact ih _ _ (fun x hx => hh x (by simp [hx])) (by rw [applyEvent_length]; exact hfit)
        (applyEvent_moved hm hft (by omega) (by omega) 0 0)
  exact this hist st st' hh hs.fit hm

end

/-! ### Which models know no position -/

/-- C96.  Composite models made of expansions know sites only by what they hold. -/
theorem C96_expansions_know_no_position (kra site : Option (LCE ℝ)) (kB temp ν : ℝ) :
    KnowsNoPosition ((⟨kra, siteSource site⟩ : Composite Unit EReal).rateModel kB temp ν) := by
  intro π e st st' hf hm
  have hfit := hf e (by simp)
  have hmob : ∀ i ∈ e.mobile, 0 ≤ i ∧ i < (st.occ.length : Int) := fun i hi => hfit i (by simp [hi])
  have henv : ∀ i ∈ e.env, 0 ≤ i ∧ i < (st.occ.length : Int) := fun i hi => hfit i (by simp [hi])
  have hc : ∀ l : LCE ℝ, l.compute st'.occ (relabel π e) = l.compute st.occ e := by
    intro l
    have := pyGetAll_moved hm e.env henv
    simp only [LCE.compute, relabel, this]
  simp only [Composite.rateModel, Composite.computeProbability, eventDirection_moved hm hmob]
  cases hdir : eventDirection st.occ e with
  | error x => rfl
  | ok d =>
    by_cases h0 : d = 0
    · simp [h0]
    · simp only [h0, if_false]
      cases kra with
      | none => rfl
      | some kra =>
        simp only [hc kra]
        cases site with
        | none => rfl
        | some m => simp only [siteSource, SiteSource.expansion, hc m]

/-! ### Translations of generated libraries -/

section
variable {γ κ φ : Type} [DecidableEq κ]

/-- What a site of the simulated structure may hold is decided by its species in the template. -/
theorem activeStructure_allowed {eqv : String → String → Bool}
    {fp : Nat → Nat → List Nat → List Nat → List Nat → Nat × Nat × Nat → List String →
      List (List String) → φ}
    {template : List (LabeledSite String)} {mapping : List (String × List String)} {shape : Option (List Int)}
    {o : ActiveSiteOrder String φ}
    (ho : ActiveSiteOrder.fromStructureAndMapping eqv fp (template.map LabeledSite.species) mapping shape = .ok o)
    {sites : List (LabeledSite String × Cell)} (hs : o.activeStructure template = .ok sites) :
    sites.length = o.activeToPrimitive.length ∧ ∀ (i : Nat) s t, sites[i]? = some (s, t) →
      allowedAt o i = (mapping.find? fun kv => eqv s.species kv.1).map (·.2) := by
  obtain ⟨-, -, -, -, -, hprim, -⟩ := C41_numbering ho
  obtain ⟨-, h2, -⟩ := fromStructureAndMapping_ok ho
  obtain ⟨q1, q2⟩ := allowedSpeciesBySite_ok h2
  unfold ActiveSiteOrder.activeStructure fullStructure at hs
  split at hs
  · cases hs
  · rename_i full hfull
    have hk := (pickAll_ok_iff _ _ _).1 hs
    have hf := makeKmcSupercell_ok hfull
    refine ⟨by rw [hprim, List.length_map]; exact hk.1, ?_⟩
    intro i s t hi
    have hlt : i < o.activeToOriginal.length := by
      rw [← hk.1]
      by_contra hc
      rw [List.getElem?_eq_none (by omega)] at hi
      cases hi
    obtain ⟨v, e1, e2⟩ := hk.2 i _ (List.getElem?_eq_getElem hlt)
    rw [hi] at e2
    cases e2
    rw [hf, supercellList_getElem?] at e1
    have hcl : (latticePoints o.supercellShape.1 o.supercellShape.2.1 o.supercellShape.2.2).length =
        cellCount o.supercellShape := by rw [latticePoints_length]; rfl
    rw [hcl] at e1
    cases ht : template[o.activeToOriginal[i] / cellCount o.supercellShape]? with
    | none => rw [ht] at e1; cases e1
    | some s' =>
      rw [ht] at e1
      simp only [Option.bind_some, Option.map_eq_some_iff, Prod.mk.injEq] at e1
      obtain ⟨c, -, rfl, -⟩ := e1
      obtain ⟨kv, k1, k2⟩ := q2 (o.activeToOriginal[i] / cellCount o.supercellShape) s'.species
        (by rw [List.getElem?_map, ht]; rfl)
      unfold Spec.allowedAt
      rw [hprim, List.getElem?_map, List.getElem?_eq_getElem hlt]
      simp only [Option.map_some, k1, k2]

/-- C96.  Translations of the supercell are symmetries of every generated event library. -/
theorem C96_translations_are_symmetries {eqv : String → String → Bool}
    {fp : Nat → Nat → List Nat → List Nat → List Nat → Nat × Nat × Nat → List String →
      List (List String) → φ}
    {signature : List (Neighbor γ) → κ}
    {matcher : List (Neighbor γ) → List (Neighbor γ) → Py (List Nat)}
    {neighbors : Nat → List (Neighbor γ)} {isOrigin isTarget : LabeledSite String → Bool}
    {template : List (LabeledSite String)} {mapping : List (String × List String)} {shape : Option (List Int)}
    {lib : EventLib String φ} (hm : MatcherPermutes matcher)
    (hd : (template.map LabeledSite.localIndex).Nodup)
    (h : generateEvents eqv fp signature matcher neighbors isOrigin isTarget template mapping shape =
      .ok lib) {order : ActiveSiteOrder String φ}
    (ho : ActiveSiteOrder.fromStructureAndMapping eqv fp (template.map LabeledSite.species) mapping
      (some (shape.getD [2, 1, 1])) = .ok order)
    {sites : List (LabeledSite String × Cell)} (hsites : order.activeStructure template = .ok sites) (v : Cell) :
    ∃ π, IsTranslation order.supercellShape sites v π ∧ IsSymmetry order lib.events sites.length π := by
  obtain ⟨order', sites', π, ho', ha, ht, hp⟩ := C45_translation_invariant hm hd h v
  rw [ho] at ho'
  cases ho'
  rw [hsites] at ha
  cases ha
  obtain ⟨-, hall⟩ := activeStructure_allowed ho hsites
  have hsite : ∀ i, i < sites.length → ∃ s t t', sites[i]? = some (s, t) ∧ sites[π i]? = some (s, t') := by
    intro i hi
    obtain ⟨t', h1, -⟩ := ht.site i sites[i].1 sites[i].2 (List.getElem?_eq_getElem hi)
    exact ⟨_, _, t', List.getElem?_eq_getElem hi, h1⟩
  refine ⟨π, ht, ?_, ht.inj, ?_, hp⟩
  · intro i hi
    obtain ⟨s, t, t', -, h2⟩ := hsite i hi
    by_contra hc
    rw [List.getElem?_eq_none (by omega)] at h2
    cases h2
  · intro i hi
    obtain ⟨s, t, t', h1, h2⟩ := hsite i hi
    rw [hall i s t h1, hall (π i) s t' h2]

/-- C96, for generated libraries.  Where in the supercell a simulation starts makes no difference: for every
translation of the supercell, the simulation started from the translated configuration executes the translated
events with the probabilities with which the original simulation executes the original ones. -/
theorem C96_translated_simulation {K : Type} [Field K] [LinearOrder K] [FloorRing K]
    {eqv : String → String → Bool}
    {fp : Nat → Nat → List Nat → List Nat → List Nat → Nat × Nat × Nat → List String →
      List (List String) → φ}
    {signature : List (Neighbor γ) → κ}
    {matcher : List (Neighbor γ) → List (Neighbor γ) → Py (List Nat)}
    {neighbors : Nat → List (Neighbor γ)} {isOrigin isTarget : LabeledSite String → Bool}
    {template : List (LabeledSite String)} {mapping : List (String × List String)} {shape : Option (List Int)}
    {lib : EventLib String φ} (hmatch : MatcherPermutes matcher)
    (hd : (template.map LabeledSite.localIndex).Nodup)
    (hgen : generateEvents eqv fp signature matcher neighbors isOrigin isTarget template mapping shape =
      .ok lib) {order : ActiveSiteOrder String φ}
    (ho : ActiveSiteOrder.fromStructureAndMapping eqv fp (template.map LabeledSite.species) mapping
      (some (shape.getD [2, 1, 1])) = .ok order)
    {sites : List (LabeledSite String × Cell)} (hsites : order.activeStructure template = .ok sites)
    {mobile : String} {h : HopStateLookup} {m : RateModel Unit ℝ EReal} {g : Geometry K} {st : State EReal}
    (hs : HopSystem order mobile h Rounding.exact m g lib st) (ha : Answers order mobile m lib.events st.occ)
    (hk : KnowsNoPosition m) (v : Cell) :
    ∃ π, IsTranslation order.supercellShape sites v π ∧
      ∀ (st' : State EReal), Moved π st.occ st'.occ →
      ∃ s0 s0', Sim.init (realKernel Rounding.exact) m lib.generateEventDependencies (some h) (some st) = .ok s0 ∧
        Sim.init (realKernel Rounding.exact) m lib.generateEventDependencies (some h) (some st') = .ok s0' ∧
        ∀ (Θ Θ' : Type) [MeasurableSpace Θ] [MeasurableSpace Θ'] (μ : Measure Θ) (μ' : Measure Θ')
          [IsProbabilityMeasure μ] [IsProbabilityMeasure μ'] (U : Nat → Θ → ℝ × ℝ) (U' : Nat → Θ' → ℝ × ℝ),
          RandomNumbers μ U → RandomNumbers μ' U' → ∀ path : List (Event × ℝ),
            (∀ x ∈ path, x.1 ∈ s0.lib.events ∧ 0 ≤ x.2) →
            μ' {ω | Follows m (fun k => U' k ω) s0' (movedPath π path)} =
              μ {ω | Follows m (fun k => U k ω) s0 path} := by
  obtain ⟨π, ht, hsym⟩ := C96_translations_are_symmetries hmatch hd hgen ho hsites v
  have hl : sites.length = st.occ.length := by
    rw [(activeStructure_allowed ho hsites).1, hs.labelled.length]
  rw [hl] at hsym
  refine ⟨π, ht, fun st' hm => ?_⟩
  obtain ⟨s0, hi⟩ := C85_can_be_constructed hs ha
  obtain ⟨s0', hi'⟩ := C85_can_be_constructed (C96_moved_start hs hsym hm) (C96_moved_answers ha hm)
  exact ⟨s0, s0', hi, hi', fun Θ Θ' _ _ μ μ' _ _ U U' hU hU' path hpath =>
    C96_no_absolute_position hs ha hk hsym hm hi hi' hU hU' path hpath⟩

end

/-! ### A ring of five sites -/

/-- The hops around a ring of five sites, each with its two outer neighbours. -/
def ringLib : EventLib Unit Unit :=
  ({} : EventLib Unit Unit).addAll
    [⟨[0, 1], [4, 2], none⟩, ⟨[1, 2], [0, 3], none⟩, ⟨[2, 3], [1, 4], none⟩, ⟨[3, 4], [2, 0], none⟩,
      ⟨[4, 0], [3, 1], none⟩]

/-- One site further around the ring. -/
def ringTurn (i : Nat) : Nat := (i + 1) % 5

theorem ring_symmetry : IsSymmetry exampleOrder ringLib.events 5 ringTurn := by
  refine ⟨by unfold ringTurn; omega, by unfold ringTurn; omega, ?_, by decide⟩
  intro i hi
  have : ∀ i : Fin 5, allowedAt exampleOrder (ringTurn i) = allowedAt exampleOrder i := by decide
  exact this ⟨i, hi⟩

theorem ring_events {e : Event} (he : e ∈ ringLib.events) : e = ⟨[0, 1], [4, 2], none⟩ ∨
    e = ⟨[1, 2], [0, 3], none⟩ ∨ e = ⟨[2, 3], [1, 4], none⟩ ∨ e = ⟨[3, 4], [2, 0], none⟩ ∨
    e = ⟨[4, 0], [3, 1], none⟩ := by
  simpa [ringLib, EventLib.addAll_events] using he

/-- The expansion of the chain, for barriers and for site-energy differences. -/
noncomputable def ringModel : RateModel Unit ℝ EReal :=
  (⟨some chainExpansion, siteSource (some chainExpansion)⟩ : Composite Unit EReal).rateModel 1 300 1000

theorem ring_hopSystem : HopSystem exampleOrder "Na" ⟨[0, 0, 0, 0, 0], [1, 1, 1, 1, 1]⟩
    Rounding.exact ringModel hopGeometry ringLib ⟨[0, 1, 0, 1, 1], 0, 0⟩ := by
  refine C69_hop_system exampleOrder "Na" _ (some chainExpansion) (some chainExpansion) 1 300 1000 hopGeometry ringLib _
    (by norm_num) chain_hopSystem.lookup chain_hopSystem.labelled ?_ ?_ rfl
  · intro e he i hi
    rcases ring_events he with rfl | rfl | rfl | rfl | rfl <;> simp at hi
    all_goals rcases hi with rfl | rfl | rfl | rfl <;> simp
  · intro e he
    rcases ring_events he with rfl | rfl | rfl | rfl | rfl
    · exact ⟨0, 1, rfl, by decide⟩
    · exact ⟨1, 2, rfl, by decide⟩
    · exact ⟨2, 3, rfl, by decide⟩
    · exact ⟨3, 4, rfl, by decide⟩
    · exact ⟨4, 0, rfl, by decide⟩

theorem ring_surroundings : SurroundingsFit exampleOrder [2, 2] ringLib.events := by
  intro e he
  have hsite : ∀ i : Int, 0 ≤ i → i < 5 → ∃ (k : Nat) (a : List String), i = (k : Int) ∧
      allowedAt exampleOrder k = some a ∧ a.length = 2 := by
    intro i h0 h5
    have : i = 0 ∨ i = 1 ∨ i = 2 ∨ i = 3 ∨ i = 4 := by omega
    rcases this with rfl | rfl | rfl | rfl | rfl
    · exact ⟨0, _, rfl, rfl, rfl⟩
    · exact ⟨1, _, rfl, rfl, rfl⟩
    · exact ⟨2, _, rfl, rfl, rfl⟩
    · exact ⟨3, _, rfl, rfl, rfl⟩
    · exact ⟨4, _, rfl, rfl, rfl⟩
  have h2 : ∀ (s n : Nat), [2, 2][s]? = some n → n = 2 := by
    intro s n hs
    have := List.mem_of_getElem? hs
    simpa using this
  refine ⟨by rcases ring_events he with rfl | rfl | rfl | rfl | rfl <;> rfl, ?_⟩
  intro s i n hs hn
  rw [h2 s n hn]
  have hf := ring_hopSystem.fit e he i (by simp [List.mem_of_getElem? hs])
  exact hsite i hf.1 hf.2

theorem ring_answers : Answers exampleOrder "Na" ringModel ringLib.events [0, 1, 0, 1, 1] :=
  C85_composite_answers chainExpansion (some chainExpansion) 1 300 1000 ringLib.events _ [2, 2] [2, 2]
    chainExpansion_built ring_surroundings
    (by rintro m ⟨⟩; exact ⟨chainExpansion_built, ring_surroundings⟩) ring_hopSystem.fit
    (fun e he => by
      obtain ⟨f, t, h1, -⟩ := ring_hopSystem.endpoints e he
      exact ⟨f, t, h1⟩)

/-- The configuration moved by one site around the ring. -/
theorem ring_moved : Moved ringTurn [0, 1, 0, 1, 1] [1, 0, 1, 0, 1] := by
  refine ⟨rfl, by intro i hi; exact ring_symmetry.inside i hi, by intro i j; exact ring_symmetry.inj i j, ?_⟩
  have : ∀ i : Fin 5, ([1, 0, 1, 0, 1] : List Int)[ringTurn i]? = ([0, 1, 0, 1, 1] : List Int)[(i : Nat)]? := by decide
  exact fun i hi => this ⟨i, hi⟩

/-- C96, an instance: the hop from site 0 to site 1 and then the hop from site 2 to site 3, seen from the first
configuration, are as likely as the hops from 1 to 2 and from 3 to 4, seen from the moved one. -/
example : ∃ s0 s0' : Sim Unit Unit Unit ℝ EReal,
    Sim.init (realKernel Rounding.exact) ringModel ringLib.generateEventDependencies
      (some ⟨[0, 0, 0, 0, 0], [1, 1, 1, 1, 1]⟩) (some ⟨[0, 1, 0, 1, 1], 0, 0⟩) = .ok s0 ∧
    Sim.init (realKernel Rounding.exact) ringModel ringLib.generateEventDependencies
      (some ⟨[0, 0, 0, 0, 0], [1, 1, 1, 1, 1]⟩) (some ⟨[1, 0, 1, 0, 1], 0, 0⟩) = .ok s0' ∧
    ∀ t u : ℝ, 0 ≤ t → 0 ≤ u →
      Measure.infinitePi (fun _ : Nat => twoUniform) {ω | Follows ringModel ω s0'
        [(⟨[1, 2], [0, 3], some ⟨0, 1, 1, 0⟩⟩, t), (⟨[3, 4], [2, 0], some ⟨0, 1, 1, 0⟩⟩, u)]} =
      Measure.infinitePi (fun _ : Nat => twoUniform) {ω | Follows ringModel ω s0
        [(⟨[0, 1], [4, 2], some ⟨0, 1, 1, 0⟩⟩, t), (⟨[2, 3], [1, 4], some ⟨0, 1, 1, 0⟩⟩, u)]} := by
  obtain ⟨s0, hi⟩ := C85_can_be_constructed ring_hopSystem ring_answers
  have hm : Moved ringTurn (⟨[0, 1, 0, 1, 1], 0, 0⟩ : State EReal).occ (⟨[1, 0, 1, 0, 1], 0, 0⟩ : State EReal).occ :=
    ring_moved
  obtain ⟨s0', hi'⟩ := C85_can_be_constructed (C96_moved_start ring_hopSystem ring_symmetry hm)
    (C96_moved_answers ring_answers hm)
  refine ⟨s0, s0', hi, hi', ?_⟩
  intro t u ht hu
  have hl : (⟨[0, 0, 0, 0, 0], [1, 1, 1, 1, 1]⟩ : HopStateLookup).annotateEvents
      ringLib.generateEventDependencies.events = .ok
      [⟨[0, 1], [4, 2], some ⟨0, 1, 1, 0⟩⟩, ⟨[1, 2], [0, 3], some ⟨0, 1, 1, 0⟩⟩, ⟨[2, 3], [1, 4], some ⟨0, 1, 1, 0⟩⟩,
        ⟨[3, 4], [2, 0], some ⟨0, 1, 1, 0⟩⟩, ⟨[4, 0], [3, 1], some ⟨0, 1, 1, 0⟩⟩] := by decide +kernel
  have hev := (init_ok hi).2.2.2.2.2.1 _ rfl
  rw [hl] at hev
  have hev := Except.ok.inj hev
  refine C96_no_absolute_position ring_hopSystem ring_answers (C96_expansions_know_no_position _ _ _ _ _)
    ring_symmetry hm hi hi' C93_random_numbers C93_random_numbers
    [(⟨[0, 1], [4, 2], some ⟨0, 1, 1, 0⟩⟩, t), (⟨[2, 3], [1, 4], some ⟨0, 1, 1, 0⟩⟩, u)] ?_
  rw [← hev]
  simp [ht, hu]

/-- The model of the examples knows no position. -/
theorem hopModel_knows_no_position : KnowsNoPosition hopModel := by
  intro π e st st' hf hm
  have hfit := hf e (by simp)
  have := eventDirection_moved (e := e) hm fun i hi => hfit i (List.mem_append_left _ hi)
  simp only [hopModel, this]

/-- C96, an instance with a generated library: the ring of three cells, moved by one cell. -/
example : ∃ π, IsTranslation Ring.order.supercellShape Ring.sites (1, 0, 0) π ∧
    ∀ (st' : State EReal), Moved π Ring.occ st'.occ →
    ∃ s0 s0', Sim.init (realKernel Rounding.exact) hopModel Ring.lib.generateEventDependencies
        (some ⟨[0, 0, 0, 0, 0, 0], [1, 1, 1, 1, 1, 1]⟩) (some ⟨Ring.occ, 0, 0⟩) = .ok s0 ∧
      Sim.init (realKernel Rounding.exact) hopModel Ring.lib.generateEventDependencies
        (some ⟨[0, 0, 0, 0, 0, 0], [1, 1, 1, 1, 1, 1]⟩) (some st') = .ok s0' ∧
      ∀ path : List (Event × ℝ), (∀ x ∈ path, x.1 ∈ s0.lib.events ∧ 0 ≤ x.2) →
        Measure.infinitePi (fun _ : Nat => twoUniform) {ω | Follows hopModel ω s0' (movedPath π path)} =
          Measure.infinitePi (fun _ : Nat => twoUniform) {ω | Follows hopModel ω s0 path} := by
  obtain ⟨π, h1, h2⟩ := C96_translated_simulation keepMatcher_permutes (by decide) Ring.events_eq Ring.order_eq
    Ring.sites_eq Ring.hopSystem Ring.answers hopModel_knows_no_position (1, 0, 0)
  refine ⟨π, h1, fun st' hm => ?_⟩
  obtain ⟨s0, s0', i1, i2, h3⟩ := h2 st' hm
  exact ⟨s0, s0', i1, i2, fun path hp => h3 _ _ _ _ _ _ C93_random_numbers C93_random_numbers path hp⟩

/-- A model may know positions: one that charges the ions on site 0 does. -/
theorem C96_some_models_know_positions : ∃ m : RateModel Unit ℝ EReal, LocalModel m ∧ ¬ KnowsNoPosition m := by
  refine ⟨⟨fun _ _ => .ok (), fun _ _ _ => (.ok (), ()), fun _ e _ => .ok (if e.mobile = [0, 1] then 1 else 2)⟩,
    ⟨fun e s s' _ _ => rfl⟩, ?_⟩
  intro hk
  have := hk ringTurn ⟨[0, 1], [], none⟩ ⟨[0, 1, 0, 1, 1], 0, 0⟩ ⟨[1, 0, 1, 0, 1], 0, 0⟩
    (by intro e he i hi; simp at he; subst he; simp at hi; rcases hi with rfl | rfl <;> simp) ring_moved
  simp [relabel, ringTurn] at this

end KMC
