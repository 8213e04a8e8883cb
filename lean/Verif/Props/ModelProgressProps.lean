import Verif.Props.ProgressProps
import Verif.Props.CompositeProps
import Verif.Props.LCEBuildProps
import Verif.Props.LocalBarrierMakeProps
/-
C85 for the models that kMCpy ships: when local barrier models and composite cluster expansions answer every
question a simulation asks, and what follows for whole runs.
-/
namespace KMC
open Spec LocalBarrier

section
variable {σ φ ψ K V Row : Type} [Field K] [LinearOrder K] [FloorRing K]
variable {o : ActiveSiteOrder String ψ} {mobile : String}

/-- An event of the library has a direction in every state of the right length. -/
theorem direction_total {events : List Event} {occ : List Int} {e : Event}
    (fit : IndicesFit occ.length events)
    (ends : ∀ e ∈ events, ∃ f t : Nat, e.mobile = [(f : Int), (t : Int)])
    (he : ∃ x ∈ events, e.mobile = x.mobile ∧ e.env = x.env) : ∃ d, eventDirection occ e = .ok d := by
  obtain ⟨x, hx, hm, -⟩ := he
  obtain ⟨f, t, hft⟩ := ends x hx
  have h1 := fit x hx f (by simp [hft])
  have h2 := fit x hx t (by simp [hft])
  have h1' : f < occ.length := by omega
  have h2' : t < occ.length := by omega
  exact ⟨_, eventDirection_of (hm.trans hft) (pyIdx_natCast h1') (pyIdx_natCast h2')
    (List.getElem?_eq_getElem h1') (List.getElem?_eq_getElem h2')⟩

theorem firstMatch_total {m : LocalBarrierModel} {occ : List Int} {e : Event} : ∀ rules : List Rule,
    (∀ r ∈ rules, Evaluable m.siteSpecies occ e r) →
    m.firstMatch occ e rules = .ok none ∨ ∃ r ∈ rules, m.firstMatch occ e rules = .ok (some r.props) := by
  intro rules
  induction rules with
  | nil => intro _; exact .inl rfl
  | cons r rs ih =>
    intro h
    simp only [LocalBarrierModel.firstMatch]
    obtain ⟨b, hb⟩ := ruleMatches_total (h r (by simp))
    rw [hb]
    cases b with
    | true => exact .inr ⟨r, by simp, rfl⟩
    | false =>
      rcases ih fun q hq => h q (by simp [hq]) with h1 | ⟨q, hq, h1⟩
      · exact .inl h1
      · exact .inr ⟨q, by simp [hq], h1⟩

/-- Every barrier the model can give: the values of its probability property in the rules and in the
defaults. -/
def GivesOnly (m : LocalBarrierModel) (good : PyFloat → Prop) : Prop :=
  (∃ d v, m.defaultProperties = some d ∧
    dictGet d (if m.probabilityProperty = "" then m.defaultProperty else m.probabilityProperty) = some v ∧
    good v) ∧
  ∀ r ∈ m.rules, ∃ v,
    dictGet r.props (if m.probabilityProperty = "" then m.defaultProperty else m.probabilityProperty) = some v ∧
    good v

theorem compute_gives {m : LocalBarrierModel} {good : PyFloat → Prop} (hg : GivesOnly m good)
    {occ : List Int} {e : Event} (hev : ∀ r ∈ m.rules, Evaluable m.siteSpecies occ e r) :
    ∃ v, m.compute occ e m.probabilityProperty = .ok v ∧ good v := by
  obtain ⟨⟨d, v, h1, h2, h3⟩, h4⟩ := hg
  unfold LocalBarrierModel.compute LocalBarrierModel.matchedProperties
  rcases firstMatch_total m.rules hev with h | ⟨r, hr, h⟩
  · rw [h, h1]
    simp only [h2]
    exact ⟨v, rfl, h3⟩
  · obtain ⟨w, hw, hgw⟩ := h4 r hr
    rw [h]
    simp only [hw]
    exact ⟨w, rfl, hgw⟩

/-- C85.  A local barrier model answers every question of a simulation when it has a default barrier, every
rule has a barrier, none of them is minus infinity or not a number, and every rule can be evaluated for
every event. -/
theorem C85_local_barrier_answers (m : LocalBarrierModel) (kB T ν : ℝ) (events : List Event) (occ : List Int)
    (hmode : m.probabilityMode = "barrier_arrhenius")
    (hg : GivesOnly m fun v => (∃ q, v = .fin q) ∨ v = .posInf)
    (fit : IndicesFit occ.length events)
    (ends : ∀ e ∈ events, ∃ f t : Nat, e.mobile = [(f : Int), (t : Int)])
    (hev : ∀ (occ' : List Int) (e : Event), WellLabelled o mobile occ' → SameComposition occ' occ →
      (∃ x ∈ events, e.mobile = x.mobile ∧ e.env = x.env) →
      ∀ r ∈ m.rules, Evaluable m.siteSpecies occ' e r) :
    Answers o mobile (m.rateModel kB T ν) events occ := by
  refine ⟨fun _ _ => rfl, fun _ _ => rfl, ?_⟩
  intro e st he hc hw
  obtain ⟨v, hv, hgv⟩ := compute_gives hg (hev st.occ e hw hc he)
  obtain ⟨d, hd⟩ := direction_total (occ := st.occ) (by rw [hc.1]; exact fit) ends he
  simp only [LocalBarrierModel.rateModel, LocalBarrierModel.computeProbability, hmode,
    LocalBarrierModel.supportedMode, ne_eq, not_true_eq_false, if_false, hv, hd]
  rcases hgv with ⟨q, rfl⟩ | rfl
  · exact ⟨_, rfl⟩
  · exact ⟨_, rfl⟩

/-- C85.  With finite barriers only and a positive attempt frequency, possible hops have positive rates. -/
theorem C85_local_barrier_willing (m : LocalBarrierModel) (kB T ν : ℝ) (hν : 0 < ν)
    (hg : GivesOnly m fun v => ∃ q, v = .fin q) : Willing (m.rateModel kB T ν) := by
  intro e st d p hd h0 hp
  simp only [LocalBarrierModel.rateModel, LocalBarrierModel.computeProbability] at hp
  by_cases hmode : m.probabilityMode = LocalBarrierModel.supportedMode
  · rw [if_neg (by simpa using hmode)] at hp
    cases hc : m.compute st.occ e m.probabilityProperty with
    | error x => rw [hc] at hp; cases hp
    | ok v =>
      have hfin : ∃ q, v = .fin q := by
        obtain ⟨⟨d', v', h1, h2, h3⟩, h4⟩ := hg
        unfold LocalBarrierModel.compute at hc
        split at hc
        · cases hc
        · rename_i ps hps
          have : ps = d' ∨ ∃ r ∈ m.rules, ps = r.props := by
            unfold LocalBarrierModel.matchedProperties at hps
            split at hps
            · cases hps
            · rename_i q hq
              rw [Except.ok.injEq] at hps
              subst hps
              right
              exact firstMatch_mem hq
            · rw [h1] at hps
              simp only [Except.ok.injEq] at hps
              exact .inl hps.symm
          rcases this with rfl | ⟨r, hr, rfl⟩
          · rw [h2] at hc
            simp only [Except.ok.injEq] at hc
            rw [← hc]; exact h3
          · obtain ⟨w, hw, hgw⟩ := h4 r hr
            rw [hw] at hc
            simp only [Except.ok.injEq] at hc
            rw [← hc]; exact hgw
      obtain ⟨q, rfl⟩ := hfin
      rw [hc] at hp
      simp only [hd, LocalBarrierModel.arrhenius, if_pos h0, Except.ok.injEq] at hp
      rw [← hp]
      positivity
  · rw [if_pos (by simpa using hmode)] at hp
    cases hp
where
  firstMatch_mem {m : LocalBarrierModel} {occ : List Int} {e : Event} {ps : Properties} {rules : List Rule}
      (h : m.firstMatch occ e rules = .ok (some ps)) : ∃ r ∈ rules, ps = r.props := by
    induction rules with
    | nil => cases h
    | cons r rs ih =>
      simp only [LocalBarrierModel.firstMatch] at h
      split at h
      · cases h
      · cases h; exact ⟨r, by simp, rfl⟩
      · obtain ⟨q, hq, he⟩ := ih h
        exact ⟨q, by simp [hq], he⟩

/-- C85.  The simplest set-up, one barrier for all events at a positive attempt frequency, on a connected
network with an ion and a vacancy: the simulation can be constructed and every run of it completes. -/
theorem C85_constant_barrier_completes {h : HopStateLookup} {g : Geometry K} {lib : EventLib σ φ}
    {st : State EReal} (b : ℚ) (name : String) (kB T ν : ℝ) (hν : 0 < ν)
    (lookup : HopStateLookup.fromActiveSiteOrder o mobile = .ok h)
    (labelled : WellLabelled o mobile st.occ) (fit : IndicesFit st.occ.length lib.events)
    (endpoints : ∀ e ∈ lib.events, ∃ f t : Nat, e.mobile = [(f : Int), (t : Int)] ∧
      allowedAt o f = allowedAt o t)
    (coords : g.fracCoords.length = st.occ.length) {S : Nat → Prop}
    (hn : Network o mobile lib.events st.occ S)
    (summary : Trajectory K → EReal → List (String × Bool) → Row) (ops : List (PlanOp EReal V))
    (ht : ∀ n spec, dictGet (planAfter ops).attached n = some spec → Tolerant spec)
    (rng : Nat → ℝ × ℝ) (hr : ∀ c, 0 ≤ (rng c).1 ∧ (rng c).1 < 1) (len equil prod : Nat) :
    ∃ (m : LocalBarrierModel) (s0 : Sim σ φ Unit ℝ EReal),
      LocalBarrierModel.constantBarrier (.float (.fin b)) name = .ok m ∧
      Sim.init (realKernel Rounding.exact) (m.rateModel kB T ν) lib.generateEventDependencies (some h)
        (some st) = .ok s0 ∧
      (s0.run (realKernel Rounding.exact) (m.rateModel kB T ν) g (some h) summary (planAfter ops) rng len
        equil prod).outcome = .ok () := by
  let m : LocalBarrierModel := ⟨name, "barrier", "barrier_arrhenius", "barrier", [],
    some [("barrier", .fin b)], [], []⟩
  have hs := C65_hop_system o mobile h m kB T ν g lib st hν.le (by simp [m]) lookup labelled fit endpoints
    coords
  have ha : Answers o mobile (m.rateModel kB T ν) lib.events st.occ := by
    refine C85_local_barrier_answers m kB T ν lib.events st.occ rfl ?_ fit ?_ ?_
    · exact ⟨⟨_, _, rfl, rfl, .inl ⟨b, rfl⟩⟩, by simp [m]⟩
    · intro e he
      obtain ⟨f, t, h1, -⟩ := endpoints e he
      exact ⟨f, t, h1⟩
    · intro _ _ _ _ _ r hr
      simp [m] at hr
  have hw : Willing (m.rateModel kB T ν) :=
    C85_local_barrier_willing m kB T ν hν ⟨⟨_, _, rfl, rfl, b, rfl⟩, by simp [m]⟩
  obtain ⟨s0, hi⟩ := C85_can_be_constructed hs ha
  exact ⟨m, s0, rfl, hi, C85_connected_completes hs ha hw hn hi summary ops ht rng hr len equil prod⟩

/-! ### Composite expansions -/

/-- The surroundings of every event have one site per position of the model, and every site has as many
states as the model expects there. -/
def SurroundingsFit (o : ActiveSiteOrder String ψ) (counts : List Nat) (events : List Event) : Prop :=
  ∀ e ∈ events, e.env.length = counts.length ∧ ∀ (s : Nat) (i : Int) (n : Nat), e.env[s]? = some i →
    counts[s]? = some n → ∃ (k : Nat) (a : List String), i = (k : Int) ∧ allowedAt o k = some a ∧ a.length = n

omit [Field K] [LinearOrder K] [FloorRing K] in
theorem validSurroundings_of {counts : List Nat} {events : List Event} (hf : SurroundingsFit o counts events)
    {occ : List Int} (hw : WellLabelled o mobile occ) {e : Event}
    (he : ∃ x ∈ events, e.mobile = x.mobile ∧ e.env = x.env) : ValidSurroundings counts occ e.env := by
  obtain ⟨x, hx, -, he⟩ := he
  obtain ⟨h1, h2⟩ := hf x hx
  rw [he]
  refine ⟨h1, ?_⟩
  intro s i n hs hn
  obtain ⟨k, a, rfl, ha, rfl⟩ := h2 s i n hs hn
  have hk : k < occ.length := by
    rw [hw.length]
    by_contra hc
    unfold allowedAt at ha
    rw [List.getElem?_eq_none (by omega)] at ha
    cases ha
  refine ⟨occ[k], pyGet_natCast (by simp [hk]), ?_⟩
  obtain ⟨sp, hsp⟩ := hw.valid k hk
  unfold speciesAt at hsp
  simp only [List.getElem?_eq_getElem hk] at hsp
  unfold Spec.speciesOf at hsp
  simp only [ha] at hsp
  split at hsp
  · cases hsp
  · rename_i hneg
    have hlt := (List.getElem?_eq_some_iff.1 hsp).1
    exact ⟨by omega, by omega⟩

theorem localOccupations_exists {counts : List Nat} {occ env : List Int} (hv : ValidSurroundings counts occ env) :
    ∃ x, LocalOccupations occ env x := by
  refine ⟨fun s => match pyGet env s with
    | .ok i => (match pyGet occ i with
      | .ok v => v
      | .error _ => 0)
    | .error _ => 0, ?_⟩
  intro s i hs
  simp only [hs]
  obtain ⟨k, -, hk⟩ := pyGet_ok_iff.1 hs
  have hkl := (List.getElem?_eq_some_iff.1 hk).1
  obtain ⟨v, h1, -⟩ := hv.2 k i _ hk (List.getElem?_eq_getElem (by rw [← hv.1]; exact hkl))
  rw [h1]

/-- A local cluster expansion as a user makes it: built for surroundings with these numbers of states, with
accepted parameters. -/
def BuiltLCE (counts : List Nat) (m : LCE ℝ) : Prop :=
  ∃ (L : Type) (_ : LinearOrder L) (g : LCE.ClusterGeometry L) (b : LCE.SiteBasis ℝ) (hash : Option String) (pc : L)
    (cc : List L) (m0 : LCE ℝ) (p : LCEParameters ℝ), BasisShape b ∧
    LCE.build g b counts hash pc cc = .ok m0 ∧ m0.getOrbitFingerprints ≠ [] ∧
    m0.setParameters p = (.ok (), m)

theorem builtLCE_total {counts : List Nat} {m : LCE ℝ} (hm : BuiltLCE counts m) {occ : List Int} {e : Event}
    (hv : ValidSurroundings counts occ e.env) : ∃ v, m.compute occ e = .ok v := by
  obtain ⟨L, i, g, b, hash, pc, cc, m0, p, hb, h1, h2, h3⟩ := hm
  obtain ⟨x, hx⟩ := localOccupations_exists hv
  obtain ⟨keci, e0, f, hh, -, -, h4⟩ := C67_built_model_evaluates g b hb counts hash pc cc m0 m h1 h2 p h3 occ e
    hv x hx
  exact ⟨_, h4⟩

/-- The site part of a composite model whose site-energy differences, if any, come from an expansion. -/
def siteSource (site : Option (LCE ℝ)) : SiteSource Unit EReal :=
  match site with
  | none => .none
  | some m => .expansion m

/-- C85.  A composite model made of expansions that were built and given parameters answers every question
of a simulation whose events have the surroundings the expansions were built for. -/
theorem C85_composite_answers (kra : LCE ℝ) (site : Option (LCE ℝ)) (kB temp ν : ℝ) (events : List Event)
    (occ : List Int) (counts : List Nat) (countsSite : List Nat)
    (hk : BuiltLCE counts kra) (hfk : SurroundingsFit o counts events)
    (hsite : ∀ m, site = some m → BuiltLCE countsSite m ∧ SurroundingsFit o countsSite events)
    (fit : IndicesFit occ.length events)
    (ends : ∀ e ∈ events, ∃ f t : Nat, e.mobile = [(f : Int), (t : Int)]) :
    Answers o mobile ((⟨some kra, siteSource site⟩ : Composite Unit EReal).rateModel kB temp ν) events occ := by
  refine ⟨fun _ _ => by cases site <;> rfl, fun _ _ => by cases site <;> rfl, ?_⟩
  intro e st he hc hw
  obtain ⟨d, hd⟩ := direction_total (occ := st.occ) (by rw [hc.1]; exact fit) ends he
  simp only [Composite.rateModel, Composite.computeProbability, hd]
  by_cases h0 : d = 0
  · exact ⟨0, by rw [if_pos h0]⟩
  · rw [if_neg h0]
    obtain ⟨v, hv⟩ := builtLCE_total hk (validSurroundings_of hfk hw he)
    simp only [hv]
    cases hst : site with
    | none => exact ⟨_, rfl⟩
    | some m =>
      simp only [siteSource]
      obtain ⟨h1, h2⟩ := hsite m hst
      obtain ⟨w, hw'⟩ := builtLCE_total h1 (validSurroundings_of h2 hw he)
      simp only [SiteSource.expansion, hw']
      exact ⟨_, rfl⟩

/-- C85.  With a positive attempt frequency a composite model gives possible hops a positive rate. -/
theorem C85_composite_willing {T : Type} (c : Composite Unit T) (kB temp ν : ℝ) (hν : 0 < ν) :
    Willing (c.rateModel kB temp ν) := by
  intro e st d p hd h0 hp
  have hnn := C34_composite_nonneg c kB temp ν hν.le () e st p hp
  have hz := C34_composite_zero_iff_forbidden c kB temp ν hν () e st p hp
  rcases hnn.lt_or_eq with h | h
  · exact h
  · have := hz.1 h.symm
    rw [hd, Except.ok.injEq] at this
    exact absurd this h0

/-- C85.  The ordinary set-up of kMCpy: barriers (and, if wanted, site-energy differences) from cluster
expansions that were built and given parameters, events with the surroundings these were built for, a
positive attempt frequency, and a connected network of sites with an ion and a vacancy.  Then the simulation
can be constructed and every run of it, however long, completes. -/
theorem C85_composite_completes {h : HopStateLookup} {g : Geometry K} {lib : EventLib σ φ}
    {st : State EReal} (kra : LCE ℝ) (site : Option (LCE ℝ)) (kB temp ν : ℝ) (hν : 0 < ν)
    (counts countsSite : List Nat) (hk : BuiltLCE counts kra) (hfk : SurroundingsFit o counts lib.events)
    (hsite : ∀ m, site = some m → BuiltLCE countsSite m ∧ SurroundingsFit o countsSite lib.events)
    (lookup : HopStateLookup.fromActiveSiteOrder o mobile = .ok h)
    (labelled : WellLabelled o mobile st.occ) (fit : IndicesFit st.occ.length lib.events)
    (endpoints : ∀ e ∈ lib.events, ∃ f t : Nat, e.mobile = [(f : Int), (t : Int)] ∧
      allowedAt o f = allowedAt o t)
    (coords : g.fracCoords.length = st.occ.length) {S : Nat → Prop}
    (hn : Network o mobile lib.events st.occ S)
    (summary : Trajectory K → EReal → List (String × Bool) → Row) (ops : List (PlanOp EReal V))
    (ht : ∀ n spec, dictGet (planAfter ops).attached n = some spec → Tolerant spec)
    (rng : Nat → ℝ × ℝ) (hr : ∀ c, 0 ≤ (rng c).1 ∧ (rng c).1 < 1) (len equil prod : Nat) :
    let m : RateModel Unit ℝ EReal := (⟨some kra, siteSource site⟩ : Composite Unit EReal).rateModel kB temp ν
    ∃ s0 : Sim σ φ Unit ℝ EReal,
      Sim.init (realKernel Rounding.exact) m lib.generateEventDependencies (some h) (some st) = .ok s0 ∧
      (s0.run (realKernel Rounding.exact) m g (some h) summary (planAfter ops) rng len equil prod).outcome =
        .ok () := by
  intro m
  have hs := C69_hop_system o mobile h (some kra) site kB temp ν g lib st hν.le lookup labelled fit endpoints
    coords
  have ha := C85_composite_answers (o := o) (mobile := mobile) kra site kB temp ν lib.events st.occ counts
    countsSite hk hfk hsite fit (fun e he => by
      obtain ⟨f, t, h1, -⟩ := endpoints e he
      exact ⟨f, t, h1⟩)
  have hw := C85_composite_willing ((⟨some kra, siteSource site⟩ : Composite Unit EReal)) kB temp ν hν
  obtain ⟨s0, hi⟩ := C85_can_be_constructed hs ha
  exact ⟨s0, hi, C85_connected_completes hs ha hw hn hi summary ops ht rng hr len equil prod⟩

end

/-! ### Non-vacuity -/

theorem unit_draws : ∀ c : Nat, (0 : ℝ) ≤ 1 / (c + 2) ∧ (1 : ℝ) / (c + 2) < 1 := by
  intro c
  have : (0 : ℝ) ≤ c := Nat.cast_nonneg c
  constructor
  · positivity
  · rw [div_lt_one (by linarith)]
    linarith

/-- One barrier for the five-site chain: a million passes complete. -/
example : ∃ (m : LocalBarrierModel) (s0 : Sim Unit Unit Unit ℝ EReal),
    LocalBarrierModel.constantBarrier (.float (.fin 300)) "chain" = .ok m ∧
    Sim.init (realKernel Rounding.exact) (m.rateModel 1 300 1000) chainLib.generateEventDependencies
      (some ⟨[0, 0, 0, 0, 0], [1, 1, 1, 1, 1]⟩) (some ⟨[0, 1, 0, 1, 1], 0, 0⟩) = .ok s0 ∧
    (s0.run (V := Unit) (realKernel Rounding.exact) (m.rateModel 1 300 1000) hopGeometry
      (some ⟨[0, 0, 0, 0, 0], [1, 1, 1, 1, 1]⟩) (fun _ _ _ => ()) (planAfter [])
      (fun n => (1 / (n + 2), 1 / 2)) 2 1000 1000000).outcome = .ok () :=
  C85_constant_barrier_completes 300 "chain" 1 300 1000 (by norm_num) chain_hopSystem.lookup
    chain_hopSystem.labelled chain_hopSystem.fit chain_hopSystem.endpoints rfl chain_network _ []
    (by intro n spec hs; cases hs) _ unit_draws 2 1000 1000000

/-- Two surrounding sites, a term for the single sites and a term for the pair. -/
def chainGeometry : LCE.ClusterGeometry Nat :=
  ⟨fun c => c.length, fun _ _ => true, fun o => if o.length = 2 then "points" else "pair", fun s _ _ => s⟩

def chainBasis : LCE.SiteBasis ℝ := ⟨false, fun _ => 0, fun n => List.replicate n []⟩

/-- An expansion with the coefficients 3 (points), 5 (pair) and 7 (constant) over the surroundings of the
chain. -/
noncomputable def chainExpansion : LCE ℝ :=
  { clusterSiteIndices := [[[0], [1]], [[0, 1]]], correlationFingerprints := some ["points", "pair"],
    orbitFingerprints := some ["points", "pair"], keci := some [3, 5], emptyCluster := some 7,
    parameterFingerprints := some ["points", "pair"] }

theorem chainExpansion_built : BuiltLCE [2, 2] chainExpansion := by
  refine ⟨Nat, inferInstance, chainGeometry, chainBasis, none, 10, [10, 10, 10],
    { clusterSiteIndices := [[[0], [1]], [[0, 1]]], correlationFingerprints := some ["points", "pair"],
      orbitFingerprints := some ["points", "pair"] }, .object [3, 5] 7 none none, ⟨?_, ?_⟩, ?_, ?_, ?_⟩
  · intro n; simp [chainBasis]
  · intro n row hr
    simp only [chainBasis] at hr
    rw [(List.mem_replicate.1 hr).2]; rfl
  · rfl
  · simp [LCE.getOrbitFingerprints]
  · rfl

theorem chain_surroundings : SurroundingsFit exampleOrder [2, 2] chainLib.events := by
  intro e he
  have : ∀ i : Int, i = 0 ∨ i = 1 ∨ i = 3 ∨ i = 4 → ∃ (k : Nat) (a : List String), i = (k : Int) ∧
      allowedAt exampleOrder k = some a ∧ a.length = 2 := by
    rintro i (rfl | rfl | rfl | rfl)
    · exact ⟨0, _, rfl, rfl, rfl⟩
    · exact ⟨1, _, rfl, rfl, rfl⟩
    · exact ⟨3, _, rfl, rfl, rfl⟩
    · exact ⟨4, _, rfl, rfl, rfl⟩
  have h2 : ∀ (s n : Nat), [2, 2][s]? = some n → n = 2 := by
    intro s n hs
    have := List.mem_of_getElem? hs
    simpa using this
  refine ⟨by rcases chain_events he with rfl | rfl | rfl | rfl <;> rfl, ?_⟩
  intro s i n hs hn
  rw [h2 s n hn]
  apply this
  have := List.mem_of_getElem? hs
  rcases chain_events he with rfl | rfl | rfl | rfl <;> simp at this <;> omega

/-- Barriers from one expansion and site-energy differences from another, on the chain. -/
example : ∃ s0 : Sim Unit Unit Unit ℝ EReal,
    Sim.init (realKernel Rounding.exact) ((⟨some chainExpansion, siteSource (some chainExpansion)⟩ :
      Composite Unit EReal).rateModel 1 300 1000) chainLib.generateEventDependencies
      (some ⟨[0, 0, 0, 0, 0], [1, 1, 1, 1, 1]⟩) (some ⟨[0, 1, 0, 1, 1], 0, 0⟩) = .ok s0 ∧
    (s0.run (V := Unit) (realKernel Rounding.exact) ((⟨some chainExpansion,
      siteSource (some chainExpansion)⟩ : Composite Unit EReal).rateModel 1 300 1000) hopGeometry
      (some ⟨[0, 0, 0, 0, 0], [1, 1, 1, 1, 1]⟩) (fun _ _ _ => ()) (planAfter [])
      (fun n => (1 / (n + 2), 1 / 2)) 2 1000 1000000).outcome = .ok () :=
  C85_composite_completes chainExpansion (some chainExpansion) 1 300 1000 (by norm_num) [2, 2] [2, 2]
    chainExpansion_built chain_surroundings
    (by rintro m ⟨⟩; exact ⟨chainExpansion_built, chain_surroundings⟩) chain_hopSystem.lookup
    chain_hopSystem.labelled chain_hopSystem.fit chain_hopSystem.endpoints rfl chain_network _ []
    (by intro n spec hs; cases hs) _ unit_draws 2 1000 1000000

end KMC
