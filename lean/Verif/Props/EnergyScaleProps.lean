import Verif.Spec.EnergyScale
import Verif.Props.ModelProgressProps
/-
C111: only the ratio of the energies to the temperature matters.
-/
namespace KMC
open LocalBarrier Spec
variable {σ φ M T : Type}

theorem inner_scale (x : ℝ) (a b : List ℝ) :
    LCE.npInner a (b.map (x * ·)) = match LCE.npInner a b with
      | .error e => .error e
      | .ok v => .ok (x * v) := by
  unfold LCE.npInner
  rw [List.length_map]
  by_cases h : a.length = b.length
  · rw [if_pos h, if_pos h]
    simp only [Except.ok.injEq]
    clear h
    induction a generalizing b with
    | nil => simp
    | cons y a ih =>
      cases b with
      | nil => simp
      | cons z b =>
        simp only [List.map_cons, List.zipWith_cons_cons, List.sum_cons, ih, mul_add]
        ring
  · rw [if_neg h, if_neg h]

theorem validate_scale (x : ℝ) (m : LCE ℝ) (k : List ℝ) (fps : Option (List String)) (hash : Option String) :
    (scaledExpansion x m).validateParameterOrbits (k.map (x * ·)) fps hash =
      match m.validateParameterOrbits k fps hash with
      | .error e => .error e
      | .ok l => .ok (l.map (x * ·)) := by
  have h1 : (scaledExpansion x m).getOrbitFingerprints = m.getOrbitFingerprints := rfl
  have h2 : (scaledExpansion x m).environmentHash = m.environmentHash := rfl
  simp only [LCE.validateParameterOrbits, h1, h2, List.length_map]
  split
  · rfl
  · split
    · rfl
    · cases fps with
      | none => rfl
      | some l =>
        simp only
        split
        · rfl
        · split <;> rfl

/-- What an expansion with scaled energies computes. -/
theorem scaledExpansion_compute (x : ℝ) (m : LCE ℝ) (occ : List Int) (e : Event) :
    (scaledExpansion x m).compute occ e = match m.compute occ e with
      | .error err => .error err
      | .ok v => .ok (x * v) := by
  unfold LCE.compute
  cases hk : m.keci with
  | none =>
    have hk' : (scaledExpansion x m).keci = none := by simp [scaledExpansion, hk]
    rw [hk']
  | some k =>
    have hk' : (scaledExpansion x m).keci = some (k.map (x * ·)) := by simp [scaledExpansion, hk]
    rw [hk']
    cases he : m.emptyCluster with
    | none =>
      have he' : (scaledExpansion x m).emptyCluster = none := by simp [scaledExpansion, he]
      rw [he']
    | some e0 =>
      have he' : (scaledExpansion x m).emptyCluster = some (x * e0) := by simp [scaledExpansion, he]
      have hp : (scaledExpansion x m).parameterFingerprints = m.parameterFingerprints := rfl
      have hh : (scaledExpansion x m).parameterHash = m.parameterHash := rfl
      rw [he', hp, hh]
      simp only [validate_scale]
      cases m.validateParameterOrbits k m.parameterFingerprints m.parameterHash with
      | error err => rfl
      | ok l =>
        simp only
        cases pyGetAll occ e.env with
        | error err => rfl
        | ok lo =>
          simp only
          have hc : (scaledExpansion x m).calculateCorrelation lo = m.calculateCorrelation lo := rfl
          rw [hc]
          cases m.calculateCorrelation lo with
          | error err => rfl
          | ok corr =>
            simp only [inner_scale]
            cases LCE.npInner corr l with
            | error err => rfl
            | ok v => simp only [mul_add]

/-- C111.  A composite model whose energies are all multiplied by `x`, at a temperature (times Boltzmann's constant)
multiplied by `x`: the rates, the records and the exceptions are the same for every event in every state, so it is
the same rate model. -/
theorem C111_composite (x : ℝ) (hx : x ≠ 0) (kra : LCE ℝ) (s s' : SiteSource M T) (hs : ScaledDifferences x s s')
    (kB temperature kB' temperature' frequency : ℝ) (ht : kB' * temperature' = x * (kB * temperature)) :
    (⟨some (scaledExpansion x kra), s'⟩ : Composite M T).rateModel kB' temperature' frequency =
      (⟨some kra, s⟩ : Composite M T).rateModel kB temperature frequency := by
  have hp : ∀ ms e st, (⟨some (scaledExpansion x kra), s'⟩ : Composite M T).computeProbability kB' temperature'
      frequency ms e st = (⟨some kra, s⟩ : Composite M T).computeProbability kB temperature frequency ms e st := by
    intro ms e st
    unfold Composite.computeProbability
    cases eventDirection st.occ e with
    | error err => rfl
    | ok d =>
      simp only
      by_cases hd : d = 0
      · rw [if_pos hd, if_pos hd]
      · rw [if_neg hd, if_neg hd, scaledExpansion_compute]
        cases kra.compute st.occ e with
        | error err => rfl
        | ok ek =>
          simp only
          cases hdiff : s.difference ms e st d with
          | error err => rw [hs.error _ _ _ _ _ hdiff]
          | ok v =>
            rw [hs.value _ _ _ _ _ hdiff]
            simp only [ht]
            have : -(x * ek + x * v / 2) / (x * (kB * temperature)) = -(ek + v / 2) / (kB * temperature) := by
              rw [show -(x * ek + x * v / 2) = x * -(ek + v / 2) by ring]
              exact mul_div_mul_left _ _ hx
            rw [this]
  simp only [Composite.rateModel, hs.start, hs.follow, RateModel.mk.injEq, true_and]
  funext ms e st
  exact hp ms e st

/-- C111.  In particular for models made of expansions. -/
theorem C111_expansions (x : ℝ) (hx : x ≠ 0) (kra : LCE ℝ) (site : Option (LCE ℝ))
    (kB temperature kB' temperature' frequency : ℝ) (ht : kB' * temperature' = x * (kB * temperature)) :
    (⟨some (scaledExpansion x kra), siteSource (site.map (scaledExpansion x))⟩ : Composite Unit EReal).rateModel
        kB' temperature' frequency =
      (⟨some kra, siteSource site⟩ : Composite Unit EReal).rateModel kB temperature frequency := by
  apply C111_composite x hx kra _ _ _ _ _ _ _ _ ht
  cases site with
  | none =>
    refine ⟨rfl, rfl, ?_, ?_⟩
    · intro ms e st d v h
      cases h
      show Except.ok 0 = Except.ok (x * 0)
      rw [mul_zero]
    · intro ms e st d err h
      cases h
  | some m =>
    refine ⟨rfl, rfl, ?_, ?_⟩
    · intro ms e st d v h
      have h' : (SiteSource.expansion (T := EReal) m).difference ms e st d = .ok v := h
      show (SiteSource.expansion (T := EReal) (scaledExpansion x m)).difference ms e st d = .ok (x * v)
      simp only [SiteSource.expansion, scaledExpansion_compute] at h' ⊢
      cases hm : m.compute st.occ e with
      | error err => rw [hm] at h'; cases h'
      | ok w =>
        rw [hm] at h'
        cases h'
        simp only [Except.ok.injEq]
        ring
    · intro ms e st d err h
      have h' : (SiteSource.expansion (T := EReal) m).difference ms e st d = .error err := h
      show (SiteSource.expansion (T := EReal) (scaledExpansion x m)).difference ms e st d = .error err
      simp only [SiteSource.expansion, scaledExpansion_compute] at h' ⊢
      cases hm : m.compute st.occ e with
      | error err => rw [hm] at h'; exact h'
      | ok w => rw [hm] at h'; cases h'

theorem ruleMatches_scale (x : ℚ) (m : LocalBarrierModel) (r : Rule) (occ : List Int) (e : Event) :
    (scaledBarriers x m).ruleMatches (scaledRule x r) occ e = m.ruleMatches r occ e := by
  rw [← ruleMatches_species (m := m) (m' := scaledBarriers x m) rfl r occ e]
  unfold LocalBarrierModel.ruleMatches
  rfl

theorem firstMatch_scale (x : ℚ) (m : LocalBarrierModel) (occ : List Int) (e : Event) (rules : List Rule) :
    (scaledBarriers x m).firstMatch occ e (rules.map (scaledRule x)) =
      match m.firstMatch occ e rules with
      | .error err => .error err
      | .ok none => .ok none
      | .ok (some p) => .ok (some (p.map fun q => (q.1, scaledFloat x q.2))) := by
  induction rules with
  | nil => rfl
  | cons r rs ih =>
    simp only [List.map_cons, LocalBarrierModel.firstMatch, ruleMatches_scale, ih]
    cases m.ruleMatches r occ e with
    | error err => rfl
    | ok b => cases b <;> rfl

theorem dictGet_scale (x : ℚ) (p : Properties) (k : String) :
    dictGet (p.map fun q => (q.1, scaledFloat x q.2)) k = (dictGet p k).map (scaledFloat x) := by
  induction p with
  | nil => rfl
  | cons a p ih =>
    simp only [List.map_cons, dictGet]
    by_cases h : a.1 = k
    · rw [if_pos h, if_pos h]; rfl
    · rw [if_neg h, if_neg h, ih]

/-- What a local barrier model with scaled barriers computes. -/
theorem scaledBarriers_compute (x : ℚ) (m : LocalBarrierModel) (occ : List Int) (e : Event) (property : String) :
    (scaledBarriers x m).compute occ e property = match m.compute occ e property with
      | .error err => .error err
      | .ok v => .ok (scaledFloat x v) := by
  have hm : (scaledBarriers x m).matchedProperties occ e = match m.matchedProperties occ e with
      | .error err => .error err
      | .ok p => .ok (p.map fun q => (q.1, scaledFloat x q.2)) := by
    unfold LocalBarrierModel.matchedProperties
    have hr : (scaledBarriers x m).rules = m.rules.map (scaledRule x) := rfl
    rw [hr, firstMatch_scale]
    cases m.firstMatch occ e m.rules with
    | error err => rfl
    | ok o =>
      cases o with
      | some p => rfl
      | none =>
        simp only
        cases hd : m.defaultProperties with
        | some p => simp [scaledBarriers, hd]
        | none =>
          simp only [scaledBarriers, hd, Option.map_none]
          cases eventIndices e with
          | error err => rfl
          | ok t =>
            obtain ⟨a, b, c⟩ := t
            simp only
            cases LocalBarrierModel.occupationPattern occ c with
            | error err => rfl
            | ok o => rfl
  unfold LocalBarrierModel.compute
  rw [hm]
  cases m.matchedProperties occ e with
  | error err => rfl
  | ok p =>
    have hdp : (scaledBarriers x m).defaultProperty = m.defaultProperty := rfl
    simp only [dictGet_scale, hdp]
    cases dictGet p (if property = "" then m.defaultProperty else property) <;> rfl

/-- C111.  The same for local barrier models. -/
theorem C111_rules (x : ℚ) (hx : x ≠ 0) (m : LocalBarrierModel)
    (kB temperature kB' temperature' frequency : ℝ) (ht : kB' * temperature' = x * (kB * temperature)) :
    (scaledBarriers x m).rateModel kB' temperature' frequency = m.rateModel kB temperature frequency := by
  have ha : ∀ (f : ℝ) (b : PyFloat), LocalBarrierModel.arrhenius kB' temperature' frequency f (scaledFloat x b) =
      LocalBarrierModel.arrhenius kB temperature frequency f b := by
    intro f b
    cases b with
    | fin q =>
      simp only [scaledFloat, LocalBarrierModel.arrhenius, ht]
      congr 3
      have hx' : (x : ℝ) ≠ 0 := by exact_mod_cast hx
      rw [Rat.cast_mul, ← mul_neg]
      exact mul_div_mul_left _ _ hx'
    | posInf => rfl
    | negInf => rfl
    | nan => rfl
  have hp : ∀ e occ, (scaledBarriers x m).computeProbability kB' temperature' frequency e occ =
      m.computeProbability kB temperature frequency e occ := by
    intro e occ
    unfold LocalBarrierModel.computeProbability
    have h1 : (scaledBarriers x m).probabilityMode = m.probabilityMode := rfl
    have h2 : (scaledBarriers x m).probabilityProperty = m.probabilityProperty := rfl
    rw [h1, h2, scaledBarriers_compute]
    by_cases hm : m.probabilityMode ≠ LocalBarrierModel.supportedMode
    · rw [if_pos hm, if_pos hm]
    · rw [if_neg hm, if_neg hm]
      cases m.compute occ e m.probabilityProperty with
      | error err => rfl
      | ok b =>
        simp only
        cases eventDirection occ e with
        | error err => rfl
        | ok d => simp only [ha]
  simp only [LocalBarrierModel.rateModel, hp]

/-- C111.  Hence whole runs are the same, whatever the kernel, the random numbers and the rest of the settings: the
constructor, the reported rows, the final state and the exceptions. -/
theorem C111_same_run {U K V Row : Type} [Add T] [Zero T] [Sub T] [LE T] [DecidableLE T] [Field K] [LinearOrder K] [FloorRing K]
    (x : ℝ) (hx : x ≠ 0) (kra : LCE ℝ) (s s' : SiteSource M T) (hs : ScaledDifferences x s s')
    (kB temperature kB' temperature' frequency : ℝ) (ht : kB' * temperature' = x * (kB * temperature))
    (k : Kernel ℝ T U) (lib : EventLib σ φ) (lookup : Option HopStateLookup) (st : State T) :
    Sim.init k ((⟨some (scaledExpansion x kra), s'⟩ : Composite M T).rateModel kB' temperature' frequency) lib lookup
        (some st) =
      Sim.init k ((⟨some kra, s⟩ : Composite M T).rateModel kB temperature frequency) lib lookup (some st) ∧
    ∀ (sim : Sim σ φ M ℝ T) (g : Geometry K) (summary : Trajectory K → T → List (String × Bool) → Row)
      (plan : PropertyPlan T V) (rng : Nat → U × U) (len equil prod : Nat),
      sim.run k ((⟨some (scaledExpansion x kra), s'⟩ : Composite M T).rateModel kB' temperature' frequency) g lookup
          summary plan rng len equil prod =
        sim.run k ((⟨some kra, s⟩ : Composite M T).rateModel kB temperature frequency) g lookup summary plan rng len
          equil prod := by
  rw [C111_composite x hx kra s s' hs kB temperature kB' temperature' frequency ht]
  exact ⟨rfl, fun _ _ _ _ _ _ _ _ => rfl⟩

/-- The chain with all energies doubled, at 600 K instead of 300 K: the rates are those of the chain at 300 K. -/
example : (⟨some (scaledExpansion 2 chainExpansion), siteSource (some (scaledExpansion 2 chainExpansion))⟩ :
      Composite Unit EReal).rateModel 1 600 1000 =
    (⟨some chainExpansion, siteSource (some chainExpansion)⟩ : Composite Unit EReal).rateModel 1 300 1000 :=
  C111_expansions 2 (by norm_num) chainExpansion (some chainExpansion) 1 300 1 600 1000 (by norm_num)

/-- The example rules with all barriers doubled at 600 K, and in other units. -/
example : (scaledBarriers 2 exampleBarriers).rateModel 1 600 1000 = exampleBarriers.rateModel 1 300 1000 ∧
    (scaledBarriers (1 / 1000) exampleBarriers).rateModel (1 / 1000) 300 1000 =
      exampleBarriers.rateModel 1 300 1000 ∧
    (scaledBarriers 2 exampleBarriers).compute [0, 1, 0] ⟨[0, 1], [2], none⟩ "" = .ok (.fin 900) :=
  ⟨C111_rules 2 (by norm_num) _ _ _ _ _ _ (by norm_num), C111_rules (1 / 1000) (by norm_num) _ _ _ _ _ _ (by norm_num),
    by decide +kernel⟩

end KMC
