import Verif.Lemmas.LCE
import Mathlib.Tactic.LinearCombination
/-
C36, C38: local cluster expansions as functions of the surroundings and of the coefficients.
-/
namespace KMC
open Spec

variable {K : Type} [CommRing K]

theorem localOccupations_read {occ env localOcc : List Int} {x : Int → Int}
    (hx : LocalOccupations occ env x) (h : pyGetAll occ env = .ok localOcc) :
    ∀ s v, pyGet localOcc s = .ok v → v = x s := by
  intro s v hv
  obtain ⟨i, h1, h2⟩ := pyGet_pyGetAll h hv
  have := hx s i h1
  rw [h2] at this
  exact Except.ok.inj this

/-- C36.  The value of a plain model (occupations as they are): constant plus coefficients times
the sums over clusters of the products of the occupations of their sites. -/
theorem C36_value_plain (m : LCE K) (hb : m.basisIndices = none) (occ : List Int) (e : Event)
    (v : K) (h : m.compute occ e = .ok v) (x : Int → Int) (hx : LocalOccupations occ e.env x) :
    ∃ keci e0, m.keci = some keci ∧ m.emptyCluster = some e0 ∧
      keci.length = m.clusterSiteIndices.length ∧
      v = expansion e0 keci (m.clusterSiteIndices.map (plainTerm x)) := by
  obtain ⟨keci, e0, lo, corr, h1, h2, -, h4, h5, h6, rfl⟩ := LCE.compute_ok h
  simp only [LCE.calculateCorrelation, hb] at h5
  have hc := LCE.calcCorr_ok (localOccupations_read hx h4) _ _ h5
  exact ⟨keci, e0, h1, h2, by rw [← h6, hc, List.length_map], by rw [hc]⟩

/-- C36.  The value of a decorated model: the same with the tabulated basis functions. -/
theorem C36_value_decorated (m : LCE K) (ds : List (List (List Int))) (t : List (List (List K)))
    (hb : m.basisIndices = some ds) (ht : m.siteBasisValues = some t) (occ : List Int) (e : Event)
    (v : K) (h : m.compute occ e = .ok v) (x : Int → Int) (hx : LocalOccupations occ e.env x)
    (φ : Int → Int → Int → K)
    (hφ : ∀ s a b rows row w, pyGet t s = .ok rows → pyGet rows a = .ok row →
      pyGet row b = .ok w → φ s a b = w) :
    ∃ keci e0, m.keci = some keci ∧ m.emptyCluster = some e0 ∧
      keci.length = m.clusterSiteIndices.length ∧
      v = expansion e0 keci ((m.clusterSiteIndices.zip ds).map fun od =>
        decoratedTerm φ x od.1 od.2) := by
  obtain ⟨keci, e0, lo, corr, h1, h2, -, h4, h5, h6, rfl⟩ := LCE.compute_ok h
  simp only [LCE.calculateCorrelation, hb, ht] at h5
  obtain ⟨hl, hc⟩ := LCE.calcCorrDecorated_ok (φ := φ) (localOccupations_read hx h4) (by
    intro s a b w hw
    unfold LCE.tableGet at hw
    split at hw
    · cases hw
    · rename_i rows hrows
      split at hw
      · cases hw
      · rename_i row hrow
        exact (hφ _ _ _ _ _ _ hrows hrow hw).symm) _ _ _ h5
  refine ⟨keci, e0, h1, h2, ?_, by rw [hc]⟩
  rw [← h6, hc, List.length_map, List.length_zip]
  omega

/-- C36.  Only the occupations of the event's local environment matter. -/
theorem C36_local (m : LCE K) (e : Event) (occ occ' : List Int) (h : AgreeOn e.env occ occ') :
    m.compute occ e = m.compute occ' e := by
  simp only [LCE.compute, pyGetAll_congr h]

/-- C36.  ... and neither the endpoints nor the hop codes of the event. -/
theorem C36_only_environment (m : LCE K) (e e' : Event) (occ : List Int) (h : e.env = e'.env) :
    m.compute occ e = m.compute occ e' := by
  simp only [LCE.compute, h]

/-- Transport of a relation along a permutation. -/
theorem forall₂_perm {α β : Type} {R : α → β → Prop} {l l' : List α} (hp : l.Perm l') {r : List β}
    (h : List.Forall₂ R l r) : ∃ r', r.Perm r' ∧ List.Forall₂ R l' r' := by
  obtain ⟨r', h1, h2⟩ := List.perm_comp_forall₂ hp.symm h
  exact ⟨r', h2.symm, h1⟩

omit [CommRing K] in
theorem forall₂_right_unique {α : Type} {f : α → Py K} {l : List α} {r r' : List K}
    (h : List.Forall₂ (fun a b => f a = .ok b) l r) (h' : List.Forall₂ (fun a b => f a = .ok b) l r') :
    r = r' := by
  induction h generalizing r' with
  | nil => cases h'; rfl
  | cons h1 _ ih =>
    cases h' with
    | cons h2 h3 =>
      rw [h1] at h2
      cases h2
      rw [ih h3]

theorem orbitSum_perm {occ : List Int} {o o' : List (List Int)} (hp : o.Perm o') (p : K)
    (h : LCE.orbitSum (K := K) occ o 0 = .ok p) : LCE.orbitSum (K := K) occ o' 0 = .ok p := by
  rw [LCE.orbitSum_iff] at h ⊢
  obtain ⟨ps, h1, h2⟩ := h
  obtain ⟨ps', h3, h4⟩ := forall₂_perm hp h1
  exact ⟨ps', h4, by rw [h2, h3.sum_eq]⟩

/-- C36.  The order of the clusters inside the orbits of a plain model does not matter. -/
theorem C36_cluster_order_plain (m : LCE K) (hb : m.basisIndices = none)
    (os' : List (List (List Int))) (hp : List.Forall₂ List.Perm m.clusterSiteIndices os')
    (occ : List Int) (e : Event) (v : K) :
    m.compute occ e = .ok v ↔ ({ m with clusterSiteIndices := os' } : LCE K).compute occ e = .ok v := by
  suffices H : ∀ (m : LCE K), m.basisIndices = none → ∀ os', List.Forall₂ List.Perm
      m.clusterSiteIndices os' → m.compute occ e = .ok v →
      ({ m with clusterSiteIndices := os' } : LCE K).compute occ e = .ok v by
    refine ⟨H m hb os' hp, fun h => ?_⟩
    refine H { m with clusterSiteIndices := os' } hb m.clusterSiteIndices ?_ h
    exact hp.flip.imp fun _ _ h => h.symm
  intro m hb os' hp h
  obtain ⟨keci, e0, lo, corr, h1, h2, h3, h4, h5, h6, rfl⟩ := LCE.compute_ok h
  refine LCE.compute_of h1 h2 h3 h4 ?_ h6
  simp only [LCE.calculateCorrelation, hb] at h5 ⊢
  rw [LCE.calcCorr_iff] at h5 ⊢
  clear h h6
  generalize m.clusterSiteIndices = os at hp h5
  induction hp generalizing corr with
  | nil => cases h5; exact .nil
  | cons hpo _ ih =>
    cases h5 with
    | cons h7 h8 => exact .cons (orbitSum_perm hpo _ h7) (ih _ h8)

/-- C36.  The order of the (cluster, decoration) pairs inside the terms of a decorated model
does not matter. -/
theorem C36_cluster_order_decorated (m : LCE K) (t : List (List (List K)))
    (terms terms' : List (List (List Int × List Int)))
    (ht : m.siteBasisValues = some t) (hp : List.Forall₂ List.Perm terms terms')
    (occ : List Int) (e : Event) (v : K) :
    ({ m with
        clusterSiteIndices := terms.map fun o => o.map Prod.fst
        basisIndices := some (terms.map fun o => o.map Prod.snd) } : LCE K).compute occ e = .ok v ↔
    ({ m with
        clusterSiteIndices := terms'.map fun o => o.map Prod.fst
        basisIndices := some (terms'.map fun o => o.map Prod.snd) } : LCE K).compute occ e =
      .ok v := by
  suffices H : ∀ terms terms' : List (List (List Int × List Int)),
      List.Forall₂ List.Perm terms terms' →
      ({ m with
        clusterSiteIndices := terms.map fun o => o.map Prod.fst
        basisIndices := some (terms.map fun o => o.map Prod.snd) } : LCE K).compute occ e = .ok v →
      ({ m with
        clusterSiteIndices := terms'.map fun o => o.map Prod.fst
        basisIndices := some (terms'.map fun o => o.map Prod.snd) } : LCE K).compute occ e =
      .ok v from
    ⟨H _ _ hp, H _ _ (hp.flip.imp fun _ _ h => h.symm)⟩
  clear hp terms terms'
  intro terms terms' hp h
  obtain ⟨keci, e0, lo, corr, h1, h2, h3, h4, h5, h6, rfl⟩ := LCE.compute_ok h
  refine LCE.compute_of h1 h2 h3 h4 ?_ h6
  simp only [LCE.calculateCorrelation, ht] at h5 ⊢
  rw [LCE.calcCorrDecorated_iff] at h5 ⊢
  refine ⟨by simp, ?_⟩
  replace h5 := h5.2
  rw [List.zip_map', List.forall₂_map_left_iff] at h5 ⊢
  clear h h1 h2 h3 h6
  induction hp generalizing corr with
  | nil => cases h5; exact .nil
  | cons hpo _ ih =>
    cases h5 with
    | cons h7 h8 =>
      refine .cons ?_ (ih _ h8)
      rw [LCE.orbitSumDecorated_iff] at h7 ⊢
      obtain ⟨-, ps, h9, h10⟩ := h7
      rw [List.zip_map', List.map_id'' (by intro x; rfl)] at h9 ⊢
      obtain ⟨ps', h11, h12⟩ := forall₂_perm hpo h9
      exact ⟨by simp, ps', h12, by rw [h10, h11.sum_eq]⟩

/-- One fitted term of a model: clusters, decorations (ignored by plain models), fingerprint
and coefficient. -/
structure LCETerm (K : Type) where
  clusters : List (List Int)
  decorations : List (List Int)
  fingerprint : String
  coefficient : K

/-- The model with the given fitted terms, everything else as in `m`. -/
def LCE.withTerms (m : LCE K) (l : List (LCETerm K)) : LCE K :=
  { m with
    clusterSiteIndices := l.map LCETerm.clusters
    basisIndices := m.basisIndices.map fun _ => l.map LCETerm.decorations
    correlationFingerprints := some (l.map LCETerm.fingerprint)
    keci := some (l.map LCETerm.coefficient)
    parameterFingerprints := some (l.map LCETerm.fingerprint) }

theorem expansion_terms (e0 : K) (f : LCETerm K → Py K) {l : List (LCETerm K)} {corr : List K}
    (h : List.Forall₂ (fun t q => f t = .ok q) l corr) {l' : List (LCETerm K)} (hp : l.Perm l') :
    ∃ corr', List.Forall₂ (fun t q => f t = .ok q) l' corr' ∧
      expansion e0 (l.map LCETerm.coefficient) corr = expansion e0 (l'.map LCETerm.coefficient) corr' := by
  have key : ∀ (l : List (LCETerm K)) (corr : List K), List.Forall₂ (fun t q => f t = .ok q) l corr →
      (((l.map LCETerm.coefficient).zip corr).map fun kt => kt.1 * kt.2) =
        l.map fun t => t.coefficient * (match f t with | .ok q => q | .error _ => 0) := by
    intro l corr h
    induction h with
    | nil => rfl
    | cons h1 _ ih => simp only [List.map_cons, List.zip_cons_cons, ih, h1]
  obtain ⟨corr', h1, h2⟩ := forall₂_perm hp h
  refine ⟨corr', h2, ?_⟩
  simp only [expansion]
  rw [key _ _ h, key _ _ h2, (hp.map _).sum_eq]

/-- C36.  The order in which the fitted terms are listed does not matter. -/
theorem C36_term_order (m : LCE K) (l l' : List (LCETerm K)) (hp : l.Perm l') (occ : List Int)
    (e : Event) (v : K) :
    (m.withTerms l).compute occ e = .ok v ↔ (m.withTerms l').compute occ e = .ok v := by
  suffices H : ∀ l l' : List (LCETerm K), l.Perm l' → (m.withTerms l).compute occ e = .ok v →
      (m.withTerms l').compute occ e = .ok v from ⟨H _ _ hp, H _ _ hp.symm⟩
  clear hp l l'
  intro l l' hp h
  obtain ⟨keci, e0, lo, corr, h1, h2, h3, h4, h5, h6, rfl⟩ := LCE.compute_ok h
  simp only [LCE.withTerms, Option.some.injEq] at h1
  subst h1
  have hval : (m.withTerms l').validateParameterOrbits (l'.map LCETerm.coefficient)
      (m.withTerms l').parameterFingerprints (m.withTerms l').parameterHash =
      .ok (l'.map LCETerm.coefficient) := by
    rw [LCE.validate_ok_iff] at h3 ⊢
    refine ⟨rfl, fun _ => by simp [LCE.withTerms, LCE.getOrbitFingerprints], h3.2.2.1, ?_⟩
    intro f hf
    simp only [LCE.withTerms, Option.some.injEq] at hf
    simp [LCE.withTerms, LCE.getOrbitFingerprints, hf]
  by_cases hd : ∃ ds t, m.basisIndices = some ds ∧ m.siteBasisValues = some t
  · obtain ⟨ds, t, hd, ht⟩ := hd
    simp only [LCE.calculateCorrelation, LCE.withTerms, hd, Option.map_some, ht] at h5
    rw [LCE.calcCorrDecorated_iff, List.zip_map', List.forall₂_map_left_iff] at h5
    obtain ⟨corr', h7, h8⟩ := expansion_terms e0
      (fun τ => LCE.orbitSumDecorated t lo τ.clusters τ.decorations 0) h5.2 hp
    rw [h8]
    refine LCE.compute_of rfl h2 hval h4 ?_ (by rw [List.length_map, h7.length_eq])
    simp only [LCE.calculateCorrelation, LCE.withTerms, hd, Option.map_some, ht]
    rw [LCE.calcCorrDecorated_iff, List.zip_map', List.forall₂_map_left_iff]
    exact ⟨by simp, h7⟩
  · have hplain : ∀ l : List (LCETerm K), (m.withTerms l).calculateCorrelation lo =
        LCE.calcCorr lo (l.map LCETerm.clusters) := by
      intro l
      simp only [LCE.calculateCorrelation, LCE.withTerms]
      cases hb : m.basisIndices with
      | none => rfl
      | some ds =>
        cases ht : m.siteBasisValues with
        | none => rfl
        | some t => exact absurd ⟨ds, t, hb, ht⟩ hd
    rw [hplain, LCE.calcCorr_iff, List.forall₂_map_left_iff] at h5
    obtain ⟨corr', h7, h8⟩ := expansion_terms e0 (fun τ => LCE.orbitSum lo τ.clusters 0) h5 hp
    rw [h8]
    refine LCE.compute_of rfl h2 hval h4 ?_ (by rw [List.length_map, h7.length_eq])
    rw [hplain, LCE.calcCorr_iff, List.forall₂_map_left_iff]
    exact h7

/-- C36.  The value is linear in the coefficients: two parameter sets for the same model
combine. -/
theorem C36_linear (m : LCE K) (a b : K) (k1 k2 : List K) (c1 c2 : K) (hk : k1.length = k2.length)
    (occ : List Int) (e : Event) (v1 v2 : K)
    (h1 : ({ m with keci := some k1, emptyCluster := some c1 } : LCE K).compute occ e = .ok v1)
    (h2 : ({ m with keci := some k2, emptyCluster := some c2 } : LCE K).compute occ e = .ok v2) :
    ({ m with
      keci := some (List.zipWith (fun p q => a * p + b * q) k1 k2)
      emptyCluster := some (a * c1 + b * c2) } : LCE K).compute occ e = .ok (a * v1 + b * v2) := by
  obtain ⟨k1', c1', lo, corr, e1, e2, e3, e4, e5, e6, rfl⟩ := LCE.compute_ok h1
  obtain ⟨k2', c2', lo', corr', f1, f2, f3, f4, f5, f6, rfl⟩ := LCE.compute_ok h2
  cases e1; cases e2; cases f1; cases f2
  rw [e4] at f4
  cases f4
  have e5' : m.calculateCorrelation lo = .ok corr := e5
  have f5' : m.calculateCorrelation lo = .ok corr' := f5
  rw [e5'] at f5'
  cases f5'
  have hl : (List.zipWith (fun p q => a * p + b * q) k1 k2).length = k1.length := by simp [hk]
  have hlin : ∀ (k1 k2 corr : List K), k1.length = k2.length → corr.length = k1.length →
      a * expansion c1 k1 corr + b * expansion c2 k2 corr =
        expansion (a * c1 + b * c2) (List.zipWith (fun p q => a * p + b * q) k1 k2) corr := by
    intro k1
    induction k1 with
    | nil =>
      intro k2 corr h h'
      cases k2 with
      | nil => simp [expansion]
      | cons _ _ => cases h
    | cons p k1 ih =>
      intro k2 corr h h'
      cases k2 with
      | nil => cases h
      | cons q k2 =>
        cases corr with
        | nil => cases h'
        | cons r corr =>
          have := ih k2 corr (by simpa using h) (by simpa using h')
          simp only [expansion, List.zip_cons_cons, List.map_cons, List.sum_cons,
            List.zipWith_cons_cons] at this ⊢
          linear_combination this
  rw [hlin _ _ _ hk e6]
  refine LCE.compute_of rfl rfl ?_ e4 e5 (by rw [hl, e6])
  rw [LCE.validate_ok_iff] at e3 ⊢
  exact ⟨rfl, fun hne => by rw [hl]; exact e3.2.1 hne, e3.2.2.1, e3.2.2.2⟩

/-! ### C38: parameters -/

/-- What a parameter set offers: coefficients, constant, fingerprints and environment hash. -/
def LCEParameters.contents : LCEParameters K →
    Option (List K × K × Option (List String) × Option String)
  | .object k c f h => some (k, c, f, h)
  | .dict (some k) (some c) f h => some (k, c, f, h)
  | .dict _ _ _ _ => none
  | .other => none

omit [CommRing K] in
/-- C38.  Parameters that are rejected leave the model as it was. -/
theorem C38_rejected_unchanged (m : LCE K) (p : LCEParameters K) (x : PyErr) (m' : LCE K)
    (h : m.setParameters p = (.error x, m')) : m' = m := by
  have key : ∀ k c f hh, m.storeParameters k c f hh = (.error x, m') → m' = m := by
    intro k c f hh h
    unfold LCE.storeParameters at h
    split at h <;> cases h
    rfl
  unfold LCE.setParameters at h
  split at h
  · exact key _ _ _ _ h
  · cases h; rfl
  · cases h; rfl
  · exact key _ _ _ _ h
  · cases h; rfl

/-- C38.  Exactly the parameter sets that fit are accepted: they name coefficients and
constant, have one coefficient per fingerprint of the model, repeat the model's fingerprints if
they list any, and name the model's environment hash if both have one. -/
theorem C38_accepted_iff (m : LCE K) (p : LCEParameters K) :
    (∃ m', m.setParameters p = (.ok (), m')) ↔
      ∃ k c f h, p.contents = some (k, c, f, h) ∧
        (m.getOrbitFingerprints ≠ [] → k.length = m.getOrbitFingerprints.length) ∧
        (∀ a b, m.environmentHash = some a → a ≠ "" → h = some b → b = a) ∧
        (∀ l, f = some l → l = m.getOrbitFingerprints) := by
  have key : ∀ k c f h, (∃ m', m.storeParameters k c f h = (.ok (), m')) ↔
        (m.getOrbitFingerprints ≠ [] → k.length = m.getOrbitFingerprints.length) ∧
        (∀ a b, m.environmentHash = some a → a ≠ "" → h = some b → b = a) ∧
        (∀ l, f = some l → l = m.getOrbitFingerprints) := by
    intro k c f h
    unfold LCE.storeParameters
    cases hv : m.validateParameterOrbits k f h with
    | error x =>
      simp only [Prod.mk.injEq, reduceCtorEq, false_and, exists_false, false_iff]
      rintro ⟨h1, h2, h3⟩
      rw [LCE.validate_ok_iff.2 ⟨rfl, h1, h2, h3⟩] at hv
      cases hv
    | ok r =>
      simp only [Prod.mk.injEq, true_and, exists_eq', true_iff]
      exact (LCE.validate_ok_iff.1 hv).2
  unfold LCE.setParameters LCEParameters.contents
  split
  · simp only [key, Option.some.injEq, Prod.mk.injEq]
    constructor
    · intro h; exact ⟨_, _, _, _, ⟨rfl, rfl, rfl, rfl⟩, h⟩
    · rintro ⟨_, _, _, _, ⟨rfl, rfl, rfl, rfl⟩, h⟩; exact h
  · simp
  · simp
  · simp only [key, Option.some.injEq, Prod.mk.injEq]
    constructor
    · intro h; exact ⟨_, _, _, _, ⟨rfl, rfl, rfl, rfl⟩, h⟩
    · rintro ⟨_, _, _, _, ⟨rfl, rfl, rfl, rfl⟩, h⟩; exact h
  · simp

omit [CommRing K] in
/-- C38.  Accepted parameters are the ones used from then on, and the structure of the model
does not change. -/
theorem C38_accepted_used (m m' : LCE K) (p : LCEParameters K)
    (h : m.setParameters p = (.ok (), m')) :
    ∃ k c f hh, p.contents = some (k, c, f, hh) ∧ m'.keci = some k ∧ m'.emptyCluster = some c ∧
      m'.clusterSiteIndices = m.clusterSiteIndices ∧ m'.basisIndices = m.basisIndices ∧
      m'.siteBasisValues = m.siteBasisValues ∧ m'.getOrbitFingerprints = m.getOrbitFingerprints ∧
      m'.environmentHash = m.environmentHash ∧
      m'.validateParameterOrbits k m'.parameterFingerprints m'.parameterHash = .ok k := by
  have key : ∀ k c f hh, m.storeParameters k c f hh = (.ok (), m') →
      m'.keci = some k ∧ m'.emptyCluster = some c ∧
      m'.clusterSiteIndices = m.clusterSiteIndices ∧ m'.basisIndices = m.basisIndices ∧
      m'.siteBasisValues = m.siteBasisValues ∧ m'.getOrbitFingerprints = m.getOrbitFingerprints ∧
      m'.environmentHash = m.environmentHash ∧
      m'.validateParameterOrbits k m'.parameterFingerprints m'.parameterHash = .ok k := by
    intro k c f hh h
    unfold LCE.storeParameters at h
    split at h
    · cases h
    · rename_i r hv
      cases h
      rw [LCE.validate_ok_iff] at hv
      obtain ⟨rfl, h1, h2, h3⟩ := hv
      refine ⟨rfl, rfl, rfl, rfl, rfl, rfl, rfl, ?_⟩
      rw [LCE.validate_ok_iff]
      refine ⟨rfl, h1, ?_, ?_⟩
      · intro a b ha hne hb
        cases hh with
        | none => simp only [Option.none_or] at hb; rw [hb] at ha; cases ha; rfl
        | some c => simp only [Option.some_or, Option.some.injEq] at hb; subst hb; exact h2 a c ha hne rfl
      · intro l hl
        simp only [Option.some.injEq] at hl
        subst hl
        cases f with
        | none => rfl
        | some l => exact h3 l rfl
  unfold LCE.setParameters at h
  split at h
  · exact ⟨_, _, _, _, rfl, key _ _ _ _ h⟩
  · cases h
  · cases h
  · exact ⟨_, _, _, _, rfl, key _ _ _ _ h⟩
  · cases h

/-- A plain model with two points and one pair: 7 + 3 (1 + 1) + 5 (1 · 1) = 18; with the second
site empty 7 + 3 = 10. -/
example :
    ({ clusterSiteIndices := [[[0], [1]], [[0, 1]]], keci := some [3, 5], emptyCluster := some 7 } :
      LCE Int).compute [0, 1, 1] ⟨[0], [1, 2], none⟩ = .ok 18 ∧
    ({ clusterSiteIndices := [[[0], [1]], [[0, 1]]], keci := some [3, 5], emptyCluster := some 7 } :
      LCE Int).compute [0, 1, 0] ⟨[0], [1, 2], none⟩ = .ok 10 ∧
    LocalOccupations [0, 1, 0] [1, 2] (fun s => if s = 0 ∨ s = -2 then 1 else 0) := by
  refine ⟨by decide, by decide, ?_⟩
  intro s i h
  unfold pyGet pyIdx at h
  split at h
  · cases h
  · rename_i k hk
    split at hk
    · split at hk
      · cases hk
        have : s = 0 ∨ s = 1 := by simp only [List.length_cons, List.length_nil] at *; omega
        rcases this with rfl | rfl <;> cases h <;> decide
      · cases hk
    · split at hk
      · have : s = -1 ∨ s = -2 := by simp only [List.length_cons, List.length_nil] at *; omega
        cases hk
        rcases this with rfl | rfl <;> cases h <;> decide
      · cases hk

end KMC
