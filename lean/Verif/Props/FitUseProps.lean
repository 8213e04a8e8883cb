import Verif.Spec.FitUse
import Verif.Props.FitterProps
import Verif.Props.LCEProps
/-
C120: a fit ends up in the model it was made for.
-/
namespace KMC
namespace FitUse
open Parameters Fitter Spec

/-! ### Lemmas -/

theorem numbers_map {r : Reading} {out : Outside} (l : List ℝ)
    (h : ∀ v ∈ l, r.number (out.float v) = .ok v) : r.numbers (l.map out.float) = .ok l := by
  induction l with
  | nil => rfl
  | cons v l ih =>
    rw [List.forall_mem_cons] at h
    rw [List.map_cons, Reading.numbers, h.1]
    simp only [ih h.2]

theorem numbers_length {r : Reading} {l : List PyVal} {k : List ℝ} (h : r.numbers l = .ok k) :
    k.length = l.length := by
  induction l generalizing k with
  | nil => cases h; rfl
  | cons v l ih =>
    rw [Reading.numbers] at h
    split at h
    · cases h
    · split at h
      · cases h
      · next xs hxs => cases h; simp [ih hxs]

theorem map_str (r : Reading) (l : List String) : (l.map PyVal.str).map r.str = l := by
  rw [List.map_map]
  exact List.map_id l

/-- What `fingerprintTexts` makes of a model's own fingerprints. -/
theorem ownFingerprints_texts (r : Reading) (m : LCE ℝ) :
    (ownFingerprints m = .none ∧ m.getOrbitFingerprints = [] ∧
        fingerprintTexts r (.plain (ownFingerprints m)) = .ok none) ∨
      (ownFingerprints m = .list (m.getOrbitFingerprints.map .str) ∧
        fingerprintTexts r (.plain (ownFingerprints m)) = .ok (some m.getOrbitFingerprints)) := by
  unfold ownFingerprints
  split
  · next h1 h2 => exact .inl ⟨rfl, by unfold LCE.getOrbitFingerprints; rw [h1, h2], rfl⟩
  · refine .inr ⟨rfl, ?_⟩
    show Except.ok (some ((m.getOrbitFingerprints.map PyVal.str).map r.str)) = _
    rw [map_str]

theorem ownHash_text (r : Reading) (m : LCE ℝ) : hashText r (.plain (ownHash m)) = m.environmentHash := by
  unfold ownHash
  cases m.environmentHash <;> rfl

/-- Setting the parameters of a record whose numbers can be read. -/
theorem setLoaded_eq {r : Reading} {m : LCE ℝ} {l : Loaded} {keci : List ℝ} {e0 : ℝ}
    {fps : Option (List String)} (h1 : keciNumbers r l.keci = .ok keci)
    (h2 : emptyNumber r l.emptyCluster = .ok e0) (h3 : fingerprintTexts r l.fingerprints = .ok fps) :
    setLoaded r m l = m.setParameters (.object keci e0 fps (hashText r l.hash)) := by
  unfold setLoaded
  simp only [h1, h2, h3]

/-- The numbers of a fit. -/
theorem fit_numbers {L : Lasso} {out : Outside} {o : FitOptions} {k n : Nat} {x : Fin k → Fin n → ℝ}
    {y weight : Fin k → ℝ} {files files' : Files} {p : Params} {pred : Fin k → ℝ}
    (h : fit L out o x y weight files = (.ok (p, pred), files')) :
    checkFingerprints o.orbitFingerprints n = .ok () := by
  unfold fit at h
  cases h1 : fitValues L x y (some weight) o.normalize with
  | error e => rw [h1] at h; cases h
  | ok f =>
    rw [h1] at h
    cases h2 : checkFingerprints o.orbitFingerprints n with
    | error e => rw [h2] at h; cases h
    | ok u => rfl

theorem own_count {m : LCE ℝ} {n : Nat} (h : checkFingerprints (ownFingerprints m) n = .ok ()) :
    m.getOrbitFingerprints ≠ [] → m.getOrbitFingerprints.length = n := by
  intro hne
  rcases ownFingerprints_texts ⟨fun _ => .ok 0, fun _ => ""⟩ m with ⟨-, h0, -⟩ | ⟨ho, -⟩
  · exact absurd h0 hne
  · rw [ho] at h
    unfold checkFingerprints at h
    simp only [PyVal.isNone, PyVal.len, List.length_map] at h
    by_contra hc
    rw [if_neg (by simp), if_pos (fun hh => hc hh.symm)] at h
    cases h

/-- The coefficients of a fit as they are read back. -/
theorem keci_read {out : Outside} {r : Reading} {k n : Nat} {f : Fitted k n} (hb : ReadBack out r f) :
    keciNumbers r (.plain (.list (List.ofFn fun j => out.float (f.keci j)))) = .ok (List.ofFn f.keci) := by
  have : (List.ofFn fun j => out.float (f.keci j)) = (List.ofFn f.keci).map out.float := by
    rw [List.map_ofFn]; rfl
  rw [this]
  show r.numbers _ = _
  refine numbers_map _ fun v hv => ?_
  obtain ⟨j, rfl⟩ := (List.mem_ofFn' _ _).1 hv
  exact hb.keci j

/-- A model accepts the parameters of a fit that carries its own fingerprints and hash. -/
theorem accepts {m : LCE ℝ} {k n : Nat} {f : Fitted k n} {fps : Option (List String)} {hash : Option String}
    (hn : m.getOrbitFingerprints ≠ [] → m.getOrbitFingerprints.length = n)
    (hf : fps = none ∨ fps = some m.getOrbitFingerprints) (hh : hash = none ∨ hash = m.environmentHash) :
    ∃ m', m.setParameters (.object (List.ofFn f.keci) f.emptyCluster fps hash) = (.ok (), m') ∧ HasFit m m' f := by
  have hv : m.validateParameterOrbits (List.ofFn f.keci) fps hash = .ok (List.ofFn f.keci) := by
    unfold LCE.validateParameterOrbits
    rw [if_neg, if_neg]
    · rcases hf with rfl | rfl
      · rfl
      · simp
    · rintro ⟨-, h1, h2⟩
      exact hh.elim h1 h2
    · rintro ⟨h1, h2⟩
      rw [List.length_ofFn] at h2
      exact h2 (hn h1).symm
  refine ⟨(m.setParameters (.object (List.ofFn f.keci) f.emptyCluster fps hash)).2, ?_, ?_⟩
  · rw [LCE.setParameters, LCE.storeParameters, hv]
  · rw [LCE.setParameters, LCE.storeParameters, hv]
    exact ⟨rfl, rfl, rfl, rfl, rfl, rfl, rfl, rfl⟩

/-! ### Text files -/

/-- **C120.** The parameter file of a fit made with a model can be loaded into that model, and gives it
exactly the coefficients of the fit; nothing else about the model changes. -/
theorem C120_fit_can_be_loaded {L : Lasso} {out : Outside} {r : Reading} {m : LCE ℝ} {a : FitArguments} {k n : Nat}
    {x : Fin k → Fin n → ℝ} {y weight : Fin k → ℝ} {files files' : Files} {p : Params} {pred : Fin k → ℝ}
    {path : String} (hpath : a.paramsPath = some path) (ht : isH5 path = false)
    (ho : a.orbitFingerprints = none) (hh : a.localEnvironmentHash = none)
    (h : fit L out (fitOptions m a) x y weight files = (.ok (p, pred), files')) (hp : PlainRecord p) :
    ∃ f : Fitted k n, fitValues L x y (some weight) a.normalize = .ok f ∧ pred = f.predicted ∧
      (ReadBack out r f →
        ∃ m', loadText r path files'.params m = (.ok (), m') ∧ HasFit m m' f) := by
  obtain ⟨f, h1, h2, h3, h4, -, h6, -⟩ := C76_files h
  obtain ⟨loocv, -, hrec⟩ := C76_record h
  refine ⟨f, h1, h2, fun hb => ?_⟩
  have hcheck := fit_numbers h
  have ho' : (fitOptions m a).orbitFingerprints = ownFingerprints m := by unfold fitOptions; rw [ho]; rfl
  have hh' : (fitOptions m a).localEnvironmentHash = ownHash m := by unfold fitOptions; rw [hh]; rfl
  rw [ho'] at hcheck
  have hload : loadText r path files'.params m = setLoaded r m (ofParams p) := by
    unfold loadText
    rw [h6 path hpath ht hp]
  have hk : keciNumbers r (ofParams p).keci = .ok (List.ofFn f.keci) := by
    show keciNumbers r (.plain p.keci) = _
    rw [h3]; exact keci_read hb
  have he : emptyNumber r (ofParams p).emptyCluster = .ok f.emptyCluster := by
    show r.number p.emptyCluster = _
    rw [h4]; exact hb.empty
  have hhash : hashText r (ofParams p).hash = m.environmentHash := by
    show hashText r (.plain p.localEnvironmentHash) = _
    rw [hrec.hash, hh', ownHash_text]
  have hfp : (ofParams p).fingerprints = .plain (ownFingerprints m) := by
    show Value.plain p.orbitFingerprints = _
    rw [hrec.fingerprints, ho']
  rw [hload]
  rcases ownFingerprints_texts r m with ⟨-, -, h0⟩ | ⟨-, h0⟩
  · rw [setLoaded_eq hk he (by rw [hfp]; exact h0), hhash]
    exact accepts (own_count hcheck) (.inl rfl) (.inr rfl)
  · rw [setLoaded_eq hk he (by rw [hfp]; exact h0), hhash]
    exact accepts (own_count hcheck) (.inr rfl) (.inr rfl)

/-- **C120.** A model that carries the coefficients of a fit gives, in a simulation, exactly what the fit
predicted: for every training row that holds the model's features of the event's surroundings, the
computed value is the predicted one. -/
theorem C120_simulates_the_prediction {L : Lasso} {out : Outside} {r : Reading} {m m' : LCE ℝ} {a : FitArguments}
    {k n : Nat} {x : Fin k → Fin n → ℝ} {y weight : Fin k → ℝ} {files files' : Files} {p : Params}
    {pred : Fin k → ℝ} {path : String} (hpath : a.paramsPath = some path) (ht : isH5 path = false)
    (ho : a.orbitFingerprints = none) (hh : a.localEnvironmentHash = none)
    (h : fit L out (fitOptions m a) x y weight files = (.ok (p, pred), files')) (hp : PlainRecord p)
    (hb : ∀ f : Fitted k n, fitValues L x y (some weight) a.normalize = .ok f → ReadBack out r f)
    (hl : loadText r path files'.params m = (.ok (), m'))
    {i : Fin k} {occ loc : List Int} {e : Event} (hloc : pyGetAll occ e.env = .ok loc)
    (hrow : m.calculateCorrelation loc = .ok (List.ofFn (x i))) :
    m'.compute occ e = .ok (pred i) := by
  obtain ⟨f, h1, h2, h3⟩ := C120_fit_can_be_loaded (r := r) hpath ht ho hh h hp
  obtain ⟨m'', h4, hc⟩ := h3 (hb f h1)
  rw [hl] at h4
  obtain rfl := (Prod.mk.inj h4).2
  have hvalid : m'.validateParameterOrbits (List.ofFn f.keci) m'.parameterFingerprints m'.parameterHash
      = .ok (List.ofFn f.keci) := by
    unfold loadText at hl
    split at hl
    · cases hl
    · unfold setLoaded at hl
      split at hl
      · cases hl
      · split at hl
        · cases hl
        · split at hl
          · cases hl
          · obtain ⟨kk, c, ff, hh2, hcont, hkk, -, -, -, -, -, -, hval⟩ := C38_accepted_used m m' _ hl
            rw [hc.keci] at hkk
            cases hkk
            exact hval
  have hcorr : m'.calculateCorrelation loc = .ok (List.ofFn (x i)) := by
    rw [← hrow]
    unfold LCE.calculateCorrelation
    rw [hc.same.1, hc.same.2.1, hc.same.2.2.1]
  have hpred : f.predicted i = (∑ j, x i j * f.keci j) + f.emptyCluster := by
    have hlin : ∀ i, f.predicted i = linear f.keci f.emptyCluster (x i) := by
      cases hn : a.normalize with
      | true =>
        rw [hn] at h1
        obtain ⟨_, _, _, _, -, -, -, -, -, h9⟩ := C53_predictions h1
        exact h9
      | false => rw [hn] at h1; exact (C53_plain h1).2
    exact hlin i
  unfold LCE.compute
  simp only [hc.keci, hc.empty, hvalid, hloc, hcorr]
  unfold LCE.npInner
  rw [if_pos (by simp)]
  simp only [Except.ok.injEq]
  rw [h2, hpred]
  congr 1
  rw [← List.sum_ofFn]
  congr 1
  apply List.ext_getElem <;> simp

/-- **C120.** Another model refuses the file and stays as it was, if the fit was made with a model that has
fingerprints and the other one has different fingerprints, or if both have a hash of their local
environment and the hashes differ. -/
theorem C120_other_model_refuses {L : Lasso} {out : Outside} {r : Reading} {m other : LCE ℝ} {a : FitArguments}
    {k n : Nat} {x : Fin k → Fin n → ℝ} {y weight : Fin k → ℝ} {files files' : Files} {p : Params}
    {pred : Fin k → ℝ} {path : String} (hpath : a.paramsPath = some path) (ht : isH5 path = false)
    (ho : a.orbitFingerprints = none) (hh : a.localEnvironmentHash = none)
    (h : fit L out (fitOptions m a) x y weight files = (.ok (p, pred), files')) (hp : PlainRecord p)
    (hb : ∀ f : Fitted k n, fitValues L x y (some weight) a.normalize = .ok f → ReadBack out r f)
    (hd : (m.getOrbitFingerprints ≠ [] ∧ other.getOrbitFingerprints ≠ m.getOrbitFingerprints) ∨
      ∃ s t, m.environmentHash = some s ∧ other.environmentHash = some t ∧ t ≠ "" ∧ s ≠ t) :
    loadText r path files'.params other = (.error .valueError, other) := by
  obtain ⟨f, h1, h2, h3, h4, -, h6, -⟩ := C76_files h
  obtain ⟨loocv, -, hrec⟩ := C76_record h
  replace hb := hb f h1
  have ho' : (fitOptions m a).orbitFingerprints = ownFingerprints m := by unfold fitOptions; rw [ho]; rfl
  have hh' : (fitOptions m a).localEnvironmentHash = ownHash m := by unfold fitOptions; rw [hh]; rfl
  have hload : loadText r path files'.params other = setLoaded r other (ofParams p) := by
    unfold loadText
    rw [h6 path hpath ht hp]
  have hk : keciNumbers r (ofParams p).keci = .ok (List.ofFn f.keci) := by
    show keciNumbers r (.plain p.keci) = _
    rw [h3]; exact keci_read hb
  have he : emptyNumber r (ofParams p).emptyCluster = .ok f.emptyCluster := by
    show r.number p.emptyCluster = _
    rw [h4]; exact hb.empty
  have hhash : hashText r (ofParams p).hash = m.environmentHash := by
    show hashText r (.plain p.localEnvironmentHash) = _
    rw [hrec.hash, hh', ownHash_text]
  have hfp : (ofParams p).fingerprints = .plain (ownFingerprints m) := by
    show Value.plain p.orbitFingerprints = _
    rw [hrec.fingerprints, ho']
  have key : ∀ fps, fingerprintTexts r (.plain (ownFingerprints m)) = .ok fps →
      (m.getOrbitFingerprints ≠ [] → fps = some m.getOrbitFingerprints) →
      setLoaded r other (ofParams p) = (.error .valueError, other) := by
    intro fps hf hne
    rw [setLoaded_eq hk he (by rw [hfp]; exact hf), hhash, LCE.setParameters, LCE.storeParameters]
    have hv : other.validateParameterOrbits (List.ofFn f.keci) fps m.environmentHash = .error .valueError := by
      unfold LCE.validateParameterOrbits
      simp only
      split
      · rfl
      · split
        · rfl
        · next hc =>
          rcases hd with ⟨hd1, hd2⟩ | ⟨s, t, hs, ht', hnt, hst⟩
          · rw [hne hd1]
            simp only
            split
            · rfl
            · rw [if_pos (Ne.symm hd2)]
          · exfalso
            apply hc
            rw [hs, ht']
            exact ⟨hnt, by simp, by simpa using hst⟩
    rw [hv]
  rw [hload]
  rcases ownFingerprints_texts r m with ⟨-, h0, hf⟩ | ⟨-, hf⟩
  · exact key _ hf fun hne => absurd h0 hne
  · exact key _ hf fun _ => rfl

/-- **C120.** A JSON object without coefficients (some other file) is refused by every model with
fingerprints, which stays as it was. -/
theorem C120_wrong_file_refused {r : Reading} {m : LCE ℝ} {path : String} {d : List (String × PyVal)}
    (ht : isH5 path = false) (hm : m.getOrbitFingerprints ≠ []) (hd : dictGet d "keci" = none) :
    ∃ e, loadText r path (.text (.dict d)) m = (.error e, m) := by
  have hk : dictGet (d.filter fun kv => keptKey kv.1) "keci" = none := by
    rw [dictGet_filter, if_pos (by decide), hd]
  obtain ⟨p, hp, hpk⟩ : ∃ p, fromFile path (.text (.dict d)) = .ok p ∧ p.keci = .list [] := by
    unfold fromFile
    rw [if_neg (by simp [ht])]
    exact ⟨_, rfl, by simp only [hk]; rfl⟩
  unfold loadText
  rw [hp]
  simp only
  unfold setLoaded
  have : keciNumbers r (ofParams p).keci = .ok [] := by
    show keciNumbers r (.plain p.keci) = _
    rw [hpk]; rfl
  rw [this]
  simp only
  split
  · exact ⟨_, rfl⟩
  · split
    · exact ⟨_, rfl⟩
    · next e0 _ fps _ =>
      refine ⟨.valueError, ?_⟩
      rw [LCE.setParameters, LCE.storeParameters]
      have hv : m.validateParameterOrbits [] fps (hashText r (ofParams p).hash) = .error .valueError := by
        unfold LCE.validateParameterOrbits
        rw [if_pos ⟨hm, fun h0 => hm (List.length_eq_zero_iff.1 h0.symm)⟩]
      rw [hv]

/-! ### HDF5 files -/

theorem storeGroup_get {h5 : PyVal → Py Value} {d : List (String × PyVal)} {out : List (String × Value)}
    (h : storeGroup h5 d = (.ok (), out)) {k : String} (hk : (k.toList.head? == some '@') = false) :
    (∀ v, dictGet d k = some v → v ≠ .none → ∃ w, h5 v = .ok w ∧ dictGet out k = some w) ∧
      (dictGet d k = none → dictGet out k = none) := by
  induction d generalizing out with
  | nil =>
    simp only [storeGroup, Prod.mk.injEq, true_and] at h
    subst h
    exact ⟨by rintro _ ⟨⟩, fun _ => rfl⟩
  | cons kv d ih =>
    obtain ⟨k', v'⟩ := kv
    rw [storeGroup] at h
    split at h
    · next hc =>
      obtain ⟨i1, i2⟩ := ih h
      refine ⟨fun v hv hn => ?_, fun hv => ?_⟩
      · rw [dictGet] at hv
        split at hv
        · next hkk =>
          cases hv
          subst hkk
          rw [hk, Bool.false_or] at hc
          rw [isNone_false hn] at hc
          cases hc
        · exact i1 v hv hn
      · rw [dictGet] at hv
        split at hv
        · cases hv
        · exact i2 hv
    · split at h
      · simp only [Prod.mk.injEq, reduceCtorEq, false_and] at h
      · next w hw =>
        simp only [Prod.mk.injEq] at h
        obtain ⟨h1, h2⟩ := h
        obtain ⟨i1, i2⟩ := ih (out := (storeGroup h5 d).2) (Prod.ext h1 rfl)
        subst h2
        refine ⟨fun v hv hn => ?_, fun hv => ?_⟩
        · rw [dictGet] at hv ⊢
          split at hv
          · next hkk => cases hv; rw [if_pos hkk]; exact ⟨w, hw, rfl⟩
          · next hkk => rw [if_neg hkk]; exact i1 v hv hn
        · rw [dictGet] at hv ⊢
          split at hv
          · cases hv
          · next hkk => rw [if_neg hkk]; exact i2 hv

theorem strOfBytes_ne (s : String) : strOfBytes s ≠ s := by
  intro h
  have := congrArg (fun t : String => t.toList.length) h
  simp only [strOfBytes, String.toList_append, List.length_append] at this
  simp at this
  omega

theorem ofGroup_get (d : List (String × Value)) :
    (ofGroup d).keci = (dictGet d "keci").getD (.plain (.list [])) ∧
    (ofGroup d).emptyCluster = (dictGet d "empty_cluster").getD (.plain (.float (.fin 0))) ∧
    (ofGroup d).fingerprints = (dictGet d "orbit_fingerprints").getD (.plain .none) ∧
    (ofGroup d).hash = (dictGet d "local_environment_hash").getD (.plain .none) := by
  unfold ofGroup
  simp only [dictGet_filter]
  refine ⟨?_, ?_, ?_, ?_⟩ <;> rw [if_pos (by decide)]

/-- **C120, where it fails.** Parameters of a fit that carry fingerprints cannot pass through an HDF5 file:
either the file cannot be written, or the written file is refused by the very model the fit was made with.
(The texts come back as byte strings, and `str` of a byte string is not the text.) -/
theorem C120_hdf5_refused {h5 : PyVal → Py Value} (h3 : TextsBecomeBytes h5) {L : Lasso} {out : Outside}
    {r : Reading} {m : LCE ℝ} {a : FitArguments} {k n : Nat}
    {x : Fin k → Fin n → ℝ} {y weight : Fin k → ℝ} {files files' : Files} {p : Params} {pred : Fin k → ℝ}
    (ho : a.orbitFingerprints = none) (hm : m.getOrbitFingerprints ≠ [])
    (h : fit L out (fitOptions m a) x y weight files = (.ok (p, pred), files')) :
    (∃ e d, saveH5 h5 p = (.error e, d)) ∨
      ∃ d, saveH5 h5 p = (.ok (), d) ∧ ∃ e, loadH5 r d m = (.error e, m) := by
  obtain ⟨loocv, -, hrec⟩ := C76_record h
  have ho' : (fitOptions m a).orbitFingerprints = ownFingerprints m := by unfold fitOptions; rw [ho]; rfl
  have hfp : p.orbitFingerprints = .list (m.getOrbitFingerprints.map .str) := by
    rw [hrec.fingerprints, ho']
    rcases ownFingerprints_texts r m with ⟨-, h0, -⟩ | ⟨h0, -⟩
    · exact absurd h0 hm
    · exact h0
  cases hs : saveH5 h5 p with
  | mk res d =>
    cases res with
    | error e => exact .inl ⟨e, d, rfl⟩
    | ok u =>
      refine .inr ⟨d, rfl, ?_⟩
      have hget : dictGet p.asDict "orbit_fingerprints" = some p.orbitFingerprints := by
        have := (asDict_get p).2.2.2.2.2.2.2.2.2.2.1
        rw [hfp] at this ⊢
        cases hg : dictGet p.asDict "orbit_fingerprints" with
        | none => rw [hg] at this; cases this
        | some v => rw [hg] at this; rw [← this]; rfl
      obtain ⟨w, hw, hdw⟩ := (storeGroup_get hs (k := "orbit_fingerprints") (by decide)).1 _ hget
        (by rw [hfp]; simp)
      have hwb : w = .byteStrings m.getOrbitFingerprints := by
        rw [hfp] at hw
        rcases h3 _ hm with hb | ⟨e, hb⟩
        · rw [hb] at hw; cases hw; rfl
        · rw [hb] at hw; cases hw
      unfold loadH5 setLoaded
      split
      · exact ⟨_, rfl⟩
      · next keci _ =>
        split
        · exact ⟨_, rfl⟩
        · next e0 _ =>
          rw [(ofGroup_get d).2.2.1, hdw, hwb]
          refine ⟨.valueError, ?_⟩
          simp only [Option.getD_some, fingerprintTexts]
          rw [LCE.setParameters, LCE.storeParameters]
          have hv : m.validateParameterOrbits keci (some (m.getOrbitFingerprints.map strOfBytes))
              (hashText r (ofGroup d).hash) = .error .valueError := by
            unfold LCE.validateParameterOrbits
            simp only
            split
            · rfl
            · split
              · rfl
              · rw [if_neg (by simp), if_pos]
                intro hc
                obtain ⟨s, l, hsl⟩ : ∃ s l, m.getOrbitFingerprints = s :: l := by
                  cases hg : m.getOrbitFingerprints with
                  | nil => exact absurd hg hm
                  | cons s l => exact ⟨s, l, rfl⟩
                rw [hsl, List.map_cons, List.cons.injEq] at hc
                exact strOfBytes_ne s hc.1
          rw [hv]

/-- **C120 (HDF5, without fingerprints).** If the fit was told not to record fingerprints, the HDF5 file
can be loaded into the model and gives it exactly the coefficients of the fit. -/
theorem C120_hdf5_without_fingerprints {h5 : PyVal → Py Value} {L : Lasso} {out : Outside}
    {r : Reading} {m : LCE ℝ} {a : FitArguments} {k n : Nat}
    {x : Fin k → Fin n → ℝ} {y weight : Fin k → ℝ} {files files' : Files} {p : Params} {pred : Fin k → ℝ}
    (ho : a.orbitFingerprints = some .none) (hh : a.localEnvironmentHash = none)
    (hm : m.getOrbitFingerprints ≠ [] → m.getOrbitFingerprints.length = n)
    (h : fit L out (fitOptions m a) x y weight files = (.ok (p, pred), files'))
    (hp : KeepsOthers h5 p) :
    ∃ f : Fitted k n, fitValues L x y (some weight) a.normalize = .ok f ∧ pred = f.predicted ∧
      (ReadBack out r f → ∃ d m', saveH5 h5 p = (.ok (), d) ∧ loadH5 r d m = (.ok (), m') ∧ HasFit m m' f) := by
  obtain ⟨f, h1, h2, h3, h4, -, h6, -⟩ := C76_files h
  obtain ⟨loocv, -, hrec⟩ := C76_record h
  refine ⟨f, h1, h2, fun hb => ?_⟩
  have hno : p.orbitFingerprints = .none := by rw [hrec.fingerprints]; unfold fitOptions; rw [ho]; rfl
  have hhash : p.localEnvironmentHash = ownHash m := by rw [hrec.hash]; unfold fitOptions; rw [hh]; rfl
  obtain ⟨hman, hopt⟩ := hp
  have hall : ∀ kv ∈ p.asDict, kv.1.toList.head? = some '@' ∨ kv.2 = .none ∨ h5 kv.2 = .ok (.plain kv.2) := by
    simp only [mandatoryFields, List.forall_mem_cons] at hman
    obtain ⟨g1, g2, g3, g4, g5, g6, g7, g8, g9, g10, -⟩ := hman
    intro kv hkv
    simp only [Params.asDict, List.mem_append, List.mem_cons, List.not_mem_nil, or_false, unlessNone] at hkv
    rcases hkv with ((h | h | h | h | h | h | h | h | h | h | h | h) | h) | h
    · subst h; exact .inl (by decide)
    · subst h; exact .inl (by decide)
    · subst h; exact .inr (.inr g1.2)
    · subst h; exact .inr (.inr g2.2)
    · subst h; exact .inr (.inr g3.2)
    · subst h; exact .inr (.inr g4.2)
    · subst h; exact .inr (.inr g5.2)
    · subst h; exact .inr (.inr g6.2)
    · subst h; exact .inr (.inr g7.2)
    · subst h; exact .inr (.inr g8.2)
    · subst h; exact .inr (.inr g9.2)
    · subst h; exact .inr (.inr g10.2)
    · rw [hno] at h; simp [PyVal.isNone] at h
    · split at h
      · cases h
      · rw [List.mem_singleton] at h
        subst h
        exact .inr hopt
  have hok : ∀ d : List (String × PyVal),
      (∀ kv ∈ d, kv.1.toList.head? = some '@' ∨ kv.2 = .none ∨ h5 kv.2 = .ok (.plain kv.2)) →
      (storeGroup h5 d).1 = .ok () := by
    intro d
    induction d with
    | nil => exact fun _ => rfl
    | cons kv d ih =>
      obtain ⟨k', v'⟩ := kv
      intro hd
      rw [List.forall_mem_cons] at hd
      rw [storeGroup]
      split
      · exact ih hd.2
      · next hc =>
        have hv : h5 v' = .ok (.plain v') := by
          rcases hd.1 with hd1 | hd1 | hd1
          · simp only at hd1; rw [hd1] at hc; simp at hc
          · simp only at hd1; rw [hd1] at hc; simp [PyVal.isNone] at hc
          · exact hd1
        simp only [hv]
        exact ih hd.2
  have hs : saveH5 h5 p = (.ok (), (saveH5 h5 p).2) := Prod.ext (hok _ hall) rfl
  have hga := asDict_get p
  have hkeci : dictGet (saveH5 h5 p).2 "keci" = some (.plain p.keci) := by
    obtain ⟨w, hw, hd⟩ := (storeGroup_get hs (k := "keci") (by decide)).1 _ hga.1
      (hman _ (by simp [mandatoryFields])).1
    rw [(hman p.keci (by simp [mandatoryFields])).2] at hw
    cases hw
    exact hd
  have hempty : dictGet (saveH5 h5 p).2 "empty_cluster" = some (.plain p.emptyCluster) := by
    obtain ⟨w, hw, hd⟩ := (storeGroup_get hs (k := "empty_cluster") (by decide)).1 _ hga.2.1
      (hman _ (by simp [mandatoryFields])).1
    rw [(hman p.emptyCluster (by simp [mandatoryFields])).2] at hw
    cases hw
    exact hd
  have hfp : dictGet (saveH5 h5 p).2 "orbit_fingerprints" = none := by
    refine (storeGroup_get hs (k := "orbit_fingerprints") (by decide)).2 ?_
    unfold Params.asDict
    rw [LocalBarrier.dictGet_append, LocalBarrier.dictGet_append, dictGet_unlessNone, dictGet_unlessNone, hno]
    simp [dictGet, PyVal.isNone]
  have hhs : (dictGet (saveH5 h5 p).2 "local_environment_hash").getD (.plain .none) = .plain (ownHash m) := by
    have hg := hga.2.2.2.2.2.2.2.2.2.2.2.1
    rw [← hhash]
    cases hd : dictGet p.asDict "local_environment_hash" with
    | none =>
      rw [hd] at hg
      rw [(storeGroup_get hs (k := "local_environment_hash") (by decide)).2 hd, ← hg]
      rfl
    | some v =>
      rw [hd] at hg
      simp only [Option.getD_some] at hg
      have hvn : v ≠ .none := by
        intro hv
        subst hv
        unfold Params.asDict at hd
        rw [LocalBarrier.dictGet_append, LocalBarrier.dictGet_append, dictGet_unlessNone, dictGet_unlessNone] at hd
        rw [← hg] at hd
        simp [dictGet, PyVal.isNone] at hd
      obtain ⟨w, hw, hdw⟩ := (storeGroup_get hs (k := "local_environment_hash") (by decide)).1 v hd hvn
      rcases hopt with hopt | hopt
      · exact absurd (hg.trans hopt) hvn
      · rw [hg, hopt] at hw
        cases hw
        rw [hdw]
        rfl
  obtain ⟨o1, o2, o3, o4⟩ := ofGroup_get (saveH5 h5 p).2
  rw [hkeci] at o1
  rw [hempty] at o2
  rw [hfp] at o3
  rw [hhs] at o4
  have hset : loadH5 r (saveH5 h5 p).2 m
      = m.setParameters (.object (List.ofFn f.keci) f.emptyCluster none m.environmentHash) := by
    unfold loadH5
    rw [setLoaded_eq (keci := List.ofFn f.keci) (e0 := f.emptyCluster) (fps := none), o4, ownHash_text]
    · rw [o1, h3]; exact keci_read hb
    · rw [o2, h4]; exact hb.empty
    · rw [o3]; rfl
  obtain ⟨m', hm', hfit⟩ := accepts (f := f) hm (fps := none) (hash := m.environmentHash) (.inl rfl) (.inr rfl)
  exact ⟨_, m', hs, by rw [hset, hm'], hfit⟩

/-! ### Examples -/

/-- A model with two point clusters. -/
def twoPoints : LCE ℝ where
  clusterSiteIndices := [[[0]], [[1]]]
  correlationFingerprints := some ["oa", "ob"]
  environmentHash := some "h"

/-- A solver that always answers with coefficients 2 and constant 3. -/
def constantLasso : Lasso where
  coef := fun _ _ _ => .ok fun _ => 2
  coefIntercept := fun _ _ _ => .ok (fun _ => 2, 3)

open Classical in
/-- Numbers as they are written: 2 and 3 exactly, all others as 0. -/
noncomputable def twoOutside : Outside where
  float := fun v => .float (.fin (if v = 2 then 2 else if v = 3 then 3 else 0))
  store := .ok
  timeStamp := .float (.fin 1)
  time := .str "now"

/-- Numbers as they are read. -/
noncomputable def twoReading : Reading where
  number := fun v =>
    match v with
    | .float (.fin q) => .ok (q : ℝ)
    | _ => .error .typeError
  text := fun _ => ""

/-- Arguments of a fit with the default file names. -/
def twoArguments : FitArguments where
  alpha := 1
  normalize := false
  paramsPath := some "lce_params.json"
  historyPath := none
  orbitFingerprints := none
  localEnvironmentHash := none

/-- The features of two environments. -/
def twoRows (i j : Fin 2) : ℝ := if i = j then 1 else 2

theorem two_loo (y : Fin 2 → ℝ) : ∃ v, leaveOneOutRmse constantLasso (List.ofFn twoRows) (List.ofFn y) false = .ok v := by
  have hr : List.ofFn twoRows = [twoRows 0, twoRows 1] := by simp [List.ofFn_succ]
  have hy : List.ofFn y = [y 0, y 1] := by simp [List.ofFn_succ]
  rw [hr, hy]
  have h : ∀ i ∈ List.range 2, ∃ e, leftOutError constantLasso [twoRows 0, twoRows 1] [y 0, y 1] false i = .ok e := by
    intro i hi
    have hi : i = 0 ∨ i = 1 := by simp at hi; omega
    rcases hi with rfl | rfl <;> exact ⟨_, rfl⟩
  obtain ⟨e0, h0⟩ := h 0 (by simp)
  obtain ⟨e1, h1⟩ := h 1 (by simp)
  refine ⟨Real.sqrt ((e0 + (e1 + 0)) / 2), ?_⟩
  simp only [leaveOneOutRmse, List.length_cons, List.length_nil, Nat.zero_add, Nat.reduceAdd,
    show List.range 2 = [0, 1] from rfl, leftOutErrors, h0, h1, List.sum_cons, List.sum_nil]
  norm_num

theorem two_fit (a : FitArguments) (hn : a.normalize = false)
    (hc : checkFingerprints (fitOptions twoPoints a).orbitFingerprints 2 = .ok ())
    (hp : a.paramsPath = some "lce_params.json") (hh : a.historyPath = none) (y : Fin 2 → ℝ) :
    ∃ p pred files, fit constantLasso twoOutside (fitOptions twoPoints a) twoRows y (fun _ => 1)
      ⟨none, .absent, .absent⟩ = (.ok (p, pred), files) := by
  obtain ⟨v, hv⟩ := two_loo y
  have h5 : isH5 "lce_params.json" = false := by decide +kernel
  have hn' : (fitOptions twoPoints a).normalize = false := hn
  have hp' : (fitOptions twoPoints a).paramsPath = some "lce_params.json" := hp
  have hh' : (fitOptions twoPoints a).historyPath = none := hh
  have hf : fitValues constantLasso twoRows y (some fun _ => 1) false
      = .ok ⟨fun _ => 2, 3, fun i => dot (twoRows i) (fun _ => 2) + 3⟩ := rfl
  unfold fit
  rw [hn', hf]
  simp only [hc, hv]
  simp only [writeFiles, writeParams, writeHistory, hp', hh', Params.to, h5]
  exact ⟨_, _, _, rfl⟩

theorem two_values {y : Fin 2 → ℝ} {f : Fitted 2 2}
    (h : fitValues constantLasso twoRows y (some fun _ => 1) false = .ok f) : ReadBack twoOutside twoReading f := by
  have hf : fitValues constantLasso twoRows y (some fun _ => 1) false
      = .ok ⟨fun _ => 2, 3, fun i => dot (twoRows i) (fun _ => 2) + 3⟩ := rfl
  rw [hf] at h
  cases h
  refine ⟨fun j => ?_, ?_⟩
  · show twoReading.number (.float (.fin (if (2 : ℝ) = 2 then 2 else _))) = _
    rw [if_pos rfl]
    show Except.ok (((2 : ℚ) : ℝ)) = _
    norm_num
  · show twoReading.number (.float (.fin (if (3 : ℝ) = 2 then 2 else if (3 : ℝ) = 3 then 3 else 0))) = _
    rw [if_neg (by norm_num), if_pos rfl]
    show Except.ok (((3 : ℚ) : ℝ)) = _
    norm_num

theorem two_record {a : FitArguments} {y : Fin 2 → ℝ} {files files' : Files} {p : Params} {pred : Fin 2 → ℝ}
    (h : fit constantLasso twoOutside (fitOptions twoPoints a) twoRows y (fun _ => 1) files
      = (.ok (p, pred), files')) :
    ∃ f w u v, p = record twoOutside (fitOptions twoPoints a) (m := 2) (n := 2) f w u v := by
  unfold fit at h
  split at h
  · cases h
  · split at h
    · cases h
    · split at h
      · cases h
      · split at h
        · cases h
        · simp only [Prod.mk.injEq, Except.ok.injEq] at h
          exact ⟨_, _, _, _, h.1.1.symm⟩

theorem two_plain {y : Fin 2 → ℝ} {files files' : Files} {p : Params} {pred : Fin 2 → ℝ}
    (h : fit constantLasso twoOutside (fitOptions twoPoints twoArguments) twoRows y (fun _ => 1) files
      = (.ok (p, pred), files')) : PlainRecord p := by
  have hfl : ∀ v, PlainValue (twoOutside.float v) := fun v => .float _
  have hli : ∀ (n : Nat) (g : Fin n → ℝ), PlainValue (.list (List.ofFn fun j => twoOutside.float (g j))) := by
    intro n g
    refine .list _ fun v hv => ?_
    obtain ⟨j, rfl⟩ := (List.mem_ofFn' _ _).1 hv
    exact hfl _
  obtain ⟨f, w, a, b, rfl⟩ := two_record h
  intro v hv
  simp only [writtenFields, record, List.mem_cons, List.not_mem_nil, or_false] at hv
  rcases hv with h | h | h | h | h | h | h | h | h | h | h | h <;> subst h
  · exact hli _ _
  · exact hfl _
  · exact .list _ (by simp)
  · exact hli _ _
  · exact hfl _
  · exact .float _
  · exact .str _
  · exact hfl _
  · exact hfl _
  · exact .bool _
  · refine .list _ fun v hv => ?_
    simp only [twoPoints, LCE.getOrbitFingerprints, List.map_cons, List.map_nil, List.mem_cons,
      List.not_mem_nil, or_false] at hv
    rcases hv with rfl | rfl <;> exact .str _
  · exact .str _

/-- The features of a local occupation in that model. -/
theorem two_row (i : Fin 2) : twoPoints.calculateCorrelation [if i = 0 then 1 else 2, if i = 0 then 2 else 1]
    = .ok (List.ofFn (twoRows i)) := by
  have h : ∀ a b : Int, twoPoints.calculateCorrelation [a, b] = .ok [0 + 1 * (a : ℝ), 0 + 1 * (b : ℝ)] := fun a b => rfl
  rw [h]
  fin_cases i <;> simp [List.ofFn_succ, twoRows]

/-- Non-vacuity of `C120_fit_can_be_loaded` and `C120_simulates_the_prediction`: a fit of two environments,
loaded and simulated. -/
example (y : Fin 2 → ℝ) : ∃ (p : Params) (pred : Fin 2 → ℝ) (files : Files) (m' : LCE ℝ),
    fit constantLasso twoOutside (fitOptions twoPoints twoArguments) twoRows y (fun _ => 1)
      ⟨none, .absent, .absent⟩ = (.ok (p, pred), files) ∧
    loadText twoReading "lce_params.json" files.params twoPoints = (.ok (), m') ∧
    m'.keci = some [2, 2] ∧ m'.emptyCluster = some 3 ∧
    m'.compute [5, 2, 1, 0] { mobile := [0, 3], env := [1, 2] } = .ok (pred 1) := by
  obtain ⟨p, pred, files, h⟩ := two_fit twoArguments rfl rfl rfl rfl y
  have h5 : isH5 "lce_params.json" = false := by decide +kernel
  obtain ⟨f, h1, h2, h3⟩ := C120_fit_can_be_loaded (r := twoReading) (a := twoArguments) rfl h5 rfl rfl h (two_plain h)
  obtain ⟨m', h4, hc⟩ := h3 (two_values h1)
  have hf : f = ⟨fun _ => 2, 3, fun i => dot (twoRows i) (fun _ => 2) + 3⟩ := (Except.ok.inj h1).symm
  refine ⟨p, pred, files, m', h, h4, ?_, ?_, ?_⟩
  · rw [hc.keci, hf]; simp [List.ofFn_succ]
  · rw [hc.empty, hf]
  · exact C120_simulates_the_prediction (a := twoArguments) rfl h5 rfl rfl h (two_plain h)
      (fun f hf => two_values hf) h4 (loc := [2, 1]) rfl (two_row 1)

/-- Non-vacuity of `C120_other_model_refuses` and `C120_wrong_file_refused`. -/
example (y : Fin 2 → ℝ) : ∃ (files : Files) (other : LCE ℝ),
    loadText twoReading "lce_params.json" files.params other = (.error .valueError, other) ∧
    (∃ e, loadText twoReading "lce_params.json" (.text (.dict [("events", .list [])])) twoPoints
      = (.error e, twoPoints)) := by
  obtain ⟨p, pred, files, h⟩ := two_fit twoArguments rfl rfl rfl rfl y
  have h5 : isH5 "lce_params.json" = false := by decide +kernel
  refine ⟨files, { twoPoints with correlationFingerprints := some ["oa", "oc"] },
    C120_other_model_refuses (a := twoArguments) rfl h5 rfl rfl h (two_plain h) (fun f hf => two_values hf)
      (.inl ⟨by simp [twoPoints, LCE.getOrbitFingerprints], by simp [twoPoints, LCE.getOrbitFingerprints]⟩),
    C120_wrong_file_refused h5 (by simp [twoPoints, LCE.getOrbitFingerprints]) rfl⟩

/-- Non-vacuity of `C120_hdf5_refused`: an h5py of version 3, and a file that is written. -/
def h5py3 : PyVal → Py Value
  | .list l =>
    match l.mapM (fun v => match v with | .str s => some s | _ => none) with
    | some (s :: t) => .ok (.byteStrings (s :: t))
    | _ => .ok (.plain (.list l))
  | v => .ok (.plain v)

theorem h5py3_texts : TextsBecomeBytes h5py3 := by
  intro l hl
  left
  have h : (l.map PyVal.str).mapM (fun v => match v with | .str s => some s | _ => none) = some l := by
    induction l with
    | nil => exact absurd rfl hl
    | cons s l ih =>
      cases l with
      | nil => rfl
      | cons t l => rw [List.map_cons, List.mapM_cons, ih (by simp)]; rfl
  unfold h5py3
  simp only [h]
  cases l with
  | nil => exact absurd rfl hl
  | cons s l => rfl

example (y : Fin 2 → ℝ) : ∃ (p : Params) (pred : Fin 2 → ℝ) (files : Files) (d : List (String × Value)),
    fit constantLasso twoOutside (fitOptions twoPoints twoArguments) twoRows y (fun _ => 1)
      ⟨none, .absent, .absent⟩ = (.ok (p, pred), files) ∧ twoPoints.getOrbitFingerprints ≠ [] ∧
    saveH5 h5py3 p = (.ok (), d) ∧ ∃ e, loadH5 twoReading d twoPoints = (.error e, twoPoints) := by
  obtain ⟨p, pred, files, h⟩ := two_fit twoArguments rfl rfl rfl rfl y
  refine ⟨p, pred, files, ?_⟩
  have hne : twoPoints.getOrbitFingerprints ≠ [] := by simp [twoPoints, LCE.getOrbitFingerprints]
  rcases C120_hdf5_refused h5py3_texts (r := twoReading) (a := twoArguments) rfl hne h with ⟨e, d, hs⟩ | ⟨d, hs, he⟩
  · exfalso
    have hall : ∀ d : List (String × PyVal), (storeGroup h5py3 d).1 = .ok () := by
      intro d
      induction d with
      | nil => rfl
      | cons kv d ih =>
        obtain ⟨k, v⟩ := kv
        obtain ⟨w, hw⟩ : ∃ w, h5py3 v = .ok w := by
          unfold h5py3
          split
          · split <;> exact ⟨_, rfl⟩
          · exact ⟨_, rfl⟩
        rw [storeGroup]
        split
        · exact ih
        · simp only [hw]; exact ih
    have := hall p.asDict
    rw [show storeGroup h5py3 p.asDict = saveH5 h5py3 p from rfl, hs] at this
    cases this
  · exact ⟨d, h, hne, hs, he⟩

/-- Non-vacuity of `C120_hdf5_without_fingerprints`. -/
example (y : Fin 2 → ℝ) : ∃ (a : FitArguments) (p : Params) (pred : Fin 2 → ℝ) (files : Files)
    (d : List (String × Value)) (m' : LCE ℝ), a.orbitFingerprints = some .none ∧
    fit constantLasso twoOutside (fitOptions twoPoints a) twoRows y (fun _ => 1)
      ⟨none, .absent, .absent⟩ = (.ok (p, pred), files) ∧
    saveH5 h5py3 p = (.ok (), d) ∧ loadH5 twoReading d twoPoints = (.ok (), m') := by
  obtain ⟨p, pred, files, h⟩ := two_fit { twoArguments with orbitFingerprints := some .none } rfl rfl rfl rfl y
  have hk : KeepsOthers h5py3 p := by
    obtain ⟨f, w, a, b, rfl⟩ := two_record h
    refine ⟨?_, .inr rfl⟩
    intro v hv
    simp only [mandatoryFields, record, List.mem_cons, List.not_mem_nil, or_false] at hv
    rcases hv with h | h | h | h | h | h | h | h | h | h <;> subst h <;>
      exact ⟨by simp [twoOutside], by simp [h5py3, twoOutside, List.ofFn_succ]⟩
  obtain ⟨f, h1, -, h2⟩ := C120_hdf5_without_fingerprints (r := twoReading)
    (a := { twoArguments with orbitFingerprints := some .none }) rfl rfl (fun _ => rfl) h hk
  obtain ⟨d, m', h3, h4, -⟩ := h2 (two_values h1)
  exact ⟨_, p, pred, files, d, m', rfl, h, h3, h4⟩

end FitUse
end KMC
