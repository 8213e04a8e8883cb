import Verif.Lemmas.SiteEnergyFile
import Verif.Props.SiteEnergyRunProps
/-
C80: a saved site-energy model is read back with the same settings.
-/
namespace KMC
namespace SiteEnergyFile
open Spec
variable {σ V Rt T : Type}

/-- What the constructor guarantees about the attributes. -/
structure WellFormed (o : Object σ V Rt T) : Prop where
  computeRef : normalizeRef o.computeRef = o.computeRef
  applyRef : normalizeRef o.applyRef = o.applyRef
  runtimeRef : normalizeRef o.runtimeRef = o.runtimeRef
  siteMapping : ∀ d, o.siteMapping = some d → (dictKeys d).Nodup
  stateMapping : ∀ d, o.stateMapping = some d → (dictKeys d).Nodup
  bySite : ∀ d, o.stateMappingBySite = some d → NestedDict d
  hash : ∀ a, o.order = some a → o.orderHash = some a.fingerprint
  hashText : normalizeRef o.orderHash = o.orderHash

theorem make_wellFormed {a : Args σ V Rt T} {o : Object σ V Rt T} (h : Object.make a = .ok o)
    (hf : ∀ ord, o.order = some ord → DigestText ord.fingerprint) : WellFormed o := by
  simp only [Object.make] at h
  split at h
  · cases h
  split at h
  · cases h
  split at h
  · cases h
  split at h
  · cases h
  split at h
  · cases h
  split at h
  · cases h
  split at h
  · cases h
  rename_i sm hsm _ stm hstm _ bs hbs _ ini _ _ ord hord _ hash hhash _ u _
  cases h
  refine ⟨normalizeRef_idem _, normalizeRef_idem _, normalizeRef_idem _, normalizeOptional_nodup hsm,
    normalizeOptional_nodup hstm, normalizeBySite_nested hbs, ?_, ?_⟩
  · intro a ha
    simp only at ha ⊢
    subst ha
    simp only [checkedHash] at hhash
    split at hhash
    · split at hhash
      · cases hhash
      · rename_i heq _ _
        cases heq
        cases hhash
        rfl
    · rename_i heq _
      cases heq
      cases hhash
      rfl
    · cases ‹some a = none›
  · simp only
    cases ord with
    | none =>
      simp only [checkedHash] at hhash
      cases hhash
      exact normalizeRef_idem _
    | some ord =>
      obtain ⟨h1, h2⟩ := hf ord rfl
      have : hash = some ord.fingerprint := by
        simp only [checkedHash] at hhash
        split at hhash
        · split at hhash
          · cases hhash
          · rename_i heq _ _
            cases heq
            cases hhash
            rfl
        · rename_i heq _
          cases heq
          cases hhash
          rfl
        · cases ‹some ord = none›
      rw [this]
      simp [normalizeRef, h1, h2]

theorem wellFormed_round (digest : Option (List (Int × Int)) → Option Int → Option Nat → String)
    {o : Object σ V Rt T} (ho : WellFormed o) (hi : OccupationKept o) :
    Object.fromDict digest (o.asDict digest) = .ok (onlyReferences o) := by
  have h1 : normalizeOptional (o.siteMapping.map textKeys) = .ok o.siteMapping := by
    cases h : o.siteMapping with
    | none => rfl
    | some d => simp [normalizeOptional, normalizeMap_textKeys (ho.siteMapping d h)]
  have h2 : normalizeOptional (o.stateMapping.map textKeys) = .ok o.stateMapping := by
    cases h : o.stateMapping with
    | none => rfl
    | some d => simp [normalizeOptional, normalizeMap_textKeys (ho.stateMapping d h)]
  have h3 : normalizeBySite (o.stateMappingBySite.map fun d =>
      textKeys (d.map fun p => (p.1, some (textKeys p.2)))) = .ok o.stateMappingBySite := by
    cases h : o.stateMappingBySite with
    | none => rfl
    | some d =>
      obtain ⟨h4, h5⟩ := ho.bySite d h
      have := bySite_textKeys d [] (by simpa using h4) h5
      simp only [Option.map_some, normalizeBySite]
      have hk : textKeys (d.map fun p => (p.1, some (textKeys p.2))) =
          .items ((d.map fun p => (p.1, some (textKeys p.2))).map fun p => (Key.str (intStr p.1), p.2)) := rfl
      rw [hk]
      simp only [this, List.nil_append]
  have h4 : arrayCopy ((o.initialOccupation.map fun a => a.2).map ArrayArg.list) = .ok o.initialOccupation := by
    cases h : o.initialOccupation with
    | none => rfl
    | some a =>
      obtain ⟨d, l⟩ := a
      obtain ⟨h5, h6⟩ := hi d l h
      simp [arrayCopy, h5, h6]
  have h5 : normalizeOrder ((o.order.map ActiveSiteOrder.asDict).map OrderArg.dict) = .ok o.order := by
    cases o.order with
    | none => rfl
    | some a => simp [normalizeOrder, ActiveSiteOrder.fromDict, ActiveSiteOrder.asDict]
  have h6 : checkedHash o.order (normalizeRef o.orderHash) = .ok o.orderHash := by
    rw [ho.hashText]
    cases h : o.order with
    | none => rfl
    | some a => simp [checkedHash, ho.hash a h]
  have h7 : Object.make (argsOf (Rt := Rt) (T := T) (o.asDict digest)) = .ok (onlyReferences o) := by
    simp only [Object.make, argsOf, Object.asDict, h1, h2, h3, h4, h5, h6, Option.getD_some, parse_unitText,
      ho.computeRef, ho.applyRef, ho.runtimeRef]
    rfl
  simp only [Object.fromDict, h7]
  simp [Object.asDict, siteOrderHash, onlyReferences]

/-- C80.  A site-energy model is read back from its file with the settings it had: mappings, sizes,
fill value, types, units, active-site order and references; functions and runtime objects given as Python
objects are gone. -/
theorem C80_settings (digest : Option (List (Int × Int)) → Option Int → Option Nat → String)
    (a : Args σ V Rt T) (o : Object σ V Rt T) (h : Object.make a = .ok o)
    (hf : ∀ ord, o.order = some ord → DigestText ord.fingerprint) (hi : OccupationKept o) :
    Object.fromDict digest (o.asDict digest) = .ok (onlyReferences o) :=
  wellFormed_round digest (make_wellFormed h hf) hi

/-- C80.  The same after the model took over the active-site order of a simulation. -/
theorem C80_settings_in_use (digest : Option (List (Int × Int)) → Option Int → Option Nat → String)
    (a : Args σ V Rt T) (o : Object σ V Rt T) (h : Object.make a = .ok o)
    (hf : ∀ ord, o.order = some ord → DigestText ord.fingerprint) (hi : OccupationKept o)
    (ord : ActiveSiteOrder σ String) (hord : DigestText ord.fingerprint) :
    Object.fromDict digest
        (Object.asDict digest { o with order := some ord, orderHash := some ord.fingerprint }) =
      .ok (onlyReferences { o with order := some ord, orderHash := some ord.fingerprint }) := by
  have hw := make_wellFormed h hf
  refine wellFormed_round digest ⟨hw.computeRef, hw.applyRef, hw.runtimeRef, hw.siteMapping, hw.stateMapping,
    hw.bySite, ?_, ?_⟩ hi
  · intro a ha
    cases ha
    rfl
  · simp [normalizeRef, hord.1, hord.2]

/-- C80.  A model whose functions and runtime are given by references behaves after loading as it did when it
was made: every call gives the same result. -/
theorem C80_behaves_the_same (digest : Option (List (Int × Int)) → Option Int → Option Nat → String)
    (a : Args σ V Rt T) (o : Object σ V Rt T) (h : Object.make a = .ok o)
    (hf : ∀ ord, o.order = some ord → DigestText ord.fingerprint) (hi : OccupationKept o)
    (h1 : a.computeFn = none) (h2 : a.applyFn = none) (h3 : a.runtime = none)
    (imp : Importer V Rt T) (absent : Rt) :
    ∃ o', Object.fromDict digest (o.asDict digest) = .ok o' ∧
      o'.settings imp absent = o.settings imp absent ∧ o'.start = o.start := by
  refine ⟨_, C80_settings digest a o h hf hi, ?_⟩
  have : onlyReferences o = o := by
    simp only [Object.make] at h
    split at h
    · cases h
    split at h
    · cases h
    split at h
    · cases h
    split at h
    · cases h
    split at h
    · cases h
    split at h
    · cases h
    split at h
    · cases h
    cases h
    simp [onlyReferences, h1, h2, h3]
  rw [this]
  exact ⟨rfl, rfl⟩

/-! ### When the initial occupation keeps its type -/

theorem storeAll_self {d : DType} {l : List ExtVal} (h : ∀ v ∈ l, d.store v = .ok v) :
    SiteEnergy.storeAll d l = .ok l := by
  induction l with
  | nil => rfl
  | cons v l ih =>
    simp only [SiteEnergy.storeAll, h v (by simp), ih fun v hv => h v (by simp [hv])]

/-- Without an initial occupation there is nothing to lose. -/
theorem kept_none {o : Object σ V Rt T} (h : o.initialOccupation = none) : OccupationKept o := by
  intro d l hd
  rw [h] at hd
  cases hd

/-- C80.  An array of integers keeps its type. -/
theorem C80_integers_kept {o : Object σ V Rt T} (ns : List Int) (hne : ns ≠ [])
    (h : o.initialOccupation = some (.int64, ns.map ExtVal.int)) : OccupationKept o := by
  intro d l hd
  rw [h] at hd
  cases hd
  refine ⟨?_, storeAll_self ?_⟩
  · simp [inferDtype, hne, SiteEnergy.isInt]
  · intro v hv
    obtain ⟨n, _, rfl⟩ := List.mem_map.mp hv
    rfl

/-- C80.  An array of floats keeps its type. -/
theorem C80_floats_kept {o : Object σ V Rt T} (qs : List ℚ) (hne : qs ≠ [])
    (h : o.initialOccupation = some (.float64, qs.map ExtVal.flt)) : OccupationKept o := by
  intro d l hd
  rw [h] at hd
  cases hd
  refine ⟨?_, storeAll_self ?_⟩
  · obtain ⟨q, qs, rfl⟩ := List.exists_cons_of_ne_nil hne
    simp [inferDtype, SiteEnergy.isInt, SiteEnergy.isNumber]
  · intro v hv
    obtain ⟨n, _, rfl⟩ := List.mem_map.mp hv
    rfl

theorem le_foldl_max (l : List Nat) (a : Nat) : a ≤ l.foldl max a ∧ ∀ x ∈ l, x ≤ l.foldl max a := by
  induction l generalizing a with
  | nil => simp
  | cons b l ih =>
    obtain ⟨h1, h2⟩ := ih (max a b)
    refine ⟨le_trans (le_max_left a b) h1, ?_⟩
    intro x hx
    rcases List.mem_cons.mp hx with rfl | hx
    · exact le_trans (le_max_right a x) h1
    · exact h2 x hx

/-- C80.  A list of texts given to the constructor keeps its type. -/
theorem C80_texts_kept {o : Object σ V Rt T} (ss : List String) (hne : ss ≠ [])
    (h : arrayCopy (some (.list (ss.map ExtVal.obj))) = .ok o.initialOccupation) : OccupationKept o := by
  have hty : inferDtype (ss.map ExtVal.obj) = .text (((ss.map ExtVal.obj).map textWidth).foldl max 1) := by
    obtain ⟨s, ss, rfl⟩ := List.exists_cons_of_ne_nil hne
    simp [inferDtype, SiteEnergy.isInt, SiteEnergy.isNumber]
  have hst : SiteEnergy.storeAll (inferDtype (ss.map ExtVal.obj)) (ss.map ExtVal.obj) =
      .ok (ss.map ExtVal.obj) := by
    rw [hty]
    refine storeAll_self ?_
    intro v hv
    have hle := (le_foldl_max ((ss.map ExtVal.obj).map textWidth) 1).2 _ (List.mem_map_of_mem hv)
    obtain ⟨s, _, rfl⟩ := List.mem_map.mp hv
    have hlen : s.toList.length ≤ ((ss.map ExtVal.obj).map textWidth).foldl max 1 := by
      simpa only [textWidth, String.length_toList] using hle
    simp only [DType.store, List.take_of_length_le hlen, String.ofList_toList]
  simp only [arrayCopy, hst] at h
  intro d l hd
  rw [hd] at h
  cases h
  exact ⟨rfl, hst⟩

/-! ### What the file does not keep -/

/-- C80.  A function given as a Python object is not in the file: after loading, the function named by the
reference is used instead, and without a reference no difference can be computed. -/
theorem C80_functions_lost (digest : Option (List (Int × Int)) → Option Int → Option Nat → String)
    (a : Args σ V Rt T) (o : Object σ V Rt T) (h : Object.make a = .ok o)
    (hf : ∀ ord, o.order = some ord → DigestText ord.fingerprint) (hi : OccupationKept o)
    (f : ComputeFn V Rt T) (ha : o.computeFn = some f) (imp : Importer V Rt T) (absent : Rt) :
    (o.settings imp absent).computeFn = some (f o.computeKwargs) ∧
    ∃ o', Object.fromDict digest (o.asDict digest) = .ok o' ∧
      (o.computeRef = none → (o'.settings imp absent).computeFn = none) ∧
      ∀ ref g, o.computeRef = some ref → imp.compute ref = .ok g →
        (o'.settings imp absent).computeFn = some (g o.computeKwargs) := by
  refine ⟨by simp [Object.settings, Object.computeCallable, ha], _, C80_settings digest a o h hf hi, ?_, ?_⟩
  · intro hr
    simp [Object.settings, Object.computeCallable, onlyReferences, hr]
  · intro ref g hr hg
    simp [Object.settings, Object.computeCallable, onlyReferences, hr, hg]

/-- A model with an initial occupation of Python objects. -/
def namesArgs : Args Unit Unit Unit Unit where
  stateMapping := some (.seq [.obj "Li", .obj "Vacancy"])
  initialOccupation := some (.array .object [.obj "Li", .obj "Li"])

/-- C80 fails for an initial occupation of Python objects: after loading it is an array of texts, which cuts
a longer name to the longest one in the initial occupation. -/
theorem C80_object_occupation :
    ∃ o o' : Object Unit Unit Unit Unit, Object.make namesArgs = .ok o ∧
      (∀ digest, Object.fromDict digest (o.asDict digest) = .ok o') ∧ ∀ imp : Importer Unit Unit Unit,
      ((o.settings imp ()).initializeState o.start [0, 1] none none).2.external =
        some (.object, [.obj "Li", .obj "Vacancy"]) ∧
      ((o'.settings imp ()).initializeState o'.start [0, 1] none none).2.external =
        some (.text 2, [.obj "Li", .obj "Va"]) := by
  let o : Object Unit Unit Unit Unit :=
    { computeFn := none, computeRef := none, computeKwargs := [], applyFn := none, applyRef := none
      applyKwargs := [], runtime := none, runtimeRef := none, runtimeKwargs := [], siteMapping := none
      stateMapping := some [(0, .obj "Li"), (1, .obj "Vacancy")], stateMappingBySite := none
      initialOccupation := some (.object, [.obj "Li", .obj "Li"]), externalSize := none, fillValue := .int 0
      externalDtype := none, order := none, orderHash := none, units := .eV, name := "SiteEnergyModel" }
  have hu : EnergyUnit.parse "eV" = .ok .eV := parse_unitText .eV
  have hm : normalizeMap (textKeys [((0 : Int), ExtVal.obj "Li"), (1, .obj "Vacancy")]) =
      .ok [(0, .obj "Li"), (1, .obj "Vacancy")] := normalizeMap_textKeys (by decide)
  have hd : inferDtype [.obj "Li", .obj "Li"] = .text 2 := by decide
  have hs : SiteEnergy.storeAll (.text 2) [.obj "Li", .obj "Li"] = .ok [.obj "Li", .obj "Li"] := by decide
  refine ⟨o, { o with initialOccupation := some (.text 2, [.obj "Li", .obj "Li"]) }, ?_, ?_, ?_⟩
  · simp [Object.make, namesArgs, normalizeOptional, normalizeMap, normalizeSequence, normalizeBySite, arrayCopy,
      normalizeOrder, checkedHash, normalizeRef, hu, o]
  · intro digest
    simp [Object.fromDict, Object.make, argsOf, Object.asDict, normalizeOptional, hm, normalizeBySite, arrayCopy,
      normalizeOrder, checkedHash, normalizeRef, unitText, hu, o, siteOrderHash, hd, hs]
  · intro imp
    exact ⟨rfl, rfl⟩

/-- Names given as a list, one of the mapped names being longer than all of them. -/
def cutModel : SiteEnergy Unit EReal where
  stateMapping := some [(0, .obj "Li"), (1, .obj "Vacancy")]
  initialOccupation := some (.text 2, [.obj "Li", .obj "Va"])
  makeRuntime := .ok ()

/-- C40 fails for an initial occupation of texts that are shorter than a mapped text: the model starts without
complaint, but the external occupation holds a cut text. -/
theorem C40_text_cut :
    arrayCopy (some (.list [.obj "Li", .obj "Va"])) = .ok cutModel.initialOccupation ∧
    ∃ (s : SiteEnergyState Unit) (e : Event) (ext : List ExtVal),
      cutModel.initializeState {} [0, 1] (some [e]) none = (.ok (), s) ∧
      s.external = some (.text 2, ext) ∧ SitesDistinct cutModel 2 ∧
      ∀ bg, ¬ Mirrors cutModel bg [0, 1] ext := by
  refine ⟨by decide, (cutModel.initializeState {} [0, 1] none none).2, plainEvent 0 1 [],
    [.obj "Li", .obj "Va"], rfl, rfl, ?_, ?_⟩
  · intro i j _ _ h
    simpa [extSite, cutModel] using h
  · intro bg hM
    obtain ⟨p, x, w, h1, h2, h3, h4⟩ := hM.active 1 1 rfl
    have hp : p = 1 := by
      have : ((1 : Nat) : Int) = (p : Int) := by simpa [extSite, cutModel] using h1
      omega
    subst hp
    have hx : x = .obj "Vacancy" := by
      have : extValue cutModel 1 1 = some (.obj "Vacancy") := rfl
      rw [this] at h2
      exact (Option.some.inj h2).symm
    subst hx
    simp at h3
    subst h3
    simp [SameValue, ExtVal.key] at h4

/-- The hypotheses of `C80_settings` and `C80_behaves_the_same` are met by a model with mappings by site, a
list of states and references. -/
example : ∃ o : Object Unit Unit Unit Unit, Object.make
    { computeRef := some " calc:delta ", siteMapping := some (.seq [3, 1])
      stateMappingBySite := some (.items [(.str "0", some (.seq [.int 5, .int 7])), (.int 1, none)])
      initialOccupation := some (.list [.int 1, .int 2, .int 3, .int 4]), units := " MeV" } = .ok o ∧
    o.computeRef = some "calc:delta" ∧ o.units = .meV ∧ o.order = none ∧ OccupationKept o := by
  refine ⟨_, rfl, by decide, rfl, rfl, C80_integers_kept [1, 2, 3, 4] (by simp) rfl⟩

end SiteEnergyFile
end KMC
