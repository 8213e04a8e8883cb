import Verif.Spec.SiteEnergyRead
import Verif.Props.SiteEnergyFileProps
/-
C80, continued: how the arguments and the dictionaries of a site-energy model are read.
-/
namespace KMC
namespace SiteEnergyFile
open Spec
variable {σ V Rt T : Type}

theorem itemsOf_holds {α : Type} {l : List (Key × α)} {acc d : List (Int × α)} (h : itemsOf l acc = .ok d)
    (k : Int) : dictGet d k = (entryOf (.items l) k).or (dictGet acc k) := by
  induction l generalizing acc with
  | nil => cases h; simp [entryOf]
  | cons p l ih =>
    obtain ⟨key, v⟩ := p
    simp only [itemsOf] at h
    cases hk : key.toInt with
    | error e => rw [hk] at h; cases h
    | ok n =>
      rw [hk] at h
      rw [ih h, dictGet_dictSet]
      by_cases hn : k = n
      · subst hn
        cases hl : (l.filter fun p => p.1.toInt == .ok k).getLast? with
        | none =>
          have h0 : (l.filter fun p => p.1.toInt == .ok k) = [] := by simpa using hl
          simp only [entryOf, List.filter_cons, hk, BEq.rfl, if_true, h0]
          simp
        | some q =>
          simp only [entryOf, List.filter_cons, hk, BEq.rfl, if_true, List.getLast?_cons, hl]
          simp
      · have hb : ((key.toInt : Py Int) == .ok k) = false := by
          rw [hk]
          simp only [beq_eq_false_iff_ne, ne_eq, Except.ok.injEq]
          exact fun h => hn h.symm
        simp only [entryOf, List.filter_cons, hb, if_neg hn]
        simp

theorem dictGet_zipIdx {α : Type} (l : List α) (i : Nat) (k : Int) :
    dictGet ((l.zipIdx i).map fun p => ((p.2 : Int), p.1)) k =
      if (i : Int) ≤ k then l[(k - i).toNat]? else none := by
  induction l generalizing i with
  | nil => simp [dictGet]
  | cons a l ih =>
    simp only [List.zipIdx_cons, List.map_cons, dictGet, ih]
    by_cases h : (i : Int) = k
    · subst h
      simp
    · rw [if_neg h]
      by_cases h1 : (i : Int) ≤ k
      · have h2 : ((i + 1 : Nat) : Int) ≤ k := by omega
        rw [if_pos h1, if_pos h2]
        have : (k - i).toNat = (k - (i + 1 : Nat)).toNat + 1 := by omega
        rw [this, List.getElem?_cons_succ]
      · have h2 : ¬ ((i + 1 : Nat) : Int) ≤ k := by omega
        rw [if_neg h1, if_neg h2]

theorem normalizeMap_holds {α : Type} {m : MapArg α} {d : List (Int × α)} (h : normalizeMap m = .ok d) :
    HoldsEntries d m := by
  intro k
  cases m with
  | items l =>
    rw [itemsOf_holds h k]
    simp [dictGet]
  | seq l =>
    cases h
    have := dictGet_zipIdx l 0 k
    simpa [normalizeSequence, entryOf] using this

theorem bySiteSeq_holds {l : List (Option (MapArg ExtVal))} {i : Nat} {ds : List (Int × List (Int × ExtVal))}
    (h : bySiteSeq i l = .ok ds) (k : Int) :
    (k < i → dictGet ds k = none) ∧ ∀ n : Nat, k = (i : Int) + n →
      match l[n]? with
      | some (some m) => ∃ d, dictGet ds k = some d ∧ normalizeMap m = .ok d
      | _ => dictGet ds k = none := by
  induction l generalizing i ds with
  | nil =>
    cases h
    exact ⟨fun _ => rfl, fun n _ => by simp [dictGet]⟩
  | cons a l ih =>
    cases a with
    | none =>
      obtain ⟨h1, h2⟩ := ih (i := i + 1) h
      refine ⟨fun hk => h1 (by omega), ?_⟩
      intro n hn
      cases n with
      | zero => simpa using h1 (by omega)
      | succ n =>
        have := h2 n (by push_cast at hn ⊢; omega)
        simpa using this
    | some m =>
      simp only [bySiteSeq] at h
      cases hm : normalizeMap m with
      | error e => rw [hm] at h; cases h
      | ok d =>
        rw [hm] at h
        simp only at h
        cases hr : bySiteSeq (i + 1) l with
        | error e => rw [hr] at h; cases h
        | ok rest =>
          rw [hr] at h
          cases h
          obtain ⟨h1, h2⟩ := ih hr
          refine ⟨fun hk => ?_, ?_⟩
          · simp only [dictGet]
            rw [if_neg (by omega)]
            exact h1 (by omega)
          · intro n hn
            cases n with
            | zero =>
              simp only [dictGet, List.getElem?_cons_zero]
              exact ⟨d, by rw [if_pos (by omega)], hm⟩
            | succ n =>
              have := h2 n (by push_cast at hn ⊢; omega)
              simp only [dictGet, List.getElem?_cons_succ]
              rw [if_neg (by omega)]
              exact this

theorem bySiteItems_holds {l : List (Key × Option (MapArg ExtVal))} {acc ds : List (Int × List (Int × ExtVal))}
    (h : bySiteItems l acc = .ok ds) (k : Int) :
    (∀ m, entryOf (.items l) k = some m → ∃ d, dictGet ds k = some d ∧ normalizeSub m = .ok d) ∧
    (entryOf (.items l) k = none → dictGet ds k = dictGet acc k) := by
  induction l generalizing acc with
  | nil => cases h; simp [entryOf]
  | cons p l ih =>
    obtain ⟨key, v⟩ := p
    simp only [bySiteItems] at h
    cases hk : key.toInt with
    | error e => rw [hk] at h; cases h
    | ok n =>
      rw [hk] at h
      simp only at h
      cases hs : normalizeSub v with
      | error e => rw [hs] at h; cases h
      | ok d =>
        rw [hs] at h
        obtain ⟨i1, i2⟩ := ih h
        by_cases hn : k = n
        · subst hn
          cases hl : (l.filter fun p => p.1.toInt == .ok k).getLast? with
          | none =>
            have h0 : (l.filter fun p => p.1.toInt == .ok k) = [] := by simpa using hl
            have e0 : entryOf (.items l) k = none := by simp [entryOf, h0]
            have e1 : entryOf (.items ((key, v) :: l)) k = some v := by
              simp only [entryOf, List.filter_cons, hk, BEq.rfl, if_true, h0]
              simp
            rw [e1, i2 e0]
            refine ⟨?_, by simp⟩
            rintro m ⟨⟩
            exact ⟨d, by simp, hs⟩
          | some q =>
            have e1 : entryOf (.items ((key, v) :: l)) k = entryOf (.items l) k := by
              simp only [entryOf, List.filter_cons, hk, BEq.rfl, if_true, List.getLast?_cons, hl]
              simp
            have e0 : entryOf (.items l) k = some q.2 := by simp [entryOf, hl]
            rw [e1]
            exact ⟨i1, by rw [e0]; simp⟩
        · have hb : ((key.toInt : Py Int) == .ok k) = false := by
            rw [hk]
            simp only [beq_eq_false_iff_ne, ne_eq, Except.ok.injEq]
            exact fun h => hn h.symm
          have e1 : entryOf (.items ((key, v) :: l)) k = entryOf (.items l) k := by
            simp only [entryOf, List.filter_cons, hb]
            simp
          rw [e1]
          refine ⟨i1, fun h0 => ?_⟩
          rw [i2 h0, dictGet_dictSet, if_neg hn]

/-- What a successful constructor call has read. -/
theorem make_ok {a : Args σ V Rt T} {o : Object σ V Rt T} (h : Object.make a = .ok o) :
    normalizeOptional a.siteMapping = .ok o.siteMapping ∧ normalizeOptional a.stateMapping = .ok o.stateMapping ∧
    normalizeBySite a.stateMappingBySite = .ok o.stateMappingBySite ∧
    arrayCopy a.initialOccupation = .ok o.initialOccupation ∧ normalizeOrder a.order = .ok o.order ∧
    checkedHash o.order (normalizeRef a.orderHash) = .ok o.orderHash ∧ EnergyUnit.parse a.units = .ok o.units ∧
    o.computeFn = a.computeFn ∧ o.applyFn = a.applyFn ∧ o.runtime = a.runtime ∧
    o.computeRef = normalizeRef a.computeRef ∧ o.applyRef = normalizeRef a.applyRef ∧
    o.runtimeRef = normalizeRef a.runtimeRef ∧ o.computeKwargs = a.computeKwargs.getD [] ∧
    o.applyKwargs = a.applyKwargs.getD [] ∧ o.runtimeKwargs = a.runtimeKwargs.getD [] ∧
    o.externalSize = a.externalSize ∧ o.fillValue = a.fillValue ∧ o.externalDtype = a.externalDtype := by
  simp only [Object.make] at h
  split at h
  · cases h
  split at h
  · cases h
  split at h
  · cases h
  split at h
  · cases h
  split at h
  · cases h
  split at h
  · cases h
  split at h
  · cases h
  rename_i sm hsm _ stm hstm _ bs hbs _ ini hini _ ord hord _ hash hhash _ u hu
  cases h
  exact ⟨hsm, hstm, hbs, hini, hord, hhash, hu, rfl, rfl, rfl, rfl, rfl, rfl, rfl, rfl, rfl, rfl, rfl, rfl⟩

theorem normalizeOptional_holds {α : Type} {m : Option (MapArg α)} {r : Option (List (Int × α))}
    (h : normalizeOptional m = .ok r) :
    (m = none → r = none) ∧ ∀ x, m = some x → ∃ d, r = some d ∧ HoldsEntries d x := by
  cases m with
  | none =>
    cases h
    refine ⟨fun _ => rfl, ?_⟩
    rintro x ⟨⟩
  | some m =>
    simp only [normalizeOptional] at h
    cases hm : normalizeMap m with
    | error e => rw [hm] at h; cases h
    | ok d =>
      rw [hm] at h
      cases h
      refine ⟨by rintro ⟨⟩, ?_⟩
      rintro x ⟨⟩
      exact ⟨d, rfl, normalizeMap_holds hm⟩

/-- C80.  The mappings mean what the user wrote, as a list or as a dictionary with numbers or their texts as
keys: the external site of every active site, the external value of every state, and for the sites with a mapping
of their own the external value of every state there. -/
theorem C80_mappings_read (a : Args σ V Rt T) (o : Object σ V Rt T) (h : Object.make a = .ok o) :
    (∀ m, a.siteMapping = some m → ∃ d, o.siteMapping = some d ∧ HoldsEntries d m) ∧
    (∀ m, a.stateMapping = some m → ∃ d, o.stateMapping = some d ∧ HoldsEntries d m) ∧
    (∀ m, a.stateMappingBySite = some m → ∃ ds, o.stateMappingBySite = some ds ∧ ∀ k,
      (∀ sub, entryOf m k = some (some sub) → ∃ d, dictGet ds k = some d ∧ HoldsEntries d sub) ∧
      (entryOf m k = none → dictGet ds k = none)) ∧
    (a.siteMapping = none → o.siteMapping = none) ∧ (a.stateMapping = none → o.stateMapping = none) ∧
    (a.stateMappingBySite = none → o.stateMappingBySite = none) := by
  obtain ⟨h1, h2, h3, -⟩ := make_ok h
  refine ⟨(normalizeOptional_holds h1).2, (normalizeOptional_holds h2).2, ?_, (normalizeOptional_holds h1).1,
    (normalizeOptional_holds h2).1, ?_⟩
  · intro m hm
    rw [hm] at h3
    cases m with
    | items l =>
      simp only [normalizeBySite] at h3
      cases hb : bySiteItems l [] with
      | error e => rw [hb] at h3; cases h3
      | ok ds =>
        rw [hb] at h3
        refine ⟨ds, (Except.ok.inj h3).symm, fun k => ?_⟩
        obtain ⟨i1, i2⟩ := bySiteItems_holds hb k
        refine ⟨fun sub hs => ?_, fun hn => by rw [i2 hn]; rfl⟩
        obtain ⟨d, j1, j2⟩ := i1 _ hs
        exact ⟨d, j1, normalizeMap_holds j2⟩
    | seq l =>
      simp only [normalizeBySite] at h3
      cases hb : bySiteSeq 0 l with
      | error e => rw [hb] at h3; cases h3
      | ok ds =>
        rw [hb] at h3
        refine ⟨ds, (Except.ok.inj h3).symm, fun k => ?_⟩
        obtain ⟨i1, i2⟩ := bySiteSeq_holds hb k
        by_cases hk : 0 ≤ k
        · have := i2 k.toNat (by omega)
          simp only [entryOf, if_pos hk]
          refine ⟨fun sub hs => ?_, fun hn => ?_⟩
          · rw [hs] at this
            obtain ⟨d, j1, j2⟩ := this
            exact ⟨d, j1, normalizeMap_holds j2⟩
          · rw [hn] at this
            exact this
        · simp only [entryOf, if_neg hk]
          exact ⟨by rintro sub ⟨⟩, fun _ => i1 (by omega)⟩
  · intro hn
    rw [hn] at h3
    exact (Except.ok.inj h3).symm

/-- C80.  The code disagrees with itself about a site whose mapping is `None`: in a list the site has the common
mapping, in a dictionary it has no value for any state. -/
theorem C80_null_mapping (l : List (Option (MapArg ExtVal))) (items : List (Key × Option (MapArg ExtVal)))
    (site : Nat) (a : Args σ V Rt T) (o : Object σ V Rt T) (h : Object.make a = .ok o) (imp : Importer V Rt T)
    (absent : Rt) :
    (a.stateMappingBySite = some (.seq l) → l[site]? = some none → ∀ m, a.stateMapping = some m →
      ∀ state, extValue (o.settings imp absent) site state = entryOf m state) ∧
    (a.stateMappingBySite = some (.items items) → entryOf (.items items) (site : Int) = some none →
      ∀ state, extValue (o.settings imp absent) site state = none) := by
  obtain ⟨-, h2, h3, -⟩ := make_ok h
  constructor
  · intro hb hs m hm state
    rw [hb] at h3
    simp only [normalizeBySite] at h3
    cases hr : bySiteSeq 0 l with
    | error e => rw [hr] at h3; cases h3
    | ok ds =>
      rw [hr] at h3
      have hds : o.stateMappingBySite = some ds := (Except.ok.inj h3).symm
      have := (bySiteSeq_holds hr (site : Int)).2 site (by simp)
      rw [hs] at this
      obtain ⟨d, hd, hold⟩ := (normalizeOptional_holds h2).2 m hm
      simp only [extValue, Object.settings, hds, Option.bind_some, this, hd]
      exact hold state
  · intro hb hs state
    rw [hb] at h3
    simp only [normalizeBySite] at h3
    cases hr : bySiteItems items [] with
    | error e => rw [hr] at h3; cases h3
    | ok ds =>
      rw [hr] at h3
      have hds : o.stateMappingBySite = some ds := (Except.ok.inj h3).symm
      obtain ⟨d, hd, hn⟩ := (bySiteItems_holds hr (site : Int)).1 none hs
      cases hn
      simp only [extValue, Object.settings, hds, Option.bind_some, hd]
      rfl

theorem normalizeRef_kept (r : Option String) : KeptReference r (normalizeRef r) := by
  intro s
  cases r with
  | none => simp [normalizeRef]
  | some g =>
    simp only [normalizeRef, Option.some.injEq, exists_eq_left']
    by_cases hg : pyStrip g = ""
    · rw [if_pos hg]
      constructor
      · intro h; cases h
      · rintro ⟨rfl, h⟩
        exact absurd hg h
    · rw [if_neg hg]
      constructor
      · intro h; cases h; exact ⟨rfl, hg⟩
      · rintro ⟨rfl, -⟩; rfl

/-- C80.  Functions are called with the arguments meant for them: what a reference stands for (blanks around it
are dropped) is given the keyword arguments of its own kind, and a function given directly goes before a
reference. -/
theorem C80_functions_called (a : Args σ V Rt T) (o : Object σ V Rt T) (h : Object.make a = .ok o)
    (imp : Importer V Rt T) (absent : Rt) :
    KeptReference a.computeRef o.computeRef ∧ KeptReference a.applyRef o.applyRef ∧
    KeptReference a.runtimeRef o.runtimeRef ∧
    (∀ f, a.computeFn = some f → (o.settings imp absent).computeFn = some (f (a.computeKwargs.getD []))) ∧
    (∀ f, a.applyFn = some f → (o.settings imp absent).applyFn = some (f (a.applyKwargs.getD []))) ∧
    (∀ r, a.runtime = some r → (o.settings imp absent).makeRuntime = .ok r) ∧
    (∀ ref f, a.computeFn = none → o.computeRef = some ref → imp.compute ref = .ok f →
      (o.settings imp absent).computeFn = some (f (a.computeKwargs.getD []))) ∧
    (∀ ref f, a.applyFn = none → o.applyRef = some ref → imp.apply ref = .ok f →
      (o.settings imp absent).applyFn = some (f (a.applyKwargs.getD []))) ∧
    (∀ ref f, a.runtime = none → o.runtimeRef = some ref → imp.runtime ref = .ok f →
      (o.settings imp absent).makeRuntime = f (a.runtimeKwargs.getD [])) ∧
    (a.computeFn = none → o.computeRef = none → (o.settings imp absent).computeFn = none) ∧
    (a.applyFn = none → o.applyRef = none → (o.settings imp absent).applyFn = none) ∧
    (a.runtime = none → o.runtimeRef = none → (o.settings imp absent).makeRuntime = .ok absent) := by
  obtain ⟨-, -, -, -, -, -, -, h1, h2, h3, h4, h5, h6, h7, h8, h9, -⟩ := make_ok h
  refine ⟨h4 ▸ normalizeRef_kept _, h5 ▸ normalizeRef_kept _, h6 ▸ normalizeRef_kept _, ?_, ?_, ?_, ?_, ?_, ?_, ?_,
    ?_, ?_⟩
  · intro f hf
    simp only [Object.settings, Object.computeCallable, h1, hf, h7]
  · intro f hf
    simp only [Object.settings, Object.applyCallable, h2, hf, h8]
  · intro r hr
    simp only [Object.settings, Object.newRuntime, h3, hr]
  · intro ref f h0 hr hf
    simp only [Object.settings, Object.computeCallable, h1, h0, hr, hf, h7]
  · intro ref f h0 hr hf
    simp only [Object.settings, Object.applyCallable, h2, h0, hr, hf, h8]
  · intro ref f h0 hr hf
    simp only [Object.settings, Object.newRuntime, h3, h0, hr, hf, h9]
  · intro h0 hr
    simp only [Object.settings, Object.computeCallable, h1, h0, hr]
  · intro h0 hr
    simp only [Object.settings, Object.applyCallable, h2, h0, hr]
  · intro h0 hr
    simp only [Object.settings, Object.newRuntime, h3, h0, hr]

/-- C80.  A dictionary whose site mapping, size or length of the initial occupation does not belong to the stored
digest is refused, and so is one whose active-site order does not have the stored fingerprint. -/
theorem C80_altered_file_refused (digest : Option (List (Int × Int)) → Option Int → Option Nat → String)
    (d : Payload σ V) (o : Object σ V Rt T) (h : Object.fromDict digest d = .ok o) :
    (∀ s, d.siteOrderHash = some s →
      s = digest o.siteMapping o.externalSize (o.initialOccupation.map fun x => x.2.length)) ∧
    (∀ s ord, d.orderHash = some s → o.order = some ord → pyStrip s = "" ∨ pyStrip s = ord.fingerprint) ∧
    (∀ m, d.siteMapping = some m → ∃ x, o.siteMapping = some x ∧ HoldsEntries x m) ∧
    o.externalSize = d.externalSize := by
  simp only [Object.fromDict] at h
  cases hm : Object.make (argsOf (Rt := Rt) (T := T) d) with
  | error e => rw [hm] at h; cases h
  | ok o' =>
    rw [hm] at h
    simp only at h
    have ho : o' = o ∧ ∀ s, d.siteOrderHash = some s → s = siteOrderHash digest o' := by
      cases hs : d.siteOrderHash with
      | none => rw [hs] at h; cases h; exact ⟨rfl, by rintro s ⟨⟩⟩
      | some s =>
        rw [hs] at h
        simp only at h
        split at h
        · cases h
        · rename_i hne
          cases h
          refine ⟨rfl, ?_⟩
          rintro s' ⟨⟩
          exact not_not.1 hne
    obtain ⟨rfl, hsite⟩ := ho
    obtain ⟨h1, -, -, -, -, h6, -, -, -, -, -, -, -, -, -, -, h17, -⟩ := make_ok hm
    refine ⟨hsite, ?_, (normalizeOptional_holds h1).2, h17⟩
    intro s ord hs hord
    rw [hord] at h6
    have ha : (argsOf (Rt := Rt) (T := T) d).orderHash = some s := hs
    rw [ha] at h6
    by_cases hb : pyStrip s = ""
    · exact .inl hb
    · right
      simp only [normalizeRef, if_neg hb, checkedHash] at h6
      split at h6
      · cases h6
      · rename_i hne
        exact not_not.1 hne

/-- C80.  A model constructed with an order of the active sites, given as an object or as its dictionary, is bound
to it: a configuration with another number of sites is refused also when the simulation gives no order of its own,
and an order with another fingerprint is refused.  With only a hash the fingerprint is compared. -/
theorem C80_bound_to_order (a : Args σ V Rt T) (o : Object σ V Rt T) (h : Object.make a = .ok o)
    (m : SiteEnergy Rt T) (occ : List Int) (events : Option (List Event)) :
    (∀ ord, (a.order = some (.order ord) ∨ ∃ d, a.order = some (.dict d) ∧ ActiveSiteOrder.fromDict d = .ok ord) →
      (ord.activeSiteCount ≠ occ.length → (m.initializeState o.start occ events none).1 = .error .valueError) ∧
      (∀ r : OrderRef, r.fingerprint ≠ ord.fingerprint →
        (m.initializeState o.start occ events (some r)).1 = .error .valueError)) ∧
    (∀ s, a.order = none → a.orderHash = some s → pyStrip s ≠ "" →
      ∀ r : OrderRef, r.fingerprint ≠ pyStrip s →
        (m.initializeState o.start occ events (some r)).1 = .error .valueError) := by
  obtain ⟨-, -, -, -, h5, h6, -⟩ := make_ok h
  constructor
  · intro ord hord
    have ho : o.order = some ord := by
      rcases hord with ha | ⟨d, ha, hd⟩
      · rw [ha] at h5; exact (Except.ok.inj h5).symm
      · rw [ha] at h5
        simp only [normalizeOrder, hd] at h5
        exact (Except.ok.inj h5).symm
    have hh : o.orderHash = some ord.fingerprint := by
      rw [ho] at h6
      unfold checkedHash at h6
      split at h6
      · rename_i o' h' e1 e2
        cases e1
        split at h6
        · cases h6
        · exact (Except.ok.inj h6).symm
      · rename_i o' e1 e2
        cases e1
        exact (Except.ok.inj h6).symm
      · rename_i e1
        cases e1
    constructor
    · intro hc
      simp only [SiteEnergy.initializeState, SiteEnergy.setOrder, SiteEnergy.validateOrder, Object.start, ho,
        Option.map_some, if_pos hc]
    · intro r hr
      rw [(C40_foreign_order_refused m o.start occ events r).1 ord.fingerprint hh hr]
  · intro s ha hs hne r hr
    have ho : o.order = none := by
      rw [ha] at h5; exact (Except.ok.inj h5).symm
    have hh : o.orderHash = some (pyStrip s) := by
      rw [ho, hs] at h6
      simp only [normalizeRef, if_neg hne, checkedHash] at h6
      exact (Except.ok.inj h6).symm
    rw [(C40_foreign_order_refused m o.start occ events r).1 (pyStrip s) hh hr]

/-- The hypotheses are met: a list with a gap and the same as a dictionary. -/
example : ∃ o o' : Object Unit Unit Unit Unit,
    Object.make { computeRef := some " calc:delta ", siteMapping := some (.items [(.str "1", 4), (.int 0, 7)])
                  stateMapping := some (.seq [.int 5, .int 6])
                  stateMappingBySite := some (.seq [none, some (.seq [.int 9])]) } = .ok o ∧
    Object.make { stateMapping := some (.seq [.int 5, .int 6])
                  stateMappingBySite := some (.items [(.str "0", none), (.int 1, some (.seq [.int 9]))]) } = .ok o' ∧
    o.siteMapping = some [(1, 4), (0, 7)] ∧ o.stateMappingBySite = some [(1, [(0, .int 9)])] ∧
    o'.stateMappingBySite = some [(0, []), (1, [(0, .int 9)])] ∧
    entryOf (.items [(.str "1", (4 : Int)), (.int 0, 7)]) 1 = some 4 ∧
    o.computeRef = some "calc:delta" := by
  refine ⟨_, _, rfl, rfl, by decide, by decide, by decide, by decide, by decide⟩

end SiteEnergyFile
end KMC
