import Verif.Spec.SiteEnergy
import Verif.Lemmas.State
import Verif.Lemmas.LCE
/-
Facts about the site-energy model: look-up tables, arrays, changes.
-/
namespace KMC
open Spec
namespace SiteEnergy
variable {Rt T : Type}

/-! ### Look-up tables -/

theorem le_maxInt {l : List Int} {a : Int} (h : a ∈ l) : a ≤ maxInt l := by
  induction l with
  | nil => cases h
  | cons b l ih =>
    cases l with
    | nil => simp at h; simp [maxInt, h]
    | cons c l =>
      simp only [maxInt]
      rcases List.mem_cons.1 h with rfl | h
      · exact le_max_left _ _
      · exact (ih h).trans (le_max_right _ _)

theorem minInt_le {l : List Int} {a : Int} (h : a ∈ l) : minInt l ≤ a := by
  induction l with
  | nil => cases h
  | cons b l ih =>
    cases l with
    | nil => simp at h; simp [minInt, h]
    | cons c l =>
      simp only [minInt]
      rcases List.mem_cons.1 h with rfl | h
      · exact min_le_left _ _
      · exact (min_le_right _ _).trans (ih h)

theorem fillTable_length (o : Int) (d : List (Int × ExtVal)) (t : List (Option ExtVal)) :
    (fillTable o d t).length = t.length := by
  induction d generalizing t with
  | nil => rfl
  | cons kv d ih => obtain ⟨k, v⟩ := kv; simp [fillTable, ih]

/-- Reading the filled table: the dictionary entry if there is one, else what was there. -/
theorem fillTable_get (o : Int) (d : List (Int × ExtVal)) (t : List (Option ExtVal))
    (hn : (dictKeys d).Nodup) (hlo : ∀ k ∈ dictKeys d, o ≤ k ∧ k - o < t.length) (k : Nat)
    (hk : k < t.length) :
    (fillTable o d t)[k]? = match dictGet d (o + k) with
      | some v => some (some v)
      | none => t[k]? := by
  induction d generalizing t with
  | nil => simp [fillTable, dictGet]
  | cons kv d ih =>
    obtain ⟨a, v⟩ := kv
    simp only [dictKeys, List.map_cons, List.nodup_cons] at hn
    have hlo' : ∀ k ∈ dictKeys d, o ≤ k ∧ k - o < (t.set (a - o).toNat (some v)).length := by
      intro k hk
      have := hlo k (by simp only [dictKeys, List.map_cons, List.mem_cons]; exact .inr hk)
      simpa using this
    have ha := hlo a (by simp [dictKeys])
    rw [fillTable, ih _ hn.2 hlo' (by simpa using hk)]
    simp only [dictGet]
    by_cases hak : a = o + k
    · have : dictGet d (o + k) = none := by
        rw [dictGet_eq_none_iff, ← hak]; exact hn.1
      rw [this, if_pos hak]
      have : (a - o).toNat = k := by omega
      rw [this]
      simp [hk]
    · rw [if_neg hak]
      have hne : (a - o).toNat ≠ k := by omega
      cases dictGet d (o + k) with
      | some w => rfl
      | none => simp only; rw [List.getElem?_set_ne hne]

/-- The dense table gives exactly the entries of the mapping. -/
theorem stateLookupValue_iff (d : List (Int × ExtVal)) (hn : (dictKeys d).Nodup) (state : Int)
    (x : ExtVal) : stateLookupValue (buildStateLookup d) state = .ok x ↔ dictGet d state = some x := by
  unfold buildStateLookup
  by_cases hd : d = []
  · subst hd
    simp [stateLookupValue, dictGet]
  · rw [if_neg hd]
    have hkeys : ∀ k ∈ dictKeys d, minInt (dictKeys d) ≤ k ∧ k - minInt (dictKeys d) <
        (List.replicate (maxInt (dictKeys d) - minInt (dictKeys d) + 1).toNat
          (none : Option ExtVal)).length := by
      intro k hk
      have h1 := minInt_le hk
      have h2 := le_maxInt hk
      refine ⟨h1, ?_⟩
      simp only [List.length_replicate]
      omega
    have hget := fun k hk => fillTable_get (minInt (dictKeys d)) d
      (List.replicate (maxInt (dictKeys d) - minInt (dictKeys d) + 1).toNat none) hn hkeys k hk
    simp only [stateLookupValue, fillTable_length]
    constructor
    · intro h
      split at h
      · cases h
      · rename_i hr
        push Not at hr
        have := hget (state - minInt (dictKeys d)).toNat (by omega)
        rw [show minInt (dictKeys d) + ((state - minInt (dictKeys d)).toNat : Int) = state by omega] at this
        rw [this] at h
        cases hg : dictGet d state with
        | some w => rw [hg] at h; simp only at h; exact congrArg some (Except.ok.inj h)
        | none =>
          rw [hg] at h
          simp only at h
          rw [List.getElem?_replicate] at h
          split at h
          · rename_i heq; split at heq <;> simp at heq
          · cases h
    · intro h
      have hmem : state ∈ dictKeys d := by
        rw [← dictGet_isSome_iff, h]; exact ⟨x, rfl⟩
      obtain ⟨h1, h2⟩ := hkeys state hmem
      rw [if_neg (by omega)]
      have := hget (state - minInt (dictKeys d)).toNat (by omega)
      rw [show minInt (dictKeys d) + ((state - minInt (dictKeys d)).toNat : Int) = state by omega,
        h] at this
      simp only [this]

/-- The look-up tables of an initialised model, for `n` active sites. -/
structure Ready (m : SiteEnergy Rt T) (n : Nat) (s : SiteEnergyState Rt) : Prop where
  site : ∃ l, s.siteLookup = some l ∧ m.buildSiteLookup n = .ok l
  state : s.stateLookup = m.stateMapping.map buildStateLookup
  bySite : s.stateLookupBySite = m.buildStateLookupBySite n

/-- The site look-up lists the mapped sites, all non-negative. -/
theorem buildSiteLookup_ok {m : SiteEnergy Rt T} {n : Nat} {l : List Int}
    (h : m.buildSiteLookup n = .ok l) :
    l.length = n ∧ (∀ i : Nat, i < n → ∃ p : Nat, l[i]? = some (p : Int) ∧
      extSite m i = some (p : Int)) ∧
    (∀ a, m.initialOccupation = some a → ∀ p ∈ l, p < (a.2.length : Int)) ∧
    (m.initialOccupation = none → ∀ u, m.externalSize = some u → ∀ p ∈ l, p < u) := by
  unfold buildSiteLookup at h
  have base : ∀ l0 : List Int, (match m.siteMapping with
      | none => (.ok ((List.range n).map fun i : Nat => (i : Int)) : Py (List Int))
      | some d => mapSites d n) = .ok l0 → l0.length = n ∧ ∀ i : Nat, i < n → l0[i]? = extSite m i := by
    intro l0 h0
    unfold extSite
    split at h0
    · rename_i hm
      cases h0
      refine ⟨by simp, fun i hi => ?_⟩
      simp [hm, hi]
    · rename_i d hm
      unfold mapSites at h0
      split at h0
      · rename_i hall
        cases h0
        refine ⟨by simp, fun i hi => ?_⟩
        have := List.all_eq_true.1 hall i (by simpa using hi)
        simp only [hm, List.getElem?_map, List.getElem?_range hi, Option.map_some]
        cases hg : dictGet d (i : Int) with
        | none => rw [hg] at this; cases this
        | some v => rfl
      · cases h0
  simp only at h
  split at h
  · cases h
  · rename_i l0 hl0
    obtain ⟨hlen, hget⟩ := base l0 hl0
    split at h
    · cases h
    · rename_i hneg
      have hl : l = l0 := by
        split at h
        · exact (Except.ok.inj h).symm
        · split at h
          · cases h
          · exact (Except.ok.inj h).symm
      subst hl
      have hnn : ∀ p ∈ l, 0 ≤ p := by
        intro p hp
        by_contra hc
        exact hneg (List.any_eq_true.2 ⟨p, hp, by simpa using hc⟩)
      refine ⟨hlen, ?_, ?_, ?_⟩
      · intro i hi
        have hi' : i < l.length := by omega
        have h1 : l[i]? = some l[i] := by simp [hi']
        have h2 := hnn l[i] (List.getElem_mem hi')
        refine ⟨l[i].toNat, ?_, ?_⟩
        · rw [h1]; congr 1; omega
        · rw [← hget i hi, h1]; congr 1; omega
      · intro a ha p hp
        rw [ha] at h
        simp only at h
        split at h
        · cases h
        · rename_i hc
          push Not at hc
          have := hc (List.ne_nil_of_mem hp)
          have := le_maxInt hp
          omega
      · intro hi u hu p hp
        rw [hi, hu] at h
        simp only at h
        split at h
        · cases h
        · rename_i hc
          push Not at hc
          have := hc (List.ne_nil_of_mem hp)
          have := le_maxInt hp
          omega

theorem externalSite_of {m : SiteEnergy Rt T} {n : Nat} {s : SiteEnergyState Rt} (hr : Ready m n s)
    {f : Int} {i : Nat} (hi : pyIdx n f = some i) :
    ∃ p : Nat, externalSite s f = .ok (p : Int) ∧ extSite m i = some (p : Int) := by
  obtain ⟨l, h1, h2⟩ := hr.site
  obtain ⟨hlen, hget, -, -⟩ := buildSiteLookup_ok h2
  obtain ⟨p, hp1, hp2⟩ := hget i (pyIdx_lt hi)
  refine ⟨p, ?_, hp2⟩
  simp only [externalSite, h1]
  exact pyGet_ok_iff.2 ⟨i, by rw [hlen]; exact hi, hp1⟩

theorem externalValue_iff {m : SiteEnergy Rt T} {n : Nat} {s : SiteEnergyState Rt}
    (hd : MappingsAreDicts m) (hr : Ready m n s) {f : Int} {i : Nat} (hi : pyIdx n f = some i)
    (state : Int) (x : ExtVal) :
    externalValue s f state = .ok x ↔ extValue m i state = some x := by
  unfold externalValue extValue
  rw [hr.bySite, hr.state]
  unfold buildStateLookupBySite
  cases hb : m.stateMappingBySite with
  | none =>
    cases hm : m.stateMapping with
    | none => simp
    | some d => simp only [Option.map_some]; exact stateLookupValue_iff d (hd.common d hm) state x
  | some ds =>
    simp only [Option.bind_some]
    have hin := pyIdx_lt hi
    have : pyGet ((List.range n).map (m.lookupForSite ds)) f = .ok (m.lookupForSite ds i) := by
      refine pyGet_ok_iff.2 ⟨i, by simpa using hi, ?_⟩
      simp [hin]
    rw [this]
    unfold lookupForSite
    cases hg : dictGet ds (i : Int) with
    | some sub =>
      simp only
      exact stateLookupValue_iff sub (hd.bySite ds hb _ (mem_of_dictGet hg)) state x
    | none =>
      cases hm : m.stateMapping with
      | none => simp
      | some d => simp only [Option.map_some]; exact stateLookupValue_iff d (hd.common d hm) state x

/-! ### Changes -/

theorem mappedChanges_cons {s : SiteEnergyState Rt} {site old new : Int}
    {cs : List (Int × Int × Int)} {r : List OccupationChange}
    (h : mappedChanges s ((site, old, new) :: cs) = .ok r) :
    ∃ p a b rest, externalSite s site = .ok p ∧ externalValue s site old = .ok a ∧
      externalValue s site new = .ok b ∧ mappedChanges s cs = .ok rest ∧
      r = (if a.key = b.key then [] else [⟨site, p, old, new, a, b⟩]) ++ rest := by
  unfold mappedChanges at h
  split at h
  · cases h
  · rename_i p hp
    split at h
    · cases h
    · rename_i a ha
      split at h
      · cases h
      · rename_i b hb
        split at h
        · cases h
        · rename_i rest hrest
          refine ⟨p, a, b, rest, hp, ha, hb, hrest, ?_⟩
          by_cases hk : a.key = b.key
          · simp [ExtVal.pyEq, hk] at h; simp [hk, h]
          · simp [ExtVal.pyEq, hk] at h; simp [hk, h]

theorem changesPre_ok {s : SiteEnergyState Rt} {e : Event} {occ : List Int}
    {cs : List OccupationChange} (h : changesPre s e occ = .ok cs) :
    ∃ f t i j vf vt, e.mobile = [f, t] ∧ pyIdx occ.length f = some i ∧
      pyIdx occ.length t = some j ∧ occ[i]? = some vf ∧ occ[j]? = some vt ∧
      mappedChanges s [(f, vf, vt), (t, vt, vf)] = .ok cs := by
  unfold changesPre at h
  split at h
  · cases h
  · rename_i f t hu
    rw [unpack2_ok_iff] at hu
    split at h
    · cases h
    · rename_i vf hvf
      split at h
      · cases h
      · rename_i vt hvt
        obtain ⟨i, hi, hi'⟩ := pyGet_ok_iff.1 hvf
        obtain ⟨j, hj, hj'⟩ := pyGet_ok_iff.1 hvt
        exact ⟨f, t, i, j, vf, vt, hu, hi, hj, hi', hj', h⟩

/-- The change list handed out describes the hop. -/
theorem changesPre_describes {m : SiteEnergy Rt T} (hd : MappingsAreDicts m)
    {s : SiteEnergyState Rt} {e : Event} {occ : List Int} (hr : Ready m occ.length s)
    {cs : List OccupationChange} (h : changesPre s e occ = .ok cs) : DescribesHop m e occ cs := by
  obtain ⟨f, t, i, j, vf, vt, hm, hi, hj, hvf, hvt, hc⟩ := changesPre_ok h
  obtain ⟨pf, xf, yf, r1, h1, h2, h3, h4, rfl⟩ := mappedChanges_cons hc
  obtain ⟨pt, xt, yt, r2, k1, k2, k3, k4, rfl⟩ := mappedChanges_cons h4
  simp only [mappedChanges, Except.ok.injEq] at k4
  subst k4
  obtain ⟨qf, a1, a2⟩ := externalSite_of hr hi
  obtain ⟨qt, b1, b2⟩ := externalSite_of hr hj
  rw [h1] at a1; cases a1
  rw [k1] at b1; cases b1
  rw [externalValue_iff hd hr hi] at h2 h3
  rw [externalValue_iff hd hr hj] at k2 k3
  exact ⟨f, t, i, j, vf, vt, _, _, xf, yf, xt, yt, hm, hi, hj, hvf, hvt, a2, b2, h2, h3, k2, k3,
    by simp⟩

/-- After the hop has been executed the model finds the same changes as before it. -/
theorem changesPost_eq {T' : Type} [Add T'] {s : SiteEnergyState Rt} {e : Event} {st st' : State T'} {dt : T'}
    (ha : st.applyEvent e dt = (.ok (), st')) :
    changesPost s e st'.occ = changesPre s e st.occ := by
  obtain ⟨f, t, i, j, hi, hj, hm, h1, h2, rfl⟩ := applyEvent_ok ha
  have hex := set_set_exchanged hi hj
  have hlen : ((st.occ.set i st.occ[j]).set j st.occ[i]).length = st.occ.length := by simp
  unfold changesPost changesPre
  rw [hm]
  simp only [unpack2]
  have e1 : pyGet ((st.occ.set i st.occ[j]).set j st.occ[i]) f = .ok st.occ[j] :=
    pyGet_ok_iff.2 ⟨i, by rw [hlen]; exact h1, by rw [hex.2.1]; simp [hj]⟩
  have e2 : pyGet ((st.occ.set i st.occ[j]).set j st.occ[i]) t = .ok st.occ[i] :=
    pyGet_ok_iff.2 ⟨j, by rw [hlen]; exact h2, by rw [hex.2.2.1]; simp [hi]⟩
  have e3 : pyGet st.occ f = .ok st.occ[i] := pyGet_ok_iff.2 ⟨i, h1, by simp [hi]⟩
  have e4 : pyGet st.occ t = .ok st.occ[j] := pyGet_ok_iff.2 ⟨j, h2, by simp [hj]⟩
  rw [e1, e2, e3, e4]

/-! ### Arrays -/

theorem storeAll_ok {d : DType} {l r : List ExtVal} (h : storeAll d l = .ok r) :
    r.length = l.length := by
  induction l generalizing r with
  | nil => cases h; rfl
  | cons v l ih =>
    unfold storeAll at h
    split at h
    · cases h
    · split at h
      · cases h
      · rename_i ws hws
        cases h
        simp [ih hws]

theorem storeAt_nat {d : DType} {ext ext' : List ExtVal} {p : Nat} {v : ExtVal}
    (h : storeAt d ext (p : Int) v = .ok ext') :
    ∃ w, d.store v = .ok w ∧ p < ext.length ∧ ext' = ext.set p w := by
  unfold storeAt at h
  split at h
  · cases h
  · rename_i w hw
    obtain ⟨k, hk, rfl⟩ := pySet_ok_iff.1 h
    have := pyIdx_some_nonneg hk (by omega)
    have hkp : k = p := by omega
    subst hkp
    exact ⟨w, hw, pyIdx_lt hk, rfl⟩

/-- Committing the changes of one endpoint: its external site gets the new value, nothing else
changes. -/
theorem commit_entry {d : DType} {f : Int} {p : Nat} {old new : Int} {x y : ExtVal}
    {cs : List OccupationChange} {ext ext' : List ExtVal}
    (hfit : ∃ w, d.store y = .ok w ∧ SameValue w y)
    (hold : ∃ w, ext[p]? = some w ∧ SameValue w x)
    (h : commitChanges d ((if x.key = y.key then [] else [⟨f, (p : Int), old, new, x, y⟩]) ++ cs) ext =
      (.ok (), ext')) :
    ∃ ext1 : List ExtVal, ext1.length = ext.length ∧
      (∃ w, ext1[p]? = some w ∧ SameValue w y) ∧
      (∀ q, q ≠ p → ext1[q]? = ext[q]?) ∧ commitChanges d cs ext1 = (.ok (), ext') := by
  by_cases hk : x.key = y.key
  · rw [if_pos hk] at h
    obtain ⟨w, hw, hs⟩ := hold
    exact ⟨ext, rfl, ⟨w, hw, hs.trans hk⟩, fun _ _ => rfl, h⟩
  · rw [if_neg hk] at h
    simp only [List.cons_append, List.nil_append, commitChanges] at h
    split at h
    · cases h
    · rename_i ext1 h1
      obtain ⟨w, hw, hp, rfl⟩ := storeAt_nat h1
      obtain ⟨w', hw', hs⟩ := hfit
      rw [hw] at hw'
      cases hw'
      exact ⟨_, by simp, ⟨w, by simp [hp], hs⟩, fun q hq => List.getElem?_set_ne (Ne.symm hq), h⟩

/-- Committing the changes of a hop keeps the picture faithful. -/
theorem commit_mirrors {T' : Type} [Add T'] {m : SiteEnergy Rt T} {bg : List ExtVal} {d : DType}
    {st st' : State T'} {e : Event} {dt : T'}
    (hs : SitesDistinct m st.occ.length) (hf : ValuesFit m d st.occ)
    {ext ext' : List ExtVal} {cs : List OccupationChange}
    (hM : Mirrors m bg st.occ ext) (ha : st.applyEvent e dt = (.ok (), st'))
    (hc : DescribesHop m e st.occ cs) (h : commitChanges d cs ext = (.ok (), ext')) :
    Mirrors m bg st'.occ ext' := by
  obtain ⟨f, t, i, j, vf, vt, pf, pt, xf, yf, xt, yt, hm, hi, hj, hvf, hvt, s1, s2, v1, v2, v3, v4,
    rfl⟩ := hc
  obtain ⟨f', t', i', j', hi', hj', hm', h1, h2, rfl⟩ := applyEvent_ok ha
  rw [hm] at hm'
  simp only [List.cons.injEq, and_true] at hm'
  obtain ⟨rfl, rfl⟩ := hm'
  rw [hi] at h1; rw [hj] at h2; cases h1; cases h2
  have ei : st.occ[i] = vf := by simpa [hi'] using hvf
  have ej : st.occ[j] = vt := by simpa [hj'] using hvt
  rw [ei, ej]
  -- old entries
  obtain ⟨qf, a, wf, o1, o2, o3, o4⟩ := hM.active i vf hvf
  rw [s1] at o1; cases o1
  rw [v1] at o2; cases o2
  obtain ⟨qt, b, wt, r1, r2, r3, r4⟩ := hM.active j vt hvt
  rw [s2] at r1; cases r1
  rw [v3] at r2; cases r2
  obtain ⟨ext1, l1, n1, u1, h'⟩ := commit_entry (hf i vt yf hi' (List.mem_of_getElem? hvt) v2) ⟨wf, o3, o4⟩ h
  have hold2 : ∃ w, ext1[qt]? = some w ∧ SameValue w xt := by
    by_cases hpq : qt = qf
    · have : i = j := hs i j hi' hj' (by rw [s1, s2, hpq])
      subst this
      rw [hvf] at hvt; cases hvt
      rw [v2] at v3; cases v3
      rw [hpq]; exact n1
    · rw [u1 qt hpq]; exact ⟨wt, r3, r4⟩
  rw [← List.append_nil (if xt.key = yt.key then [] else _)] at h'
  obtain ⟨ext2, l2, n2, u2, h''⟩ := commit_entry (hf j vf yt hj' (List.mem_of_getElem? hvf) v4) hold2 h'
  simp only [commitChanges, Prod.mk.injEq, true_and] at h''
  subst h''
  have hlen : ((st.occ.set i vt).set j vf).length = st.occ.length := by simp
  refine ⟨by rw [l2, l1, hM.length], ?_, ?_⟩
  · intro k v hk
    by_cases hkj : k = j
    · subst hkj
      have : v = vf := by rw [List.getElem?_set_self (by simpa using hj')] at hk; exact (Option.some.inj hk).symm
      subst this
      obtain ⟨w, hw, hsv⟩ := n2
      exact ⟨qt, yt, w, s2, v4, hw, hsv⟩
    · rw [List.getElem?_set_ne (Ne.symm hkj)] at hk
      have hklt : k < st.occ.length := by
        by_contra hc
        rw [List.getElem?_eq_none (by simp; omega)] at hk; cases hk
      by_cases hki : k = i
      · subst hki
        have : v = vt := by rw [List.getElem?_set_self hi'] at hk; exact (Option.some.inj hk).symm
        subst this
        obtain ⟨w, hw, hsv⟩ := n1
        have hne : qf ≠ qt := fun heq => hkj (hs k j hi' hj' (by rw [s1, s2, heq]))
        exact ⟨qf, yf, w, s1, v2, by rw [u2 qf hne]; exact hw, hsv⟩
      · rw [List.getElem?_set_ne (Ne.symm hki)] at hk
        obtain ⟨p, x, w, e1, e2, e3, e4⟩ := hM.active k v hk
        have hne1 : p ≠ qf := fun heq => hki (hs k i hklt hi' (by rw [e1, s1, heq]))
        have hne2 : p ≠ qt := fun heq => hkj (hs k j hklt hj' (by rw [e1, s2, heq]))
        exact ⟨p, x, w, e1, e2, by rw [u2 p hne2, u1 p hne1]; exact e3, e4⟩
  · intro p hp
    rw [hlen] at hp
    have hne1 : p ≠ qf := fun heq => hp i hi' (by rw [s1, heq])
    have hne2 : p ≠ qt := fun heq => hp j hj' (by rw [s2, heq])
    rw [u2 p hne2, u1 p hne1]
    exact hM.rest p hp

theorem mappedValues_ok {s : SiteEnergyState Rt} {occ : List Int} {c : Nat} {vs : List ExtVal}
    (h : mappedValues s c occ = .ok vs) :
    vs.length = occ.length ∧ ∀ (i : Nat) v, occ[i]? = some v →
      ∃ x, vs[i]? = some x ∧ externalValue s ((c + i : Nat) : Int) v = .ok x := by
  induction occ generalizing c vs with
  | nil => cases h; simp
  | cons a occ ih =>
    unfold mappedValues at h
    split at h
    · cases h
    · rename_i w hw
      split at h
      · cases h
      · rename_i ws hws
        cases h
        obtain ⟨h1, h2⟩ := ih hws
        refine ⟨by simp [h1], ?_⟩
        intro i v hv
        cases i with
        | zero => simp at hv; subst hv; exact ⟨w, by simp, by simpa using hw⟩
        | succ i =>
          obtain ⟨x, hx1, hx2⟩ := h2 i v (by simpa using hv)
          exact ⟨x, by simpa using hx1, by rw [show c + (i + 1) = c + 1 + i by omega]; exact hx2⟩

/-- Writing the mapped values one after the other. -/
theorem writeValues_ok {d : DType} {lookup : List Int} {vs ext ext' : List ExtVal} {c : Nat}
    (hnn : ∀ p ∈ lookup, 0 ≤ p)
    (hinj : ∀ (i j : Nat) (p : Int), lookup[i]? = some p → lookup[j]? = some p → i = j)
    (hfit : ∀ v ∈ vs, ∃ w, d.store v = .ok w ∧ SameValue w v)
    (h : writeValues d lookup c vs ext = .ok ext') :
    ext'.length = ext.length ∧
    (∀ (i : Nat) v, vs[i]? = some v → ∃ (p : Nat) (w : ExtVal), lookup[c + i]? = some (p : Int) ∧
      ext'[p]? = some w ∧ SameValue w v) ∧
    (∀ p : Nat, (∀ i < vs.length, lookup[c + i]? ≠ some (p : Int)) → ext'[p]? = ext[p]?) := by
  induction vs generalizing c ext with
  | nil => cases h; simp
  | cons a vs ih =>
    unfold writeValues at h
    split at h
    · cases h
    · rename_i p hp
      split at h
      · cases h
      · rename_i ext1 h1
        obtain ⟨k, hk, hkp⟩ := pyGet_ok_iff.1 hp
        have hkc : k = c := by
          have := pyIdx_some_nonneg hk (by omega)
          omega
        subst hkc
        have hp0 := hnn p (List.mem_of_getElem? hkp)
        obtain ⟨q, rfl⟩ : ∃ q : Nat, p = (q : Int) := ⟨p.toNat, by omega⟩
        obtain ⟨w, hw, hq, rfl⟩ := storeAt_nat h1
        obtain ⟨w', hw', hsv⟩ := hfit a (by simp)
        rw [hw] at hw'; cases hw'
        obtain ⟨i1, i2, i3⟩ := ih (fun v hv => hfit v (by simp [hv])) h
        refine ⟨by simpa using i1, ?_, ?_⟩
        · intro i v hv
          cases i with
          | zero =>
            simp at hv; subst hv
            refine ⟨q, w, by simpa using hkp, ?_, hsv⟩
            rw [i3 q ?_]
            · simp [hq]
            · intro i _ hi
              have := hinj _ _ _ hi hkp
              omega
          | succ i =>
            obtain ⟨p, w2, e1, e2, e3⟩ := i2 i v (by simpa using hv)
            exact ⟨p, w2, by rw [show k + (i + 1) = k + 1 + i by omega]; exact e1, e2, e3⟩
        · intro p hp
          rw [i3 p ?_, List.getElem?_set_ne ?_]
          · rintro rfl
            exact hp 0 (by simp) (by simpa using hkp)
          · intro i hi
            have := hp (i + 1) (by simpa using hi)
            rwa [show k + (i + 1) = k + 1 + i by omega] at this

/-! ### Initialisation, evaluation, commitment -/

theorem externalValue_congr {s s' : SiteEnergyState Rt} (h1 : s.stateLookup = s'.stateLookup)
    (h2 : s.stateLookupBySite = s'.stateLookupBySite) (site state : Int) :
    externalValue s site state = externalValue s' site state := by
  unfold externalValue
  rw [h1, h2]

theorem mappedValues_congr {s s' : SiteEnergyState Rt} (h1 : s.stateLookup = s'.stateLookup)
    (h2 : s.stateLookupBySite = s'.stateLookupBySite) (occ : List Int) (c : Nat) :
    mappedValues s c occ = mappedValues s' c occ := by
  induction occ generalizing c with
  | nil => rfl
  | cons a occ ih => simp only [mappedValues, externalValue_congr h1 h2, ih]

theorem resolveRuntime_ok {m : SiteEnergy Rt T} {s s' : SiteEnergyState Rt} {r : Rt}
    (h : m.resolveRuntime s = (.ok r, s')) : s' = { s with runtime := some r } := by
  unfold resolveRuntime at h
  split at h
  · rename_i r' hr
    cases h
    cases s
    simp_all
  · split at h
    · cases h
    · cases h; rfl

/-- What a successful initialisation did. -/
theorem initializeState_ok {m : SiteEnergy Rt T} {s s' : SiteEnergyState Rt} {occ : List Int}
    {events : Option (List Event)} {order : Option OrderRef}
    (h : m.initializeState s occ events order = (.ok (), s')) :
    ∃ lookup d ext bg values rt, m.buildSiteLookup occ.length = .ok lookup ∧
      Ready m occ.length s' ∧ s'.external = some (d, ext) ∧ mappedValues s' 0 occ = .ok values ∧
      d = m.resolveDtype values ∧ m.background lookup d occ.length = .ok bg ∧
      writeValues d lookup 0 values bg = .ok ext ∧ s'.runtime = some rt := by
  unfold initializeState at h
  split at h
  · cases h
  · rename_i s1 h1
    split at h
    · cases h
    · split at h
      · cases h
      · rename_i lookup hl
        simp only at h
        split at h
        · cases h
        · rename_i ext hext
          split at h
          · cases h
          · split at h
            · cases h
            · rename_i r s2 hr
              cases h
              have := resolveRuntime_ok hr
              subst this
              unfold buildExternal at hext
              split at hext
              · cases hext
              · rename_i values hv
                simp only at hext
                split at hext
                · cases hext
                · rename_i bg hbg
                  split at hext
                  · cases hext
                  · rename_i ext' hw
                    cases hext
                    refine ⟨lookup, _, ext', bg, values, r, hl, ⟨⟨lookup, rfl, hl⟩, rfl, rfl⟩, rfl,
                      ?_, rfl, hbg, hw, rfl⟩
                    rw [← hv]
                    apply mappedValues_congr <;> rfl

theorem ensureInitialized_ready {m : SiteEnergy Rt T} {s : SiteEnergyState Rt} {n : Nat}
    (hr : Ready m n s) {x : DType × List ExtVal} (hx : s.external = some x) (occ : List Int) :
    m.ensureInitialized s occ = (.ok (), s) := by
  obtain ⟨l, hl, -⟩ := hr.site
  simp [ensureInitialized, hx, hl]

/-- What `compute` does on an initialised model. -/
theorem compute_ready {m : SiteEnergy Rt T} {s : SiteEnergyState Rt} {n : Nat}
    (hr : Ready m n s) {d : DType} {ext : List ExtVal} (hx : s.external = some (d, ext)) {rt : Rt}
    (hrt : s.runtime = some rt) (e : Event) (st : State T) :
    m.compute s e st =
      (match changesPre s e st.occ with
      | .error x => .error x
      | .ok changes =>
        if changes = [] then .ok 0
        else
          match m.computeFn with
          | none => .error .runtimeError
          | some fn =>
            match fn rt ext changes e st with
            | .error x => .error x
            | .ok raw => raw.toMeV m.units, s) := by
  unfold compute
  rw [ensureInitialized_ready hr hx]
  simp only
  cases hc : changesPre s e st.occ with
  | error x => rfl
  | ok changes =>
    cases changes with
    | nil => simp
    | cons c cs =>
      simp only [reduceCtorEq, if_false]
      cases m.computeFn with
      | none => rfl
      | some fn =>
        simp only [resolveRuntime, hrt, hx]
        cases fn rt ext (c :: cs) e st <;> rfl

/-- What a successful `apply_event` did on an initialised model. -/
theorem applyEvent_ready {m : SiteEnergy Rt T} {s s' : SiteEnergyState Rt} {n : Nat}
    (hr : Ready m n s) {d : DType} {ext : List ExtVal} (hx : s.external = some (d, ext)) {rt : Rt}
    (hrt : s.runtime = some rt) {e : Event} {st : State T}
    (h : m.applyEvent s e st = (.ok (), s')) :
    ∃ cs ext' rt', changesPost s e st.occ = .ok cs ∧ commitChanges d cs ext = (.ok (), ext') ∧
      s' = { s with external := some (d, ext'), runtime := some rt' } ∧
      (cs = [] → rt' = rt) ∧
      (cs ≠ [] → match m.applyFn with
        | none => rt' = rt
        | some fn => fn rt ext cs e st = (.ok (), rt')) := by
  unfold SiteEnergy.applyEvent at h
  rw [ensureInitialized_ready hr hx] at h
  simp only at h
  cases hc : changesPost s e st.occ with
  | error x => rw [hc] at h; cases h
  | ok cs =>
    rw [hc] at h
    cases cs with
    | nil =>
      simp only [Prod.mk.injEq, true_and] at h
      subst h
      refine ⟨[], ext, rt, rfl, rfl, ?_, fun _ => rfl, fun h => absurd rfl h⟩
      cases s
      simp_all
    | cons c cs =>
      simp only [hx] at h
      cases hf : m.applyFn with
      | none =>
        rw [hf] at h
        simp only at h
        rcases hcm : commitChanges d (c :: cs) ext with ⟨r, ext'⟩
        rw [hcm] at h
        simp only [Prod.mk.injEq] at h
        obtain ⟨rfl, rfl⟩ := h
        refine ⟨c :: cs, ext', rt, rfl, hcm, ?_, fun h => absurd h (by simp), fun _ => rfl⟩
        cases s
        simp_all
      | some fn =>
        rw [hf] at h
        simp only [resolveRuntime, hrt] at h
        rcases hfn : fn rt ext (c :: cs) e st with ⟨r, rt'⟩
        rw [hfn] at h
        simp only at h
        cases r with
        | error x => cases h
        | ok u =>
          simp only at h
          rcases hcm : commitChanges d (c :: cs) ext with ⟨r, ext'⟩
          rw [hcm] at h
          simp only [Prod.mk.injEq] at h
          obtain ⟨rfl, rfl⟩ := h
          exact ⟨c :: cs, ext', rt', rfl, hcm, rfl, fun h => absurd h (by simp), fun _ => hfn⟩

theorem commit_length {d : DType} {cs : List OccupationChange} {ext ext' : List ExtVal}
    (h : commitChanges d cs ext = (.ok (), ext')) : ext'.length = ext.length := by
  induction cs generalizing ext with
  | nil => cases h; rfl
  | cons c cs ih =>
    unfold commitChanges storeAt at h
    split at h
    · cases h
    · rename_i e1 h1
      split at h1
      · cases h1
      · obtain ⟨k, hk, rfl⟩ := pySet_ok_iff.1 h1
        rw [ih h, List.length_set]

/-- Committing changes touches no other external site. -/
theorem commit_other {d : DType} {cs : List OccupationChange} {ext ext' : List ExtVal} {q : Nat}
    (h0 : ∀ c ∈ cs, 0 ≤ c.externalSite ∧ c.externalSite ≠ (q : Int))
    (h : commitChanges d cs ext = (.ok (), ext')) : ext'[q]? = ext[q]? := by
  induction cs generalizing ext with
  | nil => cases h; rfl
  | cons c cs ih =>
    unfold commitChanges storeAt at h
    split at h
    · cases h
    · rename_i e1 h1
      split at h1
      · cases h1
      · obtain ⟨k, hk, rfl⟩ := pySet_ok_iff.1 h1
        rw [ih (fun c' hc' => h0 c' (by simp [hc'])) h]
        obtain ⟨a, b⟩ := h0 c (by simp)
        have := pyIdx_some_nonneg hk a
        rw [List.getElem?_set_ne (by omega)]

theorem describes_external {m : SiteEnergy Rt T} {e : Event} {occ : List Int}
    {cs : List OccupationChange} (h : DescribesHop m e occ cs) :
    ∀ c ∈ cs, ∃ i ∈ e.mobile, ∃ k : Nat, pyIdx occ.length i = some k ∧
      extSite m k = some c.externalSite := by
  obtain ⟨f, t, i, j, vf, vt, pf, pt, xf, yf, xt, yt, hm, hi, hj, hvf, hvt, s1, s2, -, -, -, -, rfl⟩ := h
  intro c hc
  rcases List.mem_append.1 hc with h | h
  · split at h
    · cases h
    · rw [List.mem_singleton] at h; subst h; exact ⟨f, by simp [hm], i, hi, s1⟩
  · split at h
    · cases h
    · rw [List.mem_singleton] at h; subst h; exact ⟨t, by simp [hm], j, hj, s2⟩

theorem ready_congr {m : SiteEnergy Rt T} {n : Nat} {s : SiteEnergyState Rt} (hr : Ready m n s)
    (x : Option (DType × List ExtVal)) (r : Option Rt) :
    Ready m n { s with external := x, runtime := r } := ⟨hr.site, hr.state, hr.bySite⟩

end SiteEnergy
end KMC
