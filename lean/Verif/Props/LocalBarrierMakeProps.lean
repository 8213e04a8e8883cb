import Verif.Model.LocalBarrierMake
import Verif.Props.LocalBarrierProps
import Verif.Spec.Snapshot
/-
C86: models made by `constant_barrier` and `from_exact_entries`.
-/
namespace KMC
open Spec LocalBarrier

/-! ### One barrier for all -/

/-- C86.  A constant-barrier model answers the given number for every event in every configuration. -/
theorem C86_constant_everywhere (b : PyVal) (f : PyFloat) (name : String)
    (hb : b = .float f ∨ ∃ n : Int, b = .int n ∧ f = .fin n) :
    ∃ m, LocalBarrierModel.constantBarrier b name = .ok m ∧ m.name = name ∧
      ∀ occ e, m.compute occ e "" = .ok f ∧ m.compute occ e "barrier" = .ok f := by
  have hn : numeric b = .ok f ∧ b ≠ .none := by
    rcases hb with rfl | ⟨n, rfl, rfl⟩
    · exact ⟨rfl, by simp⟩
    · exact ⟨rfl, by simp⟩
  have h : LocalBarrierModel.constantBarrier b name = .ok ⟨name, "barrier",
      LocalBarrierModel.supportedMode, "barrier", [], some [("barrier", f)], [], []⟩ := by
    rcases hb with rfl | ⟨n, rfl, rfl⟩ <;> rfl
  refine ⟨_, h, rfl, fun occ e => ⟨?_, ?_⟩⟩ <;>
  simp [LocalBarrierModel.compute, LocalBarrierModel.matchedProperties, LocalBarrierModel.firstMatch, dictGet]

/-- C86.  Without a number there is no model that answers: text is refused, and `None` gives a model that
raises for every event. -/
theorem C86_constant_needs_number (name s : String) :
    LocalBarrierModel.constantBarrier (.str s) name = .error .typeError ∧
    ∃ m, LocalBarrierModel.constantBarrier .none name = .ok m ∧
      ∀ occ e property, ∃ x, m.compute occ e property = .error x := by
  refine ⟨rfl, _, rfl, ?_⟩
  intro occ e property
  simp only [LocalBarrierModel.compute, LocalBarrierModel.matchedProperties, LocalBarrierModel.firstMatch]
  cases h : eventIndices e with
  | error x => exact ⟨x, rfl⟩
  | ok p =>
    obtain ⟨a, b, c⟩ := p
    simp only
    cases LocalBarrierModel.occupationPattern occ c with
    | error x => exact ⟨x, rfl⟩
    | ok q => exact ⟨_, rfl⟩

/-! ### Tables of snapshots -/

/-- The distinct sites of a snapshot. -/
def snapSites (s : Snapshot) : List Int := (s.event.mobile ++ s.event.env).eraseDups

/-- Their states. -/
def snapStates (s : Snapshot) : List Int :=
  (snapSites s).map fun i =>
    match pyGet s.occ i with
    | .ok v => v
    | .error _ => 0

theorem snap_carries {s : Snapshot} (hs : s.Sound) :
    List.Forall₂ (Carries s.occ) (snapSites s) (snapStates s) := by
  unfold snapStates
  rw [List.forall₂_map_right_iff, List.forall₂_same]
  intro i hi
  obtain ⟨v, hv⟩ := hs.sites i (List.mem_eraseDups.1 hi)
  rw [carries_iff] at hv ⊢
  rw [hv]

theorem snapStates_eq_iff {s t : Snapshot} (hs : s.Sound) (ht : t.Sound) (h : snapSites s = snapSites t) :
    snapStates s = snapStates t ↔
      ∀ i ∈ s.event.mobile ++ s.event.env, ∀ v, Carries s.occ i v → Carries t.occ i v := by
  have h1 := snap_carries hs
  have h2 := snap_carries ht
  rw [← h] at h2
  constructor
  · intro he i hi v hv
    rw [← he] at h2
    have hi' : i ∈ snapSites s := List.mem_eraseDups.2 hi
    obtain ⟨k, hk, rfl⟩ := List.getElem_of_mem hi'
    rw [List.forall₂_iff_get] at h1 h2
    have hk' : k < (snapStates s).length := by rw [← h1.1]; exact hk
    have a := h1.2 k hk hk'
    have b := h2.2 k hk hk'
    rw [List.get_eq_getElem] at a b
    rw [carries_unique hv a]
    exact b
  · intro hall
    unfold snapStates
    rw [← h]
    apply List.map_congr_left
    intro i hi
    obtain ⟨v, hv⟩ := hs.sites i (List.mem_eraseDups.1 hi)
    have hv' := hall i (List.mem_eraseDups.1 hi) v hv
    rw [carries_iff] at hv hv'
    rw [hv, hv']

/-- The dictionary of a snapshot's entry. -/
def snapDict (s : Snapshot) : List (String × PyVal) :=
  [("type", .str "exact"), ("mobile_ion_indices", .list (s.event.mobile.map .int)),
    ("local_env_indices", .list (s.event.env.map .int)), ("occupations", .list ((snapStates s).map .int)),
    ("properties", .dict (s.props.map fun q => (q.1, .float q.2)))] ++ optKey "name" (s.name.map .str)

theorem snap_mobile {s : Snapshot} (hs : s.Sound) : s.event.mobile ≠ [] := by
  intro hc
  have := hs.ends
  rw [hc] at this
  simp at this

theorem snap_entry {s : Snapshot} (hs : s.Sound) :
    LocalBarrierModel.entryFromEventState s.event s.occ (s.props.map fun q => (q.1, .float q.2)) s.name =
      .ok (.dict (snapDict s)) := by
  unfold LocalBarrierModel.entryFromEventState
  rw [eventIndices_eq (snap_mobile hs)]
  have : LocalBarrierModel.occupationPattern s.occ (s.event.mobile ++ s.event.env).eraseDups =
      .ok (snapStates s) := occupationPattern_ok.2 (snap_carries hs)
  simp only [this]
  rfl

/-- The name the rule gets. -/
def snapName (s : Snapshot) (i : Nat) : String := s.name.getD ("exact_" ++ intStr i)

/-- The rule made from a snapshot. -/
def snapRule (s : Snapshot) (i : Nat) : Rule :=
  ⟨snapName s i, .exact (snapStates s) (snapSites s), s.props, some s.event.mobile, some s.event.env⟩

theorem snap_payload (s : Snapshot) (i : Nat) :
    setDefault (dictSet (snapDict s) "type" (.str "exact")) "name" (.str ("exact_" ++ intStr i)) =
    [("type", .str "exact"), ("mobile_ion_indices", .list (s.event.mobile.map .int)),
    ("local_env_indices", .list (s.event.env.map .int)), ("occupations", .list ((snapStates s).map .int)),
    ("properties", .dict (s.props.map fun q => (q.1, .float q.2))), ("name", .str (snapName s i))] := by
  unfold snapDict snapName
  cases s.name <;> simp [optKey, dictSet, setDefault, dictGet]

theorem snap_normalize {s : Snapshot} (hs : s.Sound) (i : Nat) (n : String) :
    normalizeRule (.dict (setDefault (dictSet (snapDict s) "type" (.str "exact")) "name"
      (.str ("exact_" ++ intStr i)))) n = .ok (snapRule s i) := by
  rw [snap_payload]
  have hst := snap_carries hs
  have hmob := snap_mobile hs
  have hs0 : snapStates s ≠ [] := by
    intro hc
    rw [hc] at hst
    cases hm : s.event.mobile with
    | nil => exact hmob hm
    | cons a l =>
      unfold snapSites at hst
      rw [hm, List.cons_append, List.eraseDups_cons] at hst
      cases hst
  have hnn : ∀ v ∈ snapStates s, (0 : Int) ≤ v := by
    intro v hv
    unfold snapStates at hv
    obtain ⟨i, hi, rfl⟩ := List.mem_map.1 hv
    obtain ⟨w, hw⟩ := hs.sites i (List.mem_eraseDups.1 hi)
    have hw' := carries_iff.1 hw
    rw [hw']
    obtain ⟨k, -, hk⟩ := hw
    exact hs.states _ (List.mem_of_getElem? hk)
  have hname : snapName s i ≠ "" := by
    unfold snapName
    have := hs.name
    cases hn : s.name with
    | none =>
      intro hc
      have := congrArg String.length hc
      simp [String.length_append] at this
    | some x =>
      rw [hn] at this
      simpa using this
  have hps : PropsWF s.props := ⟨hs.known, hs.named⟩
  have hlen : (snapStates s).length = (snapSites s).length := hst.length_eq.symm
  refine normalizeRule_of (t := .exact) ?_ ?_ ?_ ?_ ?_ ?_
  · exact coerceType_of (k := .exact (snapStates s) []) (by simp [dictGet, Kind.typeName])
  · unfold propertiesFromRule
    simp [dictGet, normalizeProperties_dict hps]
  · unfold optIndices
    simp [dictGet, normalizeIndices_list (b := false) (Or.inr hmob)]
  · unfold optIndices
    simp [dictGet, normalizeIndices_list (b := true) (l := s.event.env) (Or.inl rfl)]
  · simp [normalizeKind, dictGet, normalizeIndices_list (b := false) (Or.inr hmob),
      normalizeIndices_list (b := true) (l := s.event.env) (Or.inl rfl),
      normalizeOccupations_list hs0 hnn, canonicalSites_eq, hlen, snapSites]
  · simp [ruleName, dictGet, hname]

/-- The key under which a snapshot is stored. -/
def snapKey (s : Snapshot) : List Int × List Int × List Int := (s.event.mobile, snapSites s, snapStates s)

theorem snapKey_eq_iff {s t : Snapshot} (hs : s.Sound) (ht : t.Sound) : snapKey s = snapKey t ↔ s.Clash t := by
  unfold snapKey Snapshot.Clash
  simp only [Prod.mk.injEq]
  constructor
  · rintro ⟨h1, h2, h3⟩
    exact ⟨h1, h2, (snapStates_eq_iff hs ht h2).1 h3⟩
  · rintro ⟨h1, h2, h3⟩
    exact ⟨h1, h2, (snapStates_eq_iff hs ht h2).2 h3⟩

/-- The rules of a list of snapshots. -/
def snapRules : List Snapshot → Nat → List Rule
  | [], _ => []
  | s :: ss, i => snapRule s i :: snapRules ss (i + 1)

theorem snapRules_getElem? (ss : List Snapshot) (i k : Nat) :
    (snapRules ss i)[k]? = (ss[k]?).map fun s => snapRule s (i + k) := by
  induction ss generalizing i k with
  | nil => simp [snapRules]
  | cons s ss ih =>
    cases k with
    | zero => simp [snapRules]
    | succ k =>
      simp only [snapRules, List.getElem?_cons_succ, ih]
      congr 1
      funext t
      congr 1
      omega

theorem addRules_snaps : ∀ (ss : List Snapshot) (i : Nat) (m : LocalBarrierModel),
    (∀ s ∈ ss, s.Sound) → (∀ s ∈ ss, snapKey s ∉ m.exactKeys) → (ss.map snapKey).Nodup →
    m.addRules (LocalBarrierModel.exactPayloads (ss.map snapDict) i) =
      (.ok (), { m with rules := m.rules ++ snapRules ss i, exactKeys := m.exactKeys ++ ss.map snapKey }) := by
  intro ss
  induction ss with
  | nil => intro i m _ _ _; simp [LocalBarrierModel.exactPayloads, LocalBarrierModel.addRules, snapRules]
  | cons s ss ih =>
    intro i m hs hk hn
    simp only [List.map_cons, LocalBarrierModel.exactPayloads, LocalBarrierModel.addRules]
    have h1 : m.addRule (.dict (setDefault (dictSet (snapDict s) "type" (.str "exact")) "name"
        (.str ("exact_" ++ intStr i)))) = (.ok (), { m with
          rules := m.rules ++ [snapRule s i], exactKeys := m.exactKeys ++ [snapKey s] }) := by
      unfold LocalBarrierModel.addRule
      rw [snap_normalize (hs s (by simp))]
      have : LocalBarrierModel.exactKey (snapRule s i) = some (snapKey s) := rfl
      simp only [this]
      rw [if_neg (hk s (by simp))]
    rw [h1]
    simp only
    simp only [List.map_cons, List.nodup_cons] at hn
    rw [ih (i + 1) _ (fun t ht => hs t (by simp [ht])) ?_ hn.2]
    · simp [snapRules]
    · intro t ht
      simp only [List.mem_append, List.mem_singleton, not_or]
      refine ⟨hk t (by simp [ht]), ?_⟩
      intro he
      exact hn.1 (List.mem_map.2 ⟨t, ht, he⟩)

theorem addRules_clash : ∀ (ss : List Snapshot) (i : Nat) (m : LocalBarrierModel),
    (∀ s ∈ ss, s.Sound) → (¬ (ss.map snapKey).Nodup ∨ ∃ s ∈ ss, snapKey s ∈ m.exactKeys) →
    (m.addRules (LocalBarrierModel.exactPayloads (ss.map snapDict) i)).1 = .error .valueError := by
  intro ss
  induction ss with
  | nil =>
    intro i m _ h
    rcases h with h | ⟨s, h, -⟩
    · exact absurd (by simp) h
    · cases h
  | cons s ss ih =>
    intro i m hs h
    simp only [List.map_cons, LocalBarrierModel.exactPayloads, LocalBarrierModel.addRules]
    have hkey : LocalBarrierModel.exactKey (snapRule s i) = some (snapKey s) := rfl
    by_cases hm : snapKey s ∈ m.exactKeys
    · have h1 : m.addRule (.dict (setDefault (dictSet (snapDict s) "type" (.str "exact")) "name"
          (.str ("exact_" ++ intStr i)))) = (.error .valueError, m) := by
        unfold LocalBarrierModel.addRule
        rw [snap_normalize (hs s (by simp))]
        simp only [hkey]
        rw [if_pos hm]
      rw [h1]
    · have h1 : m.addRule (.dict (setDefault (dictSet (snapDict s) "type" (.str "exact")) "name"
          (.str ("exact_" ++ intStr i)))) = (.ok (), { m with
            rules := m.rules ++ [snapRule s i], exactKeys := m.exactKeys ++ [snapKey s] }) := by
        unfold LocalBarrierModel.addRule
        rw [snap_normalize (hs s (by simp))]
        simp only [hkey]
        rw [if_neg hm]
      rw [h1]
      apply ih (i + 1) _ (fun t ht => hs t (by simp [ht]))
      simp only [List.mem_append, List.mem_singleton]
      rcases h with h | ⟨t, ht, hk⟩
      · simp only [List.map_cons, List.nodup_cons, not_and_or, not_not] at h
        rcases h with h | h
        · obtain ⟨t, ht, he⟩ := List.mem_map.1 h
          exact .inr ⟨t, ht, .inr he⟩
        · exact .inl h
      · rcases List.mem_cons.1 ht with rfl | ht
        · exact absurd hk hm
        · exact .inr ⟨t, ht, .inl hk⟩

theorem snap_describes {s : Snapshot} (hs : s.Sound) (i : Nat) (table : List (Int × List (Int × String)))
    (e : Event) (occ : List Int) : Describes table occ e (snapRule s i) ↔ s.Shows e occ :=
  C66_snapshot_describes table s.event e s.occ occ (snapStates s) s.props _ (snap_carries hs)

theorem shows_sites {s : Snapshot} (hs : s.Sound) {e : Event} {occ : List Int} (h : s.Shows e occ) :
    2 ≤ e.mobile.length ∧ ∀ i ∈ e.mobile ++ e.env, ∃ v, Carries occ i v := by
  obtain ⟨h1, h2, h3⟩ := h
  rw [h1, h2]
  refine ⟨hs.ends, fun i hi => ?_⟩
  obtain ⟨v, hv⟩ := hs.sites i hi
  exact ⟨v, h3 i hi v hv⟩

theorem snap_evaluable {s : Snapshot} (i : Nat) (table : List (Int × List (Int × String)))
    {e : Event} {occ : List Int} (h : 2 ≤ e.mobile.length ∧ ∀ i ∈ e.mobile ++ e.env, ∃ v, Carries occ i v) :
    Evaluable table occ e (snapRule s i) := ⟨h.1, h.2, trivial⟩

theorem shows_clash {s t : Snapshot} (ht : t.Sound) {e : Event} {occ : List Int}
    (h1 : s.Shows e occ) (h2 : t.Shows e occ) : s.Clash t := by
  obtain ⟨a1, a2, a3⟩ := h1
  obtain ⟨b1, b2, b3⟩ := h2
  have e1 : s.event.mobile = t.event.mobile := a1.symm.trans b1
  have e2 : s.event.env = t.event.env := a2.symm.trans b2
  refine ⟨e1, by rw [e1, e2], ?_⟩
  intro i hi v hv
  have c1 := a3 i hi v hv
  rw [e1, e2] at hi
  obtain ⟨w, hw⟩ := ht.sites i hi
  have c2 := b3 i hi w hw
  rw [carries_unique c1 c2]
  exact hw

/-- C86.  A table of snapshots, no two of which clash, gives a model: every situation that a snapshot shows
is answered with what that snapshot knows, and every other situation with the default barrier. -/
theorem C86_snapshots_answered (snaps : List Snapshot) (hs : ∀ s ∈ snaps, s.Sound)
    (hd : snaps.Pairwise fun s t => ¬ s.Clash t) (name : String) (b : PyFloat) :
    ∃ entries m,
      List.Forall₂ (fun s d => LocalBarrierModel.entryFromEventState s.event s.occ
        (s.props.map fun q => (q.1, .float q.2)) s.name = .ok (.dict d)) snaps entries ∧
      LocalBarrierModel.fromExactEntries entries name none (some (.float b)) "barrier" "barrier_arrhenius"
        "barrier" .none = .ok m ∧
      (∀ s ∈ snaps, ∀ e occ, s.Shows e occ → ∀ p v, p ≠ "" → dictGet s.props p = some v →
        m.compute occ e p = .ok v) ∧
      (∀ e occ, 2 ≤ e.mobile.length → (∀ i ∈ e.mobile ++ e.env, ∃ v, Carries occ i v) →
        (∀ s ∈ snaps, ¬ s.Shows e occ) → m.compute occ e "barrier" = .ok b) := by
  have hn : (snaps.map snapKey).Nodup := by
    rw [List.Nodup, List.pairwise_map]
    refine List.Pairwise.imp_of_mem ?_ hd
    intro s t h1 h2 h3 h4
    exact h3 ((snapKey_eq_iff (hs s h1) (hs t h2)).1 h4)
  have hadd := addRules_snaps snaps 0 ⟨name, "barrier", "barrier_arrhenius", "barrier", [],
    some [("barrier", b)], [], []⟩ hs (by simp) hn
  refine ⟨snaps.map snapDict, ⟨name, "barrier", "barrier_arrhenius", "barrier", [],
    some [("barrier", b)], snapRules snaps 0, snaps.map snapKey⟩, ?_, ?_, ?_, ?_⟩
  · rw [List.forall₂_map_right_iff, List.forall₂_same]
    exact fun s h => snap_entry (hs s h)
  · simp only [LocalBarrierModel.fromExactEntries, LocalBarrierModel.init, normalizeSiteSpecies, optProperties,
      numeric, LocalBarrierModel.build, LocalBarrierModel.supportedMode]
    simp only [Option.getD_some, ne_eq, not_true_eq_false, if_false, Option.getD_none, setDefault, dictGet,
      List.nil_append] at hadd ⊢
    rw [hadd]
  · intro s hm e occ hsh p v hp hv
    obtain ⟨k, hk⟩ := List.mem_iff_getElem?.1 hm
    refine C31_first_match_is_used _ occ e p v k (snapRule s (0 + k)) ?_ ?_ ?_ ?_ ?_
    · rw [snapRules_getElem?, hk]; rfl
    · intro j q _ hq
      rw [snapRules_getElem?, Option.map_eq_some_iff] at hq
      obtain ⟨t, -, rfl⟩ := hq
      exact snap_evaluable _ _ (shows_sites (hs s hm) hsh)
    · exact (snap_describes (hs s hm) _ _ _ _).2 hsh
    · intro j q hj hq hdq
      rw [snapRules_getElem?, Option.map_eq_some_iff] at hq
      obtain ⟨t, ht, rfl⟩ := hq
      have htm := List.mem_of_getElem? ht
      have := (snap_describes (hs t htm) _ _ _ _).1 hdq
      have hc := shows_clash (hs s hm) this hsh
      obtain ⟨h1, e1⟩ := List.getElem?_eq_some_iff.1 ht
      obtain ⟨h2, e2⟩ := List.getElem?_eq_some_iff.1 hk
      rw [List.pairwise_iff_getElem] at hd
      have := hd j k h1 h2 hj
      rw [e1, e2] at this
      exact this hc
    · rw [if_neg hp]; exact hv
  · intro e occ h2 hsites hno
    refine C31_default_is_used _ occ e "barrier" b [("barrier", b)] ?_ ?_ rfl (by simp [dictGet])
    · intro q hq
      obtain ⟨j, hj⟩ := List.mem_iff_getElem?.1 hq
      rw [snapRules_getElem?, Option.map_eq_some_iff] at hj
      obtain ⟨t, -, rfl⟩ := hj
      exact snap_evaluable _ _ ⟨h2, hsites⟩
    · intro q hq hdq
      obtain ⟨j, hj⟩ := List.mem_iff_getElem?.1 hq
      rw [snapRules_getElem?, Option.map_eq_some_iff] at hj
      obtain ⟨t, ht, rfl⟩ := hj
      exact hno t (List.mem_of_getElem? ht) ((snap_describes (hs t (List.mem_of_getElem? ht)) _ _ _ _).1 hdq)

/-- C86.  A table with two clashing snapshots is refused, whatever barriers they carry. -/
theorem C86_clashing_snapshots_refused (snaps : List Snapshot) (hs : ∀ s ∈ snaps, s.Sound)
    (hd : ¬ snaps.Pairwise fun s t => ¬ s.Clash t) (name : String) (b : PyFloat)
    (entries : List (List (String × PyVal)))
    (he : List.Forall₂ (fun s d => LocalBarrierModel.entryFromEventState s.event s.occ
        (s.props.map fun q => (q.1, .float q.2)) s.name = .ok (.dict d)) snaps entries) :
    LocalBarrierModel.fromExactEntries entries name none (some (.float b)) "barrier" "barrier_arrhenius"
      "barrier" .none = .error .valueError := by
  have hee : entries = snaps.map snapDict := by
    clear hd
    induction he with
    | nil => rfl
    | cons h _ ih =>
      rw [snap_entry (hs _ (by simp))] at h
      simp only [Except.ok.injEq, PyVal.dict.injEq] at h
      rw [ih fun s h => hs s (by simp [h]), ← h]
      rfl
  subst hee
  have hn : ¬ (snaps.map snapKey).Nodup := by
    intro hn
    apply hd
    rw [List.Nodup, List.pairwise_map] at hn
    refine List.Pairwise.imp_of_mem ?_ hn
    intro s t h1 h2 h3 h4
    exact h3 ((snapKey_eq_iff (hs s h1) (hs t h2)).2 h4)
  have hadd := addRules_clash snaps 0 ⟨name, "barrier", "barrier_arrhenius", "barrier", [],
    some [("barrier", b)], [], []⟩ hs (.inl hn)
  simp only [LocalBarrierModel.fromExactEntries, LocalBarrierModel.init, normalizeSiteSpecies, optProperties,
    numeric, LocalBarrierModel.build, LocalBarrierModel.supportedMode]
  simp only [Option.getD_some, ne_eq, not_true_eq_false, if_false, Option.getD_none, setDefault, dictGet,
    List.nil_append] at hadd ⊢
  split
  · rename_i x _ hx
    rw [hx] at hadd
    simp only [Except.error.injEq] at hadd
    rw [hadd]
  · rename_i hx
    rw [hx] at hadd
    cases hadd

/-! ### Non-vacuity -/

/-- Two snapshots of the same hop with different surroundings. -/
def exampleSnapshots : List Snapshot :=
  [⟨⟨[0, 1], [2], none⟩, [0, 1, 0], [("barrier", .fin 300)], none⟩,
   ⟨⟨[0, 1], [2], none⟩, [0, 1, 1], [("barrier", .fin 400)], some "free"⟩]

/-- Non-vacuity of C86: the snapshots are sound and do not clash; a third one equal to the first clashes. -/
example : (∀ s ∈ exampleSnapshots, s.Sound) ∧ exampleSnapshots.Pairwise (fun s t => ¬ s.Clash t) ∧
    ¬ (exampleSnapshots ++ exampleSnapshots.take 1).Pairwise (fun s t => ¬ s.Clash t) := by
  have hc : ∀ a b c : Int, ∀ i ∈ ([0, 1, 2] : List Int), ∃ v, Carries [a, b, c] i v := by
    intro a b c i hi
    simp only [List.mem_cons, List.not_mem_nil, or_false] at hi
    rcases hi with rfl | rfl | rfl
    · exact ⟨a, 0, by unfold Denotes; simp, rfl⟩
    · exact ⟨b, 1, by unfold Denotes; simp, rfl⟩
    · exact ⟨c, 2, by unfold Denotes; simp, rfl⟩
  have hs : ∀ s ∈ exampleSnapshots, s.Sound := by
    intro s h
    simp only [exampleSnapshots, List.mem_cons, List.not_mem_nil, or_false] at h
    rcases h with rfl | rfl
    · exact ⟨by decide, hc _ _ _, by decide, by simp, by decide, by decide⟩
    · exact ⟨by decide, hc _ _ _, by decide, by simp, by decide, by decide⟩
  refine ⟨hs, ?_, ?_⟩
  · simp only [exampleSnapshots, List.pairwise_cons, List.mem_singleton, forall_eq, List.not_mem_nil,
      false_implies, implies_true, List.Pairwise.nil, and_true]
    rw [← snapKey_eq_iff (hs _ (by simp [exampleSnapshots])) (hs _ (by simp [exampleSnapshots]))]
    decide
  · intro h
    simp only [exampleSnapshots, List.cons_append, List.pairwise_cons, List.take, List.nil_append] at h
    exact h.1 _ (by simp) ⟨rfl, rfl, fun _ _ _ h => h⟩

end KMC
