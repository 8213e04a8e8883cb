import Verif.Spec.Neighbors
import Verif.Lemmas.Py
/-
Cutoff tables and the neighbours they select (C51).
-/
namespace KMC
open Spec Neighbors
variable {K V : Type} [LinearOrder K] [Zero K]

theorem tableGet_tableSet {α : Type} (t : Table α) (a b x y : String) (d z : α) :
    tableGet (tableSet t a b d) x y z = if x = a ∧ y = b then d else tableGet t x y z := by
  unfold tableGet tableSet
  rw [dictGet_dictSet]
  by_cases h1 : x = a
  · subst h1
    rw [if_pos rfl, Option.getD_some, dictGet_dictSet]
    by_cases h2 : y = b
    · simp [h2]
    · simp [h2]
  · rw [if_neg h1, if_neg (fun h => h1 h.1)]

theorem pairEntry_cons {α : Type} (e : (String × String) × α) (es : List ((String × String) × α)) (a b : String) :
    pairEntry (e :: es) a b =
      match pairEntry es a b with
      | some d => some d
      | none => if e.1 = (a, b) ∨ e.1 = (b, a) then some e.2 else none := by
  unfold pairEntry
  rw [List.reverse_cons, List.find?_append]
  cases h : es.reverse.find? fun e => decide (e.1 = (a, b) ∨ e.1 = (b, a)) with
  | some x => simp
  | none =>
    simp only [Option.none_or, Option.map_none]
    by_cases hc : e.1 = (a, b) ∨ e.1 = (b, a)
    · rw [if_pos hc, List.find?_cons_of_pos (by simpa using hc)]; rfl
    · rw [if_neg hc, List.find?_cons_of_neg (by simpa using hc)]; rfl

theorem tableSet_pair {α : Type} (t : Table α) (a b x y : String) (d z : α) :
    tableGet (tableSet (tableSet t a b d) b a d) x y z =
      if (a, b) = (x, y) ∨ (a, b) = (y, x) then d else tableGet t x y z := by
  rw [tableGet_tableSet, tableGet_tableSet]
  by_cases h1 : x = b ∧ y = a
  · rw [if_pos h1, if_pos (.inr (by rw [h1.1, h1.2]))]
  · rw [if_neg h1]
    by_cases h2 : x = a ∧ y = b
    · rw [if_pos h2, if_pos (.inl (by rw [h2.1, h2.2]))]
    · rw [if_neg h2, if_neg]
      rintro (h | h)
      · cases h; exact h2 ⟨rfl, rfl⟩
      · cases h; exact h1 ⟨rfl, rfl⟩

theorem cutoffLoop_get (es : List ((String × String) × K)) : ∀ (t : Table K) (m : K) (x y : String) (z : K),
    tableGet (cutoffLoop es t m).1 x y z = (pairEntry es x y).getD (tableGet t x y z) := by
  induction es with
  | nil => intro t m x y z; rfl
  | cons e es ih =>
    intro t m x y z
    obtain ⟨⟨a, b⟩, d⟩ := e
    rw [cutoffLoop, ih, pairEntry_cons, tableSet_pair]
    cases pairEntry es x y with
    | some d' => rfl
    | none =>
      simp only [Option.getD_none]
      split <;> simp

theorem cutoffLoop_max (es : List ((String × String) × K)) : ∀ (t : Table K) (m : K),
    m ≤ (cutoffLoop es t m).2 ∧ ∀ e ∈ es, e.2 ≤ (cutoffLoop es t m).2 := by
  induction es with
  | nil => intro t m; exact ⟨le_refl _, by simp⟩
  | cons e es ih =>
    intro t m
    obtain ⟨⟨a, b⟩, d⟩ := e
    obtain ⟨h1, h2⟩ := ih (tableSet (tableSet t a b d) b a d) (max d m)
    rw [cutoffLoop]
    refine ⟨(le_max_right _ _).trans h1, ?_⟩
    intro e he
    rcases List.mem_cons.1 he with rfl | he
    · exact (le_max_left _ _).trans h1
    · exact h2 e he

theorem pairEntry_mem {α : Type} {es : List ((String × String) × α)} {a b : String} {d : α}
    (h : pairEntry es a b = some d) : ∃ e ∈ es, e.2 = d ∧ (e.1 = (a, b) ∨ e.1 = (b, a)) := by
  unfold pairEntry at h
  rw [Option.map_eq_some_iff] at h
  obtain ⟨e, he, rfl⟩ := h
  exact ⟨e, by simpa using List.mem_of_find?_eq_some he, rfl, by simpa using List.find?_some he⟩

theorem pairEntry_comm {α : Type} (es : List ((String × String) × α)) (a b : String) :
    pairEntry es a b = pairEntry es b a := by
  unfold pairEntry
  congr 2
  funext e
  simp only [decide_eq_decide]
  exact or_comm

/-- C51.  The cutoff looked up for two species is the last one given for the pair in either order,
so it is symmetric; without an entry it is zero. -/
theorem C51_cutoff (cutoffs : Option (List ((String × String) × K))) (a b : String) :
    tableGet (prepareCutoff cutoffs).1 a b 0 = (pairEntry (cutoffs.getD []) a b).getD 0 ∧
    tableGet (prepareCutoff cutoffs).1 a b 0 = tableGet (prepareCutoff cutoffs).1 b a 0 := by
  have h : ∀ a b, tableGet (prepareCutoff cutoffs).1 a b 0 = (pairEntry (cutoffs.getD []) a b).getD 0 :=
    fun a b => cutoffLoop_get _ [] 0 a b 0
  exact ⟨h a b, by rw [h, h, pairEntry_comm]⟩

theorem copyKeys_ok {props : List (String × V)} {ks : List String} {m : List (String × V)}
    (h : copyKeys props ks = .ok m) :
    m.map (·.1) = ks ∧ ∀ kv ∈ m, dictGet props kv.1 = some kv.2 := by
  induction ks generalizing m with
  | nil => unfold copyKeys at h; cases h; exact ⟨rfl, by simp⟩
  | cons k ks ih =>
    unfold copyKeys at h
    split at h
    · cases h
    · rename_i v hv
      split at h
      · cases h
      · rename_i m' hm
        cases h
        obtain ⟨h1, h2⟩ := ih hm
        refine ⟨by rw [List.map_cons, h1], ?_⟩
        intro kv hkv
        rcases List.mem_cons.1 hkv with rfl | hkv
        · exact hv
        · exact h2 kv hkv

theorem copyKeys_of {props : List (String × V)} {ks : List String} (h : ∀ k ∈ ks, k ∈ dictKeys props) :
    ∃ m, copyKeys props ks = .ok m := by
  induction ks with
  | nil => exact ⟨[], rfl⟩
  | cons k ks ih =>
    obtain ⟨m, hm⟩ := ih fun x hx => h x (by simp [hx])
    obtain ⟨v, hv⟩ := (dictGet_isSome_iff props k).2 (h k (by simp))
    exact ⟨(k, v) :: m, by rw [copyKeys, hv]; simp only [hm]⟩

theorem infoOf_eq (names : List String) (n : Neighbor K V) :
    infoOf names n = match copyKeys n.properties (copiedNames names) with
      | .error e => .error e
      | .ok m => .ok ⟨n, n.image, n.distance, n.siteIndex, m⟩ := by
  unfold infoOf copiedNames
  by_cases h : "wyckoff_sequence" ∈ names
  · rw [if_neg (by simpa using h), if_pos h]
    by_cases h2 : "supercell" ∈ names
    · rw [if_pos (by simpa using h2), if_pos h2]
      cases copyKeys n.properties _ <;> rfl
    · rw [if_neg (by simpa using h2), if_neg h2]
      cases copyKeys n.properties _ <;> rfl
  · rw [if_pos (by simpa using h), if_neg h]
    rfl

theorem collect_ok {names : List String} {accept : Neighbor K V → Bool} {ns : List (Neighbor K V)}
    {is : List (Info K V)} (h : collect names accept ns = .ok is) :
    is.map (·.site) = ns.filter accept ∧ ∀ i ∈ is, DescribesNeighbour names i := by
  induction ns generalizing is with
  | nil => unfold collect at h; cases h; exact ⟨rfl, by simp⟩
  | cons n ns ih =>
    unfold collect at h
    split at h
    · rename_i ha
      split at h
      · cases h
      · rename_i i hi
        have hs : i.site = n ∧ DescribesNeighbour names i := by
          rw [infoOf_eq] at hi
          split at hi
          · cases hi
          · rename_i m hm
            cases hi
            exact ⟨rfl, rfl, rfl, rfl, (copyKeys_ok hm).1, (copyKeys_ok hm).2⟩
        split at h
        · cases h
        · rename_i is' his
          cases h
          obtain ⟨h1, h2⟩ := ih his
          refine ⟨by rw [List.map_cons, h1, hs.1, List.filter_cons_of_pos ha], ?_⟩
          intro j hj
          rcases List.mem_cons.1 hj with rfl | hj
          · exact hs.2
          · exact h2 j hj
    · rename_i ha
      obtain ⟨h1, h2⟩ := ih h
      exact ⟨by rw [h1, List.filter_cons_of_neg ha], h2⟩

/-- The neighbours returned are exactly those closer than the cutoff of the pair (strictly), no
matter how the largest cutoff limits the search; each entry carries the neighbour's own image, index
and distance. -/
theorem C51_neighbours {isNeighbour : Neighbor K V → Prop} {sphere : K → List (Neighbor K V)}
    (hs : ExactSearch isNeighbour sphere) {names : List String} {centre : String}
    (cutoffs : Option (List ((String × String) × K))) {is : List (Info K V)}
    (h0 : ∀ n, isNeighbour n → 0 ≤ n.distance)
    (h : cutoffInfo names sphere centre (prepareCutoff cutoffs) = .ok is) :
    (∀ n, n ∈ is.map (·.site) ↔ isNeighbour n ∧
      ∃ c, pairEntry (cutoffs.getD []) centre n.species = some c ∧ n.distance < c) ∧
    (is.map (·.site)).Sublist (sphere (prepareCutoff cutoffs).2) ∧
    ∀ i ∈ is, DescribesNeighbour names i := by
  obtain ⟨h1, h2⟩ := collect_ok h
  refine ⟨?_, by rw [h1]; exact List.filter_sublist, h2⟩
  intro n
  rw [h1, List.mem_filter, hs]
  simp only [decide_eq_true_eq, (C51_cutoff cutoffs centre n.species).1]
  constructor
  · rintro ⟨⟨hn, -⟩, hlt⟩
    refine ⟨hn, ?_⟩
    cases hp : pairEntry (cutoffs.getD []) centre n.species with
    | some c => exact ⟨c, rfl, by simpa [hp] using hlt⟩
    | none =>
      rw [hp, Option.getD_none] at hlt
      exact absurd hlt (not_lt.2 (h0 n hn))
  · rintro ⟨hn, c, hp, hlt⟩
    refine ⟨⟨hn, ?_⟩, by rw [hp]; exact hlt⟩
    obtain ⟨e, he, rfl, -⟩ := pairEntry_mem hp
    exact hlt.le.trans ((cutoffLoop_max (cutoffs.getD []) [] 0).2 e he)

/-- Being a neighbour is mutual: if distances do not depend on the direction, one species sees the
other within the cutoff exactly when the other sees the one. -/
theorem C51_mutual (cutoffs : Option (List ((String × String) × K))) (a b : String) (d : K) :
    d < tableGet (prepareCutoff cutoffs).1 a b 0 ↔ d < tableGet (prepareCutoff cutoffs).1 b a 0 := by
  rw [(C51_cutoff cutoffs a b).2]

theorem rangeLoop_get (es : List ((String × String) × (K × K))) : ∀ (r : RangeLookup K) (x y : String) (z : K),
    tableGet (rangeLoop es r).maxTable x y z = ((pairEntry es x y).map (·.2)).getD (tableGet r.maxTable x y z) ∧
    tableGet (rangeLoop es r).minTable x y z = ((pairEntry es x y).map (·.1)).getD (tableGet r.minTable x y z) := by
  induction es with
  | nil => intro r x y z; exact ⟨rfl, rfl⟩
  | cons e es ih =>
    intro r x y z
    obtain ⟨⟨a, b⟩, lo, hi⟩ := e
    rw [rangeLoop, (ih _ x y z).1, (ih _ x y z).2, pairEntry_cons, tableSet_pair, tableSet_pair]
    cases pairEntry es x y with
    | some d' => exact ⟨rfl, rfl⟩
    | none =>
      simp only [Option.map_none, Option.getD_none]
      split <;> simp

theorem rangeLoop_max (es : List ((String × String) × (K × K))) : ∀ (r : RangeLookup K),
    r.maxDist ≤ (rangeLoop es r).maxDist ∧ ∀ e ∈ es, e.2.2 ≤ (rangeLoop es r).maxDist := by
  induction es with
  | nil => intro r; exact ⟨le_refl _, by simp⟩
  | cons e es ih =>
    intro r
    obtain ⟨⟨a, b⟩, lo, hi⟩ := e
    rw [rangeLoop]
    obtain ⟨h1, h2⟩ := ih ⟨tableSet (tableSet r.maxTable a b hi) b a hi,
      tableSet (tableSet r.minTable a b lo) b a lo, max hi r.maxDist, min lo r.minDist⟩
    refine ⟨(le_max_right _ _).trans h1, ?_⟩
    intro e he
    rcases List.mem_cons.1 he with rfl | he
    · exact (le_max_left _ _).trans h1
    · exact h2 e he

/-- The range version returns exactly the neighbours strictly between the two limits of the pair. -/
theorem C51_range_neighbours {isNeighbour : Neighbor K V → Prop} {sphere : K → List (Neighbor K V)}
    (hs : ExactSearch isNeighbour sphere) {names : List String} {centre : String} {far : K}
    (cutoffs : Option (List ((String × String) × (K × K)))) {is : List (Info K V)}
    (h : rangeInfo names sphere centre (prepareRange far cutoffs) = .ok is) :
    (∀ n, n ∈ is.map (·.site) ↔ isNeighbour n ∧
      ∃ lo hi, pairEntry (cutoffs.getD []) centre n.species = some (lo, hi) ∧
        lo < n.distance ∧ n.distance < hi) ∧
    (is.map (·.site)).Sublist (sphere (prepareRange far cutoffs).maxDist) ∧
    ∀ i ∈ is, DescribesNeighbour names i := by
  obtain ⟨h1, h2⟩ := collect_ok h
  refine ⟨?_, by rw [h1]; exact List.filter_sublist, h2⟩
  intro n
  obtain ⟨g1, g2⟩ := rangeLoop_get (cutoffs.getD []) ⟨[], [], 0, far⟩ centre n.species (0 : K)
  rw [h1, List.mem_filter, hs]
  simp only [Bool.and_eq_true, decide_eq_true_eq]
  unfold prepareRange
  rw [g1, g2]
  have e0 : tableGet ([] : Table K) centre n.species 0 = 0 := rfl
  simp only [e0]
  constructor
  · rintro ⟨⟨hn, -⟩, hlo, hhi⟩
    refine ⟨hn, ?_⟩
    cases hp : pairEntry (cutoffs.getD []) centre n.species with
    | some c => exact ⟨c.1, c.2, rfl, by simpa [hp] using hlo, by simpa [hp] using hhi⟩
    | none =>
      rw [hp] at hlo hhi
      exact absurd (hlo.trans hhi) (lt_irrefl _)
  · rintro ⟨hn, lo, hi, hp, hlo, hhi⟩
    refine ⟨⟨hn, ?_⟩, by rw [hp]; exact hlo, by rw [hp]; exact hhi⟩
    obtain ⟨e, he, he2, -⟩ := pairEntry_mem hp
    have := (rangeLoop_max (cutoffs.getD []) ⟨[], [], 0, far⟩).2 e he
    rw [he2] at this
    exact hhi.le.trans this

/-- C51.  There is one named table of ranges: with its name the neighbours are those within the
ranges of the table, and every other name is refused. -/
theorem C51_named_table {isNeighbour : Neighbor K V → Prop} {sphere : K → List (Neighbor K V)}
    (hs : ExactSearch isNeighbour sphere) {names : List String} {centre : String} {far : K}
    (table : List ((String × String) × (K × K))) (name : String) :
    (name = "vesta_2019" → ∃ lookup, preset far table name = .ok lookup ∧
      ∀ is : List (Info K V), rangeInfo names sphere centre lookup = .ok is →
        ∀ n, n ∈ is.map (·.site) ↔ isNeighbour n ∧
          ∃ lo hi, pairEntry table centre n.species = some (lo, hi) ∧
            lo < n.distance ∧ n.distance < hi) ∧
    (name ≠ "vesta_2019" → preset far table name = .error .valueError) := by
  refine ⟨fun h => ⟨prepareRange far (some table), by unfold preset; rw [if_pos h], ?_⟩,
    fun h => by unfold preset; rw [if_neg h]⟩
  intro is his
  exact (C51_range_neighbours hs (some table) his).1

/-- Everything is returned without failure exactly when every accepted neighbour carries the
metadata the structure announces. -/
theorem C51_succeeds {names : List String} {accept : Neighbor K V → Bool} {ns : List (Neighbor K V)} :
    (∃ is, collect names accept ns = .ok is) ↔
      ∀ n ∈ ns, accept n = true → ∀ k ∈ copiedNames names, k ∈ dictKeys n.properties := by
  constructor
  · rintro ⟨is, h⟩ n hn ha k hk
    obtain ⟨h1, h2⟩ := collect_ok h
    have hm : n ∈ is.map (·.site) := by rw [h1]; exact List.mem_filter.2 ⟨hn, ha⟩
    obtain ⟨i, hi, rfl⟩ := List.mem_map.1 hm
    rw [← (h2 i hi).copied] at hk
    obtain ⟨kv, hkv, rfl⟩ := List.mem_map.1 hk
    exact (dictGet_isSome_iff _ _).1 ⟨_, (h2 i hi).values kv hkv⟩
  · intro h
    induction ns with
    | nil => exact ⟨[], rfl⟩
    | cons n ns ih =>
      obtain ⟨is, his⟩ := ih fun m hm => h m (by simp [hm])
      unfold collect
      split
      · rename_i ha
        obtain ⟨m, hm⟩ := copyKeys_of (h n (by simp) ha)
        rw [infoOf_eq, hm]
        simp only [his]
        exact ⟨_, rfl⟩
      · exact ⟨is, his⟩

/-- Contradictory entries are accepted in silence: the later one wins. -/
theorem C51_conflict_last_wins :
    tableGet (prepareCutoff (some [(("Na", "O"), (3 : Int)), (("O", "Na"), 5)])).1 "Na" "O" 0 = 5 ∧
    tableGet (prepareCutoff (some [(("O", "Na"), (5 : Int)), (("Na", "O"), 3)])).1 "Na" "O" 0 = 3 := by
  decide

/-- An example: three neighbours; one within its cutoff, one exactly on it, one without entry. -/
example :
    let ns : List (Neighbor Int Nat) := [⟨"O", 2, (0, 0, 0), 1, []⟩, ⟨"Na", 4, (1, 0, 0), 0, []⟩,
      ⟨"W", 1, (0, 0, 0), 2, []⟩]
    let sphere := fun r => ns.filter fun n => decide (n.distance ≤ r)
    ExactSearch (· ∈ ns) sphere ∧ (∀ n ∈ ns, 0 ≤ n.distance) ∧
      (cutoffInfo [] sphere "Na" (prepareCutoff (some [(("O", "Na"), 3), (("Na", "Na"), 4)]))).toOption.map
        (·.map (·.siteIndex)) = some [1] ∧
      (rangeInfo [] sphere "Na" (prepareRange 1000 (some [(("O", "Na"), (2, 3)), (("Na", "Na"), (1, 5))]))).toOption.map
        (·.map (·.siteIndex)) = some [0] := by
  refine ⟨?_, by decide, by decide, by decide⟩
  intro r n
  rw [List.mem_filter, decide_eq_true_eq]

end KMC
