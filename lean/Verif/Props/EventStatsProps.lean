import Mathlib.Algebra.BigOperators.Fin
import Mathlib.Algebra.BigOperators.Ring.Finset
import Mathlib.Algebra.Order.BigOperators.Group.Finset
import Mathlib.Data.Rat.Cast.Order
import Mathlib.Tactic.FieldSimp
import Mathlib.Tactic.Linarith
import Verif.Spec.EventStats
import Verif.Lemmas.Event
import Verif.Props.EventProps
/-
C107: the statistics of an event library.
-/
namespace KMC
open Spec
variable {σ φ : Type}

theorem overlaps_eq (es : List Event) : overlaps es = ∑ i : Fin es.length, affected es i := by
  unfold overlaps affected
  simp only [Finset.card_filter]
  exact Fintype.sum_prod_type _

theorem row_length (lib : EventLib σ φ) (i : Fin lib.events.length) :
    (lib.generateEventDependencies.getDependentEvents i).length = affected lib.events i := by
  have hn : (lib.generateEventDependencies.getDependentEvents i).Nodup :=
    (C10_dependencies_increasing lib i).imp fun h => ne_of_lt h
  rw [← List.toFinset_card_of_nodup hn]
  unfold affected
  rw [← Finset.card_image_of_injective _ (f := fun j : Fin lib.events.length => ((j : Nat) : Int))
    (fun a b h => Fin.ext (Int.ofNat.inj h))]
  congr 1
  ext j
  rw [List.mem_toFinset, C10_dependencies_are_overlaps]
  simp only [Finset.mem_image, Finset.mem_filter, Finset.mem_univ, true_and]
  constructor
  · rintro ⟨ei, k, ej, rfl, h1, h2, hs⟩
    have hk : k < lib.events.length := by
      by_contra hc; rw [List.getElem?_eq_none (by omega)] at h2; cases h2
    rw [List.getElem?_eq_getElem i.2] at h1
    rw [List.getElem?_eq_getElem hk] at h2
    cases h1; cases h2
    exact ⟨⟨k, hk⟩, hs, rfl⟩
  · rintro ⟨k, hs, rfl⟩
    exact ⟨_, k, _, rfl, List.getElem?_eq_getElem i.2, List.getElem?_eq_getElem k.2, hs⟩

/-- The rows of the generated table have the lengths wanted. -/
theorem rows_lengths (lib : EventLib σ φ) : ∃ rows, lib.generateEventDependencies.deps = some rows ∧
    rows.map List.length = List.ofFn (affected lib.events) := by
  refine ⟨_, rfl, ?_⟩
  have hl : (generateEventDependencyMatrix (lib.events.map Event.sites)).length = lib.events.length := by
    simp [generateEventDependencyMatrix]
  apply List.ext_getElem (by simp [hl])
  intro k h1 h2
  rw [List.length_map] at h1
  have hk : k < lib.events.length := by omega
  rw [List.getElem_map, List.getElem_ofFn, ← row_length lib ⟨k, hk⟩]
  unfold EventLib.getDependentEvents EventLib.generateEventDependencies
  simp only
  rw [List.getElem?_eq_getElem h1]

theorem sumLengths_eq : ∀ rows : List (List Int), EventLib.sumLengths rows = (rows.map List.length).sum
  | [] => rfl
  | r :: rs => by simp [EventLib.sumLengths, sumLengths_eq rs]

theorem maxLength_spec : ∀ (r : List Int) (rs : List (List Int)),
    (∀ n ∈ ((r :: rs).map List.length), n ≤ EventLib.maxLength r rs) ∧
      EventLib.maxLength r rs ∈ ((r :: rs).map List.length)
  | r, [] => by simp [EventLib.maxLength]
  | r, r' :: rs => by
    obtain ⟨h1, h2⟩ := maxLength_spec r' rs
    unfold EventLib.maxLength
    split
    · rename_i h
      refine ⟨?_, List.mem_cons_of_mem _ h2⟩
      intro n hn
      rcases List.mem_cons.1 hn with rfl | hn
      · omega
      · exact h1 n hn
    · rename_i h
      refine ⟨?_, by simp⟩
      intro n hn
      rcases List.mem_cons.1 hn with rfl | hn
      · exact Nat.le_refl _
      · exact (h1 n hn).trans (by omega)

theorem minLength_spec : ∀ (r : List Int) (rs : List (List Int)),
    (∀ n ∈ ((r :: rs).map List.length), EventLib.minLength r rs ≤ n) ∧
      EventLib.minLength r rs ∈ ((r :: rs).map List.length)
  | r, [] => by simp [EventLib.minLength]
  | r, r' :: rs => by
    obtain ⟨h1, h2⟩ := minLength_spec r' rs
    unfold EventLib.minLength
    split
    · rename_i h
      refine ⟨?_, List.mem_cons_of_mem _ h2⟩
      intro n hn
      rcases List.mem_cons.1 hn with rfl | hn
      · omega
      · exact h1 n hn
    · rename_i h
      refine ⟨?_, by simp⟩
      intro n hn
      rcases List.mem_cons.1 hn with rfl | hn
      · exact Nat.le_refl _
      · exact (by omega : _ ≤ EventLib.minLength r' rs).trans (h1 n hn)

/-- C107.  The statistics after generating the dependencies: the number of events, of ordered pairs
of events sharing a site, the largest and the smallest number of events one event affects, the
average number, and the fraction of pairs that share a site. -/
theorem C107_statistics (lib : EventLib σ φ) : ∃ st, lib.generateEventDependencies.statistics = some st ∧
    st.totalEvents = lib.events.length ∧ st.total = overlaps lib.events ∧
    (lib.events ≠ [] →
      (∀ i, affected lib.events i ≤ st.max) ∧ (∃ i, affected lib.events i = st.max) ∧
      (∀ i, st.min ≤ affected lib.events i) ∧ (∃ i, affected lib.events i = st.min) ∧
      st.average * lib.events.length = ∑ i, (affected lib.events i : ℚ) ∧
      st.density * (lib.events.length : ℚ) ^ 2 = overlaps lib.events) ∧
    (lib.events = [] → st.max = 0 ∧ st.min = 0 ∧ st.average = 0 ∧ st.density = 0) := by
  obtain ⟨rows, hr, hl⟩ := rows_lengths lib
  have hsum : EventLib.sumLengths rows = overlaps lib.events := by
    rw [sumLengths_eq, hl, overlaps_eq, List.sum_ofFn]
  have hlen : rows.length = lib.events.length := by
    have := congrArg List.length hl
    simpa using this
  unfold EventLib.statistics
  rw [hr]
  refine ⟨_, rfl, rfl, hsum, ?_, ?_⟩
  · intro hne
    have h0 : 0 < lib.events.length := List.length_pos_of_ne_nil hne
    have hq : (lib.events.length : ℚ) ≠ 0 := by positivity
    cases rows with
    | nil => simp at hlen; exact absurd hlen.symm (by simpa using hne)
    | cons r rs =>
      obtain ⟨m1, m2⟩ := maxLength_spec r rs
      obtain ⟨n1, n2⟩ := minLength_spec r rs
      rw [hl] at m1 m2 n1 n2
      simp only [List.mem_ofFn] at m1 m2 n1 n2
      refine ⟨fun i => m1 _ ⟨i, rfl⟩, m2, fun i => n1 _ ⟨i, rfl⟩, n2, ?_, ?_⟩
      · simp only [List.isEmpty_cons]
        rw [if_neg (by simp), hsum, overlaps_eq, hlen, div_mul_cancel₀ _ hq]
        push_cast
        rfl
      · simp only
        show (if lib.events.isEmpty then (0 : ℚ) else _) * _ = _
        rw [if_neg (by simpa using hne), hsum]
        show _ / ((lib.events.length ^ 2 : Nat) : ℚ) * _ = _
        push_cast
        rw [div_mul_cancel₀ _ (pow_ne_zero 2 hq)]
  · intro he
    have : rows = [] := by
      rw [he] at hlen; simpa using hlen
    subst this
    refine ⟨rfl, rfl, rfl, ?_⟩
    simp only
    show (if lib.events.isEmpty then (0 : ℚ) else _) = 0
    rw [he]
    rfl

/-- When every event mentions a site: each event affects at least itself and at most all events, the
average lies between the extremes, and the density between one over the number of events and one. -/
theorem C107_ranges (lib : EventLib σ φ) (hne : lib.events ≠ [])
    (hs : ∀ e ∈ lib.events, e.mobile ++ e.env ≠ []) {st : EventLib.Statistics}
    (h : lib.generateEventDependencies.statistics = some st) :
    1 ≤ st.min ∧ (st.min : ℚ) ≤ st.average ∧ st.average ≤ st.max ∧ st.max ≤ lib.events.length ∧
    1 / (lib.events.length : ℚ) ≤ st.density ∧ st.density ≤ 1 ∧
    st.density = st.average / lib.events.length := by
  obtain ⟨st', h', -, -, hh, -⟩ := C107_statistics lib
  rw [h] at h'
  cases h'
  obtain ⟨hmax, ⟨im, him⟩, hmin, ⟨in', hin⟩, havg, hden⟩ := hh hne
  have h0 : 0 < lib.events.length := List.length_pos_of_ne_nil hne
  have hq : (0 : ℚ) < lib.events.length := by exact_mod_cast h0
  have hone : ∀ i, 1 ≤ affected lib.events i := by
    intro i
    refine Finset.card_pos.2 ⟨i, ?_⟩
    rw [Finset.mem_filter]
    obtain ⟨a, ha⟩ := List.exists_mem_of_ne_nil _ (hs _ (List.getElem_mem i.2))
    exact ⟨Finset.mem_univ _, a, ha, ha⟩
  have hall : ∀ i, affected lib.events i ≤ lib.events.length := by
    intro i
    refine (Finset.card_filter_le _ _).trans ?_
    simp
  have hlo : (st.min : ℚ) * lib.events.length ≤ ∑ i, (affected lib.events i : ℚ) := by
    have : ∑ _i : Fin lib.events.length, (st.min : ℚ) ≤ ∑ i, (affected lib.events i : ℚ) :=
      Finset.sum_le_sum fun i _ => by exact_mod_cast hmin i
    simpa [mul_comm] using this
  have hhi : ∑ i, (affected lib.events i : ℚ) ≤ (st.max : ℚ) * lib.events.length := by
    have : ∑ i, (affected lib.events i : ℚ) ≤ ∑ _i : Fin lib.events.length, (st.max : ℚ) :=
      Finset.sum_le_sum fun i _ => by exact_mod_cast hmax i
    simpa [mul_comm] using this
  have hm1 : 1 ≤ st.min := hin ▸ hone in'
  have hmn : st.max ≤ lib.events.length := him ▸ hall im
  have ha1 : (st.min : ℚ) ≤ st.average := le_of_mul_le_mul_right (by rw [havg]; exact hlo) hq
  have ha2 : st.average ≤ st.max := le_of_mul_le_mul_right (by rw [havg]; exact hhi) hq
  have hd : st.density = st.average / lib.events.length := by
    rw [eq_div_iff hq.ne']
    apply mul_right_cancel₀ hq.ne'
    rw [havg]
    have : (overlaps lib.events : ℚ) = ∑ i, (affected lib.events i : ℚ) := by
      rw [overlaps_eq]; push_cast; rfl
    rw [← this, ← hden]
    ring
  refine ⟨hm1, ha1, ha2, hmn, ?_, ?_, hd⟩
  · rw [hd]
    apply div_le_div_of_nonneg_right _ hq.le
    exact le_trans (by exact_mod_cast hm1) ha1
  · rw [hd, div_le_iff₀ hq, one_mul]
    exact ha2.trans (by exact_mod_cast hmn)

/-- Without a table (never generated, or cleared) there are no statistics; with one, the two reports
agree on the number of dependencies. -/
theorem C107_reports_agree (lib : EventLib σ φ) :
    (lib.hasEventDependencies = false ↔ lib.statistics = none) ∧
    (lib.hasEventDependencies = false ↔ lib.dependenciesInfo = none) ∧
    lib.clearEventDependencies.statistics = none ∧
    lib.generateEventDependencies.hasEventDependencies = true ∧
    (∀ st n total, lib.statistics = some st → lib.dependenciesInfo = some (n, total) → st.total = total) ∧
    lib.generateEventDependencies.dependenciesInfo = some (lib.events.length, overlaps lib.events) := by
  refine ⟨?_, ?_, rfl, rfl, ?_, ?_⟩
  · unfold EventLib.hasEventDependencies EventLib.statistics
    cases lib.deps <;> simp
  · unfold EventLib.hasEventDependencies EventLib.dependenciesInfo
    cases lib.deps <;> simp
  · intro st n total h1 h2
    unfold EventLib.statistics at h1
    unfold EventLib.dependenciesInfo at h2
    cases hd : lib.deps with
    | none => rw [hd] at h1; cases h1
    | some rows =>
      rw [hd] at h1 h2
      cases h1; cases h2
      rfl
  · obtain ⟨rows, hr, hl⟩ := rows_lengths lib
    unfold EventLib.dependenciesInfo
    rw [hr]
    have hlen : rows.length = lib.events.length := by
      have := congrArg List.length hl
      simpa using this
    simp only [Option.some.injEq, Prod.mk.injEq]
    exact ⟨hlen, by rw [sumLengths_eq, hl, overlaps_eq, List.sum_ofFn]⟩

/-- A library without the metadata of its site order is not saved; with it, the saved dictionary is
that of the library. -/
theorem C107_save (lib : EventLib σ φ) :
    (lib.meta? = none → lib.save = .error .valueError) ∧
    (∀ m, lib.meta? = some m → lib.save = .ok lib.asDict) := by
  constructor
  · intro h; unfold EventLib.save; rw [h]
  · intro m h; unfold EventLib.save; rw [h]

/-- An event added after the table was generated is counted in the number of events and the density
only: all other numbers are those of the earlier library, until the table is generated again. -/
theorem C107_added_event_mixed (lib : EventLib σ φ) (e : Event) :
    ∃ st st', lib.generateEventDependencies.statistics = some st ∧
      (lib.generateEventDependencies.addEvent e).statistics = some st' ∧
      st'.totalEvents = lib.events.length + 1 ∧ st'.total = overlaps lib.events ∧
      st'.max = st.max ∧ st'.min = st.min ∧ st'.average = st.average ∧
      st'.density * ((lib.events.length : ℚ) + 1) ^ 2 = overlaps lib.events := by
  obtain ⟨rows, hr, hl⟩ := rows_lengths lib
  have hsum : EventLib.sumLengths rows = overlaps lib.events := by
    rw [sumLengths_eq, hl, overlaps_eq, List.sum_ofFn]
  have hr' : (lib.generateEventDependencies.addEvent e).deps = some rows := hr
  unfold EventLib.statistics
  rw [hr, hr']
  refine ⟨_, _, rfl, rfl, ?_, hsum, rfl, rfl, rfl, ?_⟩
  · simp [EventLib.addEvent, EventLib.generateEventDependencies]
  · have hev : (lib.generateEventDependencies.addEvent e).events = lib.events ++ [e] := rfl
    simp only [hev]
    rw [if_neg (by simp), hsum]
    have hq : ((lib.events.length : ℚ) + 1) ≠ 0 := by positivity
    have : (((lib.events ++ [e]).length ^ 2 : Nat) : ℚ) = ((lib.events.length : ℚ) + 1) ^ 2 := by
      simp
    rw [this, div_mul_cancel₀ _ (pow_ne_zero 2 hq)]

/-- Three events on a line, the first and the last not sharing a site: seven ordered pairs, between
two and three events affected; after a fourth event the table counts seven pairs where fourteen
share a site. -/
example : ∃ es : List Event, es = [⟨[0, 1], [2], none⟩, ⟨[1, 2], [3], none⟩, ⟨[3, 4], [], none⟩] ∧
    (∀ e ∈ es, e.mobile ++ e.env ≠ []) ∧ overlaps es = 7 ∧
    (({ events := es } : EventLib Unit Unit).generateEventDependencies.statistics).map
      (fun st => (st.totalEvents, st.total, st.max, st.min, st.average, st.density)) =
      some (3, 7, 3, 2, 7 / 3, 7 / 9) ∧
    overlaps (es ++ [⟨[4, 5], [2], none⟩]) = 14 := by
  refine ⟨_, rfl, by decide, by decide +kernel, ?_, by decide +kernel⟩
  have hm : generateEventDependencyMatrix [[0, 1, 2], [1, 2, 3], [3, 4]] = [[0, 1], [0, 1, 2], [1, 2]] := by
    have hs : ∀ l : List Int, l.Pairwise (· ≤ ·) → npSort l = l := by
      intro l hl
      exact List.mergeSort_of_pairwise (hl.imp fun h => by simpa using h)
    simp [generateEventDependencyMatrix, hs, arraysIntersect, List.zipIdx]
  have hd : (({ events := [⟨[0, 1], [2], none⟩, ⟨[1, 2], [3], none⟩, ⟨[3, 4], [], none⟩] } :
      EventLib Unit Unit).generateEventDependencies).deps = some [[0, 1], [0, 1, 2], [1, 2]] :=
    congrArg some hm
  unfold EventLib.statistics
  rw [hd]
  decide +kernel

end KMC
