import Verif.Model.Propose
/-
Lemmas about the cumulative table, the bisection and the event selection.
-/
namespace KMC

/-- The bisection on a sorted table: everything before the result is at most `v`,
everything from the result on is larger. -/
theorem bisectRight_spec {a : List ℝ} (hs : a.Pairwise (· ≤ ·)) (v : ℝ) :
    ∀ fuel lo hi, lo ≤ hi → hi ≤ a.length → hi - lo ≤ fuel →
      (∀ (j : Nat) (x : ℝ), j < lo → a[j]? = some x → x ≤ v) → (∀ (j : Nat) (x : ℝ), hi ≤ j → a[j]? = some x → v < x) →
      bisectRight a v fuel lo hi ≤ a.length ∧
      (∀ (j : Nat) (x : ℝ), j < bisectRight a v fuel lo hi → a[j]? = some x → x ≤ v) ∧
      (∀ (j : Nat) (x : ℝ), bisectRight a v fuel lo hi ≤ j → a[j]? = some x → v < x) := by
  have hmono : ∀ (i j : Nat) (x y : ℝ), i ≤ j → a[i]? = some x → a[j]? = some y → x ≤ y := by
    intro i j x y hij hi hj
    rcases Nat.eq_or_lt_of_le hij with h | h
    · subst h; rw [hi] at hj; cases hj; exact le_refl _
    · rw [List.pairwise_iff_getElem] at hs
      obtain ⟨h1, rfl⟩ := List.getElem?_eq_some_iff.1 hi
      obtain ⟨h2, rfl⟩ := List.getElem?_eq_some_iff.1 hj
      exact hs i j h1 h2 h
  intro fuel
  induction fuel with
  | zero =>
    intro lo hi h1 h2 h3 h4 h5
    have : lo = hi := by omega
    subst this
    exact ⟨h2, h4, h5⟩
  | succ n ih =>
    intro lo hi h1 h2 h3 h4 h5
    simp only [bisectRight]
    by_cases hlt : lo < hi
    · rw [if_pos hlt]
      have hm : (lo + hi) / 2 < a.length := by omega
      have hg : a[(lo + hi) / 2]? = some a[(lo + hi) / 2] := by simp [hm]
      rw [hg]
      simp only
      split
      · rename_i hv
        refine ih lo _ (by omega) (by omega) (by omega) h4 ?_
        intro j x hj hx
        exact lt_of_lt_of_le hv (hmono _ _ _ _ hj hg hx)
      · rename_i hv
        refine ih _ hi (by omega) h2 (by omega) ?_ h5
        intro j x hj hx
        exact le_trans (hmono _ _ _ _ (by omega) hx hg) (not_lt.1 hv)
    · rw [if_neg hlt]
      have : lo = hi := by omega
      subst this
      exact ⟨h2, h4, h5⟩

theorem searchsortedRight_spec {a : List ℝ} (hs : a.Pairwise (· ≤ ·)) (v : ℝ) :
    searchsortedRight a v ≤ a.length ∧
      (∀ (j : Nat) (x : ℝ), j < searchsortedRight a v → a[j]? = some x → x ≤ v) ∧
      (∀ (j : Nat) (x : ℝ), searchsortedRight a v ≤ j → a[j]? = some x → v < x) := by
  refine bisectRight_spec hs v a.length 0 a.length (by omega) (le_refl _) (by omega) (by simp) ?_
  intro j x hj hx
  rw [List.getElem?_eq_none hj] at hx
  cases hx

/-- The result of `searchsorted` is the only position with this property. -/
theorem searchsortedRight_eq_iff {a : List ℝ} (hs : a.Pairwise (· ≤ ·)) (v : ℝ) {i : Nat}
    (hi : i < a.length) :
    searchsortedRight a v = i ↔ v < a[i] ∧ ∀ (j : Nat) (x : ℝ), j < i → a[j]? = some x → x ≤ v := by
  obtain ⟨h1, h2, h3⟩ := searchsortedRight_spec hs v
  constructor
  · intro h
    rw [h] at h2 h3
    exact ⟨h3 i _ (le_refl _) (by simp [hi]), h2⟩
  · rintro ⟨h4, h5⟩
    rcases Nat.lt_trichotomy (searchsortedRight a v) i with h | h | h
    · have hl : searchsortedRight a v < a.length := by omega
      have e1 := h3 _ a[searchsortedRight a v] (le_refl _) (by simp [hl])
      have e2 := h5 _ a[searchsortedRight a v] h (by simp [hl])
      exact absurd e1 (not_lt.2 e2)
    · exact h
    · have e1 := h2 i a[i] h (by simp [hi])
      exact absurd h4 (not_lt.2 e1)

variable (R : Rounding)

theorem cumsumFrom_length (acc : ℝ) (ps : List ℝ) : (cumsumFrom R acc ps).length = ps.length := by
  induction ps generalizing acc with
  | nil => rfl
  | cons p ps ih => simp [cumsumFrom, ih]

theorem cumsum_length (ps : List ℝ) : (cumsum R ps).length = ps.length := by
  cases ps with
  | nil => rfl
  | cons p ps => simp [cumsum, cumsumFrom_length]

theorem cumsum_get {ps : List ℝ} {i : Nat} (hi : i < ps.length) :
    ∃ c, (cumsum R ps)[i]? = some c :=
  ⟨_, List.getElem?_eq_getElem (by rwa [cumsum_length])⟩

/-- Entry 0 of the table. -/
theorem cumsum_zero {ps : List ℝ} : (cumsum R ps)[0]? = ps[0]? := by
  cases ps <;> simp [cumsum]

theorem cumsumFrom_succ {acc : ℝ} {ps : List ℝ} {i : Nat} {c p : ℝ}
    (hc : (acc :: cumsumFrom R acc ps)[i]? = some c) (hp : ps[i]? = some p) :
    (cumsumFrom R acc ps)[i]? = some (R.rnd (c + p)) := by
  induction ps generalizing acc i with
  | nil => simp at hp
  | cons q ps ih =>
    cases i with
    | zero => simp at hc hp; subst hc; subst hp; simp [cumsumFrom]
    | succ i =>
      simp only [List.getElem?_cons_succ] at hc hp
      simp only [cumsumFrom, List.getElem?_cons_succ] at hc ⊢
      exact ih hc hp

/-- Each later entry adds its rate to the previous one. -/
theorem cumsum_succ {ps : List ℝ} {i : Nat} {c p : ℝ}
    (hc : (cumsum R ps)[i]? = some c) (hp : ps[i + 1]? = some p) :
    (cumsum R ps)[i + 1]? = some (R.rnd (c + p)) := by
  cases ps with
  | nil => simp at hp
  | cons q ps => exact cumsumFrom_succ R hc (by simpa using hp)

section
variable {R} {ps : List ℝ} (hrep : ∀ p ∈ ps, R.Rep p) (hnn : ∀ p ∈ ps, 0 ≤ p)
include hrep hnn

theorem cumsum_rep {i : Nat} {c : ℝ} (hc : (cumsum R ps)[i]? = some c) : R.Rep c ∧ 0 ≤ c := by
  induction i generalizing c with
  | zero =>
    rw [cumsum_zero] at hc
    have := List.mem_of_getElem? hc
    exact ⟨hrep _ this, hnn _ this⟩
  | succ i ih =>
    have hlt : i + 1 < ps.length := by
      have := (List.getElem?_eq_some_iff.1 hc).1
      rwa [cumsum_length] at this
    obtain ⟨c0, h0⟩ := cumsum_get R (ps := ps) (i := i) (by omega)
    have h1 : ps[i + 1]? = some ps[i + 1] := by simp [hlt]
    have h2 := cumsum_succ R h0 h1
    rw [hc] at h2
    cases h2
    have hp := hnn _ (List.getElem_mem hlt)
    refine ⟨R.idem _, ?_⟩
    calc (0 : ℝ) = R.rnd 0 := R.zero.symm
      _ ≤ _ := R.mono (add_nonneg (ih h0).2 hp)

theorem cumsum_step {i : Nat} {c p : ℝ} (hc : (cumsum R ps)[i]? = some c)
    (hp : ps[i + 1]? = some p) : ∃ c', (cumsum R ps)[i + 1]? = some c' ∧ c ≤ c' ∧ p ≤ c' ∧
      (p = 0 → c' = c) := by
  refine ⟨_, cumsum_succ R hc hp, ?_, ?_, ?_⟩
  · have h := (cumsum_rep hrep hnn hc).1
    calc c = R.rnd c := h.symm
      _ ≤ _ := R.mono (by have := hnn _ (List.mem_of_getElem? hp); linarith)
  · have h := hrep _ (List.mem_of_getElem? hp)
    calc p = R.rnd p := h.symm
      _ ≤ _ := R.mono (by have := (cumsum_rep hrep hnn hc).2; linarith)
  · rintro rfl
    rw [add_zero]; exact (cumsum_rep hrep hnn hc).1

theorem cumsum_le_of_le {i j : Nat} {c d : ℝ} (hij : i ≤ j) (hc : (cumsum R ps)[i]? = some c)
    (hd : (cumsum R ps)[j]? = some d) : c ≤ d := by
  induction j generalizing d with
  | zero =>
    have : i = 0 := by omega
    subst this; rw [hc] at hd; cases hd; exact le_refl _
  | succ j ih =>
    rcases Nat.eq_or_lt_of_le hij with h | h
    · subst h; rw [hc] at hd; cases hd; exact le_refl _
    · have hlt : j + 1 < ps.length := by
        have := (List.getElem?_eq_some_iff.1 hd).1
        rwa [cumsum_length] at this
      obtain ⟨c0, h0⟩ := cumsum_get R (ps := ps) (i := j) (by omega)
      obtain ⟨c', h1, h2, -, -⟩ := cumsum_step hrep hnn h0 (p := ps[j + 1]) (by simp [hlt])
      rw [hd] at h1; cases h1
      exact le_trans (ih (by omega) h0) h2

theorem cumsum_sorted : (cumsum R ps).Pairwise (· ≤ ·) := by
  rw [List.pairwise_iff_getElem]
  intro i j hi hj hij
  exact cumsum_le_of_le hrep hnn (le_of_lt hij) (by simp [hi]) (by simp [hj])

theorem rate_le_cumsum {i : Nat} {c p : ℝ} (hc : (cumsum R ps)[i]? = some c)
    (hp : ps[i]? = some p) : p ≤ c := by
  cases i with
  | zero => rw [cumsum_zero, hp] at hc; cases hc; exact le_refl _
  | succ i =>
    have hlt : i + 1 < ps.length := (List.getElem?_eq_some_iff.1 hp).1
    obtain ⟨c0, h0⟩ := cumsum_get R (ps := ps) (i := i) (by omega)
    obtain ⟨c', h1, -, h2, -⟩ := cumsum_step hrep hnn h0 hp
    rw [hc] at h1; cases h1; exact h2

/-- The last entry of the table bounds every rate. -/
theorem total_ge {tot : ℝ} (ht : (cumsum R ps).getLast? = some tot) {p : ℝ} (hp : p ∈ ps) :
    p ≤ tot := by
  obtain ⟨i, hi, rfl⟩ := List.getElem_of_mem hp
  rw [List.getLast?_eq_getElem?] at ht
  obtain ⟨c1, h1⟩ := cumsum_get R hi
  exact le_trans (rate_le_cumsum hrep hnn h1 (by simp [hi]))
    (cumsum_le_of_le hrep hnn (by rw [cumsum_length]; omega) h1 ht)

theorem table_sorted {tot : ℝ} (htot : 0 < tot) :
    ((cumsum R ps).map fun c => R.rnd (c / tot)).Pairwise (· ≤ ·) := by
  rw [List.pairwise_map]
  refine (cumsum_sorted hrep hnn).imp ?_
  intro a b hab
  exact R.mono (by gcongr)

/-- The selected event: index in range with a positive rate. -/
theorem selected_positive {tot r : ℝ} (ht : (cumsum R ps).getLast? = some tot) (htot : 0 < tot)
    (hr0 : 0 ≤ r) (hr1 : r < 1) :
    ∃ p, ps[searchsortedRight ((cumsum R ps).map fun c => R.rnd (c / tot)) r]? = some p ∧ 0 < p := by
  obtain ⟨h1, h2, h3⟩ := searchsortedRight_spec (table_sorted hrep hnn htot) r
  generalize searchsortedRight ((cumsum R ps).map fun c => R.rnd (c / tot)) r = i at h1 h2 h3 ⊢
  have hne : (cumsum R ps).length ≠ 0 := by
    intro h
    rw [List.length_eq_zero_iff.1 h] at ht
    cases ht
  rw [List.length_map] at h1
  have hlast : (cumsum R ps)[(cumsum R ps).length - 1]? = some tot := by
    rw [← List.getLast?_eq_getElem?]; exact ht
  have hlt : i < (cumsum R ps).length := by
    by_contra hge
    have hie : i = (cumsum R ps).length := by omega
    have := h2 ((cumsum R ps).length - 1) 1 (by omega) (by
      rw [List.getElem?_map, hlast]
      simp [div_self (ne_of_gt htot), R.one])
    linarith
  have hlt' : i < ps.length := by rwa [cumsum_length] at hlt
  refine ⟨ps[i], by simp [hlt'], ?_⟩
  rcases lt_or_eq_of_le (hnn _ (List.getElem_mem hlt')) with h | h
  · exact h
  · exfalso
    have hpi : ps[i]? = some 0 := by rw [h]; simp [hlt']
    obtain ⟨c, hc⟩ := cumsum_get R hlt'
    have hgt := h3 i (R.rnd (c / tot)) (le_refl _) (by rw [List.getElem?_map, hc]; rfl)
    cases i with
    | zero =>
      rw [cumsum_zero, hpi] at hc
      cases hc
      rw [zero_div, R.zero] at hgt
      linarith
    | succ j =>
      obtain ⟨c0, hj⟩ := cumsum_get R (ps := ps) (i := j) (by omega)
      obtain ⟨c', e1, -, -, e2⟩ := cumsum_step hrep hnn hj hpi
      rw [hc] at e1; cases e1
      rw [e2 rfl] at hgt
      have := h2 j (R.rnd (c0 / tot)) (by omega) (by rw [List.getElem?_map, hj]; rfl)
      linarith

end

/-- In exact arithmetic the table holds the sums of the leading rates. -/
theorem cumsumFrom_exact (acc : ℝ) (ps : List ℝ) {i : Nat} (hi : i < ps.length) :
    (cumsumFrom Rounding.exact acc ps)[i]? = some (acc + (ps.take (i + 1)).sum) := by
  induction ps generalizing acc i with
  | nil => simp at hi
  | cons p ps ih =>
    cases i with
    | zero => simp [cumsumFrom, Rounding.exact]
    | succ i =>
      simp only [cumsumFrom, List.getElem?_cons_succ, List.take_succ_cons, List.sum_cons]
      rw [ih _ (by simpa using hi)]
      simp [Rounding.exact, add_assoc]

theorem cumsum_exact (ps : List ℝ) {i : Nat} (hi : i < ps.length) :
    (cumsum Rounding.exact ps)[i]? = some (ps.take (i + 1)).sum := by
  cases ps with
  | nil => simp at hi
  | cons p ps =>
    cases i with
    | zero => simp [cumsum]
    | succ i =>
      simp only [cumsum, List.getElem?_cons_succ, List.take_succ_cons, List.sum_cons]
      exact cumsumFrom_exact p ps (by simpa using hi)

theorem cumsum_exact_last {ps : List ℝ} (hne : ps ≠ []) :
    (cumsum Rounding.exact ps).getLast? = some ps.sum := by
  have hl : 0 < ps.length := List.length_pos_iff.2 hne
  rw [List.getLast?_eq_getElem?, cumsum_length, cumsum_exact ps (by omega)]
  congr 2
  exact List.take_of_length_le (by omega)

theorem cumsumFrom_zero (ps : List ℝ) (h : ∀ p ∈ ps, p = 0) :
    ∀ c ∈ cumsumFrom R 0 ps, c = 0 := by
  induction ps with
  | nil => simp [cumsumFrom]
  | cons p ps ih =>
    have hp : p = 0 := h p (by simp)
    subst hp
    simp only [cumsumFrom, add_zero, R.zero, List.mem_cons]
    rintro c (rfl | hc)
    · rfl
    · exact ih (fun q hq => h q (by simp [hq])) c hc

theorem cumsum_all_zero (ps : List ℝ) (h : ∀ p ∈ ps, p = 0) : ∀ c ∈ cumsum R ps, c = 0 := by
  cases ps with
  | nil => simp [cumsum]
  | cons p ps =>
    have hp : p = 0 := h p (by simp)
    subst hp
    simp only [cumsum, List.mem_cons]
    rintro c (rfl | hc)
    · rfl
    · exact cumsumFrom_zero R ps (fun q hq => h q (by simp [hq])) c hc

end KMC
