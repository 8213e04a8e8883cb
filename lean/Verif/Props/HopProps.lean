import Verif.Lemmas.Hop
import Verif.Props.EventProps
/-
C12, C13 and C14.
-/
namespace KMC
open Spec

/-- C12, in chemical terms.  For an event annotated from the active-site order, on a state
whose sites are all in one of their allowed states, the direction is `+1` exactly when the
mobile ion sits on the from-site and a vacancy on the to-site, `-1` exactly in the mirrored
case, and `0` otherwise. -/
theorem C12_direction_of_species {φ : Type} (o : ActiveSiteOrder String φ) (mobile : String)
    (h : HopStateLookup) (hl : HopStateLookup.fromActiveSiteOrder o mobile = .ok h)
    (occ : List Int) (w : WellLabelled o mobile occ)
    (e e' : Event) (he : h.annotateEvent e = .ok e') (i j : Nat)
    (hmob : e.mobile = [(i : Int), (j : Int)]) (hi : i < occ.length) (hj : j < occ.length) :
    ∃ d, eventDirection occ e' = .ok d ∧ (d = 1 ∨ d = -1 ∨ d = 0) ∧
      (d = 1 ↔ speciesAt o occ i = some mobile ∧
        ∃ s, speciesAt o occ j = some s ∧ IsVacancyLabel s) ∧
      (d = -1 ↔ speciesAt o occ j = some mobile ∧
        ∃ s, speciesAt o occ i = some s ∧ IsVacancyLabel s) := by
  obtain ⟨f, t, mf, vt, vf, mt, hm', h1, h2, h3, h4, rfl⟩ := annotateEvent_ok he
  rw [hmob] at hm'
  simp only [List.cons.injEq, and_true] at hm'
  obtain ⟨rfl, rfl⟩ := hm'
  obtain ⟨m1, c1, hm1, hc1, e1, e2, -⟩ := site_codes w hl (i := i) (v := occ[i]) (by simp [hi])
  obtain ⟨m2, c2, hm2, hc2, e3, e4, -⟩ := site_codes w hl (i := j) (v := occ[j]) (by simp [hj])
  rw [pyGet_natCast hm1] at h1; cases h1
  rw [pyGet_natCast hc2] at h2; cases h2
  rw [pyGet_natCast hc1] at h3; cases h3
  rw [pyGet_natCast hm2] at h4; cases h4
  have hdir := eventDirection_of (e := { e with codes := some ⟨mf, vt, vf, mt⟩ }) hmob
    (pyIdx_natCast hi) (pyIdx_natCast hj) (vf := occ[i]) (vt := occ[j]) (by simp [hi]) (by simp [hj])
  refine ⟨_, hdir, ?_⟩
  have excl : ¬ ((speciesAt o occ i = some mobile ∧
      ∃ s, speciesAt o occ j = some s ∧ IsVacancyLabel s) ∧
      (speciesAt o occ j = some mobile ∧ ∃ s, speciesAt o occ i = some s ∧ IsVacancyLabel s)) := by
    rintro ⟨⟨hA, -⟩, -, s, hB, hB'⟩
    rw [hA] at hB; cases hB; exact w.mobileNotVacancy hB'
  simp only [← e1, ← e2, ← e3, ← e4] at excl ⊢
  simp only [Option.getD_some, endpointDirectionFromCodes]
  split
  · rename_i hA
    refine ⟨.inl rfl, ⟨fun _ => hA, fun _ => rfl⟩, ?_⟩
    constructor
    · intro h; cases h
    · intro hB; exact absurd ⟨hA, hB⟩ excl
  · rename_i hA
    split
    · rename_i hB
      refine ⟨.inr (.inl rfl), ?_, ?_⟩
      · constructor
        · intro h; cases h
        · intro hC; exact absurd hC hA
      · simp only [true_iff]; exact ⟨hB.2, hB.1⟩
    · rename_i hB
      refine ⟨.inr (.inr rfl), ?_, ?_⟩
      · constructor
        · intro h; cases h
        · intro hC; exact absurd hC hA
      · constructor
        · intro h; cases h
        · intro hC; exact absurd ⟨hC.2, hC.1⟩ hB

/-- C12, in terms of any per-site state codes: the direction depends on the two endpoint
occupations alone.  Occupation vectors that agree at the two endpoints give the same
direction, whatever the other sites hold. -/
theorem C12_direction_depends_on_endpoints (occ occ' : List Int) (e : Event) (i j : Nat)
    (hmob : e.mobile = [(i : Int), (j : Int)]) (hi : i < occ.length) (hj : j < occ.length)
    (h1 : occ'[i]? = occ[i]?) (h2 : occ'[j]? = occ[j]?) :
    eventDirection occ' e = eventDirection occ e := by
  have hi' : i < occ'.length := by
    by_contra hc; rw [List.getElem?_eq_none (by omega)] at h1; simp [hi] at h1
  have hj' : j < occ'.length := by
    by_contra hc; rw [List.getElem?_eq_none (by omega)] at h2; simp [hj] at h2
  rw [eventDirection_of hmob (pyIdx_natCast hi) (pyIdx_natCast hj) (vf := occ[i]) (vt := occ[j])
      (by simp [hi]) (by simp [hj]),
    eventDirection_of hmob (pyIdx_natCast hi') (pyIdx_natCast hj') (vf := occ[i]) (vt := occ[j])
      (by rw [h1]; simp [hi]) (by rw [h2]; simp [hj])]

/-- C12.  An event that was never given state numbers (one read from a library and not annotated) uses `0` for the
mobile ion and `1` for the vacancy, at both ends: the direction is `1` when the ion is at the first end and the vacancy
at the second, `-1` the other way round, and `0` in every other case. -/
theorem C12_direction_without_codes (occ : List Int) (e : Event) (i j : Nat) (vi vj : Int)
    (hmob : e.mobile = [(i : Int), (j : Int)]) (hc : e.codes = none) (hi : occ[i]? = some vi)
    (hj : occ[j]? = some vj) :
    ∃ d, eventDirection occ e = .ok d ∧ (d = 1 ∨ d = -1 ∨ d = 0) ∧
      (d = 1 ↔ vi = 0 ∧ vj = 1) ∧ (d = -1 ↔ vi = 1 ∧ vj = 0) := by
  have il : i < occ.length := by
    by_contra h; rw [List.getElem?_eq_none (by omega)] at hi; cases hi
  have jl : j < occ.length := by
    by_contra h; rw [List.getElem?_eq_none (by omega)] at hj; cases hj
  refine ⟨_, eventDirection_of hmob (pyIdx_natCast il) (pyIdx_natCast jl) hi hj, ?_⟩
  rw [hc]
  simp only [Option.getD_none, endpointDirectionFromCodes, defaultHopCodes]
  split_ifs <;> omega

example : eventDirection [1, 0] ⟨[0, 1], [], none⟩ = .ok (-1) := by decide

/-- C13.  When the two endpoints number the mobile ion alike and the vacancy alike, and
these are two different states, executing an allowed hop leaves a state in which the same
event has the opposite direction. -/
theorem C13_hop_reverses_direction {T : Type} [Add T] (s s' : State T) (e : Event) (dt : T) (d : Int)
    (c : HopCodes) (hc : e.codes = some c) (hm : c.mobFrom = c.mobTo) (hv : c.vacFrom = c.vacTo)
    (hne : c.mobFrom ≠ c.vacFrom) (hd : eventDirection s.occ e = .ok d) (hd0 : d ≠ 0)
    (h : s.applyEvent e dt = (.ok (), s')) : eventDirection s'.occ e = .ok (-d) := by
  obtain ⟨f, t, i, j, vf, vt, he, hi, hj, hvf, hvt, rfl⟩ := eventDirection_ok hd
  obtain ⟨f', t', i', j', hi', hj', he', h1, h2, rfl⟩ := applyEvent_ok h
  rw [he] at he'
  simp only [List.cons.injEq, and_true] at he'
  obtain ⟨rfl, rfl⟩ := he'
  rw [hi] at h1; rw [hj] at h2; cases h1; cases h2
  have hvf' : s.occ[i] = vf := by simpa [hi'] using hvf
  have hvt' : s.occ[j] = vt := by simpa [hj'] using hvt
  have hex := set_set_exchanged hi' hj'
  have hlen : ((s.occ.set i s.occ[j]).set j s.occ[i]).length = s.occ.length := by simp
  rw [eventDirection_of (i := i) (j := j) (vf := vt) (vt := vf) he (by rw [hlen]; exact hi)
    (by rw [hlen]; exact hj) (by rw [hex.2.1]; exact hvt) (by rw [hex.2.2.1]; exact hvf)]
  congr 1
  simp only [hc, Option.getD_some, endpointDirectionFromCodes] at hd0 ⊢
  rw [← hm, ← hv] at hd0 ⊢
  split_ifs at hd0 ⊢ <;> simp_all

/-- C13, disagreement.  When the two endpoints list the same two species in a different
order (`[Na, X]` and `[X, Na]`), the codes the library computes make the hop from an
occupied to an empty site allowed, but executing it exchanges two equal numbers: nothing
moves, and the direction does not reverse. -/
theorem C13_mixed_order_hop_does_not_move :
    ∃ (o : ActiveSiteOrder String Unit) (h : HopStateLookup) (e e' : Event) (s s' : State Nat),
      HopStateLookup.fromActiveSiteOrder o "Na" = .ok h ∧ h.annotateEvent e = .ok e' ∧
      WellLabelled o "Na" s.occ ∧ speciesList o s.occ = [some "Na", some "X"] ∧
      eventDirection s.occ e' = .ok 1 ∧ s.applyEvent e' 1 = (.ok (), s') ∧
      speciesList o s'.occ = [some "Na", some "X"] ∧ eventDirection s'.occ e' = .ok 1 := by
  let o : ActiveSiteOrder String Unit :=
    { primitiveSiteCount := 2, originalSiteCount := 2, primitiveActiveIndices := [0, 1],
      activeToOriginal := [0, 1], activeToPrimitive := [0, 1], fixedOriginalIndices := [],
      supercellShape := (1, 1, 1), speciesByPrimitiveSite := ["Na", "Na"],
      allowedSpeciesByPrimitiveSite := [["Na", "X"], ["X", "Na"]], fingerprint := () }
  refine ⟨o, ⟨[0, 1], [1, 0]⟩, ⟨[0, 1], [], none⟩, ⟨[0, 1], [], some ⟨0, 0, 1, 1⟩⟩, ⟨[0, 0], 0, 0⟩,
    ⟨[0, 0], 1, 1⟩, by decide, by decide, ?_, by decide, by decide, by decide, by decide, by decide⟩
  refine ⟨by decide, ?_, ?_, ?_, by simp [IsVacancyLabel]⟩
  · intro i hi
    have : i = 0 ∨ i = 1 := by simp at hi; omega
    rcases this with rfl | rfl
    · exact ⟨"Na", by decide⟩
    · exact ⟨"X", by decide⟩
  · intro a ha k l h1 h2
    have hk : k < a.length := by by_contra hc; rw [List.getElem?_eq_none (by omega)] at h1; cases h1
    have hl : l < a.length := by by_contra hc; rw [List.getElem?_eq_none (by omega)] at h2; cases h2
    simp only [o, List.mem_cons, List.not_mem_nil, or_false] at ha
    rcases ha with rfl | rfl
    all_goals
      simp only [List.length_cons, List.length_nil] at hk hl
      have hk' : k = 0 ∨ k = 1 := by omega
      have hl' : l = 0 ∨ l = 1 := by omega
      rcases hk' with rfl | rfl <;> rcases hl' with rfl | rfl <;> simp_all
  · intro a ha k l s t h1 h2 h3 h4
    have hk : k < a.length := by by_contra hc; rw [List.getElem?_eq_none (by omega)] at h1; cases h1
    have hl : l < a.length := by by_contra hc; rw [List.getElem?_eq_none (by omega)] at h2; cases h2
    simp only [o, List.mem_cons, List.not_mem_nil, or_false] at ha
    rcases ha with rfl | rfl
    all_goals
      simp only [List.length_cons, List.length_nil] at hk hl
      have hk' : k = 0 ∨ k = 1 := by omega
      have hl' : l = 0 ∨ l = 1 := by omega
      rcases hk' with rfl | rfl <;> rcases hl' with rfl | rfl <;>
        simp_all [IsVacancyLabel] <;> (subst_vars; simp_all)

/-- Two sites agree on what the state indices `v` and `w` stand for. -/
def SameLabels {φ : Type} (o : ActiveSiteOrder String φ) (i j : Nat) (v w : Int) : Prop :=
  speciesOf o i v = speciesOf o j v ∧ speciesOf o i w = speciesOf o j w

/-- C14 (partial).  One event whose two endpoint sites give the exchanged state numbers the
same meaning exchanges the species of the two sites: the ion moves, and every species
count is conserved.  Missing from the full claim: endpoints whose allowed species are
listed in a different order, for which the claim is false
(`C14_mixed_order_transmutes`). -/
theorem C14_hop_moves_species_partial {φ T : Type} [Add T] (o : ActiveSiteOrder String φ)
    (s s' : State T) (e : Event) (dt : T) (i j : Nat) (vi vj : Int)
    (he : e.mobile = [(i : Int), (j : Int)]) (hi : s.occ[i]? = some vi) (hj : s.occ[j]? = some vj)
    (hsame : SameLabels o i j vi vj) (h : s.applyEvent e dt = (.ok (), s')) :
    speciesAt o s'.occ j = speciesAt o s.occ i ∧ speciesAt o s'.occ i = speciesAt o s.occ j ∧
    (∀ k, k ≠ i → k ≠ j → speciesAt o s'.occ k = speciesAt o s.occ k) ∧
    ∀ x, speciesCount o s'.occ x = speciesCount o s.occ x := by
  obtain ⟨f', t', i', j', hi', hj', he', h1, h2, rfl⟩ := applyEvent_ok h
  have il : i < s.occ.length := by
    by_contra hc; rw [List.getElem?_eq_none (by omega)] at hi; cases hi
  have jl : j < s.occ.length := by
    by_contra hc; rw [List.getElem?_eq_none (by omega)] at hj; cases hj
  rw [he] at he'
  simp only [List.cons.injEq, and_true] at he'
  obtain ⟨rfl, rfl⟩ := he'
  rw [pyIdx_natCast il] at h1; rw [pyIdx_natCast jl] at h2; cases h1; cases h2
  have hex := set_set_exchanged hi' hj'
  generalize hocc : (s.occ.set i s.occ[j]).set j s.occ[i] = occ' at hex ⊢
  obtain ⟨hl, e1, e2, e3⟩ := hex
  have a1 : speciesAt o occ' j = speciesAt o s.occ i := by
    simp only [speciesAt, e2, hi]; exact hsame.1.symm
  have a2 : speciesAt o occ' i = speciesAt o s.occ j := by
    simp only [speciesAt, e1, hj]; exact hsame.2
  have a3 : ∀ k, k ≠ i → k ≠ j → speciesAt o occ' k = speciesAt o s.occ k := by
    intro k hk1 hk2; simp only [speciesAt, e3 k hk1 hk2]
  refine ⟨a1, a2, a3, ?_⟩
  intro x
  have hexs : Exchanged i j (speciesList o s.occ) (speciesList o occ') := by
    have key : ∀ k, (speciesList o s.occ)[k]? =
        if k < s.occ.length then some (speciesAt o s.occ k) else none := by
      intro k; simp only [speciesList, List.getElem?_map]
      by_cases hk : k < s.occ.length <;> simp [hk]
    have key' : ∀ k, (speciesList o occ')[k]? =
        if k < s.occ.length then some (speciesAt o occ' k) else none := by
      intro k; simp only [speciesList, hl]
      by_cases hk : k < s.occ.length <;> simp [hk]
    refine ⟨by simp [speciesList, hl], ?_, ?_, ?_⟩
    · rw [key, key']; simp [il, jl, a2]
    · rw [key, key']; simp [il, jl, a1]
    · intro k hk1 hk2; rw [key, key', a3 k hk1 hk2]
  exact (exchanged_perm (by simpa [speciesList] using il) (by simpa [speciesList] using jl)
    hexs).count_eq _

/-- C14 (partial), any history: if all sites list the same allowed species, no sequence of
events whatsoever changes the number of sites carrying a species. -/
theorem C14_species_conserved_partial {φ T : Type} [Add T] (o : ActiveSiteOrder String φ)
    (a : List String) (hall : ∀ k < o.activeToPrimitive.length, allowedAt o k = some a)
    (history : List (Event × T)) (s : State T) (hlen : s.occ.length = o.activeToPrimitive.length)
    (x : String) :
    speciesCount o (history.foldl (fun s p => (s.applyEvent p.1 p.2).2) s).occ x =
      speciesCount o s.occ x := by
  have hperm : ∀ b c : List Int, b.length = o.activeToPrimitive.length → b.Perm c →
      speciesCount o b x = speciesCount o c x := by
    intro b c hb hp
    have key : ∀ b : List Int, b.length = o.activeToPrimitive.length →
        speciesList o b = b.map fun v => if v < 0 then none else a[v.toNat]? := by
      intro b hb
      apply List.ext_getElem?
      intro k
      simp only [speciesList, List.getElem?_map]
      by_cases hk : k < b.length
      · simp [hk, speciesAt, speciesOf, hall k (by omega)]
      · simp [hk]
    unfold speciesCount
    rw [key b hb, key c (by rw [← hp.length_eq]; exact hb)]
    exact (hp.map _).count_eq _
  have : (history.foldl (fun s p => (s.applyEvent p.1 p.2).2) s).occ.Perm s.occ := by
    clear hlen
    induction history generalizing s with
    | nil => simp
    | cons p ps ih => exact (ih _).trans (applyEvent_perm s p.1 p.2)
  exact hperm _ _ (by rw [this.length_eq]; exact hlen) this

/-- C14, disagreement.  With allowed species `[Na, K, X]` on one site and `[Na, X]` on the
other, an allowed hop of the sodium ion turns a vacancy into a potassium ion. -/
theorem C14_mixed_order_transmutes :
    ∃ (o : ActiveSiteOrder String Unit) (h : HopStateLookup) (e e' : Event) (s s' : State Nat),
      HopStateLookup.fromActiveSiteOrder o "Na" = .ok h ∧ h.annotateEvent e = .ok e' ∧
      eventDirection s.occ e' = .ok 1 ∧ s.applyEvent e' 1 = (.ok (), s') ∧
      speciesList o s.occ = [some "Na", some "X"] ∧
      speciesList o s'.occ = [some "K", some "Na"] ∧
      speciesCount o s.occ "K" = 0 ∧ speciesCount o s'.occ "K" = 1 := by
  let o : ActiveSiteOrder String Unit :=
    { primitiveSiteCount := 2, originalSiteCount := 2, primitiveActiveIndices := [0, 1],
      activeToOriginal := [0, 1], activeToPrimitive := [0, 1], fixedOriginalIndices := [],
      supercellShape := (1, 1, 1), speciesByPrimitiveSite := ["Na", "Na"],
      allowedSpeciesByPrimitiveSite := [["Na", "K", "X"], ["Na", "X"]], fingerprint := () }
  exact ⟨o, ⟨[0, 0], [2, 1]⟩, ⟨[0, 1], [], none⟩, ⟨[0, 1], [], some ⟨0, 1, 2, 0⟩⟩, ⟨[0, 1], 0, 0⟩,
    ⟨[1, 0], 1, 1⟩, by decide, by decide, by decide, by decide, by decide, by decide, by decide,
    by decide⟩

/-- Non-vacuity for C12, C13 and C14: five equal sites, an ion on site 0 next to a vacancy
on site 1. -/
theorem exampleOrder_wellLabelled (occ : List Int) (hlen : occ.length = 5)
    (h01 : ∀ v ∈ occ, v = 0 ∨ v = 1) : WellLabelled exampleOrder "Na" occ := by
  have hall : ∀ i, i < 5 → allowedAt exampleOrder i = some ["Na", "X"] := by decide
  refine ⟨by simp [hlen, exampleOrder], ?_, ?_, ?_, by simp [IsVacancyLabel]⟩
  · intro i hi
    simp only [speciesAt, speciesOf, hall i (by omega), List.getElem?_eq_getElem hi]
    rcases h01 occ[i] (List.getElem_mem hi) with h | h <;> simp [h]
  · intro a ha k l h1 h2
    have hk : k < a.length := by by_contra hc; rw [List.getElem?_eq_none (by omega)] at h1; cases h1
    have hl : l < a.length := by by_contra hc; rw [List.getElem?_eq_none (by omega)] at h2; cases h2
    simp only [exampleOrder, List.mem_cons, List.not_mem_nil, or_false] at ha
    subst ha
    simp only [List.length_cons, List.length_nil] at hk hl
    have hk' : k = 0 ∨ k = 1 := by omega
    have hl' : l = 0 ∨ l = 1 := by omega
    rcases hk' with rfl | rfl <;> rcases hl' with rfl | rfl <;> simp_all
  · intro a ha k l s t h1 h2 h3 h4
    have hk : k < a.length := by by_contra hc; rw [List.getElem?_eq_none (by omega)] at h1; cases h1
    have hl : l < a.length := by by_contra hc; rw [List.getElem?_eq_none (by omega)] at h2; cases h2
    simp only [exampleOrder, List.mem_cons, List.not_mem_nil, or_false] at ha
    subst ha
    simp only [List.length_cons, List.length_nil] at hk hl
    have hk' : k = 0 ∨ k = 1 := by omega
    have hl' : l = 0 ∨ l = 1 := by omega
    rcases hk' with rfl | rfl <;> rcases hl' with rfl | rfl <;>
      simp_all [IsVacancyLabel] <;> (subst_vars; simp_all)

example : WellLabelled exampleOrder "Na" [0, 1, 0, 1, 1] :=
  exampleOrder_wellLabelled _ rfl (by decide)
example : HopStateLookup.fromActiveSiteOrder exampleOrder "Na" =
    .ok ⟨[0, 0, 0, 0, 0], [1, 1, 1, 1, 1]⟩ := by decide
example : (⟨[0, 0, 0, 0, 0], [1, 1, 1, 1, 1]⟩ : HopStateLookup).annotateEvent ⟨[0, 1], [4], none⟩ =
    .ok ⟨[0, 1], [4], some ⟨0, 1, 1, 0⟩⟩ := by decide
example : eventDirection [0, 1, 0, 1, 1] ⟨[0, 1], [4], some ⟨0, 1, 1, 0⟩⟩ = .ok 1 ∧
    eventDirection [1, 0, 0, 1, 1] ⟨[0, 1], [4], some ⟨0, 1, 1, 0⟩⟩ = .ok (-1) ∧
    eventDirection [0, 0, 0, 1, 1] ⟨[0, 1], [4], some ⟨0, 1, 1, 0⟩⟩ = .ok 0 := by decide
example : SameLabels exampleOrder 0 1 0 1 := by constructor <;> decide

end KMC
