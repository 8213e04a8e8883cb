import Verif.Model.Hop
import Verif.Lemmas.State
import Verif.Spec.Species
/-
Facts about hop-state codes.
-/
namespace KMC
open Spec

theorem isVacancyLabel_iff (s : String) : isVacancyLabel s = true ↔ IsVacancyLabel s := by
  simp [isVacancyLabel, IsVacancyLabel]

theorem isMobileLabel_iff (s m : String) : isMobileLabel s m = true ↔ s = m := by
  simp [isMobileLabel]

/-- `lastMatchingState` is the accumulator or the last matching position. -/
theorem lastMatchingState_spec (p : String → Bool) (l : List String) (i : Nat) (acc : Int) :
    (lastMatchingState p i l acc = acc ∧ ∀ (k : Nat) s, l[k]? = some s → p s = false) ∨
    (∃ (k : Nat) (s : String), lastMatchingState p i l acc = ((i + k : Nat) : Int) ∧ l[k]? = some s ∧ p s = true) := by
  induction l generalizing i acc with
  | nil => left; simp [lastMatchingState]
  | cons a l ih =>
    simp only [lastMatchingState]
    rcases ih (i + 1) (if p a then (i : Int) else acc) with ⟨h1, h2⟩ | ⟨k, s, h1, h2, h3⟩
    · by_cases hp : p a = true
      · right; refine ⟨0, a, ?_, by simp, hp⟩
        rw [h1]; simp [hp]
      · left
        simp only [hp, Bool.false_eq_true, if_false] at h1 ⊢
        refine ⟨h1, ?_⟩
        intro k s hk
        cases k with
        | zero => simp at hk; subst hk; simpa using hp
        | succ k => exact h2 k s (by simpa using hk)
    · right
      refine ⟨k + 1, s, ?_, by simpa using h2, h3⟩
      rw [h1]; push_cast; ring

/-- For a predicate that holds at most once in `l`, a valid state index is the matching
state exactly when its label satisfies the predicate. -/
theorem lastMatchingState_eq_iff (p : String → Bool) (l : List String)
    (huniq : ∀ (k k' : Nat) s t, l[k]? = some s → l[k']? = some t → p s = true → p t = true → k = k')
    (v : Nat) (s : String) (hv : l[v]? = some s) :
    (v : Int) = lastMatchingState p 0 l invalidState ↔ p s = true := by
  rcases lastMatchingState_spec p l 0 invalidState with ⟨h1, h2⟩ | ⟨k, t, h1, h2, h3⟩
  · rw [h1]
    have := h2 v s hv
    simp only [this, invalidState, Bool.false_eq_true, iff_false]
    omega
  · rw [h1]
    constructor
    · intro h
      have : v = k := by omega
      subst this
      rw [h2] at hv; cases hv; exact h3
    · intro h
      have := huniq v k s t hv h2 h h3
      omega

theorem lookup_go {φ : Type} (o : ActiveSiteOrder String φ) (mobile : String) (ps : List Nat)
    (h : HopStateLookup) (hg : HopStateLookup.fromActiveSiteOrder.go o mobile ps = .ok h) :
    h.mobileStateBySite.length = ps.length ∧ h.vacancyStateBySite.length = ps.length ∧
    ∀ (i : Nat) p, ps[i]? = some p → ∃ a, o.allowedSpeciesByPrimitiveSite[p]? = some a ∧
      h.mobileStateBySite[i]? =
        some (lastMatchingState (fun s => isMobileLabel s mobile) 0 a invalidState) ∧
      h.vacancyStateBySite[i]? = some (lastMatchingState isVacancyLabel 0 a invalidState) := by
  induction ps generalizing h with
  | nil =>
    simp only [HopStateLookup.fromActiveSiteOrder.go] at hg
    cases hg; simp
  | cons p ps ih =>
    unfold HopStateLookup.fromActiveSiteOrder.go at hg
    split at hg
    · cases hg
    · rename_i a ha
      split at hg
      · cases hg
      · rename_i r hr
        cases hg
        obtain ⟨h1, h2, h3⟩ := ih r hr
        refine ⟨by simp [h1], by simp [h2], ?_⟩
        intro i q hq
        cases i with
        | zero => simp at hq; subst hq; exact ⟨a, ha, by simp, by simp⟩
        | succ i => simpa using h3 i q (by simpa using hq)

theorem lookup_spec {φ : Type} {o : ActiveSiteOrder String φ} {mobile : String}
    {h : HopStateLookup} (hl : HopStateLookup.fromActiveSiteOrder o mobile = .ok h) :
    h.mobileStateBySite.length = o.activeToPrimitive.length ∧
    h.vacancyStateBySite.length = o.activeToPrimitive.length ∧
    ∀ i, i < o.activeToPrimitive.length → ∃ a, allowedAt o i = some a ∧
      a ∈ o.allowedSpeciesByPrimitiveSite ∧
      h.mobileStateBySite[i]? =
        some (lastMatchingState (fun s => isMobileLabel s mobile) 0 a invalidState) ∧
      h.vacancyStateBySite[i]? = some (lastMatchingState isVacancyLabel 0 a invalidState) := by
  obtain ⟨h1, h2, h3⟩ := lookup_go o mobile o.activeToPrimitive h hl
  refine ⟨h1, h2, ?_⟩
  intro i hi
  obtain ⟨a, ha, hm, hv⟩ := h3 i o.activeToPrimitive[i] (by simp [hi])
  exact ⟨a, by simp [allowedAt, hi, ha], List.mem_of_getElem? ha, hm, hv⟩

theorem annotateEvent_ok {h : HopStateLookup} {e e' : Event} (he : h.annotateEvent e = .ok e') :
    ∃ f t mf vt vf mt, e.mobile = [f, t] ∧ pyGet h.mobileStateBySite f = .ok mf ∧
      pyGet h.vacancyStateBySite t = .ok vt ∧ pyGet h.vacancyStateBySite f = .ok vf ∧
      pyGet h.mobileStateBySite t = .ok mt ∧ e' = { e with codes := some ⟨mf, vt, vf, mt⟩ } := by
  unfold HopStateLookup.annotateEvent at he
  cases hu : unpack2 e.mobile with
  | error x => rw [hu] at he; cases he
  | ok p =>
    obtain ⟨f, t⟩ := p
    rw [hu] at he
    rw [unpack2_ok_iff] at hu
    simp only at he
    split at he
    · rename_i mf vt vf mt h1 h2 h3 h4
      cases he
      exact ⟨f, t, mf, vt, vf, mt, hu, h1, h2, h3, h4, rfl⟩
    · cases he

/-- The species on a well-labelled site is the mobile ion exactly when its state is the
site's mobile code; likewise for the vacancy. -/
theorem site_codes {φ : Type} {o : ActiveSiteOrder String φ} {mobile : String} {occ : List Int}
    (w : WellLabelled o mobile occ) {h : HopStateLookup}
    (hl : HopStateLookup.fromActiveSiteOrder o mobile = .ok h) {i : Nat} {v : Int}
    (hv : occ[i]? = some v) :
    ∃ m c, h.mobileStateBySite[i]? = some m ∧ h.vacancyStateBySite[i]? = some c ∧
      (v = m ↔ speciesAt o occ i = some mobile) ∧
      (v = c ↔ ∃ s, speciesAt o occ i = some s ∧ IsVacancyLabel s) ∧ v ≠ invalidState := by
  have hi : i < occ.length := by
    by_contra hc; rw [List.getElem?_eq_none (by omega)] at hv; cases hv
  obtain ⟨-, -, hs⟩ := lookup_spec hl
  obtain ⟨a, ha, hmem, hm, hc⟩ := hs i (by rw [← w.length]; exact hi)
  obtain ⟨s, hsp⟩ := w.valid i hi
  have hsp' := hsp
  unfold speciesAt at hsp
  rw [hv] at hsp
  simp only [speciesOf, ha] at hsp
  split at hsp
  · cases hsp
  · rename_i hneg
    obtain ⟨n, rfl⟩ : ∃ n : Nat, v = (n : Int) := ⟨v.toNat, by omega⟩
    simp only [Int.toNat_natCast] at hsp
    refine ⟨_, _, hm, hc, ?_, ?_, by simp [invalidState]⟩
    · rw [lastMatchingState_eq_iff _ a _ n s hsp, isMobileLabel_iff, hsp']
      · simp
      · intro k k' s t h1 h2 h3 h4
        rw [isMobileLabel_iff] at h3 h4
        subst h3; subst h4
        exact w.mobileOnce a hmem k k' h1 h2
    · rw [lastMatchingState_eq_iff _ a _ n s hsp, isVacancyLabel_iff, hsp']
      · simp
      · intro k k' s t h1 h2 h3 h4
        rw [isVacancyLabel_iff] at h3 h4
        exact w.vacancyOnce a hmem k k' s t h1 h2 h3 h4

theorem eventDirection_of {occ : List Int} {e : Event} {f t : Int} {i j : Nat} {vf vt : Int}
    (he : e.mobile = [f, t]) (hi : pyIdx occ.length f = some i) (hj : pyIdx occ.length t = some j)
    (hvf : occ[i]? = some vf) (hvt : occ[j]? = some vt) :
    eventDirection occ e = .ok (endpointDirectionFromCodes vf vt (e.codes.getD defaultHopCodes)) := by
  unfold eventDirection
  rw [he]
  simp only [unpack2]
  rw [pyGet_ok_iff.2 ⟨i, hi, hvf⟩, pyGet_ok_iff.2 ⟨j, hj, hvt⟩]

theorem eventDirection_ok {occ : List Int} {e : Event} {d : Int}
    (h : eventDirection occ e = .ok d) :
    ∃ (f t : Int) (i j : Nat) (vf vt : Int), e.mobile = [f, t] ∧ pyIdx occ.length f = some i ∧
      pyIdx occ.length t = some j ∧ occ[i]? = some vf ∧ occ[j]? = some vt ∧
      d = endpointDirectionFromCodes vf vt (e.codes.getD defaultHopCodes) := by
  unfold eventDirection at h
  cases hu : unpack2 e.mobile with
  | error x => rw [hu] at h; cases h
  | ok p =>
    obtain ⟨f, t⟩ := p
    rw [hu] at h
    rw [unpack2_ok_iff] at hu
    simp only at h
    split at h
    · cases h
    · rename_i vf hf
      split at h
      · cases h
      · rename_i vt ht
        obtain ⟨i, hi, hvf⟩ := pyGet_ok_iff.1 hf
        obtain ⟨j, hj, hvt⟩ := pyGet_ok_iff.1 ht
        cases h
        exact ⟨f, t, i, j, vf, vt, hu, hi, hj, hvf, hvt, rfl⟩

end KMC
