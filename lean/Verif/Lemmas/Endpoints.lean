import Verif.Spec.Endpoints
import Verif.Lemmas.Enumerator
/-
The loop over the two endpoint structures.
-/
namespace KMC
open Spec Enumerator
namespace Enumerator
variable {P σ φ : Type}

theorem speciesOn_first {l : Lattice P} {o : Occupation} {a : Nat} {sp : Specie}
    (h : speciesOn l o a = .ok sp) (hv : o.data[a]? = some l.basis.matchValue) :
    ∃ al : List Specie, l.allowed[a]? = some (some al) ∧ al[0]? = some sp := by
  obtain ⟨al, k, h1, h2, h3⟩ := speciesOn_ok h
  refine ⟨al, h1, ?_⟩
  unfold speciesOn Occupation.getItem at h
  rw [pyGet_natCast hv, pyGet_natCast h1] at h
  cases al with
  | nil => simp at h2
  | cons s ss =>
    simp only [Lattice.speciesFor, Lattice.findValue] at h
    rw [if_pos (by cases l.basis <;> rfl)] at h
    simpa using h

theorem speciesOn_second {l : Lattice P} {o : Occupation} {a : Nat} {sp : Specie}
    (h : speciesOn l o a = .ok sp) (hv : o.data[a]? = some l.basis.mismatchValue) :
    ∃ al : List Specie, l.allowed[a]? = some (some al) ∧ al[1]? = some sp := by
  obtain ⟨al, k, h1, h2, h3⟩ := speciesOn_ok h
  refine ⟨al, h1, ?_⟩
  unfold speciesOn Occupation.getItem at h
  rw [pyGet_natCast hv, pyGet_natCast h1] at h
  cases al with
  | nil => simp at h2
  | cons s ss =>
    have hne : ¬ l.basis.mismatchValue = l.basis.stateValue ((0 : Nat) : Int) := by
      cases l.basis <;> simp [Basis.mismatchValue, Basis.matchValue, Basis.stateValue]
    cases ss with
    | nil =>
      simp only [Lattice.speciesFor, Lattice.findValue, if_neg hne] at h
      cases h
    | cons x xs =>
      simp only [Lattice.speciesFor, Lattice.findValue, if_neg hne] at h
      rw [if_pos (by cases l.basis <;> rfl)] at h
      simpa using h

theorem speciesOn_congr {l : Lattice P} {o o' : Occupation} {a : Nat} (h : o.data[a]? = o'.data[a]?) :
    speciesOn l o a = speciesOn l o' a := by
  unfold speciesOn Occupation.getItem
  have : pyGet o.data (a : Int) = pyGet o'.data (a : Int) := by
    cases hv : o.data[a]? with
    | some v => rw [pyGet_natCast hv, pyGet_natCast (h ▸ hv)]
    | none =>
      have hv' : o'.data[a]? = none := h ▸ hv
      rw [List.getElem?_eq_none_iff] at hv hv'
      have key : ∀ n : Nat, n ≤ a → pyIdx n (a : Int) = none := by
        intro n hn
        unfold pyIdx
        rw [if_pos (by omega), if_neg (by omega)]
      simp only [pyGet, key _ hv, key _ hv']
  rw [this]

/-- What is known of the two occupations. -/
structure Ends (l : Lattice P) (o o' : Occupation) (f t : Nat) : Prop where
  ne : f ≠ t
  from1 : o.data[f]? = some l.basis.matchValue
  to1 : o.data[t]? = some l.basis.mismatchValue
  from2 : o'.data[f]? = some l.basis.mismatchValue
  to2 : o'.data[t]? = some l.basis.matchValue
  others : ∀ a, a ≠ f → a ≠ t → o'.data[a]? = o.data[a]?

theorem endpointsFrom_initial {l : Lattice P} {order : ActiveSiteOrder σ φ} {all : List (Specie × P)}
    {o o' : Occupation} {f t T : Nat} (hn : order.activeToOriginal.Nodup) {i : Nat}
    {rest as bs : List (Specie × P)}
    (h : endpointsFrom l order all o o' f t T i rest = .ok (as, bs)) :
    AtomsOf l order o.data i rest as ∧ as.length = bs.length := by
  induction rest generalizing i as bs with
  | nil => unfold endpointsFrom at h; cases h; exact ⟨.nil i, rfl⟩
  | cons sp rest ih =>
    obtain ⟨s, p⟩ := sp
    unfold endpointsFrom at h
    split at h
    · rename_i hg
      split at h
      · cases h
      · rename_i as' bs' hr
        cases h
        refine ⟨.fixed i s p rest as' ?_ (ih hr).1, by simp [(ih hr).2]⟩
        intro hm
        obtain ⟨k, hk⟩ := List.getElem?_of_mem hm
        rw [(originalToActive_iff hn i k).2 hk] at hg
        cases hg
    · rename_i a hg
      have ha := (originalToActive_iff hn i a).1 hg
      split at h
      · cases h
      · rename_i x hx
        split at h
        · rename_i hv
          exact ⟨.vacant i a s x p rest as ha (speciesOn_ok hx) hv (ih h).1, (ih h).2⟩
        · rename_i hv
          split at h
          · cases h
          · split at h
            · cases h
            · split at h
              · cases h
              · rename_i as' bs' hr
                cases h
                exact ⟨.atom i a s x p rest as' ha (speciesOn_ok hx) (by simpa using hv) (ih hr).1,
                  by simp [(ih hr).2]⟩

/-- The second structure is the first with the moving atom replaced. -/
theorem endpointsFrom_moved {l : Lattice P} {order : ActiveSiteOrder σ φ} {all : List (Specie × P)}
    {o o' : Occupation} {f t F T : Nat} (hn : order.activeToOriginal.Nodup)
    (he : Ends l o o' f t) (hF : order.activeToOriginal[f]? = some F)
    {s0 st : Specie} {pt : P} (hT : all[T]? = some (s0, pt))
    (hst : ∀ al : List Specie, l.allowed[t]? = some (some al) → al[0]? = some st)
    (hvac : ∀ al : List Specie, l.allowed[t]? = some (some al) → ∀ x, al[1]? = some x → x.isVacancy = true)
    {i : Nat} {rest as bs : List (Specie × P)}
    (h : endpointsFrom l order all o o' f t T i rest = .ok (as, bs)) :
    (F < i → bs = as) ∧
    (∀ d, F = i + d → ∀ s p, rest[d]? = some (s, p) → ∀ al : List Specie, l.allowed[f]? = some (some al) →
      ∀ sf, al[0]? = some sf → sf.isVacancy = false →
      ∃ k : Nat, as[k]? = some (sf, p) ∧ bs = as.set k (st, pt)) := by
  induction rest generalizing i as bs with
  | nil =>
    unfold endpointsFrom at h; cases h
    exact ⟨fun _ => rfl, by intro d _ s p hd; simp at hd⟩
  | cons sp rest ih =>
    obtain ⟨s, p⟩ := sp
    unfold endpointsFrom at h
    split at h
    · rename_i hg
      split at h
      · cases h
      · rename_i as' bs' hr
        cases h
        obtain ⟨h1, h2⟩ := ih hr
        refine ⟨fun hlt => by rw [h1 (by omega)], ?_⟩
        intro d hd s' p' hsp al hal sf hsf hnv
        cases d with
        | zero =>
          have hd' : F = i := by omega
          rw [hd'] at hF
          rw [(originalToActive_iff hn i f).2 hF] at hg
          cases hg
        | succ d =>
          obtain ⟨k, hk1, hk2⟩ := h2 d (by omega) s' p' (by simpa using hsp) al hal sf hsf hnv
          exact ⟨k + 1, by simpa using hk1, by rw [hk2]; rfl⟩
    · rename_i a hg
      have ha := (originalToActive_iff hn i a).1 hg
      have haf : a = f ↔ F = i := by
        constructor
        · rintro rfl; rw [hF] at ha; exact Option.some.inj ha
        · rintro rfl
          have h1 : a < order.activeToOriginal.length := by
            by_contra hc; rw [List.getElem?_eq_none (by omega)] at ha; cases ha
          have h2 : f < order.activeToOriginal.length := by
            by_contra hc; rw [List.getElem?_eq_none (by omega)] at hF; cases hF
          rw [List.getElem?_eq_getElem h1] at ha
          rw [List.getElem?_eq_getElem h2] at hF
          exact (hn.getElem_inj_iff).1 ((Option.some.inj ha).trans (Option.some.inj hF).symm)
      split at h
      · cases h
      · rename_i x hx
        split at h
        · rename_i hv
          obtain ⟨h1, h2⟩ := ih h
          refine ⟨fun hlt => h1 (by omega), ?_⟩
          intro d hd s' p' hsp al hal sf hsf hnv
          cases d with
          | zero =>
            have haf' := haf.2 (by omega)
            subst haf'
            obtain ⟨al', e1, e2⟩ := speciesOn_first hx he.from1
            rw [hal] at e1
            cases e1
            rw [hsf] at e2
            cases e2
            rw [hnv] at hv
            cases hv
          | succ d => exact h2 d (by omega) s' p' (by simpa using hsp) al hal sf hsf hnv
        · rename_i hv
          split at h
          · cases h
          · rename_i sp' p1 hlast
            split at h
            · cases h
            · split at h
              · cases h
              · rename_i as' bs' hr
                cases h
                obtain ⟨h1, h2⟩ := ih hr
                by_cases hc : a = f
                · rw [movedAtom, if_pos hc] at hlast
                  have hFi := haf.1 hc
                  split at hlast
                  · cases hlast
                  · rename_i site hsite
                    rw [pyGet_natCast hT] at hsite
                    cases hsite
                    split at hlast
                    · cases hlast
                    · rename_i sp2 hsp2
                      cases hlast
                      obtain ⟨al2, e1, e2⟩ := speciesOn_first hsp2 he.to2
                      rw [hst al2 e1] at e2
                      cases e2
                      refine ⟨fun hlt => by omega, ?_⟩
                      intro d hd s' p' hsp al hal sf hsf hnv
                      have hd0 : d = 0 := by omega
                      subst hd0
                      obtain ⟨al', e1', e2'⟩ := speciesOn_first hx (hc ▸ he.from1)
                      rw [hc, hal] at e1'
                      cases e1'
                      rw [hsf] at e2'
                      cases e2'
                      simp only [List.getElem?_cons_zero, Option.some.injEq, Prod.mk.injEq] at hsp
                      refine ⟨0, by simp [hsp.2], ?_⟩
                      rw [h1 (by omega)]
                      rfl
                · rw [movedAtom, if_neg hc] at hlast
                  have hat : a ≠ t := by
                    rintro rfl
                    obtain ⟨al, e1, e2⟩ := speciesOn_second hx he.to1
                    exact hv (hvac al e1 x e2)
                  rw [speciesOn_congr (he.others a hc hat), hx] at hlast
                  cases hlast
                  refine ⟨fun hlt => by rw [h1 (by omega)], ?_⟩
                  intro d hd s' p' hsp al hal sf hsf hnv
                  cases d with
                  | zero => exact absurd (haf.2 (by omega)) hc
                  | succ d =>
                    obtain ⟨k, hk1, hk2⟩ := h2 d (by omega) s' p' (by simpa using hsp) al hal sf hsf hnv
                    exact ⟨k + 1, by simpa using hk1, by rw [hk2]; rfl⟩

/-- The second structure shows the final occupation, up to the order of the atoms. -/
theorem endpointsFrom_final {l : Lattice P} {order : ActiveSiteOrder σ φ} {all : List (Specie × P)}
    {o o' : Occupation} {f t F T : Nat} (hn : order.activeToOriginal.Nodup)
    (he : Ends l o o' f t) (hF : order.activeToOriginal[f]? = some F)
    (hTo : order.activeToOriginal[t]? = some T)
    {s0 st : Specie} {pt : P} (hT : all[T]? = some (s0, pt))
    {alf alt : List Specie} (half : l.allowed[f]? = some (some alf)) (halt : l.allowed[t]? = some (some alt))
    {sf xf xt : Specie} (hsf : alf[0]? = some sf) (hxf : alf[1]? = some xf) (hst : alt[0]? = some st)
    (hxt : alt[1]? = some xt) (hsfv : sf.isVacancy = false) (hxfv : xf.isVacancy = true)
    (hstv : st.isVacancy = false) (hxtv : xt.isVacancy = true)
    {i : Nat} {rest as bs : List (Specie × P)} (hrest : rest = all.drop i)
    (hFlt : F < all.length)
    (h : endpointsFrom l order all o o' f t T i rest = .ok (as, bs)) :
    ∃ out, AtomsOf l order o'.data i rest out ∧
      (bs ++ (if T < i then [] else [(st, pt)])).Perm (out ++ (if F < i then [] else [(st, pt)])) := by
  have hTlt : T < all.length := by
    by_contra hc; rw [List.getElem?_eq_none (by omega)] at hT; cases hT
  have inj : ∀ {a b i : Nat}, order.activeToOriginal[a]? = some i → order.activeToOriginal[b]? = some i → a = b := by
    intro a b i ha hb
    have h1 : a < order.activeToOriginal.length := by
      by_contra hc; rw [List.getElem?_eq_none (by omega)] at ha; cases ha
    have h2 : b < order.activeToOriginal.length := by
      by_contra hc; rw [List.getElem?_eq_none (by omega)] at hb; cases hb
    rw [List.getElem?_eq_getElem h1] at ha
    rw [List.getElem?_eq_getElem h2] at hb
    exact (hn.getElem_inj_iff).1 ((Option.some.inj ha).trans (Option.some.inj hb).symm)
  have hsecond : l.basis.mismatchValue = l.basis.stateValue ((1 : Nat) : Int) := by cases l.basis <;> rfl
  have hfirst : l.basis.matchValue = l.basis.stateValue ((0 : Nat) : Int) := by cases l.basis <;> rfl
  induction rest generalizing i as bs with
  | nil =>
    unfold endpointsFrom at h; cases h
    have : all.length ≤ i := by
      have := congrArg List.length hrest
      rw [List.length_drop] at this
      simp at this
      omega
    refine ⟨[], .nil i, ?_⟩
    rw [if_pos (by omega), if_pos (by omega)]
  | cons sp rest ih =>
    obtain ⟨s, p⟩ := sp
    have hsi : all[i]? = some (s, p) := by
      have h0 : (all.drop i)[0]? = some (s, p) := by rw [← hrest]; rfl
      simpa using h0
    have hrest' : rest = all.drop (i + 1) := by
      rw [← List.tail_drop, ← hrest]; rfl
    unfold endpointsFrom at h
    split at h
    · rename_i hg
      split at h
      · cases h
      · rename_i as' bs' hr
        cases h
        obtain ⟨out, ho, hp⟩ := ih hrest' hr
        have hni : i ∉ order.activeToOriginal := by
          intro hm
          obtain ⟨k, hk⟩ := List.getElem?_of_mem hm
          rw [(originalToActive_iff hn i k).2 hk] at hg
          cases hg
        have hFi : F ≠ i := by rintro rfl; exact hni (List.mem_of_getElem? hF)
        have hTi : T ≠ i := by rintro rfl; exact hni (List.mem_of_getElem? hTo)
        refine ⟨(s, p) :: out, .fixed i s p rest out hni ho, ?_⟩
        have e1 : (T < i + 1) = (T < i) := by apply propext; omega
        have e2 : (F < i + 1) = (F < i) := by apply propext; omega
        simp only [e1, e2] at hp
        exact hp.cons _
    · rename_i a hg
      have ha := (originalToActive_iff hn i a).1 hg
      split at h
      · cases h
      · rename_i x hx
        split at h
        · rename_i hv
          obtain ⟨out, ho, hp⟩ := ih hrest' h
          have haf : a ≠ f := by
            rintro rfl
            obtain ⟨al', e1, e2⟩ := speciesOn_first hx he.from1
            rw [half] at e1; cases e1
            rw [hsf] at e2; cases e2
            rw [hsfv] at hv; cases hv
          have hFi : F ≠ i := by rintro rfl; exact haf (inj ha hF)
          have e2 : (F < i + 1) = (F < i) := by apply propext; omega
          by_cases hat : a = t
          · subst hat
            have hTi : T = i := by rw [hTo] at ha; exact Option.some.inj ha
            subst hTi
            rw [hsi] at hT
            cases hT
            refine ⟨(st, pt) :: out, .atom T a s0 st pt rest out ha ⟨alt, 0, halt, hst, by rw [he.to2, hfirst]⟩ hstv ho, ?_⟩
            rw [if_pos (by omega), List.append_nil] at hp
            simp only [e2] at hp
            rw [if_neg (by omega)]
            exact (List.perm_append_singleton _ _).trans (hp.cons _)
          · have hTi : T ≠ i := by rintro rfl; exact hat (inj ha hTo)
            have e1 : (T < i + 1) = (T < i) := by apply propext; omega
            simp only [e1, e2] at hp
            refine ⟨out, .vacant i a s x p rest out ha ?_ hv ho, hp⟩
            rw [speciesOn_congr (he.others a haf hat).symm] at hx
            exact speciesOn_ok hx
        · rename_i hv
          have hat : a ≠ t := by
            rintro rfl
            obtain ⟨al, e1, e2⟩ := speciesOn_second hx he.to1
            rw [halt] at e1; cases e1
            rw [hxt] at e2; cases e2
            exact hv hxtv
          have hTi : T ≠ i := by rintro rfl; exact hat (inj ha hTo)
          have e1 : (T < i + 1) = (T < i) := by apply propext; omega
          split at h
          · cases h
          · rename_i sp' p1 hlast
            split at h
            · cases h
            · rename_i hv'
              split at h
              · cases h
              · rename_i as' bs' hr
                cases h
                obtain ⟨out, ho, hp⟩ := ih hrest' hr
                by_cases hc : a = f
                · rw [movedAtom, if_pos hc] at hlast
                  have hFi : F = i := by rw [hc, hF] at ha; exact Option.some.inj ha
                  split at hlast
                  · cases hlast
                  · rename_i site hsite
                    rw [pyGet_natCast hT] at hsite
                    cases hsite
                    split at hlast
                    · cases hlast
                    · rename_i sp2 hsp2
                      cases hlast
                      obtain ⟨al2, e3, e4⟩ := speciesOn_first hsp2 he.to2
                      rw [halt] at e3; cases e3
                      rw [hst] at e4; cases e4
                      refine ⟨out, .vacant i a s xf p rest out ha ⟨alf, 1, hc ▸ half, hxf, by
                        rw [hc, he.from2, hsecond]⟩ hxfv ho, ?_⟩
                      rw [if_pos (by omega : F < i + 1), List.append_nil] at hp
                      simp only [e1] at hp
                      rw [if_neg (by omega : ¬ F < i)]
                      exact (hp.cons _).trans (List.perm_append_singleton _ _).symm
                · rw [movedAtom, if_neg hc] at hlast
                  have hFi : F ≠ i := by rintro rfl; exact hc (inj ha hF)
                  have e2 : (F < i + 1) = (F < i) := by apply propext; omega
                  have hcong := speciesOn_congr (l := l) (he.others a hc hat)
                  rw [hcong, hx] at hlast
                  cases hlast
                  simp only [e1, e2] at hp
                  refine ⟨(x, p) :: out, .atom i a s x p rest out ha (speciesOn_ok (hcong.trans hx))
                    (by simpa using hv) ho, hp.cons _⟩

end Enumerator
end KMC
