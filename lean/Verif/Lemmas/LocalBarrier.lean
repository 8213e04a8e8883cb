import Verif.Lemmas.Py
import Verif.Lemmas.Text
import Verif.Spec.LocalBarrier
/-
Facts about rule matching.
-/
namespace KMC
open LocalBarrier Spec

theorem carries_iff {occ : List Int} {i v : Int} : Carries occ i v ↔ pyGet occ i = .ok v := by
  rw [pyGet_ok_iff]
  unfold Carries Denotes pyIdx
  constructor
  · rintro ⟨k, ⟨hk, h⟩, hv⟩
    refine ⟨k, ?_, hv⟩
    rcases h with ⟨h0, h1⟩ | ⟨h0, h1⟩
    · rw [if_pos h0, if_pos (by omega)]; congr 1; omega
    · rw [if_neg (by omega), if_pos (by omega)]; congr 1; omega
  · rintro ⟨k, h, hv⟩
    refine ⟨k, ?_, hv⟩
    split at h
    · split at h
      · cases h; omega
      · cases h
    · split at h
      · cases h; omega
      · cases h

theorem canonicalGo_eq (l seen : List Int) :
    canonicalGo l seen = seen ++ (l.filter fun i => decide (i ∉ seen)).eraseDups := by
  induction l generalizing seen with
  | nil => simp [canonicalGo]
  | cons i l ih =>
    by_cases h : i ∈ seen
    · simp [canonicalGo, h, ih]
    · simp only [canonicalGo, h, if_false]
      rw [ih, List.filter_cons_of_pos (by simpa using h), List.eraseDups_cons, List.filter_filter]
      simp only [List.append_assoc, List.cons_append, List.nil_append]
      congr 3
      apply List.filter_congr
      intro x _
      by_cases hx : x = i <;> by_cases hs : x ∈ seen <;> simp [hx, hs, h]

theorem canonicalSites_eq (mobile env : List Int) :
    canonicalSites mobile env = (mobile ++ env).eraseDups := by
  simp [canonicalSites, canonicalGo_eq]

theorem mem_canonicalSites {mobile env : List Int} {i : Int} :
    i ∈ canonicalSites mobile env ↔ i ∈ mobile ++ env := by
  rw [canonicalSites_eq, List.mem_eraseDups]

theorem eventIndices_ok {e : Event} {x : List Int × List Int × List Int}
    (h : eventIndices e = .ok x) :
    e.mobile ≠ [] ∧ x = (e.mobile, e.env, (e.mobile ++ e.env).eraseDups) := by
  unfold eventIndices at h
  split at h
  · cases h
  · rename_i hm
    cases h
    exact ⟨hm, by rw [canonicalSites_eq]⟩

theorem eventIndices_eq {e : Event} (h : e.mobile ≠ []) :
    eventIndices e = .ok (e.mobile, e.env, (e.mobile ++ e.env).eraseDups) := by
  unfold eventIndices
  rw [if_neg h, canonicalSites_eq]

theorem occupationPattern_ok {occ sites p : List Int} :
    LocalBarrierModel.occupationPattern occ sites = .ok p ↔ List.Forall₂ (Carries occ) sites p := by
  induction sites generalizing p with
  | nil =>
    simp only [LocalBarrierModel.occupationPattern, List.forall₂_nil_left_iff]
    constructor
    · intro h; cases h; rfl
    · rintro rfl; rfl
  | cons i rest ih =>
    simp only [LocalBarrierModel.occupationPattern]
    constructor
    · intro h
      split at h
      · cases h
      · rename_i v hv
        split at h
        · cases h
        · rename_i l hl
          cases h
          exact .cons (carries_iff.2 hv) (ih.1 hl)
    · intro h
      cases h with
      | cons h1 h2 =>
        rw [carries_iff.1 h1, ih.2 h2]

theorem selectedSites_ok {s : Sites} {e : Event} {occ l : List Int}
    (h : LocalBarrierModel.selectedSites s e occ = .ok l) : l = selection occ.length e s := by
  unfold LocalBarrierModel.selectedSites at h
  split at h
  · cases h
  · rename_i mob env canonical hi
    obtain ⟨-, hx⟩ := eventIndices_ok hi
    cases hx
    cases s with
    | fromSite =>
      simp only at h
      split at h
      · cases h
      · rename_i i hi
        cases h
        obtain ⟨k, hk, hv⟩ := pyGet_ok_iff.1 hi
        have : k = 0 := by have := pyIdx_some_nonneg hk (by omega); omega
        subst this
        cases hm : e.mobile with
        | nil => rw [hm] at hv; cases hv
        | cons a as => rw [hm] at hv; cases hv; simp [selection, hm]
    | toSite =>
      simp only at h
      split at h
      · cases h
      · rename_i i hi
        cases h
        obtain ⟨k, hk, hv⟩ := pyGet_ok_iff.1 hi
        have : k = 1 := by have := pyIdx_some_nonneg hk (by omega); omega
        subst this
        cases hm : e.mobile with
        | nil => rw [hm] at hv; cases hv
        | cons a as =>
          cases as with
          | nil => rw [hm] at hv; cases hv
          | cons b bs => rw [hm] at hv; cases hv; simp [selection, hm]
    | _ => cases h; rfl

theorem selectedSites_total {s : Sites} {e : Event} (occ : List Int) (h : 2 ≤ e.mobile.length) :
    LocalBarrierModel.selectedSites s e occ = .ok (selection occ.length e s) := by
  match hm : e.mobile with
  | [] => rw [hm] at h; simp at h
  | [_] => rw [hm] at h; simp at h
  | a :: b :: rest =>
    unfold LocalBarrierModel.selectedSites
    rw [eventIndices_eq (by rw [hm]; simp)]
    simp only
    cases s with
    | fromSite =>
      rw [show (0 : Int) = ((0 : Nat) : Int) from rfl, pyGet_natCast (v := a) (by rw [hm]; rfl)]
      simp [selection, hm]
    | toSite =>
      rw [show (1 : Int) = ((1 : Nat) : Int) from rfl, pyGet_natCast (v := b) (by rw [hm]; rfl)]
      simp [selection, hm]
    | _ => simp [selection]

theorem countMatches_iff {k : Nat} {c : CountSpec} :
    countMatches (k : Int) c = true ↔ Within c k := by
  obtain ⟨a, b, d⟩ := c
  cases a <;> cases b <;> cases d <;> simp [countMatches, Within]

theorem speciesForSite_iff {m : LocalBarrierModel} {i v : Int} {s : String} :
    m.speciesForSite i v = .ok s ↔ SpeciesIs m.siteSpecies i v s := by
  unfold LocalBarrierModel.speciesForSite SpeciesIs
  cases h1 : dictGet m.siteSpecies i with
  | none => simp
  | some states =>
    cases h2 : dictGet states v with
    | none => simp [h2]
    | some t => simp [h2]

theorem speciesCountOf_ok {m : LocalBarrierModel} {occ : List Int} {names : List String}
    {sites p : List Int} (hp : List.Forall₂ (Carries occ) sites p) {n : Int}
    (h : m.speciesCountOf names (sites.zip p) = .ok n) :
    ∃ found, List.Forall₂ (fun i name => ∃ v, Carries occ i v ∧ SpeciesIs m.siteSpecies i v name)
        sites found ∧ n = (found.countP fun name => decide (name ∈ names) : Nat) := by
  induction hp generalizing n with
  | nil =>
    simp only [List.zip_nil_left, LocalBarrierModel.speciesCountOf] at h
    cases h
    exact ⟨[], .nil, rfl⟩
  | @cons i v is vs h1 h2 ih =>
    simp only [List.zip_cons_cons, LocalBarrierModel.speciesCountOf] at h
    split at h
    · cases h
    · rename_i s hs
      split at h
      · cases h
      · rename_i k hk
        cases h
        obtain ⟨found, hf, rfl⟩ := ih hk
        refine ⟨s :: found, .cons ⟨v, h1, speciesForSite_iff.1 hs⟩ hf, ?_⟩
        by_cases hn : s ∈ names <;> simp [hn]

theorem carries_unique {occ : List Int} {i v w : Int} (h1 : Carries occ i v) (h2 : Carries occ i w) :
    v = w := by
  rw [carries_iff] at h1 h2
  rw [h1] at h2
  exact Except.ok.inj h2

theorem speciesCountOf_total {m : LocalBarrierModel} {occ : List Int} (names : List String)
    {sites p : List Int} (hp : List.Forall₂ (Carries occ) sites p)
    (hs : ∀ i ∈ sites, ∃ v, Carries occ i v ∧ ∃ name, SpeciesIs m.siteSpecies i v name) :
    ∃ n, m.speciesCountOf names (sites.zip p) = .ok n := by
  induction hp with
  | nil => exact ⟨0, rfl⟩
  | @cons i v is vs h1 h2 ih =>
    obtain ⟨n, hn⟩ := ih fun j hj => hs j (by simp [hj])
    obtain ⟨w, hw, name, hname⟩ := hs i (by simp)
    have := carries_unique h1 hw
    subst this
    refine ⟨n + if name ∈ names then 1 else 0, ?_⟩
    simp only [List.zip_cons_cons, LocalBarrierModel.speciesCountOf, speciesForSite_iff.2 hname, hn]

theorem forall₂_carries_unique {occ : List Int} {sites p q : List Int}
    (hp : List.Forall₂ (Carries occ) sites p) (hq : List.Forall₂ (Carries occ) sites q) : p = q := by
  have h1 := occupationPattern_ok.2 hp
  rw [occupationPattern_ok.2 hq] at h1
  exact (Except.ok.inj h1).symm

theorem eventConstraints_ok {r : Rule} {e : Event} {b : Bool}
    (h : LocalBarrierModel.eventConstraintsMatch r e = .ok b) : e.mobile ≠ [] ∧
    (b = true ↔ (∀ l, r.mobile = some l → e.mobile = l) ∧ (∀ l, r.env = some l → e.env = l)) := by
  unfold LocalBarrierModel.eventConstraintsMatch at h
  split at h
  · cases h
  · rename_i mob env canonical hi
    obtain ⟨hm, hx⟩ := eventIndices_ok hi
    cases hx
    refine ⟨hm, ?_⟩
    cases h1 : r.mobile <;> cases h2 : r.env <;>
      simp only [h1, h2, Option.any_none, Option.any_some, decide_eq_true_eq] at h
    · cases h; simp
    · split at h
      · rename_i hc; simp at hc
      · split at h <;> cases h <;> simp_all [eq_comm]
    · split at h
      · cases h; simp_all [eq_comm]
      · cases h; simp_all [eq_comm]
    · split at h
      · cases h; simp_all [eq_comm]
      · split at h <;> cases h <;> simp_all [eq_comm]

theorem pattern_all_iff {occ : List Int} {sites p : List Int} {x : List (Option Int)}
    (hp : List.Forall₂ (Carries occ) sites p) (hl : p.length = x.length) :
    ((x.zip p).all fun q => LocalBarrierModel.entryMatches q.1 q.2) = true ↔
    List.Forall₂ (fun i x => ∃ v, Carries occ i v ∧ (x = none ∨ x = some v)) sites x := by
  induction hp generalizing x with
  | nil =>
    cases x with
    | nil => simp
    | cons a as => simp at hl
  | @cons i v is vs h1 h2 ih =>
    cases x with
    | nil => simp at hl
    | cons a as =>
      simp only [List.zip_cons_cons, List.all_cons, Bool.and_eq_true, List.forall₂_cons,
        ih (by simpa using hl)]
      refine and_congr_left fun _ => ?_
      cases a with
      | none => simp [LocalBarrierModel.entryMatches]; exact ⟨v, h1⟩
      | some w =>
        simp only [LocalBarrierModel.entryMatches, decide_eq_true_eq]
        constructor
        · rintro rfl; exact ⟨w, h1, Or.inr rfl⟩
        · rintro ⟨u, hu, h | h⟩
          · cases h
          · cases h; exact carries_unique hu h1

/-- A rule that was evaluated without error matched exactly if it describes the event. -/
theorem ruleMatches_ok {m : LocalBarrierModel} {r : Rule} {occ : List Int} {e : Event} {b : Bool}
    (h : m.ruleMatches r occ e = .ok b) :
    b = true ↔ Describes m.siteSpecies occ e r := by
  unfold LocalBarrierModel.ruleMatches at h
  split at h
  · cases h
  · rename_i hc
    cases h
    obtain ⟨-, hiff⟩ := eventConstraints_ok hc
    constructor
    · intro hx; cases hx
    · rintro ⟨h1, h2, -⟩; exact hiff.2 ⟨h1, h2⟩
  · rename_i hc
    obtain ⟨hm, hiff⟩ := eventConstraints_ok hc
    obtain ⟨c1, c2⟩ := hiff.1 rfl
    unfold Describes
    rw [and_iff_right c1, and_iff_right c2]
    cases hk : r.kind with
    | constant =>
      rw [hk] at h
      cases h; simp
    | exact states sites =>
      rw [hk] at h
      simp only [eventIndices_eq hm] at h
      split at h
      · rename_i hne
        cases h
        simp [hne]
      · rename_i heq
        simp only [not_not] at heq
        split at h
        · cases h
        · rename_i p hp
          rw [occupationPattern_ok] at hp
          cases h
          simp only [decide_eq_true_eq]
          constructor
          · rintro rfl; exact ⟨heq, heq ▸ hp⟩
          · rintro ⟨-, hs⟩
            rw [heq] at hp
            exact forall₂_carries_unique hp hs
    | pattern s x =>
      rw [hk] at h
      simp only at h
      split at h
      · cases h
      · rename_i sites hs
        cases selectedSites_ok hs
        split at h
        · cases h
        · rename_i p hp
          rw [occupationPattern_ok] at hp
          split at h
          · cases h
          · rename_i hl
            cases h
            exact pattern_all_iff hp (not_not.1 hl)
    | stateCount s v c =>
      rw [hk] at h
      simp only at h
      split at h
      · cases h
      · rename_i sites hs
        cases selectedSites_ok hs
        split at h
        · cases h
        · rename_i p hp
          rw [occupationPattern_ok] at hp
          cases h
          rw [countMatches_iff]
          have hcount : (p.filter fun x => decide (x = v)).length = p.count v := by
            rw [List.count, List.countP_eq_length_filter]
            congr 1
          rw [hcount]
          constructor
          · intro hw; exact ⟨p, hp, hw⟩
          · rintro ⟨q, hq, hw⟩
            rw [forall₂_carries_unique hp hq]; exact hw
    | speciesCount s names c =>
      rw [hk] at h
      simp only at h
      split at h
      · cases h
      · rename_i sites hs
        cases selectedSites_ok hs
        split at h
        · cases h
        · rename_i p hp
          rw [occupationPattern_ok] at hp
          split at h
          · cases h
          · rename_i n hn
            cases h
            obtain ⟨found, hf, rfl⟩ := speciesCountOf_ok hp hn
            rw [countMatches_iff]
            constructor
            · intro hw; exact ⟨found, hf, hw⟩
            · rintro ⟨q, hq, hw⟩
              have : found = q := by
                clear hn hw hp
                generalize selection occ.length e s = sites at hf hq
                induction hf generalizing q with
                | nil => cases hq; rfl
                | cons h1 h2 ih =>
                  cases hq with
                  | cons g1 g2 =>
                    obtain ⟨v, hv, st, a1, a2⟩ := h1
                    obtain ⟨w, hw, st', b1, b2⟩ := g1
                    cases carries_unique hv hw
                    rw [a1] at b1
                    cases b1
                    rw [a2] at b2
                    cases b2
                    rw [ih _ g2]
              rw [this]; exact hw

theorem occupationPattern_total {occ sites : List Int} (h : ∀ i ∈ sites, ∃ v, Carries occ i v) :
    ∃ p, LocalBarrierModel.occupationPattern occ sites = .ok p := by
  induction sites with
  | nil => exact ⟨[], rfl⟩
  | cons i rest ih =>
    obtain ⟨v, hv⟩ := h i (by simp)
    obtain ⟨p, hp⟩ := ih fun j hj => h j (by simp [hj])
    exact ⟨v :: p, by simp [LocalBarrierModel.occupationPattern, carries_iff.1 hv, hp]⟩

theorem ruleMatches_total {m : LocalBarrierModel} {r : Rule} {occ : List Int} {e : Event}
    (h : Evaluable m.siteSpecies occ e r) : ∃ b, m.ruleMatches r occ e = .ok b := by
  obtain ⟨h2, hs, hk⟩ := h
  have hm : e.mobile ≠ [] := by intro hc; rw [hc] at h2; simp at h2
  obtain ⟨b, hb⟩ : ∃ b, LocalBarrierModel.eventConstraintsMatch r e = .ok b := by
    unfold LocalBarrierModel.eventConstraintsMatch
    rw [eventIndices_eq hm]
    simp only
    split
    · exact ⟨_, rfl⟩
    · split <;> exact ⟨_, rfl⟩
  unfold LocalBarrierModel.ruleMatches
  rw [hb]
  cases b with
  | false => exact ⟨_, rfl⟩
  | true =>
    simp only
    cases hkind : r.kind with
    | constant => exact ⟨_, rfl⟩
    | exact states sites =>
      simp only [eventIndices_eq hm]
      split
      · exact ⟨_, rfl⟩
      · obtain ⟨p, hp⟩ := occupationPattern_total (occ := occ)
          (sites := (e.mobile ++ e.env).eraseDups) (fun i hi => hs i (List.mem_eraseDups.1 hi))
        rw [hp]; exact ⟨_, rfl⟩
    | pattern s x =>
      rw [hkind] at hk
      simp only [selectedSites_total occ h2]
      obtain ⟨p, hp⟩ := occupationPattern_total hk.1
      rw [hp]
      simp only
      rw [if_neg]
      · exact ⟨_, rfl⟩
      · have := (occupationPattern_ok.1 hp).length_eq
        omega
    | stateCount s v c =>
      rw [hkind] at hk
      simp only [selectedSites_total occ h2]
      obtain ⟨p, hp⟩ := occupationPattern_total hk
      rw [hp]; exact ⟨_, rfl⟩
    | speciesCount s names c =>
      rw [hkind] at hk
      simp only [selectedSites_total occ h2]
      obtain ⟨p, hp⟩ := occupationPattern_total (occ := occ)
        (sites := selection occ.length e s) (fun i hi => by
          obtain ⟨v, hv, -⟩ := hk i hi; exact ⟨v, hv⟩)
      rw [hp]
      obtain ⟨n, hn⟩ := speciesCountOf_total (m := m) names (occupationPattern_ok.1 hp) hk
      simp only [hn]; exact ⟨_, rfl⟩

/-! ### Matching reads only the occupations of its sites -/

theorem occupationPattern_congr {occ occ' sites : List Int}
    (h : ∀ i ∈ sites, pyGet occ i = pyGet occ' i) :
    LocalBarrierModel.occupationPattern occ sites = LocalBarrierModel.occupationPattern occ' sites := by
  induction sites with
  | nil => rfl
  | cons i rest ih =>
    simp only [LocalBarrierModel.occupationPattern]
    rw [h i (by simp), ih fun j hj => h j (by simp [hj])]

theorem selectedSites_congr {s : Sites} {e : Event} {occ occ' : List Int}
    (hl : occ.length = occ'.length) :
    LocalBarrierModel.selectedSites s e occ = LocalBarrierModel.selectedSites s e occ' := by
  unfold LocalBarrierModel.selectedSites
  rw [hl]

theorem selectedSites_mem {s : Sites} {e : Event} {occ l : List Int}
    (hs : s ≠ .all ∧ ∀ l, s ≠ .listed l) (h : LocalBarrierModel.selectedSites s e occ = .ok l) :
    ∀ i ∈ l, i ∈ e.mobile ++ e.env := by
  cases selectedSites_ok h
  intro i hi
  cases s with
  | canonical => exact List.mem_eraseDups.1 hi
  | localEnv => exact List.mem_append_right _ hi
  | mobileIon => exact List.mem_append_left _ hi
  | fromSite => exact List.mem_append_left _ (List.mem_of_mem_take hi)
  | toSite => exact List.mem_append_left _ (List.mem_of_mem_drop (List.mem_of_mem_take hi))
  | all => exact absurd rfl hs.1
  | listed l => exact absurd rfl (hs.2 l)

theorem ruleMatches_congr {m : LocalBarrierModel} {r : Rule} (hr : ReadsEventSitesOnly r)
    {occ occ' : List Int} {e : Event} (hl : occ.length = occ'.length)
    (h : ∀ i ∈ e.mobile ++ e.env, pyGet occ i = pyGet occ' i) :
    m.ruleMatches r occ e = m.ruleMatches r occ' e := by
  unfold LocalBarrierModel.ruleMatches
  split
  · rfl
  · rfl
  · unfold ReadsEventSitesOnly at hr
    cases hk : r.kind with
    | constant => rfl
    | exact states sites =>
      simp only
      split
      · rfl
      · rename_i hi
        obtain ⟨-, hx⟩ := eventIndices_ok hi
        cases hx
        split
        · rfl
        · rw [occupationPattern_congr (occ' := occ') fun i hi => h i (List.mem_eraseDups.1 hi)]
    | pattern s x =>
      rw [hk] at hr
      simp only [selectedSites_congr (s := s) (e := e) hl]
      split
      · rfl
      · rename_i sites hs
        rw [occupationPattern_congr (occ' := occ') fun i hi => h i (selectedSites_mem hr hs i hi)]
    | stateCount s v c =>
      rw [hk] at hr
      simp only [selectedSites_congr (s := s) (e := e) hl]
      split
      · rfl
      · rename_i sites hs
        rw [occupationPattern_congr (occ' := occ') fun i hi => h i (selectedSites_mem hr hs i hi)]
    | speciesCount s names c =>
      rw [hk] at hr
      simp only [selectedSites_congr (s := s) (e := e) hl]
      split
      · rfl
      · rename_i sites hs
        rw [occupationPattern_congr (occ' := occ') fun i hi => h i (selectedSites_mem hr hs i hi)]

theorem firstMatch_congr {m : LocalBarrierModel} {rules : List Rule}
    (hr : ∀ r ∈ rules, ReadsEventSitesOnly r)
    {occ occ' : List Int} {e : Event} (hl : occ.length = occ'.length)
    (h : ∀ i ∈ e.mobile ++ e.env, pyGet occ i = pyGet occ' i) :
    m.firstMatch occ e rules = m.firstMatch occ' e rules := by
  induction rules with
  | nil => rfl
  | cons r rs ih =>
    simp only [LocalBarrierModel.firstMatch]
    rw [ruleMatches_congr (hr r (by simp)) hl h, ih fun q hq => hr q (by simp [hq])]

theorem compute_congr {m : LocalBarrierModel} (hr : ∀ r ∈ m.rules, ReadsEventSitesOnly r)
    {occ occ' : List Int} {e : Event} (hl : occ.length = occ'.length)
    (h : ∀ i ∈ e.mobile ++ e.env, pyGet occ i = pyGet occ' i) (prop : String) :
    m.compute occ e prop = m.compute occ' e prop := by
  have : m.matchedProperties occ e = m.matchedProperties occ' e := by
    unfold LocalBarrierModel.matchedProperties
    rw [firstMatch_congr hr hl h]
    split
    · rfl
    · rfl
    · split
      · rfl
      · split
        · rfl
        · rename_i hi
          obtain ⟨-, hx⟩ := eventIndices_ok hi
          cases hx
          rw [occupationPattern_congr (occ' := occ') fun i hi => h i (List.mem_eraseDups.1 hi)]
  unfold LocalBarrierModel.compute
  rw [this]

theorem eventDirection_congr {occ occ' : List Int} {e : Event}
    (h : ∀ i ∈ e.mobile ++ e.env, pyGet occ i = pyGet occ' i) :
    eventDirection occ e = eventDirection occ' e := by
  unfold eventDirection
  cases hu : unpack2 e.mobile with
  | error x => rfl
  | ok p =>
    obtain ⟨f, t⟩ := p
    rw [unpack2_ok_iff] at hu
    simp only
    rw [h f (by simp [hu]), h t (by simp [hu])]

end KMC
