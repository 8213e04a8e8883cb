import Verif.Props.LatticeProps
import Verif.Model.Features
import Mathlib.Data.List.Sort
/-
C73: the features computed from a structure (for fitting) are the features the simulation
computes for the state that lists the same atoms.
-/
namespace KMC
open Spec KMC.Lattice

/-- The simulation state `occ` lists, on the event's sites `env`, the species that the placed
atoms put on the reference sites `siteIndices`: as positions in the allowed-species lists. -/
def SameLocalState (allowed : List (Option (List Specie))) (atoms : List (Specie × Nat))
    (siteIndices env : List Int) (occ : List Int) : Prop :=
  List.Forall₂ (fun s e => ∃ (k : Nat) (al : List Specie) (i : Nat), s = (k : Int) ∧
    allowed[k]? = some (some al) ∧ pyGet occ e = .ok (i : Int) ∧
    ((∃ sp, (sp, k) ∈ atoms ∧ IsState al sp i) ∨
     ((∀ sp, (sp, k) ∉ atoms) ∧ (∃ a, al[i]? = some a ∧ a.isVacancy = true) ∧
       ∀ j < i, ∀ a, al[j]? = some a → a.isVacancy = false))) siteIndices env

namespace LCE
variable {P K D : Type} [CommRing K]

/-- What `occCorrFromStructure` returns when it succeeds. -/
theorem occCorrFromStructure_ok [LinearOrder D] {m : LCE K} {ref : Lattice P} {si : List Int}
    {hashOk lok : Bool} {filter : List (Specie × P) → Py (List (Specie × P))} {dist : P → P → D} {tol : D}
    {super : List (Nat × P)} {st : List (Specie × P)} {o : Occupation} {corr : List K}
    (h : m.occCorrFromStructure ref si hashOk filter dist tol super lok st = .ok (o, corr)) :
    ∃ active loc, filter st = .ok active ∧
      ref.getOcc dist tol super lok (active.map fun s => (removeOxidation s.1, s.2)) none = .ok o ∧
      pyGetAll o.data si = .ok loc ∧ m.calculateCorrelation loc = .ok corr := by
  unfold occCorrFromStructure at h
  split at h
  · cases h
  · split at h
    · cases h
    · rename_i active hact
      split at h
      · cases h
      · rename_i occ hocc
        split at h
        · cases h
        · rename_i lo hlo
          split at h
          · cases h
          · rename_i c hc
            cases h
            refine ⟨active, lo.data, hact, hocc, ?_, hc⟩
            unfold Occupation.getItems at hlo
            split at hlo
            · cases hlo
            · rename_i d hd; cases hlo; exact hd

/-- With the Chebyshev basis the simulation sees, for a state listing the same species, exactly
the local occupations and correlations computed from the structure. -/
theorem C73_same_features [LinearOrder D] {m : LCE K} {ref : Lattice P} {q : Int}
    (hb : ref.basis = .chebyshev q) {si : List Int} {hashOk : Bool}
    {filter : List (Specie × P) → Py (List (Specie × P))} {dist : P → P → D} {tol : D}
    {super : List (Nat × P)} {allowed : List (Option (List Specie))}
    (ha : supercellAllowed ref super allowed) {st : List (Specie × P)} {o : Occupation} {corr : List K}
    (h : m.occCorrFromStructure ref si hashOk filter dist tol super true st = .ok (o, corr))
    {atoms : List (Specie × Nat)}
    (hp : ∀ active, filter st = .ok active →
      PlacedBy dist tol (super.map (·.2)) (active.map fun s => (removeOxidation s.1, s.2)) atoms)
    {env occ : List Int} (hs : SameLocalState allowed atoms si env occ) :
    ∃ loc, pyGetAll occ env = .ok loc ∧ m.calculateCorrelation loc = .ok corr := by
  obtain ⟨active, loc, hf, hocc, hloc, hc⟩ := occCorrFromStructure_ok h
  refine ⟨loc, ?_, hc⟩
  obtain ⟨-, atoms', hp', -, hd⟩ := (C72_structure_to_occupation ha _ o).1 hocc
  have hsame : atoms' = atoms := by
    have h1 := hp active hf
    unfold PlacedBy at h1 hp'
    clear hd hs hp
    generalize (active.map fun s => (removeOxidation s.1, s.2)) = L at h1 hp'
    induction h1 generalizing atoms' with
    | nil => cases hp'; rfl
    | cons x1 x2 ih =>
      cases hp' with
      | cons y1 y2 =>
        rename_i b bs
        obtain ⟨e1, d1, n1, -⟩ := x1
        obtain ⟨e2, d2, n2, -⟩ := y1
        rw [ih bs y2]
        congr 1
        exact Prod.ext (e2.trans e1.symm) (nearest_unique n2 n1).1
  subst hsame
  rw [pyGetAll_ok_iff] at hloc ⊢
  unfold SameLocalState at hs
  clear h hc
  induction hs generalizing loc with
  | nil => cases hloc; exact .nil
  | @cons s e si env h1 h2 ih =>
    cases hloc with
    | cons g1 g2 =>
      rename_i v vs
      refine .cons ?_ (ih vs g2)
      obtain ⟨k, al, i, rfl, h3, h4, h5⟩ := h1
      have hv : o.data[k]? = some v := by
        obtain ⟨k', h6, h7⟩ := pyGet_ok_iff.1 g1
        have := pyIdx_some_nonneg h6 (by omega)
        have hk : k' = k := by omega
        subst hk
        exact h7
      have : v = (i : Int) := by
        rcases h5 with ⟨sp, h6, h7⟩ | ⟨h6, ⟨a, h7, h8⟩, h9⟩
        · obtain ⟨al', i', k1, k2, k3⟩ := hd.onSite sp k h6
          rw [h3] at k1
          cases k1
          rw [isState_unique h7 k2]
          rw [hv, hb] at k3
          exact Option.some.inj k3
        · obtain ⟨v', k1, k2⟩ := hd.empty k _ h3 h6
          rw [hv] at k1
          cases k1
          rw [hb] at k2
          cases al with
          | nil => simp at h7
          | cons x xs =>
            have : EmptyValue (.chebyshev q) (some (x :: xs)) (i : Int) :=
              .inl ⟨i, a, h7, h8, h9, rfl⟩
            rw [emptyValue_unique k2, emptyValue_unique this]
      rw [this]
      exact h4

/-- So the value of the expansion in the simulation is the fitted linear function of the features
computed from the structure. -/
theorem C73_same_value [LinearOrder D] {m : LCE K} {ref : Lattice P} {q : Int}
    (hb : ref.basis = .chebyshev q) {si : List Int} {hashOk : Bool}
    {filter : List (Specie × P) → Py (List (Specie × P))} {dist : P → P → D} {tol : D}
    {super : List (Nat × P)} {allowed : List (Option (List Specie))}
    (ha : supercellAllowed ref super allowed) {st : List (Specie × P)} {o : Occupation} {corr : List K}
    (h : m.occCorrFromStructure ref si hashOk filter dist tol super true st = .ok (o, corr))
    {atoms : List (Specie × Nat)}
    (hp : ∀ active, filter st = .ok active →
      PlacedBy dist tol (super.map (·.2)) (active.map fun s => (removeOxidation s.1, s.2)) atoms)
    {e : Event} {occ : List Int} (hs : SameLocalState allowed atoms si e.env occ)
    {keci : List K} {e0 : K} (hk : m.keci = some keci) (h0 : m.emptyCluster = some e0)
    (hv : m.validateParameterOrbits keci m.parameterFingerprints m.parameterHash = .ok keci)
    (hlen : corr.length = keci.length) :
    m.compute occ e = .ok (expansion e0 keci corr) := by
  obtain ⟨loc, h1, h2⟩ := C73_same_features hb ha h hp hs
  unfold compute
  simp only [hk, h0, hv, h1, h2]
  unfold npInner
  rw [if_pos hlen]
  have key : (List.zipWith (· * ·) corr keci).sum = ((keci.zip corr).map fun kt => kt.1 * kt.2).sum := by
    clear hv h2 h hk hs hp
    induction corr generalizing keci with
    | nil => cases keci <;> rfl
    | cons a l ih =>
      cases keci with
      | nil => cases hlen
      | cons b k => simp [ih (keci := k) (by simpa using hlen), mul_comm]
  rw [key]
  show Except.ok _ = Except.ok _
  unfold expansion
  rw [add_comm]

end LCE

namespace Lattice
variable {P D : Type}

/-- `i` is the position of `a` in the list of active sites. -/
theorem keepActive_ok [LinearOrder D] {dist : P → P → D} {tol : D} {full : List P} {f : Nat → Option Nat}
    {st : List (Specie × P)} {acc kept : List (Nat × (Specie × P))}
    (h : keepActive dist tol full f st acc = .ok kept) (hn : (acc.map (·.1)).Nodup) :
    (kept.map (·.1)).Nodup ∧
    (∀ s ∈ st, ∃ i d, Nearest dist full s.2 i d ∧ d ≤ tol) ∧
    ∃ more, kept = acc ++ more ∧
      (more.map (·.2)).Sublist st ∧
      (∀ x ∈ more, ∃ i d, Nearest dist full x.2.2 i d ∧ f i = some x.1) ∧
      ∀ s ∈ st, ∀ i d, Nearest dist full s.2 i d → ∀ a, f i = some a → (a, s) ∈ more := by
  induction st generalizing acc with
  | nil => cases h; exact ⟨hn, by simp, [], by simp, .slnil, by simp, by simp⟩
  | cons s st ih =>
    unfold keepActive at h
    split at h
    · cases h
    · rename_i i d hi
      have hnear := (nearest_iff dist full s.2 i d).1 hi
      split at h
      · cases h
      · rename_i ht
        split at h
        · rename_i hf
          obtain ⟨h1, h2, more, h3, h4, h5, h6⟩ := ih h hn
          refine ⟨h1, ?_, more, h3, h4.cons _, h5, ?_⟩
          · intro x hx
            rcases List.mem_cons.1 hx with rfl | hx
            · exact ⟨i, d, hnear, not_lt.1 ht⟩
            · exact h2 x hx
          · intro x hx j e hj a ha
            rcases List.mem_cons.1 hx with rfl | hx
            · rw [(nearest_unique hj hnear).1, hf] at ha; cases ha
            · exact h6 x hx j e hj a ha
        · rename_i a hf
          split at h
          · cases h
          · rename_i hc
            have hn' : ((acc ++ [(a, s)]).map (·.1)).Nodup := by
              rw [List.map_append, List.nodup_append]
              refine ⟨hn, by simp, ?_⟩
              intro x hx y hy
              simp only [List.map_cons, List.map_nil, List.mem_singleton] at hy
              subst hy
              rintro rfl
              exact hc (by simpa using hx)
            obtain ⟨h1, h2, more, h3, h4, h5, h6⟩ := ih h hn'
            refine ⟨h1, ?_, (a, s) :: more, by rw [h3]; simp, h4.cons_cons _, ?_, ?_⟩
            · intro x hx
              rcases List.mem_cons.1 hx with rfl | hx
              · exact ⟨i, d, hnear, not_lt.1 ht⟩
              · exact h2 x hx
            · intro x hx
              rcases List.mem_cons.1 hx with rfl | hx
              · exact ⟨i, d, hnear, hf⟩
              · exact h5 x hx
            · intro x hx j e hj b hb
              rcases List.mem_cons.1 hx with rfl | hx
              · rw [(nearest_unique hj hnear).1, hf] at hb
                cases hb
                exact List.mem_cons_self
              · exact List.mem_cons_of_mem _ (h6 x hx j e hj b hb)

/-- Filtering a structure with missing (or extra) atoms keeps exactly the atoms whose nearest
template site is active, at most one for each active site, in the order of the active sites. -/
theorem C73_filter_by_position [LinearOrder D] {dist : P → P → D} {tol : D} {full : List P}
    {activeToOriginal : List Nat} {st kept : List (Specie × P)}
    (hc : st.length ≠ full.length)
    (h : filterActive dist tol full activeToOriginal false st = .ok kept) :
    ∃ indices : List Nat, indices.length = kept.length ∧ indices.Pairwise (· < ·) ∧
      (∀ (j a : Nat) (s : Specie × P), indices[j]? = some a → kept[j]? = some s →
        s ∈ st ∧ ∃ i d, Nearest dist full s.2 i d ∧ activeToOriginal[a]? = some i) ∧
      ∀ s ∈ st, ∀ i d, Nearest dist full s.2 i d → i ∈ activeToOriginal → s ∈ kept := by
  unfold filterActive at h
  rw [if_neg (by simp), if_neg hc] at h
  split at h
  · cases h
  · rename_i k hk
    cases h
    obtain ⟨h1, -, more, hmore, h4, h5, h6⟩ := keepActive_ok hk List.nodup_nil
    rw [List.nil_append] at hmore
    subst hmore
    have hperm := List.mergeSort_perm k (fun a b => decide (a.1 ≤ b.1))
    have hsort : (k.mergeSort fun a b => decide (a.1 ≤ b.1)).Pairwise (fun a b => a.1 ≤ b.1) := by
      have := List.pairwise_mergeSort (le := fun (a b : Nat × (Specie × P)) => decide (a.1 ≤ b.1))
        (by intro a b c; simp; omega) (by intro a b; simp; omega) k
      exact this.imp fun h => by simpa using h
    generalize (k.mergeSort fun a b => decide (a.1 ≤ b.1)) = srt at hperm hsort
    have find_iff : ∀ i a, activeToOriginal.findIdx? (· == i) = some a → activeToOriginal[a]? = some i := by
      intro i a hia
      rw [List.findIdx?_eq_some_iff_getElem] at hia
      obtain ⟨hlt, h7, -⟩ := hia
      rw [List.getElem?_eq_getElem hlt]
      simpa using h7
    refine ⟨srt.map (·.1), by simp, ?_, ?_, ?_⟩
    · have hnd : (srt.map (·.1)).Nodup := (hperm.map _).nodup_iff.2 h1
      rw [List.pairwise_map]
      have hnd' : srt.Pairwise (fun a b => a.1 ≠ b.1) := by
        have := hnd; unfold List.Nodup at this; rwa [List.pairwise_map] at this
      exact (hsort.and hnd').imp fun h => by omega
    · intro j a s hj hs
      rw [List.getElem?_map] at hj hs
      cases hx : srt[j]? with
      | none => rw [hx] at hj; cases hj
      | some x =>
        rw [hx] at hj hs
        have hxm : x ∈ k := hperm.mem_iff.1 (List.mem_of_getElem? hx)
        simp only [Option.map_some, Option.some.injEq] at hj hs
        subst hj hs
        refine ⟨h4.subset (List.mem_map.2 ⟨x, hxm, rfl⟩), ?_⟩
        obtain ⟨i, d, h7, h8⟩ := h5 x hxm
        exact ⟨i, d, h7, find_iff i _ h8⟩
    · intro s hs i d hn hi
      cases hf : activeToOriginal.findIdx? (· == i) with
      | none =>
        rw [List.findIdx?_eq_none_iff] at hf
        have := hf i hi
        simp at this
      | some a =>
        exact List.mem_map.2 ⟨(a, s), hperm.mem_iff.2 (h6 s hs i d hn a hf), rfl⟩

/-- A structure with as many atoms as the template is filtered by position in its list instead:
atom number `activeToOriginal[k]` is taken for active site `k`. -/
theorem C73_full_structure_by_index [LinearOrder D] {dist : P → P → D} {tol : D} {full : List P}
    {activeToOriginal : List Nat} {st kept : List (Specie × P)} (hc : st.length = full.length)
    (h : filterActive dist tol full activeToOriginal false st = .ok kept) :
    List.Forall₂ (fun i s => st[i]? = some s) activeToOriginal kept := by
  unfold filterActive at h
  rw [if_neg (by simp), if_pos hc] at h
  rw [pyGetAll_ok_iff, List.forall₂_map_left_iff] at h
  refine h.imp ?_
  intro i s hi
  obtain ⟨k, h1, h2⟩ := pyGet_ok_iff.1 hi
  have := pyIdx_some_nonneg h1 (by omega)
  have hk : k = i := by omega
  subst hk
  exact h2

/-- So the order of the atoms matters there: the same atoms in another order are refused, although
the order of atoms is otherwise irrelevant. -/
theorem C73_full_structure_order_matters :
    ∃ (l : Lattice Int) (full : List Int) (a2o : List Nat) (super : List (Nat × Int))
      (st st' : List (Specie × Int)) (o : Occupation), st.Perm st' ∧
      (∃ k, filterActive lineDist 1 full a2o false st = .ok k ∧
        l.getOcc lineDist 1 super true k none = .ok o) ∧
      ∃ k', filterActive lineDist 1 full a2o false st' = .ok k' ∧
        l.getOcc lineDist 1 super true k' none = .error .valueError :=
  ⟨⟨[(sNa, 0)], [(sNa, [sNa, .vacancy])], [some [sNa, .vacancy]], .chebyshev 2⟩, [0, 10], [0], [(0, 0)],
    [(sNa, 0), (sSb, 10)], [(sSb, 10), (sNa, 0)], ⟨.chebyshev 2, [0]⟩, .swap _ _ _,
    ⟨[(sNa, 0)], by decide, by decide⟩, ⟨[(sSb, 10)], by decide, by decide⟩⟩

end Lattice

namespace LCE

/-- A one-site expansion for the examples. -/
def oneSite : LCE Int where
  clusterSiteIndices := [[[0]]]
  basisIndices := none
  siteBasisValues := none
  environmentHash := none
  correlationFingerprints := none
  orbitFingerprints := none
  keci := some [5]
  emptyCluster := some 3
  parameterFingerprints := none
  parameterHash := none

def oneSiteReference (b : Basis) : Lattice Int :=
  ⟨[(sNa, 0)], [(sNa, [sNa, .vacancy])], [some [sNa, .vacancy]], b⟩

/-- The hypotheses are met: a sodium atom, read for fitting and seen in the simulation. -/
example :
    oneSite.occCorrFromStructure (oneSiteReference (.chebyshev 2)) [0] true .ok lineDist 1 [(0, 0)] true
      [(.vacancy, 0)] = .ok (⟨.chebyshev 2, [1]⟩, [1]) ∧
    SameLocalState [some [sNa, .vacancy]] [(removeOxidation .vacancy, 0)] [0] [7] [0, 0, 0, 0, 0, 0, 0, 1] :=
  ⟨by decide, .cons ⟨0, [sNa, .vacancy], 1, rfl, rfl, rfl,
    .inl ⟨_, List.mem_cons_self, (firstEquivalent_iff _ _ _).1 (by decide)⟩⟩ .nil⟩

/-- With the occupation basis the two disagree: a structure with a sodium atom has correlation 1,
while the state that lists species 0 (sodium) on that site has correlation 0. -/
theorem C73_occupation_basis_differs :
    ∃ (o : Occupation) (corr : List Int) (occ : List Int),
      oneSite.occCorrFromStructure (oneSiteReference .occupation) [0] true .ok lineDist 1 [(0, 0)] true
        [(sNa, 0)] = .ok (o, corr) ∧
      SameLocalState [some [sNa, .vacancy]] [(removeOxidation sNa, 0)] [0] [0] occ ∧
      ∃ loc corr', pyGetAll occ [0] = .ok loc ∧ oneSite.calculateCorrelation loc = .ok corr' ∧ corr' ≠ corr :=
  ⟨⟨.occupation, [1]⟩, [1], [0], by decide, .cons ⟨0, [sNa, .vacancy], 0, rfl, rfl, rfl,
    .inl ⟨_, List.mem_cons_self, (firstEquivalent_iff _ _ _).1 (by decide)⟩⟩ .nil,
    [0], [0], by decide, by decide, by decide⟩

end LCE
end KMC
