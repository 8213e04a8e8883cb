import Verif.Spec.LatticeSupercell
import Verif.Lemmas.LatticeSites
import Verif.Lemmas.Supercell
import Verif.Props.SpeciesNamesProps
/-
Lemmas about `Model/LatticeSupercell`.
-/
namespace KMC
open Spec

namespace Lattice
variable {P : Type}

theorem flatMap_const_length {α : Type} (a : Nat) (L : List α) :
    ((List.range a).flatMap fun _ => L).length = a * L.length := by
  simp [List.length_flatMap]

theorem flatMap_const_getElem? {α : Type} (a : Nat) (L : List α) (k : Nat) (h : k < a * L.length) :
    ((List.range a).flatMap fun _ => L)[k]? = L[k % L.length]? := by
  induction a with
  | zero => simp at h
  | succ a ih =>
    rw [List.range_succ, List.flatMap_append, List.flatMap_cons, List.flatMap_nil, List.append_nil]
    by_cases hk : k < a * L.length
    · rw [List.getElem?_append_left (by rw [flatMap_const_length]; exact hk), ih hk]
    · rw [List.getElem?_append_right (by rw [flatMap_const_length]; omega), flatMap_const_length]
      have hlt : k - a * L.length < L.length := by rw [Nat.succ_mul] at h; omega
      have : k % L.length = k - a * L.length := by
        conv_lhs => rw [show k = (k - a * L.length) + a * L.length by omega]
        rw [Nat.add_mul_mod_self_right, Nat.mod_eq_of_lt hlt]
      rw [this]

theorem repeatedAllowed_length (al : List (Option (List Specie))) (diag : Int × Int × Int) :
    (repeatedAllowed al diag).length = diag.1.toNat * diag.2.1.toNat * diag.2.2.toNat * al.length := by
  unfold repeatedAllowed
  rw [flatMap_const_length, flatMap_const_length, flatMap_const_length]
  ring

theorem repeatedAllowed_getElem? (al : List (Option (List Specie))) (diag : Int × Int × Int) (k : Nat)
    (h : k < diag.1.toNat * diag.2.1.toNat * diag.2.2.toNat * al.length) :
    (repeatedAllowed al diag)[k]? = al[k % al.length]? := by
  have hpos : 0 < al.length := by
    rcases Nat.eq_zero_or_pos al.length with h0 | h0
    · rw [h0] at h; simp at h
    · exact h0
  have h2 : 0 < diag.2.2.toNat := by
    rcases Nat.eq_zero_or_pos diag.2.2.toNat with h0 | h0
    · rw [h0] at h; simp at h
    · exact h0
  have h1 : 0 < diag.2.1.toNat := by
    rcases Nat.eq_zero_or_pos diag.2.1.toNat with h0 | h0
    · rw [h0] at h; simp at h
    · exact h0
  unfold repeatedAllowed
  rw [flatMap_const_getElem? _ _ _ (by
    rw [flatMap_const_length, flatMap_const_length]; rw [← Nat.mul_assoc, ← Nat.mul_assoc]; exact h)]
  rw [flatMap_const_length, flatMap_const_length]
  have l2 : 0 < diag.2.2.toNat * al.length := Nat.mul_pos h2 hpos
  have l1 : 0 < diag.2.1.toNat * (diag.2.2.toNat * al.length) := Nat.mul_pos h1 l2
  rw [flatMap_const_getElem? _ _ _ (by rw [flatMap_const_length]; exact Nat.mod_lt _ l1)]
  rw [flatMap_const_length, Nat.mod_mul_left_mod]
  rw [flatMap_const_getElem? _ _ _ (Nat.mod_lt _ l2), Nat.mod_mul_left_mod]

theorem imageSites_spec (template : List (Specie × P)) (images : List (Nat × P))
    (h : ∀ s ∈ images, s.1 < template.length) :
    (imageSites template images).length = images.length ∧
    ∀ (k : Nat), (imageSites template images)[k]? =
      images[k]?.bind fun s => template[s.1]?.map fun t => (t.1, s.2) := by
  induction images with
  | nil => exact ⟨rfl, fun k => by simp [imageSites]⟩
  | cons a images ih =>
    have ha := h a (by simp)
    obtain ⟨h1, h2⟩ := ih fun s hs => h s (List.mem_cons_of_mem _ hs)
    have he : imageSites template (a :: images) =
        ((template[a.1]).1, a.2) :: imageSites template images := by
      unfold imageSites
      rw [List.filterMap_cons, List.getElem?_eq_getElem ha]
      rfl
    rw [he]
    refine ⟨by simp [h1], ?_⟩
    intro k
    cases k with
    | zero => simp [List.getElem?_eq_getElem ha]
    | succ k => simpa using h2 k

theorem imageSites_allowed (template : List (Specie × P)) (images : List (Nat × P))
    (mapping : List (Specie × List Specie)) (h : ∀ s ∈ images, s.1 < template.length) (k : Nat) :
    ((imageSites template images).map fun s => allowedFor mapping s.1)[k]? =
      images[k]?.bind fun s => (template.map fun s => allowedFor mapping s.1)[s.1]? := by
  rw [List.getElem?_map, (imageSites_spec template images h).2 k]
  cases images[k]? with
  | none => rfl
  | some s =>
    simp only [Option.bind_some, List.getElem?_map, Option.map_map]
    rfl

theorem listsImages_lt {m n : Nat} {images : List (Nat × P)} (h : ListsImages m n images) :
    ∀ s ∈ images, s.1 < m := by
  intro s hs
  obtain ⟨k, hk, rfl⟩ := List.getElem_of_mem hs
  have h1 := h.2 k _ (List.getElem?_eq_getElem hk)
  have hk' : k < m * n := by rw [← h.1]; exact hk
  rw [h1]
  exact Nat.div_lt_of_lt_mul (by rw [Nat.mul_comm]; exact hk')

/-! ### A normalised mapping is left as it is. -/

/-- A species that `normalize_species` leaves alone. -/
def Settled (s : Specie) : Prop := s = .vacancy ∨ (s.isVacancy = false ∧ s.text = false)

theorem normalize_settled {parse : String → Py Specie} (hp : ReadsElements parse) {s t : Specie}
    (h : s.normalize parse = .ok t) : Settled t := by
  unfold Specie.normalize at h
  split at h
  · cases h; exact .inl rfl
  · rename_i hv
    split at h
    · obtain ⟨h1, h2⟩ := hp _ _ h; exact .inr ⟨h2, h1⟩
    · rename_i ht; cases h; exact .inr ⟨by simpa using hv, by simpa using ht⟩

theorem normalize_of_settled {parse : String → Py Specie} {s : Specie} (h : Settled s) :
    s.normalize parse = .ok s := by
  unfold Specie.normalize
  rcases h with rfl | ⟨h1, h2⟩
  · rfl
  · rw [if_neg (by simp [h1]), if_neg (by simp [h2])]

theorem normalizeAll_settled {parse : String → Py Specie} (hp : ReadsElements parse) {l l' : List Specie}
    (h : normalizeAll parse l = .ok l') : ∀ s ∈ l', Settled s := by
  induction l generalizing l' with
  | nil => cases h; simp
  | cons a l ih =>
    unfold normalizeAll at h
    split at h
    · cases h
    · rename_i b hb
      split at h
      · cases h
      · rename_i bs hbs
        cases h
        intro s hs
        rcases List.mem_cons.1 hs with rfl | hs
        · exact normalize_settled hp hb
        · exact ih hbs s hs

theorem normalizeAll_of_settled {parse : String → Py Specie} {l : List Specie} (h : ∀ s ∈ l, Settled s) :
    normalizeAll parse l = .ok l := by
  induction l with
  | nil => rfl
  | cons a l ih =>
    unfold normalizeAll
    rw [normalize_of_settled (h a (by simp))]
    simp only
    rw [ih fun s hs => h s (List.mem_cons_of_mem _ hs)]

theorem dictSet_settled {acc : List (Specie × List Specie)} {k : Specie} {v : List Specie}
    (ha : ∀ x ∈ acc, Settled x.1 ∧ ∀ s ∈ x.2, Settled s) (hk : Settled k) (hv : ∀ s ∈ v, Settled s) :
    ∀ x ∈ dictSet acc k v, Settled x.1 ∧ ∀ s ∈ x.2, Settled s := by
  induction acc with
  | nil => intro x hx; simp only [dictSet, List.mem_singleton] at hx; subst hx; exact ⟨hk, hv⟩
  | cons a acc ih =>
    intro x hx
    unfold dictSet at hx
    split at hx
    · rename_i he
      rcases List.mem_cons.1 hx with rfl | hx
      · exact ⟨by rw [he]; exact hk, hv⟩
      · exact ha x (List.mem_cons_of_mem _ hx)
    · rcases List.mem_cons.1 hx with rfl | hx
      · exact ha _ (by simp)
      · exact ih (fun y hy => ha y (List.mem_cons_of_mem _ hy)) x hx

theorem normalizeMapping_settled {parse : String → Py Specie} (hp : ReadsElements parse)
    {m acc m' : List (Specie × List Specie)} (ha : ∀ x ∈ acc, Settled x.1 ∧ ∀ s ∈ x.2, Settled s)
    (h : normalizeMapping parse m acc = .ok m') : ∀ x ∈ m', Settled x.1 ∧ ∀ s ∈ x.2, Settled s := by
  induction m generalizing acc with
  | nil => cases h; exact ha
  | cons a m ih =>
    simp only [normalizeMapping] at h
    split at h
    · cases h
    · rename_i k hk
      split at h
      · cases h
      · rename_i v hv
        exact ih (dictSet_settled ha (normalize_settled hp hk) (normalizeAll_settled hp hv)) h

theorem normalizeMapping_of_settled {parse : String → Py Specie} {m acc : List (Specie × List Specie)}
    (h : ∀ x ∈ m, Settled x.1 ∧ ∀ s ∈ x.2, Settled s) (hn : (dictKeys (acc ++ m)).Nodup) :
    normalizeMapping parse m acc = .ok (acc ++ m) := by
  induction m generalizing acc with
  | nil => simp [normalizeMapping]
  | cons a m ih =>
    obtain ⟨k, v⟩ := a
    obtain ⟨h1, h2⟩ := h (k, v) (by simp)
    have hnot : k ∉ dictKeys acc := by
      intro hc
      simp only [dictKeys, List.map_append, List.map_cons] at hn hc
      exact (List.nodup_append.1 hn).2.2 k hc k (by simp) rfl
    unfold normalizeMapping
    rw [normalize_of_settled h1]
    simp only
    rw [normalizeAll_of_settled h2]
    simp only
    rw [dictKeys_dictSet_of_not_mem acc v hnot, ih (fun x hx => h x (List.mem_cons_of_mem _ hx)) (by simpa using hn)]
    simp

/-- What is known of a lattice structure that was built: its mapping is normalised, and it is what its template,
mapping and basis give. -/
theorem make_again {parse : String → Py Specie} (hp : ReadsElements parse) {template : List (Specie × P)}
    {mapping : List (Specie × List Specie)} {bt : String} {l : Lattice P}
    (h : make parse template mapping bt = .ok l) :
    l.template = template ∧ l.basis.name = bt ∧
    (∀ (sites : List (Specie × P)), make parse sites l.siteMapping l.basis.name = mk' sites l.siteMapping bt) ∧
    mk' l.template l.siteMapping bt = .ok l := by
  unfold make at h
  split at h
  · cases h
  · rename_i m hm
    obtain ⟨h1, h2, h3, h4, -⟩ := mk'_ok h
    have hs := normalizeMapping_settled hp (acc := []) (by simp) hm
    have hn := normalizeMapping_nodup _ [] _ List.nodup_nil hm
    refine ⟨h1, h4, ?_, by rw [h1, h2]; exact h⟩
    intro sites
    unfold make
    rw [h2, normalizeMapping_of_settled hs (by simpa using hn), h4]
    rfl

/-! ### The size of the basis. -/

theorem mk'_basis_eq {t t' : List (Specie × P)} {m : List (Specie × List Specie)} {bt : String} {l l' : Lattice P}
    (h : mk' t m bt = .ok l) (h' : mk' t' m bt = .ok l')
    (hle : ∀ al, some al ∈ l.allowed → 2 < al.length → some al ∈ l'.allowed)
    (hge : ∀ al, some al ∈ l'.allowed → 2 < al.length → some al ∈ l.allowed) : l'.basis = l.basis := by
  by_cases hc : bt = "chebyshev"
  · subst hc
    obtain ⟨q, h1, h2, h3, h4⟩ := C48_basis_size h
    obtain ⟨q', h1', h2', h3', h4'⟩ := C48_basis_size h'
    rw [h1, h1']
    congr 1
    apply le_antisymm
    · rcases h4' with h5 | ⟨al, h5, h6⟩
      · omega
      · by_cases h7 : 2 < al.length
        · have := h3 al (hge al h5 h7); omega
        · omega
    · rcases h4 with h5 | ⟨al, h5, h6⟩
      · omega
      · by_cases h7 : 2 < al.length
        · have := h3' al (hle al h5 h7); omega
        · omega
  · have e1 := (mk'_ok h).2.2.2.1
    have e2 := (mk'_ok h').2.2.2.1
    cases hb : l.basis with
    | chebyshev m => rw [hb] at e1; exact absurd e1.symm hc
    | occupation =>
      cases hb' : l'.basis with
      | chebyshev m => rw [hb'] at e2; exact absurd e2.symm hc
      | occupation => rfl

end Lattice
end KMC
