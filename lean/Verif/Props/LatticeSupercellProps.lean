import Verif.Lemmas.LatticeSupercell
import Verif.Props.LatticeProps
import Verif.Props.StructureProps
/-
C121: lattice structures made of another one, by `make_supercell`, `copy` and `get_active_lattice_structure`.
-/
namespace KMC
open Spec

namespace Lattice
variable {P : Type}

/-- The number of cells that `make_supercell` counts: the product of the diagonal of its matrix, negative entries
counting as zero. -/
def diagonalCells (diag : Int × Int × Int) : Nat := diag.1.toNat * diag.2.1.toNat * diag.2.2.toNat

theorem makeSupercell_lengths {l : Lattice P} {images : List (Nat × P)} {n : Nat} (diag : Int × Int × Int)
    (hl : l.allowed.length = l.template.length) (hi : ListsImages l.template.length n images) :
    (l.makeSupercell images diag).1.template.length = l.template.length * n ∧
    (l.makeSupercell images diag).1.allowed.length = diagonalCells diag * l.template.length := by
  refine ⟨?_, ?_⟩
  · show (imageSites l.template images).length = _
    rw [(imageSites_spec _ _ (listsImages_lt hi)).1, hi.1]
  · show (repeatedAllowed l.allowed diag).length = _
    rw [repeatedAllowed_length, hl]; rfl

/-- C121.  A supercell is accepted exactly when the diagonal of the matrix has the number of cells as its product,
whatever the other entries are; otherwise it is refused with a `ValueError`.  Either way the object has the sites of
the supercell afterwards: site `k` is an image of site `k / n` of the template, with its species. -/
theorem C121_supercell_accepted {l : Lattice P} {images : List (Nat × P)} {n : Nat} (diag : Int × Int × Int)
    (hl : l.allowed.length = l.template.length) (h0 : l.template ≠ [])
    (hi : ListsImages l.template.length n images) :
    ((l.makeSupercell images diag).2 = .ok () ↔ diagonalCells diag = n) ∧
    ((l.makeSupercell images diag).2 = .error .valueError ↔ diagonalCells diag ≠ n) ∧
    (l.makeSupercell images diag).1.template.length = l.template.length * n ∧
    ∀ (k : Nat) s, images[k]? = some s →
      ∃ t, l.template[k / n]? = some t ∧ (l.makeSupercell images diag).1.template[k]? = some (t.1, s.2) := by
  obtain ⟨h1, h2⟩ := makeSupercell_lengths diag hl hi
  have hm : 0 < l.template.length := List.length_pos_of_ne_nil h0
  have hout : (l.makeSupercell images diag).2 =
      if (l.makeSupercell images diag).1.allowed.length ≠ (l.makeSupercell images diag).1.template.length
      then .error .valueError else .ok () := rfl
  rw [h1, h2] at hout
  have hiff : diagonalCells diag * l.template.length = l.template.length * n ↔ diagonalCells diag = n := by
    rw [Nat.mul_comm]; exact Nat.mul_left_cancel_iff hm
  refine ⟨?_, ?_, h1, ?_⟩
  · rw [hout, ← hiff]
    by_cases hc : diagonalCells diag * l.template.length = l.template.length * n
    · simp [hc]
    · simp [hc]
  · rw [hout, show (diagonalCells diag ≠ n) ↔ ¬ diagonalCells diag * l.template.length = l.template.length * n from
      not_congr hiff.symm]
    by_cases hc : diagonalCells diag * l.template.length = l.template.length * n
    · simp [hc]
    · simp [hc]
  · intro k s hk
    have hs := hi.2 k s hk
    have hlt := listsImages_lt hi s (List.mem_of_getElem? hk)
    refine ⟨l.template[k / n]'(hs ▸ hlt), List.getElem?_eq_getElem _, ?_⟩
    show (imageSites l.template images)[k]? = _
    rw [(imageSites_spec _ _ (listsImages_lt hi)).2 k, hk]
    simp only [Option.bind_some]
    rw [List.getElem?_eq_getElem (hs ▸ hs ▸ hlt : s.1 < l.template.length)]
    simp [hs]

/-- C121.  A refused supercell leaves the object with lists of different lengths: the sites of the supercell, but
allowed species for another number of sites. -/
theorem C121_refused_supercell_inconsistent {l : Lattice P} {images : List (Nat × P)} {n : Nat}
    (diag : Int × Int × Int) (hl : l.allowed.length = l.template.length) (h0 : l.template ≠ [])
    (hi : ListsImages l.template.length n images) (hr : (l.makeSupercell images diag).2 = .error .valueError) :
    (l.makeSupercell images diag).1.template.length = l.template.length * n ∧
    (l.makeSupercell images diag).1.allowed.length ≠ (l.makeSupercell images diag).1.template.length := by
  refine ⟨(C121_supercell_accepted diag hl h0 hi).2.2.1, ?_⟩
  intro hc
  have hout : (l.makeSupercell images diag).2 =
      if (l.makeSupercell images diag).1.allowed.length ≠ (l.makeSupercell images diag).1.template.length
      then .error .valueError else .ok () := rfl
  rw [if_neg (by simpa using hc), hr] at hout
  cases hout

/-- C121.  In an accepted supercell of `n` cells of `m` sites, site `k` allows what site `k mod m` of the template
allows, although it is an image of site `k / n`. -/
theorem C121_supercell_allowed {l : Lattice P} {images : List (Nat × P)} {n : Nat} (diag : Int × Int × Int)
    (hl : l.allowed.length = l.template.length) (h0 : l.template ≠ [])
    (hi : ListsImages l.template.length n images) (ha : (l.makeSupercell images diag).2 = .ok ()) {k : Nat}
    (hk : k < l.template.length * n) :
    (l.makeSupercell images diag).1.allowed[k]? = l.allowed[k % l.template.length]? := by
  have hd := (C121_supercell_accepted diag hl h0 hi).1.1 ha
  show (repeatedAllowed l.allowed diag)[k]? = _
  rw [repeatedAllowed_getElem? _ _ _ (by
    show k < diagonalCells diag * _
    rw [hd, hl, Nat.mul_comm]; exact hk), hl]

/-- C121.  The sites of an accepted supercell allow what the sites they are images of allow exactly when the
supercell is a single cell or all sites of the template allow the same species. -/
theorem C121_supercell_right_iff {l : Lattice P} {images : List (Nat × P)} {n : Nat} (diag : Int × Int × Int)
    (hl : l.allowed.length = l.template.length) (h0 : l.template ≠ []) (hn : 0 < n)
    (hi : ListsImages l.template.length n images) (ha : (l.makeSupercell images diag).2 = .ok ()) :
    AllowsLikeItsSite l images (l.makeSupercell images diag).1 ↔ n = 1 ∨ AllSitesAlike l := by
  have hm : 0 < l.template.length := List.length_pos_of_ne_nil h0
  have hd := (C121_supercell_accepted diag hl h0 hi).1.1 ha
  have hlen : (l.makeSupercell images diag).1.allowed.length = images.length := by
    rw [(makeSupercell_lengths diag hl hi).2, hd, hi.1, Nat.mul_comm]
  have hall := fun k hk => C121_supercell_allowed diag hl h0 hi ha (k := k) hk
  have hlk : ∀ (k : Nat) s, images[k]? = some s → k < l.template.length * n := by
    intro k s hk
    rw [← hi.1]
    exact (List.getElem?_eq_some_iff.1 hk).1
  constructor
  · rintro ⟨-, hr⟩
    by_cases hn1 : n = 1
    · exact .inl hn1
    · right
      -- every site allows what the first one allows
      have hfirst : ∀ k, k < l.template.length → l.allowed[k]? = l.allowed[0]? := by
        intro k
        induction k using Nat.strong_induction_on with
        | _ k ih =>
          intro hk
          rcases Nat.eq_zero_or_pos k with rfl | hk0
          · rfl
          · have hkn : k < l.template.length * n := lt_of_lt_of_le hk (Nat.le_mul_of_pos_right _ hn)
            have hki : k < images.length := by rw [hi.1]; exact hkn
            have h1 := hr k _ (List.getElem?_eq_getElem hki)
            rw [hall k hkn, Nat.mod_eq_of_lt hk, hi.2 k _ (List.getElem?_eq_getElem hki)] at h1
            have hlt : k / n < k := Nat.div_lt_self hk0 (by omega)
            rw [h1, ih (k / n) hlt (by omega)]
      intro a ha' b hb'
      obtain ⟨i, hi', rfl⟩ := List.getElem_of_mem ha'
      obtain ⟨j, hj', rfl⟩ := List.getElem_of_mem hb'
      have e1 := hfirst i (by omega)
      have e2 := hfirst j (by omega)
      rw [List.getElem?_eq_getElem hi'] at e1
      rw [List.getElem?_eq_getElem hj'] at e2
      exact Option.some.inj (e1.trans e2.symm)
  · intro h
    refine ⟨hlen, ?_⟩
    intro k s hk
    have hkn := hlk k s hk
    rw [hall k hkn, hi.2 k s hk]
    rcases h with rfl | h
    · rw [Nat.div_one, Nat.mod_eq_of_lt (by simpa using hkn)]
    · have h1 : k % l.template.length < l.allowed.length := by rw [hl]; exact Nat.mod_lt _ hm
      have h2 : k / n < l.allowed.length := by
        rw [hl]; exact Nat.div_lt_of_lt_mul (by rw [Nat.mul_comm]; exact hkn)
      rw [List.getElem?_eq_getElem h1, List.getElem?_eq_getElem h2]
      congr 1
      exact h _ (List.getElem_mem _) _ (List.getElem_mem _)

/-- C121.  A copy of a lattice structure that was built is the same lattice structure. -/
theorem C121_copy_same {parse : String → Py Specie} (hp : ReadsElements parse) {template : List (Specie × P)}
    {mapping : List (Specie × List Specie)} {bt : String} {l : Lattice P}
    (h : make parse template mapping bt = .ok l) : l.copy parse = .ok l := by
  obtain ⟨-, -, h3, h4⟩ := make_again hp h
  unfold copy
  rw [h3, h4]

/-- C121.  A copy of a supercell has the right species on every site, whether or not `make_supercell` accepted, and
the basis of the original. -/
theorem C121_copy_of_supercell {parse : String → Py Specie} (hp : ReadsElements parse)
    {template : List (Specie × P)} {mapping : List (Specie × List Specie)} {bt : String} {l : Lattice P}
    (h : make parse template mapping bt = .ok l) {images : List (Nat × P)} {n : Nat} (hn : 0 < n)
    (hi : ListsImages l.template.length n images) (diag : Int × Int × Int) :
    ∃ c, ((l.makeSupercell images diag).1).copy parse = .ok c ∧ AllowsLikeItsSite l images c ∧
      c.template = (l.makeSupercell images diag).1.template ∧ c.basis = l.basis := by
  obtain ⟨h1, h2, h3, h4⟩ := make_again hp h
  have hlt := listsImages_lt hi
  obtain ⟨g1, g2, g3, g4, -⟩ := mk'_ok h4
  have hcopy : ((l.makeSupercell images diag).1).copy parse = mk' (imageSites l.template images) l.siteMapping bt := by
    unfold copy
    exact h3 _
  have himg := imageSites_allowed l.template images l.siteMapping hlt
  have hmem : ∀ a, a ∈ l.allowed ↔ a ∈ (imageSites l.template images).map fun s => allowedFor l.siteMapping s.1 := by
    intro a
    constructor
    · intro ha
      obtain ⟨j, hj, rfl⟩ := List.getElem_of_mem ha
      have hjm : j < l.template.length := by rw [g3] at hj; simpa using hj
      have hjn : j * n < images.length := by rw [hi.1]; exact Nat.mul_lt_mul_of_pos_right hjm hn
      have e := himg (j * n)
      rw [List.getElem?_eq_getElem hjn, Option.bind_some, hi.2 _ _ (List.getElem?_eq_getElem hjn),
        Nat.mul_div_cancel _ hn, ← g3, List.getElem?_eq_getElem hj] at e
      exact List.mem_of_getElem? e
    · intro ha
      obtain ⟨j, hj, rfl⟩ := List.getElem_of_mem ha
      have hji : j < images.length := by
        rw [List.length_map, (imageSites_spec _ _ hlt).1] at hj; exact hj
      have e := himg j
      rw [List.getElem?_eq_getElem hj, List.getElem?_eq_getElem hji, Option.bind_some, ← g3] at e
      exact List.mem_of_getElem? e.symm
  have htot : ∃ c : Lattice P, mk' (imageSites l.template images) l.siteMapping bt = .ok c := by
    refine mk'_total ?_ ?_
    · rw [← h2]; cases l.basis <;> simp [Basis.name]
    · have hne : ∃ a, some a ∈ l.allowed ∧ a ≠ [] := by
        by_contra hc
        push Not at hc
        have hmax : ∀ (L : List (Option (List Specie))), (∀ a, some a ∈ L → a = []) → maxStates L = none := by
          intro L
          induction L with
          | nil => intro _; rfl
          | cons a L ih =>
            intro hL
            unfold maxStates
            rw [ih fun b hb => hL b (List.mem_cons_of_mem _ hb)]
            cases a with
            | none => rfl
            | some a =>
              have := hL a (by simp)
              subst this
              rfl
        have := hmax _ hc
        rw [g3] at this
        unfold mk' at h4
        simp only [this] at h4
        cases h4
      obtain ⟨a, ha, hane⟩ := hne
      obtain ⟨s, hs, hs'⟩ := List.mem_map.1 ((hmem _).1 ha)
      cases a with
      | nil => exact absurd rfl hane
      | cons x xs => exact ⟨s, hs, x, xs, hs'⟩
  obtain ⟨c, hc⟩ := htot
  obtain ⟨e1, e2, e3, e4, -⟩ := mk'_ok hc
  refine ⟨c, by rw [hcopy, hc], ⟨?_, ?_⟩, e1, ?_⟩
  · rw [e3, List.length_map, (imageSites_spec _ _ hlt).1]
  · intro k s hk
    rw [e3, himg k, hk, Option.bind_some, ← g3]
  · refine mk'_basis_eq h4 hc ?_ ?_
    · intro al hal _; rw [e3]; exact (hmem _).1 hal
    · intro al hal _; rw [e3] at hal; exact (hmem _).2 hal

/-- C121.  `get_structure_from_occ`, call by call, is what C72 says about it: the wrong allowed species of the
supercell are never used, because the object is copied once more. -/
theorem C121_structure_from_occ {parse : String → Py Specie} (hp : ReadsElements parse)
    {template : List (Specie × P)} {mapping : List (Specie × List Specie)} {bt : String} {l : Lattice P}
    (h : make parse template mapping bt = .ok l) {images : List (Nat × P)} (diag : Int × Int × Int)
    (o : Occupation) :
    structureFromOcc parse l images diag o = getStructure l (imageSites l.template images) diag o := by
  obtain ⟨h1, h2, h3, h4⟩ := make_again hp h
  unfold structureFromOcc
  rw [C121_copy_same hp h]
  simp only
  unfold getStructure
  have hlen : l.copiedLength diag = (l.makeSupercell images diag).1.allowed.length := by
    show _ = (repeatedAllowed l.allowed diag).length
    rw [repeatedAllowed_length]; rfl
  rw [hlen]
  have hout : l.makeSupercell images diag = ((l.makeSupercell images diag).1,
      if (l.makeSupercell images diag).1.allowed.length ≠ (imageSites l.template images).length
      then .error .valueError else .ok ()) := rfl
  rw [hout]
  by_cases hc : (l.makeSupercell images diag).1.allowed.length = (imageSites l.template images).length
  · rw [if_neg (by simpa using hc), if_neg (by simpa using hc)]
    simp only
    have htm : (l.makeSupercell images diag).1.template = imageSites l.template images := rfl
    have hcp : ((l.makeSupercell images diag).1).copy parse =
        mk' (imageSites l.template images) l.siteMapping l.basis.name := by
      have e := h3 (imageSites l.template images)
      unfold copy
      refine Eq.trans e ?_
      rw [h2]
    rw [htm, hcp]
    split
    · rfl
    · cases hm : mk' (imageSites l.template images) l.siteMapping l.basis.name with
      | error e => rfl
      | ok c =>
        have e := (mk'_ok hm).1
        simp only [e]
        cases speciesAt c.basis c.allowed 0 o.data <;> rfl
  · rw [if_pos (by simpa using hc), if_pos (by simpa using hc)]

/-- C121.  The lattice structure of the active sites has exactly the active sites of the supercell, in the order of
the active-site order; each allows what its site of the template allows, and the basis is that of the whole lattice.
So an occupation value means the same species in both. -/
theorem C121_active_lattice {φ : Type} {parse : String → Py Specie} (hp : ReadsElements parse)
    {template : List (Specie × P)} {mapping : List (Specie × List Specie)} {bt : String} {l : Lattice P}
    (h : make parse template mapping bt = .ok l)
    {fp : Nat → Nat → List Nat → List Nat → List Nat → Nat × Nat × Nat → List Specie → List (List Specie) → φ}
    {shape : Option (List Int)} {order : ActiveSiteOrder Specie φ}
    (ho : ActiveSiteOrder.fromStructureAndMapping Specie.equivalent fp (l.template.map (·.1)) l.siteMapping shape =
      .ok order) {images : List (Nat × P)}
    (hi : ListsImages l.template.length (cellCount order.supercellShape) images) :
    ∃ a, activeLattice parse l order images = .ok a ∧ a.basis = l.basis ∧
      a.template.length = order.activeToOriginal.length ∧
      ∀ (k i : Nat), order.activeToOriginal[k]? = some i →
        ∃ t s, images[i]? = some s ∧ l.template[s.1]? = some t ∧ a.template[k]? = some (t.1, s.2) ∧
          ∃ al, l.allowed[s.1]? = some (some al) ∧ 1 < al.length ∧ a.allowed[k]? = some (some al) := by
  obtain ⟨h1, h2, h3, h4⟩ := make_again hp h
  have hlt := listsImages_lt hi
  obtain ⟨g1, g2, g3, g4, -⟩ := mk'_ok h4
  obtain ⟨n1, n2, n3, n4, n5, n6, n7⟩ := C41_numbering ho
  simp only [List.length_map] at n1
  have hil := (imageSites_spec l.template images hlt).1
  have hig := (imageSites_spec l.template images hlt).2
  have hact : ∀ i ∈ order.activeToOriginal, i < images.length := by
    intro i hi'
    rw [hi.1, ← n1]
    exact ((n5 i).1 hi').1
  -- the sites of the active structure
  have hpick : ∃ sites, ActiveSiteOrder.pickAll (imageSites l.template images) order.activeToOriginal = .ok sites := by
    have : ∀ is : List Nat, (∀ i ∈ is, i < images.length) →
        ∃ sites, ActiveSiteOrder.pickAll (imageSites l.template images) is = .ok sites := by
      intro is
      induction is with
      | nil => intro _; exact ⟨[], rfl⟩
      | cons i is ih =>
        intro hb
        obtain ⟨sites, hs⟩ := ih fun j hj => hb j (List.mem_cons_of_mem _ hj)
        unfold ActiveSiteOrder.pickAll
        rw [List.getElem?_eq_getElem (by rw [hil]; exact hb i (by simp))]
        simp only [hs]
        exact ⟨_, rfl⟩
    exact this _ hact
  obtain ⟨sites, hs⟩ := hpick
  obtain ⟨p1, p2⟩ := (pickAll_ok_iff _ _ _).1 hs
  have hsite : ∀ (k i : Nat), order.activeToOriginal[k]? = some i →
      ∃ t s, images[i]? = some s ∧ l.template[s.1]? = some t ∧ sites[k]? = some (t.1, s.2) ∧
        ∃ al, l.allowed[s.1]? = some (some al) ∧ 1 < al.length ∧ allowedFor l.siteMapping t.1 = some al := by
    intro k i hk
    have himem := List.mem_of_getElem? hk
    have hlti := hact i himem
    obtain ⟨v, hv, hv'⟩ := p2 k i hk
    have hsl := hlt _ (List.getElem_mem hlti)
    refine ⟨l.template[(images[i]).1], images[i], List.getElem?_eq_getElem _, List.getElem?_eq_getElem _, ?_, ?_⟩
    · rw [hig i, List.getElem?_eq_getElem hlti, Option.bind_some, List.getElem?_eq_getElem hsl] at hv
      rw [hv', ← hv]
      rfl
    · obtain ⟨-, s, kv, e1, e2, e3⟩ := (n5 i).1 himem
      rw [List.getElem?_map, ← hi.2 i _ (List.getElem?_eq_getElem hlti), List.getElem?_eq_getElem hsl] at e1
      have e1' : (l.template[(images[i]).1]).1 = s := Option.some.inj e1
      have e4 : allowedFor l.siteMapping (l.template[(images[i]).1]).1 = some kv.2 := by
        unfold allowedFor
        rw [e1', e2]
        rfl
      refine ⟨kv.2, ?_, e3, e4⟩
      rw [g3, List.getElem?_map, List.getElem?_eq_getElem hsl]
      exact congrArg some e4
  have hallow : ∀ (k i : Nat), order.activeToOriginal[k]? = some i → ∃ s al, images[i]? = some s ∧
      l.allowed[s.1]? = some (some al) ∧ 1 < al.length ∧
      (sites.map fun s => allowedFor l.siteMapping s.1)[k]? = some (some al) := by
    intro k i hk
    obtain ⟨t, s, q1, q2, q3, al, q4, q5, q6⟩ := hsite k i hk
    exact ⟨s, al, q1, q4, q5, by rw [List.getElem?_map, q3]; exact congrArg some q6⟩
  have htot : ∃ a : Lattice P, mk' sites l.siteMapping bt = .ok a := by
    refine mk'_total ?_ ?_
    · rw [← h2]; cases l.basis <;> simp [Basis.name]
    · obtain ⟨i, is, hcons⟩ := List.exists_cons_of_ne_nil n7
      obtain ⟨t, s, q1, q2, q3, al, q4, q5, q6⟩ := hsite 0 i (by rw [hcons]; rfl)
      cases al with
      | nil => simp at q5
      | cons x xs => exact ⟨_, List.mem_of_getElem? q3, x, xs, q6⟩
  obtain ⟨a, ha⟩ := htot
  obtain ⟨e1, e2, e3, e4, -⟩ := mk'_ok ha
  refine ⟨a, ?_, ?_, by rw [e1, p1], ?_⟩
  · unfold activeLattice
    rw [hs]
    simp only
    rw [h3, ha]
  · refine mk'_basis_eq h4 ha ?_ ?_
    · intro al hal hlen
      -- a site with more than two species is active
      obtain ⟨j, hj, hja⟩ := List.getElem_of_mem hal
      have hjm : j < l.template.length := by rw [g3] at hj; simpa using hj
      obtain ⟨c1, c2, c3⟩ := normalizeSupercellShape_ok (fromStructureAndMapping_ok ho).1
      have hn : 0 < cellCount order.supercellShape := Nat.mul_pos (Nat.mul_pos c1 c2) c3
      have hjn : j * cellCount order.supercellShape < order.originalSiteCount := by
        rw [n1]; exact Nat.mul_lt_mul_of_pos_right hjm hn
      have hfor : allowedFor l.siteMapping (l.template[j]).1 = some al := by
        have e : l.allowed[j]? = some (some al) := by rw [List.getElem?_eq_getElem hj, hja]
        rw [g3, List.getElem?_map, List.getElem?_eq_getElem hjm] at e
        exact Option.some.inj e
      have hin : j * cellCount order.supercellShape ∈ order.activeToOriginal := by
        rw [n5]
        unfold allowedFor at hfor
        cases hf : l.siteMapping.find? fun kv => (l.template[j]).1.equivalent kv.1 with
        | none => rw [hf] at hfor; cases hfor
        | some kv =>
          rw [hf] at hfor
          have hkv : kv.2 = al := Option.some.inj hfor
          refine ⟨hjn, (l.template[j]).1, kv, ?_, hf, by rw [hkv]; omega⟩
          rw [Nat.mul_div_cancel _ hn, List.getElem?_map, List.getElem?_eq_getElem hjm]
          rfl
      obtain ⟨k, hk, hke⟩ := List.getElem_of_mem hin
      obtain ⟨s, al', q1, q2, q3, q4⟩ := hallow k _ (by rw [List.getElem?_eq_getElem hk, hke])
      have hsj : s.1 = j := by
        rw [hi.2 _ _ q1, Nat.mul_div_cancel _ hn]
      rw [hsj, List.getElem?_eq_getElem hj, hja] at q2
      cases q2
      rw [e3]
      exact List.mem_of_getElem? q4
    · intro al hal _
      rw [e3] at hal
      obtain ⟨k, hk, hka⟩ := List.getElem_of_mem hal
      have hk' : k < order.activeToOriginal.length := by rw [← p1]; simpa using hk
      obtain ⟨s, al', q1, q2, q3, q4⟩ := hallow k _ (List.getElem?_eq_getElem hk')
      rw [List.getElem?_eq_getElem hk, hka] at q4
      cases q4
      exact List.mem_of_getElem? q2
  · intro k i hk
    obtain ⟨t, s, q1, q2, q3, al, q4, q5, q6⟩ := hsite k i hk
    refine ⟨t, s, q1, q2, by rw [e1]; exact q3, al, q4, q5, ?_⟩
    rw [e3, List.getElem?_map, q3]
    exact congrArg some q6

/-! Examples: the cell with a sodium site next to an antimony/tungsten site of C72, doubled. -/

/-- pymatgen's reading of the texts in the examples. -/
def exampleParse : String → Py Specie := fun _ => .error .valueError

theorem exampleParse_reads : ReadsElements exampleParse := by
  intro x s h; cases h

theorem exampleLattice_made : make exampleParse exampleTemplate exampleMapping "chebyshev" = .ok exampleLattice := by
  rfl

theorem exampleSuper_images : ListsImages exampleLattice.template.length 2 exampleSuper := by
  refine ⟨rfl, ?_⟩
  intro k s hk
  have : k < 4 := (List.getElem?_eq_some_iff.1 hk).1
  interval_cases k <;> (simp [exampleSuper] at hk; subst hk; rfl)

/-- The hypotheses are met by a doubled cell; its sites do not all allow the same species. -/
example : exampleLattice.allowed.length = exampleLattice.template.length ∧ exampleLattice.template ≠ [] ∧
    ListsImages exampleLattice.template.length 2 exampleSuper ∧
    (exampleLattice.makeSupercell exampleSuper (2, 1, 1)).2 = .ok () ∧
    (exampleLattice.makeSupercell exampleSuper (1, 1, 1)).2 = .error .valueError ∧
    ¬ AllSitesAlike exampleLattice :=
  ⟨rfl, by decide, exampleSuper_images, by decide, by decide,
    fun h => absurd (h (some [sNa, .vacancy]) (by decide) (some [sSb, sW]) (by decide)) (by decide)⟩

/-- A sodium site next to a second site that prefers another species but takes sodium too. -/
def sharedLattice : Lattice Int :=
  ⟨exampleTemplate, [(sNa, [sNa, .vacancy]), (sSb, [sSb, sNa])], [some [sNa, .vacancy], some [sSb, sNa]],
    .chebyshev 2⟩

/-- C121.  The doubled cell does not accept its own template: `make_supercell` succeeds, and reading the sites of the
supercell, each with the species of the template, fails; a copy of the object reads them. -/
theorem C121_supercell_rejects_itself :
    ∃ (l c : Lattice Int) (o : Occupation), make exampleParse exampleTemplate exampleMapping "chebyshev" = .ok l ∧
      (l.makeSupercell exampleSuper (2, 1, 1)).2 = .ok () ∧
      getOcc (l.makeSupercell exampleSuper (2, 1, 1)).1 lineDist 1 [(0, 0), (1, 20), (2, 10), (3, 30)] true
        exampleSites none = .error .valueError ∧
      ((l.makeSupercell exampleSuper (2, 1, 1)).1).copy exampleParse = .ok c ∧
      getOcc c lineDist 1 [(0, 0), (1, 20), (2, 10), (3, 30)] true exampleSites none = .ok o ∧ o.data = [0, 0, 0, 0] :=
  ⟨exampleLattice, _, ⟨.chebyshev 2, [0, 0, 0, 0]⟩, rfl, by decide, by decide, rfl, by decide, rfl⟩

/-- C121.  With a species that both sites take, the supercell reads a structure without complaint and gives other
values than its copy: sodium on an image of the sodium site is read as the second species. -/
theorem C121_supercell_misreads :
    ∃ (l c : Lattice Int) (o o' : Occupation),
      make exampleParse exampleTemplate [(sNa, [sNa, .vacancy]), (sSb, [sSb, sNa])] "chebyshev" = .ok l ∧
      (l.makeSupercell exampleSuper (2, 1, 1)).2 = .ok () ∧
      ((l.makeSupercell exampleSuper (2, 1, 1)).1).copy exampleParse = .ok c ∧
      getOcc (l.makeSupercell exampleSuper (2, 1, 1)).1 lineDist 1 [(0, 0), (1, 20), (2, 10), (3, 30)] true
        [(sNa, 0), (sNa, 20), (sNa, 10), (sNa, 30)] none = .ok o ∧
      getOcc c lineDist 1 [(0, 0), (1, 20), (2, 10), (3, 30)] true
        [(sNa, 0), (sNa, 20), (sNa, 10), (sNa, 30)] none = .ok o' ∧
      o.data = [0, 1, 0, 1] ∧ o'.data = [0, 0, 1, 1] :=
  ⟨sharedLattice, _, ⟨.chebyshev 2, [0, 1, 0, 1]⟩, ⟨.chebyshev 2, [0, 0, 1, 1]⟩, rfl, by decide, rfl, by decide,
    by decide, rfl, rfl⟩

/-- The active sites of a cell with a fixed site, doubled: the hypotheses of `C121_active_lattice` are met. -/
example : ∃ (l : Lattice Int) (o : ActiveSiteOrder Specie Nat),
    make exampleParse exampleTemplate [(sNa, [sNa, .vacancy]), (sSb, [sSb])] "chebyshev" = .ok l ∧
    ActiveSiteOrder.fromStructureAndMapping Specie.equivalent (fun _ _ _ _ _ _ _ _ => 0) (l.template.map (·.1))
      l.siteMapping (some [2, 1, 1]) = .ok o ∧ ListsImages l.template.length (cellCount o.supercellShape) exampleSuper ∧
    o.activeToOriginal = [0, 1] :=
  ⟨_, _, rfl, rfl, exampleSuper_images, rfl⟩

end Lattice
end KMC
