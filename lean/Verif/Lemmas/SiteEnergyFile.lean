import Verif.Spec.SiteEnergyFile
import Verif.Lemmas.Py
import Verif.Lemmas.Text
import Verif.Lemmas.LocalBarrierFile
/-
Lemmas for saved site-energy models.
-/
namespace KMC
namespace SiteEnergyFile
open Spec
variable {σ V Rt T : Type}

theorem dropWhile_fix {α : Type} {p : α → Bool} (l : List α) :
    (l.dropWhile p).dropWhile p = l.dropWhile p := by
  induction l with
  | nil => rfl
  | cons a l ih =>
    cases h : p a with
    | true => simp [h, ih]
    | false => simp [h]

theorem dropWhile_of_head {α : Type} {p : α → Bool} {l : List α} (h : ∀ a ∈ l.head?, p a = false) :
    l.dropWhile p = l := by
  cases l with
  | nil => rfl
  | cons a l => simp [h a (by simp)]

theorem head_dropWhile {α : Type} {p : α → Bool} (l : List α) : ∀ a ∈ (l.dropWhile p).head?, p a = false := by
  induction l with
  | nil => simp
  | cons a l ih =>
    cases h : p a with
    | true => simpa [h] using ih
    | false => simp [h]

/-- Stripping on both sides leaves nothing to strip. -/
theorem pyStrip_idem (s : String) : pyStrip (pyStrip s) = pyStrip s := by
  unfold pyStrip
  rw [String.toList_ofList]
  congr 1
  let w := Char.isWhitespace
  let a := s.toList.dropWhile w
  have ha : ∀ c ∈ a.head?, w c = false := head_dropWhile _
  let b := (a.reverse.dropWhile w).reverse
  have hb : ∀ c ∈ b.head?, w c = false := by
    intro c hc
    apply ha
    -- `b` is a prefix of `a`
    have hp : b <+: a := by
      have := List.dropWhile_suffix w (l := a.reverse)
      have h2 := List.reverse_prefix.mpr this
      simpa [b] using h2
    obtain ⟨t, ht⟩ := hp
    rw [← ht]
    cases hbb : b with
    | nil => simp [hbb] at hc
    | cons x xs => simpa [hbb] using hc
  have h1 : b.dropWhile w = b := dropWhile_of_head hb
  show ((b.dropWhile w).reverse.dropWhile w).reverse = b
  rw [h1]
  have h2 : b.reverse = a.reverse.dropWhile w := by simp [b]
  rw [h2, dropWhile_fix]

theorem normalizeRef_idem (r : Option String) : normalizeRef (normalizeRef r) = normalizeRef r := by
  cases r with
  | none => rfl
  | some s =>
    by_cases h : pyStrip s = ""
    · simp [normalizeRef, h]
    · simp [normalizeRef, h, pyStrip_idem]

theorem itemsOf_textKeys {α : Type} (d acc : List (Int × α)) (hn : (dictKeys (acc ++ d)).Nodup) :
    itemsOf (d.map fun p => (Key.str (intStr p.1), p.2)) acc = .ok (acc ++ d) := by
  induction d generalizing acc with
  | nil => simp [itemsOf]
  | cons p d ih =>
    obtain ⟨k, v⟩ := p
    have hk : k ∉ dictKeys acc := by
      intro hc
      simp only [dictKeys, List.map_append, List.map_cons, List.nodup_append] at hn
      exact hn.2.2 k hc k (by simp) rfl
    simp only [List.map_cons, itemsOf, Key.toInt, parseInt_intStr]
    rw [dictKeys_dictSet_of_not_mem acc v hk, ih _ (by simpa using hn)]
    simp

theorem normalizeMap_textKeys {α : Type} {d : List (Int × α)} (hn : (dictKeys d).Nodup) :
    normalizeMap (textKeys d) = .ok d :=
  itemsOf_textKeys d [] (by simpa using hn)

theorem bySite_textKeys (d acc : List (Int × List (Int × ExtVal))) (hn : (dictKeys (acc ++ d)).Nodup)
    (hd : ∀ p ∈ d, (dictKeys p.2).Nodup) :
    bySiteItems ((d.map fun p => (p.1, some (textKeys p.2))).map fun p => (Key.str (intStr p.1), p.2)) acc =
      .ok (acc ++ d) := by
  induction d generalizing acc with
  | nil => simp [bySiteItems]
  | cons p d ih =>
    obtain ⟨k, v⟩ := p
    have hk : k ∉ dictKeys acc := by
      intro hc
      simp only [dictKeys, List.map_append, List.map_cons, List.nodup_append] at hn
      exact hn.2.2 k hc k (by simp) rfl
    simp only [List.map_cons, bySiteItems, Key.toInt, parseInt_intStr, normalizeSub,
      normalizeMap_textKeys (hd (k, v) (by simp))]
    rw [dictKeys_dictSet_of_not_mem acc v hk, ih _ (by simpa using hn) fun p hp => hd p (by simp [hp])]
    simp

theorem itemsOf_nodup {α : Type} {l : List (Key × α)} {acc d : List (Int × α)} (ha : (dictKeys acc).Nodup)
    (h : itemsOf l acc = .ok d) : (dictKeys d).Nodup := by
  induction l generalizing acc with
  | nil => cases h; exact ha
  | cons p l ih =>
    obtain ⟨k, v⟩ := p
    simp only [itemsOf] at h
    split at h
    · cases h
    · exact ih (dictKeys_dictSet_nodup _ _ _ ha) h

theorem normalizeSequence_nodup {α : Type} (l : List α) : (dictKeys (normalizeSequence l)).Nodup := by
  have : dictKeys (normalizeSequence l) = (List.range l.length).map fun i : Nat => (i : Int) := by
    simp only [dictKeys, normalizeSequence, List.map_map]
    rw [List.range_eq_range', ← List.zipIdx_map_snd 0 l, List.map_map]
    rfl
  rw [this]
  exact List.nodup_range.map fun a b h => by simpa using h

theorem normalizeMap_nodup {α : Type} {m : MapArg α} {d : List (Int × α)} (h : normalizeMap m = .ok d) :
    (dictKeys d).Nodup := by
  cases m with
  | items l => exact itemsOf_nodup (by simp [dictKeys]) h
  | seq l => cases h; exact normalizeSequence_nodup l

theorem normalizeOptional_nodup {α : Type} {m : Option (MapArg α)} {r : Option (List (Int × α))}
    (h : normalizeOptional m = .ok r) : ∀ d, r = some d → (dictKeys d).Nodup := by
  intro d hd
  subst hd
  cases m with
  | none => cases h
  | some m =>
    simp only [normalizeOptional] at h
    split at h
    · cases h
    · rename_i d' hd'
      cases h
      exact normalizeMap_nodup hd'

/-- Dictionaries of dictionaries with one entry per key. -/
def NestedDict (d : List (Int × List (Int × ExtVal))) : Prop :=
  (dictKeys d).Nodup ∧ ∀ p ∈ d, (dictKeys p.2).Nodup

theorem bySiteItems_nested {l : List (Key × Option (MapArg ExtVal))} {acc d : List (Int × List (Int × ExtVal))}
    (ha : NestedDict acc) (h : bySiteItems l acc = .ok d) : NestedDict d := by
  induction l generalizing acc with
  | nil => cases h; exact ha
  | cons p l ih =>
    obtain ⟨k, m⟩ := p
    simp only [bySiteItems] at h
    split at h
    · cases h
    · split at h
      · cases h
      · rename_i n _ sub hs
        refine ih ⟨dictKeys_dictSet_nodup _ _ _ ha.1, ?_⟩ h
        intro p hp
        have hsub : (dictKeys sub).Nodup := by
          cases m with
          | none => cases hs; simp [dictKeys]
          | some m => exact normalizeMap_nodup hs
        rcases LocalBarrier.mem_dictSet hp with hp | hp
        · rw [hp]; exact hsub
        · exact ha.2 p hp

theorem bySiteSeq_nested {l : List (Option (MapArg ExtVal))} {i : Nat} {d : List (Int × List (Int × ExtVal))}
    (h : bySiteSeq i l = .ok d) : NestedDict d ∧ ∀ k ∈ dictKeys d, (i : Int) ≤ k := by
  induction l generalizing i d with
  | nil => cases h; exact ⟨⟨by simp [dictKeys], by simp⟩, by simp [dictKeys]⟩
  | cons m l ih =>
    cases m with
    | none =>
      obtain ⟨h1, h2⟩ := ih h
      exact ⟨h1, fun k hk => by have := h2 k hk; push_cast at this; omega⟩
    | some m =>
      simp only [bySiteSeq] at h
      split at h
      · cases h
      · rename_i sub hs
        split at h
        · cases h
        · rename_i rest hr
          cases h
          obtain ⟨h1, h2⟩ := ih hr
          refine ⟨⟨?_, ?_⟩, ?_⟩
          · simp only [dictKeys, List.map_cons, List.nodup_cons]
            refine ⟨fun hc => ?_, h1.1⟩
            have := h2 _ hc
            push_cast at this
            omega
          · intro p hp
            rcases List.mem_cons.mp hp with rfl | hp
            · exact normalizeMap_nodup hs
            · exact h1.2 p hp
          · intro k hk
            simp only [dictKeys, List.map_cons, List.mem_cons] at hk
            rcases hk with rfl | hk
            · exact le_refl _
            · have := h2 k hk
              push_cast at this
              omega

theorem normalizeBySite_nested {m : Option (MapArg (Option (MapArg ExtVal)))}
    {r : Option (List (Int × List (Int × ExtVal)))} (h : normalizeBySite m = .ok r) :
    ∀ d, r = some d → NestedDict d := by
  intro d hd
  subst hd
  cases m with
  | none => cases h
  | some m =>
    cases m with
    | items l =>
      simp only [normalizeBySite] at h
      split at h
      · cases h
      · rename_i d' hd'
        cases h
        exact bySiteItems_nested ⟨by simp [dictKeys], by simp⟩ hd'
    | seq l =>
      simp only [normalizeBySite] at h
      split at h
      · cases h
      · rename_i d' hd'
        cases h
        exact (bySiteSeq_nested hd').1

theorem parse_unitText (u : EnergyUnit) : EnergyUnit.parse (unitText u) = .ok u := by
  cases u <;> decide +kernel

end SiteEnergyFile
end KMC
