import Verif.Model.CompositeFile
import Verif.Spec.CompositeFile
/-
C113: what a file with a composite model must contain and what is made of it.
-/
namespace KMC
namespace CompositeFile
open Spec ModelChoice
variable {L S Cls : Type}

theorem entry_dict {d : List (String × PyVal)} {k : String} {x : PyVal} :
    Entry (.dict d) k x ↔ dictGet d k = some x := by
  constructor
  · rintro ⟨d', h, h'⟩
    cases h
    exact h'
  · intro h; exact ⟨d, rfl, h⟩

theorem entry_object {v : PyVal} {k : String} {x : PyVal} (h : Entry v k x) : ∃ d, v = .dict d :=
  let ⟨d, hd, _⟩ := h
  ⟨d, hd⟩

theorem validateSubmodel_iff (v : PyVal) : validateSubmodel v = .ok () ↔ ExpansionPart v := by
  cases v with
  | dict d =>
    simp only [validateSubmodel, ExpansionPart, entry_dict]
    cases h1 : dictGet d "lce" with
    | none => simp
    | some l =>
      cases l with
      | dict l =>
        simp only
        cases h2 : dictGet d "parameters" with
        | none => simp
        | some p =>
          cases p with
          | dict p =>
            simp only
            cases h3 : dictGet p "keci" with
            | none => simp [h3]
            | some k =>
              cases h4 : dictGet p "empty_cluster" with
              | none => simp [h3, h4]
              | some e => simp [h3, h4]
          | _ => simp
      | _ => simp
  | _ =>
    simp only [validateSubmodel, ExpansionPart]
    constructor
    · intro h; cases h
    · rintro ⟨⟨l, h⟩, -⟩
      obtain ⟨d, hd⟩ := entry_object h
      cases hd

theorem validateSubmodel_error (v : PyVal) : validateSubmodel v = .ok () ∨ validateSubmodel v = .error .valueError := by
  unfold validateSubmodel
  repeat' split
  all_goals simp

theorem validateSite_iff (v : PyVal) : validateSite v = .ok () ↔ ExpansionPart v ∨ OtherPart v := by
  cases v with
  | dict d =>
    simp only [validateSite]
    cases h1 : dictGet d "lce" with
    | some x =>
      simp only [Option.isSome_some, if_true]
      rw [validateSubmodel_iff]
      constructor
      · exact .inl
      · rintro (h | h)
        · exact h
        · exact absurd (entry_dict.2 h1) (h.1 x)
    | none =>
      simp only [Option.isSome_none, if_neg Bool.false_ne_true]
      have hn : ¬ ExpansionPart (.dict d) := by
        rintro ⟨⟨l, h⟩, -⟩
        rw [entry_dict, h1] at h
        cases h
      have ho : OtherPart (.dict d) ↔ ∃ m, dictGet d "model" = some (.dict m) := by
        simp only [OtherPart, entry_dict, h1]
        simp
      rw [ho]
      cases h2 : dictGet d "model" with
      | none => simp [hn]
      | some m =>
        cases m with
        | dict m => simp
        | _ => simp [hn]
  | _ =>
    simp only [validateSite]
    constructor
    · intro h; cases h
    · rintro (⟨⟨l, h⟩, -⟩ | ⟨-, m, h⟩) <;> obtain ⟨d, hd⟩ := entry_object h <;> cases hd

theorem validateSite_error (v : PyVal) : validateSite v = .ok () ∨ validateSite v = .error .valueError := by
  unfold validateSite
  repeat' split
  · exact validateSubmodel_error _
  all_goals simp

theorem requireModelType_iff (d : List (String × PyVal)) (t : String) : requireModelType d t = .ok () ↔
    dictGet d "filetype" = some (.str "kmcpy.model_file") ∧ dictGet d "model_type" = some (.str t) := by
  unfold requireModelType requireFileType
  cases h1 : dictGet d "filetype" with
  | none => simp
  | some f =>
    cases f with
    | str s =>
      have hft : fileType = "kmcpy.model_file" := rfl
      simp only
      rw [← hft]
      by_cases hs : s = fileType
      · rw [if_pos hs]
        subst hs
        cases h2 : dictGet d "model_type" with
        | none => simp
        | some m =>
          cases m with
          | str m => by_cases hm : m = t <;> simp [hm]
          | _ => simp
      · rw [if_neg hs]; simp [hs]
    | _ => simp [hashable]

theorem requireModelType_error (d : List (String × PyVal)) (t : String) : requireModelType d t = .ok () ∨
    requireModelType d t = .error .valueError ∨
    (requireModelType d t = .error .typeError ∧
      ∃ f, dictGet d "filetype" = some f ∧ ((∃ l, f = .list l) ∨ ∃ x, f = .dict x)) := by
  unfold requireModelType requireFileType
  cases h1 : dictGet d "filetype" with
  | none => simp
  | some f =>
    cases f with
    | str s =>
      simp only
      by_cases hs : s = fileType
      · rw [if_pos hs]
        simp only
        cases h2 : dictGet d "model_type" with
        | none => simp
        | some m =>
          cases m with
          | str m => by_cases hm : m = t <;> simp [hm]
          | _ => simp
      · rw [if_neg hs]; simp
    | _ => simp [hashable]

/-- C113.  The check accepts exactly the files that look like a composite model. -/
theorem C113_checked (v : PyVal) : validateDict v = .ok () ↔ CompositeContent v := by
  cases v with
  | dict d =>
    have key : CompositeContent (.dict d) ↔
        (dictGet d "filetype" = some (.str "kmcpy.model_file") ∧ dictGet d "model_type" = some (.str "composite_lce")) ∧
        (∃ k, dictGet d "kra" = some k ∧ ExpansionPart k) ∧
        ∀ s, dictGet d "site" = some s → s = .none ∨ ExpansionPart s ∨ OtherPart s := by
      constructor
      · rintro ⟨h1, h2, h3, h4⟩
        simp only [entry_dict] at h1 h2 h3 h4
        exact ⟨⟨h1, h2⟩, h3, h4⟩
      · rintro ⟨⟨h1, h2⟩, h3, h4⟩
        refine ⟨?_, ?_, ?_, ?_⟩ <;> simp only [entry_dict] <;> assumption
    rw [key, ← requireModelType_iff]
    simp only [validateDict]
    rcases requireModelType_error d "composite_lce" with h | h | ⟨h, -⟩
    · rw [h]
      simp only [true_and]
      cases h1 : dictGet d "kra" with
      | none => simp
      | some k =>
        simp only [Option.some.injEq, exists_eq_left']
        rcases validateSubmodel_error k with hk | hk
        · rw [hk]
          simp only [(validateSubmodel_iff k).1 hk, true_and]
          cases h2 : dictGet d "site" with
          | none => simp
          | some s =>
            have hs : validateSite s = .ok () ↔ ExpansionPart s ∨ OtherPart s := validateSite_iff s
            cases s with
            | none => simp
            | _ => simpa using hs
        · have : ¬ ExpansionPart k := by
            rw [← validateSubmodel_iff, hk]
            simp
          rw [hk]
          simp [this]
    · rw [h]; simp
    · rw [h]; simp
  | _ =>
    simp only [validateDict]
    constructor
    · intro h; cases h
    · intro h
      obtain ⟨d, hd⟩ := entry_object h.filetype
      cases hd

/-- C113.  Anything else is refused before any part of it is read or any module named in it is imported: the
exception does not depend on what the parts and the modules would give.  It is a `ValueError`, except that a
list or an object as `filetype` gives a `TypeError`. -/
theorem C113_malformed_refused (v : PyVal) (h : ¬ CompositeContent v) :
    ∃ err, (∀ (L S Cls : Type) (ld : Loaders L S Cls), fromDict ld v = .error err) ∧
      (err = .valueError ∨
        (err = .typeError ∧ ∃ f, Entry v "filetype" f ∧ ((∃ l, f = .list l) ∨ ∃ x, f = .dict x))) := by
  rw [← C113_checked] at h
  have herr : ∃ err, validateDict v = .error err ∧ (err = .valueError ∨
      (err = .typeError ∧ ∃ f, Entry v "filetype" f ∧ ((∃ l, f = .list l) ∨ ∃ x, f = .dict x))) := by
    cases v with
    | dict d =>
      simp only [validateDict] at h ⊢
      rcases requireModelType_error d "composite_lce" with h1 | h1 | ⟨h1, f, hf, hh⟩
      · rw [h1] at h ⊢
        simp only at h ⊢
        cases h2 : dictGet d "kra" with
        | none => exact ⟨_, rfl, .inl rfl⟩
        | some k =>
          rw [h2] at h
          simp only at h ⊢
          rcases validateSubmodel_error k with hk | hk
          · rw [hk] at h ⊢
            simp only at h ⊢
            cases h3 : dictGet d "site" with
            | none => rw [h3] at h; exact absurd rfl h
            | some s =>
              rw [h3] at h
              have hs := validateSite_error s
              cases s with
              | none => exact absurd rfl h
              | _ => exact ⟨_, hs.resolve_left h, .inl rfl⟩
          · rw [hk]
            exact ⟨_, rfl, .inl rfl⟩
      · rw [h1]; exact ⟨_, rfl, .inl rfl⟩
      · rw [h1]; exact ⟨_, rfl, .inr ⟨rfl, f, entry_dict.2 hf, hh⟩⟩
    | _ => exact ⟨_, rfl, .inl rfl⟩
  obtain ⟨err, h1, h2⟩ := herr
  refine ⟨err, fun L S Cls ld => ?_, h2⟩
  simp only [fromDict, h1]

/-- What loading an expansion with parameters from its part of the file gives. -/
def LoadsExpansion (ld : Loaders L S Cls) (v : PyVal) (m : L) : Prop :=
  ∃ l p m0, Entry v "lce" (.dict l) ∧ Entry v "parameters" (.dict p) ∧ ld.expansion l = .ok m0 ∧
    ld.setParameters m0 p = .ok m

/-- What loading another site model gives: the class named in the part is found, reads the part, and the result
can compute. -/
def LoadsOther (ld : Loaders L S Cls) (v : PyVal) (s : S) : Prop :=
  ∃ payload path name c f, Entry v "model" (.dict payload) ∧ Entry (.dict payload) "@module" path ∧
    Entry (.dict payload) "@class" name ∧ truthy path = true ∧ truthy name = true ∧
    ld.importClass path name = .ok c ∧ ld.classFromDict c = some f ∧ f payload = .ok s ∧ ld.hasCompute s = true

theorem loadSubmodel_iff (ld : Loaders L S Cls) (d : List (String × PyVal)) (hd : ExpansionPart (.dict d)) (m : L) :
    loadSubmodel ld d = .ok m ↔ LoadsExpansion ld (.dict d) m := by
  obtain ⟨⟨l, hl⟩, p, hp, -⟩ := hd
  rw [entry_dict] at hl hp
  simp only [loadSubmodel, LoadsExpansion, entryDict, entry_dict, hl, hp]
  constructor
  · intro h
    cases he : ld.expansion l with
    | error e => rw [he] at h; cases h
    | ok m0 =>
      rw [he] at h
      exact ⟨l, p, m0, rfl, rfl, he, h⟩
  · rintro ⟨l', p', m0, h1, h2, h3, h4⟩
    cases h1
    cases h2
    rw [h3]
    exact h4

theorem loadOther_iff (ld : Loaders L S Cls) (d : List (String × PyVal)) (s : S) :
    loadOther ld d = .ok s ↔ LoadsOther ld (.dict d) s := by
  simp only [loadOther, LoadsOther, entryDict, entry_dict]
  cases h0 : dictGet d "model" with
  | none =>
    simp
  | some v =>
    cases v with
    | dict payload =>
      simp only [Option.some.injEq, PyVal.dict.injEq]
      cases h1 : dictGet payload "@module" with
      | none =>
        simp only
        constructor
        · intro h; cases h
        · rintro ⟨p', path, name, c, f, rfl, h2, -⟩
          rw [h1] at h2
          cases h2
      | some path =>
        cases h2 : dictGet payload "@class" with
        | none =>
          simp only
          constructor
          · intro h; cases h
          · rintro ⟨p', path', name, c, f, rfl, -, h3, -⟩
            rw [h2] at h3
            cases h3
        | some name =>
          simp only
          constructor
          · intro h
            split at h
            · cases h
            · rename_i ht
              simp only [Bool.or_eq_true, Bool.not_eq_true', not_or, Bool.not_eq_false] at ht
              cases hc : ld.importClass path name with
              | error e => rw [hc] at h; cases h
              | ok c =>
                rw [hc] at h
                simp only at h
                cases hf : ld.classFromDict c with
                | none => rw [hf] at h; cases h
                | some f =>
                  rw [hf] at h
                  simp only at h
                  cases hp : f payload with
                  | error e => rw [hp] at h; cases h
                  | ok s' =>
                    rw [hp] at h
                    simp only at h
                    split at h
                    · rename_i hh
                      cases h
                      exact ⟨payload, path, name, c, f, rfl, h1, h2, ht.1, ht.2, hc, hf, hp, hh⟩
                    · cases h
          · rintro ⟨p', path', name', c, f, rfl, h3, h4, h5, h6, h7, h8, h9, h10⟩
            rw [h1] at h3
            rw [h2] at h4
            cases h3
            cases h4
            simp only [h5, h6, h7, h8, h9, h10]
            rfl
    | _ => simp

/-- The site model that a file gives: none without the key or with `null`; the expansion if there is a key `lce`;
otherwise what the class named in the file makes of it. -/
def GivesSite (ld : Loaders L S Cls) (v : PyVal) (site : Site L S) : Prop :=
  ((∀ s, Entry v "site" s → s = .none) ∧ site = .none) ∨
  (∃ s m, Entry v "site" s ∧ ExpansionPart s ∧ LoadsExpansion ld s m ∧ site = .expansion m) ∨
  (∃ s x, Entry v "site" s ∧ OtherPart s ∧ LoadsOther ld s x ∧ site = .other x)

theorem loadSite_iff (ld : Loaders L S Cls) (d : List (String × PyVal)) (hc : CompositeContent (.dict d))
    (site : Site L S) :
    (∃ x, loadSite ld (dictGet d "site") = .ok (site, x)) ↔ GivesSite ld (.dict d) site := by
  have hsite := hc.site
  simp only [GivesSite, entry_dict] at hsite ⊢
  cases h1 : dictGet d "site" with
  | none =>
    simp only [loadSite, Except.ok.injEq, Prod.mk.injEq]
    constructor
    · rintro ⟨x, rfl, -⟩
      exact .inl ⟨by rintro s ⟨⟩, rfl⟩
    · rintro (⟨-, rfl⟩ | ⟨s, m, hs, -⟩ | ⟨s, x, hs, -⟩)
      · exact ⟨none, rfl, rfl⟩
      · cases hs
      · cases hs
  | some s =>
    have hs := hsite s h1
    by_cases hn : s = .none
    · subst hn
      simp only [loadSite, Except.ok.injEq, Prod.mk.injEq]
      constructor
      · rintro ⟨x, rfl, -⟩
        exact .inl ⟨by rintro s ⟨⟩; rfl, rfl⟩
      · rintro (⟨-, rfl⟩ | ⟨s, m, hs, he, -⟩ | ⟨s, x, hs, he, -⟩)
        · exact ⟨none, rfl, rfl⟩
        · cases hs
          obtain ⟨⟨l, hl⟩, -⟩ := he
          obtain ⟨d', hd⟩ := entry_object hl
          cases hd
        · cases hs
          obtain ⟨-, m, hl⟩ := he
          obtain ⟨d', hd⟩ := entry_object hl
          cases hd
    · have hs' := hs.resolve_left hn
      have hobj : ∃ sd, s = .dict sd := by
        rcases hs' with ⟨⟨l, hl⟩, -⟩ | ⟨-, m, hl⟩ <;> exact entry_object hl
      obtain ⟨sd, rfl⟩ := hobj
      simp only [loadSite]
      rcases hs' with he | ho
      · have hlce : (dictGet sd "lce").isSome = true := by
          obtain ⟨⟨l, hl⟩, -⟩ := he
          rw [entry_dict] at hl
          rw [hl]; rfl
        rw [if_pos hlce]
        constructor
        · rintro ⟨x, hx⟩
          cases hl : loadSubmodel ld sd with
          | error e => rw [hl] at hx; cases hx
          | ok m =>
            rw [hl] at hx
            cases hx
            exact .inr (.inl ⟨_, m, rfl, he, (loadSubmodel_iff ld sd he m).1 hl, rfl⟩)
        · rintro (⟨hh, -⟩ | ⟨s, m, hs, -, hm, rfl⟩ | ⟨s, x, hs, ho, -⟩)
          · exact absurd (hh _ rfl) hn
          · cases hs
            rw [(loadSubmodel_iff ld sd he m).2 hm]
            exact ⟨_, rfl⟩
          · cases hs
            obtain ⟨⟨l, hl⟩, -⟩ := he
            exact absurd hl (ho.1 _)
      · have hlce : ¬ (dictGet sd "lce").isSome = true := by
          cases hl : dictGet sd "lce" with
          | none => simp
          | some x => exact absurd (entry_dict.2 hl) (ho.1 x)
        rw [if_neg hlce]
        constructor
        · rintro ⟨x, hx⟩
          cases hl : loadOther ld sd with
          | error e => rw [hl] at hx; cases hx
          | ok m =>
            rw [hl] at hx
            cases hx
            exact .inr (.inr ⟨_, m, rfl, ho, (loadOther_iff ld sd m).1 hl, rfl⟩)
        · rintro (⟨hh, -⟩ | ⟨s, m, hs, he, -⟩ | ⟨s, x, hs, -, hx, rfl⟩)
          · exact absurd (hh _ rfl) hn
          · cases hs
            obtain ⟨⟨l, hl⟩, -⟩ := he
            exact absurd hl (ho.1 _)
          · cases hs
            rw [(loadOther_iff ld sd x).2 hx]
            exact ⟨_, rfl⟩

/-- C113.  A file that is accepted by the check is read as it says: the barrier expansion is the one under `kra`
with the parameters there, and the site model is the one under `site`. -/
theorem C113_read (ld : Loaders L S Cls) (v : PyVal) (hc : CompositeContent v) (m : L) (site : Site L S) :
    (∃ c, fromDict ld v = .ok c ∧ c.kra = m ∧ c.site = site) ↔
      (∃ k, Entry v "kra" k ∧ LoadsExpansion ld k m) ∧ GivesSite ld v site := by
  have hv := (C113_checked v).2 hc
  obtain ⟨d, rfl⟩ := entry_object hc.filetype
  obtain ⟨k, hk, he⟩ := hc.kra
  rw [entry_dict] at hk
  obtain ⟨kd, rfl⟩ : ∃ kd, k = .dict kd := entry_object he.1.choose_spec
  rw [← loadSite_iff ld d hc site]
  simp only [fromDict, hv, entryDict, hk, entry_dict, Option.some.injEq, exists_eq_left']
  rw [← loadSubmodel_iff ld kd he m]
  cases h1 : loadSubmodel ld kd with
  | error e => simp
  | ok m' =>
    simp only
    cases h2 : loadSite ld (dictGet d "site") with
    | error e => simp
    | ok r =>
      obtain ⟨s', x⟩ := r
      simp only [Except.ok.injEq, Prod.mk.injEq]
      constructor
      · rintro ⟨c, rfl, rfl, rfl⟩
        exact ⟨rfl, x, rfl, rfl⟩
      · rintro ⟨rfl, y, rfl, -⟩
        exact ⟨_, rfl, rfl, rfl⟩

/-- The record of the fit that a part of the file gives: its `fit_metadata`, or the blank record when that is missing
or empty. -/
def GivesMetadata (part : PyVal) (m : PyVal) : Prop :=
  (∃ x, Entry part "fit_metadata" x ∧ truthy x = true ∧ m = x) ∨
  ((∀ x, Entry part "fit_metadata" x → truthy x = false) ∧ m = .dict [("time_stamp", .none), ("time", .none)])

theorem metadataOf_gives (d : List (String × PyVal)) : GivesMetadata (.dict d) (metadataOf (dictGet d "fit_metadata")) := by
  simp only [GivesMetadata, entry_dict, metadataOf]
  cases h : dictGet d "fit_metadata" with
  | none => exact .inr ⟨by rintro x ⟨⟩, rfl⟩
  | some x =>
    simp only
    cases hx : truthy x with
    | true => exact .inl ⟨x, rfl, hx, by simp⟩
    | false => exact .inr ⟨by rintro y ⟨⟩; exact hx, by simp⟩

/-- C113.  The records of the fits come from the part of the model they belong to. -/
theorem C113_metadata (ld : Loaders L S Cls) (v : PyVal) (c : Loaded L S) (h : fromDict ld v = .ok c) :
    (∀ k, Entry v "kra" k → GivesMetadata k c.kraMetadata) ∧
    (∀ s, Entry v "site" s → s ≠ .none → GivesMetadata s c.siteMetadata) := by
  have hc : CompositeContent v := by
    rw [← C113_checked]
    cases hv : validateDict v with
    | ok u => rfl
    | error e =>
      rw [fromDict.eq_def] at h
      simp only [hv] at h
      cases h
  obtain ⟨d, rfl⟩ := entry_object hc.filetype
  obtain ⟨k, hk, he⟩ := hc.kra
  rw [entry_dict] at hk
  obtain ⟨kd, rfl⟩ : ∃ kd, k = .dict kd := entry_object he.1.choose_spec
  simp only [fromDict, (C113_checked _).2 hc, entryDict, hk] at h
  cases h1 : loadSubmodel ld kd with
  | error e => rw [h1] at h; cases h
  | ok m =>
    rw [h1] at h
    simp only at h
    cases h2 : loadSite ld (dictGet d "site") with
    | error e => rw [h2] at h; cases h
    | ok r =>
      rw [h2] at h
      obtain ⟨s', x⟩ := r
      simp only [Except.ok.injEq] at h
      subst h
      refine ⟨fun k' hk' => ?_, fun s hs hn => ?_⟩
      · rw [entry_dict, hk] at hk'
        cases hk'
        exact metadataOf_gives kd
      · rw [entry_dict] at hs
        have hobj : ∃ sd, s = .dict sd := by
          rcases (hc.site s (entry_dict.2 hs)).resolve_left hn with ⟨⟨l, hl⟩, -⟩ | ⟨-, m, hl⟩ <;> exact entry_object hl
        obtain ⟨sd, rfl⟩ := hobj
        rw [hs] at h2
        simp only [loadSite] at h2
        have hx : x = dictGet sd "fit_metadata" := by
          split at h2
          · cases hl : loadSubmodel ld sd with
            | error e => rw [hl] at h2; cases h2
            | ok m' => rw [hl] at h2; cases h2; rfl
          · cases hl : loadOther ld sd with
            | error e => rw [hl] at h2; cases h2
            | ok m' => rw [hl] at h2; cases h2; rfl
        subst hx
        exact metadataOf_gives sd

/-- C113.  What `as_dict` writes passes the check and is read back: the expansions and the site model that their
own parts give, and the metadata of the fits unless they are empty. -/
theorem C113_written_is_read (ld : Loaders L S Cls) (lce parameters : List (String × PyVal)) (metadata : PyVal)
    (hk : (dictGet parameters "keci").isSome) (he : (dictGet parameters "empty_cluster").isSome)
    {m0 m : L} (h1 : ld.expansion lce = .ok m0) (h2 : ld.setParameters m0 parameters = .ok m) :
    (∃ v c, asDict (submodelAsDict lce parameters metadata) none = .ok v ∧ fromDict ld v = .ok c ∧
      c.kra = m ∧ c.site = .none ∧ (truthy metadata = true → c.kraMetadata = metadata)) ∧
    (∀ (lce' parameters' : List (String × PyVal)) (metadata' : PyVal) (m0' m' : L),
      (dictGet parameters' "keci").isSome → (dictGet parameters' "empty_cluster").isSome →
      ld.expansion lce' = .ok m0' → ld.setParameters m0' parameters' = .ok m' →
      ∃ v c, asDict (submodelAsDict lce parameters metadata) (some (submodelAsDict lce' parameters' metadata')) = .ok v ∧
        fromDict ld v = .ok c ∧ c.kra = m ∧ c.site = .expansion m' ∧
        (truthy metadata = true → c.kraMetadata = metadata) ∧ (truthy metadata' = true → c.siteMetadata = metadata')) ∧
    (∀ (modelType : PyVal) (model : List (String × PyVal)) (metadata' path name : PyVal) (c : Cls)
      (f : List (String × PyVal) → Py S) (s : S),
      dictGet model "@module" = some path → dictGet model "@class" = some name → truthy path = true →
      truthy name = true → ld.importClass path name = .ok c → ld.classFromDict c = some f → f model = .ok s →
      ld.hasCompute s = true →
      ∃ v c, asDict (submodelAsDict lce parameters metadata) (some (otherAsDict modelType model metadata')) = .ok v ∧
        fromDict ld v = .ok c ∧ c.kra = m ∧ c.site = .other s ∧
        (truthy metadata = true → c.kraMetadata = metadata) ∧
        (truthy metadata' = true → c.siteMetadata = metadata')) := by
  obtain ⟨kv, hkv⟩ := Option.isSome_iff_exists.1 hk
  obtain ⟨ev, hev⟩ := Option.isSome_iff_exists.1 he
  refine ⟨?_, ?_, ?_⟩
  · simp [asDict, validateDict, requireModelType, requireFileType, dictGet, fileType, submodelAsDict, validateSubmodel,
      hkv, hev, fromDict, entryDict, loadSubmodel, h1, h2, loadSite, metadataOf]
    intro h; simp [h]
  · intro lce' parameters' metadata' m0' m' hk' he' h1' h2'
    obtain ⟨kv', hkv'⟩ := Option.isSome_iff_exists.1 hk'
    obtain ⟨ev', hev'⟩ := Option.isSome_iff_exists.1 he'
    simp [asDict, validateDict, requireModelType, requireFileType, dictGet, fileType, submodelAsDict, validateSubmodel,
      validateSite, hkv, hev, hkv', hev', fromDict, entryDict, loadSubmodel, h1, h2, h1', h2', loadSite, metadataOf]
    constructor <;> intro h <;> simp [h]
  · intro modelType model metadata' path name c f s a1 a2 a3 a4 a5 a6 a7 a8
    simp [asDict, validateDict, requireModelType, requireFileType, dictGet, fileType, submodelAsDict, otherAsDict,
      validateSubmodel, validateSite, hkv, hev, fromDict, entryDict, loadSubmodel, h1, h2, loadSite, loadOther, metadataOf,
      a1, a2, a3, a4, a5, a6, a7, a8]
    constructor <;> intro h <;> simp [h]

/-- C113.  The envelope of a site-energy model: with the file type of kMCpy the payload under `site_energy` is read,
a missing payload or another model type is refused, and without the file type the object itself is read, unless it
says that it is an envelope with a payload. -/
theorem C113_site_energy_envelope (d p : List (String × PyVal)) (hd : dictGet d "filetype" = some (.str "kmcpy.model_file")) :
    (∀ t, dictGet d "model_type" = some (.str t) → t ≠ "site_energy" → siteEnergyFile (.dict d) = .error .valueError) ∧
    (dictGet d "model_type" = some (.str "site_energy") → dictGet d "site_energy" = none →
      siteEnergyFile (.dict d) = .error .valueError) ∧
    (dictGet d "model_type" = some (.str "site_energy") → dictGet d "site_energy" = some (.dict p) →
      ¬ Entry (.dict p) "model_type" (.str "site_energy") → siteEnergyFile (.dict d) = .ok p) ∧
    (∀ q : List (String × PyVal), ¬ Entry (.dict q) "filetype" (.str "kmcpy.model_file") →
      ¬ Entry (.dict q) "model_type" (.str "site_energy") → siteEnergyFile (.dict q) = .ok q) ∧
    (∀ q x : List (String × PyVal), ¬ Entry (.dict q) "filetype" (.str "kmcpy.model_file") →
      Entry (.dict q) "model_type" (.str "site_energy") → Entry (.dict q) "site_energy" (.dict x) →
      siteEnergyFile (.dict q) = .ok x) := by
  have plain : ∀ q : List (String × PyVal), ¬ Entry (.dict q) "model_type" (.str "site_energy") →
      siteEnergyEntries (.dict q) = .ok q := by
    intro q h
    rw [entry_dict] at h
    simp only [siteEnergyEntries]
    split
    · rename_i t p ht hp
      have : t ≠ "site_energy" := by rintro rfl; exact h ht
      rw [if_neg this]
    · rfl
  have bare : ∀ q : List (String × PyVal), ¬ Entry (.dict q) "filetype" (.str "kmcpy.model_file") →
      siteEnergyFile (.dict q) = siteEnergyEntries (.dict q) := by
    intro q h
    rw [entry_dict] at h
    simp only [siteEnergyFile]
    split
    · rename_i t ht
      have : t ≠ fileType := by rintro rfl; exact h ht
      rw [if_neg this]
    · rfl
  refine ⟨?_, ?_, ?_, ?_, ?_⟩
  · intro t ht hne
    simp [siteEnergyFile, hd, fileType, requireModelType, requireFileType, ht, hne]
  · intro ht hn
    simp [siteEnergyFile, hd, fileType, requireModelType, requireFileType, ht, hn, siteEnergyEntries]
  · intro ht hp hn
    rw [← plain p hn]
    simp [siteEnergyFile, hd, fileType, requireModelType, requireFileType, ht, hp]
  · intro q h1 h2
    rw [bare q h1, plain q h2]
  · intro q x h1 h2 h3
    rw [bare q h1]
    rw [entry_dict] at h2 h3
    simp [siteEnergyEntries, h2, h3]

/-- Reading that keeps the dictionaries themselves: what the examples use. -/
def keepAll : Loaders (List (String × PyVal) × List (String × PyVal)) (List (String × PyVal)) Unit where
  expansion := fun d => .ok (d, [])
  setParameters := fun m p => .ok (m.1, p)
  importClass := fun _ _ => .ok ()
  classFromDict := fun _ => some fun d => .ok d
  hasCompute := fun _ => true

/-- A file with an expansion and one without `empty_cluster`. -/
example :
    (∃ c, fromDict keepAll (.dict [("filetype", .str "kmcpy.model_file"), ("model_type", .str "composite_lce"),
      ("kra", .dict [("lce", .dict []), ("parameters", .dict [("keci", .list []), ("empty_cluster", .int 1)])]),
      ("site", .none)]) = .ok c ∧ c.kra = ([], [("keci", .list []), ("empty_cluster", .int 1)]) ∧ c.site = .none) ∧
    ¬ CompositeContent (.dict [("filetype", .str "kmcpy.model_file"), ("model_type", .str "composite_lce"),
      ("kra", .dict [("lce", .dict []), ("parameters", .dict [("keci", .list [])])])]) := by
  refine ⟨⟨_, rfl, rfl, rfl⟩, ?_⟩
  rw [← C113_checked]
  intro h
  cases h

end CompositeFile
end KMC
