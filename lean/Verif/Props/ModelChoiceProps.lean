import Verif.Spec.ModelChoice
import Verif.Props.LocalBarrierProps
/-
C81: the model file decides which model a simulation uses.
-/
namespace KMC
namespace ModelChoice
open Spec Spec.ModelChoice
variable {Mod Cls M : Type}

theorem importClass_shipped {imp : Imports Mod Cls M} {load : Shipped → String → Py M}
    (h : Installed imp load) (s : Shipped) :
    ∃ c, importClass imp (.str s.path.1) (.str s.path.2) = .ok c ∧ imp.fromFile c = some (load s) := by
  obtain ⟨m, c, h1, h2, h3⟩ := h s
  exact ⟨c, by simp [importClass, h1, h2], h3⟩

theorem loadRegistered_shipped {imp : Imports Mod Cls M} {load : Shipped → String → Py M}
    (h : Installed imp load) (s : Shipped) (file t : String) (ht : t ∈ s.names) :
    loadRegistered imp file t = load s file := by
  obtain ⟨c, h1, h2⟩ := importClass_shipped h s
  have hp : dictGet registry t = some s.path := by
    cases s <;> simp [Shipped.names] at ht <;> (first | (subst ht; rfl) | (rcases ht with ht | ht <;> subst ht <;> rfl))
  simp only [loadRegistered, hp, h1, classFromConfig, h2]

/-- C81.  A file written by one of kMCpy's models is loaded by that class, whatever the configuration
says about the model type. -/
theorem C81_file_decides (imp : Imports Mod Cls M) (load : Shipped → String → Py M)
    (h : Installed imp load) (read : String → Py PyVal) (file : String) (hf : file ≠ "")
    (s : Shipped) (d : List (String × PyVal)) (hd : read file = .ok (.dict d)) (hw : WrittenBy s d)
    (modelType : PyVal) : fromConfig imp read file modelType = load s file := by
  obtain ⟨h1, h2, h3⟩ := hw
  have rest : dictGet d "filetype" = none → fromConfig imp read file modelType = load s file := by
    intro h3
    obtain ⟨c, hc, hl⟩ := importClass_shipped h s
    simp [fromConfig, hf, hd, h3, h1, h2, loadRecorded, recordedClass, hc, hl]
  cases s with
  | composite =>
    have ht : declaredType d = .ok "composite_lce" := by
      simp only [declaredType, requireFileType, h3.1, h3.2, fileType, if_true]
      rfl
    simp only [fromConfig, hf, if_false, hd, h3.1, Option.isSome_some, if_true, ht]
    exact loadRegistered_shipped h .composite file _ (by simp [Shipped.names])
  | expansion => exact rest h3
  | barrier => exact rest h3
  | siteEnergy => exact rest h3

/-- C81.  The same for a class of the user's own: the class recorded in the file is the one that loads
it. -/
theorem C81_own_class (imp : Imports Mod Cls M) (read : String → Py PyVal) (file : String)
    (hf : file ≠ "") (d : List (String × PyVal)) (hd : read file = .ok (.dict d))
    (h0 : dictGet d "filetype" = none) (path name : PyVal) (h1 : dictGet d "@module" = some path)
    (h2 : dictGet d "@class" = some name) (m : Mod) (c : Cls) (load : String → Py M)
    (hm : imp.module path = .ok m) (hc : imp.classOf m name = .ok c) (hl : imp.fromFile c = some load)
    (modelType : PyVal) : fromConfig imp read file modelType = load file := by
  simp [fromConfig, hf, hd, h0, h1, h2, loadRecorded, recordedClass, importClass, hm, hc, hl]

/-- C81.  A class that moved: the recorded module cannot be imported (or has lost the class), but the
class name is that of a shipped model.  The shipped class loads the file. -/
theorem C81_moved_class (imp : Imports Mod Cls M) (load : Shipped → String → Py M)
    (h : Installed imp load) (read : String → Py PyVal) (file : String) (hf : file ≠ "")
    (d : List (String × PyVal)) (hd : read file = .ok (.dict d)) (h0 : dictGet d "filetype" = none)
    (path : PyVal) (s : Shipped) (h1 : dictGet d "@module" = some path)
    (h2 : dictGet d "@class" = some (.str s.path.2))
    (hx : imp.module path = .error .importError ∨
      ∃ m, imp.module path = .ok m ∧ imp.classOf m (.str s.path.2) = .error .attributeError)
    (modelType : PyVal) : fromConfig imp read file modelType = load s file := by
  obtain ⟨c, hc, hl⟩ := importClass_shipped h s
  have hr : registeredPath (.str s.path.2) = some s.path := by cases s <;> rfl
  have hreg : registeredClass imp (.str s.path.2) = .ok c := by simp only [registeredClass, hr, hc]
  have hrec : recordedClass imp path (.str s.path.2) = .ok c := by
    rcases hx with hx | ⟨m, hx, hy⟩
    · simp only [recordedClass, importClass, hx, hreg]
    · simp only [recordedClass, importClass, hx, hy, hreg]
  simp [fromConfig, hf, hd, h0, h1, h2, loadRecorded, hrec, hl]

/-- C81.  A recorded class that cannot be found and is not one of kMCpy's is an error; no other class is
used in its place. -/
theorem C81_lost_class (imp : Imports Mod Cls M) (read : String → Py PyVal) (file : String)
    (hf : file ≠ "") (d : List (String × PyVal)) (hd : read file = .ok (.dict d))
    (h0 : dictGet d "filetype" = none) (path : PyVal) (name : String)
    (h1 : dictGet d "@module" = some path) (h2 : dictGet d "@class" = some (.str name))
    (hx : imp.module path = .error .importError) (hn : ∀ s : Shipped, name ≠ s.path.2)
    (modelType : PyVal) : fromConfig imp read file modelType = .error .valueError := by
  have hr : registeredPath (.str name) = none := by
    simp only [registeredPath, List.find?_eq_none, registry, List.map_cons, List.map_nil, List.mem_cons,
      List.not_mem_nil, or_false, beq_iff_eq]
    have a := hn .composite; have b := hn .expansion; have c := hn .barrier; have e := hn .siteEnergy
    simp only [Shipped.path, ne_eq] at a b c e
    rintro p (rfl | rfl | rfl | rfl | rfl) hp <;> simp_all
  simp [fromConfig, hf, hd, h0, h1, h2, loadRecorded, recordedClass, importClass, hx, registeredClass, hr]

/-- C81.  An envelope naming a model type is loaded by the class of that type, whatever the
configuration says; an unknown type is an error. -/
theorem C81_envelope (imp : Imports Mod Cls M) (load : Shipped → String → Py M)
    (h : Installed imp load) (read : String → Py PyVal) (file : String) (hf : file ≠ "")
    (d : List (String × PyVal)) (hd : read file = .ok (.dict d))
    (h0 : dictGet d "filetype" = some (.str "kmcpy.model_file")) (t : String)
    (h1 : dictGet d "model_type" = some (.str t)) (modelType : PyVal) :
    (∀ s : Shipped, t ∈ s.names → fromConfig imp read file modelType = load s file) ∧
      ((∀ s : Shipped, t ∉ s.names) → fromConfig imp read file modelType = .error .valueError) := by
  have hreq : requireFileType d = .ok () := by simp [requireFileType, h0, fileType]
  constructor
  · intro s ht
    have hb : pyStrip t ≠ "" := by
      cases s <;> simp [Shipped.names] at ht <;>
        (first | (subst ht; decide) | (rcases ht with ht | ht <;> subst ht <;> decide))
    simp only [fromConfig, hf, if_false, hd, h0, Option.isSome_some, if_true, declaredType, hreq, h1, hb]
    exact loadRegistered_shipped h s file t ht
  · intro hn
    have hr : dictGet registry t = none := by
      have a := hn .composite; have b := hn .expansion; have c := hn .barrier; have e := hn .siteEnergy
      simp only [Shipped.names, List.mem_cons, List.not_mem_nil, or_false, not_or] at a b c e
      simp [registry, dictGet, Ne.symm a, Ne.symm b.1, Ne.symm b.2, Ne.symm c, Ne.symm e]
    simp only [fromConfig, hf, if_false, hd, h0, Option.isSome_some, if_true, declaredType, hreq, h1]
    split
    · rename_i heq
      split at heq <;> simp_all
    · rename_i heq
      split at heq
      · cases heq
      · cases heq
        simp [loadRegistered, hr]

/-- C81.  Only a file that does not say what it holds (or no file) leaves the choice to the
configuration's model type: the type's class loads the file, an empty type means a composite model, and
an unknown type is an error. -/
theorem C81_configured (imp : Imports Mod Cls M) (load : Shipped → String → Py M)
    (h : Installed imp load) (read : String → Py PyVal) (file : String)
    (hr : file = "" ∨ ∃ v, read file = .ok v ∧ Unmarked v) :
    (∀ (s : Shipped) t, t ∈ s.names → fromConfig imp read file (.str t) = load s file) ∧
      fromConfig imp read file .none = load .composite file ∧
      fromConfig imp read file (.str "") = load .composite file ∧
      (∀ t, t ≠ "" → (∀ s : Shipped, t ∉ s.names) →
        fromConfig imp read file (.str t) = .error .valueError) := by
  have hc : ∀ v, fromConfig imp read file v = loadConfigured imp file v := by
    intro v
    by_cases hf : file = ""
    · simp [fromConfig, hf]
    · rcases hr with hr | ⟨w, hw, hu⟩
      · exact absurd hr hf
      · cases w <;> simp only [fromConfig, hf, if_false, hw]
        rename_i d
        obtain ⟨u0, u1⟩ := hu
        simp only [u0, Option.isSome_none, Bool.false_eq_true, if_false]
        rcases u1 with u1 | u1
        · simp only [u1]
        · simp only [u1]
          cases dictGet d "@module" <;> rfl
  have hcomp : loadRegistered imp file "composite_lce" = load .composite file :=
    loadRegistered_shipped h .composite file _ (by simp [Shipped.names])
  refine ⟨fun s t ht => ?_, ?_, ?_, fun t ht hn => ?_⟩
  · have hne : t ≠ "" := by
      rintro rfl
      cases s <;> simp [Shipped.names] at ht
    rw [hc]
    simp only [loadConfigured, truthy, hne, ne_eq, not_false_eq_true, decide_true, if_true]
    exact loadRegistered_shipped h s file t ht
  · rw [hc]; simpa [loadConfigured, truthy] using hcomp
  · rw [hc]; simpa [loadConfigured, truthy] using hcomp
  · have hreg : dictGet registry t = none := by
      have a := hn .composite; have b := hn .expansion; have c := hn .barrier; have e := hn .siteEnergy
      simp only [Shipped.names, List.mem_cons, List.not_mem_nil, or_false, not_or] at a b c e
      simp [registry, dictGet, Ne.symm a, Ne.symm b.1, Ne.symm b.2, Ne.symm c, Ne.symm e]
    rw [hc]
    simp [loadConfigured, truthy, ht, loadRegistered, hreg]

/-- C81.  End to end for local barrier models: a simulation configured with a file written by `to()` uses
the very model that was written, whatever the configured model type. -/
theorem C81_local_barrier (imp : Imports Mod Cls LocalBarrierModel)
    (load : Shipped → String → Py LocalBarrierModel) (h : Installed imp load)
    (read : String → Py PyVal)
    (hl : ∀ f, load .barrier f = match read f with | .error e => .error e | .ok v => barrierFromFile v)
    (file : String) (hf : file ≠ "") (m : LocalBarrierModel) (hm : m.Made)
    (hmode : m.probabilityMode = "barrier_arrhenius")
    (hw : read file = .ok (PyVal.dict m.asDict).json) (modelType : PyVal) :
    fromConfig imp read file modelType = .ok m := by
  rw [json_model] at hw
  rw [C81_file_decides imp load h read file hf .barrier m.asDict hw ⟨rfl, rfl, rfl⟩ modelType, hl, hw]
  show barrierFromFile (.dict m.asDict) = .ok m
  have : dictGet m.asDict "filetype" = none := rfl
  simp only [barrierFromFile, this, Option.isSome_none, Bool.false_eq_true, if_false]
  exact C33_dict_round_trip m hm hmode

/-- C81.  The same model inside an envelope of type `local_barrier`. -/
theorem C81_local_barrier_envelope (m : LocalBarrierModel) (hm : m.Made)
    (hmode : m.probabilityMode = "barrier_arrhenius") :
    barrierFromFile (.dict [("filetype", .str "kmcpy.model_file"), ("model_type", .str "local_barrier"),
      ("local_barrier", .dict m.asDict)]) = .ok m := C33_dict_round_trip m hm hmode

/-- C81.  An envelope of another model type, or without the model, is refused by the local barrier model. -/
theorem C81_wrong_envelope (d : List (String × PyVal)) (h0 : dictGet d "filetype" = some (.str "kmcpy.model_file")) :
    (∀ t, dictGet d "model_type" = some (.str t) → t ≠ "local_barrier" →
      barrierFromFile (.dict d) = .error .valueError) ∧
    (dictGet d "model_type" = none → barrierFromFile (.dict d) = .error .valueError) ∧
    (dictGet d "local_barrier" = none → barrierFromFile (.dict d) = .error .valueError) := by
  refine ⟨fun t ht hne => ?_, fun ht => ?_, fun hn => ?_⟩
  · simp [barrierFromFile, h0, requireModelType, requireFileType, fileType, ht, hne]
  · simp [barrierFromFile, h0, requireModelType, requireFileType, fileType, ht]
  · simp only [barrierFromFile, h0, Option.isSome_some, if_true, hn]
    cases h : requireModelType d "local_barrier" with
    | ok u => rfl
    | error e =>
      have : e = .valueError := by
        simp only [requireModelType, requireFileType, h0, fileType, if_true] at h
        split at h
        · split at h
          · cases h
          · cases h; rfl
        · cases h; rfl
      rw [this]

/-- An installation in which the classes are their own names; a moved module `old.models`. -/
def sampleImports (load : Shipped → String → Py M) : Imports String Shipped M where
  module := fun
    | .str "kmcpy.models.composite_lce_model" => .ok "composite"
    | .str "kmcpy.models.local_cluster_expansion" => .ok "expansion"
    | .str "kmcpy.models.local_barrier_model" => .ok "barrier"
    | .str "kmcpy.models.site_energy" => .ok "site"
    | _ => .error .importError
  classOf := fun
    | "composite", .str "CompositeLCEModel" => .ok .composite
    | "expansion", .str "LocalClusterExpansion" => .ok .expansion
    | "barrier", .str "LocalBarrierModel" => .ok .barrier
    | "site", .str "SiteEnergyModel" => .ok .siteEnergy
    | _, _ => .error .attributeError
  fromFile := fun c => some (load c)

/-- The installation exists. -/
example (load : Shipped → String → Py M) : Installed (sampleImports load) load := by
  intro s
  cases s
  · exact ⟨"composite", .composite, rfl, rfl, rfl⟩
  · exact ⟨"expansion", .expansion, rfl, rfl, rfl⟩
  · exact ⟨"barrier", .barrier, rfl, rfl, rfl⟩
  · exact ⟨"site", .siteEnergy, rfl, rfl, rfl⟩

/-- A model written to a file is loaded although the configuration says `composite_lce`. -/
example : ∃ m : LocalBarrierModel, m.Made ∧
    fromConfig (sampleImports fun s _ => match s with
      | .barrier => barrierFromFile (.dict m.asDict)
      | _ => .error .valueError) (fun _ => .ok (.dict m.asDict)) "model.json" (.str "composite_lce") =
      .ok m :=
  ⟨_, .init (rules := some (.list [.dict [("barrier", .int 300)]])) (dp := none) (db := none) (name := "m")
    (dpr := "barrier") (mode := "barrier_arrhenius") (pp := "barrier") (ss := .none) rfl, rfl⟩

/-- A file naming a module that no longer exists is loaded by the class of that name. -/
example : fromConfig (sampleImports fun s _ => Except.ok (ε := PyErr) s)
    (fun _ => .ok (.dict [("@module", .str "old.models"), ("@class", .str "LocalBarrierModel")]))
    "model.json" (.str "site_energy") = .ok Shipped.barrier := rfl

end ModelChoice
end KMC
