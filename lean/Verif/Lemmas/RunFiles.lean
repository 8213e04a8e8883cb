import Verif.Spec.RunFiles
import Verif.Props.ResultsProps
import Verif.Props.ToolsProps
/-
Lemmas for C129.
-/
namespace KMC
namespace RunFiles
open Spec Results
variable {O K C T : Type}

/-- Files that are not written stay. -/
theorem left_other {d d' : Disk K C T} {ws : Files K C T} (h : LeftBehind d ws d') :
    ∀ n, n ∉ dictKeys ws → d' n = d n := by
  induction h with
  | now d ws => exact fun _ _ => rfl
  | opened d n c ws =>
    intro m hm
    have : m ≠ n := by rintro rfl; exact hm (by simp [dictKeys])
    simp [this]
  | cut d n c ws =>
    intro m hm
    have : m ≠ n := by rintro rfl; exact hm (by simp [dictKeys])
    simp [this]
  | later d d' n c ws _ ih =>
    intro m hm
    have : m ≠ n := by rintro rfl; exact hm (by simp [dictKeys])
    rw [ih m (fun hc => hm (by simp only [dictKeys, List.map_cons, List.mem_cons]; exact .inr hc))]
    simp [this]

/-- What a crash leaves: complete files, then at most one that is empty or cut, then the old ones. -/
theorem left_cases {d d' : Disk K C T} {ws : Files K C T} (h : LeftBehind d ws d') :
    ∃ done rest, ws = done ++ rest ∧ (d' = d.putAll done ∨ ∃ n c tail, rest = (n, c) :: tail ∧
      (d' = (d.putAll done).put n .empty ∨ d' = (d.putAll done).put n .cut)) := by
  induction h with
  | now d ws => exact ⟨[], ws, rfl, .inl rfl⟩
  | opened d n c ws => exact ⟨[], _, rfl, .inr ⟨n, c, ws, rfl, .inl rfl⟩⟩
  | cut d n c ws => exact ⟨[], _, rfl, .inr ⟨n, c, ws, rfl, .inr rfl⟩⟩
  | later d d' n c ws _ ih =>
    obtain ⟨done, rest, h1, h2⟩ := ih
    refine ⟨(n, c) :: done, rest, by rw [h1]; rfl, ?_⟩
    exact h2

theorem putAll_left (d : Disk K C T) (ws : Files K C T) : LeftBehind d ws (d.putAll ws) := by
  induction ws generalizing d with
  | nil => exact .now d []
  | cons w ws ih => exact .later d _ w.1 w.2 ws (ih _)

theorem putAll_prefix (d : Disk K C T) (done rest : Files K C T) : LeftBehind d (done ++ rest) (d.putAll done) := by
  induction done generalizing d with
  | nil => exact .now d rest
  | cons w ws ih => exact .later d _ w.1 w.2 _ (ih _)

theorem propertyWrites_cases (z : Sanitizer O) (label : String) (r : Outcome O K C T) :
    (storedPayload z r.records = [] ∧ propertyWrites z label r = []) ∨
    (storedPayload z r.records ≠ [] ∧
      propertyWrites z label r = [(propertiesName label, .records (storedPayload z r.records))]) := by
  unfold propertyWrites
  cases h : storedPayload z r.records with
  | nil => exact .inl ⟨rfl, rfl⟩
  | cons a l => exact .inr ⟨by simp, rfl⟩

/-- The six names are different. -/
theorem names_apart (label : String) (pass : Nat) :
    [displacementName label pass, hopCounterName label pass, occupationsName label pass, resultsName label,
      unitsName label, propertiesName label].Nodup := by
  have := names_nodup label pass
  rwa [names_eq] at this

theorem dictKeys_writes {z : Sanitizer O} {label : String} {r : Outcome O K C T} {ws : Files K C T}
    (hw : writes z label r = .ok ws) : ∀ n ∈ dictKeys ws, n ∈ Spec.Results.fileNames label r.pass := by
  rw [writes_eq] at hw
  cases hw
  rw [names_eq]
  rcases propertyWrites_cases z label r with ⟨-, h2⟩ | ⟨-, h2⟩ <;> rw [h2] <;> intro n hn <;>
    simp only [dictKeys, List.map_append, List.map_cons, List.map_nil, List.mem_append, List.mem_cons,
      List.not_mem_nil, or_false] at hn ⊢ <;> tauto

/-- What is left when the results are written into a folder without files of the label. -/
theorem left_fresh {z : Sanitizer O} {label : String} {r : Outcome O K C T} {ws : Files K C T} {d d' : Disk K C T}
    (hw : writes z label r = .ok ws) (hd : NoFiles d label r.pass) (hl : LeftBehind d ws d') :
    (∀ t, readTable (d' (resultsName label)) = some t →
      d' (displacementName label r.pass) = some (.whole (.vectors r.displacement)) ∧
      d' (hopCounterName label r.pass) = some (.whole (.counts r.hopCounter)) ∧
      d' (occupationsName label r.pass) = some (.whole (.occupations r.occupations)) ∧
      d' (resultsName label) = some (.whole (.table resultFields (r.rows.map Spec.Results.tableLine)))) ∧
    (∀ l, readRecords (d' (propertiesName label)) = some l →
      d' (resultsName label) = some (.whole (.table resultFields (r.rows.map Spec.Results.tableLine))) ∧
      d' (unitsName label) = some (.whole (.units resultUnits)) ∧ l = storedPayload z r.records) := by
  have hn := names_apart label r.pass
  simp only [List.nodup_cons, List.mem_cons, List.not_mem_nil, or_false, not_or, not_false_eq_true, List.nodup_nil,
    and_true] at hn
  obtain ⟨⟨a1, a2, a3, a4, a5⟩, ⟨b2, b3, b4, b5⟩, ⟨c3, c4, c5⟩, ⟨e4, e5⟩, f5⟩ := hn
  have hd' := hd
  unfold NoFiles at hd'
  rw [names_eq] at hd'
  simp only [List.mem_cons, List.not_mem_nil, or_false, forall_eq_or_imp, forall_eq] at hd'
  obtain ⟨d0, d1, d2, d3, d4, d5⟩ := hd'
  rw [writes_eq] at hw
  cases hw
  rcases propertyWrites_cases z label r with ⟨h1, h2⟩ | ⟨h1, h2⟩ <;> rw [h2] at hl <;>
    simp only [List.cons_append, List.nil_append] at hl
  · rcases hl with _ | _ | _ | ⟨_, _, _, _, _, _ | _ | _ | ⟨_, _, _, _, _, _ | _ | _ | ⟨_, _, _, _, _, _ | _ | _ |
      ⟨_, _, _, _, _, _ | _ | _ | ⟨_, _, _, _, _, ⟨⟩⟩⟩⟩⟩⟩ <;>
      simp [readTable, readRecords, d0, d1, d2, d3, d4, d5, a1, a2, a3, a4, a5, b2, b3, b4, b5, c3, c4, c5, e4, e5, f5,
        Ne.symm a1, Ne.symm a2, Ne.symm a3, Ne.symm a4, Ne.symm a5, Ne.symm b2, Ne.symm b3, Ne.symm b4, Ne.symm b5,
        Ne.symm c3, Ne.symm c4, Ne.symm c5, Ne.symm e4, Ne.symm e5, Ne.symm f5]
  · rcases hl with _ | _ | _ | ⟨_, _, _, _, _, _ | _ | _ | ⟨_, _, _, _, _, _ | _ | _ | ⟨_, _, _, _, _, _ | _ | _ |
      ⟨_, _, _, _, _, _ | _ | _ | ⟨_, _, _, _, _, _ | _ | _ | ⟨_, _, _, _, _, ⟨⟩⟩⟩⟩⟩⟩⟩ <;>
      simp [readTable, readRecords, d0, d1, d2, d3, d4, d5, a1, a2, a3, a4, a5, b2, b3, b4, b5, c3, c4, c5, e4, e5, f5,
        Ne.symm a1, Ne.symm a2, Ne.symm a3, Ne.symm a4, Ne.symm a5, Ne.symm b2, Ne.symm b3, Ne.symm b4, Ne.symm b5,
        Ne.symm c3, Ne.symm c4, Ne.symm c5, Ne.symm e4, Ne.symm e5, Ne.symm f5]

theorem file_eq (r : SeriesRun O K C T) : r.file = resultsName r.label := by
  have h : r.label ≠ "" := by
    intro h
    have := congrArg String.toList h
    simp [SeriesRun.label] at this
  simp only [SeriesRun.file, resultsName, suffixOf, h, if_false]
  simp only [SeriesRun.label, ← String.append_assoc]
  rfl

end RunFiles
end KMC
