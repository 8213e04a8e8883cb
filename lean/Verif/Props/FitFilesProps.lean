import Verif.Lemmas.FitFiles
import Verif.Props.NEBLoaderProps
/-
C127: an export of fitting data that is interrupted or fails.
-/
set_option linter.unusedSectionVars false

namespace KMC
namespace FitFiles
open Spec NEBLoader

variable {K M R S α : Type} {io : NumberText K} {L L0 : Loader M R S K α K} {w w0 : Weight K} {f f0 : FitInputs K K K}
variable {p : Paths}

/-- **C127.**  After a complete export the fit works with exactly the exported numbers, whatever was in the folder
before. -/
theorem C127_export_read (hio : ReadsBack io) (hd : p.corr ≠ p.ekra ∧ p.corr ≠ p.weight ∧ p.ekra ≠ p.weight)
    (hf : fittingInputs L w = .ok f) (ht : FittableTable f) (d : Folder) :
    (exportWrites io L w p).1 = .ok () ∧ fitData io (putAll d (exportWrites io L w p).2) p = .ok f := by
  rw [exportWrites_ok io p hf]
  refine ⟨rfl, ?_⟩
  obtain ⟨h1, h2, h3⟩ := putAll_files (io := io) (f := f) d hd
  exact fitData_of (loadColumn_full hio h2) (loadColumn_full hio h3) (loadFile_full hio ht.columns h1) ht.targets.symm
    (ht.weights.trans ht.targets.symm) (ht.targets ▸ ht.lines) ht.columns

/-- **C127.**  Into a folder without a weight file: whenever the export is cut short, at any character, the fit either
refuses the folder or works with the exported correlations and energies, and with the exported weights up to the last
one. -/
theorem C127_fresh_folder (hio : ReadsBack io) (hd : p.corr ≠ p.ekra ∧ p.corr ≠ p.weight ∧ p.ekra ≠ p.weight)
    (hf : fittingInputs L w = .ok f) (ht : FittableTable f) {d d' : Folder} (hfresh : d p.weight = none)
    (hi : Interrupted d (exportWrites io L w p).2 d') {g : FitInputs K K K} (hg : fitData io d' p = .ok g) :
    g.correlation = f.correlation ∧ g.ekra = f.ekra ∧ SameButLast g.weight f.weight := by
  rw [exportWrites_ok io p hf] at hi
  obtain ⟨g1, g2, g3, g4, g5, g6⟩ := fitData_ok hg
  have gone : d' p.weight ≠ none := by
    intro h
    unfold loadColumn loadFile at g2
    rw [h] at g2
    cases g2
  rcases interrupted_cases hd hi with rfl | ⟨part, h1, h2, h3, h4⟩ | ⟨part, h1, h2, h3, h4⟩ | ⟨part, h1, h2, h3, h4⟩
  · exact absurd hfresh gone
  · exact absurd (h4.trans hfresh) gone
  · exact absurd (h4.trans hfresh) gone
  · rw [loadColumn_full hio h3] at g1
    rw [loadFile_full hio ht.columns h2] at g3
    have e1 := Except.ok.inj g1
    have e2 := Except.ok.inj g3
    refine ⟨e2.symm, e1.symm, (loadColumn_cut hio h1 h4 g2).2 ?_⟩
    rw [g5, ← e1, ht.targets, ht.weights]

/-- **C127.**  The last weight can really be another number: if cutting its text gives the text of another number, an
interrupted export leaves a folder that the fit accepts with that other weight. -/
theorem C127_last_weight_cut (hio : ReadsBack io) (hd : p.corr ≠ p.ekra ∧ p.corr ≠ p.weight ∧ p.ekra ≠ p.weight)
    (hf : fittingInputs L w = .ok f) (ht : FittableTable f) {ws : List K} {x y : K} (hw : f.weight = ws ++ [x])
    {part : Text} (hp : part <+: io.write x) (h0 : part ≠ []) (hy : io.read part = some y) (d : Folder) :
    ∃ d', Interrupted d (exportWrites io L w p).2 d' ∧
      fitData io d' p = .ok ⟨f.correlation, f.ekra, ws ++ [y]⟩ := by
  rw [exportWrites_ok io p hf]
  refine ⟨_, .after _ _ _ _ _ (.after _ _ _ _ _ (.during _ _ _ (savetxt io (ws.map fun v => [v]) ++ part) _ ?_)), ?_⟩
  · rw [hw]
    exact savetxt_cut_last io ws x hp
  · obtain ⟨h1, h2, h3⟩ := hd
    refine fitData_of (loadColumn_full hio ?_) (loadColumn_cut_last hio ws x y hp hy h0 ?_)
      (loadFile_full hio ht.columns ?_) ht.targets.symm ?_ (ht.targets ▸ ht.lines) ht.columns
    · simp [h3]
    · simp
    · simp [h1, h2]
    · have := ht.weights
      rw [hw] at this
      rw [ht.targets, ← this]
      simp

/-- **C127.**  Over an earlier export of the same number of entries, a crash between two files leaves a folder that the
fit accepts and that no export ever described: the new correlations with the energies and weights of the earlier one, or
the new correlations and energies with the earlier weights. -/
theorem C127_mixed_export (hio : ReadsBack io) (hd : p.corr ≠ p.ekra ∧ p.corr ≠ p.weight ∧ p.ekra ≠ p.weight)
    (hf : fittingInputs L w = .ok f) (ht : FittableTable f) (hf0 : fittingInputs L0 w0 = .ok f0)
    (ht0 : FittableTable f0) (hsame : f.correlation.length = f0.correlation.length) (d : Folder) :
    (∃ d', Interrupted (putAll d (exportWrites io L0 w0 p).2) (exportWrites io L w p).2 d' ∧
      fitData io d' p = .ok ⟨f.correlation, f0.ekra, f0.weight⟩) ∧
    (∃ d', Interrupted (putAll d (exportWrites io L0 w0 p).2) (exportWrites io L w p).2 d' ∧
      fitData io d' p = .ok ⟨f.correlation, f.ekra, f0.weight⟩) := by
  rw [exportWrites_ok io p hf, exportWrites_ok io p hf0]
  obtain ⟨k1, k2, k3⟩ := putAll_files (io := io) (f := f0) d hd
  obtain ⟨h1, h2, h3⟩ := hd
  have l1 := ht.targets
  have l2 := ht0.targets
  have l3 := ht0.weights
  have l4 := ht.lines
  constructor
  · refine ⟨_, .after _ _ _ _ _ (.before _ _), ?_⟩
    refine fitData_of (loadColumn_full hio ?_) (loadColumn_full hio ?_) (loadFile_full hio ht.columns ?_)
      (by omega) (by omega) (by omega) ht.columns
    · simpa [Ne.symm h1] using k2
    · simpa [Ne.symm h2] using k3
    · simp
  · refine ⟨_, .after _ _ _ _ _ (.after _ _ _ _ _ (.before _ _)), ?_⟩
    refine fitData_of (loadColumn_full hio ?_) (loadColumn_full hio ?_) (loadFile_full hio ht.columns ?_)
      (by omega) (by omega) (by omega) ht.columns
    · simp
    · simpa [Ne.symm h2, Ne.symm h3] using k3
    · simp [h1]

/-- **C127.**  Over an earlier export of more entries than the new one: a folder left by a crash is refused, or it is
the earlier export, or it is the new one up to the last weight. -/
theorem C127_fewer_entries (hio : ReadsBack io) (hd : p.corr ≠ p.ekra ∧ p.corr ≠ p.weight ∧ p.ekra ≠ p.weight)
    (hf : fittingInputs L w = .ok f) (ht : FittableTable f) (hf0 : fittingInputs L0 w0 = .ok f0)
    (ht0 : FittableTable f0) (hless : f.correlation.length < f0.correlation.length) {d d' : Folder}
    (hi : Interrupted (putAll d (exportWrites io L0 w0 p).2) (exportWrites io L w p).2 d') {g : FitInputs K K K}
    (hg : fitData io d' p = .ok g) :
    g = f0 ∨ (g.correlation = f.correlation ∧ g.ekra = f.ekra ∧ SameButLast g.weight f.weight) := by
  have old := (C127_export_read hio hd hf0 ht0 d).2
  rw [exportWrites_ok io p hf, exportWrites_ok io p hf0] at hi
  rw [exportWrites_ok io p hf0] at old
  obtain ⟨k1, k2, k3⟩ := putAll_files (io := io) (f := f0) d hd
  have l1 := ht.targets
  have l2 := ht0.targets
  have l3 := ht0.weights
  have l4 := ht.weights
  obtain ⟨g1, g2, g3, g4, g5, g6⟩ := fitData_ok hg
  rcases interrupted_cases hd hi with rfl | ⟨part, h1, h2, h3, h4⟩ | ⟨part, h1, h2, h3, h4⟩ | ⟨part, h1, h2, h3, h4⟩
  · left
    exact Except.ok.inj (hg.symm.trans old)
  · exfalso
    have a := loadFile_cut_length hio ht.columns h1 h2 g3
    rw [loadColumn_full hio (h3.trans k2)] at g1
    have := Except.ok.inj g1
    rw [← this] at g4
    omega
  · exfalso
    rw [loadFile_full hio ht.columns h2] at g3
    rw [loadColumn_full hio (h4.trans k3)] at g2
    have a := Except.ok.inj g3
    have b := Except.ok.inj g2
    rw [← a] at g4
    rw [← b] at g5
    omega
  · right
    rw [loadColumn_full hio h3] at g1
    rw [loadFile_full hio ht.columns h2] at g3
    have e1 := Except.ok.inj g1
    have e2 := Except.ok.inj g3
    refine ⟨e2.symm, e1.symm, (loadColumn_cut hio h1 h4 g2).2 ?_⟩
    rw [g5, ← e1, ht.targets, ht.weights]

/-- **C127.**  Over an earlier export of fewer entries: a crash inside the first file can leave exactly as many lines
as there are old energies, and the fit then accepts the first new correlations with the old energies and weights. -/
theorem C127_more_entries (hio : ReadsBack io) (hd : p.corr ≠ p.ekra ∧ p.corr ≠ p.weight ∧ p.ekra ≠ p.weight)
    (hf : fittingInputs L w = .ok f) (ht : FittableTable f) (hf0 : fittingInputs L0 w0 = .ok f0)
    (ht0 : FittableTable f0) (hmore : f0.correlation.length < f.correlation.length) (d : Folder) :
    ∃ d', Interrupted (putAll d (exportWrites io L0 w0 p).2) (exportWrites io L w p).2 d' ∧
      fitData io d' p = .ok ⟨f.correlation.take f0.correlation.length, f0.ekra, f0.weight⟩ := by
  rw [exportWrites_ok io p hf, exportWrites_ok io p hf0]
  obtain ⟨k1, k2, k3⟩ := putAll_files (io := io) (f := f0) d hd
  obtain ⟨h1, h2, h3⟩ := hd
  have l2 := ht0.targets
  have l3 := ht0.weights
  have l4 := ht0.lines
  have hc : ∃ n, 2 ≤ n ∧ ∀ r ∈ f.correlation.take f0.correlation.length, r.length = n := by
    obtain ⟨n, hn, hl⟩ := ht.columns
    exact ⟨n, hn, fun r hr => hl r (List.mem_of_mem_take hr)⟩
  refine ⟨_, .during _ _ _ _ _ (savetxt_take io f.correlation f0.correlation.length), ?_⟩
  refine fitData_of (loadColumn_full hio ?_) (loadColumn_full hio ?_) (loadFile_full hio hc ?_)
      (by rw [List.length_take]; omega) (by omega) (by omega) hc
  · simpa [Ne.symm h1] using k2
  · simpa [Ne.symm h2] using k3
  · simp

/-- **C127.**  An export that is refused because of its weights has already replaced the correlations and energies: a
list of weights of the wrong length raises `ValueError`, and over an earlier export of the same number of entries the
fit then accepts the new correlations and energies with the earlier weights. -/
theorem C127_refused_weights (hio : ReadsBack io) (hd : p.corr ≠ p.ekra ∧ p.corr ≠ p.weight ∧ p.ekra ≠ p.weight)
    (hf : fittingInputs L w = .ok f) (ht : FittableTable f) (hf0 : fittingInputs L0 w0 = .ok f0)
    (ht0 : FittableTable f0) (hsame : f.correlation.length = f0.correlation.length) {l : List K}
    (hl : l.length ≠ L.entries.length) (d : Folder) :
    (exportWrites io L (.perEntry l) p).1 = .error .valueError ∧
      fitData io (putAll (putAll d (exportWrites io L0 w0 p).2) (exportWrites io L (.perEntry l) p).2) p =
        .ok ⟨f.correlation, f.ekra, f0.weight⟩ := by
  rw [exportWrites_rejected io p hf (w' := .perEntry l) (by simp [weights, hl]), exportWrites_ok io p hf0]
  refine ⟨rfl, ?_⟩
  obtain ⟨k1, k2, k3⟩ := putAll_files (io := io) (f := f0) d hd
  obtain ⟨h1, h2, h3⟩ := hd
  have l1 := ht.targets
  have l2 := ht0.targets
  have l3 := ht0.weights
  have l4 := ht.lines
  generalize putAll d (writesOf io f0 p) = d0 at k1 k2 k3 ⊢
  refine fitData_of (loadColumn_full hio ?_) (loadColumn_full hio ?_) (loadFile_full hio ht.columns ?_)
      (by omega) (by omega) (by omega) ht.columns
  · simp [putAll, Folder.put]
  · simpa [putAll, Folder.put, Ne.symm h2, Ne.symm h3] using k3
  · simp [putAll, Folder.put, h1]

/-- **C127.**  An export without entries touches no file. -/
theorem C127_no_entries (h : L.entries = []) : exportWrites io L w p = (.error .valueError, []) := by
  simp [exportWrites, h]

/-- **C127.**  No file but the three is ever touched, by a crash or by a refusal. -/
theorem C127_other_files {d d' : Folder} (hi : Interrupted d (exportWrites io L w p).2 d') {path : String}
    (h : path ≠ p.corr ∧ path ≠ p.ekra ∧ path ≠ p.weight) : d' path = d path := by
  have hin : ∀ x ∈ (exportWrites io L w p).2, path ≠ x.1 := by
    intro x hx
    unfold exportWrites at hx
    split at hx
    · cases hx
    · split at hx
      · cases hx
      · split at hx
        · simp only [List.mem_cons, List.not_mem_nil, or_false] at hx
          rw [hx]; exact h.1
        · split at hx
          · simp only [List.mem_cons, List.not_mem_nil, or_false] at hx
            rcases hx with rfl | rfl
            exacts [h.1, h.2.1]
          · simp only [List.mem_cons, List.not_mem_nil, or_false] at hx
            rcases hx with rfl | rfl | rfl
            exacts [h.1, h.2.1, h.2.2]
  generalize (exportWrites io L w p).2 = ws at hi hin
  induction hi with
  | before => rfl
  | during d q t part ws hp => exact if_neg (hin (q, t) (by simp))
  | after d d' q t ws _ ih =>
    rw [ih fun x hx => hin x (List.mem_cons_of_mem _ hx)]
    exact if_neg (hin (q, t) (by simp))

/-- Numbers as tallyText marks. -/
def tallyText : NumberText Nat where
  write := fun n => List.replicate (n + 1) 'x'
  read := fun t => if t ≠ [] ∧ ∀ c ∈ t, c = 'x' then some (t.length - 1) else none

/-- They are read as they were written. -/
theorem tallyText_readsBack : ReadsBack tallyText where
  back := fun v => by
    simp only [tallyText]
    rw [if_pos ⟨by simp, fun c hc => (List.mem_replicate.1 hc).2⟩]
    simp
  nonempty := fun v => by simp [tallyText]
  plain := fun v => by
    simp only [tallyText]
    constructor <;> · intro h; exact absurd (List.mem_replicate.1 h).2 (by decide)

/-- The names the exporter uses by default. -/
def usualPaths : Paths where
  corr := "correlation_matrix.txt"
  ekra := "e_kra.txt"
  weight := "weight.txt"

/-- Two data sets of two entries and their exports meet the hypotheses. -/
example : (usualPaths.corr ≠ usualPaths.ekra ∧ usualPaths.corr ≠ usualPaths.weight ∧
      usualPaths.ekra ≠ usualPaths.weight) ∧
    fittingInputs exampleLoader (.scalar 7) = .ok ⟨[[5, 5, 5], [6, 6, 6]], [50, 60], [7, 7]⟩ ∧
    FittableTable (K := Nat) ⟨[[5, 5, 5], [6, 6, 6]], [50, 60], [7, 7]⟩ ∧
    (['x', 'x', 'x'] <+: tallyText.write 7 ∧ tallyText.read ['x', 'x', 'x'] = some 2) := by
  refine ⟨by decide, ?_, ⟨by decide, ⟨3, by decide, by decide⟩, rfl, rfl⟩, ⟨⟨List.replicate 5 'x', rfl⟩, by decide⟩⟩
  have h1 : exampleLoader.entries = [0, 2] := by decide +kernel
  have h2 : correlationMatrix exampleLoader = .ok [[5, 5, 5], [6, 6, 6]] := by decide +kernel
  have h3 : properties exampleLoader = .ok [50, 60] := by decide +kernel
  simp [fittingInputs, h1, h2, h3, weights]

/-- An export of the example that was cut in its last weight is accepted with the weight 2 instead of 7. -/
example (d : Folder) : ∃ d', Interrupted d (exportWrites tallyText exampleLoader (.scalar 7) usualPaths).2 d' ∧
    fitData tallyText d' usualPaths = .ok ⟨[[5, 5, 5], [6, 6, 6]], [50, 60], [7, 2]⟩ := by
  have h1 : exampleLoader.entries = [0, 2] := by decide +kernel
  have h2 : correlationMatrix exampleLoader = .ok [[5, 5, 5], [6, 6, 6]] := by decide +kernel
  have h3 : properties exampleLoader = .ok [50, 60] := by decide +kernel
  exact C127_last_weight_cut (f := ⟨[[5, 5, 5], [6, 6, 6]], [50, 60], [7, 7]⟩) (ws := [7]) (x := 7) (y := 2)
    (part := ['x', 'x', 'x']) tallyText_readsBack (by decide) (by simp [fittingInputs, h1, h2, h3, weights])
    ⟨by decide, ⟨3, by decide, by decide⟩, rfl, rfl⟩ rfl ⟨List.replicate 5 'x', rfl⟩ (by decide) (by decide) d

end FitFiles
end KMC
