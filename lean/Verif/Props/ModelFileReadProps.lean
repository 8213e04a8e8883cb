import Verif.Props.ModelFileProps
/-
C79, continued: what is taken from any dictionary of an expansion, also from one written by an older version or
altered by hand.
-/
namespace KMC
namespace ModelFile
open Spec
variable {K P D : Type}

theorem foldl_max_int (l : List Int) (a : Int) :
    a ≤ l.foldl max a ∧ (∀ x ∈ l, x ≤ l.foldl max a) ∧ (l.foldl max a = a ∨ l.foldl max a ∈ l) := by
  induction l generalizing a with
  | nil => simp
  | cons b l ih =>
    obtain ⟨h1, h2, h3⟩ := ih (max a b)
    simp only [List.foldl_cons]
    refine ⟨(le_max_left a b).trans h1, ?_, ?_⟩
    · intro x hx
      rcases List.mem_cons.1 hx with rfl | hx
      · exact (le_max_right a x).trans h1
      · exact h2 x hx
    · rcases h3 with h3 | h3
      · rcases max_choice a b with h | h
        · left; rw [h3, h]
        · right; rw [h3, h]; simp
      · right; simp [h3]

/-- C79.  What a dictionary says is what the loaded expansion has: basis, indices, tables, environment,
parameters.  Where it is silent, the basis is the Chebyshev basis for the largest stored number of states (two, if
no number is larger), and the digest of the environment is computed. -/
theorem C79_any_file [CommRing K] (dist : P → P → D) (h : Digests P D) (d : ExpansionPayload K P)
    (m : Expansion K P D) (hm : Expansion.fromDict dist h d = .ok m) :
    (∀ b, d.basis = some b → m.basis = b) ∧
    (d.basis = none → ∃ n, m.basis = .chebyshev n ∧ 2 ≤ n ∧
      (∀ counts, d.stateCounts = some counts → (∀ c ∈ counts, c ≤ n) ∧ (n = 2 ∨ n ∈ counts))) ∧
    m.clusterSiteIndices = d.clusterSiteIndices.getD [] ∧ m.basisIndices = d.basisIndices ∧
    m.siteBasisValues = d.siteBasisValues ∧ m.environment = d.environment ∧
    (∀ s, d.environmentHash = some s → m.environmentHash = some s) ∧
    (d.environmentHash = none → m.environmentHash = d.environment.map h.environment) ∧
    m.keci = d.keci ∧ m.emptyCluster = d.emptyCluster ∧ m.parameterFingerprints = d.parameterFingerprints ∧
    m.parameterHash = d.parameterHash := by
  have key : ∃ os fps, m = { restored h d os with correlationFingerprints := fps } := by
    simp only [Expansion.fromDict] at hm
    split at hm
    · split at hm
      · cases hm
      · cases hm
        exact ⟨none, _, rfl⟩
    · split at hm
      · cases hm
      · split at hm
        · cases hm
        · simp only [checkOrbits] at hm
          split at hm
          · cases hm
          · split at hm
            · cases hm
              exact ⟨_, _, rfl⟩
            · split at hm
              · cases hm
              · cases hm
                exact ⟨_, _, rfl⟩
  obtain ⟨os, fps, rfl⟩ := key
  refine ⟨fun b hb => by simp [restored, hb], ?_, rfl, rfl, rfl, rfl, fun s hs => by simp [restored, hs],
    fun hs => by simp [restored, hs], rfl, rfl, rfl, rfl⟩
  intro hb
  simp only [restored, hb, Option.getD_none]
  cases hc : d.stateCounts with
  | none => exact ⟨2, rfl, le_rfl, by rintro counts ⟨⟩⟩
  | some counts =>
    cases counts with
    | nil =>
      refine ⟨2, rfl, le_rfl, ?_⟩
      rintro counts ⟨⟩
      simp
    | cons c cs =>
      refine ⟨_, rfl, le_max_left _ _, ?_⟩
      rintro counts ⟨⟩
      obtain ⟨h1, h2, h3⟩ := foldl_max_int cs c
      refine ⟨?_, ?_⟩
      · intro x hx
        rcases List.mem_cons.1 hx with rfl | hx
        · exact h1.trans (le_max_right _ _)
        · exact (h2 x hx).trans (le_max_right _ _)
      · rcases max_choice 2 (cs.foldl max c) with h | h
        · exact .inl h
        · right
          rw [h]
          rcases h3 with h3 | h3
          · rw [h3]; simp
          · simp [h3]

/-- C79.  A dictionary of decorated clusters that lacks the indices of the basis functions or their values is
refused, and so is one whose stored fingerprints are not those of its orbits. -/
theorem C79_incomplete_file_refused [CommRing K] (dist : P → P → D) (h : Digests P D) (d : ExpansionPayload K P)
    (m : Expansion K P D) (hm : Expansion.fromDict dist h d = .ok m) :
    (m.basis.usesStateIndices = true → d.clusterSiteIndices.isSome →
      d.basisIndices.isSome ∧ d.siteBasisValues.isSome) ∧
    (∀ stored, d.orbits.isSome → d.orbitFingerprints = some stored → stored = (m.core h).getOrbitFingerprints) := by
  have hb : m.basis = d.basis.getD (defaultBasis d.stateCounts) := by
    obtain ⟨h1, -⟩ := C79_any_file dist h d m hm
    simp only [Expansion.fromDict] at hm
    split at hm
    · split at hm
      · cases hm
      · cases hm; rfl
    · split at hm
      · cases hm
      · split at hm
        · cases hm
        · simp only [checkOrbits] at hm
          split at hm
          · cases hm
          · split at hm
            · cases hm; rfl
            · split at hm
              · cases hm
              · cases hm; rfl
  have hl : lacksTables d = false := by
    by_contra hc
    have hc' : lacksTables d = true := by simpa using hc
    simp only [Expansion.fromDict, hc', if_true] at hm
    split at hm
    · cases hm
    · split at hm
      · cases hm
      · cases hm
  refine ⟨?_, ?_⟩
  · intro hu hc
    simp only [lacksTables, ← hb, hu, hc, Bool.true_and, Bool.or_eq_false_iff, Option.isNone_eq_false_iff] at hl
    exact hl
  · intro stored ho hs
    obtain ⟨ods, hods⟩ := Option.isSome_iff_exists.1 ho
    simp only [Expansion.fromDict, hods, hl] at hm
    split at hm
    · cases hm
    · simp only [Bool.false_eq_true, if_false, checkOrbits, hs] at hm
      split at hm
      · cases hm
      · split at hm
        · cases hm
        · rename_i hne
          cases hm
          exact not_not.1 hne

/-- A dictionary without a basis, as older versions wrote it, for sites with two and three states. -/
def oldFile : ExpansionPayload ℚ Int where
  basis := none
  orbits := none
  clusterSiteIndices := some [[[0]]]
  basisIndices := some [[[0]]]
  siteBasisValues := some [[[1]]]
  featureMeta := none
  correlationFingerprints := none
  orbitFingerprints := none
  stateCounts := some [2, 3]
  environment := none
  environmentHash := some "abc"
  keci := none
  emptyCluster := none
  parameterFingerprints := none
  parameterHash := none

/-- It is read, with a basis for three states. -/
example : ∃ m : Expansion ℚ Int Int, Expansion.fromDict (fun a b => a - b)
    ⟨fun _ => "", fun _ _ _ => "", fun _ => ""⟩ oldFile = .ok m ∧ m.basis = .chebyshev 3 ∧
    m.environmentHash = some "abc" := ⟨_, rfl, rfl, rfl⟩

end ModelFile
end KMC
