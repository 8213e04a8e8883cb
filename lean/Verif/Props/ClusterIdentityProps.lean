import Verif.Spec.ClusterIdentity
import Verif.Props.ClusterMatcherProps
import Mathlib.Logic.Encodable.Basic
import Mathlib.Logic.Equiv.List
import Mathlib.Data.Rat.Encodable
/-
C139: fingerprints of clusters and of matches, and the data saved with a cluster.
-/
set_option linter.unusedSectionVars false

namespace KMC
open Spec Matcher ClusterData

section
variable {L K R : Type} [Field K] [LinearOrder K] [LinearOrder L] [LinearOrder R]
  {round : K → K} {digest : List L → List (List K) → String}

/-- C139.  Fingerprints are equal exactly if the labels are, in this order, and all distances after rounding. -/
theorem C139_fingerprint_iff (hd : CollisionFree digest) (a b : Cluster L K) :
    fingerprint round digest a = fingerprint round digest b ↔ SameAfterRounding round a b := by
  constructor
  · intro h
    obtain ⟨h1, h2⟩ := hd _ _ _ _ h
    refine ⟨h1, fun i j hi hj => ?_⟩
    rw [← h1] at h2
    have h3 := congrArg (fun l => (l[i]?).bind fun r => r[j]?) h2
    simpa [List.getElem?_range, hi, hj] using h3
  · rintro ⟨h1, h2⟩
    unfold fingerprint
    rw [← h1]
    congr 1
    refine List.map_congr_left fun i hi => List.map_congr_left fun j hj => ?_
    exact h2 i j (List.mem_range.1 hi) (List.mem_range.1 hj)

theorem reordered_labels {reference candidate : Cluster L K} {π : List Nat} (h : Relabels reference candidate π) :
    (reordered candidate π).labels = reference.labels := by
  have key : ∀ (π : List Nat) (ls : List L), π.length = ls.length →
      (∀ (i c : Nat), π[i]? = some c → candidate.labels[c]? = ls[i]?) →
      π.filterMap (fun c => candidate.labels[c]?) = ls := by
    intro π
    induction π with
    | nil => intro ls h1 _; cases ls <;> simp_all
    | cons c cs ih =>
      intro ls h1 h2
      cases ls with
      | nil => simp at h1
      | cons l ls =>
        have h3 : candidate.labels[c]? = some l := by simpa using h2 0 c rfl
        rw [List.filterMap_cons_some h3]
        congr 1
        exact ih ls (by simpa using h1) fun i d hi => by simpa using h2 (i + 1) d (by simpa using hi)
  exact key π reference.labels h.length fun i c hi => (h.label i c hi).2

/-- C139.  The fingerprint returned with a match is that of the candidate's sites listed in the order of the
reference.  It is the fingerprint of the reference exactly if the distances agree after rounding. -/
theorem C139_match_fingerprint (hd : CollisionFree digest) (row : Nat → R) (rtol atol : K)
    (reference candidate : Cluster L K) (hr : SymmetricDistances reference) (hc : SymmetricDistances candidate)
    (hs : candidate.siteIndices.length = candidate.labels.length) (requireUnique nearest : Bool) (m : Match K)
    (h : matchClusters row rtol atol reference candidate requireUnique nearest = .ok m) :
    ∃ f, matchFingerprint row round digest rtol atol reference candidate requireUnique nearest = .ok f ∧
      orderedIndices row rtol atol reference candidate requireUnique nearest = .ok m.orderedCandidateIndices ∧
      (f = fingerprint round digest reference ↔ ∀ (i j c d : Nat), m.referenceToCandidate[i]? = some c →
        m.referenceToCandidate[j]? = some d → round (candidate.dist c d) = round (reference.dist i j)) := by
  have hR := (C49_result_is_relabelling row rtol atol reference candidate hr hc hs requireUnique nearest m h).1
  refine ⟨fingerprint round digest (reordered candidate m.referenceToCandidate),
    by simp only [matchFingerprint, h], by simp only [orderedIndices, h], ?_⟩
  rw [C139_fingerprint_iff hd]
  unfold SameAfterRounding
  rw [reordered_labels hR]
  constructor
  · rintro ⟨-, h2⟩ i j c d hi hj
    have li := hR.length ▸ (List.getElem?_eq_some_iff.1 hi).1
    have lj := hR.length ▸ (List.getElem?_eq_some_iff.1 hj).1
    have := h2 i j li lj
    simpa only [reordered, hi, hj, Option.getD_some] using this
  · intro h2
    refine ⟨rfl, fun i j hi hj => ?_⟩
    rw [← hR.length] at hi hj
    have := h2 i j _ _ (List.getElem?_eq_getElem hi) (List.getElem?_eq_getElem hj)
    simpa only [reordered, List.getElem?_eq_getElem hi, List.getElem?_eq_getElem hj, Option.getD_some] using this

/-- C139.  Clusters with equal fingerprints match, if the tolerance is at least twice the rounding, and their sites
correspond as they are listed. -/
theorem C139_same_fingerprint_matches [IsStrictOrderedRing K] (hd : CollisionFree digest) (row : Nat → R)
    (h rtol atol : K) (hround : ∀ x, |round x - x| ≤ h) (hr0 : 0 ≤ rtol) (ha : 2 * h ≤ atol)
    (a b : Cluster L K) (sa : SymmetricDistances a) (sb : SymmetricDistances b)
    (hf : fingerprint round digest a = fingerprint round digest b) :
    IsMatch (isclose rtol atol) a b (List.range a.labels.length) ∧
    (∃ m, matchClusters row rtol atol a b false false = .ok m) := by
  obtain ⟨h1, h2⟩ := (C139_fingerprint_iff hd a b).1 hf
  have hm : IsMatch (isclose rtol atol) a b (List.range a.labels.length) := by
    refine ⟨⟨by simp, List.nodup_range, ?_⟩, ?_⟩
    · intro i c hi
      obtain ⟨k1, k2⟩ := List.getElem?_eq_some_iff.1 hi
      rw [List.getElem_range] at k2
      rw [List.length_range] at k1
      subst k2
      rw [← h1]
      exact ⟨k1, rfl⟩
    · intro i j c d _ hi hj
      obtain ⟨k1, k2⟩ := List.getElem?_eq_some_iff.1 hi
      obtain ⟨l1, l2⟩ := List.getElem?_eq_some_iff.1 hj
      rw [List.getElem_range] at k2 l2
      rw [List.length_range] at k1 l1
      subst k2 l2
      unfold isclose
      rw [decide_eq_true_eq]
      have e := h2 _ _ k1 l1
      have p1 := abs_le.1 (hround (a.dist i j))
      have p2 := abs_le.1 (hround (b.dist i j))
      have p3 : 0 ≤ rtol * |b.dist i j| := mul_nonneg hr0 (abs_nonneg _)
      rw [e] at p1
      rw [abs_le]
      constructor <;> linarith [p1.1, p1.2, p2.1, p2.2]
  exact ⟨hm, (C49_found_iff row rtol atol a b sa sb).1.2 ⟨by rw [h1], _, hm⟩⟩

/-- C139.  ... so that `==` holds for them. -/
theorem C139_same_fingerprint_equal [IsStrictOrderedRing K] (hd : CollisionFree digest) (row : Nat → R)
    (hround : ∀ x, |round x - x| ≤ 1 / 2 / 10 ^ 8) (a b : Cluster L K) (sa : SymmetricDistances a)
    (sb : SymmetricDistances b) (ha : a.siteIndices.length = a.labels.length)
    (hb : b.siteIndices.length = b.labels.length)
    (hf : fingerprint round digest a = fingerprint round digest b) : clusterEqual row a b = true := by
  obtain ⟨-, m, hm⟩ := C139_same_fingerprint_matches hd row (1 / 2 / 10 ^ 8) (1 / 1000) (1 / 1000) hround
    (by positivity) (by norm_num) a b sa sb hf
  have hl := ((C139_fingerprint_iff hd a b).1 hf).1
  unfold clusterEqual
  rw [if_neg (by rw [ha, hb, hl]; simp), hm]

/-- C139.  If the match within tolerance is unique, listing the sites of the candidate in another order gives the
same fingerprint. -/
theorem C139_order_irrelevant (row : Nat → R) (rtol atol : K)
    (reference candidate candidate' : Cluster L K) (hr : SymmetricDistances reference)
    (hc : SymmetricDistances candidate) (hc' : SymmetricDistances candidate')
    (hs : candidate.siteIndices.length = candidate.labels.length)
    (hs' : candidate'.siteIndices.length = candidate'.labels.length)
    (σ : List Nat) (hσ : Relisted candidate candidate' σ) (ru ru' nearest nearest' : Bool) (m : Match K)
    (hex : ∃ π, IsMatch (isclose rtol atol) reference candidate π)
    (hm : matchClusters row rtol atol reference candidate ru nearest = .ok m) (hu : m.isUnique = true) :
    ∃ f, matchFingerprint row round digest rtol atol reference candidate ru nearest = .ok f ∧
      matchFingerprint row round digest rtol atol reference candidate' ru' nearest' = .ok f := by
  -- the same clusters with the positions in the first list as site indices
  have strip : ∀ (c : Cluster L K) (is : List Int) (ru nearest : Bool),
      matchClusters row rtol atol reference ⟨c.labels, c.dist, is⟩ ru nearest =
        (matchClusters row rtol atol reference c ru nearest).map fun m =>
          buildMatch ⟨c.labels, c.dist, is⟩ m.referenceToCandidate m.isUnique m.score := by
    intro c is ru nearest
    have hp : matchingPermutations row (isclose rtol atol) reference ⟨c.labels, c.dist, is⟩ (some 2) =
        matchingPermutations row (isclose rtol atol) reference c (some 2) := by
      have hb : ∀ order r2c used found, backtrack (isclose rtol atol) reference ⟨c.labels, c.dist, is⟩ (some 2)
          order r2c used found = backtrack (isclose rtol atol) reference c (some 2) order r2c used found := by
        have hpm : ∀ (r d j : Nat) (l : List (Option Nat)),
            partialMatchFrom (isclose rtol atol) reference ⟨c.labels, c.dist, is⟩ r d j l =
              partialMatchFrom (isclose rtol atol) reference c r d j l := by
          intro r d j l
          induction l generalizing j with
          | nil => rfl
          | cons o l ih => cases o <;> simp only [partialMatchFrom, ih]
        intro order
        induction order with
        | nil => intro r2c used found; unfold backtrack; rfl
        | cons r rest ih =>
          intro r2c used found
          unfold backtrack
          simp only [hpm, ih]
          rfl
      unfold matchingPermutations
      rw [hb]
      rfl
    unfold matchClusters
    rw [hp]
    have hn : nearestPermutation reference ⟨c.labels, c.dist, is⟩ = nearestPermutation reference c := rfl
    rw [hn]
    dsimp only
    by_cases h0 : signature reference.labels ≠ signature c.labels
    · rw [if_pos h0, if_pos h0]; rfl
    · rw [if_neg h0, if_neg h0]
      cases matchingPermutations row (isclose rtol atol) reference c (some 2) with
      | cons p ps => dsimp only; split <;> rfl
      | nil =>
        dsimp only
        split
        · cases nearestPermutation reference c with
          | error e => rfl
          | ok x => rfl
        · rfl
  have hσlen : σ.length = candidate.labels.length := by rw [hσ.order.length_eq, List.length_range]
  let A : Cluster L K := ⟨candidate.labels, candidate.dist, (List.range candidate.labels.length).map Int.ofNat⟩
  let B : Cluster L K := ⟨candidate'.labels, candidate'.dist, σ.map Int.ofNat⟩
  have hAB : Relisted A B σ := by
    refine ⟨hσ.order, hσ.labels, hσ.labels_length, hσ.dist, ?_⟩
    intro i c hi
    have hlt : c < candidate.labels.length := List.mem_range.1 (hσ.order.mem_iff.1 (List.mem_of_getElem? hi))
    simp [A, B, List.getElem?_map, hi, List.getElem?_range, hlt]
  have hmA := strip candidate ((List.range candidate.labels.length).map Int.ofNat) ru nearest
  rw [hm] at hmA
  obtain ⟨m', hm', he⟩ := C49_listing_order_irrelevant row rtol atol reference A B hr hc hc' (by simp [A])
    (by simp [B, hσlen, hσ.labels_length]) σ hAB ru ru' nearest nearest' _
    (hex.imp fun _ h => ⟨⟨h.1.length, h.1.nodup, h.1.label⟩, h.2⟩) hmA hu
  have hmB := strip candidate' (σ.map Int.ofNat) ru' nearest'
  rw [show (⟨candidate'.labels, candidate'.dist, σ.map Int.ofNat⟩ : Cluster L K) = B from rfl, hm'] at hmB
  cases hm2 : matchClusters row rtol atol reference candidate' ru' nearest' with
  | error e => rw [hm2] at hmB; cases hmB
  | ok n =>
    rw [hm2] at hmB
    have hB : m' = buildMatch B n.referenceToCandidate n.isUnique n.score := Except.ok.inj hmB
    subst hB
    have hRm := (C49_result_is_relabelling row rtol atol reference candidate hr hc hs ru nearest m hm).1
    have hRn := (C49_result_is_relabelling row rtol atol reference candidate' hr hc' hs' ru' nearest' n hm2).1
    -- the correspondences go through `σ`
    have hthrough : ∀ i (hi : i < reference.labels.length), ∃ c d, n.referenceToCandidate[i]? = some c ∧
        m.referenceToCandidate[i]? = some d ∧ σ[c]? = some d := by
      intro i hi
      have hin : i < n.referenceToCandidate.length := hRn.length ▸ hi
      have him : i < m.referenceToCandidate.length := hRm.length ▸ hi
      refine ⟨_, _, List.getElem?_eq_getElem hin, List.getElem?_eq_getElem him, ?_⟩
      have hcl := (hRn.label i _ (List.getElem?_eq_getElem hin)).1
      have hdl := (hRm.label i _ (List.getElem?_eq_getElem him)).1
      rw [hσ.labels_length, ← hσlen] at hcl
      have := congrArg (fun l => l[i]?) he
      simp only [buildMatch, A, B, List.getElem?_map, List.getElem?_eq_getElem hin, List.getElem?_eq_getElem him,
        Option.map_some, List.getElem?_range, hdl, List.getElem?_eq_getElem hcl, Option.getD_some,
        Option.some.injEq] at this
      rw [List.getElem?_eq_getElem hcl]
      congr 1
      exact Int.ofNat_inj.1 this
    refine ⟨fingerprint round digest (reordered candidate m.referenceToCandidate),
      by simp only [matchFingerprint, hm], ?_⟩
    simp only [matchFingerprint, hm2]
    congr 1
    unfold fingerprint
    rw [reordered_labels hRm, reordered_labels hRn]
    congr 1
    refine List.map_congr_left fun i hi => List.map_congr_left fun j hj => ?_
    obtain ⟨c, d, i1, i2, i3⟩ := hthrough i (List.mem_range.1 hi)
    obtain ⟨c', d', j1, j2, j3⟩ := hthrough j (List.mem_range.1 hj)
    simp only [reordered, i1, i2, j1, j2, Option.getD_some]
    rw [hσ.dist c c' d d' i3 j3]

/-- C139.  A copy of the reference with its sites listed in another order gets the fingerprint of the reference, if
the match within tolerance is unique. -/
theorem C139_relisted_reference [IsStrictOrderedRing K] (hd : CollisionFree digest) (row : Nat → R) (rtol atol : K)
    (hr0 : 0 ≤ rtol) (ha0 : 0 ≤ atol) (reference candidate : Cluster L K) (hr : SymmetricDistances reference)
    (hc : SymmetricDistances candidate) (hs : candidate.siteIndices.length = candidate.labels.length)
    (σ : List Nat) (hσ : Relisted reference candidate σ) (ru nearest : Bool) (m : Match K)
    (hm : matchClusters row rtol atol reference candidate ru nearest = .ok m) (hu : m.isUnique = true) :
    matchFingerprint row round digest rtol atol reference candidate ru nearest =
      .ok (fingerprint round digest reference) := by
  have hσlen : σ.length = reference.labels.length := by rw [hσ.order.length_eq, List.length_range]
  have hin : ∀ i, i < reference.labels.length → i ∈ σ := fun i hi => hσ.order.mem_iff.2 (List.mem_range.2 hi)
  have hidx : ∀ i, i < reference.labels.length → σ[σ.idxOf i]? = some i := fun i hi =>
    List.getElem?_idxOf (hin i hi)
  let π := (List.range reference.labels.length).map fun i => σ.idxOf i
  have hπ : ∀ (i c : Nat), π[i]? = some c → i < reference.labels.length ∧ σ[c]? = some i := by
    intro i c hi
    simp only [π, List.getElem?_map, Option.map_eq_some_iff] at hi
    obtain ⟨k, h1, rfl⟩ := hi
    obtain ⟨h2, h3⟩ := List.getElem?_eq_some_iff.1 h1
    rw [List.getElem_range] at h3
    rw [List.length_range] at h2
    subst h3
    exact ⟨h2, hidx _ h2⟩
  have hmatch : IsMatch (isclose rtol atol) reference candidate π := by
    refine ⟨⟨by simp [π], ?_, ?_⟩, ?_⟩
    · refine List.Nodup.map_on ?_ List.nodup_range
      intro x hx y hy hxy
      have h1 := hidx x (List.mem_range.1 hx)
      rw [hxy, hidx y (List.mem_range.1 hy)] at h1
      exact (Option.some.inj h1).symm
    · intro i c hi
      obtain ⟨h1, h2⟩ := hπ i c hi
      refine ⟨?_, hσ.labels c i h2⟩
      rw [hσ.labels_length, ← hσlen]
      exact (List.getElem?_eq_some_iff.1 h2).1
    · intro i j c d _ hi hj
      rw [hσ.dist c d i j (hπ i c hi).2 (hπ j d hj).2]
      unfold isclose
      rw [decide_eq_true_eq, sub_self, abs_zero]
      have := abs_nonneg (reference.dist i j)
      positivity
  obtain ⟨-, -, h3⟩ := C49_exact_match row rtol atol reference candidate hr hc ru nearest ⟨π, hmatch⟩ m hm
  have he := h3.1 hu π hmatch
  obtain ⟨f, hf, -, hiff⟩ := C139_match_fingerprint (round := round) hd row rtol atol reference candidate hr hc hs ru
    nearest m hm
  rw [hf, hiff.2]
  intro i j c d hi hj
  rw [← he] at hi hj
  rw [hσ.dist c d i j (hπ i c hi).2 (hπ j d hj).2]

end

/-! ### Where fingerprints and matches disagree -/

/-- Three sites of one kind at the distances 1, 1.0001 and 1.0002, the site opposite to the shortest, middle and
longest distance being number `x`, `y` and `z`; the first site is known as `z`, the second as `y`, the third as `x`. -/
def triangle (x y z : Nat) : Cluster Nat ℚ where
  labels := [0, 0, 0]
  dist := fun i j =>
    if i = j then 0
    else if i ≠ x ∧ j ≠ x then 1
    else if i ≠ y ∧ j ≠ y then 10001 / 10000
    else 10002 / 10000
  siteIndices := [z, y, x]

theorem triangle_match (x y z : Nat) (h : [x, y, z] ∈ [[2, 1, 0], [2, 0, 1], [0, 1, 2]]) :
    matchClusters (fun i => i : Nat → Nat) (1 / 1000) (1 / 1000) (triangle 2 1 0) (triangle x y z) false false =
      .ok ⟨[0, 1, 2], [0, 1, 2], [(z : Int), y, x], false, 0⟩ := by
  have ho : assignmentOrder (fun i => i : Nat → Nat) (triangle 2 1 0) (triangle x y z) = [0, 1, 2] := by
    unfold assignmentOrder
    refine List.mergeSort_of_pairwise ?_
    simp [triangle, List.range, List.range.loop]
  have hp : matchingPermutations (fun i => i : Nat → Nat) (isclose (1 / 1000) (1 / 1000)) (triangle 2 1 0)
      (triangle x y z) (some 2) = [[0, 1, 2], [0, 2, 1]] := by
    unfold matchingPermutations
    rw [ho]
    simp only [List.mem_cons, List.cons.injEq, and_true, List.not_mem_nil, or_false] at h
    rcases h with ⟨rfl, rfl, rfl⟩ | ⟨rfl, rfl, rfl⟩ | ⟨rfl, rfl, rfl⟩ <;> decide +kernel
  unfold matchClusters
  rw [if_neg (by simp [triangle]), hp]
  rfl

/-- C139.  Without uniqueness a relisted copy of the reference can get another fingerprint than the reference: the
first correspondence within the default tolerance is taken, not the exact one. -/
theorem C139_relisted_reference_needs_unique {digest : List Nat → List (List ℚ) → String}
    (hd : CollisionFree digest) :
    ∃ (reference candidate : Cluster Nat ℚ) (σ : List Nat) (f : String), Relisted reference candidate σ ∧
      matchFingerprint (fun i => i : Nat → Nat) id digest (1 / 1000) (1 / 1000) reference candidate false false
        = .ok f ∧ f ≠ fingerprint id digest reference := by
  refine ⟨triangle 2 1 0, triangle 2 0 1, [1, 0, 2],
    fingerprint id digest (reordered (triangle 2 0 1) [0, 1, 2]), ?_, ?_, ?_⟩
  · have get : ∀ (i c : Nat), [1, 0, 2][i]? = some c → (i, c) ∈ [(0, 1), (1, 0), (2, 2)] := by
      intro i c h
      rcases i with _ | _ | _ | i <;> simp at h <;> subst h <;> simp
    refine ⟨by decide, ?_, rfl, ?_, ?_⟩
    · intro i c h
      have all : ∀ p ∈ [(0, 1), (1, 0), (2, 2)], (triangle 2 0 1).labels[p.1]? = (triangle 2 1 0).labels[p.2]? := by
        decide
      exact all _ (get i c h)
    · intro i j c d h h'
      have all : ∀ p ∈ [(0, 1), (1, 0), (2, 2)], ∀ q ∈ [(0, 1), (1, 0), (2, 2)],
          (triangle 2 0 1).dist p.1 q.1 = (triangle 2 1 0).dist p.2 q.2 := by decide +kernel
      exact all _ (get i c h) _ (get j d h')
    · intro i c h
      have all : ∀ p ∈ [(0, 1), (1, 0), (2, 2)],
          (triangle 2 0 1).siteIndices[p.1]? = (triangle 2 1 0).siteIndices[p.2]? := by decide
      exact all _ (get i c h)
  · simp only [matchFingerprint, triangle_match 2 0 1 (by simp)]
  · rw [ne_eq, C139_fingerprint_iff hd]
    rintro ⟨-, h⟩
    have := h 0 2 (by simp [reordered, triangle]) (by simp [reordered, triangle])
    revert this
    decide +kernel

/-- C139.  Clusters that are equal, and match, can have different fingerprints. -/
theorem C139_equal_not_same_fingerprint {digest : List Nat → List (List ℚ) → String} (hd : CollisionFree digest) :
    ∃ a b : Cluster Nat ℚ, clusterEqual (fun i => i : Nat → Nat) a b = true ∧
      fingerprint id digest a ≠ fingerprint id digest b := by
  refine ⟨triangle 2 1 0, triangle 2 0 1, ?_, ?_⟩
  · unfold clusterEqual
    rw [if_neg (by simp [triangle]), triangle_match 2 0 1 (by simp)]
  · rw [ne_eq, C139_fingerprint_iff hd]
    rintro ⟨-, h⟩
    have := h 0 2 (by simp [triangle]) (by simp [triangle])
    revert this
    decide +kernel

/-! ### Data kept beside the sites -/

/-- C139.  The first saving keeps every scalar entry, turns tuples and arrays into lists and leaves out the entry
`site` only. -/
theorem C139_first_saving (str : PyVal → String) (m : List (String × Item)) :
    (safeMetadata str m).map (·.1) = (m.map (·.1)).filter (fun k => k ≠ "site") ∧
    (∀ k v, (k, Item.plain v) ∈ m → k ≠ "site" → Scalar v → (k, v) ∈ safeMetadata str m) ∧
    (∀ k l, (k, Item.plain (.tuple l)) ∈ m → k ≠ "site" → (k, PyVal.list l) ∈ safeMetadata str m) ∧
    (∀ k l, (k, Item.array l) ∈ m → k ≠ "site" → (k, PyVal.list l) ∈ safeMetadata str m) := by
  have mem : ∀ (m : List (String × Item)) k i, (k, i) ∈ m → k ≠ "site" → (k, safeValue str i) ∈ safeMetadata str m := by
    intro m
    induction m with
    | nil => intro k i h; cases h
    | cons p m ih =>
      intro k i h hk
      obtain ⟨k', i'⟩ := p
      simp only [safeMetadata]
      rcases List.mem_cons.1 h with h | h
      · cases h
        rw [if_neg hk]
        exact List.mem_cons_self
      · split
        · exact ih k i h hk
        · exact List.mem_cons_of_mem _ (ih k i h hk)
  refine ⟨?_, ?_, fun k l h hk => mem m k _ h hk, fun k l h hk => mem m k _ h hk⟩
  · induction m with
    | nil => rfl
    | cons p m ih =>
      obtain ⟨k', i'⟩ := p
      simp only [safeMetadata, List.map_cons, List.filter_cons]
      split
      · rename_i h0
        simp only [h0, ne_eq, not_true_eq_false, decide_false]
        exact ih
      · rename_i h0
        simp only [ne_eq, h0, not_false_eq_true, decide_true, if_true, List.map_cons, ih]
  · intro k v h hk hv
    have := mem m k _ h hk
    cases v <;> first | exact this | exact hv.elim

/-- C139.  A cluster that was loaded and saved again has the same data exactly if they hold scalars only. -/
theorem C139_saved_again_iff (str : PyVal → String) (m : List (String × Item)) :
    safeMetadata str (loadMetadata (safeMetadata str m)) = safeMetadata str m ↔
      ∀ kv ∈ safeMetadata str m, Scalar kv.2 := by
  have hk : ∀ kv ∈ safeMetadata str m, kv.1 ≠ "site" := by
    intro kv h
    have h1 := (C139_first_saving str m).1
    have h2 : kv.1 ∈ (safeMetadata str m).map (·.1) := List.mem_map_of_mem h
    rw [h1] at h2
    simpa using (List.mem_filter.1 h2).2
  generalize safeMetadata str m = s at hk
  induction s with
  | nil => simp [loadMetadata, safeMetadata]
  | cons kv s ih =>
    obtain ⟨k, v⟩ := kv
    have ih := ih fun kv h => hk kv (List.mem_cons_of_mem _ h)
    have h0 : k ≠ "site" := hk (k, v) List.mem_cons_self
    have hl : loadMetadata ((k, v) :: s) = (k, .plain v.json) :: loadMetadata s := rfl
    rw [hl]
    simp only [safeMetadata, if_neg h0, List.cons.injEq, Prod.mk.injEq, true_and, ih, List.mem_cons,
      forall_eq_or_imp]
    refine and_congr_left fun _ => ?_
    cases v <;> simp [PyVal.json, safeValue, Scalar]

/-- C139.  From the second saving on nothing changes any more. -/
theorem C139_stable_from_second (str : PyVal → String) (m : List (String × Item)) :
    safeMetadata str (loadMetadata (safeMetadata str (loadMetadata (safeMetadata str m)))) =
      safeMetadata str (loadMetadata (safeMetadata str m)) := by
  rw [C139_saved_again_iff]
  have key : ∀ s : List (String × PyVal), ∀ kv ∈ safeMetadata str (loadMetadata s), Scalar kv.2 := by
    intro s
    induction s with
    | nil => intro kv h; cases h
    | cons p s ih =>
      intro kv h
      obtain ⟨k, v⟩ := p
      have hl : loadMetadata ((k, v) :: s) = (k, .plain v.json) :: loadMetadata s := rfl
      rw [hl] at h
      simp only [safeMetadata] at h
      split at h
      · exact ih kv h
      · rcases List.mem_cons.1 h with rfl | h
        · cases v <;> simp [PyVal.json, safeValue, Scalar]
        · exact ih kv h
  exact key _

/-- C139.  Lattice images of neighbours, which are tuples, come back from the second file as a text. -/
theorem C139_saving_twice_changes (str : PyVal → String) : ∃ m : List (String × Item),
    safeMetadata str m = [("image", .list [.int 0, .int 0, .int 1])] ∧
    safeMetadata str (loadMetadata (safeMetadata str m)) =
      [("image", .str (str (.list [.int 0, .int 0, .int 1])))] :=
  ⟨[("site", .other "Na"), ("image", .plain (.tuple [.int 0, .int 0, .int 1]))], rfl, rfl⟩

/-! ### Concrete cases -/

/-- Digests without collisions exist. -/
example : ∃ digest : List Nat → List (List ℚ) → String, CollisionFree digest := by
  refine ⟨fun l m => String.ofList (List.replicate (Encodable.encode (l, m)) 'a'), fun l m l' m' h => ?_⟩
  have h1 := congrArg (fun s => s.toList.length) h
  simp only [String.toList_ofList, List.length_replicate] at h1
  have h2 := Encodable.encode_injective h1
  exact ⟨congrArg Prod.fst h2, congrArg Prod.snd h2⟩

/-- A sodium and an oxygen site, listed in either order: the match is unique and has the fingerprint of the
reference. -/
example (digest : List Nat → List (List ℚ) → String) (hd : CollisionFree digest) :
    matchFingerprint (fun i => i : Nat → Nat) id digest (1 / 1000) (1 / 1000)
      ⟨[11, 8], fun i j => if i = j then 0 else 5 / 2, [0, 1]⟩
      ⟨[8, 11], fun i j => if i = j then 0 else 5 / 2, [1, 0]⟩ false false =
    .ok (fingerprint id digest ⟨[11, 8], fun i j => if i = j then 0 else 5 / 2, [0, 1]⟩) := by
  have hsym : ∀ i j : Nat, (if i = j then (0 : ℚ) else 5 / 2) = if j = i then 0 else 5 / 2 := by
    intro i j; simp only [eq_comm]
  have ho : assignmentOrder (fun i => i : Nat → Nat)
      (⟨[11, 8], fun i j => if i = j then 0 else 5 / 2, [0, 1]⟩ : Cluster Nat ℚ)
      ⟨[8, 11], fun i j => if i = j then 0 else 5 / 2, [1, 0]⟩ = [0, 1] := by
    unfold assignmentOrder
    refine List.mergeSort_of_pairwise ?_
    decide
  have hp : matchingPermutations (fun i => i : Nat → Nat) (isclose (1 / 1000) (1 / 1000))
      (⟨[11, 8], fun i j => if i = j then 0 else 5 / 2, [0, 1]⟩ : Cluster Nat ℚ)
      ⟨[8, 11], fun i j => if i = j then 0 else 5 / 2, [1, 0]⟩ (some 2) = [[1, 0]] := by
    unfold matchingPermutations
    rw [ho]
    decide +kernel
  have hm : matchClusters (fun i => i : Nat → Nat) (1 / 1000) (1 / 1000)
      (⟨[11, 8], fun i j => if i = j then 0 else 5 / 2, [0, 1]⟩ : Cluster Nat ℚ)
      ⟨[8, 11], fun i j => if i = j then 0 else 5 / 2, [1, 0]⟩ false false = .ok ⟨[1, 0], [1, 0], [0, 1], true, 0⟩ := by
    unfold matchClusters
    rw [if_neg (by rw [ne_eq, not_not, signature_eq_iff]; exact List.Perm.swap _ _ _), hp]
    rfl
  have get : ∀ (i c : Nat), [1, 0][i]? = some c → (i, c) ∈ [(0, 1), (1, 0)] := by
    intro i c h
    rcases i with _ | _ | i <;> simp at h <;> subst h <;> simp
  refine C139_relisted_reference hd (fun i => i) (1 / 1000) (1 / 1000) (by norm_num) (by norm_num)
    ⟨[11, 8], fun i j => if i = j then 0 else 5 / 2, [0, 1]⟩ ⟨[8, 11], fun i j => if i = j then 0 else 5 / 2, [1, 0]⟩
    hsym hsym rfl [1, 0] ⟨List.Perm.swap _ _ _, ?_, rfl, ?_, ?_⟩ false false _ hm rfl
  · intro i c h
    have all : ∀ p ∈ [(0, 1), (1, 0)], [8, 11][p.1]? = [11, 8][p.2]? := by decide
    exact all _ (get i c h)
  · intro i j c d h h'
    have all : ∀ p ∈ [(0, 1), (1, 0)], ∀ q ∈ [(0, 1), (1, 0)],
        (if p.1 = q.1 then (0 : ℚ) else 5 / 2) = if p.2 = q.2 then 0 else 5 / 2 := by decide +kernel
    exact all _ (get i c h) _ (get j d h')
  · intro i c h
    have all : ∀ p ∈ [(0, 1), (1, 0)], [(1 : Int), 0][p.1]? = [(0 : Int), 1][p.2]? := by decide
    exact all _ (get i c h)

/-- The entries of `get_nn_info`: the site is dropped, the index kept, the image becomes a list. -/
example (str : PyVal → String) :
    safeMetadata str [("site", .other "PeriodicSite"), ("site_index", .plain (.int 4)),
      ("image", .plain (.tuple [.int 0, .int 0, .int 1]))] =
    [("site_index", .int 4), ("image", .list [.int 0, .int 0, .int 1])] := rfl

end KMC
