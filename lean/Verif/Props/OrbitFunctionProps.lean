import Mathlib.Algebra.Order.BigOperators.Group.List
import Mathlib.Algebra.Order.Field.Basic
import Mathlib.Tactic.Linarith
import Mathlib.Tactic.NormNum
import Mathlib.Algebra.Order.Ring.Abs
import Verif.Lemmas.OrbitFunction
import Verif.Props.ModelFileProps
/-
C132: cluster functions of single orbits and the correlations of an expansion.
-/
namespace KMC
open Spec ModelFile
set_option linter.unusedSectionVars false

section
variable {P D K : Type} [Field K] [CharZero K]

/-- C132.  The function of an orbit made by attaching clusters is the mean, over these clusters, of the product of
the occupations of their sites. -/
theorem C132_mean (cs : List (Cluster P D)) (hcs : cs ≠ []) (occ : List Int) (x : Int → Int)
    (hx : Gives occ (cs.map Cluster.siteIndices) x) :
    (attached cs).clusterFunction (K := K) occ = .ok (meanProduct x (cs.map Cluster.siteIndices)) := by
  have hm : (attached cs).multiplicity ≠ 0 := by
    rw [attached_eq]
    simpa [Orbit.ofClusters] using hcs
  rw [clusterFunction_eq occ _ hm]
  have e : (attached cs).clusterSiteIndices = cs.map Cluster.siteIndices := by rw [attached_eq]; rfl
  rw [e, orbitSum_gives hx]
  simp only [attached_eq, Orbit.ofClusters, meanProduct, List.length_map, Int.cast_natCast]

/-- C132.  Attaching the same clusters in another order changes nothing. -/
theorem C132_order (cs ds : List (Cluster P D)) (h : cs.Perm ds) (occ : List Int) :
    (attached cs).clusterFunction (K := K) occ = (attached ds).clusterFunction occ := by
  rcases eq_or_ne cs [] with rfl | hcs
  · rw [List.nil_perm.1 h]
  have hds : ds ≠ [] := by rintro rfl; exact hcs (List.perm_nil.1 h)
  have ne : ∀ l : List (Cluster P D), l ≠ [] → (attached l).multiplicity ≠ 0 := by
    intro l hl
    rw [attached_eq]
    simpa [Orbit.ofClusters] using hl
  rw [clusterFunction_eq occ _ (ne cs hcs), clusterFunction_eq occ _ (ne ds hds)]
  simp only [attached_eq, Orbit.ofClusters, Orbit.clusterSiteIndices, h.length_eq]
  by_cases hr : ∀ c ∈ cs, LCE.Readable occ c.siteIndices
  · have g : ∀ l : List (Cluster P D), (∀ c ∈ l, LCE.Readable occ c.siteIndices) →
        Gives occ (l.map Cluster.siteIndices) (fun s => (match pyGet occ s with | .ok v => v | .error _ => 0)) := by
      intro l hl c hc s hs
      obtain ⟨c', h1, rfl⟩ := List.mem_map.1 hc
      obtain ⟨v, hv⟩ := hl c' h1 s hs
      simp only [hv]
    rw [orbitSum_gives (g cs hr), orbitSum_gives (g ds fun c hc => hr c (h.mem_iff.2 hc))]
    simp only [((h.map _).map _).sum_eq]
  · have bad : ∀ l : List (Cluster P D), (¬ ∀ c ∈ l, LCE.Readable occ c.siteIndices) →
        LCE.orbitSum (K := K) occ (l.map Cluster.siteIndices) 0 = .error .indexError := by
      intro l hl
      cases ho : LCE.orbitSum (K := K) occ (l.map Cluster.siteIndices) 0 with
      | ok v =>
        exact absurd (fun c hc => LCE.orbitSum_readable _ _ _ ho _ (List.mem_map_of_mem hc)) hl
      | error e => rw [LCE.orbitSum_error _ _ _ ho]
    rw [bad cs hr, bad ds fun hd => hr fun c hc => hd c (h.mem_iff.1 hc)]

/-- C132.  A new orbit has no function: the call raises `ZeroDivisionError`, whatever the occupation. -/
theorem C132_empty (occ : List Int) :
    (attached ([] : List (Cluster P D))).clusterFunction (K := K) occ = .error .zeroDivisionError := rfl

/-- C132.  An occupation in which a site of a cluster cannot be looked up is refused with `IndexError`; nothing else
is. -/
theorem C132_short_occupation (cs : List (Cluster P D)) (hcs : cs ≠ []) (occ : List Int) :
    ((∃ v, (attached cs).clusterFunction (K := K) occ = .ok v) ↔
      ∀ c ∈ cs, ∀ s ∈ c.siteIndices, -(occ.length : Int) ≤ s ∧ s < occ.length) ∧
    ∀ e, (attached cs).clusterFunction (K := K) occ = .error e → e = .indexError := by
  have hm : (attached cs).multiplicity ≠ 0 := by
    rw [attached_eq]
    simpa [Orbit.ofClusters] using hcs
  have hread : ∀ s : Int, (∃ v, pyGet occ s = .ok v) ↔ -(occ.length : Int) ≤ s ∧ s < occ.length := by
    intro s
    cases hs : pyGet occ s with
    | ok v =>
      obtain ⟨k, hk, -⟩ := pyGet_ok_iff.1 hs
      simp only [Except.ok.injEq, exists_eq', true_iff]
      simp only [pyIdx] at hk
      split_ifs at hk <;> omega
    | error e =>
      obtain ⟨hk, -⟩ := pyGet_error hs
      simp only [reduceCtorEq, exists_false, false_iff]
      simp only [pyIdx] at hk
      split_ifs at hk <;> omega
  rw [clusterFunction_eq occ _ hm]
  have e : (attached cs).clusterSiteIndices = cs.map Cluster.siteIndices := by rw [attached_eq]; rfl
  rw [e]
  cases ho : LCE.orbitSum (K := K) occ (cs.map Cluster.siteIndices) 0 with
  | ok v =>
    simp only [Except.ok.injEq, exists_eq', true_iff, reduceCtorEq, false_imp_iff, implies_true, and_true]
    intro c hc s hs
    exact (hread s).1 (LCE.orbitSum_readable _ _ _ ho _ (List.mem_map_of_mem hc) s hs)
  | error x =>
    simp only [reduceCtorEq, exists_false, false_iff, Except.error.injEq, forall_eq']
    refine ⟨fun hall => ?_, LCE.orbitSum_error _ _ _ ho⟩
    obtain ⟨p, hp⟩ := LCE.orbitSum_total (K := K) (occ := occ) (cs.map Cluster.siteIndices) 0 (by
      intro c hc
      obtain ⟨c', h1, rfl⟩ := List.mem_map.1 hc
      exact fun s hs => (hread s).2 (hall c' h1 s hs))
    rw [ho] at hp
    cases hp

end

section
variable {P D K L : Type} [Field K] [CharZero K] [LinearOrder L]

/-- C132.  The correlations that a built expansion without state indices computes are the functions of its orbits,
in the order of the orbits, times their multiplicities: the numbers that one can check by hand, orbit by orbit, are
the ones the energies are made of. -/
theorem C132_expansion (dist : P → P → D) (sym : List (String × P) → String) (h : Digests P D)
    (ml : List Nat → L) (mt : List Nat → List Nat → Bool) (b : Basis) (hb : b.usesStateIndices = false)
    (sites : List (String × P)) (counts : List Nat) (pc : L) (cc : List L) (m : Expansion K P D)
    (hm : Expansion.build dist sym h ml mt b sites counts pc cc = .ok m) :
    ∃ os, m.orbits = some os ∧ (∀ o ∈ os, 0 < o.multiplicity ∧ o.multiplicity = o.clusters.length) ∧
      ∀ occ vs, (m.core h).calculateCorrelation occ = .ok vs ↔
        List.Forall₂ (fun o v => ∃ w, o.clusterFunction (K := K) occ = .ok w ∧ v = (o.multiplicity : K) * w) os vs := by
  simp only [Expansion.build] at hm
  split at hm
  · cases hm
  rename_i clusters hcl
  split at hm
  · cases hm
  rename_i c hc
  obtain rfl := (Except.ok.inj hm).symm
  have hb' : (b.siteBasis K).usesStateIndices = false := hb
  simp only [LCE.configureCorrelationTerms, hb', Bool.false_eq_true, if_false, Except.ok.injEq] at hc
  subst hc
  have hne := buildOrbits_ne_nil (LCE.clusterEq (geometry dist sym h sites ml mt)) clusters
  generalize LCE.buildOrbits (LCE.clusterEq (geometry dist sym h sites ml mt)) clusters = orbits at hne
  have hmul : ∀ o ∈ orbits, (orbitAt dist sym sites o).multiplicity ≠ 0 := by
    intro o ho
    simpa [orbitAt, Orbit.ofClusters] using hne o ho
  refine ⟨_, rfl, ?_, ?_⟩
  · intro o ho
    obtain ⟨o', h1, rfl⟩ := List.mem_map.1 ho
    have h2 := hne o' h1
    have h3 : 0 < o'.length := List.length_pos_of_ne_nil h2
    simp only [orbitAt, Orbit.ofClusters, List.length_map, and_true]
    exact_mod_cast h3
  · intro occ vs
    simp only [LCE.calculateCorrelation, Expansion.core, LCE.toIntClusters, LCE.calcCorr_iff, List.forall₂_map_left_iff]
    clear hcl
    induction orbits generalizing vs with
    | nil => simp
    | cons o os ih =>
      cases vs with
      | nil => simp
      | cons v vs =>
        rw [List.forall₂_cons, List.forall₂_cons,
          ih (fun o ho => hne o (List.mem_cons_of_mem _ ho)) (fun o ho => hmul o (List.mem_cons_of_mem _ ho))]
        refine and_congr_left fun _ => ?_
        have h0 := hmul o List.mem_cons_self
        have h0' : ((orbitAt dist sym sites o).multiplicity : K) ≠ 0 := by exact_mod_cast h0
        rw [clusterFunction_eq occ _ h0]
        have e : (orbitAt dist sym sites o).clusterSiteIndices = o.map fun c => c.map Int.ofNat := by
          simp [orbitAt, Orbit.ofClusters, Orbit.clusterSiteIndices, clusterAt]
        rw [e]
        cases LCE.orbitSum (K := K) occ (o.map fun c => c.map Int.ofNat) 0 with
        | error x => simp
        | ok s =>
          simp only [Except.ok.injEq, exists_eq_left']
          rw [mul_div_cancel₀ _ h0']
          exact eq_comm

/-- C132.  Writing an orbit and reading it back keeps its function. -/
theorem C132_reread (dist : P → P → D) (o o' : Orbit P D) (h : ∀ c ∈ o.clusters, FromPositions dist c)
    (hr : Orbit.fromDict dist o.asDict = .ok o') (occ : List Int) :
    o'.clusterFunction (K := K) occ = o.clusterFunction occ := by
  rw [C78_orbit dist o h] at hr
  cases hr
  rfl

/-- C132, negative result.  The multiplicity in a file is believed: with another number there, the orbit that is read
has another function, for every occupation for which the function was not zero. -/
theorem C132_stated_multiplicity (dist : P → P → D) (o : Orbit P D) (h : ∀ c ∈ o.clusters, FromPositions dist c)
    (hm : o.multiplicity ≠ 0) (n : Int) (hn : n ≠ 0) :
    ∃ o', Orbit.fromDict dist { o.asDict with multiplicity := some n } = .ok o' ∧
      ∀ occ v, o.clusterFunction (K := K) occ = .ok v →
        o'.clusterFunction (K := K) occ = .ok ((o.multiplicity : K) / n * v) := by
  have hr := C78_orbit dist o h
  simp only [Orbit.fromDict, Orbit.asDict, Option.getD_some] at hr ⊢
  split at hr
  · cases hr
  rename_i cs hcs
  have e : cs = o.clusters := by
    have := Except.ok.inj hr
    rw [← this]
  subst e
  refine ⟨_, rfl, ?_⟩
  intro occ v hv
  rw [clusterFunction_eq occ _ hm] at hv
  rw [clusterFunction_eq (o := ⟨o.clusters, n⟩) occ hn]
  have e2 : Orbit.clusterSiteIndices (⟨o.clusters, n⟩ : Orbit P D) = o.clusterSiteIndices := rfl
  rw [e2]
  have h0' : ((o.multiplicity : Int) : K) ≠ 0 := by exact_mod_cast hm
  cases ho : LCE.orbitSum (K := K) occ o.clusterSiteIndices 0 with
  | error x => rw [ho] at hv; cases hv
  | ok s =>
    rw [ho] at hv
    obtain rfl := Except.ok.inj hv
    simp only [Except.ok.injEq]
    field_simp

end

section
variable {P D K : Type} [Field K] [LinearOrder K] [IsStrictOrderedRing K]

/-- C132.  With occupations between `-1` and `1`, as in the occupation basis, the function of an orbit lies between
`-1` and `1`, and it is `1` when all occupations are `1`. -/
theorem C132_bounds (cs : List (Cluster P D)) (hcs : cs ≠ []) (occ : List Int) (hocc : ∀ v ∈ occ, |v| ≤ 1)
    (w : K) (hw : (attached cs).clusterFunction occ = .ok w) :
    |w| ≤ 1 ∧ ((∀ v ∈ occ, v = 1) → w = 1) := by
  obtain ⟨hread, -⟩ := C132_short_occupation (K := K) cs hcs occ
  have hread := hread.1 ⟨w, hw⟩
  set x : Int → Int := fun s => match pyGet occ s with | .ok v => v | .error _ => 1 with hx
  have hmem : ∀ s v, pyGet occ s = .ok v → v ∈ occ := by
    intro s v hs
    obtain ⟨k, -, hk⟩ := pyGet_ok_iff.1 hs
    exact List.mem_of_getElem? hk
  have hg : Gives occ (cs.map Cluster.siteIndices) x := by
    intro c hc s hs
    obtain ⟨c', h1, rfl⟩ := List.mem_map.1 hc
    have := hread c' h1 s hs
    cases hp : pyGet occ s with
    | ok v => simp [hx, hp]
    | error e =>
      obtain ⟨hk, -⟩ := pyGet_error hp
      simp only [pyIdx] at hk
      split_ifs at hk <;> omega
  have hlen : (0 : K) < (cs.map Cluster.siteIndices).length := by
    have := List.length_pos_of_ne_nil hcs
    simpa using this
  rw [C132_mean cs hcs occ x hg] at hw
  obtain rfl := Except.ok.inj hw
  have hone : ∀ s, |(x s : K)| ≤ 1 := by
    intro s
    have : |x s| ≤ 1 := by
      simp only [hx]
      cases hp : pyGet occ s with
      | ok v => exact hocc v (hmem s v hp)
      | error e => simp
    exact_mod_cast this
  have habs : ∀ c : List Int, |(c.map fun s => (x s : K)).prod| ≤ 1 := by
    intro c
    induction c with
    | nil => simp
    | cons s c ih =>
      rw [List.map_cons, List.prod_cons, abs_mul]
      exact mul_le_one₀ (hone s) (abs_nonneg _) ih
  refine ⟨?_, ?_⟩
  · rw [meanProduct, abs_div, abs_of_pos hlen, div_le_one hlen]
    generalize cs.map Cluster.siteIndices = l
    induction l with
    | nil => simp
    | cons c l ih =>
      rw [List.map_cons, List.sum_cons, List.length_cons]
      calc _ ≤ |(c.map fun s => (x s : K)).prod| + |(l.map fun c => (c.map fun s => (x s : K)).prod).sum| :=
            abs_add_le _ _
        _ ≤ _ := by push_cast; linarith [habs c]
  · intro h1
    have hx1 : ∀ s, x s = 1 := by
      intro s
      simp only [hx]
      cases hp : pyGet occ s with
      | ok v => exact h1 v (hmem s v hp)
      | error e => rfl
    rw [meanProduct, div_eq_one_iff_eq hlen.ne']
    generalize cs.map Cluster.siteIndices = l
    induction l with
    | nil => simp
    | cons c l ih => rw [List.map_cons, List.sum_cons, ih]; simp [hx1, add_comm]

end

/-- The hypotheses can be met: two pairs of sites, occupation `1, -1, 1`; the products are `-1` and `1`. -/
example : (attached [⟨[0, 1], ["Na", "Na"], [0, 1], ["", ""], [[0, 1], [1, 0]], "C1"⟩,
      ⟨[0, 2], ["Na", "Na"], [0, 2], ["", ""], [[0, 2], [2, 0]], "C1"⟩] : Orbit ℚ ℚ).clusterFunction (K := ℚ) [1, -1, 1]
    = .ok 0 := by
  decide +kernel

/-- C132, negative result.  In the Chebyshev basis, whose occupations are state numbers, the functions of the orbits
are products of state numbers and not the correlations: for one site with two states, in state `0`, the orbit says
`0` and the expansion `-1`. -/
theorem C132_state_numbers_differ : ∃ (h : Digests ℚ ℚ) (m : Expansion ℚ ℚ ℚ) (o : Orbit ℚ ℚ),
    Expansion.build (fun a b => |a - b|) (fun _ => "C1") h (fun _ => (0 : ℚ)) (fun _ _ => true) (.chebyshev 2)
      [("Na", 0)] [2] 10 [6, 6, 6] = .ok m ∧ m.orbits = some [o] ∧ o.clusterFunction (K := ℚ) [0] = .ok 0 ∧
      (m.core h).calculateCorrelation [0] = .ok [-1] :=
  ⟨⟨fun _ => "", fun _ _ _ => "", fun _ => ""⟩, _, _, rfl, rfl, by decide +kernel, by decide +kernel⟩

/-- The hypotheses of `C132_expansion` can be met: three sites and cutoffs for pairs, triplets and quadruplets. -/
example (dist : ℝ → ℝ → ℝ) (sym : List (String × ℝ) → String) (h : Digests ℝ ℝ) (ml : List Nat → ℝ)
    (mt : List Nat → List Nat → Bool) (b : Basis) :
    ∃ m, Expansion.build (K := ℝ) dist sym h ml mt b [("Na", 0), ("Na", 1), ("Si", 2)] [2, 2, 2] 10 [6, 6, 6] = .ok m :=
  let ⟨m, hm, _⟩ := fitted_exists dist h sym ml mt b [("Na", 0), ("Na", 1), ("Si", 2)] [2, 2, 2] (by simp) 10 [6, 6, 6]
    (by simp)
  ⟨m, hm⟩

end KMC
