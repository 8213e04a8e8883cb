import Verif.Spec.LatticeGas
import Verif.Props.FrequencyProps
import Verif.Props.RandomWalkProps
/-
Lemmas about ions that only block each other.
-/
set_option linter.unusedSectionVars false

namespace KMC
open Spec MeasureTheory Filter Topology ProbabilityTheory

theorem indicator_true {p : Prop} (hp : p) : indicator p = 1 := by unfold indicator; rw [if_pos hp]
theorem indicator_false {p : Prop} (hp : ¬ p) : indicator p = 0 := by unfold indicator; rw [if_neg hp]

theorem sum_list_range {M : Type} [AddCommMonoid M] (l : List Event) (n : Nat) (F : Nat → Event → M) :
    (l.map fun e => ∑ k ∈ Finset.range n, F k e).sum = ∑ k ∈ Finset.range n, (l.map (F k)).sum := by
  induction l with
  | nil => simp
  | cons e l ih => simp only [List.map_cons, List.sum_cons, ih, Finset.sum_add_distrib]

section
variable {σ φ ψ : Type}
variable {o : ActiveSiteOrder String ψ} {mobile : String} {h : HopStateLookup}
  {m : RateModel Unit ℝ EReal} {g : Geometry ℝ} {lib : EventLib σ φ} {st : State EReal}
  {s0 : Sim σ φ Unit ℝ EReal} {v : Event → Vec3 ℝ} {a ν : ℝ} {z : Nat} {S : Nat → Prop}

/-- The ends of a hop are two different sites of the network. -/
theorem gas_ends (hs : HopSystem o mobile h Rounding.exact m g lib st)
    (hi : Sim.init (realKernel Rounding.exact) m lib.generateEventDependencies (some h) (some st) = .ok s0)
    (hn : Network o mobile lib.events st.occ S)
    (hl : LatticeGas o mobile m g s0 v a ν z S) {e : Event} (he : e ∈ s0.lib.events) :
    ∃ f t : Nat, e.mobile = [(f : Int), (t : Int)] ∧ f ≠ t ∧ f < st.occ.length ∧ t < st.occ.length ∧ S f ∧ S t := by
  obtain ⟨f, t, hf, ht, hm', hall, -⟩ := event_facts hs hi he
  obtain ⟨x, hx, hmx, -⟩ := running_event hi he
  obtain ⟨sf, stt⟩ := hn.ends x hx f t (by rw [← hmx, hm'])
  refine ⟨f, t, hm', ?_, hf, ht, sf, stt⟩
  rintro rfl
  obtain ⟨f', t', pf, pt, n, e1, e2, e3, e4, e5⟩ := hl.vector e he
  rw [hm'] at e1
  simp only [List.cons.injEq, Nat.cast_inj, and_true] at e1
  obtain ⟨rfl, rfl⟩ := e1
  rw [e2] at e3
  cases e3
  have hn : ∀ c, n c = 0 := by
    intro c
    have := e4 c
    rw [sub_self, zero_add, abs_lt] at this
    have a1 : (-1 : ℝ) < n c := by linarith [this.1]
    have a2 : (n c : ℝ) < 1 := by linarith [this.2]
    have b1 : -1 < n c := by exact_mod_cast a1
    have b2 : n c < 1 := by exact_mod_cast a2
    omega
  have hv0 : v e = 0 := by
    rw [e5]
    have : (fun c => pf c - pf c + (n c : ℝ)) = 0 := by
      funext c; simp [hn c]
    rw [this, Matrix.zero_vecMul]
  have := hl.length e he
  rw [hv0] at this
  have h0 : sqLen (0 : Vec3 ℝ) = 0 := by simp [sqLen]
  rw [h0] at this
  exact (pow_pos hl.positive.1 2).ne this

/-- The sum of the ways out of the sites that `n` marks, along one event. -/
theorem sum_wayOut {e : Event} {f t L : Nat} (h1 : e.mobile = [(f : Int), (t : Int)]) (hne : f ≠ t) (hf : f < L)
    (ht : t < L) (v : Event → Vec3 ℝ) (n : Nat → ℝ) :
    ∑ k ∈ Finset.range L, n k • wayOut v k e = (n f - n t) • v e := by
  have hw : ∀ k, wayOut v k e = if f = k then v e else if t = k then -v e else 0 := by
    intro k
    unfold wayOut
    rw [h1]
    simp only [Nat.cast_inj]
  rw [Finset.sum_eq_add f t hne]
  · rw [hw f, hw t, if_pos rfl, if_neg hne, if_pos rfl, smul_neg, ← sub_eq_add_neg, sub_smul]
  · intro c _ hc
    rw [hw c, if_neg (Ne.symm hc.1), if_neg (Ne.symm hc.2), smul_zero]
  · intro hno; exact absurd (Finset.mem_range.2 hf) hno
  · intro hno; exact absurd (Finset.mem_range.2 ht) hno

/-- The rate and the way of an event, in terms of the sites that hold an ion. -/
theorem gas_event (hs : HopSystem o mobile h Rounding.exact m g lib st)
    (hi : Sim.init (realKernel Rounding.exact) m lib.generateEventDependencies (some h) (some st) = .ok s0)
    (hl : LatticeGas o mobile m g s0 v a ν z S)
    {x : State EReal} (hw : WellLabelled o mobile x.occ)
    (hfill : ∀ i, S i → speciesAt o x.occ i = some mobile ∨ Vacant o x.occ i)
    {e : Event} (he : e ∈ s0.lib.events) {f t : Nat} (h1 : e.mobile = [(f : Int), (t : Int)])
    (sf : S f) (stt : S t) :
    rateIn m x e = ν * (indicator (speciesAt o x.occ f = some mobile) *
        (1 - indicator (speciesAt o x.occ t = some mobile)) +
      indicator (speciesAt o x.occ t = some mobile) * (1 - indicator (speciesAt o x.occ f = some mobile))) ∧
    rateIn m x e • wayOf o mobile v x.occ e = (ν * (indicator (speciesAt o x.occ f = some mobile) -
      indicator (speciesAt o x.occ t = some mobile))) • v e := by
  have hlen : x.occ.length = st.occ.length := hw.length.trans hs.labelled.length.symm
  have hway : wayOf o mobile v x.occ e = if speciesAt o x.occ f = some mobile then v e
      else if speciesAt o x.occ t = some mobile then -v e else 0 := by
    unfold wayOf
    rw [h1]
    simp only [Int.toNat_natCast]
  have hz : ¬ (speciesAt o x.occ f = some mobile ∧ Vacant o x.occ t) →
      ¬ (speciesAt o x.occ t = some mobile ∧ Vacant o x.occ f) → rateIn m x e = 0 := by
    intro k1 k2
    obtain ⟨f', t', g1, -, -, -, d, g2, g3, g4, g5⟩ := direction_species hs hi hlen hw he
    rw [h1] at g1
    simp only [List.cons.injEq, Nat.cast_inj, and_true] at g1
    obtain ⟨rfl, rfl⟩ := g1
    have hd : d = 0 := by
      rcases g5 with rfl | rfl | rfl
      · exact absurd (g3.1 rfl) k1
      · exact absurd (g4.1 rfl) k2
      · rfl
    subst hd
    unfold rateIn
    cases hc : m.computeProbability () e x with
    | error x => rfl
    | ok p => exact hs.forbidden e x p g2 hc
  have nv : ∀ i, speciesAt o x.occ i = some mobile → ¬ Vacant o x.occ i := fun i h1 h2 =>
    not_vacant_mobile hw h2 h1
  have vn : ∀ i, Vacant o x.occ i → ¬ speciesAt o x.occ i = some mobile := fun i h2 => not_vacant_mobile hw h2
  rcases hfill f sf with hf | hf <;> rcases hfill t stt with ht | ht
  · rw [hz (fun k => nv t ht k.2) (fun k => nv f hf k.2), indicator_true hf, indicator_true ht]
    simp
  · rw [hl.rate x hw e he f t h1 (.inl ⟨hf, ht⟩), indicator_true hf, indicator_false (vn t ht), hway, if_pos hf]
    simp
  · rw [hl.rate x hw e he f t h1 (.inr ⟨ht, hf⟩), indicator_true ht, indicator_false (vn f hf), hway,
      if_neg (vn f hf), if_pos ht]
    simp
  · rw [hz (fun k => vn f hf k.1) (fun k => vn t ht k.1), indicator_false (vn f hf), indicator_false (vn t ht)]
    simp

/-- What a configuration that the simulation gets into looks like. -/
theorem gas_reached (hs : HopSystem o mobile h Rounding.exact m g lib st)
    (ha : Answers o mobile m lib.events st.occ)
    (hi : Sim.init (realKernel Rounding.exact) m lib.generateEventDependencies (some h) (some st) = .ok s0)
    (hn : Network o mobile lib.events st.occ S) {s : Sim σ φ Unit ℝ EReal} (hr : Reaches m s0 s) :
    Network o mobile lib.events s.st.occ S := by
  have hst : s0.st = st := by
    obtain ⟨i1, -⟩ := init_ok hi
    exact (Option.some.inj i1).symm
  induction hr with
  | refl => rw [hst]; exact hn
  | tail hu hnx ih =>
    have hmu := met_reaches hs ha hi (met_start hs hi) hu
    obtain ⟨-, k, e, he, ⟨f, t, hm, hex⟩, -⟩ := met_next hs ha hi hmu hnx
    obtain ⟨x, hx, hmx, -⟩ := running_event hi (List.mem_of_getElem? he)
    rw [hm] at hmx
    obtain ⟨f', t', h1, h2⟩ := hs.endpoints x hx
    rw [← hmx] at h1
    simp only [List.cons.injEq, Nat.cast_inj, and_true] at h1
    obtain ⟨rfl, rfl⟩ := h1
    exact network_step ih ⟨x, hx, .inl hmx.symm⟩ h2 hex

theorem gas_unbiased (hs : HopSystem o mobile h Rounding.exact m g lib st)
    (ha : Answers o mobile m lib.events st.occ) (hw : Willing m)
    (hi : Sim.init (realKernel Rounding.exact) m lib.generateEventDependencies (some h) (some st) = .ok s0)
    (hn : Network o mobile lib.events st.occ S)
    (hl : LatticeGas o mobile m g s0 v a ν z S) : Unbiased o mobile m g s0 v a := by
  refine ⟨hl.vector, hl.length, ?_, ?_⟩
  · intro s hr
    have hm := met_reaches hs ha hi (met_start hs hi) hr
    exact network_not_stuck hs ha hi hw hm.inv hm.perm (gas_reached hs ha hi hn hr)
  · intro s hr
    have hm := met_reaches hs ha hi (met_start hs hi) hr
    have hns := gas_reached hs ha hi hn hr
    have key : ∀ e ∈ s0.lib.events, rateIn m s.st e • wayOf o mobile v s.st.occ e =
        ∑ k ∈ Finset.range st.occ.length,
          (ν * indicator (speciesAt o s.st.occ k = some mobile)) • wayOut v k e := by
      intro e he
      obtain ⟨f, t, h1, hne, hf, ht, sf, stt⟩ := gas_ends hs hi hn hl he
      rw [(gas_event hs hi hl hm.inv.labelled hns.filled he h1 sf stt).2, sum_wayOut h1 hne hf ht, mul_sub]
    rw [List.map_congr_left key, sum_list_range]
    refine Finset.sum_eq_zero fun k hk => ?_
    rw [sum_smul_vec]
    by_cases sk : S k
    · rw [hl.cancel k sk, smul_zero]
    · have : (s0.lib.events.map (wayOut v k)).sum = 0 := by
        refine List.sum_eq_zero fun w hw' => ?_
        obtain ⟨e, he, rfl⟩ := List.mem_map.1 hw'
        obtain ⟨f, t, h1, hne, hf, ht, sf, stt⟩ := gas_ends hs hi hn hl he
        unfold wayOut
        rw [h1]
        simp only [Nat.cast_inj]
        rw [if_neg (by rintro rfl; exact sk sf), if_neg (by rintro rfl; exact sk stt)]
      rw [this, smul_zero]

theorem gas_balanced (hs : HopSystem o mobile h Rounding.exact m g lib st)
    (hi : Sim.init (realKernel Rounding.exact) m lib.generateEventDependencies (some h) (some st) = .ok s0)
    (hl : LatticeGas o mobile m g s0 v a ν z S) : Balanced o mobile m s0.lib.events fun _ => 1 := by
  intro e he x x' dt d p p' hw hd hd0 happ hp hp'
  have poss : ∀ (y : State EReal) (c : Int) (q : ℝ), WellLabelled o mobile y.occ → eventDirection y.occ e = .ok c →
      c ≠ 0 → m.computeProbability () e y = .ok q → q = ν := by
    intro y c q hy hc hc0 hq
    have hlen : y.occ.length = st.occ.length := hy.length.trans hs.labelled.length.symm
    obtain ⟨f, t, g1, -, -, -, d', g2, g3, g4, g5⟩ := direction_species hs hi hlen hy he
    rw [g2] at hc
    obtain rfl := Except.ok.inj hc
    have := hl.rate y hy e he f t g1 (by
      rcases g5 with rfl | rfl | rfl
      · exact .inl (g3.1 rfl)
      · exact .inr (g4.1 rfl)
      · exact absurd rfl hc0)
    unfold rateIn at this
    rw [hq] at this
    exact this
  have hlen : x.occ.length = st.occ.length := hw.length.trans hs.labelled.length.symm
  obtain ⟨c, hc, hc1, hc2, hc3⟩ := event_twoWay hs hi he hw hlen hd hd0
  have hrev := C13_hop_reverses_direction x x' e dt d c hc hc1 hc2 hc3 hd hd0 happ
  have hw' : WellLabelled o mobile x'.occ := by
    obtain ⟨f, t, g1, g2, g3, g4, -⟩ := direction_species hs hi hlen hw he
    obtain ⟨f', t', i', j', hi', hj', he', h1, h2, rfl⟩ := applyEvent_ok happ
    rw [g1] at he'
    simp only [List.cons.injEq, and_true] at he'
    obtain ⟨rfl, rfl⟩ := he'
    rw [pyIdx_natCast g2] at h1
    rw [pyIdx_natCast g3] at h2
    cases h1; cases h2
    exact wellLabelled_exchange hw g2 g3 g4 (set_set_exchanged hi' hj')
  rw [poss x d p hw hd hd0 hp, poss x' (-d) p' hw' hrev (by omega) hp']

open Classical in
/-- The sites of the network. -/
noncomputable def networkSites (n : Nat) (S : Nat → Prop) : Finset Nat := (Finset.range n).filter fun k => S k

theorem mem_networkSites {n k : Nat} : k ∈ networkSites n S ↔ k < n ∧ S k := by
  classical
  simp only [networkSites, Finset.mem_filter, Finset.mem_range]

theorem networkSites_card (n : Nat) (S : Nat → Prop) : (networkSites n S).card = countSites n S fun _ => True := by
  classical
  unfold networkSites countSites
  congr 1
  ext k
  simp only [Finset.mem_filter, and_true]

theorem networkSites_sum (n : Nat) (S p : Nat → Prop) :
    ∑ k ∈ networkSites n S, indicator (p k) = countSites n S p := by
  unfold networkSites countSites indicator
  rw [← Finset.filter_filter, Finset.card_filter]
  push_cast
  exact Finset.sum_congr rfl fun k _ => by congr

theorem network_lt {occ : List Int} {events : List Event} (hn : Network o mobile events occ S) :
    ∀ k, S k → k < occ.length := by
  intro k hk
  by_contra hno
  have : speciesAt o occ k = none := by
    unfold speciesAt
    rw [List.getElem?_eq_none (by omega)]
  rcases hn.filled k hk with h1 | ⟨v, -, h1⟩ <;> rw [this] at h1 <;> cases h1

/-- A sum over all arrangements does not change when two sites of the network change places. -/
theorem gas_swap (hs : HopSystem o mobile h Rounding.exact m g lib st)
    (hn : Network o mobile lib.events st.occ S) {Ω : Finset (List Int)}
    (harr : ∀ x, x ∈ Ω ↔ SameComposition x st.occ ∧ ∀ i, ¬ S i → x[i]? = st.occ[i]?)
    {i j : Nat} (si : S i) (sj : S j) (G : (Nat → ℝ) → ℝ) :
    ∑ x ∈ Ω, G (fun k => indicator (speciesAt o x (Equiv.swap i j k) = some mobile)) =
      ∑ x ∈ Ω, G (fun k => indicator (speciesAt o x k = some mobile)) := by
  have hlt := network_lt hn
  have hall := connected_allowed hs (hn.connected i j si sj)
  let sw : List Int → List Int := fun x => (x.set i (x.getD j 0)).set j (x.getD i 0)
  have hsw : ∀ x, x ∈ Ω → Exchanged i j x (sw x) := by
    intro x hx
    have hlen : x.length = st.occ.length := ((harr x).1 hx).1.1
    have h1 : i < x.length := by rw [hlen]; exact hlt i si
    have h2 : j < x.length := by rw [hlen]; exact hlt j sj
    have := set_set_exchanged (l := x) h1 h2
    simpa [sw, List.getD_eq_getElem?_getD, h1, h2] using this
  have hmem : ∀ x, x ∈ Ω → sw x ∈ Ω := by
    intro x hx
    obtain ⟨hcomp, hfix⟩ := (harr x).1 hx
    have hlen : x.length = st.occ.length := hcomp.1
    refine (harr _).2 ⟨?_, ?_⟩
    · have hp := exchanged_perm (by rw [hlen]; exact hlt i si) (by rw [hlen]; exact hlt j sj) (hsw x hx)
      exact sameComposition_iff_perm.2 (hp.trans (sameComposition_iff_perm.1 hcomp))
    · intro k hk
      rw [(hsw x hx).2.2.2 k (by rintro rfl; exact hk si) (by rintro rfl; exact hk sj)]
      exact hfix k hk
  have hinv : ∀ x, x ∈ Ω → sw (sw x) = x := by
    intro x hx
    have h1 := hsw x hx
    have h2 := hsw _ (hmem x hx)
    refine exchanged_unique h2 ⟨h1.1.symm, h1.2.2.1.symm, h1.2.1.symm, fun k a b => (h1.2.2.2 k a b).symm⟩
  refine Finset.sum_bij' (fun x _ => sw x) (fun x _ => sw x) hmem hmem hinv hinv ?_
  intro x hx
  congr 1
  funext k
  have := exchanged_species (hsw x hx) hall (Equiv.swap i j k)
  rw [Equiv.swap_apply_self] at this
  rw [this]

/-- An ion on the first of two sites and none on the second: equally often for all pairs of sites. -/
theorem gas_pair (hs : HopSystem o mobile h Rounding.exact m g lib st)
    (hn : Network o mobile lib.events st.occ S) {Ω : Finset (List Int)}
    (harr : ∀ x, x ∈ Ω ↔ SameComposition x st.occ ∧ ∀ i, ¬ S i → x[i]? = st.occ[i]?)
    {i j k l : Nat} (si : S i) (sj : S j) (sk : S k) (sl : S l) (hij : i ≠ j) (hkl : k ≠ l) :
    ∑ x ∈ Ω, indicator (speciesAt o x i = some mobile) * (1 - indicator (speciesAt o x j = some mobile)) =
      ∑ x ∈ Ω, indicator (speciesAt o x k = some mobile) * (1 - indicator (speciesAt o x l = some mobile)) := by
  have h1 := gas_swap hs hn harr si sk fun n => n i * (1 - n j)
  simp only [Equiv.swap_apply_left] at h1
  rw [← h1]
  have hne : k ≠ Equiv.swap i k j := by
    intro h
    have := congrArg (Equiv.swap i k) h
    rw [Equiv.swap_apply_right, Equiv.swap_apply_self] at this
    exact hij this
  have hsj : S (Equiv.swap i k j) := by
    by_cases h2 : j = k
    · subst h2; rw [Equiv.swap_apply_right]; exact si
    · rw [Equiv.swap_apply_of_ne_of_ne (Ne.symm hij) h2]; exact sj
  have h3 := gas_swap hs hn harr hsj sl fun n => n k * (1 - n (Equiv.swap i k j))
  simp only [Equiv.swap_apply_left, Equiv.swap_apply_of_ne_of_ne hne hkl] at h3
  exact h3.symm

theorem network_counts {occ : List Int} {events : List Event} (hw : WellLabelled o mobile occ)
    (hn : Network o mobile events occ S) (n : Nat) :
    countSites n S (fun k => speciesAt o occ k = some mobile) + countSites n S (fun k => Vacant o occ k) =
      countSites n S fun _ => True := by
  classical
  simp only [countSites]
  rw [← Finset.card_union_of_disjoint]
  · congr 1
    ext k
    simp only [Finset.mem_union, Finset.mem_filter, Finset.mem_range, and_true]
    constructor
    · rintro (⟨h1, h2, -⟩ | ⟨h1, h2, -⟩) <;> exact ⟨h1, h2⟩
    · rintro ⟨h1, h2⟩
      exact (hn.filled k h2).imp (fun h3 => ⟨h1, h2, h3⟩) (fun h3 => ⟨h1, h2, h3⟩)
  · rw [Finset.disjoint_left]
    intro k h1 h2
    exact not_vacant_mobile hw (Finset.mem_filter.1 h2).2.2 (Finset.mem_filter.1 h1).2.2

/-- The number of ions on the network is the same in every configuration that the simulation gets into. -/
theorem gas_count (hs : HopSystem o mobile h Rounding.exact m g lib st)
    (ha : Answers o mobile m lib.events st.occ)
    (hi : Sim.init (realKernel Rounding.exact) m lib.generateEventDependencies (some h) (some st) = .ok s0)
    (hn : Network o mobile lib.events st.occ S) {s : Sim σ φ Unit ℝ EReal} (hr : Reaches m s0 s) :
    countSites st.occ.length S (fun k => speciesAt o s.st.occ k = some mobile) =
      countSites st.occ.length S (fun k => speciesAt o st.occ k = some mobile) := by
  have hst : s0.st = st := by
    obtain ⟨i1, -⟩ := init_ok hi
    exact (Option.some.inj i1).symm
  have hlt := network_lt hn
  induction hr with
  | refl => rw [hst]
  | tail hu hnx ih =>
    rw [← ih]
    have hmu := met_reaches hs ha hi (met_start hs hi) hu
    obtain ⟨-, k, e, he, ⟨f, t, hm, hex⟩, -⟩ := met_next hs ha hi hmu hnx
    obtain ⟨x, hx, hmx, -⟩ := running_event hi (List.mem_of_getElem? he)
    rw [hm] at hmx
    obtain ⟨sf, stt⟩ := hn.ends x hx f t hmx.symm
    obtain ⟨f', t', h1, h2⟩ := hs.endpoints x hx
    rw [← hmx] at h1
    simp only [List.cons.injEq, Nat.cast_inj, and_true] at h1
    obtain ⟨rfl, rfl⟩ := h1
    exact exchanged_count hex h2 sf stt (hlt _ sf) (hlt _ stt)

/-- Every event has two ends: the ways out of the sites are twice the events. -/
theorem gas_ways (hs : HopSystem o mobile h Rounding.exact m g lib st)
    (hi : Sim.init (realKernel Rounding.exact) m lib.generateEventDependencies (some h) (some st) = .ok s0)
    (hn : Network o mobile lib.events st.occ S)
    (hl : LatticeGas o mobile m g s0 v a ν z S) :
    2 * (s0.lib.events.length : ℝ) = z * countSites st.occ.length S fun _ => True := by
  have h1 : ∀ k ∈ networkSites st.occ.length S,
      (s0.lib.events.map fun e => indicator ((k : Int) ∈ e.mobile)).sum = (z : ℝ) := by
    intro k hk
    have := sum_countP s0.lib.events (fun e => (k : Int) ∈ e.mobile) 1
    rw [hl.ways k (mem_networkSites.1 hk).2, mul_one] at this
    rw [← this]
    congr 1
    refine List.map_congr_left fun e _ => ?_
    unfold indicator
    congr
  have h2 : ∀ e ∈ s0.lib.events, ∑ k ∈ networkSites st.occ.length S, indicator ((k : Int) ∈ e.mobile) = 2 := by
    intro e he
    obtain ⟨f, t, h1, hne, hf, ht, sf, stt⟩ := gas_ends hs hi hn hl he
    rw [Finset.sum_eq_add f t hne]
    · rw [indicator_true (by simp [h1]), indicator_true (by simp [h1])]; norm_num
    · intro c _ hc
      exact indicator_false (by simp [h1, hc.1, hc.2])
    · intro hno; exact absurd (mem_networkSites.2 ⟨hf, sf⟩) hno
    · intro hno; exact absurd (mem_networkSites.2 ⟨ht, stt⟩) hno
  have h3 : ∀ l : List Event, (l.map fun e => ∑ k ∈ networkSites st.occ.length S, indicator ((k : Int) ∈ e.mobile)).sum =
      ∑ k ∈ networkSites st.occ.length S, (l.map fun e => indicator ((k : Int) ∈ e.mobile)).sum := by
    intro l
    induction l with
    | nil => simp
    | cons e l ih => simp only [List.map_cons, List.sum_cons, ih, Finset.sum_add_distrib]
  have h4 := h3 s0.lib.events
  rw [List.map_congr_left h2, Finset.sum_congr rfl h1, Finset.sum_const, networkSites_card, nsmul_eq_mul,
    List.map_const', List.sum_replicate, nsmul_eq_mul] at h4
  linarith

/-- The mean total rate over all arrangements. -/
theorem gas_mean_rate (hs : HopSystem o mobile h Rounding.exact m g lib st)
    (ha : Answers o mobile m lib.events st.occ) (hw : Willing m)
    (hi : Sim.init (realKernel Rounding.exact) m lib.generateEventDependencies (some h) (some st) = .ok s0)
    (hn : Network o mobile lib.events st.occ S)
    (hl : LatticeGas o mobile m g s0 v a ν z S)
    {Ω : Finset (List Int)} (hΩ : ∀ x, x ∈ Ω ↔ ∃ s, Reaches m s0 s ∧ s.st.occ = x) :
    (∑ x ∈ Ω, 1 * totalRate m s0.lib.events ⟨x, 0, 0⟩) / ∑ x ∈ Ω, (1 : ℝ) =
      ν * z * countSites st.occ.length S (fun k => speciesAt o st.occ k = some mobile) *
        countSites st.occ.length S (fun k => Vacant o st.occ k) /
        ((countSites st.occ.length S fun _ => True) - 1) := by
  classical
  have harr := fun x => (hΩ x).trans (C90_all_arrangements hs ha hw hi hn x)
  have hst : s0.st = st := by
    obtain ⟨i1, -⟩ := init_ok hi
    exact (Option.some.inj i1).symm
  obtain ⟨i, si, hion⟩ := hn.ion
  obtain ⟨j, sj, hvac⟩ := hn.vacancy
  have hij : i ≠ j := by
    rintro rfl
    exact not_vacant_mobile hs.labelled hvac hion
  set N : ℝ := ((countSites st.occ.length S (fun k => speciesAt o st.occ k = some mobile) : Nat) : ℝ) with hN
  set V : ℝ := ((countSites st.occ.length S (fun k => Vacant o st.occ k) : Nat) : ℝ) with hV
  set M : ℝ := ((countSites st.occ.length S fun _ => True : Nat) : ℝ) with hM
  set T := networkSites st.occ.length S with hT
  have hlt := network_lt hn
  have hMV : N + V = M := by
    rw [hN, hV, hM]
    exact_mod_cast network_counts hs.labelled hn _
  have hM2 : 2 ≤ M := by
    have h1 : ({i, j} : Finset Nat) ⊆ T := by
      intro k hk
      rw [Finset.mem_insert, Finset.mem_singleton] at hk
      rcases hk with rfl | rfl
      · exact mem_networkSites.2 ⟨hlt _ si, si⟩
      · exact mem_networkSites.2 ⟨hlt _ sj, sj⟩
    have h2 := Finset.card_le_card h1
    rw [Finset.card_pair hij, hT, networkSites_card] at h2
    rw [hM]; exact_mod_cast h2
  set A : ℝ := ∑ x ∈ Ω, indicator (speciesAt o x i = some mobile) *
    (1 - indicator (speciesAt o x j = some mobile)) with hA
  -- all pairs
  have hpairs : M * (M - 1) * A = Ω.card * (N * V) := by
    have e1 : ∑ k ∈ T, ∑ l ∈ T, ∑ x ∈ Ω, indicator (speciesAt o x k = some mobile) *
        (1 - indicator (speciesAt o x l = some mobile)) = Ω.card * (N * V) := by
      rw [Finset.sum_congr rfl fun k _ => Finset.sum_comm, Finset.sum_comm]
      have : ∀ x ∈ Ω, ∑ k ∈ T, ∑ l ∈ T, indicator (speciesAt o x k = some mobile) *
          (1 - indicator (speciesAt o x l = some mobile)) = N * V := by
        intro x hx
        obtain ⟨s, hr, rfl⟩ := (hΩ x).1 hx
        have hc := gas_count hs ha hi hn hr
        have h1 : ∑ k ∈ T, indicator (speciesAt o s.st.occ k = some mobile) = N := by
          rw [hT, networkSites_sum, hc]
        have h2 : ∑ k ∈ T, (1 - indicator (speciesAt o s.st.occ k = some mobile)) = V := by
          rw [Finset.sum_sub_distrib, h1, Finset.sum_const, nsmul_eq_mul, mul_one, hT, networkSites_card, ← hM]
          linarith
        rw [← Finset.sum_mul_sum, h1, h2]
      rw [Finset.sum_congr rfl this, Finset.sum_const, nsmul_eq_mul]
    have e2 : ∀ k ∈ T, ∑ l ∈ T, ∑ x ∈ Ω, indicator (speciesAt o x k = some mobile) *
        (1 - indicator (speciesAt o x l = some mobile)) = (M - 1) * A := by
      intro k hk
      rw [← Finset.add_sum_erase T _ hk]
      have h0 : ∑ x ∈ Ω, indicator (speciesAt o x k = some mobile) *
          (1 - indicator (speciesAt o x k = some mobile)) = 0 := by
        refine Finset.sum_eq_zero fun x _ => ?_
        by_cases hp : speciesAt o x k = some mobile
        · rw [indicator_true hp]; ring
        · rw [indicator_false hp]; ring
      rw [h0, zero_add]
      have h1 : ∀ l ∈ T.erase k, ∑ x ∈ Ω, indicator (speciesAt o x k = some mobile) *
          (1 - indicator (speciesAt o x l = some mobile)) = A := by
        intro l hlk
        obtain ⟨h2, h3⟩ := Finset.mem_erase.1 hlk
        exact gas_pair hs hn harr (mem_networkSites.1 hk).2 (mem_networkSites.1 h3).2 si sj (Ne.symm h2) hij
      rw [Finset.sum_congr rfl h1, Finset.sum_const, nsmul_eq_mul, Finset.card_erase_of_mem hk,
        Nat.cast_pred (Finset.card_pos.2 ⟨k, hk⟩), hT, networkSites_card]
    rw [Finset.sum_congr rfl e2, Finset.sum_const, nsmul_eq_mul, hT, networkSites_card, ← hM] at e1
    rw [← e1]; ring
  -- the total rate
  have htot : ∑ x ∈ Ω, totalRate m s0.lib.events ⟨x, 0, 0⟩ = s0.lib.events.length * (ν * (2 * A)) := by
    have h1 : ∀ l : List Event, (∀ e ∈ l, e ∈ s0.lib.events) →
        ∑ x ∈ Ω, totalRate m l ⟨x, 0, 0⟩ = l.length * (ν * (2 * A)) := by
      intro l
      induction l with
      | nil => intro _; simp [totalRate]
      | cons e l ih =>
        intro hsub
        have h2 : ∑ x ∈ Ω, rateIn m ⟨x, 0, 0⟩ e = ν * (2 * A) := by
          obtain ⟨f, t, h1, hne, hf, ht, sf, stt⟩ := gas_ends hs hi hn hl (hsub e (by simp))
          have h3 : ∀ x ∈ Ω, rateIn m ⟨x, 0, 0⟩ e = ν * (indicator (speciesAt o x f = some mobile) *
              (1 - indicator (speciesAt o x t = some mobile)) +
              indicator (speciesAt o x t = some mobile) * (1 - indicator (speciesAt o x f = some mobile))) := by
            intro x hx
            obtain ⟨s, hr, rfl⟩ := (hΩ x).1 hx
            have hm := met_reaches hs ha hi (met_start hs hi) hr
            exact (gas_event (x := ⟨s.st.occ, 0, 0⟩) hs hi hl hm.inv.labelled
              (gas_reached hs ha hi hn hr).filled (hsub e (by simp)) h1 sf stt).1
          rw [Finset.sum_congr rfl h3, ← Finset.mul_sum, Finset.sum_add_distrib,
            gas_pair hs hn harr sf stt si sj hne hij, gas_pair hs hn harr stt sf si sj (Ne.symm hne) hij]
          ring
        have h4 : ∀ x, totalRate m (e :: l) ⟨x, 0, 0⟩ = rateIn m ⟨x, 0, 0⟩ e + totalRate m l ⟨x, 0, 0⟩ := fun x => by
          simp [totalRate]
        rw [Finset.sum_congr rfl fun x _ => h4 x, Finset.sum_add_distrib, h2,
          ih fun e' he' => hsub e' (List.mem_cons_of_mem _ he'), List.length_cons]
        push_cast
        ring
    exact h1 _ fun _ he => he
  have hways := gas_ways hs hi hn hl
  rw [← hM] at hways
  have hC : (0 : ℝ) < Ω.card := by
    have : 0 < Ω.card := Finset.card_pos.2 ⟨s0.st.occ, (hΩ _).2 ⟨s0, .refl, rfl⟩⟩
    exact_mod_cast this
  simp only [one_mul, Finset.sum_const, nsmul_eq_mul, mul_one]
  rw [htot, div_eq_div_iff hC.ne' (by linarith)]
  calc (s0.lib.events.length : ℝ) * (ν * (2 * A)) * (M - 1)
      = ν * A * (M - 1) * (2 * s0.lib.events.length) := by ring
    _ = ν * z * (M * (M - 1) * A) := by rw [hways]; ring
    _ = _ := by rw [hpairs]; ring

end
end KMC
