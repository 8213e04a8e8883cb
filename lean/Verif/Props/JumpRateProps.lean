import Verif.Lemmas.JumpRate
import Verif.Props.ModelProgressProps
import Verif.Props.LocalBarrierMakeProps
/-
C115: how fast an ion jumps to a vacant neighbour, and how often a generated library lists a hop.
-/
set_option linter.unusedSectionVars false
namespace KMC
open Spec Generate MeasureTheory

section
variable {σ φ ψ K : Type} [Field K] [LinearOrder K] [FloorRing K]
variable {o : ActiveSiteOrder String ψ} {mobile : String} {h : HopStateLookup}
  {m : RateModel Unit ℝ EReal} {g : Geometry K} {lib : EventLib σ φ} {st : State EReal}
  {s0 : Sim σ φ Unit ℝ EReal}

/-- C115.  An ion on site `i` jumps to the vacant site `j` at the sum of the rates of the listed events between the
two sites, whichever of the two is listed first: an event acts in both directions. -/
theorem C115_rate_of_a_jump (hs : HopSystem o mobile h Rounding.exact m g lib st)
    (ha : Answers o mobile m lib.events st.occ)
    (hi : Sim.init (realKernel Rounding.exact) m lib.generateEventDependencies (some h) (some st) = .ok s0)
    {s : Sim σ φ Unit ℝ EReal} (hr : Reaches m s0 s) {i j : Nat} (hal : allowedAt o i = allowedAt o j)
    (hc : CanJump o mobile s.st.occ i j) {y : List Int} (hy : Exchanged i j s.st.occ y) (r1 r2 : ℝ)
    (h0 : 0 ≤ r1) (h1 : r1 < 1) :
    jumpRate m r1 r2 s y =
      ((s0.lib.events.filter fun e => e.mobile = [(i : Int), (j : Int)] ∨ e.mobile = [(j : Int), (i : Int)]).map
        (rateIn m s.st)).sum := by
  classical
  have hm := met_reaches hs ha hi (met_start hs hi) hr
  have hne := canJump_ne hs.labelled hc hal
  rw [jumpRate_flow hs ha hi hm y r1 r2 h0 h1, flow_list _ _ _ _ (rateIn m s.st) (met_table hm)]
  congr 2
  refine List.filter_congr fun e _ => ?_
  rw [decide_eq_decide]
  constructor
  · rintro ⟨f, t, hmob, hx⟩
    rcases exchanged_pair hy hne hx with ⟨rfl, rfl⟩ | ⟨rfl, rfl⟩
    · exact .inl hmob
    · exact .inr hmob
  · rintro (hmob | hmob)
    · exact ⟨i, j, hmob, hy⟩
    · obtain ⟨a, b, c, d⟩ := hy
      exact ⟨j, i, hmob, a, c, b, fun k k1 k2 => d k k2 k1⟩

/-- A list without repetitions, restricted to two entries that it has. -/
theorem filter_two {l : List (List Int)} (hn : l.Nodup) {a b : List Int} (hab : a ≠ b) (ha : a ∈ l) (hb : b ∈ l) :
    (l.filter fun x => x = a ∨ x = b).length = 2 := by
  have : (l.filter fun x => x = a ∨ x = b).Perm [a, b] := by
    rw [List.perm_ext_iff_of_nodup (hn.filter _) (by simp [hab])]
    intro x
    simp only [List.mem_filter, decide_eq_true_eq, List.mem_cons, List.not_mem_nil, or_false]
    constructor
    · exact fun h => h.2
    · rintro (rfl | rfl)
      · exact ⟨ha, .inl rfl⟩
      · exact ⟨hb, .inr rfl⟩
  rw [this.length_eq]; rfl

/-- A list without repetitions that has one of two entries, restricted to these. -/
theorem filter_one {l : List (List Int)} (hn : l.Nodup) {a b : List Int} (ha : a ∈ l) (hb : b ∉ l) :
    (l.filter fun x => x = a ∨ x = b).length = 1 := by
  have : (l.filter fun x => x = a ∨ x = b).Perm [a] := by
    rw [List.perm_ext_iff_of_nodup (hn.filter _) (by simp)]
    intro x
    simp only [List.mem_filter, decide_eq_true_eq, List.mem_cons, List.not_mem_nil, or_false]
    constructor
    · rintro ⟨h1, rfl | rfl⟩
      · rfl
      · exact absurd h1 hb
    · rintro rfl
      exact ⟨ha, .inl rfl⟩
  rw [this.length_eq]; rfl

/-- With one barrier for all events, a jump has the Arrhenius rate times the number of its listings. -/
theorem constant_jumpRate (b : ℚ) (name : String) (kB temp ν : ℝ) (hν : 0 < ν)
    (lookup : HopStateLookup.fromActiveSiteOrder o mobile = .ok h)
    (labelled : WellLabelled o mobile st.occ) (fit : IndicesFit st.occ.length lib.events)
    (endpoints : ∀ e ∈ lib.events, ∃ f t : Nat, e.mobile = [(f : Int), (t : Int)] ∧
      allowedAt o f = allowedAt o t)
    {lm : LocalBarrierModel} (hlm : LocalBarrierModel.constantBarrier (.float (.fin b)) name = .ok lm)
    (hi : Sim.init (realKernel Rounding.exact) (lm.rateModel kB temp ν) lib.generateEventDependencies (some h)
        (some st) = .ok s0)
    {s : Sim σ φ Unit ℝ EReal} (hr : Reaches (lm.rateModel kB temp ν) s0 s) {i j : Nat}
    (hal : allowedAt o i = allowedAt o j) (hc : CanJump o mobile s.st.occ i j) {y : List Int}
    (hy : Exchanged i j s.st.occ y) (r1 r2 : ℝ) (h0 : 0 ≤ r1) (h1 : r1 < 1) :
    jumpRate (lm.rateModel kB temp ν) r1 r2 s y =
      ((lib.events.map Event.mobile).filter fun x => x = [(i : Int), (j : Int)] ∨ x = [(j : Int), (i : Int)]).length *
        (ν * Real.exp (-b / (kB * temp))) := by
  have hlm' : lm = ⟨name, "barrier", "barrier_arrhenius", "barrier", [], some [("barrier", .fin b)], [], []⟩ := by
    have : LocalBarrierModel.constantBarrier (.float (.fin b)) name =
      .ok ⟨name, "barrier", "barrier_arrhenius", "barrier", [], some [("barrier", .fin b)], [], []⟩ := rfl
    rw [hlm] at this
    exact Except.ok.inj this
  let g : Geometry ℚ := ⟨List.replicate st.occ.length 0, 0, 0⟩
  have hs := C65_hop_system o mobile h lm kB temp ν g lib st hν.le (by simp [hlm']) lookup labelled fit endpoints
    (by simp [g])
  have ha : Answers o mobile (lm.rateModel kB temp ν) lib.events st.occ := by
    refine C85_local_barrier_answers lm kB temp ν lib.events st.occ (by rw [hlm']) ?_ fit ?_ ?_
    · rw [hlm']; exact ⟨⟨_, _, rfl, rfl, .inl ⟨b, rfl⟩⟩, by simp⟩
    · intro e he
      obtain ⟨f, t, h1, -⟩ := endpoints e he
      exact ⟨f, t, h1⟩
    · intro _ _ _ _ _ r hr
      simp [hlm'] at hr
  rw [C115_rate_of_a_jump hs ha hi hr hal hc hy r1 r2 h0 h1]
  have hm := met_reaches hs ha hi (met_start hs hi) hr
  have hrate : ∀ e ∈ s0.lib.events.filter (fun e => e.mobile = [(i : Int), (j : Int)] ∨
      e.mobile = [(j : Int), (i : Int)]), rateIn (lm.rateModel kB temp ν) s.st e = ν * Real.exp (-b / (kB * temp)) := by
    intro e he
    rw [List.mem_filter, decide_eq_true_eq] at he
    obtain ⟨he, hmob⟩ := he
    obtain ⟨-, -, -, -, -, hann, -, -⟩ := init_ok hi
    obtain ⟨e0, he0, hae⟩ := annotateEvents_mem (hann h rfl) e he
    have he0' : e0 ∈ lib.events := he0
    have hwl : WellLabelled o mobile s.st.occ := hm.inv.labelled
    have hlen : s.st.occ.length = st.occ.length := hm.perm.length_eq
    have hmob0 : e0.mobile = e.mobile := by
      obtain ⟨f, t, mf, vt, vf, mt, hm', -, -, -, -, rfl⟩ := annotateEvent_ok hae
      rfl
    have hd : ∃ d, eventDirection s.st.occ e = .ok d ∧ d ≠ 0 := by
      rcases hmob with hmob | hmob
      · have hf := fit e0 he0' i (by simp [hmob0, hmob])
        have ht := fit e0 he0' j (by simp [hmob0, hmob])
        obtain ⟨d, hd, -, h3, -⟩ := C12_direction_of_species o mobile h lookup s.st.occ hwl e0 e hae i j
          (by rw [hmob0, hmob]) (by omega) (by omega)
        exact ⟨d, hd, by rw [h3.2 hc]; decide⟩
      · have hf := fit e0 he0' i (by simp [hmob0, hmob])
        have ht := fit e0 he0' j (by simp [hmob0, hmob])
        obtain ⟨d, hd, -, -, h3⟩ := C12_direction_of_species o mobile h lookup s.st.occ hwl e0 e hae j i
          (by rw [hmob0, hmob]) (by omega) (by omega)
        exact ⟨d, hd, by rw [h3.2 hc]; decide⟩
    obtain ⟨d, hd, hd0⟩ := hd
    have hcomp : lm.compute s.st.occ e lm.probabilityProperty = .ok (.fin b) := by rw [hlm']; rfl
    have hmode : lm.probabilityMode = LocalBarrierModel.supportedMode := by rw [hlm']; rfl
    simp only [rateIn, LocalBarrierModel.rateModel, LocalBarrierModel.computeProbability, hmode, ne_eq,
      not_true_eq_false, if_false, hcomp, hd, LocalBarrierModel.arrhenius, hd0, not_false_eq_true, if_true, one_mul]
  rw [List.map_congr_left hrate, List.map_const', List.sum_replicate, nsmul_eq_mul]
  obtain ⟨-, -, hmm, -⟩ := init_ok hi
  have hmm' : s0.lib.events.map Event.mobile = lib.events.map Event.mobile := hmm
  rw [← hmm', List.filter_map, List.length_map]
  rfl

/-- C115.  If the hop between the sites `i` and `j` is listed once and in one orientation only, then an ion on one of
them jumps to the other one, when this is vacant, at the Arrhenius rate of the barrier. -/
theorem C115_listed_once_has_the_rate (b : ℚ) (name : String) (kB temp ν : ℝ) (hν : 0 < ν)
    (lookup : HopStateLookup.fromActiveSiteOrder o mobile = .ok h)
    (labelled : WellLabelled o mobile st.occ) (fit : IndicesFit st.occ.length lib.events)
    (endpoints : ∀ e ∈ lib.events, ∃ f t : Nat, e.mobile = [(f : Int), (t : Int)] ∧
      allowedAt o f = allowedAt o t)
    {lm : LocalBarrierModel} (hlm : LocalBarrierModel.constantBarrier (.float (.fin b)) name = .ok lm)
    (hi : Sim.init (realKernel Rounding.exact) (lm.rateModel kB temp ν) lib.generateEventDependencies (some h)
        (some st) = .ok s0)
    {s : Sim σ φ Unit ℝ EReal} (hr : Reaches (lm.rateModel kB temp ν) s0 s)
    (once : (lib.events.map Event.mobile).Nodup) {f t : Nat}
    (hft : [(f : Int), (t : Int)] ∈ lib.events.map Event.mobile)
    (htf : [(t : Int), (f : Int)] ∉ lib.events.map Event.mobile) {i j : Nat}
    (hij : (i = f ∧ j = t) ∨ (i = t ∧ j = f)) (hc : CanJump o mobile s.st.occ i j) {y : List Int}
    (hy : Exchanged i j s.st.occ y) (r1 r2 : ℝ) (h0 : 0 ≤ r1) (h1 : r1 < 1) :
    jumpRate (lm.rateModel kB temp ν) r1 r2 s y = ν * Real.exp (-b / (kB * temp)) := by
  have hal : allowedAt o f = allowedAt o t := by
    obtain ⟨e, he, hmob⟩ := List.mem_map.1 hft
    obtain ⟨f', t', h2, h3⟩ := endpoints e he
    rw [hmob] at h2
    simp only [List.cons.injEq, Nat.cast_inj, and_true] at h2
    rw [h2.1, h2.2, h3]
  rcases hij with ⟨rfl, rfl⟩ | ⟨rfl, rfl⟩
  · rw [constant_jumpRate b name kB temp ν hν lookup labelled fit endpoints hlm hi hr hal hc hy r1 r2 h0 h1,
      filter_one once hft htf]
    simp
  · rw [constant_jumpRate b name kB temp ν hν lookup labelled fit endpoints hlm hi hr hal.symm hc hy r1 r2 h0 h1]
    have : ((lib.events.map Event.mobile).filter fun x => x = [(i : Int), (j : Int)] ∨ x = [(j : Int), (i : Int)]) =
      ((lib.events.map Event.mobile).filter fun x => x = [(j : Int), (i : Int)] ∨ x = [(i : Int), (j : Int)]) :=
      List.filter_congr fun x _ => by rw [decide_eq_decide]; exact or_comm
    rw [this, filter_one once hft htf]
    simp

/-- C115.  If the hop is listed once in each orientation, the ion jumps at twice the Arrhenius rate. -/
theorem C115_both_orientations_double (b : ℚ) (name : String) (kB temp ν : ℝ) (hν : 0 < ν)
    (lookup : HopStateLookup.fromActiveSiteOrder o mobile = .ok h)
    (labelled : WellLabelled o mobile st.occ) (fit : IndicesFit st.occ.length lib.events)
    (endpoints : ∀ e ∈ lib.events, ∃ f t : Nat, e.mobile = [(f : Int), (t : Int)] ∧
      allowedAt o f = allowedAt o t)
    {lm : LocalBarrierModel} (hlm : LocalBarrierModel.constantBarrier (.float (.fin b)) name = .ok lm)
    (hi : Sim.init (realKernel Rounding.exact) (lm.rateModel kB temp ν) lib.generateEventDependencies (some h)
        (some st) = .ok s0)
    {s : Sim σ φ Unit ℝ EReal} (hr : Reaches (lm.rateModel kB temp ν) s0 s)
    (once : (lib.events.map Event.mobile).Nodup) {i j : Nat}
    (hij : [(i : Int), (j : Int)] ∈ lib.events.map Event.mobile)
    (hji : [(j : Int), (i : Int)] ∈ lib.events.map Event.mobile) (hc : CanJump o mobile s.st.occ i j) {y : List Int}
    (hy : Exchanged i j s.st.occ y) (r1 r2 : ℝ) (h0 : 0 ≤ r1) (h1 : r1 < 1) :
    jumpRate (lm.rateModel kB temp ν) r1 r2 s y = 2 * (ν * Real.exp (-b / (kB * temp))) := by
  have hal : allowedAt o i = allowedAt o j := by
    obtain ⟨e, he, hmob⟩ := List.mem_map.1 hij
    obtain ⟨f', t', h2, h3⟩ := endpoints e he
    rw [hmob] at h2
    simp only [List.cons.injEq, Nat.cast_inj, and_true] at h2
    rw [h2.1, h2.2, h3]
  have hne : i ≠ j := by
    rintro rfl
    obtain ⟨h2, v, h3, h4⟩ := hc
    rw [h2] at h3
    cases h3
    exact labelled.mobileNotVacancy h4
  rw [constant_jumpRate b name kB temp ν hν lookup labelled fit endpoints hlm hi hr hal hc hy r1 r2 h0 h1,
    filter_two once (by simpa using fun h : i = j => absurd h hne) hij hji]
  norm_num

end

/-! ### How often a generated library lists a hop -/

section
variable {σ φ S K R : Type} [LinearOrder S] [Field K] [LinearOrder K] [LinearOrder R]
variable {eqv : σ → σ → Bool}
    {fp : Nat → Nat → List Nat → List Nat → List Nat → Nat × Nat × Nat → List σ →
      List (List σ) → φ}
    {render : List Ident → String} {name : σ → String} {tokens : σ → List String} {parse : String → σ}
    {dist : LocalSites.Point K → LocalSites.Point K → K} {row : Matcher.Cluster String K → Nat → R}
    {search : List (LabeledSite σ) → Nat → K → List (K × Neighbor (LocalSites.Site S K))}
    {four rtol atol : K} {nearest : Bool} {template : List (LabeledSite σ)} {a : Args K}

theorem neighborList_nodup {cell : List (LabeledSite σ)} {d : Nat → Nat → Cell → K}
    {place : Nat → Cell → LocalSites.Site S K} (hx : ExactNeighbors name (search cell) cell d place)
    (hn : ∀ p r, (search cell p r).Nodup) (hcd : (cell.map LabeledSite.localIndex).Nodup)
    (lookup : Neighbors.Table K × K) (p : Nat) : (neighborList name search cell lookup p).Nodup := by
  unfold neighborList
  split
  · exact List.nodup_nil
  · split
    · rename_i l hl
      rw [(LocalSites.sortBy_ok hl).same.nodup_iff]
      refine List.Nodup.map_on ?_ ((hn _ _).filter _)
      intro x hx1 y hy1 hxy
      rw [List.mem_filter] at hx1 hy1
      obtain ⟨q, s, v, h1, -, -, rfl⟩ := (hx.mem _ _ _).1 hx1.1
      obtain ⟨q', s', v', h1', -, -, rfl⟩ := (hx.mem _ _ _).1 hy1.1
      simp only [Neighbor.mk.injEq] at hxy
      obtain ⟨rfl, hl, -, -⟩ := hxy
      have : q = q' := by
        have e1 : (cell.map LabeledSite.localIndex)[q]? = some s.localIndex := by simp [h1]
        have e2 : (cell.map LabeledSite.localIndex)[q']? = some s.localIndex := by simp [h1', hl]
        have hq := (List.getElem?_eq_some_iff.1 e1).1
        exact (List.getElem?_inj hq hcd).1 (e1.trans e2.symm)
      subst this
      rw [h1] at h1'
      cases h1'
      rfl
    · exact List.nodup_nil

/-- C115.  In a supercell that is wide enough, `generate_events` lists every ordered pair of sites at most once, and
no site with itself. -/
theorem C115_listed_once (hdist : ∀ x y, dist x y = dist y x)
    (hd : (template.map LabeledSite.localIndex).Nodup) {lib : EventLib σ φ}
    (h : generate eqv fp render name tokens parse dist row search four rtol atol nearest template a = .ok lib)
    {mapping : List (String × List String)} (hmap : a.mapping = some mapping)
    {cell : List (LabeledSite σ)}
    (hcell : cell = activeCell eqv (mapping.map fun kv => (parse kv.1, kv.2.map parse)) template)
    {d : Nat → Nat → Cell → K} {place : Nat → Cell → LocalSites.Site S K}
    (hx : ExactNeighbors name (search cell) cell d place) (hn : ∀ p r, (search cell p r).Nodup)
    {shape : Nat × Nat × Nat} (hshape : normalizeSupercellShape (some (a.shape.getD [2, 1, 1])) = .ok shape)
    {mobile : Ident} (hmob : MobileIs a.mobile mapping mobile)
    (hw : WideEnough shape (Near cell (Radius render name tokens cell a.cutoffs mobile four a.cutoff) d)) :
    (lib.events.map Event.mobile).Nodup ∧
      ∀ e ∈ lib.events, ∀ i j : Int, e.mobile = [i, j] → i ≠ j := by
  obtain ⟨mapping', mobile', origin, target, h1, h2, h3, prim, table, h4, h5, h6⟩ := generate_eq.1 h
  rw [hmap] at h1; cases h1
  have e2 : mobile' = mobile := by
    rw [← mobileFor_ok] at h2 hmob
    rw [h2] at hmob; cases hmob; rfl
  subst e2
  rw [← hcell] at h5 h6
  have hmp := matcherOf_permutes (S := S) hdist row rtol atol nearest
  obtain ⟨order, sites, ho, hs, hmeta, hev⟩ := C45_events_describe_hops hmp hd h6
  have hsh : order.supercellShape = shape := by
    have := (fromStructureAndMapping_ok ho).1
    simp only [Option.getD_some] at this
    rw [this] at hshape
    cases hshape; rfl
  have hac := activeSites_eq ho
  rw [← hcell] at hac
  have hcd : (cell.map LabeledSite.localIndex).Nodup := by
    rw [← hac]
    exact List.Nodup.sublist ((activeSitesOf_sublist _ _).map _) hd
  have near : ∀ {p nb}, nb ∈ neighborList name search cell (Neighbors.prepareCutoff (some table)) p →
      ∃ s s' q v, cell[p]? = some s ∧ cell[q]? = some s' ∧ nb = ⟨v, s'.localIndex, s'.label, place q v⟩ ∧
        Near cell (Radius render name tokens cell a.cutoffs mobile' four a.cutoff) d p q v := by
    intro p nb hnb
    obtain ⟨c, s, q, v, r, f1, f2, f3, f4, f5, f6⟩ := (mem_neighborList hx table p _).1 hnb
    refine ⟨c, s, q, v, f1, f2, f4, f3, c, s, r, f1, f2, ?_, f6⟩
    rw [cutoffsFor_radius h5 (List.mem_of_getElem? f1) (List.mem_of_getElem? f2), radius_inputs] at f5
    exact f5
  have index : ∀ {q q' : Nat} {s s' : LabeledSite σ}, cell[q]? = some s → cell[q']? = some s' →
      s.localIndex = s'.localIndex → q = q' := by
    intro q q' s s' g1 g2 hl
    have e1 : (cell.map LabeledSite.localIndex)[q]? = some s.localIndex := by simp [g1]
    have e2 : (cell.map LabeledSite.localIndex)[q']? = some s.localIndex := by simp [g2, hl]
    have hq := (List.getElem?_eq_some_iff.1 e1).1
    exact (List.getElem?_inj hq hcd).1 (e1.trans e2.symm)
  constructor
  · refine C61_each_hop_listed_once hmp hd h6 ho ?_
    intro p s hp _
    refine (neighborList_nodup hx hn hcd _ p).pairwise_of_forall_ne ?_
    intro x hx1 y hy1 hxy hss
    obtain ⟨s1, s2, q, v, g1, g2, g3, g4⟩ := near hx1
    obtain ⟨s1', s2', q', v', g1', g2', g3', g4'⟩ := near hy1
    subst g3 g3'
    have : q = q' := index g2 g2' hss.1
    subst this
    rw [g2] at g2'; cases g2'
    have : v = v' := hw.once p q v v' g4 g4' (hsh ▸ hss.2)
    subst this
    exact hxy rfl
  · intro e he i j hij
    refine C61_end_points_differ hmp hd h6 ho ?_ e he i j hij
    intro p s hp _ nb hnb ⟨hl, hsi⟩
    obtain ⟨s1, s2, q, v, g1, g2, g3, g4⟩ := near hnb
    subst g3
    rw [hac, g1] at hp; cases hp
    have : q = p := index g2 g1 hl
    subst this
    exact hw.others q v g4 (hsh ▸ hsi)

/-- C115.  With a mapping only (and perhaps a cutoff and a shape), in a supercell that is wide enough, every hop is
listed twice: once in each orientation. -/
theorem C115_default_lists_both (hdist : ∀ x y, dist x y = dist y x)
    (hd : (template.map LabeledSite.localIndex).Nodup) {lib : EventLib σ φ}
    (h : generate eqv fp render name tokens parse dist row search four rtol atol nearest template a = .ok lib)
    {mapping : List (String × List String)} (hmap : a.mapping = some mapping)
    (h1 : a.identifiers = none) (h2 : a.mobile = none) (h3 : a.cutoffs = none)
    {cell : List (LabeledSite σ)}
    (hcell : cell = activeCell eqv (mapping.map fun kv => (parse kv.1, kv.2.map parse)) template)
    {d : Nat → Nat → Cell → K} {place : Nat → Cell → LocalSites.Site S K}
    (hx : ExactNeighbors name (search cell) cell d place) (hn : ∀ p r, (search cell p r).Nodup)
    (hsym : ∀ p q v, d p q v = d q p (-v.1, -v.2.1, -v.2.2))
    {shape : Nat × Nat × Nat} (hshape : normalizeSupercellShape (some (a.shape.getD [2, 1, 1])) = .ok shape)
    (hw : WideEnough shape (Near cell (fun _ _ => UniformRadius four a.cutoff) d)) {i j : Nat}
    (he : ∃ e ∈ lib.events, e.mobile = [(i : Int), (j : Int)]) :
    (lib.events.map Event.mobile).count [(i : Int), (j : Int)] = 1 ∧
      (lib.events.map Event.mobile).count [(j : Int), (i : Int)] = 1 ∧ i ≠ j := by
  obtain ⟨mobile, -, -, -, -, hmob, -⟩ := C84_hops hdist hd h hmap hcell hx
  have hw' : WideEnough shape (Near cell (Radius render name tokens cell a.cutoffs mobile four a.cutoff) d) := by
    have : ∀ p q v, Near cell (Radius render name tokens cell a.cutoffs mobile four a.cutoff) d p q v →
        Near cell (fun _ _ => UniformRadius four a.cutoff) d p q v := by
      rintro p q v ⟨g1, s, s', r, g2, g3, g4, g5⟩
      rw [h3] at g4
      exact ⟨g1, s, s', r, g2, g3, g4.1, g5⟩
    exact ⟨fun p q v w g1 g2 => hw.once p q v w (this p q v g1) (this p q w g2),
      fun p v g1 => hw.others p v (this p p v g1)⟩
  obtain ⟨k1, k2⟩ := C115_listed_once hdist hd h hmap hcell hx hn hshape hmob hw'
  have hrev := C84_hops_reversible hdist hd h hmap h1 h2 h3 hcell hx hsym i j he
  obtain ⟨e, he1, he2⟩ := he
  obtain ⟨e', he1', he2'⟩ := hrev
  refine ⟨List.count_eq_one_of_mem k1 (List.mem_map.2 ⟨e, he1, he2⟩),
    List.count_eq_one_of_mem k1 (List.mem_map.2 ⟨e', he1', he2'⟩), ?_⟩
  have := k2 e he1 _ _ he2
  exact fun hij => this (by rw [hij])

/-- C115.  If the identifiers given choose disjoint sets of sites as origins and targets, then every hop is listed in
one orientation only. -/
theorem C115_disjoint_ends_list_one (hdist : ∀ x y, dist x y = dist y x)
    (hd : (template.map LabeledSite.localIndex).Nodup) {lib : EventLib σ φ}
    (h : generate eqv fp render name tokens parse dist row search four rtol atol nearest template a = .ok lib)
    {mapping : List (String × List String)} (hmap : a.mapping = some mapping)
    {cell : List (LabeledSite σ)}
    (hcell : cell = activeCell eqv (mapping.map fun kv => (parse kv.1, kv.2.map parse)) template)
    {d : Nat → Nat → Cell → K} {place : Nat → Cell → LocalSites.Site S K}
    (hx : ExactNeighbors name (search cell) cell d place)
    {mobile origin target : Ident} (hmob : MobileIs a.mobile mapping mobile)
    (hends : EndsAre a.identifiers mobile origin target)
    (hdis : ∀ s ∈ cell, ¬ (Chooses render tokens (ChosenBySpecies a.identifiers mobile) origin s ∧
      Chooses render tokens (ChosenBySpecies a.identifiers mobile) target s)) {i j : Nat}
    (he : ∃ e ∈ lib.events, e.mobile = [(i : Int), (j : Int)]) :
    [(j : Int), (i : Int)] ∉ lib.events.map Event.mobile := by
  obtain ⟨mobile', origin', target', order, sites, k2, k3, k4, k5, k6, k7, k8⟩ := C84_hops hdist hd h hmap hcell hx
  have e2 : mobile' = mobile := by
    rw [← mobileFor_ok] at k2 hmob
    rw [k2] at hmob; cases hmob; rfl
  subst e2
  have e3 : origin' = origin ∧ target' = target := by
    rw [← ends_iff] at hends k3
    rw [hends] at k3; cases k3; exact ⟨rfl, rfl⟩
  obtain ⟨rfl, rfl⟩ := e3
  intro hji
  obtain ⟨e', he', hm'⟩ := List.mem_map.1 hji
  obtain ⟨s, s', t, t', p, q, v, r, g1, g2, g3, g4, g5, g6, g7, g8, -⟩ := (k8 i j).1 he
  obtain ⟨u, u', w, w', p', q', v', r', f1, f2, f3, f4, f5, f6, f7, f8, -⟩ := (k8 j i).1 ⟨e', he', hm'⟩
  rw [g1] at f2; cases f2
  exact hdis s (List.mem_of_getElem? g3) ⟨g7, f8⟩


/-- C115.  The rate that a user of the defaults gets: a library generated with a mapping only, in a supercell that is
wide enough, and one barrier for all hops.  An ion jumps to a vacant neighbour at twice the Arrhenius rate, in every
configuration the simulation gets into. -/
theorem C115_default_library_doubles (hdist : ∀ x y, dist x y = dist y x)
    (hd : (template.map LabeledSite.localIndex).Nodup) {lib : EventLib σ φ}
    (h : generate eqv fp render name tokens parse dist row search four rtol atol nearest template a = .ok lib)
    {mapping : List (String × List String)} (hmap : a.mapping = some mapping)
    (h1 : a.identifiers = none) (h2 : a.mobile = none) (h3 : a.cutoffs = none)
    {cell : List (LabeledSite σ)}
    (hcell : cell = activeCell eqv (mapping.map fun kv => (parse kv.1, kv.2.map parse)) template)
    {d : Nat → Nat → Cell → K} {place : Nat → Cell → LocalSites.Site S K}
    (hx : ExactNeighbors name (search cell) cell d place) (hn : ∀ p r, (search cell p r).Nodup)
    (hsym : ∀ p q v, d p q v = d q p (-v.1, -v.2.1, -v.2.2))
    {shape : Nat × Nat × Nat} (hshape : normalizeSupercellShape (some (a.shape.getD [2, 1, 1])) = .ok shape)
    (hw : WideEnough shape (Near cell (fun _ _ => UniformRadius four a.cutoff) d))
    {ψ : Type} {o : ActiveSiteOrder String ψ} {mobile : String} {hop : HopStateLookup} {st : State EReal}
    {s0 s : Sim σ φ Unit ℝ EReal} (b : ℚ) (model : String) (kB temp ν : ℝ) (hν : 0 < ν)
    (lookup : HopStateLookup.fromActiveSiteOrder o mobile = .ok hop)
    (labelled : WellLabelled o mobile st.occ) (fit : IndicesFit st.occ.length lib.events)
    (endpoints : ∀ e ∈ lib.events, ∃ f t : Nat, e.mobile = [(f : Int), (t : Int)] ∧
      allowedAt o f = allowedAt o t)
    {lm : LocalBarrierModel} (hlm : LocalBarrierModel.constantBarrier (.float (.fin b)) model = .ok lm)
    (hi : Sim.init (realKernel Rounding.exact) (lm.rateModel kB temp ν) lib.generateEventDependencies (some hop)
        (some st) = .ok s0)
    (hr : Reaches (lm.rateModel kB temp ν) s0 s) {i j : Nat}
    (he : ∃ e ∈ lib.events, e.mobile = [(i : Int), (j : Int)]) (hc : CanJump o mobile s.st.occ i j)
    {y : List Int} (hy : Exchanged i j s.st.occ y) (r1 r2 : ℝ) (hr0 : 0 ≤ r1) (hr1 : r1 < 1) :
    jumpRate (lm.rateModel kB temp ν) r1 r2 s y = 2 * (ν * Real.exp (-b / (kB * temp))) := by
  obtain ⟨mob, -, -, -, -, hmob, -⟩ := C84_hops hdist hd h hmap hcell hx
  have hw' : WideEnough shape (Near cell (Radius render name tokens cell a.cutoffs mob four a.cutoff) d) := by
    have : ∀ p q v, Near cell (Radius render name tokens cell a.cutoffs mob four a.cutoff) d p q v →
        Near cell (fun _ _ => UniformRadius four a.cutoff) d p q v := by
      rintro p q v ⟨g1, s, s', r, g2, g3, g4, g5⟩
      rw [h3] at g4
      exact ⟨g1, s, s', r, g2, g3, g4.1, g5⟩
    exact ⟨fun p q v w g1 g2 => hw.once p q v w (this p q v g1) (this p q w g2),
      fun p v g1 => hw.others p v (this p p v g1)⟩
  obtain ⟨k1, -⟩ := C115_listed_once hdist hd h hmap hcell hx hn hshape hmob hw'
  obtain ⟨e', he1', he2'⟩ := C84_hops_reversible hdist hd h hmap h1 h2 h3 hcell hx hsym i j he
  obtain ⟨e, he1, he2⟩ := he
  exact C115_both_orientations_double b model kB temp ν hν lookup labelled fit endpoints hlm hi hr k1
    (List.mem_map.2 ⟨e, he1, he2⟩) (List.mem_map.2 ⟨e', he1', he2'⟩) hc hy r1 r2 hr0 hr1

/-- C115.  If the identifiers choose disjoint sets of sites as origins and targets, an ion jumps at the Arrhenius rate,
forwards and backwards. -/
theorem C115_disjoint_ends_have_the_rate (hdist : ∀ x y, dist x y = dist y x)
    (hd : (template.map LabeledSite.localIndex).Nodup) {lib : EventLib σ φ}
    (h : generate eqv fp render name tokens parse dist row search four rtol atol nearest template a = .ok lib)
    {mapping : List (String × List String)} (hmap : a.mapping = some mapping)
    {cell : List (LabeledSite σ)}
    (hcell : cell = activeCell eqv (mapping.map fun kv => (parse kv.1, kv.2.map parse)) template)
    {d : Nat → Nat → Cell → K} {place : Nat → Cell → LocalSites.Site S K}
    (hx : ExactNeighbors name (search cell) cell d place) (hn : ∀ p r, (search cell p r).Nodup)
    {shape : Nat × Nat × Nat} (hshape : normalizeSupercellShape (some (a.shape.getD [2, 1, 1])) = .ok shape)
    {ident origin target : Ident} (hmob : MobileIs a.mobile mapping ident)
    (hends : EndsAre a.identifiers ident origin target)
    (hdis : ∀ s ∈ cell, ¬ (Chooses render tokens (ChosenBySpecies a.identifiers ident) origin s ∧
      Chooses render tokens (ChosenBySpecies a.identifiers ident) target s))
    (hw : WideEnough shape (Near cell (Radius render name tokens cell a.cutoffs ident four a.cutoff) d))
    {ψ : Type} {o : ActiveSiteOrder String ψ} {mobile : String} {hop : HopStateLookup} {st : State EReal}
    {s0 s : Sim σ φ Unit ℝ EReal} (b : ℚ) (model : String) (kB temp ν : ℝ) (hν : 0 < ν)
    (lookup : HopStateLookup.fromActiveSiteOrder o mobile = .ok hop)
    (labelled : WellLabelled o mobile st.occ) (fit : IndicesFit st.occ.length lib.events)
    (endpoints : ∀ e ∈ lib.events, ∃ f t : Nat, e.mobile = [(f : Int), (t : Int)] ∧
      allowedAt o f = allowedAt o t)
    {lm : LocalBarrierModel} (hlm : LocalBarrierModel.constantBarrier (.float (.fin b)) model = .ok lm)
    (hi : Sim.init (realKernel Rounding.exact) (lm.rateModel kB temp ν) lib.generateEventDependencies (some hop)
        (some st) = .ok s0)
    (hr : Reaches (lm.rateModel kB temp ν) s0 s) {f t : Nat}
    (he : ∃ e ∈ lib.events, e.mobile = [(f : Int), (t : Int)]) {i j : Nat}
    (hij : (i = f ∧ j = t) ∨ (i = t ∧ j = f)) (hc : CanJump o mobile s.st.occ i j)
    {y : List Int} (hy : Exchanged i j s.st.occ y) (r1 r2 : ℝ) (hr0 : 0 ≤ r1) (hr1 : r1 < 1) :
    jumpRate (lm.rateModel kB temp ν) r1 r2 s y = ν * Real.exp (-b / (kB * temp)) := by
  obtain ⟨k1, -⟩ := C115_listed_once hdist hd h hmap hcell hx hn hshape hmob hw
  have hno := C115_disjoint_ends_list_one hdist hd h hmap hcell hx hmob hends hdis he
  obtain ⟨e, he1, he2⟩ := he
  exact C115_listed_once_has_the_rate b model kB temp ν hν lookup labelled fit endpoints hlm hi hr k1
    (List.mem_map.2 ⟨e, he1, he2⟩) hno hij hc hy r1 r2 hr0 hr1

/-- The indices in generated events are numbers of active sites. -/
theorem generate_fit (hdist : ∀ x y, dist x y = dist y x)
    (hd : (template.map LabeledSite.localIndex).Nodup) {lib : EventLib σ φ}
    (h : generate eqv fp render name tokens parse dist row search four rtol atol nearest template a = .ok lib)
    {mapping : List (String × List String)} (hmap : a.mapping = some mapping) {order : ActiveSiteOrder σ φ}
    (ho : ActiveSiteOrder.fromStructureAndMapping eqv fp (template.map LabeledSite.species)
        (mapping.map fun kv => (parse kv.1, kv.2.map parse)) (some (a.shape.getD [2, 1, 1])) = .ok order)
    {sites : List (LabeledSite σ × Cell)} (hs : order.activeStructure template = .ok sites) :
    IndicesFit sites.length lib.events := by
  obtain ⟨mapping', mobile, origin, target, h1, h2, h3, prim, table, h4, h5, h6⟩ := generate_eq.1 h
  rw [hmap] at h1; cases h1
  have hmp := matcherOf_permutes (S := S) hdist row rtol atol nearest
  obtain ⟨order', sites', ho', hs', -, hev⟩ := C45_events_describe_hops hmp hd h6
  simp only [Option.getD_some] at ho'
  rw [ho] at ho'; cases ho'
  rw [hs] at hs'; cases hs'
  intro e he k hk
  obtain ⟨i, j, s, t, s', t', g1, g2, -, g4, -, -, p, nbrs, -, -, g9⟩ := hev e he
  have lt : ∀ {n : Nat} {x}, sites[n]? = some x → (0 : Int) ≤ n ∧ (n : Int) < sites.length := by
    intro n x hn
    have := (List.getElem?_eq_some_iff.1 hn).1
    omega
  rw [List.mem_append, g1] at hk
  rcases hk with hk | hk
  · simp only [List.mem_cons, List.not_mem_nil, or_false] at hk
    rcases hk with rfl | rfl
    · exact lt g2
    · exact lt g4
  · have : ∃ (n : Nat) (x : LabeledSite σ × Cell), k = (n : Int) ∧ sites[n]? = some x := by
      generalize e.env = env at hk g9
      clear g1 g2 g4
      induction g9 with
      | nil => simp at hk
      | @cons nb k' _ _ hnb _ ih =>
        rcases List.mem_cons.1 hk with rfl | hk
        · obtain ⟨n, s2, t2, e1, e2, -⟩ := hnb
          exact ⟨n, _, e1, e2⟩
        · exact ih hk
    obtain ⟨n, x, rfl, hn⟩ := this
    exact lt hn

end

/-! ### A concrete crystal -/

namespace JumpSamples
open HopSamples LocalSamples

theorem ints_nodup (n : Nat) : (ints n).Nodup :=
  List.Nodup.map (fun a b h => by simpa using h) List.nodup_range

theorem search_nodup (cell : List (LabeledSite String)) (p : Nat) (r : ℚ) :
    (HopSamples.search cell p r).Nodup := by
  unfold HopSamples.search
  rw [List.nodup_flatMap]
  constructor
  · rintro ⟨s, q⟩ -
    refine List.Nodup.map_on ?_ (List.Nodup.filter _ ((ints_nodup _).product ((ints_nodup _).product (ints_nodup _))))
    intro v _ w _ hvw
    simp only [Prod.mk.injEq, Neighbor.mk.injEq] at hvw
    exact hvw.2.1
  · have hz : (cell.zipIdx.map Prod.snd).Nodup := by
      rw [List.zipIdx_map_snd]; exact List.nodup_range'
    refine ((List.pairwise_map.1 hz).imp ?_)
    rintro ⟨s, q⟩ ⟨s', q'⟩ hne
    rw [Function.onFun, List.disjoint_left]
    intro x hx1 hx2
    rw [List.mem_map] at hx1 hx2
    obtain ⟨v, -, rfl⟩ := hx1
    obtain ⟨w, -, hw⟩ := hx2
    simp only [Prod.mk.injEq, Neighbor.mk.injEq, place, LocalSites.Site.mk.injEq] at hw
    obtain ⟨-, rfl, -, -, -, -, h3, -⟩ := hw
    apply hne
    have : (3 * (q' : Int) + 10 * w.1) = 3 * (q : Int) + 10 * w.1 := by exact_mod_cast h3
    simp only
    omega

/-- The active sites of the sample. -/
def cell : List (LabeledSite String) := [⟨"Na", "Na1", 1⟩, ⟨"Na", "Na2", 2⟩, ⟨"Si", "Si1", 3⟩]

/-- Neighbours closer than four are in the same cell. -/
theorem near_gap {radius : LabeledSite String → LabeledSite String → ℚ → Prop}
    (hr : ∀ s s' r, radius s s' r → r = 4) {p q : Nat} {v : Cell}
    (h : Near cell radius (fun p q v => ((gap p q v : Int) : ℚ)) p q v) : v = (0, 0, 0) ∧ p ≠ q := by
  obtain ⟨h0, s, s', r, h1, h2, h3, h4⟩ := h
  rw [hr _ _ _ h3] at h4
  have hp : p < 3 := (List.getElem?_eq_some_iff.1 h1).1
  have hq : q < 3 := (List.getElem?_eq_some_iff.1 h2).1
  have h4' : ((gap p q v : Int) : ℚ) < 4 := h4
  have hg : gap p q v < 4 := by exact_mod_cast h4'
  obtain ⟨x, y, z⟩ := v
  unfold gap at hg
  simp only [max_lt_iff] at hg
  obtain ⟨g1, g2, g3⟩ := hg
  have : x = 0 ∧ y = 0 ∧ z = 0 := by omega
  obtain ⟨rfl, rfl, rfl⟩ := this
  exact ⟨rfl, h0.resolve_right (by simp)⟩

theorem wide {radius : LabeledSite String → LabeledSite String → ℚ → Prop}
    (hr : ∀ s s' r, radius s s' r → r = 4) :
    WideEnough (2, 1, 1) (Near cell radius (fun p q v => ((gap p q v : Int) : ℚ))) := by
  refine ⟨?_, ?_⟩
  · intro p q v w h1 h2 _
    rw [(near_gap hr h1).1, (near_gap hr h2).1]
  · intro p v h1
    exact absurd rfl (near_gap hr h1).2

/-- The order of the active sites of the sample. -/
def order : ActiveSiteOrder String Unit :=
  { primitiveSiteCount := 4, originalSiteCount := 8, primitiveActiveIndices := [1, 2, 3],
    activeToOriginal := [2, 3, 4, 5, 6, 7], activeToPrimitive := [1, 1, 2, 2, 3, 3], fixedOriginalIndices := [0, 1],
    supercellShape := (2, 1, 1), speciesByPrimitiveSite := ["Zr", "Na", "Na", "Si"],
    allowedSpeciesByPrimitiveSite := [["Zr"], ["Na", "X"], ["Na", "X"], ["Si", "P"]], fingerprint := () }

theorem order_eq : (ActiveSiteOrder.fromStructureAndMapping (fun x y => x == y) (fun _ _ _ _ _ _ _ _ => ())
    (template.map LabeledSite.species) (HopSamples.mapping.map fun kv => (id kv.1, kv.2.map id)) (some [2, 1, 1]) :
    Py (ActiveSiteOrder String Unit)) = .ok order := by
  decide +kernel

/-- The active sites of the supercell, with their cells. -/
def sites : List (LabeledSite String × Cell) :=
  [(⟨"Na", "Na1", 1⟩, (0, 0, 0)), (⟨"Na", "Na1", 1⟩, (1, 0, 0)), (⟨"Na", "Na2", 2⟩, (0, 0, 0)),
   (⟨"Na", "Na2", 2⟩, (1, 0, 0)), (⟨"Si", "Si1", 3⟩, (0, 0, 0)), (⟨"Si", "Si1", 3⟩, (1, 0, 0))]

theorem sites_eq : order.activeStructure template = .ok sites := by decide +kernel

theorem cell_eq : cell = activeCell (fun x y => x == y) (HopSamples.mapping.map fun kv => (id kv.1, kv.2.map id))
    template := by decide +kernel

theorem gap_symm (p q : Nat) (v : Cell) :
    ((gap p q v : Int) : ℚ) = ((gap q p (-v.1, -v.2.1, -v.2.2) : Int) : ℚ) := by
  have : gap p q v = gap q p (-v.1, -v.2.1, -v.2.2) := by
    unfold gap
    simp only
    congr 1
    · omega
    · congr 1 <;> omega
  rw [this]

/-- An ion on the first and on the fourth sodium site, the other two are vacant. -/
noncomputable def start : State EReal := ⟨[0, 1, 1, 0, 0, 0], 0, 0⟩

/-- See `start`. -/
def hopLookup : HopStateLookup := ⟨[0, 0, 0, 0, -1, -1], [1, 1, 1, 1, -1, -1]⟩

theorem lookup_eq : HopStateLookup.fromActiveSiteOrder order "Na" = .ok hopLookup := by decide +kernel

theorem start_labelled : WellLabelled order "Na" start.occ := by
  refine ⟨rfl, ?_, ?_, ?_, ?_⟩
  · intro i hi
    have : i < 6 := hi
    interval_cases i <;> exact ⟨_, rfl⟩
  · intro a ha k l hk hl
    simp only [order, List.mem_cons, List.not_mem_nil, or_false] at ha
    rcases ha with rfl | rfl | rfl | rfl <;>
    · rcases k with _ | _ | k <;> rcases l with _ | _ | l <;> simp_all
  · intro a ha k l s t hk hl hs ht
    simp only [order, List.mem_cons, List.not_mem_nil, or_false] at ha
    have nv : ¬ IsVacancyLabel "Zr" ∧ ¬ IsVacancyLabel "Na" ∧ ¬ IsVacancyLabel "Si" ∧ ¬ IsVacancyLabel "P" := by
      unfold IsVacancyLabel
      decide +kernel
    rcases ha with rfl | rfl | rfl | rfl <;>
    · rcases k with _ | _ | k <;> rcases l with _ | _ | l <;> simp_all
      all_goals (subst_vars; simp_all)
  · unfold IsVacancyLabel
    decide +kernel

theorem na_site {i : Nat} {s : LabeledSite String} {t : Cell} (h : sites[i]? = some (s, t))
    (hs : s.species = "Na") : allowedAt order i = some ["Na", "X"] := by
  have hi : i < 6 := (List.getElem?_eq_some_iff.1 h).1
  interval_cases i <;> first | rfl | (simp only [sites] at h; simp at h; rw [← h.1] at hs; simp at hs)

/-- A simulation with any generated library whose hops join sodium sites. -/
theorem simulation {lib : EventLib String Unit} (fit : IndicesFit 6 lib.events)
    (endpoints : ∀ e ∈ lib.events, ∃ f t : Nat, e.mobile = [(f : Int), (t : Int)] ∧
      allowedAt order f = allowedAt order t) :
    ∃ (lm : LocalBarrierModel) (s0 : Sim String Unit Unit ℝ EReal),
      LocalBarrierModel.constantBarrier (.float (.fin 3)) "constant" = .ok lm ∧
      Sim.init (realKernel Rounding.exact) (lm.rateModel 1 300 1000) lib.generateEventDependencies (some hopLookup)
        (some start) = .ok s0 ∧ s0.st = start := by
  let lm : LocalBarrierModel := ⟨"constant", "barrier", "barrier_arrhenius", "barrier", [],
    some [("barrier", .fin 3)], [], []⟩
  let g : Geometry ℚ := ⟨List.replicate start.occ.length 0, 0, 0⟩
  have hs := C65_hop_system order "Na" hopLookup lm 1 300 1000 g lib start (by norm_num) (by simp [lm]) lookup_eq
    start_labelled fit endpoints (by simp [g])
  have ha : Answers order "Na" (lm.rateModel 1 300 1000) lib.events start.occ := by
    refine C85_local_barrier_answers lm 1 300 1000 lib.events start.occ rfl ?_ fit ?_ ?_
    · exact ⟨⟨_, _, rfl, rfl, .inl ⟨3, rfl⟩⟩, by simp [lm]⟩
    · intro e he
      obtain ⟨f, t, h1, -⟩ := endpoints e he
      exact ⟨f, t, h1⟩
    · intro _ _ _ _ _ r hr
      simp [lm] at hr
  obtain ⟨s0, hi⟩ := C85_can_be_constructed hs ha
  refine ⟨lm, s0, rfl, hi, ?_⟩
  obtain ⟨i1, -⟩ := init_ok hi
  exact (Option.some.inj i1).symm

/-- The ion on the first site jumps to the third one. -/
theorem start_jump : CanJump order "Na" start.occ 0 2 ∧ Exchanged 0 2 start.occ [1, 1, 0, 0, 0, 0] := by
  refine ⟨⟨rfl, "X", rfl, .inl rfl⟩, rfl, rfl, rfl, ?_⟩
  intro k h0 h2
  rcases k with _ | _ | _ | k
  · exact absurd rfl h0
  · rfl
  · exact absurd rfl h2
  · rfl

/-- With the default arguments the ion jumps at twice the rate. -/
example : ∃ (lib : EventLib String Unit) (lm : LocalBarrierModel) (s0 : Sim String Unit Unit ℝ EReal),
    call ⟨none, none, none, some HopSamples.mapping, none, none⟩ = .ok lib ∧
    LocalBarrierModel.constantBarrier (.float (.fin 3)) "constant" = .ok lm ∧
    Sim.init (realKernel Rounding.exact) (lm.rateModel 1 300 1000) lib.generateEventDependencies (some hopLookup)
      (some start) = .ok s0 ∧
    jumpRate (lm.rateModel 1 300 1000) 0 0 s0 [1, 1, 0, 0, 0, 0] = 2 * (1000 * Real.exp (-(3 : ℚ) / (1 * 300))) := by
  have hcall : ∃ lib, call ⟨none, none, none, some HopSamples.mapping, none, none⟩ = .ok lib := by
    unfold call
    rw [C84_succeeds_iff dist_symm (by decide +kernel) search_exact]
    refine ⟨HopSamples.mapping, .group [.text "Na"], .group [.text "Na"], .group [.text "Na"], rfl,
      ⟨⟨("Na", ["Na", "X"]), by simp [HopSamples.mapping], by decide +kernel⟩, ?_⟩, ⟨rfl, rfl⟩, ⟨_, rfl⟩,
      ⟨"Na", "Na1", 1⟩, ⟨"Na", "Na2", 2⟩, 0, 1, (0, 0, 0), 4, by decide +kernel, by decide +kernel, .inl (by decide), ?_, ?_, ?_, ?_⟩
    · have : HopSamples.mapping.filter (fun e => allowsVacancy e.2) = [("Na", ["Na", "X"])] := by decide +kernel
      rw [this]; rfl
    · exact .inl ⟨trivial, "Na", by simp, .text "Na", by simp, rfl⟩
    · exact .inl ⟨trivial, "Na", by simp, .text "Na", by simp, rfl⟩
    · exact ⟨.inl ⟨.inl rfl, rfl⟩, ⟨"Na", "Na1", 1⟩, by decide +kernel, .inl rfl, "Na", by simp, .text "Na", by simp, rfl⟩
    · have : gap 0 1 (0, 0, 0) = 3 := by decide +kernel
      rw [this]; norm_num
  obtain ⟨lib, hlib⟩ := hcall
  have hd : (template.map LabeledSite.localIndex).Nodup := by decide +kernel
  have hlib' := hlib
  unfold call at hlib'
  obtain ⟨order', sites', h1, h2, -, h4⟩ := C84_default_hops dist_symm hd hlib' rfl rfl rfl rfl cell_eq (search_exact _)
  rw [show some ((none : Option (List Int)).getD [2, 1, 1]) = some [2, 1, 1] from rfl, order_eq] at h1
  cases h1
  rw [sites_eq] at h2; cases h2
  have fit : IndicesFit 6 lib.events := generate_fit dist_symm hd hlib' rfl order_eq sites_eq
  have can : ∀ s : LabeledSite String, CanMove (fun s => [s]) HopSamples.mapping s → s.species = "Na" := by
    rintro s ⟨e, he, h5, h6⟩
    simp only [HopSamples.mapping, List.mem_cons, List.not_mem_nil, or_false] at he h6
    have v1 : allowsVacancy ["Zr"] = false ∧ allowsVacancy ["Si", "P"] = false := by decide +kernel
    rcases he with rfl | rfl | rfl
    · rw [v1.1] at h5; cases h5
    · exact h6.symm
    · rw [v1.2] at h5; cases h5
  have endpoints : ∀ e ∈ lib.events, ∃ f t : Nat, e.mobile = [(f : Int), (t : Int)] ∧
      allowedAt order f = allowedAt order t := by
    intro e he
    obtain ⟨-, -, -, -, -, -, -, -, -, -, h7, -⟩ := C84_hops dist_symm hd hlib' rfl cell_eq (search_exact _)
    obtain ⟨i, j, hij⟩ := h7 e he
    obtain ⟨s, s', t, t', p, q, v, r, g1, g2, g3, g4, g5, g6, g7, g8, -⟩ := (h4 i j).1 ⟨e, he, hij⟩
    exact ⟨i, j, hij, by rw [na_site g1 (can _ g7), na_site g2 (can _ g8)]⟩
  have listed : ∃ e ∈ lib.events, e.mobile = [((0 : Nat) : Int), ((2 : Nat) : Int)] := by
    refine (h4 0 2).2 ⟨⟨"Na", "Na1", 1⟩, ⟨"Na", "Na2", 2⟩, (0, 0, 0), (0, 0, 0), 0, 1, (0, 0, 0), 4, rfl, rfl, rfl, rfl,
      .inl (by decide), ⟨0, 0, 0, rfl, rfl, rfl⟩, ?_, ?_, .inl ⟨.inl rfl, rfl⟩, ?_⟩
    · exact ⟨("Na", ["Na", "X"]), by simp [HopSamples.mapping], by decide +kernel, by simp⟩
    · exact ⟨("Na", ["Na", "X"]), by simp [HopSamples.mapping], by decide +kernel, by simp⟩
    · have : gap 0 1 (0, 0, 0) = 3 := by decide +kernel
      rw [this]; norm_num
  obtain ⟨lm, s0, h5, h6, h7⟩ := simulation fit endpoints
  refine ⟨lib, lm, s0, hlib, h5, h6, ?_⟩
  exact C115_default_library_doubles dist_symm hd hlib' rfl rfl rfl rfl cell_eq (search_exact _) (search_nodup _)
    gap_symm (shape := (2, 1, 1)) rfl
    (wide (by rintro _ _ r (⟨-, h⟩ | ⟨h, -⟩); exacts [h, by cases h])) 3 "constant" 1 300 1000
    (by norm_num) lookup_eq start_labelled fit endpoints h5 h6 Relation.ReflTransGen.refl listed
    (by rw [h7]; exact start_jump.1) (by rw [h7]; exact start_jump.2) 0 0 le_rfl (by norm_num)

/-- With hops from `Na1` to `Na2` only, it jumps at the rate of the barrier. -/
example : ∃ (lib : EventLib String Unit) (lm : LocalBarrierModel) (s0 : Sim String Unit Unit ℝ EReal),
    call ⟨none, some (.group [.text "Na1", .text "Na2"]), none, some HopSamples.mapping, none, none⟩ = .ok lib ∧
    LocalBarrierModel.constantBarrier (.float (.fin 3)) "constant" = .ok lm ∧
    Sim.init (realKernel Rounding.exact) (lm.rateModel 1 300 1000) lib.generateEventDependencies (some hopLookup)
      (some start) = .ok s0 ∧
    jumpRate (lm.rateModel 1 300 1000) 0 0 s0 [1, 1, 0, 0, 0, 0] = 1000 * Real.exp (-(3 : ℚ) / (1 * 300)) := by
  have hk : ¬ ChosenBySpecies (some (.group [.text "Na1", .text "Na2"])) (.group [.text "Na"]) := by
    rw [← inferKind_species]
    decide +kernel
  have hmobile : MobileIs none HopSamples.mapping (.group [.text "Na"]) := by
    refine ⟨⟨("Na", ["Na", "X"]), by simp [HopSamples.mapping], by decide +kernel⟩, ?_⟩
    have : HopSamples.mapping.filter (fun e => allowsVacancy e.2) = [("Na", ["Na", "X"])] := by decide +kernel
    rw [this]; rfl
  have hcall : ∃ lib, call ⟨none, some (.group [.text "Na1", .text "Na2"]), none, some HopSamples.mapping, none,
      none⟩ = .ok lib := by
    unfold call
    rw [C84_succeeds_iff dist_symm (by decide +kernel) search_exact]
    refine ⟨HopSamples.mapping, .group [.text "Na"], .text "Na1", .text "Na2", rfl, hmobile, rfl, ⟨_, rfl⟩,
      ⟨"Na", "Na1", 1⟩, ⟨"Na", "Na2", 2⟩, 0, 1, (0, 0, 0), 4, by decide +kernel, by decide +kernel, .inl (by decide),
      .inr ⟨hk, rfl⟩, .inr ⟨hk, rfl⟩, ?_, ?_⟩
    · exact ⟨.inl ⟨.inl rfl, rfl⟩, ⟨"Na", "Na1", 1⟩, by decide +kernel, .inl rfl, "Na", by simp, .text "Na", by simp, rfl⟩
    · have : gap 0 1 (0, 0, 0) = 3 := by decide +kernel
      rw [this]; norm_num
  obtain ⟨lib, hlib⟩ := hcall
  have hd : (template.map LabeledSite.localIndex).Nodup := by decide +kernel
  have hlib' := hlib
  unfold call at hlib'
  obtain ⟨mob, origin, target, order', sites', k1, k2, h1, h2, -, h7, h4⟩ :=
    C84_hops dist_symm hd hlib' rfl cell_eq (search_exact _)
  have e1 : mob = .group [.text "Na"] := by
    rw [← mobileFor_ok] at k1 hmobile
    exact Except.ok.inj (k1.symm.trans hmobile)
  subst e1
  simp only [EndsAre, List.cons.injEq, and_true] at k2
  obtain ⟨rfl, rfl⟩ := k2
  rw [show some ((none : Option (List Int)).getD [2, 1, 1]) = some [2, 1, 1] from rfl, order_eq] at h1
  cases h1
  rw [sites_eq] at h2; cases h2
  have fit : IndicesFit 6 lib.events := generate_fit dist_symm hd hlib' rfl order_eq sites_eq
  have can : ∀ (s : LabeledSite String) (l : String), (l = "Na1" ∨ l = "Na2") → s ∈ cell →
      Chooses (fun _ => "") (fun s => [s]) (ChosenBySpecies (some (.group [.text "Na1", .text "Na2"]))
        (.group [.text "Na"])) (.text l) s → s.label = l ∧ s.species = "Na" := by
    intro s l hl hs hc
    rcases hc with ⟨h, -⟩ | ⟨-, h⟩
    · exact absurd h hk
    · have h' : s.label = l := h
      refine ⟨h', ?_⟩
      simp only [cell, List.mem_cons, List.not_mem_nil, or_false] at hs
      rcases hs with rfl | rfl | rfl
      · rfl
      · rfl
      · rcases hl with rfl | rfl <;> simp at h'
  have endpoints : ∀ e ∈ lib.events, ∃ f t : Nat, e.mobile = [(f : Int), (t : Int)] ∧
      allowedAt order f = allowedAt order t := by
    intro e he
    obtain ⟨i, j, hij⟩ := h7 e he
    obtain ⟨s, s', t, t', p, q, v, r, g1, g2, g3, g4, g5, g6, g7, g8, -⟩ := (h4 i j).1 ⟨e, he, hij⟩
    exact ⟨i, j, hij, by rw [na_site g1 (can _ _ (.inl rfl) (List.mem_of_getElem? g3) g7).2,
      na_site g2 (can _ _ (.inr rfl) (List.mem_of_getElem? g4) g8).2]⟩
  have listed : ∃ e ∈ lib.events, e.mobile = [((0 : Nat) : Int), ((2 : Nat) : Int)] := by
    refine (h4 0 2).2 ⟨⟨"Na", "Na1", 1⟩, ⟨"Na", "Na2", 2⟩, (0, 0, 0), (0, 0, 0), 0, 1, (0, 0, 0), 4, rfl, rfl, rfl, rfl,
      .inl (by decide), ⟨0, 0, 0, rfl, rfl, rfl⟩, .inr ⟨hk, rfl⟩, .inr ⟨hk, rfl⟩, ?_, ?_⟩
    · exact ⟨.inl ⟨.inl rfl, rfl⟩, ⟨"Na", "Na1", 1⟩, by decide +kernel, .inl rfl, "Na", by simp, .text "Na", by simp, rfl⟩
    · have : gap 0 1 (0, 0, 0) = 3 := by decide +kernel
      rw [this]; norm_num
  obtain ⟨lm, s0, h5, h6, h8⟩ := simulation fit endpoints
  refine ⟨lib, lm, s0, hlib, h5, h6, ?_⟩
  exact C115_disjoint_ends_have_the_rate dist_symm hd hlib' rfl cell_eq (search_exact _) (search_nodup _)
    (shape := (2, 1, 1)) rfl hmobile rfl
    (by
      rintro s hs ⟨c1, c2⟩
      have := (can s _ (.inl rfl) hs c1).1.symm.trans (can s _ (.inr rfl) hs c2).1
      simp at this)
    (wide (by rintro _ _ r ⟨⟨-, h⟩ | ⟨h, -⟩, -⟩; exacts [h, by cases h])) 3 "constant" 1 300 1000
    (by norm_num) lookup_eq start_labelled fit endpoints h5 h6 Relation.ReflTransGen.refl listed (.inl ⟨rfl, rfl⟩)
    (by rw [h8]; exact start_jump.1) (by rw [h8]; exact start_jump.2) 0 0 le_rfl (by norm_num)

end JumpSamples
end KMC
