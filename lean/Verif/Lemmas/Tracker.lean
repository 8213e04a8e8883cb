import Verif.Spec.Tracking
import Verif.Lemmas.Hop
import Verif.Lemmas.State
import Mathlib.Tactic.Linarith
import Mathlib.Tactic.Abel
import Mathlib.Tactic.FieldSimp
/-
Lemmas about the trajectory part of the tracker.
-/
set_option linter.unusedSectionVars false

namespace KMC
open Spec

theorem mem_whereTrue (n : Nat) (mask : List Bool) (i : Int) :
    i ∈ whereTrue n mask ↔ ∃ k : Nat, i = ((n + k : Nat) : Int) ∧ mask[k]? = some true := by
  induction mask generalizing n with
  | nil => simp [whereTrue]
  | cons b bs ih =>
    have hcons : (∃ k : Nat, i = ((n + k : Nat) : Int) ∧ (b :: bs)[k]? = some true) ↔
        (i = (n : Int) ∧ b = true) ∨
          ∃ k : Nat, i = ((n + 1 + k : Nat) : Int) ∧ bs[k]? = some true := by
      constructor
      · rintro ⟨k, h1, h2⟩
        cases k with
        | zero => left; exact ⟨by simpa using h1, by simpa using h2⟩
        | succ k => right; exact ⟨k, by rw [h1]; congr 1; omega, by simpa using h2⟩
      · rintro (⟨h1, h2⟩ | ⟨k, h1, h2⟩)
        · exact ⟨0, by simpa using h1, by simpa using h2⟩
        · exact ⟨k + 1, by rw [h1]; congr 1; omega, by simpa using h2⟩
    rw [hcons]
    simp only [whereTrue]
    cases b with
    | true => rw [if_pos rfl, List.mem_cons, ih]; simp
    | false => rw [if_neg (by simp), ih]; simp

theorem whereTrue_nodup (n : Nat) (mask : List Bool) : (whereTrue n mask).Nodup := by
  induction mask generalizing n with
  | nil => simp [whereTrue]
  | cons b bs ih =>
    simp only [whereTrue]
    split
    · rw [List.nodup_cons]
      refine ⟨?_, ih _⟩
      rw [mem_whereTrue]
      rintro ⟨k, hk, -⟩
      omega
    · exact ih _

theorem firstMatch_some {s : Int} {l : List Int} {n j : Nat} (h : firstMatch s n l = some j) :
    ∃ k, j = n + k ∧ l[k]? = some s := by
  induction l generalizing n with
  | nil => simp [firstMatch] at h
  | cons a l ih =>
    simp only [firstMatch] at h
    split at h
    · rename_i ha
      cases h
      exact ⟨0, rfl, by simp [ha]⟩
    · obtain ⟨k, h1, h2⟩ := ih h
      exact ⟨k + 1, by omega, by simpa using h2⟩

theorem firstMatch_none {s : Int} {l : List Int} {n : Nat} (h : firstMatch s n l = none) :
    s ∉ l := by
  induction l generalizing n with
  | nil => simp
  | cons a l ih =>
    simp only [firstMatch] at h
    split at h
    · cases h
    · rename_i ha
      simp only [List.mem_cons, not_or]
      exact ⟨fun h' => ha h'.symm, ih h⟩

section
variable {K : Type} [Field K] [LinearOrder K] [FloorRing K]

theorem pickCoords_ok {g : Geometry K} {l : List Int} {r : List (Vec3 K)}
    (h : pickCoords g l = .ok r) :
    r.length = l.length ∧ ∀ (i : Nat) (loc : Int), l[i]? = some loc →
      ∃ f, pyGet g.fracCoords loc = .ok f ∧ r[i]? = some (g.cart f) := by
  induction l generalizing r with
  | nil => simp only [pickCoords] at h; cases h; simp
  | cons a l ih =>
    unfold pickCoords at h
    cases h1 : pyGet g.fracCoords a with
    | error x => rw [h1] at h; cases h
    | ok f =>
      rw [h1] at h
      simp only at h
      cases h2 : pickCoords g l with
      | error x => rw [h2] at h; cases h
      | ok r' =>
        rw [h2] at h
        cases h
        obtain ⟨a1, a2⟩ := ih h2
        refine ⟨by simp [a1], ?_⟩
        intro i loc hi
        cases i with
        | zero => simp at hi; subst hi; exact ⟨f, h1, by simp⟩
        | succ i => simpa using a2 i loc (by simpa using hi)

/-- What the tracker starts with. -/
theorem traj_init_ok {g : Geometry K} {lookup : Option HopStateLookup} {occ : List Int}
    {t : Trajectory K} (h : Trajectory.init g lookup occ = .ok t) :
    t.locations = whereTrue 0 (mobileMask g lookup occ) ∧
    t.displacement = t.locations.map (fun _ => 0) ∧ t.hopCounter = t.locations.map (fun _ => 0) ∧
    pickCoords g t.locations = .ok t.r0 := by
  have key : ∀ b : Bool, (if b = true then (Except.error PyErr.valueError : Py (Trajectory K))
      else match pickCoords g (whereTrue 0 (mobileMask g lookup occ)) with
        | .error e => .error e
        | .ok r0 => .ok
          { locations := whereTrue 0 (mobileMask g lookup occ)
            displacement := (whereTrue 0 (mobileMask g lookup occ)).map fun _ => 0
            hopCounter := (whereTrue 0 (mobileMask g lookup occ)).map fun _ => 0
            r0 := r0 }) = .ok t →
      t.locations = whereTrue 0 (mobileMask g lookup occ) ∧
      t.displacement = t.locations.map (fun _ => 0) ∧ t.hopCounter = t.locations.map (fun _ => 0) ∧
      pickCoords g t.locations = .ok t.r0 := by
    intro b h
    split at h
    · cases h
    · cases h1 : pickCoords g (whereTrue 0 (mobileMask g lookup occ)) with
      | error x => rw [h1] at h; cases h
      | ok r =>
        rw [h1] at h
        cases h
        exact ⟨rfl, rfl, rfl, h1⟩
  exact key _ h

theorem mobileMask_lookup (g : Geometry K) (h : HopStateLookup) (occ : List Int) (k : Nat) :
    (mobileMask g (some h) occ)[k]? = some true ↔ IonAt h occ k := by
  unfold mobileMask IonAt
  simp only [List.getElem?_zipWith, invalidState]
  cases h1 : h.mobileStateBySite[k]? with
  | none => simp
  | some c =>
    have hk : k < h.mobileStateBySite.length := (List.getElem?_eq_some_iff.1 h1).1
    rw [List.getElem?_take_of_lt hk]
    cases h2 : occ[k]? with
    | none => simp
    | some o => simp

theorem traj_init_tracks {g : Geometry K} {h : HopStateLookup} {occ : List Int}
    {t : Trajectory K} (hi : Trajectory.init g (some h) occ = .ok t) : Tracks h t occ := by
  obtain ⟨h1, -, -, -⟩ := traj_init_ok hi
  refine ⟨by rw [h1]; exact whereTrue_nodup _ _, ?_⟩
  intro i
  rw [h1, mem_whereTrue]
  constructor
  · rintro ⟨k, e, hk⟩
    exact ⟨k, by simpa using e, (mobileMask_lookup g h occ k).1 hk⟩
  · rintro ⟨k, e, hk⟩
    exact ⟨k, by simpa using e, (mobileMask_lookup g h occ k).2 hk⟩

theorem traj_init_aligned {g : Geometry K} {lookup : Option HopStateLookup} {occ : List Int}
    {t : Trajectory K} (hi : Trajectory.init g lookup occ = .ok t) : Aligned t := by
  obtain ⟨-, h2, h3, h4⟩ := traj_init_ok hi
  exact ⟨by rw [h2]; simp, by rw [h3]; simp, (pickCoords_ok h4).1⟩

theorem traj_init_unwrapped {g : Geometry K} {lookup : Option HopStateLookup} {occ : List Int}
    {t : Trajectory K} (hi : Trajectory.init g lookup occ = .ok t) (i : Nat)
    (hlt : i < t.locations.length) : Unwrapped g t i := by
  obtain ⟨-, h2, -, h4⟩ := traj_init_ok hi
  obtain ⟨f, hf, hr⟩ := (pickCoords_ok h4).2 i t.locations[i] (by simp [hlt])
  refine ⟨t.locations[i], g.cart f, 0, f, 0, by simp [hlt], hr, ?_, hf, ?_⟩
  · rw [h2]; simp [hlt]
  · simp [Geometry.cart]

theorem direction_values (fo to' : Int) (c : HopCodes) :
    endpointDirectionFromCodes fo to' c = 1 ∨ endpointDirectionFromCodes fo to' c = -1 ∨
    endpointDirectionFromCodes fo to' c = 0 := by
  unfold endpointDirectionFromCodes
  split
  · simp
  · split <;> simp

theorem eventDirection_values {occ : List Int} {e : Event} {d : Int}
    (h : eventDirection occ e = .ok d) : d = 1 ∨ d = -1 ∨ d = 0 := by
  obtain ⟨f, t, i, j, vf, vt, -, -, -, -, -, rfl⟩ := eventDirection_ok h
  exact direction_values _ _ _

/-- What a successful tracker update did. -/
theorem traj_update_ok {g : Geometry K} {t t' : Trajectory K} {occ : List Int} {e : Event}
    (h : t.update g occ e = (.ok (), t')) :
    ∃ d, eventDirection occ e = .ok d ∧
      ((d = 0 ∧ t' = t) ∨
       (d ≠ 0 ∧ ∃ (f to' : Int) (i : Nat) (disp : Vec3 K), e.mobile = [f, to'] ∧
          t.locations[i]? = some (if d = 1 then f else to') ∧
          wrappedHopDisplacement g e d = .ok disp ∧
          t' = { locations := t.locations.set i (if d = 1 then to' else f)
                 displacement := t.displacement.modify i (fun v => v + disp)
                 hopCounter := t.hopCounter.modify i (· + 1)
                 r0 := t.r0 })) := by
  unfold Trajectory.update at h
  cases hd : eventDirection occ e with
  | error x => rw [hd] at h; cases h
  | ok d =>
    rw [hd] at h
    simp only at h
    refine ⟨d, rfl, ?_⟩
    by_cases h0 : d = 0
    · rw [if_pos h0] at h
      simp only [Prod.mk.injEq, true_and] at h
      exact .inl ⟨h0, h.symm⟩
    · rw [if_neg h0] at h
      right
      refine ⟨h0, ?_⟩
      unfold Trajectory.recordHop at h
      cases hu : unpack2 e.mobile with
      | error x => rw [hu] at h; cases h
      | ok p =>
        obtain ⟨f, to'⟩ := p
        rw [hu] at h
        simp only at h
        cases hm : firstMatch (if d = 1 then f else to') 0 t.locations with
        | none => rw [hm] at h; cases h
        | some i =>
          rw [hm] at h
          simp only at h
          obtain ⟨k, hk, hl⟩ := firstMatch_some hm
          simp only [Nat.zero_add] at hk
          subst hk
          cases hw : wrappedHopDisplacement g e d with
          | error x => rw [hw] at h; cases h
          | ok disp =>
            rw [hw] at h
            simp only [Prod.mk.injEq, true_and] at h
            exact ⟨f, to', i, disp, unpack2_ok_iff.1 hu, hl, rfl, h.symm⟩

theorem aligned_update {g : Geometry K} {t t' : Trajectory K} {occ : List Int} {e : Event}
    (ha : Aligned t) (h : t.update g occ e = (.ok (), t')) : Aligned t' := by
  obtain ⟨d, -, ⟨-, rfl⟩ | ⟨-, f, to', i, disp, -, -, -, rfl⟩⟩ := traj_update_ok h
  · exact ha
  · exact ⟨by simp [ha.disp], by simp [ha.hops], by simp [ha.start]⟩

/-! ### Rounding -/

variable [IsStrictOrderedRing K]

theorem roundHalfEven_bounds (x : K) :
    x - (roundHalfEven x : K) ≤ 1 / 2 ∧ -(1 / 2) ≤ x - (roundHalfEven x : K) := by
  have h1 := Int.floor_le x
  have h2 := Int.lt_floor_add_one x
  unfold roundHalfEven
  dsimp only
  split
  · rename_i h; constructor <;> linarith
  · rename_i h
    push Not at h
    split
    · rename_i h'; push_cast; constructor <;> linarith
    · rename_i h'
      push Not at h'
      have he : x - (⌊x⌋ : K) = 1 / 2 := le_antisymm h' h
      split
      · constructor <;> linarith
      · push_cast; constructor <;> linarith

/-- Round half to even is odd. -/
theorem roundHalfEven_neg (x : K) : roundHalfEven (-x) = -roundHalfEven x := by
  have h1 := Int.floor_le x
  have h2 := Int.lt_floor_add_one x
  by_cases hx : (⌊x⌋ : K) = x
  · have e1 : ⌊-x⌋ = -⌊x⌋ := by
      rw [Int.floor_eq_iff]; push_cast; constructor <;> linarith
    unfold roundHalfEven
    dsimp only
    rw [e1]
    have : -x - ((-⌊x⌋ : ℤ) : K) = 0 := by push_cast; linarith
    have e2 : x - (⌊x⌋ : K) = 0 := by linarith
    rw [this, e2]
    simp
  · have hlt : (⌊x⌋ : K) < x := lt_of_le_of_ne h1 hx
    have e1 : ⌊-x⌋ = -⌊x⌋ - 1 := by
      rw [Int.floor_eq_iff]; push_cast; constructor <;> linarith
    unfold roundHalfEven
    dsimp only
    rw [e1]
    have e2 : -x - ((-⌊x⌋ - 1 : ℤ) : K) = 1 - (x - (⌊x⌋ : K)) := by push_cast; ring
    rw [e2]
    generalize hr : x - (⌊x⌋ : K) = r
    rcases lt_trichotomy r (1 / 2) with h | h | h
    · have a : ¬ (1 - r < 1 / 2) := by push Not; linarith
      have b : 1 / 2 < 1 - r := by linarith
      rw [if_neg a, if_pos b, if_pos h]; ring
    · have a : ¬ (1 - r < 1 / 2) := by rw [h]; norm_num
      have b : ¬ (1 / 2 < 1 - r) := by rw [h]; norm_num
      have c : ¬ (r < 1 / 2) := by rw [h]; simp
      have d : ¬ (1 / 2 < r) := by rw [h]; simp
      rw [if_neg a, if_neg b, if_neg c, if_neg d]
      split <;> split <;> omega
    · have a : 1 - r < 1 / 2 := by linarith
      have c : ¬ (r < 1 / 2) := by push Not; linarith
      rw [if_pos a, if_neg c, if_pos h]; ring

end
end KMC
