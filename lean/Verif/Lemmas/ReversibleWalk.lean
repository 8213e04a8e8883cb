import Mathlib.Analysis.SpecificLimits.Basic
import Mathlib.Analysis.Asymptotics.Lemmas
import Mathlib.Topology.Algebra.Order.LiminfLimsup
import Mathlib.Algebra.BigOperators.Group.Finset.Basic
import Mathlib.Tactic.Linarith
import Mathlib.Tactic.Ring
import Mathlib.Tactic.FieldSimp
import Mathlib.Analysis.Asymptotics.SpecificAsymptotics
import Mathlib.Algebra.BigOperators.Field
/-
Mean square displacement of a walk that is driven by a reversible finite chain (for C131).
-/
namespace KMC
namespace Walk
open Filter Topology

variable {α ε : Type} (S : Finset α) (E : List ε) (q : α → ε → ℝ) (τ : α → ε → α) (d : α → ε → ℝ)

/-- Every event goes back as often as it goes, and the way back is the way reversed. -/
structure Reversible : Prop where
  nonneg : ∀ x ∈ S, ∀ e ∈ E, 0 ≤ q x e
  inside : ∀ x ∈ S, ∀ e ∈ E, q x e ≠ 0 → τ x e ∈ S
  back : ∀ x ∈ S, ∀ e ∈ E, q x e ≠ 0 → τ (τ x e) e = x
  same : ∀ x ∈ S, ∀ e ∈ E, q x e ≠ 0 → q (τ x e) e = q x e
  way : ∀ x ∈ S, ∀ e ∈ E, q x e ≠ 0 → d (τ x e) e = -d x e

/-- The weight of a state. -/
def weight (x : α) : ℝ := (E.map (q x)).sum

/-- The mean of a function after one event. -/
noncomputable def step (f : α → ℝ) (x : α) : ℝ := (E.map fun e => q x e / weight E q x * f (τ x e)).sum

/-- The mean displacement of one event. -/
noncomputable def drift (x : α) : ℝ := (E.map fun e => q x e / weight E q x * d x e).sum

/-- The mean displacement of `n` events. -/
noncomputable def meanWalk : Nat → α → ℝ
  | 0, _ => 0
  | n + 1, x => (E.map fun e => q x e / weight E q x * (d x e + meanWalk n (τ x e))).sum

/-- The mean square displacement of `n` events. -/
noncomputable def meanSquareWalk : Nat → α → ℝ
  | 0, _ => 0
  | n + 1, x => (E.map fun e => q x e / weight E q x *
      (d x e ^ 2 + 2 * d x e * meanWalk E q τ d n (τ x e) + meanSquareWalk n (τ x e))).sum

/-- The weighted product. -/
def form (f g : α → ℝ) : ℝ := ∑ x ∈ S, weight E q x * (f x * g x)

theorem map_sum_congr {l : List ε} {f g : ε → ℝ} (h : ∀ e ∈ l, f e = g e) : (l.map f).sum = (l.map g).sum := by
  rw [List.map_congr_left h]

theorem map_sum_nonneg {l : List ε} {f : ε → ℝ} (h : ∀ e ∈ l, 0 ≤ f e) : 0 ≤ (l.map f).sum := by
  refine List.sum_nonneg ?_
  intro x hx
  obtain ⟨e, he, rfl⟩ := List.mem_map.1 hx
  exact h e he

theorem map_sum_add (l : List ε) (f g : ε → ℝ) : (l.map fun e => f e + g e).sum = (l.map f).sum + (l.map g).sum := by
  induction l with
  | nil => simp
  | cons a l ih => simp only [List.map_cons, List.sum_cons, ih]; ring

theorem map_sum_mul (l : List ε) (c : ℝ) (f : ε → ℝ) : (l.map fun e => c * f e).sum = c * (l.map f).sum := by
  induction l with
  | nil => simp
  | cons a l ih => simp only [List.map_cons, List.sum_cons, ih]; ring

theorem sum_map_swap (l : List ε) (G : ε → α → ℝ) :
    (∑ x ∈ S, (l.map fun e => G e x).sum) = (l.map fun e => ∑ x ∈ S, G e x).sum := by
  induction l with
  | nil => simp
  | cons a l ih => simp [Finset.sum_add_distrib, ih]

theorem zero_of_sum_zero {l : List ε} {f : ε → ℝ} (h : ∀ e ∈ l, 0 ≤ f e) (h0 : (l.map f).sum = 0) :
    ∀ e ∈ l, f e = 0 := by
  induction l with
  | nil => simp
  | cons a l ih =>
    simp only [List.map_cons, List.sum_cons] at h0
    have h1 := h a (by simp)
    have h2 := map_sum_nonneg fun e he => h e (List.mem_cons_of_mem a he)
    intro e he
    rcases List.mem_cons.1 he with rfl | he
    · linarith
    · exact ih (fun e he => h e (List.mem_cons_of_mem a he)) (by linarith) e he

section
variable {S E q τ d} (H : Reversible S E q τ d)
include H

theorem weight_mul {x : α} (hx : x ∈ S) (f : ε → ℝ) :
    weight E q x * (E.map fun e => q x e / weight E q x * f e).sum = (E.map fun e => q x e * f e).sum := by
  rw [← map_sum_mul]
  refine map_sum_congr fun e he => ?_
  by_cases h0 : weight E q x = 0
  · rw [zero_of_sum_zero (H.nonneg x hx) h0 e he]; simp
  · field_simp

theorem weight_nonneg {x : α} (hx : x ∈ S) : 0 ≤ weight E q x := map_sum_nonneg (H.nonneg x hx)

/-- Every event can be seen from its other end. -/
theorem other_end {e : ε} (he : e ∈ E) (F : α → α → ℝ) :
    ∑ x ∈ S, q x e * F x (τ x e) = ∑ x ∈ S, q x e * F (τ x e) x := by
  classical
  have key : ∀ G : α → ℝ, ∑ x ∈ S, q x e * G x = ∑ x ∈ S.filter (fun x => q x e ≠ 0), q x e * G x := by
    intro G
    rw [Finset.sum_filter]
    refine Finset.sum_congr rfl fun x _ => ?_
    by_cases h0 : q x e = 0 <;> simp [h0]
  rw [key fun x => F x (τ x e), key fun x => F (τ x e) x]
  refine Finset.sum_nbij' (fun x => τ x e) (fun x => τ x e) ?_ ?_ ?_ ?_ ?_
  · intro x hx
    obtain ⟨h1, h2⟩ := Finset.mem_filter.1 hx
    exact Finset.mem_filter.2 ⟨H.inside x h1 e he h2, by rw [H.same x h1 e he h2]; exact h2⟩
  · intro x hx
    obtain ⟨h1, h2⟩ := Finset.mem_filter.1 hx
    exact Finset.mem_filter.2 ⟨H.inside x h1 e he h2, by rw [H.same x h1 e he h2]; exact h2⟩
  · intro x hx
    obtain ⟨h1, h2⟩ := Finset.mem_filter.1 hx
    exact H.back x h1 e he h2
  · intro x hx
    obtain ⟨h1, h2⟩ := Finset.mem_filter.1 hx
    exact H.back x h1 e he h2
  · intro x hx
    obtain ⟨h1, h2⟩ := Finset.mem_filter.1 hx
    rw [H.same x h1 e he h2, H.back x h1 e he h2]

/-- A weighted sum of means of one event. -/
theorem weighted (G : α → ε → ℝ) :
    ∑ x ∈ S, weight E q x * (E.map fun e => q x e / weight E q x * G x e).sum =
      (E.map fun e => ∑ x ∈ S, q x e * G x e).sum := by
  rw [← sum_map_swap]
  exact Finset.sum_congr rfl fun x hx => weight_mul H hx _

theorem form_eq (f g : α → ℝ) : form S E q f g = (E.map fun e => ∑ x ∈ S, q x e * (f x * g x)).sum := by
  rw [← sum_map_swap]
  refine Finset.sum_congr rfl fun x _ => ?_
  rw [weight, mul_comm, ← map_sum_mul]
  exact map_sum_congr fun e _ => by ring

theorem form_eq' (f g : α → ℝ) :
    form S E q f g = (E.map fun e => ∑ x ∈ S, q x e * (f (τ x e) * g (τ x e))).sum := by
  rw [form_eq H]
  exact map_sum_congr fun e he => other_end H he fun x _ => f x * g x

theorem form_step (f g : α → ℝ) :
    form S E q f (step E q τ g) = (E.map fun e => ∑ x ∈ S, q x e * (f x * g (τ x e))).sum := by
  rw [← weighted H]
  refine Finset.sum_congr rfl fun x _ => ?_
  congr 1
  rw [step, ← map_sum_mul]
  exact map_sum_congr fun e _ => by ring

theorem form_comm (f g : α → ℝ) : form S E q f g = form S E q g f :=
  Finset.sum_congr rfl fun x _ => by rw [mul_comm (f x)]

theorem step_symm (f g : α → ℝ) : form S E q f (step E q τ g) = form S E q (step E q τ f) g := by
  rw [form_comm H (step E q τ f), form_step H, form_step H]
  refine map_sum_congr fun e he => ?_
  rw [other_end H he fun x y => f x * g y]
  exact Finset.sum_congr rfl fun x _ => by ring

theorem form_nonneg (f : α → ℝ) : 0 ≤ form S E q f f :=
  Finset.sum_nonneg fun x hx => mul_nonneg (weight_nonneg H hx) (mul_self_nonneg _)

theorem form_step_ge (f : α → ℝ) : 0 ≤ form S E q f f + form S E q f (step E q τ f) := by
  have h1 := form_eq H f f
  have h2 := form_eq' H f f
  have h3 := form_step H f f
  have h4 : (E.map fun e => ∑ x ∈ S, q x e * (f x + f (τ x e)) ^ 2).sum =
      form S E q f f + form S E q f f + 2 * form S E q f (step E q τ f) := by
    conv_rhs => rw [h3]; arg 1; arg 1; rw [h1]
    rw [h2, ← map_sum_mul, ← map_sum_add, ← map_sum_add]
    refine map_sum_congr fun e _ => ?_
    rw [Finset.mul_sum, ← Finset.sum_add_distrib, ← Finset.sum_add_distrib]
    exact Finset.sum_congr rfl fun x _ => by ring
  have h5 : 0 ≤ (E.map fun e => ∑ x ∈ S, q x e * (f x + f (τ x e)) ^ 2).sum :=
    map_sum_nonneg fun e he => Finset.sum_nonneg fun x hx => mul_nonneg (H.nonneg x hx e he) (sq_nonneg _)
  linarith

theorem step_le (f : α → ℝ) : form S E q (step E q τ f) (step E q τ f) ≤ form S E q f f := by
  rw [form_eq' H f f, ← sum_map_swap]
  refine Finset.sum_le_sum fun x hx => ?_
  have h1 := weight_mul H hx fun e => f (τ x e)
  have h2 : 0 ≤ (E.map fun e => q x e * (f (τ x e) - step E q τ f x) ^ 2).sum :=
    map_sum_nonneg fun e he => mul_nonneg (H.nonneg x hx e he) (sq_nonneg _)
  have h3 : (E.map fun e => q x e * (f (τ x e) - step E q τ f x) ^ 2).sum =
      (E.map fun e => q x e * (f (τ x e) * f (τ x e))).sum +
      (-2 * step E q τ f x * (E.map fun e => q x e * f (τ x e)).sum + step E q τ f x ^ 2 * weight E q x) := by
    rw [weight, ← map_sum_mul, ← map_sum_mul, ← map_sum_add, ← map_sum_add]
    exact map_sum_congr fun e _ => by ring
  rw [← h1] at h3
  change 0 ≤ _ at h2
  rw [h3] at h2
  have h4 : (E.map fun e => q x e / weight E q x * f (τ x e)).sum = step E q τ f x := rfl
  rw [h4] at h2
  nlinarith

omit H in
/-- The mean displacements of the single events. -/
theorem meanWalk_eq (n : Nat) (x : α) : meanWalk E q τ d (n + 1) x =
    drift E q d x + step E q τ (meanWalk E q τ d n) x := by
  rw [meanWalk, drift, step, ← map_sum_add]
  exact map_sum_congr fun e _ => by ring

/-- The product of the drift and the drift after `k` events. -/
noncomputable def memory (S : Finset α) (E : List ε) (q : α → ε → ℝ) (τ : α → ε → α) (d : α → ε → ℝ) (k : Nat) : ℝ :=
  form S E q (drift E q d) ((step E q τ)^[k] (drift E q d))

theorem memory_split (i j : Nat) :
    form S E q ((step E q τ)^[i] (drift E q d)) ((step E q τ)^[j] (drift E q d)) = memory S E q τ d (i + j) := by
  induction i generalizing j with
  | zero => rw [Nat.zero_add]; rfl
  | succ i ih =>
    rw [Function.iterate_succ_apply', ← step_symm H, ← Function.iterate_succ_apply' (step E q τ), ih]
    congr 1
    omega

theorem memory_even (j : Nat) : 0 ≤ memory S E q τ d (2 * j) := by
  rw [two_mul, ← memory_split H]
  exact form_nonneg H _

theorem memory_pair (j : Nat) : 0 ≤ memory S E q τ d (2 * j) + memory S E q τ d (2 * j + 1) := by
  have := form_step_ge H ((step E q τ)^[j] (drift E q d))
  rw [← Function.iterate_succ_apply' (step E q τ), memory_split H, memory_split H] at this
  rw [two_mul]
  exact this

theorem memory_antitone (j : Nat) : memory S E q τ d (2 * (j + 1)) ≤ memory S E q τ d (2 * j) := by
  have := step_le H ((step E q τ)^[j] (drift E q d))
  rw [← Function.iterate_succ_apply' (step E q τ), memory_split H, memory_split H] at this
  rw [two_mul, two_mul]
  convert this using 2

/-- All the memory of `n` events. -/
theorem form_walk (n : Nat) : ∀ i, form S E q ((step E q τ)^[i] (drift E q d)) (meanWalk E q τ d n) =
    ∑ k ∈ Finset.range n, memory S E q τ d (i + k) := by
  induction n with
  | zero => intro i; simp [form, meanWalk]
  | succ n ih =>
    intro i
    have h1 : form S E q ((step E q τ)^[i] (drift E q d)) (meanWalk E q τ d (n + 1)) =
        form S E q ((step E q τ)^[i] (drift E q d)) (drift E q d) +
          form S E q ((step E q τ)^[i] (drift E q d)) (step E q τ (meanWalk E q τ d n)) := by
      unfold form
      rw [← Finset.sum_add_distrib]
      exact Finset.sum_congr rfl fun x _ => by rw [meanWalk_eq]; ring
    rw [h1, step_symm H, ← Function.iterate_succ_apply' (step E q τ), ih, Finset.sum_range_succ']
    have h2 := memory_split H i 0
    simp only [Function.iterate_zero, id] at h2
    rw [h2, add_comm]
    congr 1
    exact Finset.sum_congr rfl fun k _ => by congr 1; omega

/-- The sum of the squares of all hops. -/
noncomputable def hopSquare (S : Finset α) (E : List ε) (q : α → ε → ℝ) (d : α → ε → ℝ) : ℝ :=
  (E.map fun e => ∑ x ∈ S, q x e * d x e ^ 2).sum

/-- What one event adds to the mean square displacement. -/
theorem square_succ (n : Nat) :
    ∑ x ∈ S, weight E q x * meanSquareWalk E q τ d (n + 1) x =
      ∑ x ∈ S, weight E q x * meanSquareWalk E q τ d n x + hopSquare S E q d -
        2 * ∑ k ∈ Finset.range n, memory S E q τ d k := by
  have h1 := form_walk H (d := d) n 0
  simp only [Function.iterate_zero, id, Nat.zero_add] at h1
  have h2 : form S E q (drift E q d) (meanWalk E q τ d n) =
      - (E.map fun e => ∑ x ∈ S, q x e * (d x e * meanWalk E q τ d n (τ x e))).sum := by
    have : form S E q (drift E q d) (meanWalk E q τ d n) =
        (E.map fun e => ∑ x ∈ S, q x e * (d x e * meanWalk E q τ d n x)).sum := by
      rw [← weighted H]
      refine Finset.sum_congr rfl fun x _ => ?_
      congr 1
      rw [drift, mul_comm, ← map_sum_mul]
      exact map_sum_congr fun e _ => by ring
    rw [this, ← neg_one_mul, ← map_sum_mul]
    refine map_sum_congr fun e he => ?_
    have h3 := other_end H he fun x y => d x e * meanWalk E q τ d n x
    rw [h3, Finset.mul_sum]
    refine Finset.sum_congr rfl fun x hx => ?_
    by_cases h0 : q x e = 0
    · simp [h0]
    · rw [H.way x hx e he h0]; ring
  have h4 : ∑ x ∈ S, weight E q x * meanSquareWalk E q τ d n x =
      (E.map fun e => ∑ x ∈ S, q x e * meanSquareWalk E q τ d n (τ x e)).sum := by
    have h5 := form_eq' H (meanSquareWalk E q τ d n) (fun _ => 1)
    simp only [mul_one] at h5
    rw [← h5]
    exact Finset.sum_congr rfl fun x _ => by simp
  simp only [meanSquareWalk]
  rw [weighted H, ← h1, h2, h4, hopSquare, mul_neg, sub_neg_eq_add, ← map_sum_mul, ← map_sum_add, ← map_sum_add]
  refine map_sum_congr fun e _ => ?_
  rw [Finset.mul_sum, ← Finset.sum_add_distrib, ← Finset.sum_add_distrib]
  exact Finset.sum_congr rfl fun x _ => by ring

theorem memory_sum_nonneg (n : Nat) : 0 ≤ ∑ k ∈ Finset.range n, memory S E q τ d k := by
  have even : ∀ j, 0 ≤ ∑ k ∈ Finset.range (2 * j), memory S E q τ d k := by
    intro j
    induction j with
    | zero => simp
    | succ j ih =>
      rw [show 2 * (j + 1) = 2 * j + 1 + 1 by ring, Finset.sum_range_succ, Finset.sum_range_succ]
      have := memory_pair H (d := d) j
      linarith
  obtain ⟨j, rfl | rfl⟩ := Nat.even_or_odd' n
  · exact even j
  · rw [Finset.sum_range_succ]
    exact add_nonneg (even j) (memory_even H j)

/-- In equilibrium the mean square displacement is at most the sum of the squares of the hops. -/
theorem square_le (n : Nat) :
    ∑ x ∈ S, weight E q x * meanSquareWalk E q τ d n x ≤ n * hopSquare S E q d := by
  induction n with
  | zero => simp [meanSquareWalk]
  | succ n ih =>
    rw [square_succ H]
    have := memory_sum_nonneg H (d := d) n
    push_cast
    linarith

end

/-- A sequence whose even and odd terms tend to the same limit. -/
theorem tendsto_even_odd {f : Nat → ℝ} {l : ℝ} (h0 : Tendsto (fun j => f (2 * j)) atTop (𝓝 l))
    (h1 : Tendsto (fun j => f (2 * j + 1)) atTop (𝓝 l)) : Tendsto f atTop (𝓝 l) := by
  rw [Metric.tendsto_atTop] at *
  intro r hr
  obtain ⟨a, ha⟩ := h0 r hr
  obtain ⟨b, hb⟩ := h1 r hr
  refine ⟨2 * max a b + 1, fun n hn => ?_⟩
  obtain ⟨j, rfl | rfl⟩ := Nat.even_or_odd' n
  · exact ha j (by have := le_max_left a b; omega)
  · exact hb j (by have := le_max_right a b; omega)

/-- A sequence with bounded memory grows in proportion to the number of events. -/
theorem grows_evenly {c M : Nat → ℝ} {A : ℝ} (hM0 : M 0 = 0)
    (hM : ∀ n, M (n + 1) = M n + A - 2 * ∑ k ∈ Finset.range n, c k) (hpos : ∀ n, 0 ≤ M n)
    (he : ∀ j, 0 ≤ c (2 * j)) (ha : ∀ j, c (2 * (j + 1)) ≤ c (2 * j)) (hp : ∀ j, 0 ≤ c (2 * j) + c (2 * j + 1)) :
    ∃ L, 0 ≤ L ∧ L ≤ A ∧ Tendsto (fun n : Nat => M n / n) atTop (𝓝 L) := by
  let T : Nat → ℝ := fun n => ∑ k ∈ Finset.range n, c k
  have hT : ∀ n, T (n + 1) = T n + c n := fun n => Finset.sum_range_succ _ _
  have hmono : Monotone fun j => T (2 * j) := by
    refine monotone_nat_of_le_succ fun j => ?_
    have := hp j
    rw [show 2 * (j + 1) = 2 * j + 1 + 1 by ring, hT, hT]
    linarith
  have hge : ∀ j n, 2 * j ≤ n → T (2 * j) ≤ T n := by
    intro j n hn
    obtain ⟨i, rfl | rfl⟩ := Nat.even_or_odd' n
    · exact hmono (by omega)
    · rw [hT]
      have h1 : T (2 * j) ≤ T (2 * i) := hmono (by omega)
      have := he i
      linarith
  have hT0 : ∀ n, 0 ≤ T n := fun n => by simpa [T] using hge 0 n (by omega)
  have hbound : ∀ j, T (2 * j) ≤ A / 2 := by
    intro j
    by_contra hlt
    push Not at hlt
    have hdown : ∀ n, M (2 * j + n) ≤ M (2 * j) - n * (2 * T (2 * j) - A) := by
      intro n
      induction n with
      | zero => simp
      | succ n ih =>
        rw [← add_assoc, hM]
        have h1 := hge j (2 * j + n) (by omega)
        simp only [T] at h1 ih ⊢
        push_cast
        linarith
    obtain ⟨n, hn⟩ := exists_nat_gt (M (2 * j) / (2 * T (2 * j) - A))
    rw [div_lt_iff₀ (by linarith)] at hn
    have h1 := hdown n
    have h2 := hpos (2 * j + n)
    linarith
  obtain ⟨t, ht⟩ : ∃ t, Tendsto (fun j => T (2 * j)) atTop (𝓝 t) :=
    ⟨_, tendsto_atTop_ciSup hmono ⟨A / 2, by rintro _ ⟨j, rfl⟩; exact hbound j⟩⟩
  have hanti : Antitone fun j => c (2 * j) := antitone_nat_of_succ_le ha
  obtain ⟨u, hu⟩ : ∃ u, Tendsto (fun j => c (2 * j)) atTop (𝓝 u) :=
    ⟨_, tendsto_atTop_ciInf hanti ⟨0, by rintro _ ⟨j, rfl⟩; exact he j⟩⟩
  have ht1 : Tendsto (fun j => T (2 * j + 1)) atTop (𝓝 (t + u)) := by
    simp only [hT]
    exact ht.add hu
  have ht2 : Tendsto (fun j => T (2 * j + 2)) atTop (𝓝 t) := by
    have := ht.comp (tendsto_add_atTop_nat 1)
    exact this.congr fun j => by simp only [Function.comp]; congr 1
  -- two events in a row
  have hpair : Tendsto (fun n => T n + T (n + 1)) atTop (𝓝 (t + (t + u))) := by
    refine tendsto_even_odd (ht.add ht1) ?_
    rw [add_comm]
    exact ht1.add ht2
  have hces := hpair.cesaro
  have hTle : ∀ n, T n ≤ A / 2 + c 0 := by
    intro n
    obtain ⟨i, rfl | rfl⟩ := Nat.even_or_odd' n
    · have := hbound i
      have := he 0
      simp only [mul_zero] at this
      linarith
    · rw [hT]
      have h1 := hbound i
      have h2 : c (2 * i) ≤ c (2 * 0) := hanti (Nat.zero_le i)
      simp only [mul_zero] at h2
      linarith
  have hvan : Tendsto (fun n : Nat => T n / n) atTop (𝓝 0) := by
    refine squeeze_zero (fun n => div_nonneg (hT0 n) (Nat.cast_nonneg n)) (fun n => ?_)
      (tendsto_const_div_atTop_nhds_zero_nat (A / 2 + c 0))
    exact div_le_div_of_nonneg_right (hTle n) (Nat.cast_nonneg n)
  have hMn : ∀ n : Nat, M n = n * A - (∑ k ∈ Finset.range n, (T k + T (k + 1))) + T n := by
    intro n
    induction n with
    | zero => simp [hM0, T]
    | succ n ih =>
      rw [hM, ih, Finset.sum_range_succ]
      simp only [T]
      push_cast
      ring
  have hlim : Tendsto (fun n : Nat => M n / n) atTop (𝓝 (A - (t + (t + u)) + 0)) := by
    refine ((tendsto_const_nhds.sub hces).add hvan).congr' ?_
    filter_upwards [eventually_gt_atTop 0] with n hn
    have : (n : ℝ) ≠ 0 := by exact_mod_cast hn.ne'
    rw [hMn]
    field_simp
  refine ⟨_, ?_, ?_, hlim⟩
  · exact ge_of_tendsto' hlim fun n => div_nonneg (hpos n) (Nat.cast_nonneg n)
  · have h1 : 0 ≤ t := ge_of_tendsto' ht fun j => hT0 _
    have h2 : 0 ≤ u := ge_of_tendsto' hu he
    linarith

/-- In equilibrium the mean square displacement per event has a limit, between zero and the square of a hop. -/
theorem square_limit {S : Finset α} {E : List ε} {q : α → ε → ℝ} {τ : α → ε → α} {d : α → ε → ℝ}
    (H : Reversible S E q τ d) (hpos : ∀ n, ∀ x ∈ S, 0 ≤ meanSquareWalk E q τ d n x) :
    ∃ L, 0 ≤ L ∧ L ≤ hopSquare S E q d ∧
      Tendsto (fun n : Nat => (∑ x ∈ S, weight E q x * meanSquareWalk E q τ d n x) / n) atTop (𝓝 L) :=
  grows_evenly (c := memory S E q τ d) (by simp [meanSquareWalk]) (square_succ H)
    (fun n => Finset.sum_nonneg fun x hx => mul_nonneg (weight_nonneg H hx) (hpos n x hx)) (memory_even H)
    (memory_antitone H) (memory_pair H)

/-! ### Means over paths -/

/-- The mean of a function of the first `n` events. -/
noncomputable def meanOver : Nat → α → (List ε → ℝ) → ℝ
  | 0, _, F => F []
  | n + 1, x, F => (E.map fun e => q x e / weight E q x * meanOver n (τ x e) (fun p => F (e :: p))).sum

/-- The displacement of a list of events. -/
def walk : α → List ε → ℝ
  | _, [] => 0
  | x, e :: p => d x e + walk (τ x e) p

section
variable {S E q τ d} (H : Reversible S E q τ d) (hw : ∀ x ∈ S, 0 < weight E q x)
include H hw

theorem shares {x : α} (hx : x ∈ S) (c : ℝ) : (E.map fun e => q x e / weight E q x * c).sum = c := by
  have h1 := weight_mul H hx fun _ => c
  have h2 : (E.map fun e => q x e * c).sum = weight E q x * c := by
    rw [weight, mul_comm, ← map_sum_mul]
    exact map_sum_congr fun e _ => mul_comm _ _
  rw [h2] at h1
  exact mul_left_cancel₀ (hw x hx).ne' h1

theorem mean_linear (n : Nat) : ∀ x ∈ S, ∀ a : ℝ,
    meanOver E q τ n x (fun p => a + walk τ d x p) = a + meanWalk E q τ d n x := by
  induction n with
  | zero => intro x _ a; simp [meanOver, walk, meanWalk]
  | succ n ih =>
    intro x hx a
    simp only [meanOver, meanWalk, walk]
    rw [← shares H hw hx a, ← map_sum_add]
    refine map_sum_congr fun e he => ?_
    by_cases h0 : q x e = 0
    · simp [h0]
    · have := ih (τ x e) (H.inside x hx e he h0) (a + d x e)
      simp only [add_assoc] at this
      rw [shares H hw hx a, this]
      ring

theorem mean_square (n : Nat) : ∀ x ∈ S, ∀ a : ℝ, meanOver E q τ n x (fun p => (a + walk τ d x p) ^ 2) =
    a ^ 2 + 2 * a * meanWalk E q τ d n x + meanSquareWalk E q τ d n x := by
  induction n with
  | zero => intro x _ a; simp [meanOver, walk, meanWalk, meanSquareWalk]
  | succ n ih =>
    intro x hx a
    have h1 : a ^ 2 = (E.map fun e => q x e / weight E q x * a ^ 2).sum := (shares H hw hx _).symm
    rw [h1, meanWalk, ← map_sum_mul, meanSquareWalk, ← map_sum_add, ← map_sum_add]
    simp only [meanOver, walk]
    refine map_sum_congr fun e he => ?_
    by_cases h0 : q x e = 0
    · simp [h0]
    · have := ih (τ x e) (H.inside x hx e he h0) (a + d x e)
      simp only [add_assoc] at this
      rw [this]
      ring

theorem meanOver_nonneg (n : Nat) : ∀ x ∈ S, ∀ F : List ε → ℝ, (∀ p, 0 ≤ F p) → 0 ≤ meanOver E q τ n x F := by
  induction n with
  | zero => intro x _ F hF; exact hF []
  | succ n ih =>
    intro x hx F hF
    refine map_sum_nonneg fun e he => ?_
    by_cases h0 : q x e = 0
    · simp [h0]
    · exact mul_nonneg (div_nonneg (H.nonneg x hx e he) (hw x hx).le)
        (ih _ (H.inside x hx e he h0) _ fun p => hF _)

theorem meanSquareWalk_eq (n : Nat) {x : α} (hx : x ∈ S) :
    meanOver E q τ n x (fun p => walk τ d x p ^ 2) = meanSquareWalk E q τ d n x := by
  have := mean_square H hw n x hx 0
  simpa using this

theorem meanSquareWalk_nonneg (n : Nat) {x : α} (hx : x ∈ S) : 0 ≤ meanSquareWalk E q τ d n x := by
  rw [← meanSquareWalk_eq H hw n hx]
  exact meanOver_nonneg H hw n x hx _ fun p => sq_nonneg _

/-- The two results for means over paths. -/
theorem path_square_le (n : Nat) :
    ∑ x ∈ S, weight E q x * meanOver E q τ n x (fun p => walk τ d x p ^ 2) ≤ n * hopSquare S E q d := by
  rw [Finset.sum_congr rfl fun x hx => by rw [meanSquareWalk_eq H hw n hx]]
  exact square_le H n

theorem path_square_limit : ∃ L, 0 ≤ L ∧ L ≤ hopSquare S E q d ∧
    Tendsto (fun n : Nat => (∑ x ∈ S, weight E q x * meanOver E q τ n x (fun p => walk τ d x p ^ 2)) / n) atTop
      (𝓝 L) := by
  obtain ⟨L, h1, h2, h3⟩ := square_limit H fun n x hx => meanSquareWalk_nonneg H hw n hx
  refine ⟨L, h1, h2, h3.congr fun n => ?_⟩
  congr 1
  exact Finset.sum_congr rfl fun x hx => by rw [meanSquareWalk_eq H hw n hx]

end

/-- The same for a walk in space. -/
theorem vector_square {S : Finset α} {E : List ε} {q : α → ε → ℝ} {τ : α → ε → α} {d : Fin 3 → α → ε → ℝ}
    (H : ∀ c, Reversible S E q τ (d c)) (hw : ∀ x ∈ S, 0 < weight E q x) {B : ℝ}
    (hB : ∑ c, hopSquare S E q (d c) ≤ B) :
    (∀ n : Nat, ∑ x ∈ S, weight E q x * ∑ c, meanOver E q τ n x (fun p => walk τ (d c) x p ^ 2) ≤ n * B) ∧
    ∃ L, 0 ≤ L ∧ L ≤ B ∧ Tendsto (fun n : Nat =>
      (∑ x ∈ S, weight E q x * ∑ c, meanOver E q τ n x (fun p => walk τ (d c) x p ^ 2)) / n) atTop (𝓝 L) := by
  have hsplit : ∀ n : Nat, ∑ x ∈ S, weight E q x * ∑ c, meanOver E q τ n x (fun p => walk τ (d c) x p ^ 2) =
      ∑ c, ∑ x ∈ S, weight E q x * meanOver E q τ n x (fun p => walk τ (d c) x p ^ 2) := by
    intro n
    rw [Finset.sum_comm]
    exact Finset.sum_congr rfl fun x _ => Finset.mul_sum _ _ _
  refine ⟨fun n => ?_, ?_⟩
  · rw [hsplit]
    calc _ ≤ ∑ c, (n : ℝ) * hopSquare S E q (d c) := Finset.sum_le_sum fun c _ => path_square_le (H c) hw n
      _ = n * ∑ c, hopSquare S E q (d c) := (Finset.mul_sum _ _ _).symm
      _ ≤ n * B := mul_le_mul_of_nonneg_left hB (Nat.cast_nonneg n)
  · choose L h1 h2 h3 using fun c => path_square_limit (H c) hw
    refine ⟨∑ c, L c, Finset.sum_nonneg fun c _ => h1 c, (Finset.sum_le_sum fun c _ => h2 c).trans hB, ?_⟩
    have := tendsto_finsetSum Finset.univ fun c _ => h3 c
    refine this.congr fun n => ?_
    rw [hsplit, Finset.sum_div]

end Walk
end KMC
