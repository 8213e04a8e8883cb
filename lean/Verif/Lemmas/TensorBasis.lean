import Mathlib.Algebra.BigOperators.Fin
import Mathlib.Data.Fintype.BigOperators
import Mathlib.Data.Fintype.Pi
import Mathlib.Logic.Equiv.Fin.Basic
import Mathlib.Algebra.Field.Defs
import Mathlib.Tactic.Ring
/-
Functions of several finite variables as combinations of products of one-variable functions.
-/
namespace KMC

theorem sum_cons {K : Type} [CommRing K] {n : Nat} (q : Fin (n + 1) → Nat)
    (f : (∀ i, Fin (q i)) → K) :
    ∑ m, f m = ∑ k : Fin (q 0), ∑ t : (∀ i : Fin n, Fin (q i.succ)), f (Fin.cons k t) := by
  rw [← Fintype.sum_prod_type']
  exact (Fintype.sum_equiv (Fin.consEquiv fun i => Fin (q i)) (fun p => f (Fin.cons p.1 p.2)) f
    fun p => rfl).symm

/-- If every function of each variable is a combination of the given functions of that variable in exactly
one way, then every function of all variables is a combination of their products in exactly one way. -/
theorem tensor_unique {K : Type} [CommRing K] : ∀ {n : Nat} (q : Fin n → Nat)
    (v : ∀ i, Fin (q i) → Fin (q i) → K)
    (_ : ∀ i, ∀ f : Fin (q i) → K, ∃! c : Fin (q i) → K, ∀ a, f a = ∑ k, c k * v i k a)
    (F : (∀ i, Fin (q i)) → K),
    ∃! w : (∀ i, Fin (q i)) → K, ∀ x, F x = ∑ m, w m * ∏ i, v i (m i) (x i)
  | 0, q, v, _, F => by
    refine ⟨F, fun x => ?_, fun w hw => ?_⟩
    · have : ∀ m : (∀ i : Fin 0, Fin (q i)), m = x := fun m => funext fun i => i.elim0
      rw [Fintype.sum_eq_single x fun m hm => absurd (this m) hm]
      simp
    · funext x
      have : ∀ m : (∀ i : Fin 0, Fin (q i)), m = x := fun m => funext fun i => i.elim0
      have h := hw x
      rw [Fintype.sum_eq_single x fun m hm => absurd (this m) hm] at h
      simp only [Finset.univ_eq_empty, Finset.prod_empty, mul_one] at h
      exact h.symm
  | n + 1, q, v, h, F => by
    have ih := tensor_unique (fun i : Fin n => q i.succ) (fun i => v i.succ) (fun i => h i.succ)
    have key : ∀ (w : (∀ i, Fin (q i)) → K) (a : Fin (q 0)) (t : ∀ i : Fin n, Fin (q i.succ)),
        ∑ m, w m * ∏ i, v i (m i) ((Fin.cons a t : ∀ i, Fin (q i)) i) =
          ∑ k, (∑ s : (∀ i : Fin n, Fin (q i.succ)), w (Fin.cons k s) * ∏ i, v i.succ (s i) (t i)) * v 0 k a := by
      intro w a t
      rw [sum_cons]
      refine Finset.sum_congr rfl fun k _ => ?_
      rw [Finset.sum_mul]
      refine Finset.sum_congr rfl fun s _ => ?_
      rw [Fin.prod_univ_succ]
      simp only [Fin.cons_zero, Fin.cons_succ]
      ring
    choose c hc hc' using fun t : (∀ i : Fin n, Fin (q i.succ)) => h 0 fun a => F (Fin.cons a t)
    choose w hw hw' using fun k : Fin (q 0) => ih fun t => c t k
    refine ⟨fun m => w (m 0) (Fin.tail m), fun x => ?_, fun u hu => ?_⟩
    · rw [← Fin.cons_self_tail x, key, hc (Fin.tail x) (x 0)]
      refine Finset.sum_congr rfl fun k _ => ?_
      rw [hw k (Fin.tail x)]
      simp only [Fin.cons_zero, Fin.tail_cons]
    · funext m
      have h1 : ∀ t, (fun k => ∑ s : (∀ i : Fin n, Fin (q i.succ)), u (Fin.cons k s) * ∏ i, v i.succ (s i) (t i)) =
          c t := by
        intro t
        refine hc' t _ fun a => ?_
        rw [hu (Fin.cons a t), key]
      have h2 : ∀ k, (fun s => u (Fin.cons k s)) = w k := by
        intro k
        refine hw' k _ fun t => ?_
        rw [← h1 t]
      have := congrFun (h2 (m 0)) (Fin.tail m)
      rw [Fin.cons_self_tail] at this
      exact this

end KMC
