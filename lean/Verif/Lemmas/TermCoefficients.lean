import Verif.Lemmas.TensorBasis
import Verif.Spec.LCE
/-
Sums of terms, each a sum of products of one-variable functions, as combinations of those products.
-/
namespace KMC
open Spec

section
variable {K : Type} [CommRing K] {n : Nat} {q : Fin n → Nat}

/-- One product: `m i` chooses the function of variable `i`. -/
def monomial (v : ∀ i, Fin (q i) → Fin (q i) → K) (m x : ∀ i, Fin (q i)) : K := ∏ i, v i (m i) (x i)

theorem sum_count (g : (∀ i, Fin (q i)) → K) (o : List (∀ i, Fin (q i))) :
    ∑ m, (o.count m : K) * g m = (o.map g).sum := by
  induction o with
  | nil => simp
  | cons a o ih =>
    simp only [List.count_cons, List.map_cons, List.sum_cons, ← ih, Nat.cast_add, add_mul, Finset.sum_add_distrib]
    rw [add_comm]
    congr 1
    rw [Fintype.sum_eq_single a]
    · simp
    · intro m hm
      simp [beq_eq_false_iff_ne.2 fun h : a = m => hm h.symm]

/-- The coefficient of the product `m` in an expansion. -/
def coefficient (m0 : ∀ i, Fin (q i)) (F : List (List (∀ i, Fin (q i)))) (e0 : K) (keci : List K)
    (m : ∀ i, Fin (q i)) : K :=
  (if m = m0 then e0 else 0) + ((keci.zip F).map fun ko => ko.1 * (ko.2.count m : K)).sum

theorem expansion_eq (v : ∀ i, Fin (q i) → Fin (q i) → K) (m0 : ∀ i, Fin (q i))
    (h0 : ∀ x, monomial v m0 x = 1) (F : List (List (∀ i, Fin (q i)))) (e0 : K) (keci : List K)
    (x : ∀ i, Fin (q i)) :
    expansion e0 keci (F.map fun o => (o.map fun m => monomial v m x).sum) =
      ∑ m, coefficient m0 F e0 keci m * monomial v m x := by
  have key : ∀ L : List (K × List (∀ i, Fin (q i))),
      ∑ m, (L.map fun ko => ko.1 * (ko.2.count m : K)).sum * monomial v m x =
        (L.map fun ko => ko.1 * (ko.2.map fun m => monomial v m x).sum).sum := by
    intro L
    induction L with
    | nil => simp
    | cons a L ih =>
      simp only [List.map_cons, List.sum_cons, add_mul, Finset.sum_add_distrib, ih]
      congr 1
      rw [← sum_count, Finset.mul_sum]
      exact Finset.sum_congr rfl fun m _ => by ring
  simp only [coefficient, add_mul, Finset.sum_add_distrib, key]
  rw [Fintype.sum_eq_single m0 (fun m hm => by simp [hm]), if_pos rfl, h0, mul_one]
  unfold expansion
  rw [List.zip_map_right, List.map_map]
  rfl

theorem coefficient_absent {m0 m : ∀ i, Fin (q i)} {F : List (List (∀ i, Fin (q i)))} {e0 : K} {keci : List K}
    (h : m ∉ F.flatten) : coefficient m0 F e0 keci m = if m = m0 then e0 else 0 := by
  unfold coefficient
  have : ((keci.zip F).map fun ko => ko.1 * (ko.2.count m : K)).sum = 0 := by
    apply List.sum_eq_zero
    intro y hy
    obtain ⟨ko, hko, rfl⟩ := List.mem_map.1 hy
    have : ko.2.count m = 0 := by
      rw [List.count_eq_zero]
      exact fun hm => h (List.mem_flatten.2 ⟨_, (List.of_mem_zip hko).2, hm⟩)
    simp [this]
  rw [this, add_zero]

theorem coefficient_present {m0 m : ∀ i, Fin (q i)} {e0 : K} (hm : m ≠ m0) :
    ∀ {F : List (List (∀ i, Fin (q i)))} {keci : List K} (_ : F.flatten.Nodup) (_ : keci.length = F.length)
      {j : Nat} {o : List (∀ i, Fin (q i))} {k : K} (_ : F[j]? = some o) (_ : keci[j]? = some k) (_ : m ∈ o),
      coefficient m0 F e0 keci m = k
  | [], _, _, _, _, _, _, h, _, _ => by simp at h
  | o :: F, [], _, h, _, _, _, _, _, _ => by simp at h
  | o' :: F, k' :: keci, hnd, hl, j, o, k, hj, hk, hmo => by
    rw [List.flatten_cons, List.nodup_append'] at hnd
    have hstep : coefficient m0 (o' :: F) e0 (k' :: keci) m =
        k' * (o'.count m : K) + coefficient m0 F e0 keci m := by
      simp only [coefficient, List.zip_cons_cons, List.map_cons, List.sum_cons, if_neg hm]
      ring
    rw [hstep]
    cases j with
    | zero =>
      simp only [List.getElem?_cons_zero, Option.some.injEq] at hj hk
      subst hj hk
      rw [coefficient_absent (fun h => hnd.2.2 hmo h), if_neg hm, List.count_eq_one_of_mem hnd.1 hmo]
      simp
    | succ j =>
      simp only [List.getElem?_cons_succ] at hj hk
      have hmf : m ∈ F.flatten := List.mem_flatten.2 ⟨o, List.mem_of_getElem? hj, hmo⟩
      rw [List.count_eq_zero.2 (fun h => hnd.2.2 h hmf),
        coefficient_present hm hnd.2.1 (by simpa using hl) hj hk hmo]
      simp

/-- Different coefficients give different functions. -/
theorem expansion_unique {v : ∀ i, Fin (q i) → Fin (q i) → K}
    (hv : ∀ i, ∀ f : Fin (q i) → K, ∃! c : Fin (q i) → K, ∀ a, f a = ∑ k, c k * v i k a)
    {m0 : ∀ i, Fin (q i)} (h0 : ∀ x, monomial v m0 x = 1) {F : List (List (∀ i, Fin (q i)))}
    (hnd : F.flatten.Nodup) (hne : ∀ o ∈ F, o ≠ []) (hm0 : m0 ∉ F.flatten) {e0 e0' : K} {keci keci' : List K}
    (hl : keci.length = F.length) (hl' : keci'.length = F.length)
    (h : ∀ x, expansion e0 keci (F.map fun o => (o.map fun m => monomial v m x).sum) =
      expansion e0' keci' (F.map fun o => (o.map fun m => monomial v m x).sum)) :
    e0 = e0' ∧ keci = keci' := by
  obtain ⟨w, -, hw⟩ := tensor_unique q v hv
    fun x => expansion e0 keci (F.map fun o => (o.map fun m => monomial v m x).sum)
  have h1 := hw (coefficient m0 F e0 keci) fun x => expansion_eq v m0 h0 F e0 keci x
  have h2 := hw (coefficient m0 F e0' keci') fun x => (h x).trans (expansion_eq v m0 h0 F e0' keci' x)
  have h3 : coefficient m0 F e0 keci = coefficient m0 F e0' keci' := h1.trans h2.symm
  refine ⟨?_, ?_⟩
  · have := congrFun h3 m0
    rwa [coefficient_absent hm0, coefficient_absent hm0, if_pos rfl, if_pos rfl] at this
  · apply List.ext_getElem (hl.trans hl'.symm)
    intro j hj hj'
    have hjF : j < F.length := hl ▸ hj
    obtain ⟨m, hm⟩ := List.exists_mem_of_ne_nil _ (hne _ (List.getElem_mem hjF))
    have hmne : m ≠ m0 := fun hh => hm0 (hh ▸ List.mem_flatten.2 ⟨_, List.getElem_mem hjF, hm⟩)
    have := congrFun h3 m
    rwa [coefficient_present hmne hnd hl (List.getElem?_eq_getElem hjF) (List.getElem?_eq_getElem hj) hm,
      coefficient_present hmne hnd hl' (List.getElem?_eq_getElem hjF) (List.getElem?_eq_getElem hj') hm] at this

/-- If every product is a term of its own, every function has coefficients. -/
theorem expansion_complete {v : ∀ i, Fin (q i) → Fin (q i) → K}
    (hv : ∀ i, ∀ f : Fin (q i) → K, ∃! c : Fin (q i) → K, ∀ a, f a = ∑ k, c k * v i k a)
    {m0 : ∀ i, Fin (q i)} (h0 : ∀ x, monomial v m0 x = 1) {F : List (List (∀ i, Fin (q i)))}
    (hnd : F.flatten.Nodup) (hone : ∀ o ∈ F, ∃ m, o = [m]) (hm0 : m0 ∉ F.flatten)
    (hall : ∀ m, m ≠ m0 → m ∈ F.flatten) (f : (∀ i, Fin (q i)) → K) :
    ∃ (e0 : K) (keci : List K), keci.length = F.length ∧
      ∀ x, expansion e0 keci (F.map fun o => (o.map fun m => monomial v m x).sum) = f x := by
  obtain ⟨w, hw, -⟩ := tensor_unique q v hv f
  refine ⟨w m0, F.map fun o => w (o.headD m0), by simp, fun x => ?_⟩
  rw [expansion_eq v m0 h0, hw x]
  refine Finset.sum_congr rfl fun m _ => ?_
  congr 1
  by_cases hm : m = m0
  · subst hm
    rw [coefficient_absent hm0, if_pos rfl]
  · obtain ⟨o, ho, hmo⟩ := List.mem_flatten.1 (hall m hm)
    obtain ⟨j, hj⟩ := List.mem_iff_getElem?.1 ho
    obtain ⟨m', rfl⟩ := hone o ho
    rw [List.mem_singleton] at hmo
    subst hmo
    exact coefficient_present hm hnd (by simp) hj (by rw [List.getElem?_map, hj]; rfl) (List.mem_singleton_self _)

/-- A function has coefficients if its own coefficients vanish outside the terms and are equal within each. -/
theorem expansion_exists {v : ∀ i, Fin (q i) → Fin (q i) → K} {m0 : ∀ i, Fin (q i)}
    (h0 : ∀ x, monomial v m0 x = 1) {F : List (List (∀ i, Fin (q i)))} (hnd : F.flatten.Nodup)
    (hm0 : m0 ∉ F.flatten) {f : (∀ i, Fin (q i)) → K} {w : (∀ i, Fin (q i)) → K}
    (hw : ∀ x, f x = ∑ m, w m * monomial v m x) (hzero : ∀ m, m ≠ m0 → m ∉ F.flatten → w m = 0)
    (hconst : ∀ o ∈ F, ∀ m ∈ o, ∀ m' ∈ o, w m = w m') :
    ∃ (e0 : K) (keci : List K), keci.length = F.length ∧
      ∀ x, expansion e0 keci (F.map fun o => (o.map fun m => monomial v m x).sum) = f x := by
  refine ⟨w m0, F.map fun o => w (o.headD m0), by simp, fun x => ?_⟩
  rw [expansion_eq v m0 h0, hw x]
  refine Finset.sum_congr rfl fun m _ => ?_
  congr 1
  by_cases hm : m = m0
  · subst hm
    rw [coefficient_absent hm0, if_pos rfl]
  · by_cases hF : m ∈ F.flatten
    · obtain ⟨o, ho, hmo⟩ := List.mem_flatten.1 hF
      obtain ⟨j, hj⟩ := List.mem_iff_getElem?.1 ho
      have h1 : w (o.headD m0) = w m := by
        cases o with
        | nil => cases hmo
        | cons r t => exact hconst _ ho r List.mem_cons_self m hmo
      rw [← h1]
      exact coefficient_present hm hnd (by simp) hj (by rw [List.getElem?_map, hj]; rfl) hmo
    · rw [coefficient_absent hF, if_neg hm, hzero m hm hF]

/-- A function that does not depend on a variable has no products with a function of it. -/
theorem coefficient_independent {v : ∀ i, Fin (q i) → Fin (q i) → K}
    (hv : ∀ i, ∀ f : Fin (q i) → K, ∃! c : Fin (q i) → K, ∀ a, f a = ∑ k, c k * v i k a)
    {m0 : ∀ i, Fin (q i)} (h0 : ∀ i a, v i (m0 i) a = 1) {f : (∀ i, Fin (q i)) → K}
    {w : (∀ i, Fin (q i)) → K} (hw : ∀ x, f x = ∑ m, w m * monomial v m x) (i : Fin n) (a : Fin (q i))
    (hf : ∀ x, f (Function.update x i a) = f x) (m : ∀ i, Fin (q i)) (hm : m i ≠ m0 i) : w m = 0 := by
  obtain ⟨u, -, hu⟩ := tensor_unique q v hv f
  have h1 := hu w hw
  have h2 := hu (fun m' => ∑ m'' with Function.update m'' i (m0 i) = m', w m'' * v i (m'' i) a) (by
    intro x
    rw [← hf x, hw]
    have hstep : ∀ m'' : (∀ i, Fin (q i)), w m'' * monomial v m'' (Function.update x i a) =
        (w m'' * v i (m'' i) a) * monomial v (Function.update m'' i (m0 i)) x := by
      intro m''
      unfold monomial
      rw [← Finset.mul_prod_erase _ _ (Finset.mem_univ i), ← Finset.mul_prod_erase _ _ (Finset.mem_univ i)]
      simp only [Function.update_self, h0, one_mul]
      rw [mul_assoc]
      congr 2
      refine Finset.prod_congr rfl fun j hj => ?_
      have hji : j ≠ i := Finset.ne_of_mem_erase hj
      rw [Function.update_of_ne hji, Function.update_of_ne hji]
    rw [Finset.sum_congr rfl fun m'' _ => hstep m'',
      ← Finset.sum_fiberwise Finset.univ (fun m'' => Function.update m'' i (m0 i))]
    refine Finset.sum_congr rfl fun m' _ => ?_
    rw [Finset.sum_mul]
    refine Finset.sum_congr rfl fun m'' hm'' => ?_
    rw [(Finset.mem_filter.1 hm'').2]
    rfl)
  rw [h1.trans h2.symm]
  refine Finset.sum_eq_zero fun m'' hm'' => ?_
  have := (Finset.mem_filter.1 hm'').2
  rw [← this] at hm
  simp at hm

/-- A product that is in no term is not a combination of the terms. -/
theorem expansion_misses [Nontrivial K] {v : ∀ i, Fin (q i) → Fin (q i) → K}
    (hv : ∀ i, ∀ f : Fin (q i) → K, ∃! c : Fin (q i) → K, ∀ a, f a = ∑ k, c k * v i k a)
    {m0 : ∀ i, Fin (q i)} (h0 : ∀ x, monomial v m0 x = 1) {F : List (List (∀ i, Fin (q i)))}
    {m : ∀ i, Fin (q i)} (hm : m ≠ m0) (hmF : m ∉ F.flatten) (e0 : K) (keci : List K) :
    ∃ x, expansion e0 keci (F.map fun o => (o.map fun m => monomial v m x).sum) ≠ monomial v m x := by
  by_contra hcon
  push Not at hcon
  obtain ⟨w, -, hw⟩ := tensor_unique q v hv (monomial v m)
  have h1 := hw (coefficient m0 F e0 keci) fun x => by rw [← hcon x]; exact expansion_eq v m0 h0 F e0 keci x
  have h2 := hw (fun m' => if m' = m then 1 else 0) fun x => by
    rw [Fintype.sum_eq_single m (fun m' hm' => by simp [hm'])]
    simp [monomial]
  have h3 := congrFun (h1.trans h2.symm) m
  rw [coefficient_absent hmF, if_neg hm, if_pos rfl] at h3
  exact zero_ne_one h3

end
end KMC
