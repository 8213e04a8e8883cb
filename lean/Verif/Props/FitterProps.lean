import Mathlib.Algebra.BigOperators.Field
import Verif.Lemmas.Fitter
import Verif.Props.ParameterProps
/-
C53: undoing the normalisation of a fit.  C75: the leave-one-out error.  C76: the files of a fit.
-/
namespace KMC
namespace Fitter
open Spec Parameters

/-! ### C53 -/

/-- **C53.** A normalised fit returns coefficients and an intercept whose prediction for every row of
features, in the data or not, is that of the regression it solved: with every feature centred at
its weighted mean and divided by its spread, constant features included. -/
theorem C53_predictions {L : Lasso} {m n : Nat} {x : Fin m → Fin n → ℝ} {y : Fin m → ℝ}
    {weight : Option (Fin m → ℝ)} {f : Fitted m n} (h : fitValues L x y weight true = .ok f) :
    ∃ (mean scale beta : Fin n → ℝ) (yMean : ℝ),
      (∀ j, IsWeightedMean (effectiveWeights weight) (fun i => x i j) (mean j)) ∧
      IsWeightedMean (effectiveWeights weight) y yMean ∧
      (∀ j, IsSpread (fun i => x i j) (mean j) (scale j)) ∧
      L.coef (fun i j => (x i j - mean j) / scale j) (fun i => y i - yMean) weight = .ok beta ∧
      (∀ row : Fin n → ℝ, linear f.keci f.emptyCluster row
        = yMean + ∑ j, (row j - mean j) / scale j * beta j) ∧
      ∀ i, f.predicted i = linear f.keci f.emptyCluster (x i) := by
  obtain ⟨a, b, beta, hm, ha, hb, hbeta, hk, he, hp⟩ := fitValues_normalized h
  refine ⟨a, _, beta, b, fun j => averageColumns_mean hm ha j, average_mean hm hb,
    fun j => columnScale_spread x a j, hbeta, ?_, hp⟩
  intro row
  rw [he, hk]
  exact unnormalize b (fun j => (columnScale_spread x a j).1.ne') row

/-- **C53 (normalised features).** The features handed to the solver have weighted mean zero, and
each of them has Euclidean norm one or is zero throughout. -/
theorem C53_normalised_features {L : Lasso} {m n : Nat} {x : Fin m → Fin n → ℝ} {y : Fin m → ℝ}
    {weight : Option (Fin m → ℝ)} {f : Fitted m n} (h : fitValues L x y weight true = .ok f) :
    ∃ (z : Fin m → Fin n → ℝ) (v : Fin m → ℝ) (beta : Fin n → ℝ), L.coef z v weight = .ok beta ∧
      (∀ j, IsWeightedMean (effectiveWeights weight) (fun i => z i j) 0) ∧
      IsWeightedMean (effectiveWeights weight) v 0 ∧
      ∀ j, (∑ i, z i j ^ 2 = 1) ∨ ∀ i, z i j = 0 := by
  obtain ⟨mean, scale, beta, yMean, h1, h2, h3, h4, -⟩ := C53_predictions h
  refine ⟨_, _, beta, h4, ?_, ?_, ?_⟩
  · intro j
    refine ⟨(h1 j).1, ?_⟩
    rw [zero_mul]
    have : ∑ i, effectiveWeights weight i * ((x i j - mean j) / scale j)
        = (∑ i, effectiveWeights weight i * (x i j - mean j)) / scale j := by
      rw [Finset.sum_div]
      exact Finset.sum_congr rfl fun i _ => by ring
    rw [this, sum_dev (h1 j), zero_div]
  · exact ⟨h2.1, by rw [zero_mul, sum_dev h2]⟩
  · intro j
    rcases h3 j with ⟨hpos, hs | ⟨hs, -⟩⟩
    · left
      have : ∑ i, ((x i j - mean j) / scale j) ^ 2 = (∑ i, (x i j - mean j) ^ 2) / scale j ^ 2 := by
        rw [Finset.sum_div]
        exact Finset.sum_congr rfl fun i _ => by rw [div_pow]
      rw [this, ← hs, div_self (pow_ne_zero 2 hpos.ne')]
    · right
      intro i
      have hi := hs i
      simp only at hi
      rw [hi, sub_self, zero_div]

/-- **C53 (residuals).** The weighted residuals of a normalised fit add up to zero, whatever the
solver returned. -/
theorem C53_residuals {L : Lasso} {m n : Nat} {x : Fin m → Fin n → ℝ} {y : Fin m → ℝ}
    {weight : Option (Fin m → ℝ)} {f : Fitted m n} (h : fitValues L x y weight true = .ok f) :
    ∑ i, effectiveWeights weight i * (y i - f.predicted i) = 0 := by
  obtain ⟨a, b, beta, hm, ha, hb, hbeta, hk, he, hp⟩ := fitValues_normalized h
  have h1 := sum_dev (average_mean hm hb)
  have h2 := sum_dev_rows (fun j => averageColumns_mean hm ha j) f.keci
  have hr : ∀ i, effectiveWeights weight i * (y i - f.predicted i)
      = effectiveWeights weight i * (y i - b)
        - effectiveWeights weight i * ∑ j, (x i j - a j) * f.keci j := by
    intro i
    have : ∑ j, (x i j - a j) * f.keci j = dot (x i) f.keci - dot a f.keci := by
      unfold dot
      rw [← Finset.sum_sub_distrib]
      exact Finset.sum_congr rfl fun j _ => by ring
    rw [hp, he, this]
    ring
  rw [Finset.sum_congr rfl fun i _ => hr i, Finset.sum_sub_distrib, h1, h2, sub_zero]

/-- **C53 (optimality).** If the solver minimises the Lasso objective on the normalised data, the
returned coefficients and intercept minimise, over all coefficients and intercepts, the weighted
squared error on the original data plus the penalty with every coefficient scaled by the spread of
its feature. -/
theorem C53_optimal {L : Lasso} {c : ∀ {m : Nat}, (Fin m → ℝ) → ℝ} {alpha : ℝ} (hL : SolvesLasso L c alpha)
    {m n : Nat} {x : Fin m → Fin n → ℝ} {y : Fin m → ℝ} {weight : Option (Fin m → ℝ)} {f : Fitted m n}
    (h : fitValues L x y weight true = .ok f)
    (hc : 0 ≤ c (effectiveWeights weight)) (hw : 0 ≤ ∑ i, effectiveWeights weight i) :
    ∃ mean scale : Fin n → ℝ,
      (∀ j, IsWeightedMean (effectiveWeights weight) (fun i => x i j) (mean j)) ∧
      (∀ j, IsSpread (fun i => x i j) (mean j) (scale j)) ∧
      ∀ (k : Fin n → ℝ) (b : ℝ),
        lassoLoss (c (effectiveWeights weight)) alpha (effectiveWeights weight) x y scale f.keci f.emptyCluster
          ≤ lassoLoss (c (effectiveWeights weight)) alpha (effectiveWeights weight) x y scale k b := by
  obtain ⟨a, b, beta, hm, ha, hb, hbeta, hk, he, hp⟩ := fitValues_normalized h
  have hmean := fun j => averageColumns_mean hm ha j
  have hymean := average_mean hm hb
  have hspread := fun j => columnScale_spread x a j
  set s := fun j => columnScale (fun i j => x i j - a j) j with hs
  refine ⟨a, s, hmean, hspread, ?_⟩
  intro k t
  have hpos : ∀ j, 0 < s j := fun j => (hspread j).1
  have hopt := hL _ _ _ _ hbeta (fun j => s j * k j)
  have hnorm : ∀ (g : Fin n → ℝ) i, linear (fun j => s j * g j) 0 (fun j => (x i j - a j) / s j)
      = ∑ j, (x i j - a j) * g j := by
    intro g i
    unfold linear
    rw [add_zero]
    refine Finset.sum_congr rfl fun j _ => ?_
    have := (hpos j).ne'
    field_simp
  have hbeta' : beta = fun j => s j * f.keci j := by
    funext j
    rw [hk]
    exact (mul_div_cancel₀ _ (hpos j).ne').symm
  have hpen : ∀ g : Fin n → ℝ, ∑ j, 1 * |s j * g j| = ∑ j, s j * |g j| := by
    intro g
    refine Finset.sum_congr rfl fun j _ => ?_
    rw [one_mul, abs_mul, abs_of_pos (hpos j)]
  have hform : ∀ g : Fin n → ℝ, lassoLoss (c (effectiveWeights weight)) alpha (effectiveWeights weight)
      (fun i j => (x i j - a j) / s j) (fun i => y i - b) (fun _ => 1) (fun j => s j * g j) 0
      = c (effectiveWeights weight) * ∑ i, effectiveWeights weight i
          * (y i - b - ∑ j, (x i j - a j) * g j) ^ 2 + alpha * ∑ j, s j * |g j| := by
    intro g
    unfold lassoLoss
    rw [hpen]
    congr 2
    exact Finset.sum_congr rfl fun i _ => by rw [hnorm g i]
  rw [hbeta'] at hopt
  change lassoLoss _ _ _ (fun i j => (x i j - a j) / s j) _ _ _ _
    ≤ lassoLoss _ _ _ (fun i j => (x i j - a j) / s j) _ _ _ _ at hopt
  rw [hform, hform] at hopt
  have h1 : lassoLoss (c (effectiveWeights weight)) alpha (effectiveWeights weight) x y s f.keci f.emptyCluster
      = c (effectiveWeights weight) * ∑ i, effectiveWeights weight i
          * (y i - b - ∑ j, (x i j - a j) * f.keci j) ^ 2 + alpha * ∑ j, s j * |f.keci j| := by
    unfold lassoLoss
    rw [loss_split hmean hymean, he, sub_self]
    ring
  have h2 : lassoLoss (c (effectiveWeights weight)) alpha (effectiveWeights weight) x y s k t
      = c (effectiveWeights weight) * ∑ i, effectiveWeights weight i
          * (y i - b - ∑ j, (x i j - a j) * k j) ^ 2
        + c (effectiveWeights weight) * ((∑ i, effectiveWeights weight i) * (b - dot a k - t) ^ 2)
        + alpha * ∑ j, s j * |k j| := by
    unfold lassoLoss
    rw [loss_split hmean hymean]
    ring
  rw [h1, h2]
  have : 0 ≤ c (effectiveWeights weight) * ((∑ i, effectiveWeights weight i) * (b - dot a k - t) ^ 2) := by
    positivity
  linarith

/-- **C53 (not normalised).** Without normalisation the solver's own coefficients and intercept are
returned, with their predictions. -/
theorem C53_plain {L : Lasso} {m n : Nat} {x : Fin m → Fin n → ℝ} {y : Fin m → ℝ}
    {weight : Option (Fin m → ℝ)} {f : Fitted m n} (h : fitValues L x y weight false = .ok f) :
    L.coefIntercept x y weight = .ok (f.keci, f.emptyCluster) ∧
      ∀ i, f.predicted i = linear f.keci f.emptyCluster (x i) := by
  unfold fitValues at h
  split at h
  · cases h
  · rw [if_pos rfl] at h
    split at h
    · cases h
    · next k b hkb => cases h; exact ⟨hkb, fun i => rfl⟩

/-- **C53 (weights).** A normalised fit whose weights add up to zero is refused; otherwise it succeeds
exactly when the solver does. -/
theorem C53_succeeds (L : Lasso) {m n : Nat} (hm : 0 < m) (x : Fin m → Fin n → ℝ) (y w : Fin m → ℝ) :
    (∑ i, w i = 0 → fitValues L x y (some w) true = .error .zeroDivisionError) ∧
    (∑ i, w i ≠ 0 → (∀ (z : Fin m → Fin n → ℝ) v, ∃ beta, L.coef z v (some w) = .ok beta) →
      ∃ f, fitValues L x y (some w) true = .ok f) := by
  constructor
  · intro hw
    unfold fitValues
    rw [if_neg (by omega), if_neg (by simp)]
    simp only [averageColumns, if_pos hw]
  · intro hw hL
    unfold fitValues
    rw [if_neg (by omega), if_neg (by simp)]
    simp only [averageColumns, average, if_neg hw]
    obtain ⟨beta, hbeta⟩ := hL (fun i j => (x i j - (∑ i, w i * x i j) / ∑ i, w i) /
      columnScale (fun i j => x i j - (∑ i, w i * x i j) / ∑ i, w i) j) (fun i => y i - (∑ i, w i * y i) / ∑ i, w i)
    rw [hbeta]
    exact ⟨_, rfl⟩

/-! ### C75 -/

/-- **C75.** The leave-one-out error is the root mean square, over all data points, of the error at
that point of the fit to the data without that point. -/
theorem C75_leave_one_out {L : Lasso} {n : Nat} {x : List (Fin n → ℝ)} {y : List ℝ} {normalize : Bool} {r : ℝ}
    (hlen : x.length = y.length) (h : leaveOneOutRmse L x y normalize = .ok r) :
    ∃ (k : Nat → Fin n → ℝ) (b : Nat → ℝ),
      (∀ i < y.length, fitArrays L (x.eraseIdx i) (y.eraseIdx i) normalize = .ok (k i, b i)) ∧
      r = Real.sqrt ((∑ i : Fin y.length, (y[i] - linear (k i) (b i) (x[i]'(by have := i.isLt; omega))) ^ 2) / y.length) := by
  unfold leaveOneOutRmse at h
  split at h
  · cases h
  · next es hes =>
    have hmap := leftOutErrors_ok hes
    have hl : es.length = y.length := by
      have := congrArg List.length hmap
      simp only [List.length_map, List.length_range] at this
      exact this.symm
    have hi : ∀ i (hi : i < y.length), leftOutError L x y normalize i = .ok (es[i]'(by omega)) := by
      intro i hi
      have := congrArg (fun l => l[i]?) hmap
      simp only [List.getElem?_map, List.getElem?_range hi, Option.map_some] at this
      rw [List.getElem?_eq_getElem (by omega)] at this
      simpa using this
    have hfit : ∀ i (hi : i < y.length), ∃ kb : (Fin n → ℝ) × ℝ,
        fitArrays L (x.eraseIdx i) (y.eraseIdx i) normalize = .ok kb ∧
        es[i]'(by omega) = (y[i] - linear kb.1 kb.2 (x[i]'(by omega))) ^ 2 := by
      intro i hlt
      have hx := hi i hlt
      unfold leftOutError at hx
      rw [show masked x (trainMask y.length i) = x.eraseIdx i by rw [← hlen, masked_trainMask],
        masked_trainMask] at hx
      split at hx
      · cases hx
      · next k b hkb =>
        rw [List.getElem?_eq_getElem hlt, List.getElem?_eq_getElem (show i < x.length by omega)] at hx
        simp only [Except.ok.injEq] at hx
        exact ⟨(k, b), hkb, hx.symm⟩
    cases h
    classical
    let kb : Nat → (Fin n → ℝ) × ℝ := fun i => if h : i < y.length then (hfit i h).choose else (fun _ => 0, 0)
    refine ⟨fun i => (kb i).1, fun i => (kb i).2, ?_, ?_⟩
    · intro i hlt
      simp only [kb, dif_pos hlt]
      exact (hfit i hlt).choose_spec.1
    · rw [hl]
      congr 2
      have : es = List.ofFn fun i : Fin y.length => es[i]'(by omega) := by
        apply List.ext_getElem
        · simp [hl]
        · intro i h1 h2
          simp
      rw [this, List.sum_ofFn]
      refine Finset.sum_congr rfl fun i _ => ?_
      have hs := (hfit i i.isLt).choose_spec.2
      simp only [kb, dif_pos i.isLt]
      exact hs

/-- **C75 (independence).** The fit used for a left-out point does not depend on that point: it is the
same for all data that agree elsewhere. -/
theorem C75_left_out_point_unused (L : Lasso) {n : Nat} {x x' : List (Fin n → ℝ)} {y y' : List ℝ}
    (hx : x.length = y.length) (hx' : x'.length = y'.length) {i : Nat}
    (hsame : ∀ j : Nat, j ≠ i → x[j]? = x'[j]? ∧ y[j]? = y'[j]?) (normalize : Bool) :
    fitArrays L (masked x (trainMask y.length i)) (masked y (trainMask y.length i)) normalize
      = fitArrays L (masked x' (trainMask y'.length i)) (masked y' (trainMask y'.length i)) normalize := by
  have he : ∀ {α : Type} {l l' : List α}, (∀ j : Nat, j ≠ i → l[j]? = l'[j]?) → l.eraseIdx i = l'.eraseIdx i := by
    intro α l l' h
    apply List.ext_getElem?
    intro j
    rw [List.getElem?_eraseIdx, List.getElem?_eraseIdx]
    split
    · exact h j (by omega)
    · exact h (j + 1) (by omega)
  rw [masked_trainMask, masked_trainMask]
  conv_lhs => rw [← hx]
  conv_rhs => rw [← hx']
  rw [masked_trainMask, masked_trainMask, he fun j hj => (hsame j hj).1, he fun j hj => (hsame j hj).2]

/-! ### C76 -/

/-- **C76 (nothing on failure).** A fit that fails while its numbers are computed (the regression, the
comparison with the fingerprints, or the cross-validation) changes no file. -/
theorem C76_failed_numbers {L : Lasso} {out : Outside} {o : FitOptions} {m n : Nat} {x : Fin m → Fin n → ℝ}
    {y weight : Fin m → ℝ} {files : Files}
    (h : (∃ e, fitValues L x y (some weight) o.normalize = .error e) ∨
      (∃ l, o.orbitFingerprints = .list l ∧ l.length ≠ n) ∨
      ∃ e, leaveOneOutRmse L (List.ofFn x) (List.ofFn y) o.normalize = .error e) :
    (∃ e, (fit L out o x y weight files).1 = .error e) ∧ (fit L out o x y weight files).2 = files := by
  unfold fit
  cases h1 : fitValues L x y (some weight) o.normalize with
  | error e => exact ⟨⟨e, rfl⟩, rfl⟩
  | ok f =>
    cases h2 : checkFingerprints o.orbitFingerprints n with
    | error e => exact ⟨⟨e, rfl⟩, rfl⟩
    | ok u =>
      cases h3 : leaveOneOutRmse L (List.ofFn x) (List.ofFn y) o.normalize with
      | error e => exact ⟨⟨e, rfl⟩, rfl⟩
      | ok loocv =>
        exfalso
        rcases h with ⟨e, h⟩ | ⟨l, hl, hn⟩ | ⟨e, h⟩
        · rw [h1] at h; cases h
        · rw [hl] at h2
          simp only [checkFingerprints, PyVal.isNone, PyVal.len, Bool.false_eq_true, if_false] at h2
          rw [if_pos (Ne.symm hn)] at h2
          cases h2
        · rw [h3] at h; cases h

/-- **C76 (files of a fit).** A successful fit returns a record holding exactly the coefficients and
intercept of the regression on all data; the coefficient file holds those coefficients, the
parameter file loads as that record, and the history loads as it did before with that record at the
end. -/
theorem C76_files {L : Lasso} {out : Outside} {o : FitOptions} {m n : Nat} {x : Fin m → Fin n → ℝ}
    {y weight : Fin m → ℝ} {files files' : Files} {p : Params} {pred : Fin m → ℝ}
    (h : fit L out o x y weight files = (.ok (p, pred), files')) :
    ∃ f : Fitted m n, fitValues L x y (some weight) o.normalize = .ok f ∧ pred = f.predicted ∧
      p.keci = .list (List.ofFn fun j => out.float (f.keci j)) ∧ p.emptyCluster = out.float f.emptyCluster ∧
      files'.keci = some (List.ofFn f.keci) ∧
      (∀ path, o.paramsPath = some path → isH5 path = false → PlainRecord p →
        fromFile path files'.params = .ok p) ∧
      (∀ path old, o.historyPath = some path → isH5 path = false →
        files.history = .absent ∧ old = [] ∨ historyFromFile path files.history = .ok old →
        (∀ q ∈ old ++ [p], PlainRecord q) → (∀ q ∈ old, Persistent q) →
        historyFromFile path files'.history = .ok (old ++ [p])) := by
  unfold fit at h
  cases h1 : fitValues L x y (some weight) o.normalize with
  | error e => rw [h1] at h; cases h
  | ok f =>
    rw [h1] at h
    cases h2 : checkFingerprints o.orbitFingerprints n with
    | error e => rw [h2] at h; cases h
    | ok u =>
      rw [h2] at h
      cases h3 : leaveOneOutRmse L (List.ofFn x) (List.ofFn y) o.normalize with
      | error e => rw [h3] at h; cases h
      | ok loocv =>
        rw [h3] at h
        simp only at h
        split at h
        · cases h
        · next files1 hw =>
          simp only [Prod.mk.injEq, Except.ok.injEq] at h
          obtain ⟨⟨hp, hpred⟩, hf⟩ := h
          subst hf
          rw [hp] at hw
          have hper : Persistent p := by rw [← hp]; exact ⟨rfl, rfl⟩
          refine ⟨f, rfl, hpred.symm, by rw [← hp]; rfl, by rw [← hp]; rfl, ?_⟩
          unfold writeFiles at hw
          split at hw
          · cases hw
          · next filesA hA =>
            have hkeciA : filesA.keci = some (List.ofFn f.keci) ∧ filesA.history = files.history := by
              unfold writeParams at hA
              split at hA <;> (simp only [Prod.mk.injEq] at hA; rw [← hA.2]; exact ⟨rfl, rfl⟩)
            have hB : files1.keci = filesA.keci ∧ files1.params = filesA.params := by
              unfold writeHistory at hw
              split at hw <;> (simp only [Prod.mk.injEq] at hw; rw [← hw.2]; exact ⟨rfl, rfl⟩)
            refine ⟨by rw [hB.1, hkeciA.1], ?_, ?_⟩
            · intro path hpath h5 hplain
              rw [hB.2]
              unfold writeParams at hA
              rw [hpath] at hA
              simp only [Prod.mk.injEq] at hA
              rw [← hA.2]
              obtain ⟨disk, q, g1, g2, -, g3⟩ := C52_record (store := out.store) (path := path) (p := p)
                (by rw [h5]; exact hplain)
              rw [g1]
              simp only
              rw [g2, g3 hper]
            · intro path old hpath h5 hold hplain hpers
              unfold writeHistory at hw
              rw [hpath] at hw
              simp only [Prod.mk.injEq] at hw
              rw [← hw.2]
              simp only
              rw [hkeciA.2]
              have hpers' : ∀ q ∈ old ++ [p], Persistent q := by
                intro q hq
                rcases List.mem_append.mp hq with hq | hq
                · exact hpers q hq
                · rw [List.mem_singleton] at hq; rw [hq]; exact hper
              rcases hold with ⟨habs, rfl⟩ | hold
              · rw [habs]
                obtain ⟨d, k1, k2⟩ := C52_text_history_partial (store := out.store) h5
                  (h := [p]) hplain hpers'
                rw [appendHistory, k1]
                exact k2
              · obtain ⟨d, k1, k2⟩ := C52_fits_append (store := out.store) h5 hold hplain hpers'
                rw [appendAll] at k1
                have : appendHistory out.store path files.history p = (.ok (), d) := by
                  split at k1
                  · cases k1
                  · next heq => rw [heq]; exact k1
                rw [this]
                exact k2

/-- **C76 (what the record says).** The record of a successful fit gives the root mean square error of the
returned predictions, the leave-one-out error (C75), and the weights, penalty, normalisation, fingerprints and
environment hash that the fit was made with. -/
theorem C76_record {L : Lasso} {out : Outside} {o : FitOptions} {m n : Nat} {x : Fin m → Fin n → ℝ}
    {y weight : Fin m → ℝ} {files files' : Files} {p : Params} {pred : Fin m → ℝ}
    (h : fit L out o x y weight files = (.ok (p, pred), files')) :
    ∃ loocv, leaveOneOutRmse L (List.ofFn x) (List.ofFn y) o.normalize = .ok loocv ∧
      FitRecord out o y weight pred loocv p := by
  unfold fit at h
  cases h1 : fitValues L x y (some weight) o.normalize with
  | error e => rw [h1] at h; cases h
  | ok f =>
    rw [h1] at h
    cases h2 : checkFingerprints o.orbitFingerprints n with
    | error e => rw [h2] at h; cases h
    | ok u =>
      rw [h2] at h
      cases h3 : leaveOneOutRmse L (List.ofFn x) (List.ofFn y) o.normalize with
      | error e => rw [h3] at h; cases h
      | ok loocv =>
        rw [h3] at h
        simp only at h
        split at h
        · cases h
        · simp only [Prod.mk.injEq, Except.ok.injEq] at h
          obtain ⟨⟨hp, hpred⟩, hf⟩ := h
          refine ⟨loocv, rfl, ?_⟩
          rw [← hp, ← hpred]
          exact ⟨rfl, rfl, rfl, rfl, rfl, rfl, rfl, rfl, rfl⟩

/-- **C76, where it fails.** If the history file cannot be read, the fit raises, but the coefficient
and parameter files of the previous fit have been replaced already. -/
theorem C76_unreadable_history {L : Lasso} {out : Outside} {o : FitOptions} {m n : Nat}
    {x : Fin m → Fin n → ℝ} {y weight : Fin m → ℝ} {files : Files} {path hpath : String} {e : PyErr}
    {f : Fitted m n} {loocv : ℝ}
    (h1 : fitValues L x y (some weight) o.normalize = .ok f)
    (h2 : o.orbitFingerprints = .none)
    (h3 : leaveOneOutRmse L (List.ofFn x) (List.ofFn y) o.normalize = .ok loocv)
    (hp : o.paramsPath = some path) (h5 : isH5 path = false) (hh : o.historyPath = some hpath)
    (hne : files.history ≠ .absent) (hbad : historyFromFile hpath files.history = .error e) :
    (fit L out o x y weight files).1 = .error e ∧
      (fit L out o x y weight files).2.keci = some (List.ofFn f.keci) ∧
      (fit L out o x y weight files).2.params
        = .text (PyVal.json (.dict (record out o f weight (rmse y f.predicted) loocv).asDict)) ∧
      (fit L out o x y weight files).2.history = files.history := by
  have hfit : fit L out o x y weight files = (.error e,
      ⟨some (List.ofFn f.keci),
        .text (PyVal.json (.dict (record out o f weight (rmse y f.predicted) loocv).asDict)), files.history⟩) := by
    unfold fit
    rw [h1, h2, h3]
    simp only [checkFingerprints, PyVal.isNone, if_true]
    unfold writeFiles writeParams writeHistory
    rw [hp, hh]
    simp only [Params.to, h5, C52_unreadable_history_kept hne hbad, Bool.false_eq_true, if_false]
  rw [hfit]
  exact ⟨rfl, rfl, rfl, rfl⟩

/-! ### C77 -/

/-- **C77, where it fails.** A data set with a single cluster, or with a single entry, cannot be
fitted from its files: the fit raises for every choice of numbers and options, and writes nothing. -/
theorem C77_single_column_or_row (L : Lasso) (out : Outside) (o : FitOptions) {m n : Nat} (h : m = 1 ∨ n = 1)
    (x : Fin m → Fin n → ℝ) (y weight : Fin m → ℝ) (files : Files) :
    (∃ e, (fitFromFiles L out o x y weight files).1 = .error e) ∧
      (fitFromFiles L out o x y weight files).2 = files := by
  unfold fitFromFiles loadtxt
  by_cases hm : m = 1
  · by_cases hn : n = 1
    · rw [dif_pos hm, dif_pos hn]; exact ⟨⟨_, rfl⟩, rfl⟩
    · rw [dif_pos hm, dif_neg hn]; exact ⟨⟨_, rfl⟩, rfl⟩
  · rw [dif_neg hm, dif_pos (h.resolve_left hm)]; exact ⟨⟨_, rfl⟩, rfl⟩

/-- **C77.** With at least two clusters and two entries the files are read as they were written, and
the fit is the one of those numbers. -/
theorem C77_larger_partial (L : Lasso) (out : Outside) (o : FitOptions) {m n : Nat} (hm : 2 ≤ m) (hn : 2 ≤ n)
    (x : Fin m → Fin n → ℝ) (y weight : Fin m → ℝ) (files : Files) :
    loadtxt x = .matrix m n x ∧
      fitFromFiles L out o x y weight files = fit L out o x y weight files := by
  have : loadtxt x = .matrix m n x := by
    unfold loadtxt
    rw [dif_neg (by omega), dif_neg (by omega)]
  refine ⟨this, ?_⟩
  unfold fitFromFiles
  rw [this]

/-! ### Examples -/

/-- A solver that ignores the data; what C53 says holds for it too. -/
def exampleLasso : Lasso where
  coef := fun _ _ _ => .ok fun _ => 0
  coefIntercept := fun _ _ _ => .ok (fun _ => 0, 0)

/-- Non-vacuity of C53 and C75: three points, one constant feature, unequal weights. -/
example : ∃ f, fitValues exampleLasso (fun (i : Fin 3) (j : Fin 2) => if j = 0 then (i : ℝ) else 5)
    (fun i => 2 * i) (some fun i => i + 1) true = .ok f :=
  (C53_succeeds exampleLasso (by omega) _ _ _).2
    (by simp [Fin.sum_univ_succ]; norm_num) fun _ _ => ⟨_, rfl⟩

open Classical in
/-- A solver that gives up unless the centred targets vanish, where zero is the solution. -/
noncomputable def zeroLasso : Lasso where
  coef := fun _ y weight =>
    if (∀ i, y i = 0) ∧ ∀ i, 0 ≤ effectiveWeights weight i then .ok fun _ => 0 else .error .valueError
  coefIntercept := fun _ _ _ => .ok (fun _ => 0, 0)

/-- It meets the hypothesis of `C53_optimal`, -/
theorem zeroLasso_solves : SolvesLasso zeroLasso (fun _ => 1) 1 := by
  intro m n x y weight beta hb beta'
  simp only [zeroLasso] at hb
  split at hb
  · next hy =>
    simp only [Except.ok.injEq] at hb
    subst hb
    have h0 : lassoLoss 1 1 (effectiveWeights weight) x y (fun _ => 1) (fun _ => 0) 0 = 0 := by
      simp [lassoLoss, linear, hy.1]
    rw [h0]
    unfold lassoLoss
    have h1 : 0 ≤ ∑ i, effectiveWeights weight i * (y i - linear beta' 0 (x i)) ^ 2 :=
      Finset.sum_nonneg fun i _ => mul_nonneg (hy.2 i) (sq_nonneg _)
    have h2 : 0 ≤ ∑ j : Fin n, 1 * |beta' j| := Finset.sum_nonneg fun j _ => by positivity
    linarith
  · cases hb

/-- and it fits equal targets. -/
example : ∃ f, fitValues zeroLasso (fun (i : Fin 3) (_ : Fin 2) => (i : ℝ)) (fun _ => 7)
    (some fun _ => 2) true = .ok f := by
  have hcoef : ∀ {m n : Nat} (z : Fin m → Fin n → ℝ) (v : Fin m → ℝ) (w : Option (Fin m → ℝ)),
      (∀ i, v i = 0) → (∀ i, 0 ≤ effectiveWeights w i) → zeroLasso.coef z v w = .ok fun _ => 0 :=
    fun z v w h1 h2 => if_pos ⟨h1, h2⟩
  have h : ∑ _i : Fin 3, (2 : ℝ) ≠ 0 := by simp
  unfold fitValues
  rw [if_neg (by omega), if_neg (by simp)]
  simp only [averageColumns, average, if_neg h]
  rw [hcoef]
  · exact ⟨_, rfl⟩
  · intro i; simp; norm_num
  · intro i; simp [effectiveWeights]

/-- Two training points left out in turn. -/
theorem example_loo : ∃ r, leaveOneOutRmse exampleLasso [fun _ : Fin 1 => (1 : ℝ), fun _ => 2] [3, 4] false
    = .ok r := by
  have h : ∀ i ∈ List.range 2, ∃ e,
      leftOutError exampleLasso [fun _ : Fin 1 => (1 : ℝ), fun _ => 2] [3, 4] false i = .ok e := by
    intro i hi
    have hi : i = 0 ∨ i = 1 := by simp at hi; omega
    rcases hi with rfl | rfl <;> exact ⟨_, rfl⟩
  obtain ⟨e0, h0⟩ := h 0 (by simp)
  obtain ⟨e1, h1⟩ := h 1 (by simp)
  refine ⟨Real.sqrt ((e0 + (e1 + 0)) / 2), ?_⟩
  simp only [leaveOneOutRmse, List.length_cons, List.length_nil, Nat.zero_add, Nat.reduceAdd,
    show List.range 2 = [0, 1] from rfl, leftOutErrors, h0, h1, List.sum_cons, List.sum_nil]
  norm_num

/-- Options of a fit with the default file names. -/
def exampleOptions : FitOptions where
  alpha := 1
  normalize := false
  paramsPath := some "lce_params.json"
  historyPath := some "lce_params_history.json"
  orbitFingerprints := .none
  localEnvironmentHash := .none

/-- Numbers are written as some float. -/
def exampleOutside : Outside where
  float := fun _ => .float (.fin 0)
  store := .ok
  timeStamp := .float (.fin 1)
  time := .str "now"

/-- A first fit with no files succeeds, and its record is plain. -/
example : ∃ p pred files, fit exampleLasso exampleOutside exampleOptions
    (fun (i : Fin 2) (_ : Fin 1) => if i = 0 then (1 : ℝ) else 2) (fun i => if i = 0 then (3 : ℝ) else 4)
    (fun _ => 1) ⟨none, .absent, .absent⟩ = (.ok (p, pred), files) := by
  obtain ⟨r, hr⟩ := example_loo
  have h1 : (List.ofFn fun (i : Fin 2) (_ : Fin 1) => if i = 0 then (1 : ℝ) else 2)
      = [fun _ => 1, fun _ => 2] := by
    simp [List.ofFn_succ]
  have h2 : (List.ofFn fun (i : Fin 2) => if i = 0 then (3 : ℝ) else 4) = [3, 4] := by
    simp [List.ofFn_succ]
  have h5 : isH5 "lce_params.json" = false := by decide +kernel
  have h5' : isH5 "lce_params_history.json" = false := by decide +kernel
  unfold fit
  rw [h1, h2, show exampleOptions.normalize = false from rfl, hr]
  simp only [fitValues, exampleLasso, checkFingerprints, exampleOptions, PyVal.isNone, writeFiles, writeParams,
    writeHistory, Params.to, h5, appendHistory, historyTo, h5']
  exact ⟨_, _, _, rfl⟩

end Fitter
end KMC
