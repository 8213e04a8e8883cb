import Verif.Model.Composite
import Verif.Model.Propose
/-
The rates of `kmcpy/models/composite_lce_model.py` with barriers from
`kmcpy/models/local_cluster_expansion.py` as the computer evaluates them: every addition, multiplication and
division of floating-point numbers is rounded.

Simplifications.  `np.inner` adds the products in the order of the vectors (a linear algebra library may add
them in another order or fuse a product with an addition).  Products of occupation numbers are integers and
exact; the compiled loop computes them with 64-bit integers.  The exponential function of the library is a
parameter.  Overflow to infinity is not represented (for that see `Model/Overflow.lean`).
-/
namespace KMC
namespace LCE

/-- Loop over the clusters of an orbit with rounded additions, `local_cluster_expansion.py:841-845`. -/
noncomputable def orbitSumFloat (R : Rounding) (occ : List Int) : List (List Int) → ℝ → Py ℝ
  | [], acc => .ok acc
  | c :: cs, acc =>
    match clusterProduct (K := ℝ) occ c 1 with
    | .error e => .error e
    | .ok p => orbitSumFloat R occ cs (R.rnd (acc + p))

/-- `_calc_corr` with rounded additions, `local_cluster_expansion.py:829-846`. -/
noncomputable def calcCorrFloat (R : Rounding) (occ : List Int) : List (List (List Int)) → Py (List ℝ)
  | [] => .ok []
  | o :: os =>
    match orbitSumFloat R occ o 0 with
    | .error e => .error e
    | .ok v =>
      match calcCorrFloat R occ os with
      | .error e => .error e
      | .ok vs => .ok (v :: vs)

/-- Inner loop of `_calc_corr_decorated` with rounded products, `local_cluster_expansion.py:870-873`. -/
noncomputable def clusterProductDecoratedFloat (R : Rounding) (table : List (List (List ℝ)))
    (occ : List Int) : List Int → List Int → ℝ → Py ℝ
  | [], _, acc => .ok acc
  | _ :: _, [], _ => .error .indexError
  | s :: ss, b :: bs, acc =>
    match pyGet occ s with
    | .error e => .error e
    | .ok state =>
      match tableGet table s state b with
      | .error e => .error e
      | .ok v => clusterProductDecoratedFloat R table occ ss bs (R.rnd (acc * v))

/-- Loop over the clusters of a feature with rounded additions, `local_cluster_expansion.py:867-874`. -/
noncomputable def orbitSumDecoratedFloat (R : Rounding) (table : List (List (List ℝ))) (occ : List Int) :
    List (List Int) → List (List Int) → ℝ → Py ℝ
  | [], _, acc => .ok acc
  | _ :: _, [], _ => .error .indexError
  | c :: cs, b :: bs, acc =>
    match clusterProductDecoratedFloat R table occ c b 1 with
    | .error e => .error e
    | .ok p => orbitSumDecoratedFloat R table occ cs bs (R.rnd (acc + p))

/-- `_calc_corr_decorated` in floating-point arithmetic, `local_cluster_expansion.py:850-875`. -/
noncomputable def calcCorrDecoratedFloat (R : Rounding) (table : List (List (List ℝ))) (occ : List Int) :
    List (List (List Int)) → List (List (List Int)) → Py (List ℝ)
  | [], _ => .ok []
  | _ :: _, [] => .error .indexError
  | o :: os, b :: bs =>
    match orbitSumDecoratedFloat R table occ o b 0 with
    | .error e => .error e
    | .ok v =>
      match calcCorrDecoratedFloat R table occ os bs with
      | .error e => .error e
      | .ok vs => .ok (v :: vs)

/-- `_calculate_correlation`, `local_cluster_expansion.py:604-618`. -/
noncomputable def calculateCorrelationFloat (R : Rounding) (m : LCE ℝ) (occ : List Int) : Py (List ℝ) :=
  match m.basisIndices, m.siteBasisValues with
  | some b, some t => calcCorrDecoratedFloat R t occ m.clusterSiteIndices b
  | _, _ => calcCorrFloat R occ m.clusterSiteIndices

/-- The running total of `np.inner`, `local_cluster_expansion.py:664`: each product is rounded and so is each
addition. -/
noncomputable def innerFrom (R : Rounding) : ℝ → List ℝ → List ℝ → ℝ
  | acc, a :: as, b :: bs => innerFrom R (R.rnd (acc + R.rnd (a * b))) as bs
  | acc, _, _ => acc

/-- `np.inner(corr, self.keci)`, `local_cluster_expansion.py:664`: `ValueError` unless the lengths agree. -/
noncomputable def npInnerFloat (R : Rounding) (a b : List ℝ) : Py ℝ :=
  if a.length = b.length then .ok (innerFrom R 0 a b) else .error .valueError

/-- `compute`, `local_cluster_expansion.py:620-665`, in floating-point arithmetic. -/
noncomputable def computeFloat (R : Rounding) (m : LCE ℝ) (occ : List Int) (e : Event) : Py ℝ :=
  match m.keci, m.emptyCluster with
  | some keci, some e0 =>
    match m.validateParameterOrbits keci m.parameterFingerprints m.parameterHash with
    | .error x => .error x
    | .ok keci =>
      match pyGetAll occ e.env with
      | .error x => .error x
      | .ok localOcc =>
        match m.calculateCorrelationFloat R localOcc with
        | .error x => .error x
        | .ok corr =>
          match npInnerFloat R corr keci with
          | .error x => .error x
          | .ok v => .ok (R.rnd (v + e0))
  | _, _ => .error .valueError

end LCE

/-- `_compute_site_energy_difference`, `composite_lce_model.py:127-145`, with no site model or an expansion as
site model: the value is multiplied by the direction, which is 1 or -1, so the product is exact. -/
noncomputable def siteDifferenceFloat (R : Rounding) (site : Option (LCE ℝ)) (occ : List Int) (e : Event)
    (direction : Int) : Py ℝ :=
  match site with
  | none => .ok 0
  | some m =>
    match m.computeFloat R occ e with
    | .error x => .error x
    | .ok v => .ok ((direction : ℝ) * v)

/-- `v * np.exp(-e_barrier / (k * temperature))` with `e_barrier = e_kra + delta_e_site / 2`,
`composite_lce_model.py:226-234`; `exp` is the exponential function of the library. -/
noncomputable def arrheniusFloat (R : Rounding) (exp : ℝ → ℝ) (kB temperature frequency eKra delta : ℝ) : ℝ :=
  R.rnd (frequency * exp (R.rnd (-(R.rnd (eKra + R.rnd (delta / 2))) / R.rnd (kB * temperature))))

/-- `compute_probability`, `composite_lce_model.py:180-236`, in floating-point arithmetic, of a composite model
of expansions. -/
noncomputable def probabilityFloat (R : Rounding) (exp : ℝ → ℝ) (kra : LCE ℝ) (site : Option (LCE ℝ))
    (kB temperature frequency : ℝ) (occ : List Int) (e : Event) : Py ℝ :=
  match eventDirection occ e with
  | .error x => .error x
  | .ok direction =>
    if direction = 0 then .ok 0
    else
      match kra.computeFloat R occ e with
      | .error x => .error x
      | .ok eKra =>
        match siteDifferenceFloat R site occ e direction with
        | .error x => .error x
        | .ok delta => .ok (arrheniusFloat R exp kB temperature frequency eKra delta)

/-- The composite model as the simulator uses it (`composite_lce_model.py:147-236`); expansions have neither
state nor effect. -/
noncomputable def floatRateModel {T : Type} (R : Rounding) (exp : ℝ → ℝ) (kra : LCE ℝ) (site : Option (LCE ℝ))
    (kB temperature frequency : ℝ) : RateModel Unit ℝ T where
  initializeState := fun _ _ => .ok ()
  applyEvent := fun _ _ _ => (.ok (), ())
  computeProbability := fun _ e st => probabilityFloat R exp kra site kB temperature frequency st.occ e

end KMC
