import Mathlib.LinearAlgebra.Matrix.NonsingularInverse
import Mathlib.Analysis.Real.Sqrt
import Verif.Num
import Verif.Scaler

/-!
Model of `sprm/snipls.py` (sparse NIPALS / univariate PLS) over the real numbers, for numeric
arrays without missing values.  A data matrix is a function of row and column index.

Not modelled: pandas inputs, column names (`colret_` is the set of retained indices, as the code
reports when `columns` is a bool), printing (`x_ev_` and `y_ev_` are in `Verif.SniplsEv`); the
missing-value branch (`nanmatdot`, `nandot`, 156-158) is in `Verif.SniplsNaN`.  A result that numpy would fill with NaN
because of a division by zero is the failure `Err.other`.
-/

namespace Direpack

open scoped BigOperators

/-! ### Column-wise centring and scaling of a data matrix -/

/-- The `centre` parameter: `'mean'`, `'median'`, `'None'`, or another estimator of location
(`l1median`, `kstepLTS`, a callable), which is an arbitrary function of the data. -/
inductive Centre where
  | mean
  | median
  | noneOpt
  | other (f : {n p : ℕ} → (Fin n → Fin p → ℝ) → (Fin p → ℝ))

/-- The `scale` parameter: `'std'`, `'mad'`, `'None'`, or another estimator of scale. -/
inductive ScaleOpt where
  | std
  | mad
  | noneOpt
  | other (f : {n p : ℕ} → (Fin n → Fin p → ℝ) → (Fin p → ℝ))

/-- `VersatileScaler.fit`, location part, `robcent.py:131-134`, with trimming 0 on an `n × p`
array (the matrix counterpart of `LocOpt.run` in `Verif.Scaler`). -/
noncomputable def Centre.run (c : Centre) {n p : ℕ} (X : Fin n → Fin p → ℝ) : Fin p → ℝ :=
  match c with
  | .mean => fun j => Direpack.mean fun i => X i j
  | .median => fun j => med fun i => X i j
  | .noneOpt => fun _ => 0
  | .other f => f X

/-- `VersatileScaler.fit`, scale part, `robcent.py:141-144`, with trimming 0. -/
noncomputable def ScaleOpt.run (s : ScaleOpt) {n p : ℕ} (X : Fin n → Fin p → ℝ) : Fin p → ℝ :=
  match s with
  | .std => fun j => Real.sqrt (var fun i => X i j)
  | .mad => fun j => Direpack.mad fun i => X i j
  | .noneOpt => fun _ => 1
  | .other f => f X

/-- `scale_data`, `_preproc_utilities.py:293-314`, on a matrix: zero scales count as one. -/
noncomputable def scaleMat {n p : ℕ} (X : Fin n → Fin p → ℝ) (m s : Fin p → ℝ) :
    Fin n → Fin p → ℝ :=
  fun i j => (X i j - m j) / (if s j = 0 then 1 else s j)

/-- A vector as a one-column matrix (`_check_input`, `utils/utils.py:72-79`, on `y`). -/
def asCol {n : ℕ} (y : Fin n → ℝ) : Fin n → Fin 1 → ℝ := fun i _ => y i

/-! ### The component loop -/

/-- `max(abs(v))`, `snipls.py:177` (for at least one variable; all entries of `abs(v)` are
nonnegative, so starting at 0 does not change the maximum). -/
noncomputable def maxAbs {p : ℕ} (v : Fin p → ℝ) : ℝ :=
  (List.ofFn fun j => |v j|).foldr max 0

/-- `np.sign`. -/
noncomputable def npSign (x : ℝ) : ℝ := if 0 < x then 1 else if x < 0 then -1 else 0

/-- What one pass of the loop stores: column of `W`, column of `P`, entry of `C`, column of `T`,
and the indices of the retained variables (`goodies`). -/
structure SnComp (n p : ℕ) where
  w : Fin p → ℝ
  load : Fin p → ℝ
  c : ℝ
  t : Fin n → ℝ
  good : Finset (Fin p)

/-- The weights before elimination, `snipls.py:174-178`: normalised covariances, soft
thresholded at `eta` times the largest one. -/
noncomputable def snWeights {n p : ℕ} (eta : ℝ) (X : Fin n → Fin p → ℝ) (y : Fin n → ℝ) :
    (Fin p → ℝ) × (Fin p → ℝ) :=
  let s : Fin p → ℝ := fun j => ∑ i, X i j * y i
  let nrm := Real.sqrt (∑ j, s j ^ 2)
  let wh : Fin p → ℝ := fun j => s j / nrm
  let g : Fin p → ℝ := fun j => |wh j| - eta * maxAbs wh
  (g, fun j => g j * npSign (wh j))

open Classical in
/-- The loop `for i in range(1, n_components+1)`, `snipls.py:173-225`, from a state with
deflated data `X`, `y` and `oldgoodies = old`, with `h` components left.  The result is the list of
stored components; the list ends early when no variable is retained (`break`, 182-192).

If the covariances all vanish, `wh` is NaN (175); no comparison with NaN holds, so `goodies` is `old`:
the loop breaks when `old` is empty, and fills the model with NaN otherwise. -/
noncomputable def snLoop {n p : ℕ} (eta : ℝ) :
    ℕ → (Fin n → Fin p → ℝ) → (Fin n → ℝ) → Finset (Fin p) → Except Err (List (SnComp n p))
  | 0, _, _, _ => .ok []
  | h + 1, X, y, old =>
    if (∀ j, ∑ i, X i j * y i = 0) then
      if old = ∅ then .ok [] else .error .other
    else
      let g := (snWeights eta X y).1
      let good := old ∪ Finset.univ.filter fun j => 0 < g j
      if good = ∅ then .ok []
      else
        let w : Fin p → ℝ := fun j => if j ∈ good then (snWeights eta X y).2 j else 0
        let t : Fin n → ℝ := fun i => ∑ j, X i j * w j
        let nth2 := ∑ i, t i ^ 2
        if nth2 = 0 then .error .other
        else
          let c := (∑ i, y i * t i) / nth2
          let ph : Fin p → ℝ := fun j => (∑ i, X i j * t i) / nth2
          match snLoop eta h (fun i j => X i j - t i * ph j) (fun i => y i - t i * c) good with
          | .error e => .error e
          | .ok l => .ok (⟨w, fun j => if j ∈ good then ph j else 0, c, t, good⟩ :: l)

/-! ### The estimator -/

/-- Parameters of `snipls.__init__` that matter for the numbers, `snipls.py:80-99`. -/
structure SnParams where
  eta : ℝ
  nComponents : ℕ
  centre : Centre
  scale : ScaleOpt

/-- A fitted model: the attributes set in `snipls.py:261-278`.  `h` is the number of components
that were extracted. -/
structure SnFit (n p : ℕ) where
  comps : List (SnComp n p)
  /-- `x_Rweights_`, one column per extracted component -/
  R : Matrix (Fin p) (Fin comps.length) ℝ
  coefScaled : Fin p → ℝ
  coef : Fin p → ℝ
  intercept : ℝ
  fitted : Fin n → ℝ
  residuals : Fin n → ℝ
  xLoc : Fin p → ℝ
  xSca : Fin p → ℝ
  yLoc : ℝ
  ySca : ℝ

/-- `x_weights_` of the extracted components. -/
def compW {n p : ℕ} (l : List (SnComp n p)) : Matrix (Fin p) (Fin l.length) ℝ :=
  Matrix.of fun j a => (l.get a).w j

/-- `x_loadings_` of the extracted components. -/
def compP {n p : ℕ} (l : List (SnComp n p)) : Matrix (Fin p) (Fin l.length) ℝ :=
  Matrix.of fun j a => (l.get a).load j

/-- `x_scores_` of the extracted components. -/
def compT {n p : ℕ} (l : List (SnComp n p)) : Matrix (Fin n) (Fin l.length) ℝ :=
  Matrix.of fun i a => (l.get a).t i

/-- `colret_`: the retained variables of the last extracted component, `None` without any. -/
def colret {n p : ℕ} (l : List (SnComp n p)) : Option (Finset (Fin p)) :=
  (l.getLast?).map fun c => c.good

/-- `np.linalg.inv`: the inverse, `LinAlgError` on a singular matrix. -/
noncomputable def npInv {k : ℕ} (A : Matrix (Fin k) (Fin k) ℝ) :
    Except Err (Matrix (Fin k) (Fin k) ℝ) :=
  if A.det = 0 then .error .other else .ok A⁻¹

/-- The regression vector and the weights `R`, `snipls.py:226-249`.  Without components both are
zero (the code then stores a single zero column as `R`). -/
noncomputable def snCoef {n p : ℕ} (X0 : Fin n → Fin p → ℝ) (y0 : Fin n → ℝ)
    (l : List (SnComp n p)) :
    Except Err (Matrix (Fin p) (Fin l.length) ℝ × (Fin p → ℝ)) :=
  if l.length = 0 then .ok (0, fun _ => 0)
  else do
    let W := compW l
    let S : Matrix (Fin p) (Fin p) ℝ := Matrix.of fun j k => ∑ i, X0 i j * X0 i k
    let s0 : Fin p → ℝ := fun j => ∑ i, X0 i j * y0 i
    let M1 ← npInv ((compP l).transpose * W)
    let M2 ← npInv (W.transpose * S * W)
    .ok (W * M1, (W * (M2 * W.transpose)).mulVec s0)

/-- The intercept, `snipls.py:252-257`, from `y - X B`. -/
noncomputable def snIntercept (c : Centre) {n : ℕ} (r : Fin n → ℝ) : ℝ :=
  match c with
  | .mean => Direpack.mean r
  | .noneOpt => 0
  | _ => med r

open Classical in
/-- `snipls.fit`, `snipls.py:101-279`, which does not look at the range of the parameters.  A zero
scale of a predictor gives a division by zero at line 250. -/
noncomputable def snFitBody (pr : SnParams) {n p : ℕ} (X : Fin n → Fin p → ℝ) (y : Fin n → ℝ) :
    Except Err (SnFit n p) :=
  let mX := pr.centre.run X
  let sX := pr.scale.run X
  let X0 := scaleMat X mX sX
  let my := pr.centre.run (asCol y) 0
  let sy := pr.scale.run (asCol y) 0
  let y0 : Fin n → ℝ := fun i => scaleMat (asCol y) (pr.centre.run (asCol y)) (pr.scale.run (asCol y)) i 0
  match snLoop pr.eta pr.nComponents X0 y0 ∅ with
  | .error e => .error e
  | .ok l =>
    match snCoef X0 y0 l with
    | .error e => .error e
    | .ok (R, B) =>
      if ∃ j, sX j = 0 then .error .other
      else
        let Br : Fin p → ℝ := fun j => sy / sX j * B j
        let yp : Fin n → ℝ := fun i => ∑ j, X i j * Br j
        let b0 := snIntercept pr.centre fun i => y i - yp i
        .ok { comps := l, R := R, coefScaled := B, coef := Br, intercept := b0
              fitted := fun i => yp i + b0
              residuals := fun i => y i - (yp i + b0)
              xLoc := mX, xSca := sX, yLoc := my, ySca := sy }

open Classical in
/-- `snipls(...).fit(X, y)`: the assertions of the constructor, `snipls.py:90-92`, and the fit. -/
noncomputable def snFit (pr : SnParams) {n p : ℕ} (X : Fin n → Fin p → ℝ) (y : Fin n → ℝ) :
    Except Err (SnFit n p) :=
  if ¬ (0 ≤ pr.eta ∧ pr.eta < 1) ∨ pr.nComponents = 0 then .error .assertionError
  else snFitBody pr X y

/-- `snipls.predict`, `snipls.py:281-299`, for an array of `m` rows and `q` columns. -/
noncomputable def SnFit.predict {n p : ℕ} (f : SnFit n p) {m q : ℕ} (Xn : Fin m → Fin q → ℝ) :
    Except Err (Fin m → ℝ) :=
  if hq : q = p then
    .ok fun i => (∑ j : Fin p, Xn i (Fin.cast hq.symm j) * f.coef j) + f.intercept
  else .error .valueError

/-- `snipls.transform`, `snipls.py:301-321`. -/
noncomputable def SnFit.transform {n p : ℕ} (f : SnFit n p) {m q : ℕ} (Xn : Fin m → Fin q → ℝ) :
    Except Err (Matrix (Fin m) (Fin f.comps.length) ℝ) :=
  if hq : q = p then
    let Xc : Matrix (Fin m) (Fin p) ℝ :=
      Matrix.of (scaleMat (fun i (j : Fin p) => Xn i (Fin.cast hq.symm j)) f.xLoc f.xSca)
    .ok (Xc * f.R)
  else .error .valueError

end Direpack
