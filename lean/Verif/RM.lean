import Mathlib.Data.Finset.Card
import Verif.Snipls
import Verif.MSupport

/-!
Model of the robust M regression estimator `sprm/rm.py`, and of the iterative reweighting loop that it
shares with `sprm/sprm.py`, over the real numbers and for arrays without missing values.

Parameters of the model (third-party functions): the quantile functions `norm.ppf` and `chi2.ppf`, and
`np.linalg.lstsq`.  Case weights that numpy would make NaN because of a division by zero are the failure
`Err.other`.  Not modelled: printing, and the attribute `scaling_` (a scaler that is refitted at
`rm.py:222-223` and not used again).
-/

namespace Direpack

open scoped BigOperators

/-! ### The reweighting loop -/

/-- Smallest weight used in a weighted fit, `1e-06`. -/
noncomputable def wMin : ℝ := 1 / 1000000

/-- Variables that are live after the reweighting loop: the result of the last fit, the case weights,
their two factors and the cases whose weight was raised to `1e-06`.  `fits` counts the passes (it is not a
variable of the code). -/
structure RwOut (β : Type) (n : ℕ) where
  b : β
  we : Fin n → ℝ
  wye : Fin n → ℝ
  wte : Fin n → ℝ
  w0 : Finset (Fin n)
  fits : ℕ

/-- The comparison `difference > tol` with `difference = abs(b2sum - rold)/rold`
(`rm.py:193-195`, `sprm.py:362-364`).  For `rold = 0` numpy gives infinity, or NaN if `b2sum = 0`,
and no comparison with NaN holds. -/
def diffExceeds (tol b2sum rold : ℝ) : Prop :=
  if rold = 0 then b2sum ≠ 0 else tol < |b2sum - rold| / rold

open Classical in
/-- The loop `while (difference > tol) & (loops < maxit)`, `rm.py:173-207` and `sprm.py:315-377`.
`step we` is the body up to the new weight factors: a weighted fit with case weights `we` that
returns the coefficients, their sum of squares, and the factors `wye`, `wte`.  `go` is the
truth value of `difference > tol`.  `none` means that the fuel ran out; `C50` shows that it never does
when there is more fuel than `maxit`. -/
noncomputable def rwLoop {β : Type} {n : ℕ}
    (step : (Fin n → ℝ) → Except Err (β × ℝ × (Fin n → ℝ) × (Fin n → ℝ))) (tol : ℝ) (maxit : ℤ) :
    ℕ → ℤ → ℝ → Prop → (Fin n → ℝ) → Option (RwOut β n) → Option (Except Err (Option (RwOut β n)))
  | 0, _, _, _, _, _ => none
  | fuel + 1, loops, rold, go, we, out =>
    if go ∧ loops < maxit then
      match step we with
      | .error e => some (.error e)
      | .ok (b, b2sum, wye, wte) =>
        let raw : Fin n → ℝ := fun i => wye i * wte i
        -- rm.py:196-201, sprm.py:366-371
        let w0 := Finset.univ.filter fun i => raw i < wMin
        let we' : Fin n → ℝ := fun i => if raw i < wMin then wMin else raw i
        let out' : RwOut β n := ⟨b, we', wye, wte, w0, (out.elim 0 fun o => o.fits) + 1⟩
        -- rm.py:202-203, sprm.py:372-373: len(w0) >= n/2
        if (n : ℝ) / 2 ≤ (w0.card : ℝ) then some (.ok (some out'))
        else rwLoop step tol maxit fuel (loops + 1) b2sum (diffExceeds tol b2sum rold) we' (some out')
    else some (.ok out)

/-- Raising the starting weights to `1e-06`, `rm.py:162-168`, `sprm.py:302-308`. -/
noncomputable def clipW {n : ℕ} (w : Fin n → ℝ) : Fin n → ℝ := fun i => if w i < wMin then wMin else w i

open Classical in
/-- Scaling of the residuals by their median absolute value, `rm.py:182-185`, `sprm.py:335-338`: over the
nonzero residuals if at least half of them vanish.  If all vanish numpy takes the median of an
empty array, and the weights are NaN. -/
noncomputable def scaleRes {n : ℕ} (r : Fin n → ℝ) : Except Err (Fin n → ℝ) :=
  let zeros := (Finset.univ.filter fun i => r i = 0).card
  if (zeros : ℝ) < (n : ℝ) / 2 then
    .ok fun i => |r i| / (14826 / 10000 * med fun k => |r k|)
  else
    let nz := ((List.ofFn r).filter fun v => v ≠ 0).map fun v => |v|
    if nz = [] then .error .other
    else .ok fun i => |r i| / (14826 / 10000 * medL nz)

/-! ### The estimator -/

/-- Parameters of `rm.__init__`, `rm.py:59-90`. -/
structure RmParams where
  fn : WFun
  probp1 : ℝ
  probp2 : ℝ
  probp3 : ℝ
  centre : Centre
  scale : ScaleOpt
  specific : Bool
  maxit : ℤ
  tol : ℝ
  copy : Bool

/-- Third-party functions: quantiles of the normal and chi-square distributions, least squares. -/
structure RmExt where
  normPpf : ℝ → ℝ
  chi2Ppf : ℝ → ℕ → ℝ
  lstsq : {n p : ℕ} → (Fin n → Fin p → ℝ) → (Fin n → ℝ) → (Fin p → ℝ)

/-- Is the `centre` parameter the string `'median'`, and `scale` the string `'mad'`? -/
def isMedianMad (c : Centre) (s : ScaleOpt) : Bool :=
  match c, s with
  | .median, .mad => true
  | _, _ => false

/-- Is the `centre` parameter the string `'mean'`? -/
def Centre.isMean : Centre → Bool
  | .mean => true
  | _ => false

/-- Is the `scale` parameter the string `'None'`? -/
def ScaleOpt.isNone : ScaleOpt → Bool
  | .noneOpt => true
  | _ => false

/-- Parameter checks, `rm.py:100-110` (and `sprm.py:180-191`). -/
noncomputable def checkProbs (fn : WFun) (p1 p2 p3 : ℝ) : Except Err Unit :=
  if 1 < p1 ∨ p1 ≤ 0 then .error .other
  else if fn = .hampel ∧ ¬ (p1 < p2 ∧ p2 < p3 ∧ p3 ≤ 1) then .error .other
  else .ok ()

/-- Row norms divided by their median, `rm.py:133-134`, `sprm.py:270-271`.  A zero median gives NaN or
infinite values. -/
noncomputable def rowDistances {n p : ℕ} (X : Fin n → Fin p → ℝ) : Except Err (Fin n → ℝ) :=
  let d : Fin n → ℝ := fun i => Real.sqrt (∑ j, X i j ^ 2)
  if med d = 0 then .error .other else .ok fun i => d i / med d

/-- Starting values of the response weights, `rm.py:135-138`, `sprm.py:272-277`.  Without the pair
(`'median'`, `'mad'`) no absolute value is taken. -/
noncomputable def startY {n : ℕ} (c : Centre) (s : ScaleOpt) (ys y : Fin n → ℝ) :
    Except Err (Fin n → ℝ) :=
  if isMedianMad c s then .ok fun i => |ys i|
  else
    let m := med y
    let d := 14826 / 10000 * med fun i => |y i - m|
    if d = 0 then .error .other else .ok fun i => (y i - m) / d

/-- Cutoffs `(probct, hampelb, hampelr)` for the response, `rm.py:139,151-152`. -/
noncomputable def cutY (ext : RmExt) (p1 p2 p3 : ℝ) : ℝ × ℝ × ℝ :=
  (ext.normPpf p1, ext.normPpf p2, ext.normPpf p3)

/-- Cutoffs for the predictors, `rm.py:140-143,153-158`; `df` degrees of freedom. -/
noncomputable def cutX (ext : RmExt) (specific : Bool) (df : ℕ) (p1 p2 p3 : ℝ) : ℝ × ℝ × ℝ :=
  if specific then (ext.chi2Ppf p1 df, ext.chi2Ppf p2 df, ext.chi2Ppf p3 df)
  else cutY ext p1 p2 p3

/-- A weight function with its cutoffs. -/
noncomputable def WFun.run {n : ℕ} (f : WFun) (x : Fin n → ℝ) (c : ℝ × ℝ × ℝ) : Fin n → ℝ :=
  f.apply x c.1 c.2.1 c.2.2

/-- Rows multiplied by the square roots of the weights, `rm.py:170-171`, `sprm.py:311-312`. -/
noncomputable def weightRows {n p : ℕ} (X : Fin n → Fin p → ℝ) (we : Fin n → ℝ) : Fin n → Fin p → ℝ :=
  fun i j => X i j * Real.sqrt (we i)

/-- Body of the loop of `rm.fit`, `rm.py:178-193`. -/
noncomputable def rmStep (ext : RmExt) (fn : WFun) (cy : ℝ × ℝ × ℝ) {n p : ℕ} (Xs : Fin n → Fin p → ℝ)
    (ys wx : Fin n → ℝ) (we : Fin n → ℝ) :
    Except Err ((Fin p → ℝ) × ℝ × (Fin n → ℝ) × (Fin n → ℝ)) :=
  let b := ext.lstsq (weightRows Xs we) (fun i => ys i * Real.sqrt (we i))
  match scaleRes (fun i => ys i - ∑ j, Xs i j * b j) with
  | .error e => .error e
  | .ok r => .ok (b, ∑ j, b j ^ 2, fn.run r cy, wx)

/-- Median of all `n × n` differences `u_k - v_i`: what `np.median(ys - np.matmul(Xs, b))` computes when
`ys` is one-dimensional and the product is a column, `rm.py:235-237`. -/
noncomputable def medAllPairs {n : ℕ} (u v : Fin n → ℝ) : ℝ :=
  medL ((List.ofFn v).flatMap fun b => (List.ofFn u).map fun a => a - b)

/-- Mean of all `n × n` differences, `rm.py:233` (same broadcasting). -/
noncomputable def meanAllPairs {n : ℕ} (u v : Fin n → ℝ) : ℝ :=
  meanL ((List.ofFn v).flatMap fun b => (List.ofFn u).map fun a => a - b)

/-- A fitted model: the attributes set at `rm.py:246-258`.  `trainCols` is the number of columns of
`self.X`, which exists only with `copy=True` (`rm.py:92-94`). -/
structure RmFit (n p : ℕ) where
  coef : Fin p → ℝ
  intercept : ℝ
  coefScaled : Fin p → ℝ
  interceptScaled : ℝ
  residuals : Fin n → ℝ
  fitted : Fin n → ℝ
  xCaseweights : Fin n → ℝ
  yCaseweights : Fin n → ℝ
  caseweights : Fin n → ℝ
  xLoc : Fin p → ℝ
  yLoc : ℝ
  xSca : Fin p → ℝ
  ySca : ℝ
  trainCols : Option ℕ
  fits : ℕ

/-- Setting the weights of the cases in `w0` to zero, `rm.py:216-220`, `sprm.py:386-391`. -/
def zeroOut {n : ℕ} (w : Fin n → ℝ) (w0 : Finset (Fin n)) : Fin n → ℝ := fun i => if i ∈ w0 then 0 else w i

/-- The intercept, `rm.py:226-229`. -/
noncomputable def rmIntercept (c : Centre) {n : ℕ} (r : Fin n → ℝ) : ℝ :=
  if c.isMean then Direpack.mean r else med r

/-- `intercept_` and `intercept_scaled_`, `rm.py:226-244`.  With `scale='None'` and a centre other than
`'mean'` the variable `ytil` is unbound (line 243). -/
noncomputable def rmIntercepts (c : Centre) (s : ScaleOpt) {n p : ℕ} (X : Fin n → Fin p → ℝ) (y : Fin n → ℝ)
    (Xs : Fin n → Fin p → ℝ) (ys : Fin n → ℝ) (b : Fin p → ℝ) (intercept : ℝ) : Except Err (ℝ × ℝ) :=
  let yps : Fin n → ℝ := fun i => ∑ j, Xs i j * b j
  if s.isNone then
    if c.isMean then
      let i2 := Direpack.mean fun i => y i - ∑ j, X i j * b j
      .ok (i2, i2)
    else .error .unboundLocal
  else .ok (intercept, if c.isMean then meanAllPairs ys yps else medAllPairs ys yps)

open Classical in
/-- End of `rm.fit` after the loop, `rm.py:216-260`.  Without a pass of the loop `w0` or `b` is unbound.
A zero scale of a predictor gives a division by zero at line 224. -/
noncomputable def rmFinish (pr : RmParams) {n p : ℕ} (X : Fin n → Fin p → ℝ) (y : Fin n → ℝ)
    (Xs : Fin n → Fin p → ℝ) (ys wx : Fin n → ℝ) (mX sX : Fin p → ℝ) (my sy : ℝ)
    (o : Option (RwOut (Fin p → ℝ) n)) : Except Err (RmFit n p) :=
  match o with
  | none => .error .unboundLocal
  | some o =>
    if ∃ j, sX j = 0 then .error .other
    else
      let br : Fin p → ℝ := fun j => sy / sX j * o.b j
      let yp : Fin n → ℝ := fun i => ∑ j, X i j * br j
      let i1 := rmIntercept pr.centre fun i => y i - yp i
      match rmIntercepts pr.centre pr.scale X y Xs ys o.b i1 with
      | .error e => .error e
      | .ok (i2, b0) =>
        .ok { coef := br, intercept := i2, coefScaled := o.b, interceptScaled := b0
              residuals := fun i => y i - (yp i + i1), fitted := fun i => yp i + i1
              xCaseweights := zeroOut wx o.w0, yCaseweights := zeroOut o.wye o.w0
              caseweights := zeroOut o.we o.w0
              xLoc := mX, yLoc := my, xSca := sX, ySca := sy
              trainCols := if pr.copy then some p else none, fits := o.fits }

/-- `rm.fit`, `rm.py:91-260`, for `n` cases and `p` predictors. -/
noncomputable def rmFit (ext : RmExt) (pr : RmParams) {n p : ℕ} (X : Fin n → Fin p → ℝ) (y : Fin n → ℝ) :
    Except Err (RmFit n p) :=
  match checkProbs pr.fn pr.probp1 pr.probp2 pr.probp3 with
  | .error e => .error e
  | .ok _ =>
    let mX := pr.centre.run X
    let sX := pr.scale.run X
    let Xs := scaleMat X mX sX
    let my := pr.centre.run (asCol y) 0
    let sy := pr.scale.run (asCol y) 0
    let ys : Fin n → ℝ := fun i => scaleMat (asCol y) (pr.centre.run (asCol y)) (pr.scale.run (asCol y)) i 0
    match rowDistances Xs with
    | .error e => .error e
    | .ok dx =>
      match startY pr.centre pr.scale ys y with
      | .error e => .error e
      | .ok dy =>
        let cy := cutY ext pr.probp1 pr.probp2 pr.probp3
        let wx := pr.fn.run dx (cutX ext pr.specific p pr.probp1 pr.probp2 pr.probp3)
        let wy := pr.fn.run dy cy
        let we := clipW fun i => wx i * wy i
        match rwLoop (rmStep ext pr.fn cy Xs ys wx) pr.tol pr.maxit (pr.maxit.toNat + 1) 1 (1 / 100000)
            (pr.tol < 1) we none with
        | none => .error .other
        | some (.error e) => .error e
        | some (.ok o) => rmFinish pr X y Xs ys wx mX sX my sy o

/-- `rm.predict`, `rm.py:263-271`. -/
noncomputable def RmFit.predict {n p : ℕ} (f : RmFit n p) {m q : ℕ} (Xn : Fin m → Fin q → ℝ) :
    Except Err (Fin m → ℝ) :=
  match f.trainCols with
  | none => .error .attributeError
  | some _ =>
    if hq : q = p then
      .ok fun i => (∑ j : Fin p, Xn i (Fin.cast hq.symm j) * f.coef j) + f.intercept
    else .error .valueError

end Direpack
