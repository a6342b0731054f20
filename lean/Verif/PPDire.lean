import Verif.Grid

/-!
Model of `ppdire.fit`, `predict` and `transform` (`ppdire/ppdire.py:210-807`) over the real numbers for
numeric arrays with at least two rows.

Not modelled: data frames, printing and warnings, `x_ev_` (always zero in the code), `mixing_`,
`optimizer_constraints`.  The optimisers of scipy and Ipopt are an arbitrary function `find` of the deflated data.
Robust regression is an arbitrary function of the score vector and the standardised response, quantile regression of the score vector and
the response as given.  As elsewhere, a
division by zero that numpy turns into NaN is the failure `Err.other`.
-/

namespace Direpack

open scoped BigOperators

/-- The parameter `center`, `ppdire.py:205-207` (any other value is rejected by the constructor). -/
inductive PpCentre where
  | mean
  | median

/-- The mean of a column with the given trimming, as a number: `VersatileScaler` and
`sps.trim_mean`, `ppdire.py:351-356` and `716`.  Whether it exists depends on the number of rows only, see
`trimOk`. -/
noncomputable def ppMean (t : ℝ) {n : ℕ} (x : Fin n → ℝ) : ℝ :=
  match meanT t (List.ofFn x) with
  | .ok v => v
  | .error _ => 0

/-- The standard deviation of a column with the given trimming. -/
noncomputable def ppStd (t : ℝ) {n : ℕ} (x : Fin n → ℝ) : ℝ :=
  match stdT Real.sqrt t (List.ofFn x) with
  | .ok v => v
  | .error _ => 0

/-- Trimming fractions for which `_check_trimming` passes and `trim_mean` of `n` values is a number. -/
def trimOk (t : ℝ) (n : ℕ) : Prop := 0 ≤ t ∧ t ≤ 99 / 100 ∧ (t = 0 ∨ 2 * ⌊t * n⌋₊ < n)

/-- Location of a column, `VersatileScaler(center=self.center, ...)`, `ppdire.py:351-355`. -/
noncomputable def PpCentre.loc (c : PpCentre) (t : ℝ) {n : ℕ} (x : Fin n → ℝ) : ℝ :=
  match c with
  | .mean => ppMean t x
  | .median => med x

/-- Scale of a column: `'std'` for the mean, `'mad'` for the median, `'None'` without `scale_data`,
`ppdire.py:322-329`. -/
noncomputable def PpCentre.sca (c : PpCentre) (scaleData : Bool) (t : ℝ) {n : ℕ} (x : Fin n → ℝ) : ℝ :=
  if scaleData then
    match c with
    | .mean => ppStd t x
    | .median => mad x
  else 1

/-- How the direction of a component is found. -/
inductive PpOptimizer where
  /-- `optimizer='grid'` with `ndir` and `maxiter` -/
  | grid (ndir maxiter : ℕ)
  /-- `'IPOPT'`, `'differential_evolution'` or a method of `scipy.optimize`: the vector `.x` that it returns -/
  | ext (find : {n p : ℕ} → (Fin n → Fin p → ℝ) → (Fin p → ℝ))

/-- Constructor parameters, `ppdire.py:163-200`, without `whiten_data` and `compression` (see
`PPFull.lean`). -/
structure PpParams where
  nComponents : ℕ
  trimming : ℝ
  optimizer : PpOptimizer
  centre : PpCentre
  centerData : Bool
  scaleData : Bool
  squarePi : Bool

/-- One component: columns of `W`, `P`, `T`, the entry of `C`, `Maxobjf[i]` and `assovec[i]`. -/
structure PpComp (n p : ℕ) where
  w : Fin p → ℝ
  load : Fin p → ℝ
  t : Fin n → ℝ
  c : ℝ
  maxobj : ℝ
  crit : ℝ

open Classical in
/-- The direction and `Maxobjf[i]`, `ppdire.py:491-638`.  The result of an external optimiser is normalised
(597, 612, 632). -/
noncomputable def ppDirection (opt : PpOptimizer) {n p : ℕ} (φ : (Fin n → ℝ) → ℝ) (sq : Bool) (E : Fin n → Fin p → ℝ) :
    Except Err ((Fin p → ℝ) × ℝ) :=
  match opt with
  | .grid ndir maxiter => gridDirection φ sq ndir maxiter E
  | .ext find =>
    let x := find E
    let nrm := Real.sqrt (∑ k, x k ^ 2)
    if nrm = 0 then .error .other
    else
      let w : Fin p → ℝ := fun k => x k / nrm
      .ok (w, φ (projE E w))

open Classical in
/-- The loop over components, `ppdire.py:489-691`, with `h` components left and deflated data `E`.  `reg t` is the
regression coefficient of the response on the score vector, `C[i]` (669-684). -/
noncomputable def ppLoop (opt : PpOptimizer) {n p : ℕ} (φ : (Fin n → ℝ) → ℝ) (sq : Bool) (reg : (Fin n → ℝ) → ℝ) :
    ℕ → (Fin n → Fin p → ℝ) → Except Err (List (PpComp n p))
  | 0, _ => .ok []
  | h + 1, E =>
    match ppDirection opt φ sq E with
    | .error e => .error e
    | .ok (w, o) =>
      let t := projE E w
      let nti2 := ∑ i, t i ^ 2
      if nti2 = 0 then .error .other
      else
        let pl : Fin p → ℝ := fun k => (∑ i, E i k * t i) / nti2
        match ppLoop opt φ sq reg h (fun i k => E i k - t i * pl k) with
        | .error e => .error e
        | .ok l => .ok (⟨w, pl, t, reg t, o, evalIdx φ sq (projE E w)⟩ :: l)

/-- `W`, `ppdire.py:648`. -/
def ppW {n p : ℕ} (l : List (PpComp n p)) : Matrix (Fin p) (Fin l.length) ℝ := Matrix.of fun k a => (l.get a).w k
/-- `P`, `ppdire.py:650`. -/
def ppP {n p : ℕ} (l : List (PpComp n p)) : Matrix (Fin p) (Fin l.length) ℝ := Matrix.of fun k a => (l.get a).load k
/-- `T`, `ppdire.py:649`. -/
def ppT {n p : ℕ} (l : List (PpComp n p)) : Matrix (Fin n) (Fin l.length) ℝ := Matrix.of fun i a => (l.get a).t i
/-- `C`, `ppdire.py:684`. -/
def ppC {n p : ℕ} (l : List (PpComp n p)) : Fin l.length → ℝ := fun a => (l.get a).c

/-- `scipy.linalg.pinv`, as a parameter. -/
abbrev Pinv := {k : ℕ} → Matrix (Fin k) (Fin k) ℝ → Matrix (Fin k) (Fin k) ℝ

/-- `R` after the last component, `ppdire.py:666`. -/
noncomputable def ppR (pinv : Pinv) {n p : ℕ} (l : List (PpComp n p)) : Matrix (Fin p) (Fin l.length) ℝ :=
  ppW l * pinv ((ppP l).transpose * ppW l)

/-- The attributes of a two-block fit, `ppdire.py:731-758`.  `coef_` has one column per component; `predict` uses the last,
which is `bi` after the loop. -/
structure PpFit (n p : ℕ) where
  comps : List (PpComp n p)
  rot : Matrix (Fin p) (Fin comps.length) ℝ
  coefScaled : Fin p → ℝ
  coef : Fin p → ℝ
  intercept : ℝ
  interceptScaled : ℝ
  fitted : Fin n → ℝ
  residuals : Fin n → ℝ
  xLoc : Fin p → ℝ
  xSca : Fin p → ℝ
  yLoc : ℝ
  ySca : ℝ
  /-- the state of `scaling_object_` -/
  scalerLoc : List ℝ
  scalerSca : List ℝ
  /-- whether `x_loc_` and `x_sca_` are stored as `1 × p` matrices (`center_data=False`, 359-360) -/
  locIsMatrix : Bool

/-- What the regression step fits: OLS (671), the robust regression `rm` on the standardised response (672-677), or the quantile regression
`QuantReg(y, ti)`, which is given the response as it came (679). -/
inductive PpReg where
  | ols
  | ext (f : {n : ℕ} → (Fin n → ℝ) → (Fin n → ℝ) → ℝ)
  | raw (f : {n : ℕ} → (Fin n → ℝ) → (Fin n → ℝ) → ℝ)

/-- `ci`, `ppdire.py:670-684`. -/
noncomputable def PpReg.run (r : PpReg) {n : ℕ} (ys y t : Fin n → ℝ) : ℝ :=
  match r with
  | .ols => (∑ i, t i * ys i) / ∑ i, t i ^ 2
  | .ext f => f t ys
  | .raw f => f t y

open Classical in
/-- `ppdire.fit(X, y=y)`, `ppdire.py:210-764`, two blocks, without whitening and compression.  `φ ys` is the projection index
for the standardised response `ys` (passed on as `opt_args['y']`, 481-485).  Simplification: a trimming fraction that is unusable for
the mean is rejected also where the code would not look at it (`center='median'` or `center_data=False`). -/
noncomputable def ppFit (pr : PpParams) (pinv : Pinv) (rg : PpReg) {n p : ℕ} (φ : (Fin n → ℝ) → (Fin n → ℝ) → ℝ)
    (X : Fin n → Fin p → ℝ) (y : Fin n → ℝ) : Except Err (PpFit n p) :=
  if pr.nComponents > min n p then .error .other
  else if ¬ trimOk pr.trimming n then .error .valueError
  else
    let mX : Fin p → ℝ := fun k => if pr.centerData then pr.centre.loc pr.trimming fun i => X i k else 0
    let sX : Fin p → ℝ := fun k => if pr.centerData then pr.centre.sca pr.scaleData pr.trimming fun i => X i k else 1
    let Xs : Fin n → Fin p → ℝ := if pr.centerData then scaleMat X mX sX else X
    let my := if pr.centerData then pr.centre.loc pr.trimming y else 0
    let sy := if pr.centerData then pr.centre.sca pr.scaleData pr.trimming y else 1
    let ys : Fin n → ℝ := if pr.centerData then (fun i => scaleMat (asCol y) (fun _ => my) (fun _ => sy) i 0) else y
    match ppLoop pr.optimizer (φ ys) pr.squarePi (rg.run ys y) pr.nComponents Xs with
    | .error e => .error e
    | .ok l =>
      if ∃ k, sX k = 0 then .error .other
      else
        let R := ppR pinv l
        let bs : Fin p → ℝ := R.mulVec (ppC l)
        let b : Fin p → ℝ := fun k => sy / sX k * bs k
        let xb : Fin n → ℝ := fun i => ∑ k, X i k * b k
        let b0 := pr.centre.loc pr.trimming fun i => y i - xb i
        let b0s :=
          if pr.scaleData then
            match pr.centre with
            | .mean => mean fun i => ys i - ∑ k, Xs i k * b k
            | .median => med fun i => ys i - ∑ k, Xs i k * b k
          else b0
        .ok { comps := l, rot := R, coefScaled := bs, coef := b, intercept := b0, interceptScaled := b0s
              fitted := fun i => xb i + b0, residuals := fun i => y i - (xb i + b0)
              xLoc := mX, xSca := sX, yLoc := my, ySca := sy
              scalerLoc := if pr.centerData then [my] else [], scalerSca := if pr.centerData then [sy] else []
              locIsMatrix := ! pr.centerData }

/-- Column `j` of `coef_`, written when component `j` has been found, `ppdire.py:666`, `685-688`. -/
noncomputable def PpFit.coefColumn (pinv : Pinv) {n p : ℕ} (f : PpFit n p) (j : ℕ) : Fin p → ℝ :=
  let l := f.comps.take (j + 1)
  fun k => f.ySca / f.xSca k * (ppR pinv l).mulVec (ppC l) k

/-- Column `j` of `coef_scaled_`, `ppdire.py:686-689`. -/
noncomputable def PpFit.coefScaledColumn (pinv : Pinv) {n p : ℕ} (f : PpFit n p) (j : ℕ) : Fin p → ℝ :=
  let l := f.comps.take (j + 1)
  (ppR pinv l).mulVec (ppC l)

/-- `ppdire.predict`, `ppdire.py:767-786`. -/
noncomputable def PpFit.predict {n p : ℕ} (f : PpFit n p) {m q : ℕ} (Xn : Fin m → Fin q → ℝ) : Except Err (Fin m → ℝ) :=
  if hq : q = p then .ok fun i => (∑ k : Fin p, Xn i (Fin.cast hq.symm k) * f.coef k) + f.intercept
  else .error .valueError

/-- The result of `transform`: a matrix, or, when the stored location is a `1 × p` matrix and `p ≥ 2`, the three-dimensional array
that broadcasting `m × p` with `m × 1 × p` gives (`_preproc_utilities.py:313-314`). -/
inductive Scores (m h : ℕ) where
  | mat (T : Matrix (Fin m) (Fin h) ℝ)
  | cube (T : Fin m → Fin m → Fin h → ℝ)

/-- `ppdire.transform`, `ppdire.py:788-807`. -/
noncomputable def PpFit.transform {n p : ℕ} (f : PpFit n p) {m q : ℕ} (Xn : Fin m → Fin q → ℝ) :
    Except Err (Scores m f.comps.length) :=
  if hq : q = p then
    let Xc : Matrix (Fin m) (Fin p) ℝ :=
      Matrix.of (scaleMat (fun i (k : Fin p) => Xn i (Fin.cast hq.symm k)) f.xLoc f.xSca)
    if f.locIsMatrix ∧ p ≠ 1 then .ok (.cube fun _ b a => (Xc * f.rot) b a)
    else .ok (.mat (Xc * f.rot))
  else .error .valueError

/-- Where `y` is given decides which variables exist: `quantile` and the cutoffs of the robust regression are assigned only when `y` is
a keyword argument, `ppdire.py:242-279`, and used in 673-681. -/
inductive PpRegName where
  | ols
  | robust
  | quantile
  deriving DecidableEq

/-- Reading the variables needed by the regression step. -/
def ppRegVars (r : PpRegName) (yKeyword : Bool) : Except Err Unit :=
  match r with
  | .ols => .ok ()
  | .robust => if yKeyword then .ok () else .error .unboundLocal
  | .quantile => if yKeyword then .ok () else .error .unboundLocal

/-! ### Fits without a response, and the fitted object -/

/-- The attributes of a one-block fit, `ppdire.py:741-762`. -/
structure PpFit1 (n p : ℕ) where
  comps : List (PpComp n p)
  rot : Matrix (Fin p) (Fin comps.length) ℝ
  xLoc : Fin p → ℝ
  xSca : Fin p → ℝ
  locIsMatrix : Bool

/-- `ppdire.fit(X)`, `ppdire.py:210-764` with `flag = 'one-block'`, without whitening and compression.  There is no regression (669) and
`crit_values_` stays zero (652-658); the fields `c` and `crit` of the components are zero. -/
noncomputable def ppFit1 (pr : PpParams) (pinv : Pinv) {n p : ℕ} (φ : (Fin n → ℝ) → ℝ) (X : Fin n → Fin p → ℝ) : Except Err (PpFit1 n p) :=
  open Classical in
  if pr.nComponents > min n p then .error .other
  else if ¬ trimOk pr.trimming n then .error .valueError
  else
    let mX : Fin p → ℝ := fun k => if pr.centerData then pr.centre.loc pr.trimming fun i => X i k else 0
    let sX : Fin p → ℝ := fun k => if pr.centerData then pr.centre.sca pr.scaleData pr.trimming fun i => X i k else 1
    let Xs : Fin n → Fin p → ℝ := if pr.centerData then scaleMat X mX sX else X
    match ppLoop pr.optimizer φ pr.squarePi (fun _ => 0) pr.nComponents Xs with
    | .error e => .error e
    | .ok l =>
      let l0 := l.map fun c => { c with crit := 0 }
      .ok { comps := l0, rot := ppR pinv l0, xLoc := mX, xSca := sX, locIsMatrix := ! pr.centerData }

/-- What `transform` reads, `ppdire.py:801-807`. -/
structure PpXBlock where
  p : ℕ
  h : ℕ
  rot : Matrix (Fin p) (Fin h) ℝ
  xLoc : Fin p → ℝ
  xSca : Fin p → ℝ
  locIsMatrix : Bool

/-- What `predict` reads, `ppdire.py:781-786`: the last column of `coef_`, and `intercept_`. -/
structure PpYBlock where
  p : ℕ
  coef : Fin p → ℝ
  intercept : ℝ

/-- A `ppdire` object: the attributes that exist on it. -/
structure PpObj where
  x : Option PpXBlock
  y : Option PpYBlock

/-- A new object, `ppdire.py:163-207`. -/
def PpObj.new : PpObj := ⟨none, none⟩

/-- A call of `fit`, with the index as a function of the data. -/
inductive PpCall where
  | two (n p : ℕ) (φ : (Fin n → ℝ) → (Fin n → ℝ) → ℝ) (X : Fin n → Fin p → ℝ) (y : Fin n → ℝ)
  | one (n p : ℕ) (φ : (Fin n → ℝ) → ℝ) (X : Fin n → Fin p → ℝ)

/-- `fit` on an object, `ppdire.py:731-762`: the attributes are set at the end, those of the response only for two blocks (712). -/
noncomputable def PpObj.fit (pr : PpParams) (pinv : Pinv) (rg : PpReg) (o : PpObj) : PpCall → Except Err PpObj
  | .two _ p φ X y =>
    match ppFit pr pinv rg φ X y with
    | .error e => .error e
    | .ok f => .ok ⟨some ⟨p, f.comps.length, f.rot, f.xLoc, f.xSca, f.locIsMatrix⟩, some ⟨p, f.coef, f.intercept⟩⟩
  | .one _ p φ X =>
    match ppFit1 pr pinv φ X with
    | .error e => .error e
    | .ok f => .ok { o with x := some ⟨p, f.comps.length, f.rot, f.xLoc, f.xSca, f.locIsMatrix⟩ }

/-- The object after a call, also when that raised (nothing that `predict` and `transform` read has been set then). -/
noncomputable def PpObj.after (pr : PpParams) (pinv : Pinv) (rg : PpReg) (o : PpObj) (c : PpCall) : PpObj :=
  match o.fit pr pinv rg c with
  | .error _ => o
  | .ok o' => o'

/-- `predict` on an object, `ppdire.py:767-786`. -/
noncomputable def PpObj.predict (o : PpObj) {m q : ℕ} (Xn : Fin m → Fin q → ℝ) : Except Err (Fin m → ℝ) :=
  match o.y with
  | none => .error .attributeError
  | some b => if hq : q = b.p then .ok fun i => (∑ k : Fin b.p, Xn i (Fin.cast hq.symm k) * b.coef k) + b.intercept else .error .valueError

/-- `transform` on an object with centred data, `ppdire.py:788-807`: entry `(i, a)` of the scores (see `PpFit.transform` for
`center_data=False`, which is `none` here). -/
noncomputable def PpObj.transform (o : PpObj) {m q : ℕ} (Xn : Fin m → Fin q → ℝ) : Except Err (Option (List (List ℝ))) :=
  match o.x with
  | none => .error .attributeError
  | some b =>
    if hq : q = b.p then
      if b.locIsMatrix then .ok none
      else .ok (some (List.ofFn fun i => List.ofFn fun a =>
        (Matrix.of (scaleMat (fun i (k : Fin b.p) => Xn i (Fin.cast hq.symm k)) b.xLoc b.xSca) * b.rot) i a))
    else .error .valueError

end Direpack
