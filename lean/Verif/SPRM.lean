import Verif.RM

/-!
Model of the sparse partial robust M regression estimator `sprm/sprm.py`, over the real numbers and for
numeric arrays without missing values.  It uses the models of `snipls` (`Verif.Snipls`) and of the
reweighting loop (`Verif.RM`).

Parameters of the model (third-party functions): `norm.ppf`, `chi2.ppf` and the singular value
decomposition.  Not modelled: pandas inputs, column names, printing and warnings, `x_ev_`, `y_ev_`,
the attribute `scaling_` (refitted at `sprm.py:396-397` and not used again).  `valscore` is in `Verif.Valscore`.
-/

namespace Direpack

open scoped BigOperators

/-- Values of the `scale` parameter of `sprm` that `fit` distinguishes: `'scaleTau2'` (an estimator of
scale that is replaced by `'mad'` for data with a zero MAD, `sprm.py:210-214`) or one of the others. -/
inductive SprmScale where
  | tau2 (f : {n p : ℕ} → (Fin n → Fin p → ℝ) → (Fin p → ℝ))
  | plain (s : ScaleOpt)

/-- Parameters of `sprm.__init__`, `sprm.py:104-143`. -/
structure SprmParams where
  nComponents : ℤ
  eta : ℝ
  fn : WFun
  probp1 : ℝ
  probp2 : ℝ
  probp3 : ℝ
  centre : Centre
  scale : SprmScale
  maxit : ℤ
  tol : ℝ
  specific : Bool
  pcapp : Bool
  copy : Bool

/-- Third-party functions: quantiles and the singular value decomposition (left singular vectors and
singular values). -/
structure SprmExt where
  normPpf : ℝ → ℝ
  chi2Ppf : ℝ → ℕ → ℝ
  svd : {n p : ℕ} → (Fin n → Fin p → ℝ) → (Fin n → Fin n → ℝ) × (Fin (min p n) → ℝ)

/-- The quantiles as used by the shared definitions of `Verif.RM` (least squares is not used). -/
noncomputable def SprmExt.toRm (e : SprmExt) : RmExt := ⟨e.normPpf, e.chi2Ppf, fun _ _ _ => 0⟩

/-- The scale estimator for given data, `sprm.py:210-214`: the new value of `self.scale`. -/
noncomputable def SprmScale.resolve (s : SprmScale) {n p : ℕ} (X : Fin n → Fin p → ℝ) : SprmScale :=
  match s with
  | .plain s => .plain s
  | .tau2 f =>
    open Classical in
    if ∃ j, ScaleOpt.mad.run X j = 0 then .plain .mad else .tau2 f

/-- The estimator that `VersatileScaler` runs. -/
def SprmScale.opt : SprmScale → ScaleOpt
  | .plain s => s
  | .tau2 f => .other f

/-- Parameter checks, `sprm.py:163-191`.  (The type checks at 163 and 170 hold for
values that went through `int(..)` and `float(..)` in the constructor.) -/
noncomputable def sprmCheck (pr : SprmParams) (n p : ℕ) : Except Err Unit :=
  if pr.nComponents > n ∨ pr.nComponents > p then .error .other
  else if pr.nComponents ≤ 0 then .error .other
  else if pr.eta < 0 ∨ 1 ≤ pr.eta then .error .other
  else checkProbs pr.fn pr.probp1 pr.probp2 pr.probp3

/-- The variables that are kept, `sprm.py:229-230,246-249`: scale at least `1e-5`. -/
noncomputable def keepVars {p : ℕ} (sX : Fin p → ℝ) : List (Fin p) :=
  (List.finRange p).filter fun j => ¬ sX j < 1 / 100000

/-- Columns `keep` of a matrix. -/
def selCols {n p : ℕ} (X : Fin n → Fin p → ℝ) (keep : List (Fin p)) : Fin n → Fin keep.length → ℝ :=
  fun i a => X i (keep.get a)

/-- Starting points for the predictor weights, `sprm.py:260-269`: the number of components found by the
broken stick rule (`none` when it is not computed) and the row distances. -/
noncomputable def sprmStartX (ext : SprmExt) (pr : SprmParams) (sc : ScaleOpt) {n p : ℕ}
    (Xs : Fin n → Fin p → ℝ) : Except Err (Option ℕ × (Fin n → ℝ)) :=
  if pr.pcapp then
    let U := (ext.svd Xs).1
    let S := (ext.svd Xs).2
    let tot := ∑ k, S k ^ 2
    if tot = 0 then .error .other
    else
      match relcomp (fun k => S k ^ 2 / tot) with
      | .error e => .error e
      | .ok rc =>
        -- U[:, 0:relcomp], then scaling.fit_transform
        let Urc : Fin n → Fin (min rc n) → ℝ := fun i a => U i ⟨a, lt_of_lt_of_le a.2 (min_le_right _ _)⟩
        match rowDistances (scaleMat Urc (pr.centre.run Urc) (sc.run Urc)) with
        | .error e => .error e
        | .ok d => .ok (some rc, d)
  else
    match rowDistances Xs with
    | .error e => .error e
    | .ok d => .ok (none, d)

/-- Cutoffs for the starting predictor weights, `sprm.py:278-297`; with `start_cutoff_mode='specific'` but
another start than `'pcapp'` the variable `relcomp` is unbound. -/
noncomputable def sprmStartCut (ext : SprmExt) (pr : SprmParams) (rc : Option ℕ) :
    Except Err (ℝ × ℝ × ℝ) :=
  if pr.specific then
    match rc with
    | none => .error .unboundLocal
    | some rc => .ok (cutX ext.toRm true rc pr.probp1 pr.probp2 pr.probp3)
  else .ok (cutY ext.toRm pr.probp1 pr.probp2 pr.probp3)

/-- The scale used for the scores in the loop, `sprm.py:339-341`. -/
def scoreScale (s : ScaleOpt) : ScaleOpt :=
  match s with
  | .noneOpt => .mad
  | s => s

/-- Body of the loop of `sprm.fit`, `sprm.py:329-362`: a SNIPLS fit on the weighted data, residuals, score
distances and the new weight factors.  `cx` are the predictor cutoffs of the start; with `fun='Hampel'` they are
replaced by those with `n_components` degrees of freedom (354-357). -/
noncomputable def sprmStep (ext : SprmExt) (pr : SprmParams) (sc : ScaleOpt) (cx : ℝ × ℝ × ℝ) {n p : ℕ}
    (Xs : Fin n → Fin p → ℝ) (ys : Fin n → ℝ) (we : Fin n → ℝ) :
    Except Err (SnFit n p × ℝ × (Fin n → ℝ) × (Fin n → ℝ)) :=
  match snFit ⟨pr.eta, pr.nComponents.toNat, .mean, .noneOpt⟩ (weightRows Xs we)
      (fun i => ys i * Real.sqrt (we i)) with
  | .error e => .error e
  | .ok f =>
    let T : Fin n → Fin f.comps.length → ℝ := fun i a => compT f.comps i a / Real.sqrt (we i)
    match scaleRes (fun i => ys i - f.fitted i) with
    | .error e => .error e
    | .ok r =>
      match rowDistances (scaleMat T (pr.centre.run T) ((scoreScale sc).run T)) with
      | .error e => .error e
      | .ok wtn =>
        let cx' := if pr.fn = .hampel then
            cutX ext.toRm true pr.nComponents.toNat pr.probp1 pr.probp2 pr.probp3 else cx
        .ok (f, ∑ j, f.coef j ^ 2, pr.fn.run r (cutY ext.toRm pr.probp1 pr.probp2 pr.probp3), pr.fn.run wtn cx')

/-- A fitted model: the attributes set at `sprm.py:223-226,258,438-454`. -/
structure SprmFit (n p : ℕ) where
  /-- `non_zero_scale_vars_` -/
  keep : List (Fin p)
  /-- the last SNIPLS fit: weights, loadings, `C_`, `x_Rweights_`, `colret_` -/
  inner : SnFit n keep.length
  scores : Matrix (Fin n) (Fin inner.comps.length) ℝ
  coef : Fin keep.length → ℝ
  intercept : ℝ
  coefScaled : Fin keep.length → ℝ
  interceptScaled : ℝ
  residuals : Fin n → ℝ
  fitted : Fin n → ℝ
  xCaseweights : Fin n → ℝ
  yCaseweights : Fin n → ℝ
  caseweights : Fin n → ℝ
  xLoc : Fin p → ℝ
  yLoc : ℝ
  xSca : Fin p → ℝ
  ySca : ℝ
  trainCols : Option ℕ
  fits : ℕ

/-- `intercept_scaled_`, `sprm.py:417-434`: with a scale estimator the differences are broadcast to an
`n × n` matrix because `ys` is one-dimensional; without, `y` and `X b` are columns. -/
noncomputable def sprmB0 (c : Centre) (s : ScaleOpt) {n p : ℕ} (X : Fin n → Fin p → ℝ) (y : Fin n → ℝ)
    (Xs : Fin n → Fin p → ℝ) (ys : Fin n → ℝ) (b : Fin p → ℝ) : ℝ :=
  if s.isNone then snIntercept c fun i => y i - ∑ j, X i j * b j
  else if c.isMean then meanAllPairs ys fun i => ∑ j, Xs i j * b j
  else medAllPairs ys fun i => ∑ j, Xs i j * b j

/-- End of `sprm.fit` after the loop, `sprm.py:386-457`.  Without a pass of the loop the model has no
components: `w0` is unbound, or `x_loadings_` does not exist. -/
noncomputable def sprmFinish (pr : SprmParams) (sc : ScaleOpt) {n p : ℕ} (X : Fin n → Fin p → ℝ)
    (y : Fin n → ℝ) (mX sX : Fin p → ℝ) (my sy : ℝ) (keep : List (Fin p))
    (Xs : Fin n → Fin keep.length → ℝ) (ys : Fin n → ℝ)
    (o : Option (RwOut (SnFit n keep.length) n)) : Except Err (SprmFit n p) :=
  match o with
  | none => .error .unboundLocal
  | some o =>
    let b := o.b.coef
    let Xk := selCols X keep
    let br : Fin keep.length → ℝ := fun a => sy / sX (keep.get a) * b a
    let yp : Fin n → ℝ := fun i => ∑ a, Xk i a * br a
    let i1 := snIntercept pr.centre fun i => y i - yp i
    .ok { keep := keep, inner := o.b
          scores := Matrix.of Xs * o.b.R
          coef := br, intercept := i1, coefScaled := b
          interceptScaled := sprmB0 pr.centre sc Xk y Xs ys b
          residuals := fun i => y i - (yp i + i1), fitted := fun i => yp i + i1
          xCaseweights := zeroOut o.wte o.w0, yCaseweights := zeroOut o.wye o.w0
          caseweights := zeroOut o.we o.w0
          xLoc := mX, yLoc := my, xSca := sX, ySca := sy
          trainCols := if pr.copy then some p else none, fits := o.fits }

/-- `sprm.fit`, `sprm.py:145-457`: the parameters after the call (fit may assign `self.scale`) and the fitted
model. -/
noncomputable def sprmFit (ext : SprmExt) (pr : SprmParams) {n p : ℕ} (X : Fin n → Fin p → ℝ)
    (y : Fin n → ℝ) : SprmParams × Except Err (SprmFit n p) :=
  match sprmCheck pr n p with
  | .error e => (pr, .error e)
  | .ok _ =>
    let pr' := { pr with scale := pr.scale.resolve X }
    let sc := pr'.scale.opt
    let mX := pr.centre.run X
    let sX := sc.run X
    let my := pr.centre.run (asCol y) 0
    let sy := sc.run (asCol y) 0
    let ys : Fin n → ℝ := fun i => scaleMat (asCol y) (pr.centre.run (asCol y)) (sc.run (asCol y)) i 0
    let keep := keepVars sX
    let Xs := selCols (scaleMat X mX sX) keep
    (pr',
      if pr.nComponents > keep.length then .error .other
      else
        match sprmStartX ext pr sc Xs with
        | .error e => .error e
        | .ok (rc, dx) =>
          match startY pr.centre sc ys y with
          | .error e => .error e
          | .ok dy =>
            match sprmStartCut ext pr rc with
            | .error e => .error e
            | .ok cx =>
              let wx := pr.fn.run dx cx
              let wy := pr.fn.run dy (cutY ext.toRm pr.probp1 pr.probp2 pr.probp3)
              let we := clipW fun i => wx i * wy i
              match rwLoop (sprmStep ext pr sc cx Xs ys) pr.tol pr.maxit (pr.maxit.toNat + 1) 1
                  (1 / 100000) (pr.tol < 1) we none with
              | none => .error .other
              | some (.error e) => .error e
              | some (.ok o) => sprmFinish pr sc X y mX sX my sy keep Xs ys o)

/-- `sprm.predict`, `sprm.py:460-478`. -/
noncomputable def SprmFit.predict {n p : ℕ} (f : SprmFit n p) {m q : ℕ} (Xn : Fin m → Fin q → ℝ) :
    Except Err (Fin m → ℝ) :=
  match f.trainCols with
  | none => .error .attributeError
  | some _ =>
    if hq : q = p then
      .ok fun i => (∑ a, selCols (fun i (j : Fin p) => Xn i (Fin.cast hq.symm j)) f.keep i a * f.coef a) + f.intercept
    else .error .valueError

/-- `sprm.transform`, `sprm.py:480-505`. -/
noncomputable def SprmFit.transform {n p : ℕ} (f : SprmFit n p) {m q : ℕ} (Xn : Fin m → Fin q → ℝ) :
    Except Err (Matrix (Fin m) (Fin f.inner.comps.length) ℝ) :=
  match f.trainCols with
  | none => .error .attributeError
  | some _ =>
    if hq : q = p then
      let Xk := selCols (fun i (j : Fin p) => Xn i (Fin.cast hq.symm j)) f.keep
      .ok (Matrix.of (scaleMat Xk (fun a => f.xLoc (f.keep.get a)) (fun a => f.xSca (f.keep.get a))) * f.inner.R)
    else .error .valueError

/-- `sprm.weightnewx`, `sprm.py:507-536`.  The scaler is fitted to the scores of the new cases (526).  The
predictor cutoffs are those stored by `fit`: `cx` is the start value, replaced for `fun='Hampel'`
as in `sprmStep`. -/
noncomputable def SprmFit.weightnewx (ext : SprmExt) (pr : SprmParams) (cx : ℝ × ℝ × ℝ) {n p : ℕ} (f : SprmFit n p)
    {m q : ℕ} (Xn : Fin m → Fin q → ℝ) : Except Err (Fin m → ℝ) :=
  match f.transform Xn with
  | .error e => .error e
  | .ok T =>
    match rowDistances (scaleMat T (pr.centre.run T) ((scoreScale pr.scale.opt).run T)) with
    | .error e => .error e
    | .ok wtn =>
      let cx' := if pr.fn = .hampel then
          cutX ext.toRm true pr.nComponents.toNat pr.probp1 pr.probp2 pr.probp3 else cx
      .ok (pr.fn.run wtn cx')

/-! ### The `columns` parameter -/

/-- The `columns` parameter: a flag, or column names. -/
inductive SprmCols where
  | flag (b : Bool)
  | names (l : List String)
  deriving DecidableEq

/-- Indexing an array of names with an array of positions; `IndexError` when one is out of range. -/
def takeNames (l : List String) {p : ℕ} (idx : List (Fin p)) : Except Err (List String) :=
  match idx.mapM fun j => l[j.1]? with
  | some r => .ok r
  | none => .error .indexError

/-- `self.columns` after `fit`, `sprm.py:192-203,229-251`: `frame` are the column names when `X` is a data frame, `keep` are
the variables whose scale is large enough.  (A list of names is turned into an array, which has the same entries.) -/
def sprmColumns {p : ℕ} (c : SprmCols) (frame : Option (List String)) (keep : List (Fin p)) : Except Err SprmCols := do
  let c ← match c, frame with
    | .flag true, none => .error .other
    | .flag true, some l => .ok (.names l)
    | c, _ => .ok c
  let zero := (List.finRange p).filter fun j => j ∉ keep
  if zero = [] then .ok c
  else
    match c with
    | .flag b => .ok (.flag b)
    | .names l => do
      -- the warning text, 235
      let _ ← takeNames l zero
      -- 251
      .names <$> takeNames l keep

end Direpack
