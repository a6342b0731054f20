import Verif.PPDire

/-!
# `ppdire.fit` with `whiten_data` and `compression`, and its effect on the parameters

`ppdire/ppdire.py:210-764` for two blocks.  The singular value decompositions (`np.linalg.svd(..., full_matrices=False)`) are parameters.
-/

namespace Direpack

open scoped BigOperators

/-- `V, S, U = np.linalg.svd(X.T, full_matrices=False)` for a table `X` of `n` cases and `p` variables: `flat` for `n < p`, `tall` otherwise (the
inner dimension is the smaller one), `ppdire.py:333`, `366`. -/
structure PpSvd where
  flat : {n p : ℕ} → (Fin n → Fin p → ℝ) → Matrix (Fin p) (Fin n) ℝ × (Fin n → ℝ) × Matrix (Fin n) (Fin n) ℝ
  tall : {n p : ℕ} → (Fin n → Fin p → ℝ) → Matrix (Fin p) (Fin p) ℝ × (Fin p → ℝ) × Matrix (Fin p) (Fin n) ℝ

/-- The parameters of a `ppdire` object, `ppdire.py:163-200`. -/
structure PpConf where
  base : PpParams
  whiten : Bool
  compression : Bool

/-- `h = kwargs.pop('h'); self.n_components = h`, `ppdire.py:226-230`. -/
def PpConf.withComponents (cf : PpConf) (h : Option ℕ) : PpConf :=
  match h with
  | none => cf
  | some h => { cf with base := { cf.base with nComponents := h } }

/-- The parameters that whitening overwrites, `ppdire.py:315-319`. -/
def PpConf.whitened (cf : PpConf) : PpConf :=
  if cf.whiten then { cf with base := { cf.base with centerData := true, scaleData := false }, compression := false } else cf

/-! ### Compression -/

/-- `intercept_` after compression: a number or one number per training case. -/
inductive PpIntercept (n : ℕ) where
  | num (v : ℝ)
  | vec (v : Fin n → ℝ)

/-- The attributes of a fit with compression, `ppdire.py:694-758`.  The location and scale are `none` for `center_data=False`, when they are
`1 × n` matrices of zeros and ones (709-710, where `p` is the number of columns of the compressed table).  Not modelled: `intercept_scaled_`. -/
structure PpCompFit (n p : ℕ) where
  comps : List (PpComp n n)
  weights : Matrix (Fin p) (Fin comps.length) ℝ
  loads : Matrix (Fin p) (Fin comps.length) ℝ
  rot : Matrix (Fin p) (Fin comps.length) ℝ
  coefScaled : Fin p → ℝ
  coef : Fin p → ℝ
  intercept : PpIntercept n
  fitted : Fin n → ℝ
  residuals : Fin n → Fin n → ℝ
  loc : Option ((Fin p → ℝ) × (Fin p → ℝ))
  yLoc : ℝ
  ySca : ℝ
  /-- the state of `scaling_object_`, which was fitted to the data again (702) -/
  scalerLoc : List ℝ
  scalerSca : List ℝ

/-- The compressed table `U.T @ diag(S)`, `ppdire.py:334`. -/
def ppCompressedX (svd : PpSvd) {n p : ℕ} (X : Fin n → Fin p → ℝ) : Fin n → Fin n → ℝ := fun i k => (svd.flat X).2.2 k i * (svd.flat X).2.1 k

/-- All values of the `n × n` matrix `y - X @ bi`, `bi` having one dimension, `ppdire.py:699`, `715`. -/
def ppAllDiffs {n : ℕ} (y xb : Fin n → ℝ) : List ℝ := (List.finRange n).flatMap fun r => (List.finRange n).map fun c => y r - xb c

open Classical in
/-- `ppdire.fit(X, y=y)` for `p > n` and `compression=True`, `ppdire.py:331-764`.  If a column of the compressed table has a zero median absolute deviation, the
data are restored but `p` stays the number of columns of the compressed table (337-344), and every optimiser then fails on vectors of that length
(a `ValueError` of a product or of `reshape`; for the grid with one or two cases the unbound `alphamat2`).  Otherwise the model is fitted to the compressed table
and mapped back (694-710); `B[:,h-1]` (700) does not exist for zero components.  Since `bi` has one dimension after that, `y - X @ bi` is the `n × n` matrix of all differences: the mean gives one
intercept per case (716), the median a single one (718), and the residuals are a matrix (730). -/
noncomputable def ppCompressed (pr : PpParams) (svd : PpSvd) (pinv : Pinv) (rg : PpReg) {n p : ℕ} (φ : (Fin n → ℝ) → (Fin n → ℝ) → ℝ)
    (X : Fin n → Fin p → ℝ) (y : Fin n → ℝ) : Except Err (PpCompFit n p) :=
  let V := (svd.flat X).1
  if ∃ k, mad (fun i => ppCompressedX svd X i k) = 0 then .error .valueError
  else
    match ppFit pr pinv rg φ (ppCompressedX svd X) y with
    | .error e => .error e
    | .ok f =>
      if pr.nComponents = 0 then .error .indexError
      else
      let b := V.mulVec f.coef
      let xb : Fin n → ℝ := fun i => ∑ k, X i k * b k
      let ic : PpIntercept n :=
        match pr.centre with
        | .mean => .vec fun c => ppMean pr.trimming fun r => y r - xb c
        | .median => .num (medL (ppAllDiffs y xb))
      let fit : Fin n → ℝ :=
        match ic with
        | .num v => fun c => xb c + v
        | .vec v => fun c => xb c + v c
      .ok { comps := f.comps, weights := V * ppW f.comps, loads := V * ppP f.comps, rot := V * f.rot
            coefScaled := V.mulVec f.coefScaled, coef := b, intercept := ic
            fitted := fit, residuals := fun r c => y r - fit c
            loc := if pr.centerData then
                some (fun k => pr.centre.loc pr.trimming fun i => X i k, fun k => pr.centre.sca pr.scaleData pr.trimming fun i => X i k)
              else none
            yLoc := f.yLoc, ySca := f.ySca
            scalerLoc := if pr.centerData then List.ofFn fun k => pr.centre.loc pr.trimming fun i => X i k else []
            scalerSca := if pr.centerData then List.ofFn fun k => pr.centre.sca pr.scaleData pr.trimming fun i => X i k else [] }

/-- `predict` after compression, `ppdire.py:781-786`: a vector of length `m` plus the intercept, a vector of length `n` or a number. -/
noncomputable def PpCompFit.predict {n p : ℕ} (f : PpCompFit n p) {m : ℕ} (Xn : Fin m → Fin p → ℝ) : Except Err (List ℝ) :=
  match f.intercept with
  | .num v => .ok (List.ofFn fun i => (∑ k, Xn i k * f.coef k) + v)
  | .vec v =>
    if h : m = n then .ok (List.ofFn fun i => (∑ k, Xn i k * f.coef k) + v (Fin.cast h i))
    else if h1 : m = 1 then .ok (List.ofFn fun c => (∑ k, Xn (Fin.cast h1.symm 0) k * f.coef k) + v c)
    else if h2 : n = 1 then .ok (List.ofFn fun i => (∑ k, Xn i k * f.coef k) + v (Fin.cast h2.symm 0))
    else .error .valueError

/-- `transform` after compression, `ppdire.py:801-807`.  Without centring, an `m × p` table and an `m × 1 × n` array (`_preproc_utilities.py:313`) do not
combine unless there was a single training case. -/
noncomputable def PpCompFit.transform {n p : ℕ} (f : PpCompFit n p) {m : ℕ} (Xn : Fin m → Fin p → ℝ) : Except Err (Scores m f.comps.length) :=
  match f.loc with
  | some (l, s) => .ok (.mat (Matrix.of (scaleMat Xn l s) * f.rot))
  | none => if n = 1 then .ok (.cube fun _ b a => (Matrix.of Xn * f.rot) b a) else .error .valueError

/-! ### Whitening -/

open Classical in
/-- `ppdire.fit(X, y=y)` with `whiten_data=True`, `ppdire.py:315-764`; `pr` are the parameters after lines 316-318.  The centred data are multiplied by `K = V / S`
(365-371).  With fewer cases than variables the whitened table has `n` columns but `p` is not changed: every optimiser fails.  After the
direction has been found, `K*wi` is a `p × p` matrix whose `p²` values are assigned to a column of `p` values (641-648), which fails unless `p = 1`.  (Only the kind of
the exception differs from the code if a later component fails first.)  For one variable the weight stored, and the one at which the index is reported (653), is
`K*wi`. -/
noncomputable def ppWhitened (pr : PpParams) (svd : PpSvd) (pinv : Pinv) (rg : PpReg) {n p : ℕ} (φ : (Fin n → ℝ) → (Fin n → ℝ) → ℝ)
    (X : Fin n → Fin p → ℝ) (y : Fin n → ℝ) : Except Err (PpFit n p) :=
  if ¬ trimOk pr.trimming n then .error .valueError
  else
    let mX : Fin p → ℝ := fun k => pr.centre.loc pr.trimming fun i => X i k
    let Xs : Fin n → Fin p → ℝ := fun i k => X i k - mX k
    if n < p then .error .valueError
    else
      let V := (svd.tall Xs).1
      let S := (svd.tall Xs).2.1
      if ∃ k, S k = 0 then .error .other
      else
        let K : Matrix (Fin p) (Fin p) ℝ := Matrix.of fun k l => V k l / S l
        let E : Fin n → Fin p → ℝ := fun i l => (∑ k, Xs i k * K k l) * Real.sqrt p
        let my := pr.centre.loc pr.trimming y
        let ys : Fin n → ℝ := fun i => y i - my
        match ppLoop pr.optimizer (φ ys) pr.squarePi (rg.run ys y) pr.nComponents E with
        | .error e => .error e
        | .ok l =>
          if l ≠ [] ∧ p ≠ 1 then .error .valueError
          else
            let l' := l.map fun c => { c with w := fun k => K k k * c.w k, crit := evalIdx (φ ys) pr.squarePi (projE E fun k => K k k * c.w k) }
            let R := ppR pinv l'
            let b : Fin p → ℝ := R.mulVec (ppC l')
            let xb : Fin n → ℝ := fun i => ∑ k, X i k * b k
            let b0 := pr.centre.loc pr.trimming fun i => y i - xb i
            .ok { comps := l', rot := R, coefScaled := b, coef := b, intercept := b0, interceptScaled := b0
                  fitted := fun i => xb i + b0, residuals := fun i => y i - (xb i + b0)
                  xLoc := mX, xSca := fun _ => 1, yLoc := my, ySca := 1, scalerLoc := [my], scalerSca := [1], locIsMatrix := false }

/-! ### All together -/

/-- A fitted model. -/
inductive PpResult (n p : ℕ) where
  | plain (f : PpFit n p)
  | compressed (f : PpCompFit n p)

/-- `ppdire.fit(X, y=y, h=h)`, `ppdire.py:210-764`: the parameters of the object afterwards, and the model or an exception. -/
noncomputable def PpConf.fit (cf : PpConf) (h : Option ℕ) (svd : PpSvd) (pinv : Pinv) (rg : PpReg) {n p : ℕ} (φ : (Fin n → ℝ) → (Fin n → ℝ) → ℝ)
    (X : Fin n → Fin p → ℝ) (y : Fin n → ℝ) : PpConf × Except Err (PpResult n p) :=
  let c1 := cf.withComponents h
  if c1.base.nComponents > min n p then (c1, .error .other)
  else
    let c2 := c1.whitened
    (c2,
      if c2.whiten then (ppWhitened c2.base svd pinv rg φ X y).map .plain
      else if n < p ∧ c2.compression then (ppCompressed c2.base svd pinv rg φ X y).map .compressed
      else (ppFit c2.base pinv rg φ X y).map .plain)

end Direpack
