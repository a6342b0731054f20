import Mathlib.LinearAlgebra.Matrix.NonsingularInverse
import Verif.Slicing
import Verif.PPDire
import Verif.Spec.Regress

/-!
Model of the class `sudire` and of `estimate_structural_dim`, `sudire/sudire.py`, and of the constraint functions of `utils/utils.py`, over the
real numbers for complete numeric data.

External routines are parameters (`SdExt`): `np.linalg.eigh`, `inv(sqrtm(.))`, `scipy.linalg.orth`, `dcor.distance_covariance_sqr`, the interior point
solver behind `minimize_ipopt`, the least squares fit of statsmodels and the singular value decomposition used for whitening.
Not modelled: data compression (lines 277-296: with more variables than cases line 274 fails before), the optional arguments of `fit`, printing.
A fit that raises leaves some attributes changed; the model keeps the object only of fits that succeed.
-/

namespace Direpack

open scoped BigOperators

/-! ### Vectorised matrices and constraints -/

/-- `.flatten(order='F')`, `sudire.py:456`: column by column. -/
def vecF {p h : ℕ} (B : Matrix (Fin p) (Fin h) ℝ) : List ℝ := (List.finRange h).flatMap fun j => (List.finRange p).map fun k => B k j

/-- `np.reshape(beta, (-1, h), order='F')` where the number of rows has to be `p` (a product with a matrix of `p` rows or columns follows at every
use), `utils.py:36`, `47`, `sudire.py:508-511`. -/
def reshapeF (p h : ℕ) (l : List ℝ) : Except Err (Matrix (Fin p) (Fin h) ℝ) :=
  if h ≠ 0 ∧ l.length = p * h then .ok (Matrix.of fun k j => l.getD (j.1 * p + k.1) 0) else .error .valueError

/-- `const_xscale`, `utils.py:31-39`: an entry of `ans`. -/
noncomputable def constX {n p : ℕ} (beta : List ℝ) (X : Fin n → Fin p → ℝ) (h i j : ℕ) : Except Err ℝ :=
  match reshapeF p h beta with
  | .error e => .error e
  | .ok B =>
    if hij : i < h ∧ j < h then .ok ((B.transpose * covMat X * B - 1 : Matrix (Fin h) (Fin h) ℝ) ⟨i, hij.1⟩ ⟨j, hij.2⟩) else .error .indexError

/-- `const_zscale`, `utils.py:42-50`. -/
noncomputable def constZ {n p : ℕ} (beta : List ℝ) (_X : Fin n → Fin p → ℝ) (h i j : ℕ) : Except Err ℝ :=
  match reshapeF p h beta with
  | .error e => .error e
  | .ok B =>
    if hij : i < h ∧ j < h then .ok ((B.transpose * (1 : Matrix (Fin p) (Fin p) ℝ) * B - 1 : Matrix (Fin h) (Fin h) ℝ) ⟨i, hij.1⟩ ⟨j, hij.2⟩) else .error .indexError

/-! ### Parameters, data and state -/

/-- A data matrix of any size. -/
structure SdData where
  n : ℕ
  p : ℕ
  X : Fin n → Fin p → ℝ

/-- One entry of the tuple of constraints, `sudire.py:465-480`. -/
structure SdCons where
  /-- `const_zscale` (true) or `const_xscale` -/
  zscale : Bool
  data : SdData
  h : ℕ
  i : ℕ
  j : ℕ

/-- Value of a constraint. -/
noncomputable def SdCons.eval (c : SdCons) (beta : List ℝ) : Except Err ℝ :=
  if c.zscale then constZ beta c.data.X c.h c.i c.j else constX beta c.data.X c.h c.i c.j

/-- `optimizer_arguments`, `sudire.py:485-497`. -/
structure SdArgs where
  data : SdData
  y : Fin data.n → ℝ
  h : ℕ
  N2 : Matrix (Fin data.p) (Fin data.p) ℝ
  trimming : ℝ

/-- Objective functions other than `dcov_trim`, `sudire.py:516-566`. -/
inductive SdObjective where
  | dcov
  | ball
  | mdd
  | user

/-- `sudiremeth`, `sudire.py:191-200`. -/
inductive SdMeth where
  | slice (m : SdrMethod)
  | phd
  | iht
  /-- `'dcov-sdr'` -/
  | dcov
  /-- `'bcov-sdr'`, `'mdd-sdr'` or a function -/
  | opt (o : SdObjective)

/-- Constructor arguments, `sudire.py:140-181`. -/
structure SdParams where
  meth : SdMeth
  nComp : ℕ
  trimming : ℝ
  centerData : Bool
  center : PpCentre
  scaleData : Bool
  whiten : Bool
  nSlices : ℕ
  copy : Bool
  continuous : Bool
  returnScaling : Bool

/-- External routines. -/
structure SdExt where
  eigh : Eigh
  /-- `inv(sqrtm(A))`, `sudire.py:274` -/
  rootInv : {p : ℕ} → Matrix (Fin p) (Fin p) ℝ → Except Err (Matrix (Fin p) (Fin p) ℝ)
  /-- `scipy.linalg.orth` -/
  orth : {p h : ℕ} → Matrix (Fin p) (Fin h) ℝ → (r : ℕ) × Matrix (Fin p) (Fin r) ℝ
  /-- `dcor.distance_covariance_sqr` -/
  dcov2 : {n r : ℕ} → (Fin n → Fin r → ℝ) → (Fin n → ℝ) → ℝ
  /-- `.x` of the result of `minimize_ipopt` -/
  solve : SdObjective → List ℝ → SdArgs → List SdCons → Except Err (List ℝ)
  /-- `K` of the whitening step, `sudire.py:341-343` -/
  whitenK : {n p : ℕ} → (Fin n → Fin p → ℝ) → Matrix (Fin p) (Fin p) ℝ
  /-- coefficients of `sm.OLS(ys, T_reg).fit()` -/
  ols : {n k : ℕ} → (Fin n → Fin k → ℝ) → (Fin n → ℝ) → Fin k → ℝ

/-- The attributes that a fit reads and writes besides the results. -/
structure SdState where
  start : Option (List ℝ)
  cons : Option (List SdCons)
  args : Option SdArgs
  x0 : Option SdData

/-- The state after `__init__` with the default optimiser arguments, `sudire.py:166-169`. -/
def SdState.init : SdState := ⟨none, none, none, none⟩

/-- An object. -/
structure SdObj where
  params : SdParams
  state : SdState

/-- `sudire(...)`. -/
def SdObj.new (pr : SdParams) : SdObj := ⟨pr, .init⟩

/-- `self.center == 'mean'`. -/
def PpCentre.isMean : PpCentre → Bool
  | .mean => true
  | .median => false

/-! ### Preprocessing -/

/-- Change of the parameters when `whiten_data`, `sudire.py:266-269`. -/
def SdParams.whitened (pr : SdParams) : SdParams := if pr.whiten then { pr with centerData := true, scaleData := false } else pr

/-- Result of the preprocessing. -/
structure SdPre (n p : ℕ) where
  Xs : Fin n → Fin p → ℝ
  N2 : Matrix (Fin p) (Fin p) ℝ
  loc : Fin p → ℝ
  sca : Fin p → ℝ
  /-- whether the variable `centring` has a value -/
  centring : Bool

/-- `np.matmul(X, A)`. -/
def matX {n p h : ℕ} (X : Fin n → Fin p → ℝ) (A : Matrix (Fin p) (Fin h) ℝ) : Fin n → Fin h → ℝ := fun c j => ∑ k, X c k * A k j

/-- Centring, `sudire.py:300-315`. -/
noncomputable def sdCentreStep (pr : SdParams) {n p : ℕ} (X : Fin n → Fin p → ℝ) (N2 : Matrix (Fin p) (Fin p) ℝ) : SdPre n p :=
  if pr.centerData then
    match pr.center with
    | .median => ⟨fun c j => X c j - med fun i => X i j, N2, fun j => med fun i => X i j, fun _ => 1, true⟩
    | .mean =>
      ⟨fun c j => X c j - ppMean pr.trimming fun i => X i j, N2, fun j => ppMean pr.trimming fun i => X i j,
        fun j => Real.sqrt (covMat X j j), false⟩
  else ⟨X, N2, fun _ => 0, fun _ => 1, false⟩

/-- Scaling, `sudire.py:316-337`. -/
noncomputable def sdScaleStep (pr : SdParams) {n p : ℕ} (X : Fin n → Fin p → ℝ) (q : SdPre n p) : SdPre n p :=
  if pr.scaleData then
    match pr.center with
    | .mean => { q with Xs := matX q.Xs q.N2 }
    | .median =>
      ⟨Spec.stdMat X (fun j => med fun i => X i j) (fun j => mad fun i => X i j), q.N2, fun j => med fun i => X i j,
        fun j => mad fun i => X i j, true⟩
  else q

/-- Whitening, `sudire.py:340-346`. -/
noncomputable def sdWhitenStep (ext : SdExt) (pr : SdParams) {n p : ℕ} (q : SdPre n p) : SdPre n p :=
  if pr.whiten then { q with Xs := fun c j => matX q.Xs (ext.whitenK q.Xs) c j * Real.sqrt p } else q

/-- Lines 255-346 of `sudire.py`; `pr` are the parameters after line 269.  (A trimming fraction that leaves no values makes the location NaN and the
eigenvalue routines fail.) -/
noncomputable def sdPre (ext : SdExt) (pr : SdParams) {n p : ℕ} (X : Fin n → Fin p → ℝ) : Except Err (SdPre n p) :=
  if min n p < pr.nComp then .error .other
  else if n < 2 ∨ p < 2 then .error .other
  else
    match ext.rootInv (covMat X) with
    | .error e => .error e
    | .ok N2 =>
      open Classical in
      if ¬ trimOk pr.trimming n then .error .other
      else .ok (sdWhitenStep ext pr (sdScaleStep pr X (sdCentreStep pr X N2)))

/-! ### Directions -/

/-- Loadings of `h` components. -/
structure SdLoad (p : ℕ) where
  h : ℕ
  P : Matrix (Fin p) (Fin h) ℝ

/-- `if self.scale_data: P = np.matmul(N2, P)`, `sudire.py:386-387`. -/
def sdMapBack (scale : Bool) {p h : ℕ} (N2 : Matrix (Fin p) (Fin p) ℝ) (B : Matrix (Fin p) (Fin h) ℝ) : Matrix (Fin p) (Fin h) ℝ :=
  if scale then N2 * B else B

/-- Start values, `sudire.py:433-460`.  The call `SAVE(Xs, ys, 3, n_components, center_data, scale_data)` gives `center_data` in the place of `ytype`
and `scale_data` in the place of `center_data`: the response is not sliced because a Boolean is not `'continuous'`, and the data are always scaled. -/
noncomputable def sdStartMat (ext : SdExt) (pr : SdParams) (m : SdrMethod) (s : ℕ) {n p : ℕ} (q : SdPre n p) (y : Fin n → ℝ) :
    Except Err (Matrix (Fin p) (Fin (min pr.nComp p)) ℝ) :=
  match sliceMethod m ext.eigh q.Xs y s pr.nComp false pr.scaleData true with
  | .error e => .error e
  | .ok B => .ok (sdMapBack pr.scaleData q.N2 B)

/-- The start vector, `sudire.py:433-460`. -/
noncomputable def sdStart (ext : SdExt) (pr : SdParams) {n p : ℕ} (q : SdPre n p) (y : Fin n → ℝ) : Except Err (List ℝ) :=
  match sdStartMat ext pr .save 3 q y with
  | .error e => .error e
  | .ok bSave =>
    match sdStartMat ext pr .sir 6 q y with
    | .error e => .error e
    | .ok bSir =>
      match sdStartMat ext pr .dr 6 q y with
      | .error e => .error e
      | .ok bDr =>
        let val := fun B : Matrix (Fin p) (Fin (min pr.nComp p)) ℝ => ext.dcov2 (matX q.Xs (ext.orth B).2) y
        .ok (if val bSave ≥ val bSir ∧ val bSave ≥ val bDr then vecF bSave
          else if val bSir ≥ val bSave ∧ val bSir ≥ val bDr then vecF bSir else vecF bDr)

/-- Constraints, `sudire.py:462-484`. -/
def sdCons (pr : SdParams) {n p : ℕ} (q : SdPre n p) : List SdCons :=
  (List.range pr.nComp).flatMap fun i => (List.range pr.nComp).map fun j => ⟨pr.scaleData, ⟨n, p, q.Xs⟩, pr.nComp, i, j⟩

/-- `optimizer_arguments`, `sudire.py:485-497`. -/
def sdArgs (pr : SdParams) {n p : ℕ} (q : SdPre n p) (y : Fin n → ℝ) : SdArgs := ⟨⟨n, p, q.Xs⟩, y, pr.nComp, q.N2, pr.trimming⟩

/-- One run of the solver and the matrix of loadings made of its result, `sudire.py:499-511`. -/
noncomputable def sdRun (ext : SdExt) (pr : SdParams) {n p : ℕ} (q : SdPre n p) (o : SdObjective) (start : List ℝ) (args : SdArgs)
    (cons : List SdCons) : Except Err (Matrix (Fin p) (Fin pr.nComp) ℝ) :=
  match ext.solve o start args cons with
  | .error e => .error e
  | .ok x =>
    match reshapeF p pr.nComp x with
    | .error e => .error e
    | .ok B => .ok (sdMapBack pr.scaleData q.N2 B)

/-- Directions found by optimisation, `sudire.py:430-566`, with the attributes kept on the object. -/
noncomputable def sdOptimise (ext : SdExt) (pr : SdParams) (st : SdState) {n p : ℕ} (q : SdPre n p) (y : Fin n → ℝ) (second : Option SdObjective) :
    Except Err (SdLoad p × SdState) :=
  match (match st.start with
    | some v => Except.ok v
    | none => sdStart ext pr q y) with
  | .error e => .error e
  | .ok start =>
    let cons := st.cons.getD (sdCons pr q)
    let args := st.args.getD (sdArgs pr q y)
    match sdRun ext pr q .dcov start args cons with
    | .error e => .error e
    | .ok B =>
      match second with
      | none => .ok (⟨pr.nComp, B⟩, { st with start := some start, cons := some cons, args := some args })
      | some o =>
        let start2 := vecF B
        match sdRun ext pr q o start2 args cons with
        | .error e => .error e
        | .ok B2 => .ok (⟨pr.nComp, B2⟩, { st with start := some start2, cons := some cons, args := some args })

/-- Directions, `sudire.py:376-566`. -/
noncomputable def sdDirections (ext : SdExt) (pr : SdParams) (st : SdState) {n p : ℕ} (q : SdPre n p) (y : Fin n → ℝ) :
    Except Err (SdLoad p × SdState) :=
  match pr.meth with
  | .slice m =>
    match sliceMethod m ext.eigh q.Xs y pr.nSlices pr.nComp pr.continuous pr.centerData pr.scaleData with
    | .error e => .error e
    | .ok B => .ok (⟨_, sdMapBack pr.scaleData q.N2 B⟩, st)
  | .phd =>
    match phd ext.eigh q.Xs y pr.nComp pr.centerData pr.scaleData with
    | .error e => .error e
    | .ok B => .ok (⟨_, sdMapBack pr.scaleData q.N2 B⟩, st)
  | .iht =>
    match iht ext.eigh q.Xs y pr.nComp pr.centerData pr.scaleData with
    | .error e => .error e
    | .ok B => .ok (⟨_, sdMapBack pr.scaleData q.N2 B⟩, st)
  | .dcov => sdOptimise ext pr st q y none
  | .opt o => sdOptimise ext pr st q y (some o)

/-! ### Projector, scores and regression -/

/-- `projMat`, `sudire.py:388`. -/
noncomputable def projMat {p h : ℕ} (P : Matrix (Fin p) (Fin h) ℝ) : Except Err (Matrix (Fin p) (Fin p) ℝ) :=
  open Classical in
  if IsUnit (P.transpose * P).det then .ok (P * (P.transpose * P)⁻¹ * P.transpose) else .error .other

/-- Columns that `sm.add_constant` takes for a constant: all values are the same and not zero. -/
def IsConstCol {n h : ℕ} (T : Fin n → Fin h → ℝ) (j : Fin h) : Prop := (∀ c c', T c j = T c' j) ∧ ∀ c, T c j ≠ 0

/-- `sm.add_constant(T)`, `sudire.py:568`, `647` (statsmodels, `has_constant='skip'`): a column of ones is put in front unless there is a constant
column already. -/
noncomputable def addConstant {n h : ℕ} (T : Fin n → Fin h → ℝ) : (k : ℕ) × (Fin n → Fin k → ℝ) :=
  open Classical in
  if ∃ j, IsConstCol T j then ⟨h, T⟩ else ⟨h + 1, fun c => Fin.cons 1 (T c)⟩

/-- A fitted model, `sudire.py:568-584`. -/
structure SdFit (n p : ℕ) where
  h : ℕ
  /-- `x_loadings_` -/
  P : Matrix (Fin p) (Fin h) ℝ
  /-- `proj_mat_` -/
  proj : Matrix (Fin p) (Fin p) ℝ
  /-- `x_scores_` -/
  T : Fin n → Fin h → ℝ
  /-- number of columns of the regression -/
  k : ℕ
  /-- coefficients of `ols_obj_` -/
  coef : Fin k → ℝ
  /-- `x_loc_` -/
  loc : Fin p → ℝ
  /-- `x_sca_` -/
  sca : Fin p → ℝ

/-- `T = np.matmul(self.X0, P)`, `sudire.py:389`; the regression on `T` needs as many rows as `y` has. -/
def sdScores (x0 : Option SdData) (n : ℕ) {p : ℕ} (L : SdLoad p) : Except Err (Fin n → Fin L.h → ℝ) :=
  match x0 with
  | none => .error .attributeError
  | some D =>
    if hp : D.p = p then
      if hn : D.n = n then .ok fun c j => ∑ k, D.X (Fin.cast hn.symm c) (Fin.cast hp.symm k) * L.P k j else .error .valueError
    else .error .valueError

/-- `self.X0 = X0` when `copy`, `sudire.py:249-253`. -/
def SdState.setX0 (st : SdState) (copy : Bool) {n p : ℕ} (X : Fin n → Fin p → ℝ) : SdState :=
  if copy then { st with x0 := some ⟨n, p, X⟩ } else st

/-- `sudire.fit`, `sudire.py:208-585`. -/
noncomputable def SdObj.fit (ext : SdExt) (o : SdObj) {n p : ℕ} (X : Fin n → Fin p → ℝ) (y : Fin n → ℝ) : Except Err (SdObj × SdFit n p) :=
  let pr := o.params.whitened
  let st := o.state.setX0 pr.copy X
  match sdPre ext pr X with
  | .error e => .error e
  | .ok q =>
    match sdDirections ext pr st q y with
    | .error e => .error e
    | .ok (L, st') =>
      match projMat L.P with
      | .error e => .error e
      | .ok pm =>
        match sdScores st'.x0 n L with
        | .error e => .error e
        | .ok T =>
          let R := addConstant T
          if pr.returnScaling ∧ pr.center.isMean = false ∧ q.centring = false then .error .unboundLocal
          else .ok (⟨pr, st'⟩, ⟨L.h, L.P, pm, T, R.1, ext.ols R.2 y, q.loc, q.sca⟩)

/-- `transform`, `sudire.py:587-617`. -/
def SdFit.transform {n p : ℕ} (f : SdFit n p) {m q : ℕ} (Xn : Fin m → Fin q → ℝ) : Except Err (Fin m → Fin f.h → ℝ) :=
  if h : q = p then .ok (matX (fun c k => Xn c (Fin.cast h.symm k)) f.P) else .error .valueError

/-- `predict`, `sudire.py:619-649`. -/
noncomputable def SdFit.predict {n p : ℕ} (f : SdFit n p) {m q : ℕ} (Xn : Fin m → Fin q → ℝ) : Except Err (Fin m → ℝ) :=
  match f.transform Xn with
  | .error e => .error e
  | .ok T =>
    let R := addConstant T
    if h : R.1 = f.k then .ok fun c => ∑ j, R.2 c j * f.coef (Fin.cast h j) else .error .valueError

/-! ### Structural dimension -/

/-- Position of the first smallest value, `np.argmin`. -/
noncomputable def argminL : List ℝ → ℕ
  | [] => 0
  | a :: l => if ∀ b ∈ l, a ≤ b then 0 else argminL l + 1

/-- The loops of `estimate_structural_dim`, `sudire.py:796-826`: `dist k` are the distances found in the bootstrap samples for dimension `k`; `diff_b` is
created once before the loop over the dimensions. -/
noncomputable def structLoop (dist : ℕ → List ℝ) : List ℕ → List ℝ → List ℝ
  | [], _ => []
  | k :: ks, acc => meanL (acc ++ dist k) :: structLoop dist ks (acc ++ dist k)

/-- The bootstrap distances for one dimension, `sudire.py:800-825`: `fitProj X y` is `proj_mat_` of a fit and `specNorm` the largest singular value.  The rows
of the predictors are drawn again, the response is the original one. -/
noncomputable def bootDist {n p : ℕ} (fitProj : (Fin n → Fin p → ℝ) → (Fin n → ℝ) → Matrix (Fin p) (Fin p) ℝ)
    (specNorm : Matrix (Fin p) (Fin p) ℝ → ℝ) (X : Fin n → Fin p → ℝ) (y : Fin n → ℝ) (idx : List (Fin n → Fin n)) : List ℝ :=
  idx.map fun f => specNorm (fitProj X y - fitProj (fun c => X (f c)) y)

/-- `estimate_structural_dim`, `sudire.py:738-827`, for fits that succeed: `idx k` are the draws made for dimension `k`. -/
noncomputable def structuralDim {n p : ℕ} (fitProj : ℕ → (Fin n → Fin p → ℝ) → (Fin n → ℝ) → Matrix (Fin p) (Fin p) ℝ)
    (specNorm : Matrix (Fin p) (Fin p) ℝ → ℝ) (X : Fin n → Fin p → ℝ) (y : Fin n → ℝ) (idx : ℕ → List (Fin n → Fin n)) : ℕ × List ℝ :=
  let md := structLoop (fun k => bootDist (fitProj k) specNorm X y (idx k)) ((List.range p).map (· + 1)) []
  (argminL md + 1, md)

end Direpack
