import Mathlib.Algebra.Order.Field.Basic
import Mathlib.Algebra.BigOperators.Group.Finset.Basic
import Mathlib.Data.Fintype.BigOperators
import Verif.Basic

/-!
Model of `src/direpack/sprm/_m_support_functions.py`, of the place in
`src/direpack/sprm/sprm.py` where the broken stick rule is used, and of
`src/direpack/cross_validation/_cv_support_functions.py`.
-/

namespace Direpack

open scoped BigOperators

section
variable {K : Type} [Field K] [LinearOrder K] [IsStrictOrderedRing K]

/-- `Fair`, `sprm/_m_support_functions.py:13-14`. -/
def fair {n : ℕ} (x : Fin n → K) (probct : K) : Fin n → K :=
  fun i => 1 / (1 + |x i / (probct * 2)|) ^ 2

/-- `Huber`, `sprm/_m_support_functions.py:17-20`.  The two masked assignments run one after
the other on the same array: the second mask sees the result of the first. -/
def huber {n : ℕ} (x : Fin n → K) (probct : K) : Fin n → K :=
  -- line 18
  let x1 := maskSet x (fun i => x i ≤ probct) (fun _ => 1)
  -- line 19
  let x2 := maskSet x1 (fun i => x1 i > probct) (fun i => probct / |x1 i|)
  x2

/-- `Hampel`, `sprm/_m_support_functions.py:23-34`.  `wx = x` (line 24) aliases the input, so
each of the four masked assignments sees the result of the previous ones. -/
def hampel {n : ℕ} (x : Fin n → K) (probct hampelb hampelr : K) : Fin n → K :=
  -- line 25
  let x1 := maskSet x (fun i => x i ≤ probct) (fun _ => 1)
  -- lines 26-28
  let x2 := maskSet x1 (fun i => x1 i > probct ∧ x1 i ≤ hampelb) (fun i => probct / |x1 i|)
  -- lines 29-32
  let x3 := maskSet x2 (fun i => x2 i > hampelb ∧ x2 i ≤ hampelr)
    (fun i => (probct * (hampelr - x2 i)) / ((hampelr - hampelb) * |x2 i|))
  -- line 33
  let x4 := maskSet x3 (fun i => x3 i > hampelr) (fun _ => 0)
  x4

/-- `brokenstick`, `sprm/_m_support_functions.py:37-43`: upper triangular matrix of ones times
the column `1/r`, `r = 1..k`, divided by `k`. -/
def brokenstick (k : ℕ) : Fin k → K :=
  fun i => (∑ j : Fin k, (if i ≤ j then (1 : K) else 0) * (1 / ((j : ℕ) + 1 : K))) / (k : K)

/-- The start-up search of `sprm.fit`, `sprm/sprm.py:262-265`:
`max(np.where(spc - brokenstick(min(p, n))[:, 0] <= 0)[0][0], 1)`.  `np.where(..)[0][0]`
raises `IndexError` when no entry satisfies the condition.  `spc` are the squared singular
values divided by their sum; the singular value decomposition itself is not modelled. -/
def relcomp {k : ℕ} (spc : Fin k → K) : Except Err ℕ :=
  match (List.finRange k).find? (fun i => decide (spc i - brokenstick k i ≤ 0)) with
  | none => .error .indexError
  | some i => .ok (max (i : ℕ) 1)

/-- The weight functions that can be chosen with `fun=`. -/
inductive WFun where
  | fair | huber | hampel
  deriving DecidableEq, Repr

/-- Call of a weight function through its common signature `fun(x, probct, hampelb, hampelr)`
(`_cv_support_functions.py:56`; `Fair` and `Huber` swallow the two extra arguments in
`*args`). -/
def WFun.apply {n : ℕ} (f : WFun) (x : Fin n → K) (probct hampelb hampelr : K) : Fin n → K :=
  match f with
  | .fair => Direpack.fair x probct
  | .huber => Direpack.huber x probct
  | .hampel => Direpack.hampel x probct hampelb hampelr

/-- `robust_loss`, `cross_validation/_cv_support_functions.py:33-57`, with the loss function
`lfun` a parameter (`lfun y ypred w`).  Reshaping and the cast to `float64` (lines 49-54) have
no effect on one-dimensional numeric input and are not modelled. -/
def robustLoss {n : ℕ} (lfun : (Fin n → K) → (Fin n → K) → (Fin n → K) → K) (f : WFun)
    (y ypred : Fin n → K) (probct hampelb hampelr : K) : K :=
  let r := fun i => y i - ypred i
  let w := f.apply r probct hampelb hampelr
  lfun y ypred w

/-- `sklearn.metrics.mean_squared_error(y, ypred, sample_weight=w)`, the default `lfun`:
`np.average((y - ypred)**2, weights=w)`, i.e. weighted sum divided by the sum of weights. -/
def weightedMSE {n : ℕ} (y ypred w : Fin n → K) : K :=
  (∑ i, w i * (y i - ypred i) ^ 2) / ∑ i, w i

end

/-- One parameter setting in a `GridSearchCV` result, restricted to the keys that
`cv_score_table` reads. -/
structure CvSetting (K : Type) where
  eta : K
  nComponents : ℕ

/-- A row of the table built by `cv_score_table`. -/
structure CvRow (K : Type) where
  etas : K
  nComponents : ℕ
  score : K
  deriving DecidableEq

/-- `cv_score_table`, `cross_validation/_cv_support_functions.py:20-31`.  The settings are
walked by index, `for i in range(0, n_settings)`; the data frame constructor raises
`ValueError` if the score column has a different length. -/
def cvScoreTable {K : Type} (params : List (CvSetting K)) (meanTestScore : List K) :
    Except Err (List (CvRow K)) :=
  let etas := params.map (fun s => s.eta)
  let components := params.map (fun s => s.nComponents)
  if meanTestScore.length = params.length then
    .ok ((etas.zip (components.zip meanTestScore)).map fun t => ⟨t.1, t.2.1, t.2.2⟩)
  else .error .valueError

end Direpack
