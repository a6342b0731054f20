import Mathlib.Analysis.SpecialFunctions.Pow.Real
import Mathlib.Analysis.Real.Sqrt
import Mathlib.Data.Fintype.BigOperators
import Verif.Num

/-!
Model of the generalised spatial sign pre-processing:
`preprocessing/_gsspp_utils.py` and `preprocessing/gsspp.py`, over the real numbers.
-/

namespace Direpack

open scoped BigOperators

/-- The zero-based position `int(np.floor((n + p + 1) / 2)) - 1` read by all distance-quantile functions,
`_gsspp_utils.py:25,56,74,95,119`.  (For `n = p = 0` numpy would read position -1 of an empty array, also
an `IndexError`.) -/
def hIdx (n p : ℕ) : ℕ := (n + p + 1) / 2 - 1

/-- `quad`, `_gsspp_utils.py:15-29`.  Distances are a column of length `n`. -/
noncomputable def quadF {n : ℕ} (dd : Fin n → ℝ) (p : ℕ) : Except Err (Fin n → ℝ) := do
  let d_hmed ← ordStat dd (hIdx n p)
  .ok fun i => if dd i > d_hmed then (1 / dd i ^ 2) * d_hmed ^ 2 else 1

/-- `ss`, `_gsspp_utils.py:31-44`; `prec = 1e-10`. -/
noncomputable def ssF {n : ℕ} (dd : Fin n → ℝ) (_p : ℕ) : Except Err (Fin n → ℝ) :=
  .ok fun i => 1 / max (dd i) (1 / 10 ^ 10)

/-- `winsor`, `_gsspp_utils.py:46-60`. -/
noncomputable def winsorF {n : ℕ} (dd : Fin n → ℝ) (p : ℕ) : Except Err (Fin n → ℝ) := do
  let d_hmed ← ordStat dd (hIdx n p)
  .ok fun i => if dd i > d_hmed then (1 / dd i) * d_hmed else 1

/-- `np.power(dd, 2/3)`. -/
noncomputable def p23 (v : ℝ) : ℝ := v ^ ((2 : ℝ) / 3)

/-- `np.power(v, 3/2)`. -/
noncomputable def p32 (v : ℝ) : ℝ := v ^ ((3 : ℝ) / 2)

/-- `ball`, `_gsspp_utils.py:62-80`. -/
noncomputable def ballF {n : ℕ} (dd : Fin n → ℝ) (p : ℕ) : Except Err (Fin n → ℝ) := do
  let dWH := fun i => p23 (dd i)
  let dWH_hmed ← ordStat dWH (hIdx n p)
  let d_hmed := p32 dWH_hmed
  .ok fun i => if dd i > d_hmed then 0 else 1

/-- `shell`, `_gsspp_utils.py:83-104`. -/
noncomputable def shellF {n : ℕ} (dd : Fin n → ℝ) (p : ℕ) : Except Err (Fin n → ℝ) := do
  let dWH := fun i => p23 (dd i)
  let dWH_hmed ← ordStat dWH (hIdx n p)
  let dWH_hmad ← ordStat (fun i => |dWH i - dWH_hmed|) (hIdx n p)
  let cutoff1 := p32 (max 0 (dWH_hmed - dWH_hmad))
  let cutoff2 := p32 (dWH_hmed + dWH_hmad)
  .ok fun i => if dd i > cutoff2 then 0 else if dd i < cutoff1 then 0 else 1

/-- `linear_redescending`, `_gsspp_utils.py:107-128`. -/
noncomputable def lrF {n : ℕ} (dd : Fin n → ℝ) (p : ℕ) : Except Err (Fin n → ℝ) := do
  let dWH := fun i => p23 (dd i)
  let dWH_hmed ← ordStat dWH (hIdx n p)
  let dWH_hmad ← ordStat (fun i => |dWH i - dWH_hmed|) (hIdx n p)
  let d_hmed := p32 dWH_hmed
  let cutoff := p32 (dWH_hmed + 14826 / 10000 * dWH_hmad)
  .ok fun i => if dd i > cutoff then 0
    else if dd i > d_hmed ∧ dd i ≤ cutoff then 1 - (dd i - d_hmed) / (cutoff - d_hmed) else 1

/-- The values of the `fun` option, `gsspp.py:33-34`. -/
inductive Radial where
  | quad | ss | winsor | ball | shell | linearRedescending
  deriving DecidableEq

/-- `fun(dd, p, n)` after `eval(self.fun)`, `gsspp.py:60-65`. -/
noncomputable def Radial.apply {n : ℕ} (f : Radial) (dd : Fin n → ℝ) (p : ℕ) :
    Except Err (Fin n → ℝ) :=
  match f with
  | .quad => quadF dd p
  | .ss => ssF dd p
  | .winsor => winsorF dd p
  | .ball => ballF dd p
  | .shell => shellF dd p
  | .linearRedescending => lrF dd p

/-- `_norms`, `_gsspp_utils.py:131-135`. -/
noncomputable def rowNorms {n p : ℕ} (X : Fin n → Fin p → ℝ) : Fin n → ℝ :=
  fun i => Real.sqrt (∑ j, X i j ^ 2)

/-- `_gsspp`, `_gsspp_utils.py:138-142`: the transform of centred data. -/
noncomputable def gsspp {n p : ℕ} (f : Radial) (X : Fin n → Fin p → ℝ) :
    Except Err (Fin n → Fin p → ℝ) := do
  let xi ← f.apply (rowNorms X) p
  .ok fun i j => X i j * xi i

/-- Centring by `VersatileScaler(center=..., scale='None')`, `gsspp.py:64-65`: subtraction of the estimated
location from every row (the division is by one).  The estimator is an arbitrary function of the data. -/
def centreBy {n p : ℕ} (center : (Fin n → Fin p → ℝ) → Fin p → ℝ) (X : Fin n → Fin p → ℝ) :
    Fin n → Fin p → ℝ := fun i j => X i j - center X j

/-- A fitted `GenSpatialSignPreProcessor`: `gss_` and `Xm_`. -/
structure GSSState (n p : ℕ) where
  gss : Fin n → ℝ
  Xm : Fin n → Fin p → ℝ

/-- `GenSpatialSignPreProcessor.fit`, `gsspp.py:52-69`. -/
noncomputable def GSSState.fit {n p : ℕ} (center : (Fin n → Fin p → ℝ) → Fin p → ℝ) (f : Radial)
    (X : Fin n → Fin p → ℝ) : Except Err (GSSState n p) := do
  let Xm := centreBy center X
  let gss ← f.apply (rowNorms Xm) p
  .ok ⟨gss, Xm⟩

/-- `GenSpatialSignPreProcessor.transform`, `gsspp.py:71-80`: the argument is not used, the stored
training data are. -/
def GSSState.transform {n p n' : ℕ} (s : GSSState n p) (_X : Fin n' → Fin p → ℝ) :
    Fin n → Fin p → ℝ := fun i j => s.Xm i j * s.gss i

/-- `GenSpatialSignPreProcessor.fit_transform`, `gsspp.py:82-86`. -/
noncomputable def gssFitTransform {n p : ℕ} (center : (Fin n → Fin p → ℝ) → Fin p → ℝ) (f : Radial)
    (X : Fin n → Fin p → ℝ) : Except Err (Fin n → Fin p → ℝ) := do
  let s ← GSSState.fit center f X
  .ok (s.transform X)

/-- The `center` argument of `gen_ss_pp`: the string `'None'` or an estimator. -/
inductive CenterArg (n p : ℕ) where
  | noneString
  | estimator (c : (Fin n → Fin p → ℝ) → Fin p → ℝ)

/-- `gen_ss_pp`, `gsspp.py:91-123`: the string `'None'` is evaluated to the object `None`, which differs from the
string in line 120 and is then called as a function in the scaler (`TypeError`). -/
noncomputable def genSsPp {n p : ℕ} (c : CenterArg n p) (f : Radial) (X : Fin n → Fin p → ℝ) :
    Except Err (Fin n → Fin p → ℝ) :=
  match c with
  | .noneString => .error .typeError
  | .estimator c => gsspp f (centreBy c X)

/-- A two-dimensional array with entries given by position. -/
structure Mat2 where
  rows : ℕ
  cols : ℕ
  e : ℕ → ℕ → ℝ

/-- numpy's rule for one dimension of a broadcast. -/
def bdim (a b : ℕ) : Option ℕ := if a = b then some a else if a = 1 then some b else if b = 1 then some a else none

/-- Elementwise product `A * B` of two arrays with broadcasting (numpy). -/
noncomputable def bmul (A B : Mat2) : Except Err Mat2 :=
  match bdim A.rows B.rows, bdim A.cols B.cols with
  | some r, some c => .ok ⟨r, c, fun i j =>
      A.e (if A.rows = 1 then 0 else i) (if A.cols = 1 then 0 else j) *
      B.e (if B.rows = 1 then 0 else i) (if B.cols = 1 then 0 else j)⟩
  | _, _ => .error .valueError

/-- A matrix as an array. -/
noncomputable def toMat2 {n p : ℕ} (X : Fin n → Fin p → ℝ) : Mat2 :=
  ⟨n, p, fun i j => if h : i < n ∧ j < p then X ⟨i, h.1⟩ ⟨j, h.2⟩ else 0⟩

/-- Transpose. -/
def Mat2.T (A : Mat2) : Mat2 := ⟨A.cols, A.rows, fun i j => A.e j i⟩

/-- `gen_ss_covmat`, `gsspp.py:126-160`, with a callable radial function; the result is
`Xgss.T * Xgss / n` with the elementwise product of arrays. -/
noncomputable def genSsCovmat {n p : ℕ} (center : (Fin n → Fin p → ℝ) → Fin p → ℝ) (f : Radial)
    (X : Fin n → Fin p → ℝ) : Except Err Mat2 := do
  let Xgss ← gsspp f (centreBy center X)
  let M ← bmul (toMat2 Xgss).T (toMat2 Xgss)
  .ok ⟨M.rows, M.cols, fun i j => M.e i j / n⟩

end Direpack
