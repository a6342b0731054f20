import Mathlib.Data.Matrix.Mul
import Mathlib.Data.Matrix.Diagonal
import Mathlib.Data.Fin.Tuple.Sort
import Mathlib.Algebra.Order.Ring.Star
import Mathlib.Analysis.Real.Sqrt
import Mathlib.LinearAlgebra.Matrix.Trace
import Verif.Num
import Verif.Scaler

/-!
Model of the slicing and moment based sufficient dimension reduction methods, `sudire/_sudire_utils.py:151-501`, over the real
numbers for complete numeric data.

`np.linalg.eigh` is a parameter (`Eigh`); what is assumed of it is in `Spec/Sudire.lean`.  A computation that gives NaN in numpy
and an exception of LAPACK are both the failure `Err.other`.
-/

namespace Direpack

open scoped BigOperators

/-! ### Slices of the response -/

/-- The division points, `_sudire_utils.py:172-177`: `yord[int(i*m)]` for `i = 1, ..., h-1` with `m = floor(n/h)`. -/
noncomputable def divPoints {n : ℕ} (y : Fin n → ℝ) (h : ℕ) : Except Err (List ℝ) :=
  mapE (fun i => ordStat y ((i + 1) * (n / h))) (List.range (h - 1))

/-- `discretize(y, h)`, `_sudire_utils.py:161-183`. -/
noncomputable def discretize {n : ℕ} (y : Fin n → ℝ) (h : ℕ) : Except Err (Fin n → ℕ) :=
  if h = 0 then .error .zeroDivision
  else
    match divPoints y h with
    | .error e => .error e
    | .ok dp =>
      if dp = [] then .error .indexError
      else
        let y0 : Fin n → ℕ := fun _ => 0
        let y1 := maskSet y0 (fun c => y c < dp.getD 0 0) fun _ => 1
        let y2 := maskSet y1 (fun c => y c ≥ dp.getD (h - 2) 0) fun _ => h
        .ok ((List.range (h - 2)).foldl (fun acc i => maskSet acc (fun c => y c ≥ dp.getD i 0 ∧ y c < dp.getD (i + 1) 0) fun _ => i + 2) y2)

/-- The loop that collects the labels, `_sudire_utils.py:221-226` (the same in SAVE, 285-290, and DR, 356-361): `fuel` is the number of iterations left. -/
noncomputable def labelLoop : ℕ → List ℝ → List ℝ × List ℝ
  | 0, l => ([], l)
  | fuel + 1, l =>
    if varL l ≠ 0 then
      match l with
      | [] => ([], [])
      | a :: r =>
        let res := labelLoop fuel ((a :: r).filter fun b => b ≠ a)
        (a :: res.1, res.2)
    else labelLoop fuel l

/-- `ylabel`, `_sudire_utils.py:221-227`. -/
noncomputable def yLabels {n : ℕ} (y : Fin n → ℝ) : Except Err (List ℝ) :=
  match labelLoop n (List.ofFn y) with
  | (_, []) => .error .indexError
  | (acc, a :: _) => .ok (acc ++ [a])

/-- `ylabel[i]` for `i < n_slices`, `_sudire_utils.py:231-233`, `293-294`, `366-367`. -/
noncomputable def sliceLabels {n : ℕ} (y : Fin n → ℝ) (s : ℕ) : Except Err (Fin s → ℝ) :=
  match yLabels y with
  | .error e => .error e
  | .ok l => if h : s ≤ l.length then .ok fun i => l.get (Fin.castLE h i) else .error .indexError

/-- `ytype` and the slicing of the response, `_sudire_utils.py:217-220`. -/
noncomputable def sliceResponse {n : ℕ} (continuous : Bool) (y : Fin n → ℝ) (s : ℕ) : Except Err (Fin n → ℝ) :=
  if continuous then
    match discretize y s with
    | .error e => .error e
    | .ok l => .ok fun c => l c
  else .ok y

/-! ### Slice statistics -/

/-- `ydis == a`. -/
noncomputable def inSlice {n : ℕ} (y : Fin n → ℝ) (a : ℝ) : Finset (Fin n) := Finset.univ.filter fun c => y c = a

/-- `prob`, `_sudire_utils.py:232`. -/
noncomputable def sliceProb {n : ℕ} (y : Fin n → ℝ) (a : ℝ) : ℝ := (inSlice y a).card / n

/-- `exy`, `_sudire_utils.py:233-234`. -/
noncomputable def sliceMean {n p : ℕ} (X : Fin n → Fin p → ℝ) (y : Fin n → ℝ) (a : ℝ) : Fin p → ℝ :=
  fun j => (∑ c ∈ inSlice y a, X c j) / (inSlice y a).card

/-- `vxy`, `_sudire_utils.py:296-303`, `369-377`: `np.cov` of the slice (divisor one less than the number of cases), the identity for slices with
one case. -/
noncomputable def sliceCov {n p : ℕ} (X : Fin n → Fin p → ℝ) (y : Fin n → ℝ) (a : ℝ) : Matrix (Fin p) (Fin p) ℝ :=
  if 1 < (inSlice y a).card then
    Matrix.of fun j k =>
      (∑ c ∈ inSlice y a, (X c j - sliceMean X y a j) * (X c k - sliceMean X y a k)) / ((inSlice y a).card - 1)
  else 1

/-- `np.cov(x, rowvar=0)`. -/
noncomputable def covMat {n p : ℕ} (X : Fin n → Fin p → ℝ) : Matrix (Fin p) (Fin p) ℝ :=
  Matrix.of fun j k => (∑ c, (X c j - mean fun i => X i j) * (X c k - mean fun i => X i k)) / ((n : ℝ) - 1)

/-! ### Kernel matrices -/

/-- `sirmat`, `_sudire_utils.py:236-237`. -/
noncomputable def sirMat {n p s : ℕ} (X : Fin n → Fin p → ℝ) (y : Fin n → ℝ) (lab : Fin s → ℝ) : Matrix (Fin p) (Fin p) ℝ :=
  let exy : Matrix (Fin s) (Fin p) ℝ := Matrix.of fun i => sliceMean X y (lab i)
  exy.transpose * Matrix.diagonal (fun i => sliceProb y (lab i)) * exy

/-- `savemat`, `_sudire_utils.py:305-309`. -/
noncomputable def saveMat {n p s : ℕ} (X : Fin n → Fin p → ℝ) (y : Fin n → ℝ) (lab : Fin s → ℝ) : Matrix (Fin p) (Fin p) ℝ :=
  ∑ i, sliceProb y (lab i) • ((sliceCov X y (lab i) - 1) * (sliceCov X y (lab i) - 1))

/-- `v vᵀ`. -/
def outer {p : ℕ} (v : Fin p → ℝ) : Matrix (Fin p) (Fin p) ℝ := Matrix.of fun j k => v j * v k

/-- `out` of directional regression, `_sudire_utils.py:381-405`. -/
noncomputable def drMat {n p s : ℕ} (X : Fin n → Fin p → ℝ) (y : Fin n → ℝ) (lab : Fin s → ℝ) : Matrix (Fin p) (Fin p) ℝ :=
  let e := fun i => sliceMean X y (lab i)
  let b := fun i => sliceCov X y (lab i) + outer (e i)
  let mat1 := ∑ i, sliceProb y (lab i) • (b i * b i)
  let mat2 := ∑ i, sliceProb y (lab i) • outer (e i)
  (2 : ℝ) • mat1 + (2 : ℝ) • (mat2 * mat2) + (2 * mat2.trace) • mat2 - (2 : ℝ) • (1 : Matrix (Fin p) (Fin p) ℝ)

/-- `out` of principal Hessian directions, `_sudire_utils.py:444-445`. -/
noncomputable def phdMat {n p : ℕ} (X : Fin n → Fin p → ℝ) (y : Fin n → ℝ) : Matrix (Fin p) (Fin p) ℝ :=
  Matrix.of fun j k => (∑ c, X c j * (y c - mean y) * X c k) / n

/-! ### Eigenvectors -/

/-- `np.linalg.eigh`: eigenvalues and the matrix whose columns are the eigenvectors. -/
abbrev Eigh := {p : ℕ} → Matrix (Fin p) (Fin p) ℝ → (Fin p → ℝ) × Matrix (Fin p) (Fin p) ℝ

/-- `matpower(A, -0.5)`, `_sudire_utils.py:151-158`; NaN or infinity for eigenvalues that are not positive. -/
noncomputable def invSqrt (eigh : Eigh) {p : ℕ} (A : Matrix (Fin p) (Fin p) ℝ) : Except Err (Matrix (Fin p) (Fin p) ℝ) :=
  let ev := eigh ((1 / 2 : ℝ) • (A + A.transpose))
  open Classical in
  if ∀ j, 0 < ev.1 j then .ok (ev.2 * Matrix.diagonal (fun j => 1 / Real.sqrt (ev.1 j)) * ev.2.transpose)
  else .error .other

/-- `matpower(A, i)` for a positive integer `i`. -/
noncomputable def matPow (eigh : Eigh) {p : ℕ} (A : Matrix (Fin p) (Fin p) ℝ) (i : ℕ) : Matrix (Fin p) (Fin p) ℝ :=
  let ev := eigh ((1 / 2 : ℝ) • (A + A.transpose))
  ev.2 * Matrix.diagonal (fun j => ev.1 j ^ i) * ev.2.transpose

/-- `idx = eig_vals.argsort()[::-1]`, `_sudire_utils.py:239`, as a function.  (numpy's default sort does not specify the order of equal
values; here it is the stable one.) -/
noncomputable def descIdx {p : ℕ} (v : Fin p → ℝ) (j : Fin p) : Fin p := Tuple.sort v (Fin.rev j)

/-- `eig_vecs[:, idx][:, 0:d]`, `_sudire_utils.py:238-245`. -/
noncomputable def leading (eigh : Eigh) {p : ℕ} (M : Matrix (Fin p) (Fin p) ℝ) (d : ℕ) : Matrix (Fin p) (Fin (min d p)) ℝ :=
  let ev := eigh M
  Matrix.of fun k j => ev.2 k (descIdx ev.1 (Fin.castLE (min_le_right d p) j))

/-! ### The methods -/

/-- The method, `sudire.py:191-200`. -/
inductive SdrMethod where
  | sir
  | save
  | dr
  deriving DecidableEq

/-- The kernel matrix of a slicing method. -/
noncomputable def SdrMethod.kernel (m : SdrMethod) {n p s : ℕ} (X : Fin n → Fin p → ℝ) (y : Fin n → ℝ) (lab : Fin s → ℝ) :
    Matrix (Fin p) (Fin p) ℝ :=
  match m with
  | .sir => sirMat X y lab
  | .save => saveMat X y lab
  | .dr => drMat X y lab

/-- `x - x.mean(axis=0)` when `center_data`, `_sudire_utils.py:212-213`. -/
noncomputable def sdrCentre {n p : ℕ} (center : Bool) (X : Fin n → Fin p → ℝ) : Fin n → Fin p → ℝ :=
  if center then fun c j => X c j - mean fun i => X i j else X

/-- `np.matmul(x, signsqrt)` when `scale_data`, `_sudire_utils.py:214-215`. -/
def sdrScale {n p : ℕ} (scale : Bool) (X : Fin n → Fin p → ℝ) (S : Matrix (Fin p) (Fin p) ℝ) : Fin n → Fin p → ℝ :=
  if scale then fun c j => ∑ k, X c k * S k j else X

/-- `np.matmul(signsqrt, eig_vecs[:, 0:d])` when `scale_data`, `_sudire_utils.py:242-245`. -/
def sdrBack {p d : ℕ} (scale : Bool) (S : Matrix (Fin p) (Fin p) ℝ) (B : Matrix (Fin p) (Fin d) ℝ) : Matrix (Fin p) (Fin d) ℝ :=
  if scale then S * B else B

/-- `signsqrt`, `_sudire_utils.py:208`: not used when `scale_data` is false. -/
noncomputable def sdrRoot (eigh : Eigh) {n p : ℕ} (scale : Bool) (X : Fin n → Fin p → ℝ) : Except Err (Matrix (Fin p) (Fin p) ℝ) :=
  if scale then invSqrt eigh (covMat X) else .ok 1

/-- `SIR`, `SAVE` and `DR`, `_sudire_utils.py:186-413`.  With fewer than two variables or cases `np.cov` or `eigh` fails. -/
noncomputable def sliceMethod (m : SdrMethod) (eigh : Eigh) {n p : ℕ} (X : Fin n → Fin p → ℝ) (y : Fin n → ℝ) (s d : ℕ)
    (continuous center scale : Bool) : Except Err (Matrix (Fin p) (Fin (min d p)) ℝ) :=
  if n < 2 ∨ p < 2 then .error .other
  else
    match sdrRoot eigh scale X with
    | .error e => .error e
    | .ok S =>
      let Z := sdrScale scale (sdrCentre center X) S
      match sliceResponse continuous y s with
      | .error e => .error e
      | .ok yd =>
        match sliceLabels yd s with
        | .error e => .error e
        | .ok lab =>
          if s = 0 ∧ m ≠ .save then .error .valueError
          else .ok (sdrBack scale S (leading eigh (m.kernel Z yd lab) d))

/-- `PHD`, `_sudire_utils.py:416-454`. -/
noncomputable def phd (eigh : Eigh) {n p : ℕ} (X : Fin n → Fin p → ℝ) (y : Fin n → ℝ) (d : ℕ) (center scale : Bool) :
    Except Err (Matrix (Fin p) (Fin (min d p)) ℝ) :=
  if n < 2 ∨ p < 2 then .error .other
  else
    match sdrRoot eigh scale X with
    | .error e => .error e
    | .ok S =>
      let Z := sdrScale scale (sdrCentre center X) S
      .ok (sdrBack scale S (leading eigh (phdMat Z y) d))

/-- `np.cov(x, y, rowvar=0)[-1, :-1]`, `_sudire_utils.py:487`. -/
noncomputable def covXY {n p : ℕ} (X : Fin n → Fin p → ℝ) (y : Fin n → ℝ) : Fin p → ℝ :=
  fun j => (∑ c, (y c - mean y) * (X c j - mean fun i => X i j)) / ((n : ℝ) - 1)

/-- `mat`, `_sudire_utils.py:488-491`: the first column is the covariance with the response, column `i` is `covx^i` times it. -/
noncomputable def ihtCols (eigh : Eigh) {n p : ℕ} (X : Fin n → Fin p → ℝ) (y : Fin n → ℝ) : Matrix (Fin p) (Fin p) ℝ :=
  Matrix.of fun k i => if i.1 = 0 then covXY X y k else (matPow eigh (covMat X) i.1).mulVec (covXY X y) k

/-- `IHT`, `_sudire_utils.py:457-501`. -/
noncomputable def iht (eigh : Eigh) {n p : ℕ} (X : Fin n → Fin p → ℝ) (y : Fin n → ℝ) (d : ℕ) (center scale : Bool) :
    Except Err (Matrix (Fin p) (Fin (min d p)) ℝ) :=
  if n < 2 ∨ p < 2 then .error .other
  else
    match sdrRoot eigh scale X with
    | .error e => .error e
    | .ok S =>
      let Z := sdrScale scale (sdrCentre center X) S
      .ok (sdrBack scale S (leading eigh (ihtCols eigh Z y * (ihtCols eigh Z y).transpose) d))

end Direpack
