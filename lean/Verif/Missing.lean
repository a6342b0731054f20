import Mathlib.Algebra.Order.Floor.Semiring
import Verif.Num
import Verif.Scaler

/-!
Location and scale estimators on data with missing cells:
`preprocessing/_preproc_utilities.py`.  A cell is `Option K`, `none` meaning NaN.
-/

namespace Direpack

variable {K : Type} [Field K] [LinearOrder K]

/-- A data matrix with possibly missing cells. -/
abbrev NMat (K : Type) (n p : ℕ) := Fin n → Fin p → Option K

/-- `np.isnan(X).any()`. -/
def anyNaN {n p : ℕ} (x : NMat K n p) : Prop := ∃ i j, x i j = none

instance {n p : ℕ} (x : NMat K n p) : Decidable (anyNaN x) := by
  unfold anyNaN
  have : ∀ i j, Decidable (x i j = none) := fun i j => by
    cases h : x i j
    · exact isTrue rfl
    · exact isFalse (by simp)
  infer_instance

/-- A numpy reduction (`np.median`, `np.mean`, `np.var`) on one column: NaN if any cell is
NaN or the column is empty. -/
def npReduce (f : List K → K) (c : List (Option K)) : Option K :=
  if c.any Option.isNone ∨ c = [] then none else some (f (c.filterMap id))

/-- Its NaN-ignoring version (`np.nanmedian`, `np.nanmean`, `np.nanvar`): NaN if no cell is
available. -/
def npNanReduce (f : List K → K) (c : List (Option K)) : Option K :=
  if c.filterMap id = [] then none else some (f (c.filterMap id))

/-- Column `j`. -/
def NMat.col {n p : ℕ} (x : NMat K n p) (j : Fin p) : List (Option K) :=
  List.ofFn fun i => x i j

/-- `median(X)`, `_preproc_utilities.py:57-69`. -/
def medianNaN {n p : ℕ} (x : NMat K n p) (j : Fin p) : Option K :=
  if anyNaN x then npNanReduce medL (x.col j) else npReduce medL (x.col j)

/-- `mean(X, trimming=0)`, `_preproc_utilities.py:77-81`. -/
def meanNaN {n p : ℕ} (x : NMat K n p) (j : Fin p) : Option K :=
  if anyNaN x then npNanReduce meanL (x.col j) else npReduce meanL (x.col j)

/-- `std(X, trimming=0)`, `_preproc_utilities.py:95-100`; `sq` is numpy's square root. -/
def stdNaN {n p : ℕ} (sq : K → K) (x : NMat K n p) (j : Fin p) : Option K :=
  if anyNaN x then (npNanReduce varL (x.col j)).map sq else (npReduce varL (x.col j)).map sq

/-- `np.abs(a - b)` on cells: NaN if either is NaN. -/
def nanAbsSub : Option K → Option K → Option K
  | some v, some m => some |v - m|
  | _, _ => none

/-- A term of `np.nansum(np.multiply(..))`: products with a NaN factor count as 0. -/
def nanMul : Option K → Option K → K
  | some a, some b => a * b
  | _, _ => 0

/-- `mad(X)`, `_preproc_utilities.py:44-54`: NaN cells stay NaN in `np.abs(X - median(X))`. -/
def madNaN {n p : ℕ} (x : NMat K n p) (j : Fin p) : Option K :=
  let xc : NMat K n p := fun i j => nanAbsSub (x i j) (medianNaN x j)
  (medianNaN xc j).map fun s => s / madConst

/-- `nandot(X, y)` for `X` of shape `p × n` and `y` of length `n`, `utils/utils.py:83-91`:
`np.nansum` of the elementwise product of each row with `y`. -/
def nandot {p n : ℕ} (x : NMat K p n) (y : Fin n → Option K) : Fin p → K :=
  fun i => (List.ofFn fun k => nanMul (x i k) (y k)).sum

/-- `nanmatdot(X, Y)` for `X` of shape `p × n` and `Y` of shape `n × q` with `q ≥ 2`,
`utils/utils.py:104-108`.  The list comprehension has the columns of `Y` outside, so the result has shape `q × p`. -/
def nanmatdot {p n q : ℕ} (x : NMat K p n) (y : NMat K n q) : Fin q → Fin p → K :=
  fun j i => (List.ofFn fun k => nanMul (x i k) (y k j)).sum

end Direpack
