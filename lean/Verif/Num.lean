import Mathlib.Algebra.Order.Field.Basic
import Mathlib.Algebra.Order.Floor.Semiring
import Mathlib.Algebra.BigOperators.Group.List.Basic
import Mathlib.Data.List.Sort
import Mathlib.Data.List.OfFn
import Verif.Basic

/-!
The numpy / scipy primitives that the modelled code calls, by their documented meaning
in exact arithmetic.  These are part of the trusted base: they model third-party
functions, not repository code.
-/

namespace Direpack

variable {K : Type} [Field K] [LinearOrder K]

/-- `np.sort` on a one-dimensional array (the result of sorting does not depend on the
algorithm, so insertion sort is used). -/
def sortL (l : List K) : List K := l.insertionSort (· ≤ ·)

/-- `np.median` of a one-dimensional array: middle element of the sorted array, or the mean
of the two middle ones.  (numpy returns NaN for an empty array; here 0, and every
use is guarded by a non-emptiness hypothesis or an `Option`.) -/
def medL (l : List K) : K :=
  if l.length % 2 = 1 then (sortL l).getD (l.length / 2) 0
  else ((sortL l).getD (l.length / 2 - 1) 0 + (sortL l).getD (l.length / 2) 0) / 2

/-- `np.mean` of a one-dimensional array (NaN in numpy, 0 here, if empty). -/
def meanL (l : List K) : K := l.sum / l.length

/-- `np.var` (ddof = 0) of a one-dimensional array. -/
def varL (l : List K) : K := meanL (l.map fun x => (x - meanL l) ^ 2)

/-- `scipy.stats.trim_mean(a, proportiontocut, 0)` of a one-dimensional array:
`lowercut = int(proportiontocut*n)`, `uppercut = n - lowercut`; `ValueError` if
`lowercut > uppercut`; otherwise the mean of `sorted(a)[lowercut:uppercut]`, which is NaN
(`none`) when that slice is empty.  `int` truncates; for the nonnegative proportions that reach it this
is the floor. -/
def trimMeanL [FloorSemiring K] (l : List K) (t : K) : Except Err (Option K) :=
  let n := l.length
  let lowercut := ⌊t * n⌋₊
  if n < lowercut + lowercut then .error .valueError
  else
    let kept := ((sortL l).drop lowercut).take (n - lowercut - lowercut)
    if kept.length = 0 then .ok none else .ok (some (meanL kept))

/-- Median of a vector. -/
def med {n : ℕ} (x : Fin n → K) : K := medL (List.ofFn x)

/-- Mean of a vector. -/
def mean {n : ℕ} (x : Fin n → K) : K := meanL (List.ofFn x)

/-- Variance (divisor `n`) of a vector. -/
def var {n : ℕ} (x : Fin n → K) : K := varL (List.ofFn x)

/-- `k`-th (zero based) entry of the sorted vector; `np.sort(x)[k]`, an `IndexError` when `k ≥ n`. -/
def ordStat {n : ℕ} (x : Fin n → K) (k : ℕ) : Except Err K :=
  match (sortL (List.ofFn x))[k]? with
  | some v => .ok v
  | none => .error .indexError

end Direpack
