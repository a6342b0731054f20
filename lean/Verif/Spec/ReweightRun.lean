import Mathlib.Data.Real.Basic
import Mathlib.Data.Fintype.Card
import Mathlib.Data.Finset.Card

/-!
Vocabulary for a complete run of an iteratively reweighted estimator: the weights that are used by each fit, and the
three reasons for which the iteration ends.
-/

namespace Direpack.Spec

variable {n : ℕ}

/-- Weights below `1e-6` are raised to `1e-6`. -/
noncomputable def raised (w : Fin n → ℝ) : Fin n → ℝ := fun i => max (w i) (1 / 1000000)

/-- At least half of the cases have a weight below `1e-6`. -/
def mostlyDiscarded (w : Fin n → ℝ) : Prop := n ≤ 2 * Fintype.card {i // w i < 1 / 1000000}

/-- Size of the coefficients before fit `k`: that of the fit before, and `1e-5` before the first. -/
noncomputable def sizeBefore (size : ℕ → ℝ) : ℕ → ℝ
  | 0 => 1 / 100000
  | k + 1 => size k

/-- Fit `k` changed the size of the coefficients by at most the fraction `tol`, upwards or downwards. -/
def settledAt (tol : ℝ) (size : ℕ → ℝ) (k : ℕ) : Prop :=
  |size k - sizeBefore size k| ≤ tol * sizeBefore size k

/-- A run of `K` fits.  Fit `k` is made with the case weights `used k`; its coefficients have the sum of squares `size k`,
and it assigns the weights `found k` to the cases. -/
structure IsReweightRun (tol : ℝ) (maxit : ℤ) (start : Fin n → ℝ) (K : ℕ) (used : ℕ → Fin n → ℝ) (size : ℕ → ℝ)
    (found : ℕ → Fin n → ℝ) : Prop where
  atLeastOne : 1 ≤ K
  atMost : (K : ℤ) ≤ maxit - 1
  first : used 0 = raised start
  next : ∀ k, k + 1 < K → used (k + 1) = raised (found k)
  goesOn : ∀ k, k + 1 < K → ¬ mostlyDiscarded (found k) ∧ ¬ settledAt tol size k
  stops : (K : ℤ) = maxit - 1 ∨ mostlyDiscarded (found (K - 1)) ∨ settledAt tol size (K - 1)

/-- Absolute residuals divided by 1.4826 times their median `m`. -/
def IsScaledBy (m : ℝ) (res r : Fin n → ℝ) : Prop := ∀ i, r i = |res i| / (14826 / 10000 * m)

/-- `d` is `v` divided by `m`, which is not zero. -/
def IsDividedBy (m : ℝ) (v d : Fin n → ℝ) : Prop := m ≠ 0 ∧ ∀ i, d i * m = v i

end Direpack.Spec
