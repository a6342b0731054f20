import Mathlib.Data.Real.Basic
import Mathlib.Data.Fintype.BigOperators

/-!
Vocabulary for iteratively reweighted estimators: what is assumed of the quantile functions and of the least
squares solver that the code calls.
-/

namespace Direpack.Spec

open scoped BigOperators

/-- Quantile functions of the standard normal distribution and of the chi-square distributions: increasing
on (0,1); normal quantiles are positive above 1/2 and chi-square quantiles are positive. -/
structure IsQuantiles (normPpf : ℝ → ℝ) (chi2Ppf : ℝ → ℕ → ℝ) : Prop where
  norm_mono : ∀ p q, 0 < p → p < q → q < 1 → normPpf p < normPpf q
  norm_pos : ∀ p, 1 / 2 < p → p < 1 → 0 < normPpf p
  chi_mono : ∀ d p q, 0 < d → 0 < p → p < q → q < 1 → chi2Ppf p d < chi2Ppf q d
  chi_pos : ∀ d p, 0 < d → 0 < p → p < 1 → 0 < chi2Ppf p d

/-- `b` solves the normal equations of the regression of `y` on the columns of `X`. -/
def IsLeastSquares {n p : ℕ} (X : Fin n → Fin p → ℝ) (y : Fin n → ℝ) (b : Fin p → ℝ) : Prop :=
  ∀ j, ∑ i, X i j * (y i - ∑ k, X i k * b k) = 0

/-- Weighted sum of squared residuals. -/
def wss {n p : ℕ} (w : Fin n → ℝ) (X : Fin n → Fin p → ℝ) (y : Fin n → ℝ) (b : Fin p → ℝ) : ℝ :=
  ∑ i, w i * (y i - ∑ j, X i j * b j) ^ 2

/-- Value at `x` of the affine function with the given coefficients and intercept. -/
def affine {p : ℕ} (b : Fin p → ℝ) (b0 : ℝ) (x : Fin p → ℝ) : ℝ := ∑ j, x j * b j + b0

/-- Value at `x` of the function that a model on centred and scaled data describes. -/
noncomputable def affineScaled {p : ℕ} (b : Fin p → ℝ) (b0 : ℝ) (mX sX : Fin p → ℝ) (my sy : ℝ) (x : Fin p → ℝ) : ℝ :=
  my + sy * (∑ j, (x j - mX j) / sX j * b j + b0)

end Direpack.Spec
