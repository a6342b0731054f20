import Mathlib.Data.Real.Basic
import Mathlib.Data.Fintype.BigOperators

/-!
Specification: how well scores and loadings reproduce a table.
-/

namespace Direpack.Spec

open scoped BigOperators

/-- The sum of squares of column `j` of the table `Z` that the combination of the scores `T` with coefficients `b` leaves over. -/
def leftOver {n p h : ℕ} (Z : Fin n → Fin p → ℝ) (T : Fin n → Fin h → ℝ) (j : Fin p) (b : Fin h → ℝ) : ℝ := ∑ i, (Z i j - ∑ a, T i a * b a) ^ 2

/-- `u` are the fitted values of ordinary least squares regression with intercept of `y` on `X`: a linear function of the predictors that no other one fits better. -/
def OlsFitted {n p : ℕ} (X : Fin n → Fin p → ℝ) (y u : Fin n → ℝ) : Prop :=
  (∃ (a : ℝ) (b : Fin p → ℝ), ∀ i, u i = a + ∑ k, X i k * b k) ∧
    ∀ (a : ℝ) (b : Fin p → ℝ), ∑ i, (y i - u i) ^ 2 ≤ ∑ i, (y i - (a + ∑ k, X i k * b k)) ^ 2

end Direpack.Spec
