import Mathlib.Data.Real.Basic
import Mathlib.Data.Fintype.BigOperators

/-!
Specification of a least squares solver: among the coefficient vectors of least residual sum of squares it returns the shortest.
-/

namespace Direpack.Spec

open scoped BigOperators

/-- Residual sum of squares. -/
def rss {n p : ℕ} (A : Fin n → Fin p → ℝ) (y : Fin n → ℝ) (b : Fin p → ℝ) : ℝ := ∑ i, (y i - ∑ j, A i j * b j) ^ 2

/-- `b` has the least residual sum of squares, and is the shortest vector that has. -/
def IsMinNormLS {n p : ℕ} (A : Fin n → Fin p → ℝ) (y : Fin n → ℝ) (b : Fin p → ℝ) : Prop :=
  (∀ b', rss A y b ≤ rss A y b') ∧ ∀ b', (∀ b'', rss A y b' ≤ rss A y b'') → ∑ j, b j ^ 2 ≤ ∑ j, b' j ^ 2

end Direpack.Spec
