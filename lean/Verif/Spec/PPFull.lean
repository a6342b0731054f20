import Mathlib.Data.Real.Basic
import Mathlib.LinearAlgebra.Matrix.Trace

/-! What is assumed of a singular value decomposition. -/

namespace Direpack.Spec

/-- `Xᵀ = V diag(S) U` with orthonormal columns of `V`, orthonormal rows of `U` and nonnegative `S`. -/
structure IsThinSvd {n p q : ℕ} (X : Fin n → Fin p → ℝ) (s : Matrix (Fin p) (Fin q) ℝ × (Fin q → ℝ) × Matrix (Fin q) (Fin n) ℝ) : Prop where
  left : s.1.transpose * s.1 = 1
  right : s.2.2 * s.2.2.transpose = 1
  nonneg : ∀ l, 0 ≤ s.2.1 l
  prod : ∀ i k, X i k = ∑ l, s.1 k l * s.2.1 l * s.2.2 l i

end Direpack.Spec
