import Mathlib.Data.Real.Basic
import Mathlib.Algebra.BigOperators.Fin

/-! The coefficient of determination. -/

namespace Direpack.Spec

open scoped BigOperators

/-- Coefficient of determination with weights: one minus the residual sum of squares relative to the sum of squares about the mean. -/
noncomputable def rSquared {m : ℕ} (w y yh : Fin m → ℝ) : ℝ :=
  1 - (∑ i, w i * (y i - yh i) ^ 2) / ∑ i, w i * (y i - (∑ j, w j * y j) / ∑ j, w j) ^ 2

end Direpack.Spec
