import Mathlib.Data.Real.Basic
import Mathlib.Data.Fintype.BigOperators

/-! Vocabulary of property C198. -/

namespace Direpack.Spec

open scoped BigOperators

/-- The rows of `X` (or the entries of a vector) without case `i`. -/
def leaveOut {n : ℕ} {α : Type*} (i : Fin (n + 1)) (X : Fin (n + 1) → α) : Fin n → α := fun k => X (i.succAbove k)

/-- Fitted values `u` of the responses `y` against values `q` predicted for each case without using it: no case is fitted worse than it is predicted, and the fitted value lies
between the predicted value and the response. -/
structure FittedNotWorse {n : ℕ} (y u q : Fin n → ℝ) : Prop where
  each : ∀ i, ∃ h : ℝ, 0 ≤ h ∧ h ≤ 1 ∧ u i = (1 - h) * q i + h * y i
  residual : ∀ i, |y i - u i| ≤ |y i - q i|
  total : ∑ i, (y i - u i) ^ 2 ≤ ∑ i, (y i - q i) ^ 2

end Direpack.Spec
