import Mathlib.Data.Real.Basic
import Mathlib.LinearAlgebra.Matrix.Defs
import Mathlib.Data.Fintype.BigOperators

/-! Vocabulary for comparing fits with different numbers of components. -/

namespace Direpack.Spec

open scoped BigOperators

/-- The columns of `A` are the first columns of `B`. -/
def FirstColumns {m k h : ℕ} (A : Fin m → Fin k → ℝ) (B : Fin m → Fin h → ℝ) : Prop :=
  ∃ hk : k ≤ h, ∀ i a, A i a = B i (Fin.castLE hk a)

/-- The entries of `a` are the first entries of `b`. -/
def FirstEntries {k h : ℕ} (a : Fin k → ℝ) (b : Fin h → ℝ) : Prop := ∃ hk : k ≤ h, ∀ j, a j = b (Fin.castLE hk j)

/-- Residual sum of squares. -/
def sumSquares {n : ℕ} (r : Fin n → ℝ) : ℝ := ∑ i, r i ^ 2

end Direpack.Spec
