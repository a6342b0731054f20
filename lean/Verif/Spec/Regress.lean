import Mathlib.Data.Real.Basic
import Mathlib.Data.Fintype.BigOperators

/-!
Vocabulary for regression estimators: scalar products, linear predictors and
standardised data.
-/

namespace Direpack.Spec

open scoped BigOperators

/-- Scalar product of two vectors. -/
def dot {n : ℕ} (u v : Fin n → ℝ) : ℝ := ∑ i, u i * v i

/-- Linear predictor: one value per row of `X`. -/
def lin {n p : ℕ} (X : Fin n → Fin p → ℝ) (b : Fin p → ℝ) : Fin n → ℝ := fun i => ∑ j, X i j * b j

/-- Centred and scaled value; a scale of zero leaves the centred value. -/
noncomputable def std1 (v m s : ℝ) : ℝ := if s = 0 then v - m else (v - m) / s

/-- Data centred and scaled column by column. -/
noncomputable def stdMat {n p : ℕ} (X : Fin n → Fin p → ℝ) (m s : Fin p → ℝ) : Fin n → Fin p → ℝ :=
  fun i j => std1 (X i j) (m j) (s j)

/-- A vector centred and scaled. -/
noncomputable def stdVec {n : ℕ} (y : Fin n → ℝ) (m s : ℝ) : Fin n → ℝ := fun i => std1 (y i) m s

end Direpack.Spec
