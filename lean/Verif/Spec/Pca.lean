import Mathlib.Data.Real.Basic
import Verif.Spec.PP

/-!
Vocabulary for principal components and for exact optimisation over directions.  Nothing here refers to the model.
-/

namespace Direpack.Spec

open scoped BigOperators

/-- `w` has unit length and no vector of unit length gives a smaller value of `f`. -/
def SolvesOnSphere {p : ℕ} (f : (Fin p → ℝ) → ℝ) (w : Fin p → ℝ) : Prop :=
  UnitLen w ∧ ∀ v, UnitLen v → f w ≤ f v

/-- Sum of squares of the data projected on a direction: the variance in that direction, up to a factor. -/
def spread {n p : ℕ} (Z : Fin n → Fin p → ℝ) (v : Fin p → ℝ) : ℝ := ∑ i, projectOn Z v i ^ 2

/-- The columns of `W` are the first principal axes of the (centred) data `Z`, in order. -/
structure PrincipalAxes {n p h : ℕ} (Z : Fin n → Fin p → ℝ) (W : Fin p → Fin h → ℝ) : Prop where
  unit : ∀ a, UnitLen fun k => W k a
  orthogonal : ∀ a b, a ≠ b → ∑ k, W k a * W k b = 0
  /-- each axis has the largest spread among the directions orthogonal to the earlier axes -/
  maximal : ∀ a v, UnitLen v → (∀ b < a, ∑ k, v k * W k b = 0) → spread Z v ≤ spread Z fun k => W k a
  /-- each axis is an eigenvector of `ZᵀZ`, and its spread is the eigenvalue -/
  eigen : ∀ a k, ∑ j, (∑ i, Z i k * Z i j) * W j a = (spread Z fun k => W k a) * W k a
  /-- the spreads decrease -/
  ordered : ∀ a b, a ≤ b → (spread Z fun k => W k b) ≤ spread Z fun k => W k a

end Direpack.Spec

namespace Direpack.Spec

open scoped BigOperators

/-- What remains of a table when it is replaced by scores times loadings: the sum of the squared differences of all entries. -/
def misfit {n p h : ℕ} (Z : Fin n → Fin p → ℝ) (T : Fin n → Fin h → ℝ) (P : Fin p → Fin h → ℝ) : ℝ := ∑ i, ∑ j, (Z i j - ∑ a, T i a * P j a) ^ 2

end Direpack.Spec
