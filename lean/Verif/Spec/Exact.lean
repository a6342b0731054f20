import Mathlib.Data.Real.Basic
import Mathlib.Algebra.BigOperators.Group.Finset.Basic
import Mathlib.Data.Fintype.BigOperators

/-! Specification of C142: an exact linear relationship between response and predictors. -/

namespace Direpack.Spec

open scoped BigOperators

/-- Every case satisfies `y = a + x · β`. -/
def ExactLinear {n p : ℕ} (X : Fin n → Fin p → ℝ) (y : Fin n → ℝ) (a : ℝ) (β : Fin p → ℝ) : Prop :=
  ∀ i, y i = a + ∑ j, X i j * β j

end Direpack.Spec
