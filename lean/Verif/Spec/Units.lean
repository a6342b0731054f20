import Mathlib.Data.Real.Basic

/-!
Vocabulary for changes of units and of order: a variable measured in other units, cases and variables in another order.
-/

namespace Direpack.Spec

/-- Every variable in other units: column `j` becomes `a j * x + b j`. -/
def newUnits {n p : ℕ} (a b : Fin p → ℝ) (X : Fin n → Fin p → ℝ) : Fin n → Fin p → ℝ := fun i j => a j * X i j + b j

/-- A response in other units. -/
def newUnit {n : ℕ} (c d : ℝ) (y : Fin n → ℝ) : Fin n → ℝ := fun i => c * y i + d

/-- Cases in the order `σ` and variables in the order `τ`. -/
def reorder {n p : ℕ} (σ : Equiv.Perm (Fin n)) (τ : Equiv.Perm (Fin p)) (X : Fin n → Fin p → ℝ) : Fin n → Fin p → ℝ :=
  fun i j => X (σ i) (τ j)

end Direpack.Spec
