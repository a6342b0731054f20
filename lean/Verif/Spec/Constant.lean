import Mathlib.Data.Real.Basic
import Mathlib.Logic.Embedding.Basic

/-!
Specification: a table with additional constant columns.
-/

namespace Direpack.Spec

/-- The table `X'` consists of the columns of `X`, column `j` of `X` being column `e j` of `X'`, and of further columns in which all cases have the same value. -/
def AddsConstants {n p q : ℕ} (e : Fin p ↪ Fin q) (X : Fin n → Fin p → ℝ) (X' : Fin n → Fin q → ℝ) : Prop :=
  (∀ i j, X' i (e j) = X i j) ∧ ∀ j, j ∉ Set.range e → ∃ c, ∀ i, X' i j = c

end Direpack.Spec
