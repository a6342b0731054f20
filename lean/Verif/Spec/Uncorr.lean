import Mathlib.Logic.Embedding.Basic
import Verif.Spec.Stats

/-!
Specification: a table with additional columns that are uncorrelated with everything else.
-/

namespace Direpack.Spec

open scoped BigOperators

/-- The two variables have covariance zero in the sample. -/
def Uncorrelated {n : ℕ} (u v : Fin n → ℝ) : Prop := ∑ i, (u i - average u) * (v i - average v) = 0

/-- The table `X'` consists of the columns of `X`, column `j` of `X` being column `e j` of `X'`, and of further columns that are uncorrelated with the response and with all columns
of `X` (but not necessarily with one another). -/
def AddsUncorrelated {n p q : ℕ} (e : Fin p ↪ Fin q) (X : Fin n → Fin p → ℝ) (X' : Fin n → Fin q → ℝ) (y : Fin n → ℝ) : Prop :=
  (∀ i j, X' i (e j) = X i j) ∧
    ∀ j, j ∉ Set.range e → Uncorrelated (fun i => X' i j) y ∧ ∀ k, Uncorrelated (fun i => X' i j) fun i => X i k

end Direpack.Spec
