import Mathlib.Analysis.Real.Sqrt
import Mathlib.Data.Fintype.BigOperators

/-!
Specifications for the spatial sign pre-processing.
-/

namespace Direpack.Spec

open scoped BigOperators

/-- `v` is the `k`-th smallest (`k ≥ 1`) of the numbers `x`: it is one of them, fewer than `k` are smaller, and
at least `k` are at most `v`. -/
def IsKthSmallest {K : Type} [LinearOrder K] {n : ℕ} (x : Fin n → K) (k : ℕ) (v : K) : Prop :=
  (∃ i, x i = v) ∧ (Finset.univ.filter fun i => x i < v).card < k ∧
    k ≤ (Finset.univ.filter fun i => x i ≤ v).card

/-- Euclidean length. -/
noncomputable def len {p : ℕ} (x : Fin p → ℝ) : ℝ := Real.sqrt (∑ j, x j ^ 2)

/-- The number of central cases. -/
def half (n p : ℕ) : ℕ := (n + p + 1) / 2

end Direpack.Spec
