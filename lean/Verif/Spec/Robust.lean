import Mathlib.Algebra.BigOperators.Group.Finset.Basic
import Mathlib.Data.Fintype.BigOperators
import Mathlib.Analysis.Real.Sqrt

/-!
Specifications for the robust estimators, stated without reference to the code.
-/

namespace Direpack.Spec

open scoped BigOperators

/-- Sum of the Euclidean distances of the rows of `X` to the point `a`. -/
noncomputable def sumDist {n p : ℕ} (X : Fin n → Fin p → ℝ) (a : Fin p → ℝ) : ℝ :=
  ∑ i, Real.sqrt (∑ j, (X i j - a j) ^ 2)

/-- `q` is the smallest sum of `h` of the numbers `d`. -/
def IsMinHSum {K : Type} [AddCommMonoid K] [LE K] {n : ℕ} (h : ℕ) (d : Fin n → K) (q : K) : Prop :=
  (∃ H : Finset (Fin n), H.card = h ∧ ∑ i ∈ H, d i = q) ∧
  ∀ H : Finset (Fin n), H.card = h → q ≤ ∑ i ∈ H, d i

/-- Squared Euclidean distances of the rows to a point. -/
def sqDist {K : Type} [CommRing K] {n p : ℕ} (X : Fin n → Fin p → K) (m : Fin p → K) : Fin n → K :=
  fun i => ∑ j, (X i j - m j) ^ 2

/-- `m` is the average of the rows in `H`. -/
def IsMeanOf {K : Type} [CommRing K] {n p : ℕ} (X : Fin n → Fin p → K) (H : Finset (Fin n))
    (m : Fin p → K) : Prop :=
  ∀ j, (H.card : K) * m j = ∑ i ∈ H, X i j

end Direpack.Spec
