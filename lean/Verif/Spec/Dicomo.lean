import Mathlib.Analysis.Real.Sqrt
import Mathlib.Data.Fintype.BigOperators

/-!
Textbook definitions of moments, distance covariance and martingale difference divergence, as finite
sums over the cases.
-/

namespace Direpack.Spec

open scoped BigOperators

/-- Average of the entries. -/
noncomputable def avg {n : ℕ} (v : Fin n → ℝ) : ℝ := (∑ i, v i) / n

/-- Central co-moment: average of `(x - x̄)^a (y - ȳ)^b`. -/
noncomputable def cmom {n : ℕ} (x y : Fin n → ℝ) (a b : ℕ) : ℝ :=
  avg fun i => (x i - avg x) ^ a * (y i - avg y) ^ b

/-- Euclidean distance of two rows. -/
noncomputable def rowDist {p : ℕ} (u v : Fin p → ℝ) : ℝ := Real.sqrt (∑ j, (u j - v j) ^ 2)

/-- Double centring of a square matrix. -/
noncomputable def dcen {n : ℕ} (a : Fin n → Fin n → ℝ) : Fin n → Fin n → ℝ := fun i j =>
  a i j - (∑ k, a i k) / n - (∑ k, a k j) / n + (∑ k, ∑ l, a k l) / (n : ℝ) ^ 2

/-- U-centring of a square matrix. -/
noncomputable def ucen {n : ℕ} (a : Fin n → Fin n → ℝ) : Fin n → Fin n → ℝ := fun i j =>
  if i = j then 0 else
  a i j - (∑ k, a i k) / ((n : ℝ) - 2) - (∑ k, a k j) / ((n : ℝ) - 2) +
    (∑ k, ∑ l, a k l) / (((n : ℝ) - 1) * ((n : ℝ) - 2))

/-- Squared distance covariance. -/
noncomputable def dcov2 {n p q : ℕ} (x : Fin n → Fin p → ℝ) (y : Fin n → Fin q → ℝ) : ℝ :=
  (∑ i, ∑ j, dcen (fun i j => rowDist (x i) (x j)) i j * dcen (fun i j => rowDist (y i) (y j)) i j) /
    (n : ℝ) ^ 2

/-- Martingale difference divergence (squared): minus the average of `(yᵢ - ȳ)(yⱼ - ȳ) |xᵢ - xⱼ|`. -/
noncomputable def mdd2 {n p : ℕ} (x : Fin n → Fin p → ℝ) (y : Fin n → ℝ) : ℝ :=
  -(∑ i, ∑ j, (y i - avg y) * (y j - avg y) * rowDist (x i) (x j)) / (n : ℝ) ^ 2

end Direpack.Spec
