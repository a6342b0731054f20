import Verif.Spec.Dicomo
import Verif.Spec.Valscore

/-! What a user expects of the coefficient of determination of a fit on its own training data. -/

namespace Direpack.Spec

open scoped BigOperators

/-- Sum of products of deviations from the averages. -/
noncomputable def devProd {n : ℕ} (u v : Fin n → ℝ) : ℝ := ∑ i, (u i - avg u) * (v i - avg v)

/-- The fitted values `u` split the variation of the response `y`: both have the same average, the variation of the response is the variation of the fitted values plus the
residual sum of squares, and, for a response that is not constant, the coefficient of determination lies between 0 and 1 and is, unless the fitted values are constant,
the squared correlation of fitted values and response. -/
structure SplitsVariation {n : ℕ} (y u : Fin n → ℝ) : Prop where
  mean : avg u = avg y
  split : devProd y y = devProd u u + ∑ i, (y i - u i) ^ 2
  range : (∃ i j, y i ≠ y j) → 0 ≤ rSquared (fun _ => 1) y u ∧ rSquared (fun _ => 1) y u ≤ 1
  corr : (∃ i j, y i ≠ y j) → (∃ i j, u i ≠ u j) → rSquared (fun _ => 1) y u = devProd y u ^ 2 / (devProd y y * devProd u u)
  const : (∃ i j, y i ≠ y j) → (∀ i j, u i = u j) → rSquared (fun _ => 1) y u = 0

end Direpack.Spec
