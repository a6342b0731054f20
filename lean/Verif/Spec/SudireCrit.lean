import Mathlib.LinearAlgebra.Matrix.NonsingularInverse
import Mathlib.LinearAlgebra.Span.Basic
import Verif.Spec.Sudire

/-!
The quantities that the slicing and moment methods of sufficient dimension reduction are meant to maximise (B. Li, *Sufficient Dimension Reduction*, 2018),
written for data in their own units: `M` is the metric in which directions have length one, the covariance matrix of scaled data and the identity otherwise.
-/

namespace Direpack.Spec

open scoped BigOperators

variable {n p : ℕ}

/-- The cases with response `a`. -/
noncomputable def casesWith (y : Fin n → ℝ) (a : ℝ) : Finset (Fin n) := Finset.univ.filter fun c => y c = a

/-- Their proportion. -/
noncomputable def shareOf (y : Fin n → ℝ) (a : ℝ) : ℝ := (casesWith y a).card / n

/-- Their mean. -/
noncomputable def meanOf (X : Fin n → Fin p → ℝ) (y : Fin n → ℝ) (a : ℝ) : Fin p → ℝ := fun j => (∑ c ∈ casesWith y a, X c j) / (casesWith y a).card

/-- Their covariance matrix (divisor one less than their number); the metric for a single case. -/
noncomputable def covOf (M : Matrix (Fin p) (Fin p) ℝ) (X : Fin n → Fin p → ℝ) (y : Fin n → ℝ) (a : ℝ) : Matrix (Fin p) (Fin p) ℝ :=
  if 1 < (casesWith y a).card then
    Matrix.of fun j k => (∑ c ∈ casesWith y a, (X c j - meanOf X y a j) * (X c k - meanOf X y a k)) / ((casesWith y a).card - 1)
  else M

/-- Sliced average variance estimation: how far the covariance matrices of the slices are from the metric in direction `b`. -/
noncomputable def saveCriterion {s : ℕ} (M : Matrix (Fin p) (Fin p) ℝ) (X : Fin n → Fin p → ℝ) (y : Fin n → ℝ) (lab : Fin s → ℝ) (b : Fin p → ℝ) : ℝ :=
  ∑ i, shareOf y (lab i) * quad ((covOf M X y (lab i) - M) * M⁻¹ * (covOf M X y (lab i) - M)) b

/-- The expected square `(x - x')(x - x')ᵀ` of the difference of two cases `x`, `x'` drawn independently from two slices. -/
noncomputable def pairMoment (M : Matrix (Fin p) (Fin p) ℝ) (X : Fin n → Fin p → ℝ) (y : Fin n → ℝ) (a a' : ℝ) : Matrix (Fin p) (Fin p) ℝ :=
  covOf M X y a + covOf M X y a' + Matrix.of fun j k => (meanOf X y a j - meanOf X y a' j) * (meanOf X y a k - meanOf X y a' k)

/-- Directional regression: how far the expected squares of differences between cases are, over all pairs of slices, from their value `2 M` for
independent cases, in direction `b`. -/
noncomputable def drCriterion {s : ℕ} (M : Matrix (Fin p) (Fin p) ℝ) (X : Fin n → Fin p → ℝ) (y : Fin n → ℝ) (lab : Fin s → ℝ) (b : Fin p → ℝ) : ℝ :=
  ∑ i, ∑ j, shareOf y (lab i) * shareOf y (lab j) *
    quad (((2 : ℝ) • M - pairMoment M X y (lab i) (lab j)) * M⁻¹ * ((2 : ℝ) • M - pairMoment M X y (lab i) (lab j))) b

/-- The second moments of the slices, averaged. -/
noncomputable def averageMoment {s : ℕ} (M : Matrix (Fin p) (Fin p) ℝ) (X : Fin n → Fin p → ℝ) (y : Fin n → ℝ) (lab : Fin s → ℝ) : Matrix (Fin p) (Fin p) ℝ :=
  ∑ i, shareOf y (lab i) • (covOf M X y (lab i) + Matrix.of fun j k => meanOf X y (lab i) j * meanOf X y (lab i) k)

/-- The average of the response. -/
noncomputable def avgOf (y : Fin n → ℝ) : ℝ := (∑ c, y c) / n

/-- Principal Hessian directions: the curvature of the response in direction `b`. -/
noncomputable def curvature (X : Fin n → Fin p → ℝ) (y : Fin n → ℝ) (b : Fin p → ℝ) : ℝ :=
  (∑ c, (y c - avgOf y) * (∑ j, X c j * b j) ^ 2) / n

/-- The covariances of the variables with the response. -/
noncomputable def covWith (X : Fin n → Fin p → ℝ) (y : Fin n → ℝ) : Fin p → ℝ :=
  fun j => (∑ c, (X c j - avgOf fun i => X i j) * (y c - avgOf y)) / ((n : ℝ) - 1)

/-- The Hessian matrix of the response for the data as given. -/
noncomputable def hessian (X : Fin n → Fin p → ℝ) (y : Fin n → ℝ) : Matrix (Fin p) (Fin p) ℝ :=
  Matrix.of fun j k => (∑ c, (y c - avgOf y) * X c j * X c k) / n

/-- Iterative Hessian transformation: the space spanned by the least squares coefficients and their images under the powers of the Hessian matrix. -/
noncomputable def ihtSpace (M : Matrix (Fin p) (Fin p) ℝ) (X : Fin n → Fin p → ℝ) (y : Fin n → ℝ) : Submodule ℝ (Fin p → ℝ) :=
  Submodule.span ℝ (Set.range fun k : ℕ => ((M⁻¹ * hessian X y) ^ k).mulVec (M⁻¹.mulVec (covWith X y)))

end Direpack.Spec
