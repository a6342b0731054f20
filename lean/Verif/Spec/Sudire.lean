import Mathlib.LinearAlgebra.Matrix.Symmetric
import Mathlib.Data.Real.Basic
import Mathlib.Data.Matrix.Mul
import Mathlib.Data.Matrix.Diagonal

/-!
Vocabulary for sufficient dimension reduction: what is assumed of the eigenvalue routine, positive semidefiniteness, orthonormality,
projectors.
-/

namespace Direpack.Spec

open scoped BigOperators

/-- What is assumed of `np.linalg.eigh`: for a symmetric matrix an orthogonal matrix of eigenvectors with the eigenvalues in ascending order. -/
structure IsEigh (eigh : {p : ℕ} → Matrix (Fin p) (Fin p) ℝ → (Fin p → ℝ) × Matrix (Fin p) (Fin p) ℝ) : Prop where
  decomp : ∀ {p : ℕ} (A : Matrix (Fin p) (Fin p) ℝ), A.transpose = A →
    A * (eigh A).2 = (eigh A).2 * Matrix.diagonal (eigh A).1
  orth : ∀ {p : ℕ} (A : Matrix (Fin p) (Fin p) ℝ), A.transpose = A → (eigh A).2.transpose * (eigh A).2 = 1
  asc : ∀ {p : ℕ} (A : Matrix (Fin p) (Fin p) ℝ), A.transpose = A → Monotone (eigh A).1

/-- `vᵀ A v`. -/
def quad {p : ℕ} (A : Matrix (Fin p) (Fin p) ℝ) (v : Fin p → ℝ) : ℝ := ∑ j, ∑ k, v j * A j k * v k

/-- Symmetric with nonnegative quadratic form. -/
def IsPSD {p : ℕ} (A : Matrix (Fin p) (Fin p) ℝ) : Prop := A.transpose = A ∧ ∀ v, 0 ≤ quad A v

/-- The columns of `B` are orthonormal in the metric of `A`. -/
def OrthonormalIn {p d : ℕ} (A : Matrix (Fin p) (Fin p) ℝ) (B : Matrix (Fin p) (Fin d) ℝ) : Prop := B.transpose * A * B = 1

end Direpack.Spec

namespace Direpack.Spec

open scoped BigOperators

/-- Variation between the slices of the data projected on `v`: the squared means of the projections over the cases with response `lab i`,
weighted by the proportion of these cases. -/
noncomputable def betweenSlices {n p s : ℕ} (X : Fin n → Fin p → ℝ) (y : Fin n → ℝ) (lab : Fin s → ℝ) (v : Fin p → ℝ) : ℝ :=
  ∑ i, ((Finset.univ.filter fun c => y c = lab i).card / (n : ℝ)) *
    ((∑ c ∈ Finset.univ.filter (fun c => y c = lab i), ∑ j, X c j * v j) / (Finset.univ.filter fun c => y c = lab i).card) ^ 2

/-- The data, less the means of the variables if they are to be centred. -/
noncomputable def centredData {n p : ℕ} (center : Bool) (X : Fin n → Fin p → ℝ) : Fin n → Fin p → ℝ :=
  fun c j => if center then X c j - (∑ i, X i j) / n else X c j

/-- `uᵀ A v`. -/
def bilin {p : ℕ} (A : Matrix (Fin p) (Fin p) ℝ) (u v : Fin p → ℝ) : ℝ := ∑ j, ∑ k, u j * A j k * v k

end Direpack.Spec

namespace Direpack.Spec

open scoped BigOperators

/-- What is assumed of `inv(sqrtm(A))` for a symmetric matrix: when it does not raise, the result is a symmetric matrix `N` with `N A N = 1`. -/
def IsRootInv {Err : Type} (rootInv : {p : ℕ} → Matrix (Fin p) (Fin p) ℝ → Except Err (Matrix (Fin p) (Fin p) ℝ)) : Prop :=
  ∀ {p : ℕ} (A N : Matrix (Fin p) (Fin p) ℝ), A.transpose = A → rootInv A = .ok N → N.transpose = N ∧ N * A * N = 1

end Direpack.Spec
