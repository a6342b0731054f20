import Verif.Spec.Dicomo
import Verif.Spec.Sudire

/-! Specification of optimal points and of the bias corrected distance covariance. -/

namespace Direpack.Spec

open scoped BigOperators

/-- Bias corrected squared distance covariance: the inner product of the U-centred distance matrices. -/
noncomputable def udcov2 {n p q : ℕ} (x : Fin n → Fin p → ℝ) (y : Fin n → Fin q → ℝ) : ℝ :=
  (∑ i, ∑ j, ucen (fun i j => rowDist (x i) (x j)) i j * ucen (fun i j => rowDist (y i) (y j)) i j) / ((n : ℝ) * ((n : ℝ) - 3))

/-- Bias corrected squared martingale difference divergence: the inner product of the U-centred distances of `x` and half squared distances of `y`. -/
noncomputable def umdd2 {n p : ℕ} (x : Fin n → Fin p → ℝ) (y : Fin n → ℝ) : ℝ :=
  (∑ i, ∑ j, ucen (fun i j => rowDist (x i) (x j)) i j * ucen (fun i j => (y i - y j) ^ 2 / 2) i j) / ((n : ℝ) * ((n : ℝ) - 3))

/-- `x` is a global minimiser of `obj` among the points where all constraints are zero. -/
def IsMinimiser {Con Err : Type} (obj : List ℝ → Except Err ℝ) (cons : List Con) (val : Con → List ℝ → Except Err ℝ) (x : List ℝ) : Prop :=
  (∀ c ∈ cons, val c x = .ok 0) ∧
    ∃ v, obj x = .ok v ∧ ∀ x' v', (∀ c ∈ cons, val c x' = .ok 0) → obj x' = .ok v' → v ≤ v'

/-- The columns of `P` maximise `crit` of the projected data among all directions that give uncorrelated scores of unit variance, `V` being the
covariance matrix of the data. -/
def MaximisesOver {n p h : ℕ} (V : Matrix (Fin p) (Fin p) ℝ) (X : Fin n → Fin p → ℝ) (crit : (Fin n → Fin h → ℝ) → ℝ) (P : Matrix (Fin p) (Fin h) ℝ) : Prop :=
  OrthonormalIn V P ∧ ∀ P' : Matrix (Fin p) (Fin h) ℝ, OrthonormalIn V P' →
    crit (fun c j => ∑ k, X c k * P' k j) ≤ crit (fun c j => ∑ k, X c k * P k j)

end Direpack.Spec
