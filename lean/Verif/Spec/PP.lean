import Mathlib.Analysis.SpecialFunctions.Trigonometric.Basic
import Mathlib.Data.Fin.VecNotation
import Mathlib.LinearAlgebra.Matrix.NonsingularInverse

/-!
Specification vocabulary for the projection pursuit properties.  Nothing here refers to the model.
-/

namespace Direpack

/-- A direction of unit length. -/
def UnitLen {p : ℕ} (a : Fin p → ℝ) : Prop := ∑ k, a k ^ 2 = 1

/-- The direction in the plane at an angle. -/
noncomputable def planeDir (θ : ℝ) : Fin 2 → ℝ := ![Real.cos θ, Real.sin θ]

/-- The data projected on a direction. -/
def projectOn {n p : ℕ} (X : Fin n → Fin p → ℝ) (a : Fin p → ℝ) : Fin n → ℝ := fun i => ∑ k, X i k * a k

/-- The criterion that is maximised: the projection index, squared on request. -/
noncomputable def criterion {n : ℕ} (φ : (Fin n → ℝ) → ℝ) (sq : Bool) (t : Fin n → ℝ) : ℝ :=
  if sq then φ t ^ 2 else φ t

/-- The columns are mutually orthogonal. -/
def PairwiseOrthogonal {n h : ℕ} (T : Fin n → Fin h → ℝ) : Prop :=
  ∀ a b, a ≠ b → ∑ i, T i a * T i b = 0

/-- The loss of quantile regression. -/
noncomputable def checkLoss (q r : ℝ) : ℝ := if 0 ≤ r then q * r else (q - 1) * r

/-- `c` is a coefficient of the quantile regression of `y` on `t` (without intercept). -/
def IsQuantileFit {n : ℕ} (q : ℝ) (t y : Fin n → ℝ) (c : ℝ) : Prop :=
  ∀ c', ∑ i, checkLoss q (y i - c * t i) ≤ ∑ i, checkLoss q (y i - c' * t i)

/-- What is assumed of `pinv`: the first of Penrose's equations. -/
def IsGenInverse (pinv : {k : ℕ} → Matrix (Fin k) (Fin k) ℝ → Matrix (Fin k) (Fin k) ℝ) : Prop :=
  ∀ {k : ℕ} (A : Matrix (Fin k) (Fin k) ℝ), A * pinv A * A = A

end Direpack
