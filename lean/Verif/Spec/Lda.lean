import Verif.Spec.SudireCrit
import Verif.Spec.Stats

/-! Specification: the analysis of variance of one variable in groups, for Fisher's discriminant criterion. -/

namespace Direpack.Spec

open scoped BigOperators

variable {n : ℕ}

/-- The average of `z` over the cases in the group of case `c`; cases with the same value of `g` are one group. -/
noncomputable def groupMean (z g : Fin n → ℝ) (c : Fin n) : ℝ := (∑ c' ∈ casesWith g (g c), z c') / (casesWith g (g c)).card

/-- Sum of squares within the groups. -/
noncomputable def withinSS (z g : Fin n → ℝ) : ℝ := ∑ c, (z c - groupMean z g c) ^ 2

/-- Sum of squares between the groups. -/
noncomputable def betweenSS (z g : Fin n → ℝ) : ℝ := ∑ c, (groupMean z g c - average z) ^ 2

/-- The scores of the cases in direction `b`. -/
def scoresOf {p : ℕ} (X : Fin n → Fin p → ℝ) (b : Fin p → ℝ) : Fin n → ℝ := fun c => ∑ j, X c j * b j

/-- The deviation of the mean vector of the group of case `c` from the mean vector of all cases. -/
noncomputable def groupDeviation {p : ℕ} (X : Fin n → Fin p → ℝ) (g : Fin n → ℝ) (c : Fin n) : Fin p → ℝ :=
  fun j => groupMean (fun i => X i j) g c - average fun i => X i j

end Direpack.Spec
