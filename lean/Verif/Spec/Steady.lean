import Verif.Spec.Reproduce

/-! Vocabulary of property C197. -/

namespace Direpack.Spec

/-- The fitted values `u` for the responses `y` and `u'` for the responses `y'` of the same cases: together they differ no more than the responses do; and if the responses
differ for one case only, the fitted value of that case moves in the same direction as its response, by no more. -/
structure Steady {n : ℕ} (y u y' u' : Fin n → ℝ) : Prop where
  together : ∑ i, (u' i - u i) ^ 2 ≤ ∑ i, (y' i - y i) ^ 2
  single : ∀ i, (∀ k, k ≠ i → y' k = y k) → ∃ h : ℝ, 0 ≤ h ∧ h ≤ 1 ∧ u' i - u i = h * (y' i - y i)

end Direpack.Spec
