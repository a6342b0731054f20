import Mathlib.Data.Real.Basic
import Mathlib.Data.Finset.Card

/-! Resistance to a minority of outliers. -/

namespace Direpack.Spec

/-- The statistic `T` of `n` cases stays within fixed bounds when fewer than half of the cases are replaced by anything whatever. -/
def Resists {n : ℕ} {α β : Type} (T : (Fin n → α) → β) (size : β → ℝ) : Prop :=
  ∀ (X : Fin n → α) (clean : Finset (Fin n)), n < 2 * clean.card → ∃ B : ℝ, ∀ X' : Fin n → α, (∀ i ∈ clean, X' i = X i) → size (T X') ≤ B

end Direpack.Spec
