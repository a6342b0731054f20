import Mathlib.Data.Real.Basic
import Verif.Basic

/-! Specification of C143: results for new cases that are computed case by case. -/

namespace Direpack.Spec

/-- There is one function of the values of a single case that gives the result of every case of every batch of new data; so a batch never fails,
and the result for a case depends neither on the other cases of the batch, nor on their number, nor on its position. -/
def CaseByCase {p : ℕ} {α : Type} (run : (m : ℕ) → (Fin m → Fin p → ℝ) → Except Err (Fin m → α)) : Prop :=
  ∃ g : (Fin p → ℝ) → α, ∀ (m : ℕ) (X : Fin m → Fin p → ℝ), run m X = .ok fun i => g (X i)

end Direpack.Spec
