import Mathlib.Analysis.Real.Sqrt
import Mathlib.Algebra.Order.Floor.Semiring
import Mathlib.Logic.Equiv.Defs
import Mathlib.Algebra.BigOperators.Fin

/-! The column statistics by which data are centred and scaled, by their textbook definitions. -/

namespace Direpack.Spec

open scoped BigOperators

variable {n : ℕ}

/-- `v` are the values of `x` in increasing order. -/
def InOrder (x v : Fin n → ℝ) : Prop := (∃ σ : Equiv.Perm (Fin n), ∀ i, v i = x (σ i)) ∧ ∀ i j, i ≤ j → v i ≤ v j

/-- The arithmetic mean. -/
noncomputable def average (x : Fin n → ℝ) : ℝ := (∑ i, x i) / n

/-- The standard deviation (divisor `n`). -/
noncomputable def stdDev (x : Fin n → ℝ) : ℝ := Real.sqrt ((∑ i, (x i - average x) ^ 2) / n)

/-- `m` is the median: the middle value, or half way between the two middle values. -/
def IsMedianOf (x : Fin n → ℝ) (m : ℝ) : Prop :=
  ∃ v, InOrder x v ∧ ∃ i j : Fin n, i.1 = (n - 1) / 2 ∧ j.1 = n / 2 ∧ m = (v i + v j) / 2

/-- `s` is the median absolute deviation from the median, divided by the third quartile of the normal distribution. -/
def IsMadOf (x : Fin n → ℝ) (s : ℝ) : Prop := ∃ m d, IsMedianOf x m ∧ IsMedianOf (fun i => |x i - m|) d ∧ s = d / 0.6744897501960817

/-- `m` is the mean of what is left after leaving out the `⌊t n⌋` smallest and as many largest values. -/
def IsTrimmedMeanOf (t : ℝ) (x : Fin n → ℝ) (m : ℝ) : Prop :=
  ∃ v, InOrder x v ∧ m = (∑ i : Fin n, if ⌊t * n⌋₊ ≤ i.1 ∧ i.1 < n - ⌊t * n⌋₊ then v i else 0) / ((n - 2 * ⌊t * n⌋₊ : ℕ) : ℝ)

end Direpack.Spec
