import Mathlib.Algebra.Order.Field.Basic

/-!
Specification side for the weight functions: the textbook weight of one case as a
function of its distance.  Nothing here refers to the model.
-/

namespace Direpack.Spec

variable {K : Type} [Field K] [LinearOrder K]

/-- Huber weight of a case at distance `d` with cutoff `c`. -/
def huberWeight (c d : K) : K := if d ≤ c then 1 else c / d

/-- Hampel weight of a case at distance `d` with cutoffs `a ≤ b < r`. -/
def hampelWeight (a b r d : K) : K :=
  if d ≤ a then 1
  else if d ≤ b then a / d
  else if d ≤ r then a * (r - d) / (d * (r - b))
  else 0

end Direpack.Spec
