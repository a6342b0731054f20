import Mathlib.Algebra.Order.Field.Basic

/-! Specification side for scaling: what is assumed of the square root. -/

namespace Direpack.Spec

/-- `sq` is the nonnegative square root on nonnegative numbers. -/
def IsSqrt {K : Type} [Field K] [LinearOrder K] (sq : K → K) : Prop :=
  ∀ v, 0 ≤ v → 0 ≤ sq v ∧ sq v * sq v = v

end Direpack.Spec
