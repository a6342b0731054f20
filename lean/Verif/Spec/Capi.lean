import Mathlib.Data.Real.Basic

/-!
Vocabulary for C60: the co-moments that a CAPI index combines.
-/

namespace Direpack.Spec

/-- The co-moments of degree 2 to `d` with options taken from `opts`: degree `i` has the options 1 to `i - 1`. -/
def requested (d : ℕ) (opts : List ℤ) : List (ℕ × ℤ) :=
  [((2 : ℕ), (1 : ℤ)), (3, 1), (3, 2), (4, 1), (4, 2), (4, 3)].filter fun c => decide (c.1 ≤ d) && decide (c.2 ∈ opts)

/-- The place of a co-moment when all of them are listed by degree, then by option. -/
def place : ℕ × ℤ → Fin 6
  | (2, _) => 0
  | (3, 1) => 1
  | (3, _) => 2
  | (4, 1) => 3
  | (4, 2) => 4
  | _ => 5

/-- The weighted sum of the listed co-moments. -/
def weighted (w : Fin 6 → ℝ) (M : ℕ → ℤ → ℝ) (l : List (ℕ × ℤ)) : ℝ := (l.map fun c => w (place c) * M c.1 c.2).sum

end Direpack.Spec
