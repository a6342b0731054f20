import Mathlib.Data.Real.Basic
import Mathlib.Data.List.Forall2

/-!
What "a small change of the data" means.
-/

namespace Direpack.Spec

/-- Two lists of numbers of the same length that differ by at most `ε` in every place. -/
def Close (ε : ℝ) (l l' : List ℝ) : Prop := List.Forall₂ (fun a b => |a - b| ≤ ε) l l'

/-- A statistic that moves by at most `L` times the largest change of an observation. -/
def MovesAtMost (L : ℝ) (T : List ℝ → ℝ) : Prop :=
  ∀ (ε : ℝ) (l l' : List ℝ), 0 ≤ ε → Close ε l l' → |T l - T l'| ≤ L * ε

end Direpack.Spec
