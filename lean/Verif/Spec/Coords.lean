import Mathlib.Analysis.Real.Sqrt
import Mathlib.Data.Set.Finite.Basic

/-! Vocabulary for points that are described by their distances. -/

namespace Direpack.Spec

open scoped BigOperators

/-- Euclidean distance of two points. -/
noncomputable def euclid {p : ℕ} (u v : Fin p → ℝ) : ℝ := Real.sqrt (∑ c, (u c - v c) ^ 2)

/-- `z` has the distances `d` to the given points. -/
def HasDistances {k : ℕ} (pts : Fin k → Fin k → ℝ) (d : Fin k → ℝ) (z : Fin k → ℝ) : Prop :=
  ∀ j, ∑ c, (pts j c - z c) ^ 2 = d j ^ 2

/-- A solver of such systems of equations: it lists solutions only, none of them twice, and all of them if there are finitely many. -/
structure IsCoordSolver (solve : {k : ℕ} → (Fin k → Fin k → ℝ) → (Fin k → ℝ) → List (Fin k → ℝ)) : Prop where
  sound : ∀ {k : ℕ} (pts : Fin k → Fin k → ℝ) d z, z ∈ solve pts d → HasDistances pts d z
  nodup : ∀ {k : ℕ} (pts : Fin k → Fin k → ℝ) d, (solve pts d).Nodup
  complete : ∀ {k : ℕ} (pts : Fin k → Fin k → ℝ) d, {z | HasDistances pts d z}.Finite → ∀ z, HasDistances pts d z → z ∈ solve pts d

end Direpack.Spec
