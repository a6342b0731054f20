import Mathlib.Data.List.OfFn

/-!
Specification side for missing cells: what it means to ignore them.
-/

namespace Direpack.Spec

/-- The available (non-missing) values of column `j` of a table with missing cells. -/
def available {K : Type} {n p : ℕ} (x : Fin n → Fin p → Option K) (j : Fin p) : List K :=
  (List.ofFn fun i => x i j).filterMap id

/-- An estimator applied to the available values of column `j`; undefined (NaN) if there
are none. -/
def onAvailable {K : Type} [DecidableEq K] {n p : ℕ} (f : List K → K)
    (x : Fin n → Fin p → Option K) (j : Fin p) : Option K :=
  if available x j = [] then none else some (f (available x j))

end Direpack.Spec
