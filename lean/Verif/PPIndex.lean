import Verif.PPDire
import Verif.Dicomo

/-!
What `ppdire` hands to the optimisers of scipy and Ipopt: the objective function, with a `dicomo` object as projection index.
-/

namespace Direpack

open scoped BigOperators

/-- `pp_objective`, `_ppdire_utils.py:13-22`: minus the projection index of the data projected on `x`.  The argument `square_pi` is not used. -/
noncomputable def ppObjective {n p : ℕ} (φ : (Fin n → ℝ) → ℝ) (E : Fin n → Fin p → ℝ) (x : Fin p → ℝ) : ℝ := - φ (projE E x)

/-- `self.most.fit(t, **opt_args)` for a `dicomo` object and one projected variable, `ppdire.py:419-424, 638`; `d` is the object
at the time of the call.  Simplification: where `fit` raises, the index is 0. -/
noncomputable def dicomoIndex (d : Dicomo) (a : FitArgs) {n : ℕ} (t : Fin n → ℝ) : ℝ :=
  match (d.fit a ⟨n, 1, fun i _ => t i⟩).2 with
  | .ok v => v
  | .error _ => 0

/-- The same for two blocks, where `opt_args['y']` is the standardised response, `ppdire.py:484-485`. -/
noncomputable def dicomoIndex2 (d : Dicomo) (a : FitArgs) {n : ℕ} (ys t : Fin n → ℝ) : ℝ :=
  dicomoIndex d { a with y := some ⟨n, 1, fun i _ => ys i⟩ } t

end Direpack
