import Verif.SPRM

/-!
# `sprm.valscore`

`sprm.py:538-555` on a fitted model.  `RegressorMixin.score` of scikit-learn (third party, part of the trusted base) is `r2_score(y, predict(X), sample_weight)`:
the inputs have to have the same number of cases, two cases are needed for a value other than NaN, and a constant response gives 1 for a perfect fit and 0
otherwise.
-/

namespace Direpack

open scoped BigOperators

/-- `r2_score(y, yh, sample_weight=w)`. -/
noncomputable def r2Score {m : ℕ} (w y yh : Fin m → ℝ) : Except Err ℝ :=
  if m < 2 then .error .other
  else if ∑ i, w i = 0 then .error .zeroDivision
  else
    let ybar := (∑ i, w i * y i) / ∑ i, w i
    let num := ∑ i, w i * (y i - yh i) ^ 2
    let den := ∑ i, w i * (y i - ybar) ^ 2
    .ok (if num = 0 then 1 else if den = 0 then 0 else 1 - num / den)

/-- The argument `scoring`. -/
inductive Scoring where
  | weighted
  | normal
  | other

/-- `valscore`, `sprm.py:538-555`. -/
noncomputable def SprmFit.valscore {n p : ℕ} (f : SprmFit n p) {m q : ℕ} (Xn : Fin m → Fin q → ℝ) (yn : Fin m → ℝ) (s : Scoring) : Except Err ℝ :=
  match f.trainCols with
  | none => .error .attributeError
  | some _ =>
    if q ≠ p then .error .valueError
    else
      match s with
      | .other => .error .valueError
      | .normal =>
        match f.predict Xn with
        | .error e => .error e
        | .ok yh => r2Score (fun _ => 1) yn yh
      | .weighted =>
        match f.predict Xn with
        | .error e => .error e
        | .ok yh => if h : m = n then r2Score (fun i => f.caseweights (Fin.cast h i)) yn yh else .error .valueError

end Direpack
