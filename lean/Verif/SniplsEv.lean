import Verif.Snipls

/-!
Model of the explained variances `x_ev_`, `y_ev_` of `sprm/snipls.py`, for complete numeric data.
-/

namespace Direpack

open scoped BigOperators

/-- An array made with `np.empty` and filled component by component, `snipls.py:167-168,206-212`.  When the loop ends before the first
component (182-192) nothing is ever written and the published array is uninitialised memory: `none`.  Otherwise the loop does not end early, and
all entries are written. -/
def filledArray {α β : Type} (l : List α) (f : α → β) : Option (List β) :=
  if l.length = 0 then none else some (l.map f)

/-- `x_ev_`, `snipls.py:206-210`: the loading `ph` is the one with the eliminated variables set to zero (201). -/
noncomputable def SnFit.xEv {n p : ℕ} (f : SnFit n p) (X : Fin n → Fin p → ℝ) : Option (List ℝ) :=
  let X0 := scaleMat X f.xLoc f.xSca
  filledArray f.comps fun c => ((∑ i, c.t i ^ 2) * ∑ j, c.load j ^ 2) / (∑ i, ∑ j, X0 i j ^ 2) * 100

/-- `y_ev_`, `snipls.py:211-212`. -/
noncomputable def SnFit.yEv {n p : ℕ} (f : SnFit n p) (y : Fin n → ℝ) : Option (List ℝ) :=
  let y0 : Fin n → ℝ := fun i => scaleMat (asCol y) (fun _ => f.yLoc) (fun _ => f.ySca) i 0
  filledArray f.comps fun c => ((∑ i, c.t i ^ 2) * c.c ^ 2) / (∑ i, y0 i ^ 2) * 100

end Direpack
