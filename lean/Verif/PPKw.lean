import Verif.PPIndex

/-!
The keyword arguments of `ppdire.fit` and what reaches the projection index, `ppdire.py:224-295`, `419-424` and `484-485`.
-/

namespace Direpack

/-- Keyword arguments of `ppdire.fit` that are meant for the projection index, `docs/ppdire.md:133-138`, `ppdire.py:224, 232-235, 286-289`; `none` if not given.  `order` is an
argument of `dicomo.fit` (`dicomo.py:139-142`) that `ppdire.fit` accepts as it accepts every keyword. -/
structure PpKw where
  biascorr : Option Bool := none
  dmetric : Option String := none
  option : Option ℕ := none
  order : Option ℕ := none

/-- What the projection index gets: the arguments of `self.most.fit`, and the metric. -/
structure PpIndexCall where
  args : FitArgs
  dmetric : String

/-- The dictionary `opt_args`, `ppdire.py:419-424` and `484-485`; `mode` is `pi_arguments['mode']`, which is read for every `dicomo` index (`ppdire.py:284`) and is missing
with the default `pi_arguments={}`.  The local variables `dmetric` and `option` (`ppdire.py:232-235, 286-289`) are not used afterwards. -/
def ppIndexCall (alpha trimming : ℝ) (mode : Option Mode) (kw : PpKw) (ys : Option DMat) : Except Err PpIndexCall :=
  match mode with
  | none => .error .keyError
  | some _ => .ok ⟨{ alpha := alpha, trimming := trimming, biascorr := kw.biascorr.getD false, y := ys }, "euclidean"⟩

/-- The value of the index at the scores `t`, `ppdire.py:502-504, 638`: `self.most` is `dicomo(est, mode, center)`, made by `fit` (`ppdire.py:295`). -/
noncomputable def ppIndexValue (est : Est) (center : Loc) (alpha trimming : ℝ) (mode : Option Mode) (kw : PpKw) {n : ℕ} (ys : Option (Fin n → ℝ)) (t : Fin n → ℝ) :
    Except Err ℝ :=
  match mode, ppIndexCall alpha trimming mode kw (ys.map fun y => ⟨n, 1, fun i _ => y i⟩) with
  | some m, .ok c => ((Dicomo.mk est m center none).fit c.args ⟨n, 1, fun i _ => t i⟩).2
  | _, .error e => .error e
  | none, .ok _ => .error .keyError

end Direpack
