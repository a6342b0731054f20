import Verif.Dicomo
import Verif.Sudire

/-!
# The objective functions of `sudire`

`dcov_trim` and `mdd_trim` of `_sudire_utils.py`, for data given as a table (`is_distance_mat=False`, the default) and the Euclidean metric.
The vector of the optimiser is turned into a matrix of loadings column by column.
-/

namespace Direpack

/-- A response as a table of one column, `Y.reshape(-1, 1)`, `_sudire_utils.py:101-102`. -/
def colY {n : ℕ} (y : Fin n → ℝ) : Fin n → Fin 1 → ℝ := fun i _ => y i

/-- `dcov_trim`, `_sudire_utils.py:65-113`.  The argument `biascorr` is in the tuple of arguments but is not read. -/
noncomputable def dcovTrim {n p : ℕ} (c : Loc) (_biascorr : Bool) (X : Fin n → Fin p → ℝ) (y : Fin n → ℝ) (h : ℕ) (trimming : ℝ) (beta : List ℝ) :
    Except Err ℝ :=
  match reshapeF p h beta with
  | .error e => .error e
  | .ok B =>
    match distMatCentered c trimming false (matX X B) with
    | .error e => .error e
    | .ok dmx =>
      match distMatCentered c trimming false (colY y) with
      | .error e => .error e
      | .ok dmy =>
        match distanceMoment false c trimming false dmx.2 2 1 dmx.1 dmy.1 with
        | .error e => .error e
        | .ok r => .ok (-10 * r.1)

/-- `mdd_trim`, `_sudire_utils.py:21-62`; the square root of a negative number (NaN) is a failure. -/
noncomputable def mddTrim {n p : ℕ} (c : Loc) (biascorr : Bool) (X : Fin n → Fin p → ℝ) (y : Fin n → ℝ) (h : ℕ) (trimming : ℝ) (beta : List ℝ) :
    Except Err ℝ :=
  match reshapeF p h beta with
  | .error e => .error e
  | .ok B =>
    match differenceDivergence c trimming biascorr (matX X B) y with
    | .error e => .error e
    | .ok d =>
      match sqrtE d with
      | .error e => .error e
      | .ok r => .ok (-10 * r)

/-- The objective `dcov_trim` on the tuple `optimizer_arguments`, `sudire.py:487-497`, `500`. -/
noncomputable def dcovObjective (c : Loc) (biascorr : Bool) (a : SdArgs) (beta : List ℝ) : Except Err ℝ :=
  dcovTrim c biascorr a.data.X a.y a.h a.trimming beta

/-- The objective `mdd_trim` on the tuple `optimizer_arguments`, `sudire.py:487-497`, `536`. -/
noncomputable def mddObjective (c : Loc) (biascorr : Bool) (a : SdArgs) (beta : List ℝ) : Except Err ℝ :=
  mddTrim c biascorr a.data.X a.y a.h a.trimming beta

end Direpack
