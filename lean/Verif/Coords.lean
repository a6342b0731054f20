import Verif.SudireObj

/-!
# Distance matrices as data of `sudire`

`give_coords` of `_sudire_utils.py` and the branches of `mdd_trim` and `dcov_trim` for `is_distance_mat=True`.
-/

namespace Direpack

open scoped BigOperators

/-- `sympy.solve(expressions, unknowns)`, `_sudire_utils.py:146`, for the systems that `give_coords` builds: given the first `k` coordinates of `k` points and `k`
distances, the list of the points with these distances, in the order in which they are returned.  Only real solutions are modelled: for
distances between real points all solutions are real. -/
abbrev CoordSolver := {k : ℕ} → (Fin k → Fin k → ℝ) → (Fin k → ℝ) → List (Fin k → ℝ)

/-- The loop of `give_coords`, `_sudire_utils.py:133-146`: the table `X` when the points before point `m` have been found.  Entry `X i c` is 0 for `c ≥ i`
(lines 133-134); the symbols of points that have not been found are left out (0).  The second solution is taken, line 146. -/
noncomputable def coordsUpTo (solve : CoordSolver) (D : ℕ → ℕ → ℝ) : ℕ → Except Err (ℕ → ℕ → ℝ)
  | 0 => .ok fun _ _ => 0
  | m + 1 =>
    match coordsUpTo solve D m with
    | .error e => .error e
    | .ok X =>
      if m = 0 then .ok X
      else
        match (solve (fun (j c : Fin m) => X j c) (fun j => D j m))[1]? with
        | none => .error .indexError
        | some z => .ok fun i c => if i = m then (if h : c < m then z ⟨c, h⟩ else 0) else X i c

/-- A table with entries at all positions, 0 outside. -/
noncomputable def padded {n q : ℕ} (D : Fin n → Fin q → ℝ) : ℕ → ℕ → ℝ := fun i j => if h : i < n ∧ j < q then D ⟨i, h.1⟩ ⟨j, h.2⟩ else 0

/-- `give_coords`, `_sudire_utils.py:116-148`, for a table with `n` rows and `q` columns, of which the first `n` are read.  Without cases the number of
coordinates would be negative; with fewer columns than rows a distance does not exist. -/
noncomputable def giveCoords (solve : CoordSolver) {n q : ℕ} (D : Fin n → Fin q → ℝ) : Except Err (Fin n → Fin (n - 1) → ℝ) :=
  if n = 0 then .error .valueError
  else if q < n ∧ 1 < n then .error .indexError
  else
    match coordsUpTo solve (padded D) n with
    | .error e => .error e
    | .ok X => .ok fun i c => X i c

/-- `mdd_trim` with `is_distance_mat=True`, `_sudire_utils.py:43-54`. -/
noncomputable def mddTrimDist (solve : CoordSolver) {n q : ℕ} (c : Loc) (biascorr : Bool) (X : Fin n → Fin q → ℝ) (y : Fin n → ℝ) (h : ℕ) (trimming : ℝ)
    (beta : List ℝ) : Except Err ℝ :=
  if h = 0 ∨ ¬ h ∣ beta.length then .error .valueError
  else
    match giveCoords solve X with
    | .error e => .error e
    | .ok C =>
      match reshapeF (n - 1) h beta with
      | .error e => .error e
      | .ok B =>
        match differenceDivergence c trimming biascorr (matX C B) y with
        | .error e => .error e
        | .ok d =>
          match sqrtE d with
          | .error e => .error e
          | .ok r => .ok (-10 * r)

/-- `dcov_trim` with `is_distance_mat=True`, `_sudire_utils.py:86-100`; `Y` is a table as well. -/
noncomputable def dcovTrimDist (solve : CoordSolver) {n q r : ℕ} (c : Loc) (X : Fin n → Fin q → ℝ) (Y : Fin n → Fin r → ℝ) (h : ℕ) (trimming : ℝ)
    (beta : List ℝ) : Except Err ℝ :=
  if h = 0 ∨ ¬ h ∣ beta.length then .error .valueError
  else
    match giveCoords solve X with
    | .error e => .error e
    | .ok C =>
      match giveCoords solve Y with
      | .error e => .error e
      | .ok Cy =>
        match reshapeF (n - 1) h beta with
        | .error e => .error e
        | .ok B =>
          match distMatCentered c trimming false (matX C B) with
          | .error e => .error e
          | .ok dmx =>
            match distMatCentered c trimming false Cy with
            | .error e => .error e
            | .ok dmy =>
              match distanceMoment false c trimming false dmx.2 2 1 dmx.1 dmy.1 with
              | .error e => .error e
              | .ok r => .ok (-10 * r.1)

end Direpack
