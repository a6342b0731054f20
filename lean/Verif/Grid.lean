import Mathlib.Analysis.SpecialFunctions.Trigonometric.Inverse
import Verif.Snipls

/-!
Model of `ppdire/_ppdire_utils.py` and of the native grid optimiser in `ppdire/ppdire.py:426-581`
over the real numbers.

The projection index is an arbitrary function `φ` of the projected data.  Simplification: the index
object (`dicomo`, `capi`) is taken to be a function of the data it is given, i.e. its own state is
not changed in a way that matters (for `dicomo` see C40); its remaining keyword arguments
(`alpha`, `trimming`, `biascorr`, `dmetric`, `y`) are the same in all calls and are part of `φ`.
-/

namespace Direpack

/-- `np.linspace(a, b, n, endpoint=False)[k]`. -/
noncomputable def linOpen (a b : ℝ) (n k : ℕ) : ℝ := a + k * ((b - a) / n)

/-- `np.linspace(a, b, n, endpoint=True)[k]`; a single point is the start. -/
noncomputable def linClosed (a b : ℝ) (n k : ℕ) : ℝ :=
  if n ≤ 1 then a else a + k * ((b - a) / ((n : ℝ) - 1))

/-- `self.optrange`, `ppdire.py:204`. -/
def optrange : ℝ × ℝ := (-1, 1)

/-- `_stop0s`, `_stop1s`, `_stop1c`, `_stop0c`: `ppdire.py:430-435`, `_ppdire_utils.py:77-81`. -/
noncomputable def stop0s : ℝ := Real.arcsin (npSign optrange.1)
/-- See `stop0s`. -/
noncomputable def stop1s : ℝ := Real.arcsin (npSign optrange.2)
/-- See `stop0s`. -/
noncomputable def stop1c : ℝ := Real.arccos (npSign optrange.1)
/-- See `stop0s`. -/
noncomputable def stop0c : ℝ := Real.arccos (npSign optrange.2)

/-- A column of `alphamat`, `_ppdire_utils.py:85-87` and `167-169`. -/
noncomputable def dirOf (θ : ℝ) : Fin 2 → ℝ :=
  let a : Fin 2 → ℝ := ![Real.cos θ, Real.sin θ]
  if optrange.2 ≠ 1 then fun k => a k * optrange.2 else a

/-- The candidate directions of `gridplane`, `_ppdire_utils.py:76-87`. -/
noncomputable def cand1 (ndir k : ℕ) : Fin 2 → ℝ :=
  dirOf (linOpen (max stop0c stop0s) (max stop1c stop1s) ndir k)

/-- The angles of `gridplane_2` before rescaling, `_ppdire_utils.py:163-169`. -/
noncomputable def cand2 (ndir k : ℕ) : Fin 2 → ℝ :=
  dirOf (linClosed (min stop0c stop0s) (min stop1c stop1s) ndir k)

/-- The projection index of projected data, squared if `square_pi`, `_ppdire_utils.py:90-95`. -/
noncomputable def evalIdx {n : ℕ} (φ : (Fin n → ℝ) → ℝ) (sq : Bool) (t : Fin n → ℝ) : ℝ :=
  if sq then φ t ^ 2 else φ t

/-- `np.max` and `np.where(meas == maximo)[0][0]`, `_ppdire_utils.py:97-100` and `182-185`:
the first position of the maximum, and the maximum; nothing for an empty list (`ValueError`). -/
noncomputable def firstMax (l : List ℝ) : Option (ℕ × ℝ) :=
  match l.max? with
  | none => none
  | some m => some (l.findIdx fun v => decide (v = m), m)

/-- The projection of two-column data on a direction, `np.matmul(X, alphamat)[:,i]`. -/
def proj2 {n : ℕ} (X : Fin n → Fin 2 → ℝ) (a : Fin 2 → ℝ) : Fin n → ℝ :=
  fun i => X i 0 * a 0 + X i 1 * a 1

/-- `gridplane`, `_ppdire_utils.py:24-103`, as called by `ppdire` (the argument dictionary is
complete, so the defaults 50-66 are not used; `alphamat` is a one-element tuple there
(`ppdire.py:459`), hence not `None`, and is recomputed in 76-87). -/
noncomputable def gridplane {n : ℕ} (φ : (Fin n → ℝ) → ℝ) (sq : Bool) (ndir : ℕ) (X : Fin n → Fin 2 → ℝ) :
    Except Err ((Fin 2 → ℝ) × ℝ) :=
  match firstMax ((List.range ndir).map fun k => evalIdx φ sq (proj2 X (cand1 ndir k))) with
  | none => .error .valueError
  | some (k, m) => .ok (cand1 ndir k, m)

/-- `divisor**2`, `_ppdire_utils.py:171`. -/
noncomputable def divSq (q : ℝ) (a : Fin 2 → ℝ) : ℝ := 1 + 2 * (a 0 * a 1) * q

/-- A column of `alpha1`, `_ppdire_utils.py:172`. -/
noncomputable def rescaled (q : ℝ) (a : Fin 2 → ℝ) : Fin 2 → ℝ := fun k => a k / Real.sqrt (divSq q a)

open Classical in
/-- `gridplane_2`, `_ppdire_utils.py:107-188`.  The argument `div` is not used by the code.  A
divisor that is zero or the root of a negative number makes the projection NaN, then `np.max` NaN and
`indmax` empty, and `reshape((2,1))` in line 186 raises a `ValueError`. -/
noncomputable def gridplane2 {n : ℕ} (φ : (Fin n → ℝ) → ℝ) (sq : Bool) (ndir : ℕ) (q : ℝ)
    (X : Fin n → Fin 2 → ℝ) : Except Err ((Fin 2 → ℝ) × ℝ) :=
  if ∃ k < ndir, divSq q (cand2 ndir k) ≤ 0 then .error .valueError
  else
    match firstMax ((List.range ndir).map fun k => evalIdx φ sq (proj2 X (rescaled q (cand2 ndir k)))) with
    | none => .error .valueError
    | some (k, m) => .ok (rescaled q (cand2 ndir k), m)

/-- The variables of the grid optimiser: `afin`, `Zopt` and `maximo`. -/
structure GridState (n p : ℕ) where
  a : Fin p → ℝ
  z : Fin n → ℝ
  best : ℝ

/-- `projmat`, `ppdire.py:511-512` and `538-539`. -/
def pairCols {n : ℕ} (z c : Fin n → ℝ) : Fin n → Fin 2 → ℝ := fun i => ![z i, c i]

/-- One pass of `for j in np.arange(2,p)`, `ppdire.py:510-519`. -/
noncomputable def grid1Step {n p : ℕ} (φ : (Fin n → ℝ) → ℝ) (sq : Bool) (ndir : ℕ) (E : Fin n → Fin p → ℝ)
    (st : GridState n p) (j : Fin p) : Except Err (GridState n p) :=
  match gridplane φ sq ndir (pairCols st.z fun i => E i j) with
  | .error e => .error e
  | .ok (w, m) =>
    .ok { a := fun k => if k = j then w 1 else if k ≤ j then st.a k * w 0 else st.a k
          z := fun i => st.z i * w 0 + E i j * w 1
          best := m }

/-- The first stage for `p > 2` variables, `ppdire.py:499-519` (the list `meas` computed in 502-506 is not
used by the code). -/
noncomputable def gridStage1 {n m : ℕ} (φ : (Fin n → ℝ) → ℝ) (sq : Bool) (ndir : ℕ) (E : Fin n → Fin (m + 3) → ℝ) :
    Except Err (GridState n (m + 3)) :=
  match gridplane φ sq ndir (fun i => ![E i 0, E i 1]) with
  | .error e => .error e
  | .ok (w, b) =>
    ((List.finRange (m + 3)).drop 2).foldlM (grid1Step φ sq ndir E)
      { a := fun k => if k = 0 then w 0 else if k = 1 then w 1 else 0
        z := proj2 (fun i => ![E i 0, E i 1]) w
        best := b }

/-- One pass of `for j in np.arange(0,p)`, `ppdire.py:537-553`. -/
noncomputable def grid2Step {n p : ℕ} (φ : (Fin n → ℝ) → ℝ) (sq : Bool) (ndir : ℕ) (E : Fin n → Fin p → ℝ)
    (st : GridState n p) (j : Fin p) : Except Err (GridState n p) :=
  match gridplane2 φ sq ndir (st.a j) (pairCols st.z fun i => E i j) with
  | .error e => .error e
  | .ok (w, m) =>
    .ok { a := fun k => st.a k * w 0 + (if k = j then w 1 else 0)
          z := fun i => st.z i * w 0 + E i j * w 1
          best := m }

/-- One refinement sweep over all variables, `ppdire.py:537-553`. -/
noncomputable def gridSweep {n p : ℕ} (φ : (Fin n → ℝ) → ℝ) (sq : Bool) (ndir : ℕ) (E : Fin n → Fin p → ℝ)
    (st : GridState n p) : Except Err (GridState n p) :=
  (List.finRange p).foldlM (grid2Step φ sq ndir E) st

/-- `np.dot(Z, afin)`. -/
def projE {n p : ℕ} (E : Fin n → Fin p → ℝ) (a : Fin p → ℝ) : Fin n → ℝ := fun i => ∑ k, E i k * a k

open Classical in
/-- The outer `while`, `ppdire.py:529-577`; `left` is `maxiter + 1 - ii`.  The test
`abs(objfold - objf)/abs(objf) > 1e-4` is written without the quotient, which also gives numpy's answer (inf or
NaN) for `objf = 0`.  The direction returned is the last one (577), with the last value of the
objective. -/
noncomputable def gridLoop {n p : ℕ} (φ : (Fin n → ℝ) → ℝ) (sq : Bool) (ndir : ℕ) (E : Fin n → Fin p → ℝ) :
    ℕ → ℝ → ℝ → GridState n p → Except Err ((Fin p → ℝ) × ℝ)
  | 0, _, objf, st => .ok (st.a, objf)
  | left + 1, objfold, objf, st =>
    if |objfold - objf| > 1 / 10000 * |objf| then
      match gridSweep φ sq ndir E st with
      | .error e => .error e
      | .ok st' => gridLoop φ sq ndir E left objf (evalIdx φ sq (projE E st'.a)) st'
    else .ok (st.a, objf)

/-- The grid optimiser for one component, `ppdire.py:426-480` and `491-581`: the direction and `Maxobjf[i]`.
For `p ≤ 2` the variable `alphamat2` of line 468 was not assigned (450).  `maxiter = 0` makes
`round(np.log2(0))` fail (534). -/
noncomputable def gridDirection {n : ℕ} (φ : (Fin n → ℝ) → ℝ) (sq : Bool) (ndir maxiter : ℕ) :
    {p : ℕ} → (Fin n → Fin p → ℝ) → Except Err ((Fin p → ℝ) × ℝ)
  | 0, _ => .error .unboundLocal
  | 1, _ => .error .unboundLocal
  | 2, _ => .error .unboundLocal
  | _ + 3, E =>
    match gridStage1 φ sq ndir E with
    | .error e => .error e
    | .ok st =>
      if maxiter = 0 then .error .other
      else gridLoop φ sq ndir E (maxiter + 1) (evalIdx φ sq (projE E st.a)) (-1000) st

end Direpack
