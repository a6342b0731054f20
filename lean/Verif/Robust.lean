import Mathlib.Algebra.BigOperators.Group.Finset.Basic
import Mathlib.Data.Fintype.BigOperators
import Mathlib.Analysis.Real.Sqrt
import Verif.Num
import Verif.Scaler

/-!
Model of the multivariate and robust estimators in
`preprocessing/_preproc_utilities.py` (spatial median, k-step LTS, tau scale, wrapping) and
of the class `Wrapper` in `preprocessing/robcent.py`.  Complete data only.
-/

namespace Direpack

open scoped BigOperators

/-! ### Spatial median -/

/-- `_euclidnorm`, `_preproc_utilities.py:109-117`, complete data. -/
noncomputable def euclidnorm {p : ℕ} (x : Fin p → ℝ) : ℝ := Real.sqrt (∑ j, x j ^ 2)

/-- `_diffmat_objective`, `_preproc_utilities.py:120-126`. -/
def diffmat {n p : ℕ} (a : Fin p → ℝ) (X : Fin n → Fin p → ℝ) : Fin n → Fin p → ℝ :=
  fun i j => X i j - a j

/-- `_l1m_objective`, `_preproc_utilities.py:129-141`, complete data. -/
noncomputable def l1mObjective {n p : ℕ} (a : Fin p → ℝ) (X : Fin n → Fin p → ℝ) : ℝ :=
  ∑ i, euclidnorm (diffmat a X i)

/-- `_l1m_jacobian`, `_preproc_utilities.py:144-157`, complete data; line 152 replaces zero
distances by one (`_handle_zeros_in_scale`). -/
noncomputable def l1mJacobian {n p : ℕ} (a : Fin p → ℝ) (X : Fin n → Fin p → ℝ) : Fin p → ℝ :=
  let dX := diffmat a X
  let dists : Fin n → ℝ := fun i => if euclidnorm (dX i) = 0 then 1 else euclidnorm (dX i)
  fun j => -∑ i, dX i j / dists i

section
variable {K : Type} [Field K] [LinearOrder K]

/-- `l1median`, `_preproc_utilities.py:179-199`, for an `n × p` array and no keyword `x0`: the
column median for fewer than two columns, otherwise the optimiser's result `opt`
(`scipy.optimize.minimize` started at the column-wise median). -/
def l1median {n p : ℕ} (opt : (Fin n → Fin p → K) → (Fin p → K) → (Fin p → K))
    (X : Fin n → Fin p → K) : Fin p → K :=
  let x0 := fun j => med (fun i => X i j)
  if p < 2 then fun j => med (fun i => X i j) else opt X x0

/-- `l1median`, `_preproc_utilities.py:179-199`, with the keyword `x0` (`none`: not given).  Lines 185-186 assign the local variable `x0` only if the keyword is absent, so that the
call in line 199, which is reached for two columns or more, fails. -/
def l1medianFrom {n p : ℕ} (opt : (Fin n → Fin p → K) → (Fin p → K) → (Fin p → K)) (x0 : Option (Fin p → K)) (X : Fin n → Fin p → K) : Except Err (Fin p → K) :=
  match x0 with
  | none => .ok (l1median opt X)
  | some _ => if p < 2 then .ok fun j => med (fun i => X i j) else .error .unboundLocal

/-! ### k-step LTS -/

/-- Squared distances to a centre, `_preproc_utilities.py:224`. -/
def ltsDists {n p : ℕ} (X : Fin n → Fin p → K) (m : Fin p → K) : Fin n → K :=
  fun i => ∑ j, (X i j - m j) ^ 2

/-- The cases kept in one concentration step, `_preproc_utilities.py:225-226`.  For `n ≥ 1`
the index is in range. -/
def ltsSubset {n p : ℕ} (X : Fin n → Fin p → K) (m : Fin p → K) : Finset (Fin n) :=
  let dists := ltsDists X m
  let cutdist := (sortL (List.ofFn dists)).getD ((n + 1) / 2 - 1) 0
  Finset.univ.filter fun i => dists i ≤ cutdist

/-- One concentration step: the mean of the kept cases, `_preproc_utilities.py:227`. -/
def ltsStep {n p : ℕ} (X : Fin n → Fin p → K) (m : Fin p → K) : Fin p → K :=
  fun j => (∑ i ∈ ltsSubset X m, X i j) / (ltsSubset X m).card

/-- The successive centres `m2` produced by the `while` loop, `_preproc_utilities.py:218-230`,
started at `m1` with `k` iterations left.  The loop goes on while
`max(abs(m1 - m2)) > tol`. -/
def ltsTrace {n p : ℕ} (X : Fin n → Fin p → K) (tol : K) : ℕ → (Fin p → K) → List (Fin p → K)
  | 0, _ => []
  | k + 1, m1 =>
    let m2 := ltsStep X m1
    if ∃ j, tol < |m1 j - m2 j| then m2 :: ltsTrace X tol k m2 else [m2]

/-- `kstepLTS`, `_preproc_utilities.py:202-232`, from the starting centre `m1` (line 216: the
spatial median).  With `maxit = 0` the start itself is returned (line 217). -/
def kstepLTS {n p : ℕ} (X : Fin n → Fin p → K) (m1 : Fin p → K) (maxit : ℕ) (tol : K) :
    Fin p → K :=
  (ltsTrace X tol maxit m1).getLastD m1

/-! ### tau scale -/

/-- `scaleTau2`, `_preproc_utilities.py:235-290`, for an `n × p` array with the default `c1 = 4.5`,
`c2 = 3`; `sq` is the square root and `nEs2` the consistency denominator (a positive number that
depends on `n` only).  The location `mu` and the final sum run over *all* cells of the array
(`summ` without axis), and line 267 caps whole rows (`np.where(..)[0]` keeps only the row indices).  If
some column has `sigma0 = 0` there are cells `0/0`, the sums become NaN and so does everything:
`none`. -/
def scaleTau2 {n p : ℕ} (sq : K → K) (nEs2 : K) (x : Fin n → Fin p → K) : Option (Fin p → K) :=
  let c1 : K := 9 / 2
  let c2 : K := 3
  let medx : Fin p → K := fun j => med (fun i => x i j)
  let xc : Fin n → Fin p → K := fun i j => |x i j - medx j|
  let sigma0 : Fin p → K := fun j => med (fun i => xc i j)
  if ∃ j, sigma0 j = 0 then none
  else
    let xc' : Fin n → Fin p → K := fun i j => xc i j / (sigma0 j * c1)
    let w0 : Fin n → Fin p → K := fun i j => 1 - xc' i j ^ 2
    let w : Fin n → Fin p → K := fun i j => ((|w0 i j| + w0 i j) / 2) ^ 2
    let mu : K := (∑ i, ∑ j, x i j * w i j) / ∑ i, ∑ j, w i j
    let xs : Fin n → Fin p → K := fun i j => (x i j - mu) / sigma0 j
    let rho0 : Fin n → Fin p → K := fun i j => xs i j ^ 2
    let rho : Fin n → Fin p → K := fun i j => if ∃ j', c2 ^ 2 < rho0 i j' then c2 ^ 2 else rho0 i j
    some fun j => sigma0 j * sq ((∑ i, ∑ j, rho i j) / nEs2)

/-! ### wrapping -/

/-- The two masked assignments of `wrap_univ`, `_preproc_utilities.py:341-349`, on one standardised value
(both index sets are computed before either assignment); `th` is the hyperbolic tangent. -/
def wrapPsi (th : K → K) (xi : K) : K :=
  let b : K := 3 / 2
  let c : K := 4
  let q1 : K := 1540793 / 1000000
  let q2 : K := 8622731 / 10000000
  if |xi| < c ∧ |xi| ≥ b then q1 * th (q2 * (c - |xi|)) * |xi| / xi
  else if |xi| ≥ c then 0
  else xi

/-- One value of `wrap_univ`, `_preproc_utilities.py:335-350`, for location `locX` and scale `scaleX`.  With
a zero scale numpy computes `0/0 = NaN` for a value at the location (`none`) and `±inf` for any other,
which line 349 turns into `0`, so that the location comes back. -/
def wrapCell (th : K → K) (locX scaleX x : K) : Option K :=
  if scaleX = 0 then (if x = locX then none else some locX)
  else some (wrapPsi th ((x - locX) / scaleX) * scaleX + locX)

/-- `wrap_univ(dd, scale=True, locX, scaleX)`, `_preproc_utilities.py:317-352`: with
`scale=True` the given location and scale are overwritten by the median and MAD of `dd` itself
(lines 336-337). -/
def wrapUniv {n : ℕ} (th : K → K) (dd : Fin n → K) (_locX _scaleX : K) : Fin n → Option K :=
  let locX := med dd
  let scaleX := mad dd
  fun i => wrapCell th locX scaleX (dd i)

/-- `wrap(X, locX, scaleX)`, `_preproc_utilities.py:355-368`: column by column. -/
def wrapMat {n p : ℕ} (th : K → K) (X : Fin n → Fin p → K) (locX scaleX : Fin p → K) :
    Fin n → Fin p → Option K :=
  fun i j => wrapUniv th (fun i => X i j) (locX j) (scaleX j) i

/-- A fitted `Wrapper`: `center_` (= `col_loc_`) and `scale_` (= `col_sca_`). -/
structure WrapperState (K : Type) (p : ℕ) where
  center : Fin p → K
  scale : Fin p → K

/-- `Wrapper.fit`, `robcent.py:245-290`, with the fixed options median and MAD. -/
def WrapperState.fit {n p : ℕ} (X : Fin n → Fin p → K) : WrapperState K p :=
  ⟨fun j => med (fun i => X i j), fun j => mad (fun i => X i j)⟩

/-- `Wrapper.transform`, `robcent.py:292-303`, and `Wrapper.predict`, `robcent.py:305-315`. -/
def WrapperState.predict {n p : ℕ} (th : K → K) (s : WrapperState K p) (X : Fin n → Fin p → K) :
    Fin n → Fin p → Option K :=
  wrapMat th X s.center s.scale

end
end Direpack
