import Mathlib.Algebra.Order.Floor.Semiring
import Verif.Num
import Verif.NDArray

/-!
Model of `preprocessing/_preproc_utilities.py` (location and scale estimators, scaling)
and of the class `VersatileScaler` in `preprocessing/robcent.py`.
-/

namespace Direpack

/-- Apply a fallible function to every element, left to right; the first failure wins. -/
def mapE {α β : Type} (f : α → Except Err β) : List α → Except Err (List β)
  | [] => .ok []
  | a :: l =>
    match f a with
    | .error e => .error e
    | .ok b =>
      match mapE f l with
      | .error e => .error e
      | .ok bs => .ok (b :: bs)

section
variable {K : Type} [Field K] [LinearOrder K]

/-- The consistency constant of `mad`, `_preproc_utilities.py:44` (default of `c`). -/
def madConst : K := 6744897501960817 / 10000000000000000

/-- `mad` of one complete column, `_preproc_utilities.py:44-54` (with `c` its default). -/
def madL (l : List K) : K :=
  medL (l.map fun v => |v - medL l|) / madConst

/-- `mad` of a complete column given as a vector. -/
def mad {n : ℕ} (x : Fin n → K) : K := madL (List.ofFn x)

/-- `_check_trimming`, `_preproc_utilities.py:38-41`. -/
def checkTrimming (t : K) : Except Err Unit :=
  if t > 99 / 100 ∨ t < 0 then .error .valueError else .ok ()

/-- Turn the NaN of an empty mean into a failure (`Err.other`).  Simplification: numpy would
carry the NaN on into the results. -/
def ofNaN (r : Except Err (Option K)) : Except Err K :=
  match r with
  | .error e => .error e
  | .ok none => .error .other
  | .ok (some v) => .ok v

/-- `mean(X, trimming)` for one complete column, `_preproc_utilities.py:72-86`. -/
def meanT [FloorSemiring K] (t : K) (l : List K) : Except Err K :=
  if t = 0 then .ok (meanL l) else ofNaN (trimMeanL l t)

/-- `std(X, trimming)` for one complete column, `_preproc_utilities.py:89-106`; `sq` is
numpy's square root. -/
def stdT [FloorSemiring K] (sq : K → K) (t : K) (l : List K) : Except Err K :=
  if t = 0 then .ok (sq (varL l))
  else
    match ofNaN (trimMeanL l t) with
    | .error e => .error e
    | .ok m =>
      match ofNaN (trimMeanL (l.map fun v => (v - m) ^ 2) t) with
      | .error e => .error e
      | .ok v => .ok (sq v)

/-- Values of the `center` parameter of `VersatileScaler` that are modelled.  `'None'`, the two
column-wise estimators, and any other estimator (`l1median`, `kstepLTS`, a callable) as an
arbitrary function of the checked data. -/
inductive LocOpt (K : Type) where
  | mean
  | median
  | noneOpt
  | other (f : NDArray K → Except Err (List K))

/-- Values of the `scale` parameter of `VersatileScaler`. -/
inductive ScaOpt (K : Type) where
  | std
  | mad
  | noneOpt
  | other (f : NDArray K → Except Err (List K))

/-- `center(X, trimming=...)` as called in `robcent.py:131-134`, for an `n × p` array. -/
def LocOpt.run [FloorSemiring K] (c : LocOpt K) (t : K) (x : NDArray K) (n p : ℕ) :
    Except Err (List K) :=
  match c with
  | .noneOpt => .ok (List.replicate p 0)
  | .mean => mapE (fun j => meanT t (x.col n p j)) (List.range p)
  | .median => mapE (fun j => .ok (medL (x.col n p j))) (List.range p)
  | .other f => f x

/-- `scale(X, trimming=...)` as called in `robcent.py:141-144`, for an `n × p` array. -/
def ScaOpt.run [FloorSemiring K] (s : ScaOpt K) (sq : K → K) (t : K) (x : NDArray K) (n p : ℕ) :
    Except Err (List K) :=
  match s with
  | .noneOpt => .ok (List.replicate p 1)
  | .std => mapE (fun j => stdT sq t (x.col n p j)) (List.range p)
  | .mad => mapE (fun j => .ok (madL (x.col n p j))) (List.range p)
  | .other f => f x

/-- The state of a fitted `VersatileScaler`: `center_` and `scale_` (`col_loc_` and `col_sca_`
are always set to the same values, `robcent.py:137-149`). -/
structure Scaler (K : Type) where
  center : List K
  scale : List K
  deriving DecidableEq

/-- `VersatileScaler.fit`, `robcent.py:104-149`. -/
def Scaler.fit [FloorSemiring K] (c : LocOpt K) (s : ScaOpt K) (sq : K → K) (t : K)
    (x0 : NDArray K) : Except Err (Scaler K) := do
  let x ← checkInput x0
  checkTrimming t
  match x.shape with
  | [n, p] =>
    let m ← c.run t x n p
    let s ← s.run sq t x n p
    .ok ⟨m, s⟩
  | _ => .error .valueError

/-- `_handle_zeros_in_scale`, `_preproc_utilities.py:19-35`, on an array. -/
def handleZeros (s : List K) : List K := s.map fun v => if v = 0 then 1 else v

/-- Broadcasting of an `n × p` array with a vector of length `m` under a binary operation
(numpy): equal lengths, a vector of length one, or a single column (which is expanded to
`n × m`); anything else is a `ValueError`. -/
def bcast2 (op : K → K → K) (n p : ℕ) (x : NDArray K) (v : List K) : Except Err (NDArray K) :=
  if v.length = p then
    .ok ⟨[n, p], x.data.zipIdx.map fun (a, k) => op a (v.getD (k % p) 0)⟩
  else if v.length = 1 then
    .ok ⟨[n, p], x.data.map fun a => op a (v.getD 0 0)⟩
  else if p = 1 then
    .ok ⟨[n, v.length], x.data.flatMap fun a => v.map fun b => op a b⟩
  else .error .valueError

/-- `scale_data`, `_preproc_utilities.py:293-314`.  With one column the first entries of `m`
and `s` are used (`IndexError` if there are none); otherwise `m` and `s` are tiled to `n` rows, which agrees
with broadcasting the vector.  Simplification: for no rows (`np.tile` fails) the model returns no rows. -/
def scaleData (x : NDArray K) (m s : List K) : Except Err (NDArray K) :=
  let s := handleZeros s
  match x.shape with
  | [n, p] =>
    if p = 1 then
      match m, s with
      | m0 :: _, s0 :: _ => .ok ⟨[n, p], x.data.map fun a => (a - m0) / s0⟩
      | _, _ => .error .indexError
    else do
      let xm ← bcast2 (fun a b => a - b) n p x m
      bcast2 (fun a b => a / b) n p xm s
  | _ => .error .valueError

/-- `VersatileScaler.transform`, `robcent.py:151-162`; `predict` (164-174) is the same
computation on the same stored values. -/
def Scaler.transform (sc : Scaler K) (x0 : NDArray K) : Except Err (NDArray K) := do
  let x ← checkInput x0
  scaleData x sc.center sc.scale

/-- `VersatileScaler.inverse_transform(Xs)`, `robcent.py:186-197`:
`np.multiply(Xs, self.scale_) + self.center_` (with the *unhandled* scale). -/
def Scaler.inverse (sc : Scaler K) (x0 : NDArray K) : Except Err (NDArray K) := do
  let x ← checkInput x0
  match x.shape with
  | [n, p] =>
    let y ← bcast2 (fun a b => a * b) n p x sc.scale
    match y.shape with
    | [n', p'] => bcast2 (fun a b => a + b) n' p' y sc.center
    | _ => .error .valueError
  | _ => .error .valueError

/-- `VersatileScaler.fit_transform`, `robcent.py:176-184`, and hence `versatile_scale`,
`robcent.py:204-211`. -/
def Scaler.fitTransform [FloorSemiring K] (c : LocOpt K) (s : ScaOpt K) (sq : K → K) (t : K)
    (x : NDArray K) : Except Err (NDArray K) := do
  let sc ← Scaler.fit c s sq t x
  sc.transform x

end
end Direpack
