import Verif.NDArray

/-!
# The response as given to the estimators

The part of `fit` that turns the response into an array and compares the number of cases: `snipls.py:129-138`, `rm.py:114-122`, `sprm.py:204-208`,
`ppdire.py:375-397`, `sudire.py:348-374`, with `convert_y_input` of `utils.py:24-28`.  (Numeric data; conversion of the type of the entries is not modelled.)
-/

namespace Direpack

/-- A response: a numpy array, a pandas Series, or a pandas DataFrame with `n` rows and `k` columns (entries row by row). -/
inductive RespIn (α : Type) where
  | arr (a : NDArray α)
  | series (l : List α)
  | frame (n k : ℕ) (l : List α)

variable {α : Type}

/-- The transpose `y.T`: a one-dimensional array is unchanged, the rows of a two-dimensional array become columns. -/
def NDArray.transpose (a : NDArray α) : NDArray α :=
  match a.shape with
  | [n, k] => ⟨[k, n], (List.range k).flatMap fun j => a.col n k j⟩
  | _ => a

/-- `to_numpy()`, or the array itself. -/
def RespIn.toNumpy : RespIn α → NDArray α
  | .arr a => a
  | .series l => ⟨[l.length], l⟩
  | .frame n k l => ⟨[n, k], l⟩

/-- `convert_y_input`, `utils.py:24-28`: Series and DataFrames are transposed. -/
def convertY : RespIn α → NDArray α
  | .arr a => a
  | y => y.toNumpy.transpose

/-- `y.shape[0]`; an array without dimensions has no such entry. -/
def firstDim (a : NDArray α) : Except Err ℕ :=
  match a.shape with
  | [] => .error .indexError
  | n :: _ => .ok n

/-- `np.array(y).reshape((ny, 1))` when `len(y.shape) < 2`, `ppdire.py:378-379`, `sudire.py:350-351`. -/
def asColumn (ny : ℕ) (a : NDArray α) : Except Err (NDArray α) :=
  if a.shape.length < 2 then
    if a.data.length = ny then .ok ⟨[ny, 1], a.data⟩ else .error .valueError
  else .ok a

/-- One round of the conversion: `ny` is taken before the conversion, `ppdire.py:376-382`, `sudire.py:348-353`, `356-361`. -/
def convertRound (n : ℕ) (y : RespIn α) : Except Err (NDArray α) :=
  match firstDim y.toNumpy with
  | .error e => .error e
  | .ok ny =>
    match asColumn ny (convertY y) with
    | .error e => .error e
    | .ok a => if ny ≠ n then .error .other else .ok a

/-- The response used by `sudire.fit`, `sudire.py:348-374`: the conversion is done twice. -/
def sudireResp (n : ℕ) (y : RespIn α) : Except Err (NDArray α) :=
  match convertRound n y with
  | .error e => .error e
  | .ok a => convertRound n (.arr a)

/-- The response used by `ppdire.fit`, `ppdire.py:375-397`: with `center_data` it goes through the scaler, which reshapes it by `_check_input` (the
centring itself is not modelled here); otherwise it is used as it is. -/
def ppdireResp (n : ℕ) (centerData : Bool) (y : RespIn α) : Except Err (NDArray α) :=
  match convertRound n y with
  | .error e => .error e
  | .ok a => if centerData then checkInput a else .ok a

/-- The response used by `snipls.fit`, `snipls.py:129-138`: when the number of rows is not that of the predictors, a two-dimensional array is transposed. -/
def sniplsResp (n : ℕ) (y : RespIn α) : Except Err (NDArray α) :=
  match checkInput y.toNumpy with
  | .error e => .error e
  | .ok a =>
    match firstDim a with
    | .error e => .error e
    | .ok ny => if ny ≠ n then (if a.shape.length = 2 then .ok a.transpose else .error .other) else .ok a

/-- The response used by `rm.fit`, `rm.py:114-122`. -/
def rmResp (n : ℕ) (y : RespIn α) : Except Err (NDArray α) :=
  match checkInput y.toNumpy with
  | .error e => .error e
  | .ok a =>
    let b : NDArray α := if 1 < a.shape.length then ⟨[a.data.length], a.data⟩ else a
    match firstDim b with
    | .error e => .error e
    | .ok ny => if ny ≠ n then .error .other else .ok b

/-- The response used by `sprm.fit`, `sprm.py:205-208`. -/
def sprmResp (n : ℕ) (y : RespIn α) : Except Err (NDArray α) :=
  match checkInput y.toNumpy with
  | .error e => .error e
  | .ok a =>
    match firstDim a with
    | .error e => .error e
    | .ok ny => if ny ≠ n then .error .other else .ok a

end Direpack
