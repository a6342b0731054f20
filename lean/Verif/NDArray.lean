import Mathlib.Algebra.BigOperators.Group.List.Basic
import Verif.Basic

/-!
A small model of numpy arrays for the code whose behaviour depends on shapes: a shape
and the entries in C order.  `reshape` therefore leaves the entries alone, as in numpy.
(Third-party semantics, part of the trusted base.)
-/

namespace Direpack

/-- An array: its shape, and its entries in C (row-major) order. -/
structure NDArray (α : Type) where
  shape : List ℕ
  data : List α
  deriving DecidableEq, Repr

namespace NDArray

variable {α : Type}

/-- The entries fill the shape exactly. -/
def Wf (a : NDArray α) : Prop := a.data.length = a.shape.prod

instance (a : NDArray α) : Decidable a.Wf := by unfold Wf; infer_instance

/-- Row `i` of an `n × p` array. -/
def row (a : NDArray α) (p i : ℕ) : List α := (a.data.drop (i * p)).take p

/-- Column `j` of an `n × p` array (entries `i*p+j`); out-of-range reads do not occur for
well-formed arrays. -/
def col (a : NDArray α) (n p j : ℕ) : List α :=
  (List.range n).filterMap fun i => a.data[i * p + j]?

end NDArray

/-- `_check_input`, `utils/utils.py:64-80`.  Conversion from pandas/matrix objects and from
dtype object is not modelled: the argument is a numeric array.  A one-dimensional array becomes a single row; a single row with at least
two entries becomes a single column; other numbers of dimensions fail at `n, p = X.shape`. -/
def checkInput {α : Type} (x : NDArray α) : Except Err (NDArray α) :=
  -- lines 72-73
  let x1 : NDArray α := match x.shape with
    | [n] => ⟨[1, n], x.data⟩
    | _ => x
  -- lines 75-80
  match x1.shape with
  | [n, p] =>
    if n = 1 then
      if 2 ≤ p then .ok ⟨[p, 1], x1.data⟩ else .ok x1
    else .ok x1
  | _ => .error .valueError

/-- `_predict_check_input`, `utils/utils.py:53-61`, on numeric arrays: a one-dimensional array
becomes a single row. -/
def predictCheckInput {α : Type} (x : NDArray α) : Except Err (ℕ × ℕ × NDArray α) :=
  let x1 : NDArray α := match x.shape with
    | [n] => ⟨[1, n], x.data⟩
    | _ => x
  match x1.shape with
  | [n, p] => .ok (n, p, x1)
  | _ => .error .valueError

end Direpack
