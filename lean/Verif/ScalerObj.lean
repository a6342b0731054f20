import Verif.Scaler

/-!
# `VersatileScaler` objects

`preprocessing/robcent.py:97-197`: what the object stores, call by call, also when a call raises.
-/

namespace Direpack

variable {K : Type} [Field K] [LinearOrder K]

/-- The attributes that the methods set: `center_` (with `col_loc_`), `scale_` (with `col_sca_`), `datas_`, `datans_`; `none` before they are set. -/
structure ScalerObj (K : Type) where
  center : Option (List K)
  scale : Option (List K)
  datas : Option (NDArray K)
  datans : Option (NDArray K)

/-- A new object, `robcent.py:94-102`. -/
def ScalerObj.new : ScalerObj K := ⟨none, none, none, none⟩

/-- A call of a method. -/
inductive ScalerCall (K : Type) where
  | fit (X : NDArray K)
  | transform (X : NDArray K)
  | predict (X : NDArray K)
  | fitTransform (X : NDArray K)
  | inverse (Xs : Option (NDArray K))

/-- `fit`, `robcent.py:104-149`: the location is stored before the scale is computed (137-139, 144).  The result `None` is `()`. -/
def ScalerObj.fit [FloorSemiring K] (c : LocOpt K) (s : ScaOpt K) (sq : K → K) (t : K) (o : ScalerObj K) (x0 : NDArray K) :
    ScalerObj K × Except Err Unit :=
  match checkInput x0 with
  | .error e => (o, .error e)
  | .ok x =>
    match checkTrimming t with
    | .error e => (o, .error e)
    | .ok _ =>
      match x.shape with
      | [n, p] =>
        match c.run t x n p with
        | .error e => (o, .error e)
        | .ok m =>
          match s.run sq t x n p with
          | .error e => ({ o with center := some m }, .error e)
          | .ok sc => ({ o with center := some m, scale := some sc }, .ok ())
      | _ => (o, .error .valueError)

/-- The common part of `transform` and `predict`: the stored location and scale applied to data; `e` is the exception for an object that is not fitted
(`NotFittedError` of `check_is_fitted`, which is a `ValueError`, or the missing attribute). -/
def ScalerObj.apply (o : ScalerObj K) (e : Err) (x0 : NDArray K) : Except Err (NDArray K) :=
  match checkInput x0 with
  | .error e => .error e
  | .ok x =>
    match o.center, o.scale with
    | some m, some s => scaleData x m s
    | _, _ => .error e

/-- `transform`, `robcent.py:151-162`. -/
def ScalerObj.transform (o : ScalerObj K) (x0 : NDArray K) : ScalerObj K × Except Err (NDArray K) :=
  match o.apply .valueError x0 with
  | .error e => (o, .error e)
  | .ok r => ({ o with datas := some r }, .ok r)

/-- `predict`, `robcent.py:164-174`. -/
def ScalerObj.predict (o : ScalerObj K) (x0 : NDArray K) : ScalerObj K × Except Err (NDArray K) :=
  match o.apply .attributeError x0 with
  | .error e => (o, .error e)
  | .ok r => ({ o with datans := some r }, .ok r)

/-- `inverse_transform`, `robcent.py:186-197`.  `datas_` is used as it is, without `_check_input`; it has two dimensions. -/
def ScalerObj.inverse (o : ScalerObj K) (xs : Option (NDArray K)) : Except Err (NDArray K) :=
  match o.center, o.scale with
  | some m, some s =>
    match xs with
    | some x => Scaler.inverse ⟨m, s⟩ x
    | none =>
      match o.datas with
      | none => .error .attributeError
      | some x =>
        match x.shape with
        | [n, p] =>
          match bcast2 (fun a b => a * b) n p x s with
          | .error e => .error e
          | .ok y =>
            match y.shape with
            | [n', p'] => bcast2 (fun a b => a + b) n' p' y m
            | _ => .error .valueError
        | _ => .error .valueError
  | _, _ => .error .valueError

/-- A call: the object afterwards and what is returned (`none` for `fit`, which returns `None`); `fit_transform` is `robcent.py:176-184`. -/
def ScalerObj.call [FloorSemiring K] (c : LocOpt K) (s : ScaOpt K) (sq : K → K) (t : K) (o : ScalerObj K) :
    ScalerCall K → ScalerObj K × Except Err (Option (NDArray K))
  | .fit X => ((o.fit c s sq t X).1, (o.fit c s sq t X).2.map fun _ => none)
  | .transform X => ((o.transform X).1, (o.transform X).2.map some)
  | .predict X => ((o.predict X).1, (o.predict X).2.map some)
  | .fitTransform X =>
    match (o.fit c s sq t X).2 with
    | .error e => ((o.fit c s sq t X).1, .error e)
    | .ok _ => (((o.fit c s sq t X).1.transform X).1, ((o.fit c s sq t X).1.transform X).2.map some)
  | .inverse Xs => (o, (o.inverse Xs).map some)

/-- The object after a history of calls, whether or not they raised. -/
def ScalerObj.run [FloorSemiring K] (c : LocOpt K) (s : ScaOpt K) (sq : K → K) (t : K) (o : ScalerObj K) (cs : List (ScalerCall K)) : ScalerObj K :=
  cs.foldl (fun o x => (o.call c s sq t x).1) o

end Direpack
