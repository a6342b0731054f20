import Verif.SPRM

/-!
# Estimator objects across calls of `fit` that may fail

`fit` of `snipls`, `rm` and `sprm` assigns some attributes before it is known whether the fit succeeds.  Here
the objects carry the attributes that `predict` and `transform` read, and `fit` says which of them
are assigned when it stops.  The response may have another length than the predictors.
-/

namespace Direpack

/-- How a call of `fit` ends.  `raised`: one of the exceptions raised (or provoked by an unbound name or by
shapes) in the code of the repository.  `numeric`: the numerical part meets a division by zero
or a singular matrix, so that the code goes on with NaN or a third-party function raises; the attributes
after such a call are not described. -/
inductive FitEnd where
  | done
  | raised (e : Err)
  | numeric
  deriving DecidableEq

/-- A `snipls` object: number of columns of `self.X` and the attributes of the last completed fit. -/
structure SnState where
  xCols : Option ℕ
  model : Option (Σ n p, SnFit n p)

/-- The object before any call of `fit`, `snipls.py:80-99`. -/
def SnState.new : SnState := ⟨none, none⟩

/-- `snipls.fit`, `snipls.py:101-279`: `self.X` is assigned at 146; a response of another length has been
transposed (134-138, `_check_input` has made it a column) and `np.dot(X0.T, y0)` raises at 162 unless there is
a single case, which is not described; the other attributes are assigned at the end (261-278). -/
noncomputable def SnState.fit (pr : SnParams) (o : SnState) {n p m : ℕ} (X : Fin n → Fin p → ℝ) (y : Fin m → ℝ) :
    SnState × FitEnd :=
  let o1 : SnState := { o with xCols := some p }
  if h : m = n then
    match snFit pr X (fun i => y (Fin.cast h.symm i)) with
    | .ok f => ({ o1 with model := some ⟨n, p, f⟩ }, .done)
    | .error _ => (o1, .numeric)
  else if n = 1 then (o1, .numeric)
  else (o1, .raised .valueError)

/-- `snipls.predict`, `snipls.py:281-299`: the number of columns is compared with `self.X`. -/
noncomputable def SnState.predict (o : SnState) {m q : ℕ} (Xn : Fin m → Fin q → ℝ) : Except Err (Fin m → ℝ) :=
  match o.xCols, o.model with
  | some c, some ⟨_, _, f⟩ => if q = c then f.predict Xn else .error .valueError
  | some c, none => if q = c then .error .attributeError else .error .valueError
  | none, _ => .error .attributeError

/-- `snipls.transform`, `snipls.py:301-321`. -/
noncomputable def SnState.transform (o : SnState) {m q : ℕ} (Xn : Fin m → Fin q → ℝ) :
    Except Err (Σ h, Matrix (Fin m) (Fin h) ℝ) :=
  match o.xCols, o.model with
  | some c, some ⟨_, _, f⟩ => if q = c then (f.transform Xn).map fun T => ⟨_, T⟩ else .error .valueError
  | some c, none => if q = c then .error .attributeError else .error .valueError
  | none, _ => .error .attributeError

/-- An `rm` object. -/
structure RmState where
  xCols : Option ℕ
  model : Option (Σ n p, RmFit n p)

/-- The object before any call of `fit`, `rm.py:57-89`. -/
def RmState.new : RmState := ⟨none, none⟩

/-- `rm.fit`, `rm.py:91-261`: `self.X` is assigned at 92-94 (with `copy`), before the checks of the parameters
(96-110) and of the number of cases (120-122); the other attributes at 246-259. -/
noncomputable def RmState.fit (ext : RmExt) (pr : RmParams) (o : RmState) {n p m : ℕ} (X : Fin n → Fin p → ℝ)
    (y : Fin m → ℝ) : RmState × FitEnd :=
  let o1 : RmState := if pr.copy then { o with xCols := some p } else o
  match checkProbs pr.fn pr.probp1 pr.probp2 pr.probp3 with
  | .error e => (o1, .raised e)
  | .ok _ =>
    if h : m = n then
      match rmFit ext pr X (fun i => y (Fin.cast h.symm i)) with
      | .ok f => ({ o1 with model := some ⟨n, p, f⟩ }, .done)
      | .error _ => (o1, .numeric)
    else (o1, .raised .other)

/-- `rm.predict`, `rm.py:263-271`: the number of columns is compared with `self.X`. -/
noncomputable def RmState.predict (o : RmState) {m q : ℕ} (Xn : Fin m → Fin q → ℝ) : Except Err (Fin m → ℝ) :=
  match o.xCols, o.model with
  | some c, some ⟨_, p, f⟩ =>
    if q = c then
      if hq : q = p then .ok fun i => (∑ j : Fin p, Xn i (Fin.cast hq.symm j) * f.coef j) + f.intercept
      else .error .valueError
    else .error .valueError
  | some c, none => if q = c then .error .attributeError else .error .valueError
  | none, _ => .error .attributeError

/-- A `sprm` object: `self.X`, `x_loc_` and `x_sca_`, `non_zero_scale_vars_`, and the attributes
assigned at `sprm.py:438-456`. -/
structure SprmState where
  xCols : Option ℕ
  scal : Option (Σ p, (Fin p → ℝ) × (Fin p → ℝ))
  keep : Option (List ℕ)
  model : Option (Σ n p, SprmFit n p)

/-- The object before any call of `fit`, `sprm.py:107-143`. -/
def SprmState.new : SprmState := ⟨none, none, none, none⟩

/-- `sprm.fit`, `sprm.py:145-457`: `self.X` is assigned at 159-161 (with `copy`), then come the checks of the
parameters (163-191) and of the number of cases (206-208), the assignment of the locations and scales (223-226),
the exception when too few variables are left (253-256), the assignment of the variables used (258) and the
unbound name for `start_cutoff_mode='specific'` without `start_X_init='pcapp'` (279-280).
`columns` is left out (see `SprmCols`). -/
noncomputable def SprmState.fit (ext : SprmExt) (pr : SprmParams) (o : SprmState) {n p m : ℕ}
    (X : Fin n → Fin p → ℝ) (y : Fin m → ℝ) : SprmState × FitEnd :=
  let o1 : SprmState := if pr.copy then { o with xCols := some p } else o
  match sprmCheck pr n p with
  | .error e => (o1, .raised e)
  | .ok _ =>
    if h : m = n then
      let sX := (pr.scale.resolve X).opt.run X
      let o2 : SprmState := { o1 with scal := some ⟨p, pr.centre.run X, sX⟩ }
      if pr.nComponents > (keepVars sX).length then (o2, .raised .other)
      else
        let o3 : SprmState := { o2 with keep := some ((keepVars sX).map Fin.val) }
        if pr.specific = true ∧ pr.pcapp = false then (o3, .raised .unboundLocal)
        else
          match (sprmFit ext pr X (fun i => y (Fin.cast h.symm i))).2 with
          | .ok f => ({ o3 with model := some ⟨n, p, f⟩ }, .done)
          | .error _ => (o3, .numeric)
    else (o1, .raised .other)

/-- `Xn[:, keep]` for positions below the number of columns. -/
def takeCols {m q : ℕ} (Xn : Fin m → Fin q → ℝ) (keep : List ℕ) : Fin m → Fin keep.length → ℝ :=
  fun i a => if h : keep.get a < q then Xn i ⟨keep.get a, h⟩ else 0

/-- `sprm.predict`, `sprm.py:460-478`, from the attributes of the object: `IndexError` for a position that is
not a column, `ValueError` when the numbers of variables and of coefficients differ. -/
noncomputable def SprmState.predict (o : SprmState) {m q : ℕ} (Xn : Fin m → Fin q → ℝ) : Except Err (Fin m → ℝ) :=
  match o.xCols with
  | none => .error .attributeError
  | some c =>
    if q ≠ c then .error .valueError
    else
      match o.keep, o.model with
      | some keep, some ⟨_, _, f⟩ =>
        if ∃ k ∈ keep, ¬ k < q then .error .indexError
        else if h : keep.length = f.keep.length then
          .ok fun i => (∑ a : Fin keep.length, takeCols Xn keep i a * f.coef (Fin.cast h a)) + f.intercept
        else .error .valueError
      | _, _ => .error .attributeError

/-- `sprm.transform`, `sprm.py:480-505`, from the attributes of the object. -/
noncomputable def SprmState.transform (o : SprmState) {m q : ℕ} (Xn : Fin m → Fin q → ℝ) :
    Except Err (Σ h, Matrix (Fin m) (Fin h) ℝ) :=
  match o.xCols with
  | none => .error .attributeError
  | some c =>
    if q ≠ c then .error .valueError
    else
      match o.keep, o.scal, o.model with
      | some keep, some ⟨p, loc, sca⟩, some ⟨_, _, f⟩ =>
        if ∃ k ∈ keep, ¬ k < q then .error .indexError
        else if hp : ∀ a : Fin keep.length, keep.get a < p then
          if h : keep.length = f.keep.length then
            .ok ⟨_, Matrix.of (fun i (a : Fin f.keep.length) =>
              scaleMat (takeCols Xn keep) (fun a => loc ⟨keep.get a, hp a⟩) (fun a => sca ⟨keep.get a, hp a⟩) i
                (Fin.cast h.symm a)) * f.inner.R⟩
          else .error .valueError
        else .error .indexError
      | _, _, _ => .error .attributeError

end Direpack
