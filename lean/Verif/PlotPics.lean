import Verif.Plot
import Verif.MSupport

/-!
# Whole plots

What `plot_yyp` and `plot_projections` of `plot/ppdire_plot.py`, `plot/sudire_plot.py` and `plot/sprm_plot.py`, and `plot_caseweights` and `eta_ncomp_contour` of
`plot/sprm_plot.py` hand to matplotlib, with the exceptions they raise.  Colours, legends, the diagonal line and the rendering by matplotlib are not modelled.
Arrays are flattened to lists (`reshape(-1)`).
-/

namespace Direpack

/-- The arguments `names`, `namesv` and `onlyval`. -/
structure PlotReq where
  names : List String
  namesv : List String
  onlyval : Bool

/-- The points drawn for the training cases and for the new cases, and the texts. -/
structure Picture where
  train : List (ℝ × ℝ)
  test : List (ℝ × ℝ)
  texts : List PlotText

/-- `ax1.scatter(u, v)`: matplotlib raises `ValueError` unless the sizes agree. -/
def scatterAll (u v : List ℝ) : Except Err (List (ℝ × ℝ)) := if u.length = v.length then .ok (u.zip v) else .error .valueError

/-- `ax1.annotate(names[i], (u[i], v[i]))`; `none` is a variable that has not been assigned. -/
def nameAt (names : List String) (u v : Option (List ℝ)) (i : ℕ) : Except Err PlotText :=
  match u with
  | none => .error .unboundLocal
  | some u =>
    match u[i]? with
    | none => .error .indexError
    | some x =>
      match v with
      | none => .error .unboundLocal
      | some v =>
        match v[i]? with
        | none => .error .indexError
        | some y => .ok ⟨names.getD i "", x, y⟩

/-- `for i in range(0, len(names)-1): ax1.annotate(names[i], (u[i], v[i]))`, `ppdire_plot.py:94-100,144-150`, `sudire_plot.py:94-100,142-148`,
`sprm_plot.py:138-144,257-263`. -/
def nameAll (names : List String) (u v : Option (List ℝ)) : Except Err (List PlotText) := mapE (nameAt names u v) (List.range (names.length - 1))

/-! ### The attributes that are plotted -/

/-- The attributes read by `plot_yyp`: the stored response (`y0` of `ppdire` and `sudire`, `y` of `sprm`) and the fitted values (`fitted_`,
`ols_obj_.fittedvalues`). -/
structure YypObj where
  y0 : Option (List ℝ)
  fitted : Option (List ℝ)

/-- A new object has neither. -/
def YypObj.new : YypObj := ⟨none, none⟩

/-- A call of `fit` with a response: one that succeeds with the given fitted values, or one that raises after the response was stored. -/
inductive YypCall where
  | done (copy : Bool) (n : ℕ) (y fitted : Fin n → ℝ)
  | failed (copy : Bool) (n : ℕ) (y : Fin n → ℝ)

/-- The response is stored only with `copy=True`, before the computations (`ppdire.py:383-385`, `sudire.py:362-364`, `sprm.py:159-161`); the fitted values are stored at
the end (`ppdire.py:731-762`, `sudire.py:568-584`, `sprm.py:436-457`). -/
def YypObj.fit (o : YypObj) : YypCall → YypObj
  | .done copy _ y f => ⟨if copy then some (List.ofFn y) else o.y0, some (List.ofFn f)⟩
  | .failed copy _ y => ⟨if copy then some (List.ofFn y) else o.y0, o.fitted⟩

/-! ### `plot_yyp` and `plot_projections` of `ppdire_plot` and `sudire_plot` -/

/-- `plot_yyp`, `ppdire_plot.py:41-103`, `sudire_plot.py:41-103`: `m` is `len(Xn)`, `pred` the result of `predict(Xn)`, `ytruev` is `none` for the default `[]`, a list, which
has no `shape`.  The exception of lines 75-76 is created but not raised. -/
def plotYyp (o : YypObj) (m : ℕ) (pred : Except Err (List ℝ)) (ytruev : Option (List ℝ)) (r : PlotReq) : Except Err Picture := do
  let train ← if r.onlyval then .ok [] else
    match o.y0 with
    | none => .error .attributeError
    | some y =>
      match o.fitted with
      | none => .error .attributeError
      | some f => scatterAll y f
  let test ← if m = 0 then .ok [] else
    match ytruev with
    | none => .error .attributeError
    | some yv =>
      match pred with
      | .error e => .error e
      | .ok pv => scatterAll yv pv
  let t1 ← if r.onlyval then .ok [] else nameAll r.names o.y0 o.fitted
  let t2 ← nameAll r.namesv (some (ytruev.getD [])) (if m = 0 then none else pred.toOption)
  .ok ⟨train, test, t1 ++ t2⟩

/-- Column `k` of a list of rows, `T[:, k]`; `IndexError` when there is none. -/
def colOf (T : List (List ℝ)) (k : ℕ) : Except Err (List ℝ) :=
  mapE (fun row => match row[k]? with | none => .error .indexError | some x => .ok x) T

/-- `plot_projections`, `ppdire_plot.py:105-153`, `sudire_plot.py:105-151`: `scores` are `x_scores_`, `tr` the result of `transform(Xn)`, `k1` and `k2` the argument
`components`. -/
def plotProj (scores : List (List ℝ)) (m : ℕ) (tr : Except Err (List (List ℝ))) (k1 k2 : ℕ) (r : PlotReq) : Except Err Picture := do
  let c ← if r.onlyval then .ok none else do
    let a ← colOf scores k1
    let b ← colOf scores k2
    .ok (some (a, b))
  let v ← if m = 0 then .ok none else do
    let T ← tr
    let a ← colOf T k1
    let b ← colOf T k2
    .ok (some (a, b))
  let train ← match c with
    | none => .ok []
    | some (a, b) => scatterAll a b
  let test ← match v with
    | none => .ok []
    | some (a, b) => scatterAll a b
  let t1 ← if r.onlyval then .ok [] else nameAll r.names (c.map Prod.fst) (c.map Prod.snd)
  let t2 ← nameAll r.namesv (v.map Prod.fst) (v.map Prod.snd)
  .ok ⟨train, test, t1 ++ t2⟩

/-! ### `sprm_plot` -/

/-- A point with its group, drawn for the case with the number `case`. -/
structure ClassPoint where
  case : ℕ
  x : ℝ
  y : ℝ
  cls : OutlierClass

/-- `ax1.scatter(u[idx], v[idx])` for the positions `idx` of the weights in one group. -/
def scatterIdx (u v : List ℝ) (k : OutlierClass) (idx : List ℕ) : Except Err (List ClassPoint) :=
  mapE (fun i => match u[i]?, v[i]? with | some x, some y => .ok ⟨i, x, y, k⟩ | _, _ => .error .indexError) idx

/-- `np.where(mask(w))[0]`. -/
def whereIdx (w : List ℝ) (mask : ℝ → Prop) [DecidablePred mask] : List ℕ :=
  (List.range w.length).filter fun i => mask (w.getD i 0)

/-- The three groups of `plot_yyp` and `plot_projections`, `sprm_plot.py:97-107,120-131,221-231,241-252`. -/
noncomputable def scatterClasses (u v w : List ℝ) : Except Err (List ClassPoint) := do
  let a ← scatterIdx u v .regular (whereIdx w (· = 1))
  let b ← scatterIdx u v .moderate (whereIdx w fun x => 0 < x ∧ x < 1)
  let c ← scatterIdx u v .harsh (whereIdx w (· = 0))
  .ok (a ++ b ++ c)

/-- The points of an SPRM plot. -/
structure ClassPicture where
  train : List ClassPoint
  test : List ClassPoint
  texts : List PlotText

/-- `sprm_plot.plot_yyp`, `sprm_plot.py:67-147`: `w` are `caseweights_`, `wv` the result of `weightnewx(Xn)`. -/
noncomputable def sprmYyp (o : YypObj) (w : List ℝ) (m : ℕ) (pred wv : Except Err (List ℝ)) (ytruev : Option (List ℝ)) (r : PlotReq) :
    Except Err ClassPicture := do
  let train ← if r.onlyval then .ok [] else
    match o.y0 with
    | none => .error .attributeError
    | some y =>
      match o.fitted with
      | none => .error .attributeError
      | some f => scatterClasses y f w
  let test ← if m = 0 then .ok [] else
    match ytruev with
    | none => .error .attributeError
    | some yv =>
      match pred with
      | .error e => .error e
      | .ok pv =>
        match wv with
        | .error e => .error e
        | .ok wv => scatterClasses yv pv wv
  let t1 ← if r.onlyval then .ok [] else nameAll r.names o.y0 o.fitted
  let t2 ← nameAll r.namesv (some (ytruev.getD [])) (if m = 0 then none else pred.toOption)
  .ok ⟨train, test, t1 ++ t2⟩

/-- `sprm_plot.plot_projections`, `sprm_plot.py:194-266`: `tr` is the result of `transform(Xn)` and `wv` that of `weightnewx(Xn)`.  (The columns are taken before the rows, which
matters only for which cases raise `IndexError` when the component does not exist and a group is empty.) -/
noncomputable def sprmProj (scores : List (List ℝ)) (w : List ℝ) (m : ℕ) (tr : Except Err (List (List ℝ))) (wv : Except Err (List ℝ)) (k1 k2 : ℕ) (r : PlotReq) :
    Except Err ClassPicture := do
  let c ← if r.onlyval then .ok none else do
    let a ← colOf scores k1
    let b ← colOf scores k2
    let pts ← scatterClasses a b w
    .ok (some (pts, a, b))
  let v ← if m = 0 then .ok none else do
    let T ← tr
    let wv ← wv
    let a ← colOf T k1
    let b ← colOf T k2
    let pts ← scatterClasses a b wv
    .ok (some (pts, a, b))
  let t1 ← if r.onlyval then .ok [] else nameAll r.names (c.map fun t => t.2.1) (c.map fun t => t.2.2)
  let t2 ← nameAll r.namesv (v.map fun t => t.2.1) (v.map fun t => t.2.2)
  .ok ⟨(c.map Prod.fst).getD [], (v.map Prod.fst).getD [], t1 ++ t2⟩

/-- The argument `mode` of `plot_caseweights`. -/
inductive WeightMode where
  | overall
  | x
  | y
  | other

/-- A bar: position and height. -/
structure WeightPicture where
  train : List (ℝ × ℝ)
  test : List (ℝ × ℝ)

/-- The bars of `sprm_plot.plot_caseweights`, `sprm_plot.py:296-321` (for the names see `annotateWeights`): `wv` is the result of `weightnewx(Xn)`.  For another `mode`
the exception of line 304 is created but not raised, and `wc` is not assigned when it is read in line 317. -/
def plotCaseweights (overall x y : List ℝ) (m : ℕ) (wv : Except Err (List ℝ)) (onlyval : Bool) (mode : WeightMode) : Except Err WeightPicture := do
  let wc : Option (List ℝ) := if onlyval then some [] else
    match mode with
    | .overall => some overall
    | .x => some x
    | .y => some y
    | .other => none
  let wv ← if m = 0 then .ok [] else wv
  match wc with
  | none => .error .unboundLocal
  | some wc =>
    .ok ⟨wc.zipIdx.map fun t => ((t.2 : ℝ) + 1, t.1), wv.zipIdx.map fun t => (((wc.length + t.2 : ℕ) : ℝ) + 1, t.1)⟩

/-! ### `sprm_plot_cv` -/

/-- What `eta_ncomp_contour` draws: contours of points `(eta, n_components, score)`, or a message. -/
inductive ContourPic where
  | contour (pts : List (ℝ × ℕ × ℝ))
  | message

/-- A score of `GridSearchCV`; `none` is a NaN (a setting that could not be fitted). -/
abbrev CvScore := Option ℝ

/-- The results of a grid search, `cv_results_`: settings and mean test scores. -/
structure CvResults where
  params : List (CvSetting CvScore)
  scores : List CvScore

/-- The points drawn from a table, `sprm_plot.py:379-386`: the rows with a finite score, if there are three. -/
def contourOf (rows : List (CvRow CvScore)) : ContourPic :=
  let pts := rows.filterMap fun r => match r.etas, r.score with | some e, some s => some (e, r.nComponents, s) | _, _ => none
  if 3 ≤ pts.length then .contour pts else .message

/-- An `sprm_plot_cv` object: the grid search it was given, and the table once computed. -/
structure CvPlot where
  table : Option (List (CvRow CvScore))

/-- `eta_ncomp_contour`, `sprm_plot.py:362-388`: the table is computed on the first call only (371-373).  `res` is the state of the grid search at the time of the
call.  (A value of `eta` is never NaN.) -/
def CvPlot.contour (o : CvPlot) (res : CvResults) : Except Err (CvPlot × ContourPic) :=
  match o.table with
  | some t => .ok (o, contourOf t)
  | none =>
    match cvScoreTable res.params res.scores with
    | .error e => .error e
    | .ok t => .ok (⟨some t⟩, contourOf t)

end Direpack
