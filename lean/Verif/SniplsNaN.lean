import Verif.Missing
import Verif.Snipls

/-!
Model of `sprm/snipls.py` for data with missing cells: the branch `snipls.py:156-158` in which all products are taken by `nandot` and `nanmatdot`.  A cell is
`Option ℝ`, `none` meaning NaN.  As in `Verif.Snipls`, a fit that would fill the coefficients or the intercept with NaN is the failure `Err.other`.

Modelled for the centres `'mean'`, `'median'`, `'None'` and the scales `'std'`, `'mad'`, `'None'` (the ones that the class documents, without the L1-median).
-/

namespace Direpack

open scoped BigOperators

/-- The `centre` parameter. -/
inductive NCentre where
  | mean
  | median
  | noneOpt

/-- The `scale` parameter. -/
inductive NScale where
  | std
  | mad
  | noneOpt

/-- The same parameter for data without missing cells. -/
def NCentre.full : NCentre → Centre
  | .mean => .mean
  | .median => .median
  | .noneOpt => .noneOpt

/-- The same parameter for data without missing cells. -/
def NScale.full : NScale → ScaleOpt
  | .std => .std
  | .mad => .mad
  | .noneOpt => .noneOpt

/-- `VersatileScaler.fit`, location part, `robcent.py:131-134`, with trimming 0; NaN for a column without any value. -/
noncomputable def NCentre.run (c : NCentre) {n p : ℕ} (X : NMat ℝ n p) : Fin p → Option ℝ :=
  match c with
  | .mean => meanNaN X
  | .median => medianNaN X
  | .noneOpt => fun _ => some 0

/-- `VersatileScaler.fit`, scale part, `robcent.py:141-144`, with trimming 0. -/
noncomputable def NScale.run (s : NScale) {n p : ℕ} (X : NMat ℝ n p) : Fin p → Option ℝ :=
  match s with
  | .std => stdNaN Real.sqrt X
  | .mad => madNaN X
  | .noneOpt => fun _ => some 1

/-- One entry of `scale_data`, `_preproc_utilities.py:293-314`: NaN if the value, the location or the scale is. -/
noncomputable def scaleCell : Option ℝ → Option ℝ → Option ℝ → Option ℝ
  | some v, some m, some s => some ((v - m) / (if s = 0 then 1 else s))
  | _, _, _ => none

/-- `scale_data` on a matrix. -/
noncomputable def scaleMatN {n p : ℕ} (X : NMat ℝ n p) (m s : Fin p → Option ℝ) : NMat ℝ n p := fun i j => scaleCell (X i j) (m j) (s j)

/-- A vector as a one-column matrix. -/
def asColN {n : ℕ} (y : Fin n → Option ℝ) : NMat ℝ n 1 := fun i _ => y i

/-- `X.T`. -/
def NMat.tr {n p : ℕ} (X : NMat ℝ n p) : NMat ℝ p n := fun j i => X i j

/-- The weights before elimination, `snipls.py:175-178`, from the covariances. -/
noncomputable def snWeightsOf {p : ℕ} (eta : ℝ) (s : Fin p → ℝ) : (Fin p → ℝ) × (Fin p → ℝ) :=
  let nrm := Real.sqrt (∑ j, s j ^ 2)
  let wh : Fin p → ℝ := fun j => s j / nrm
  let g : Fin p → ℝ := fun j => |wh j| - eta * maxAbs wh
  (g, fun j => g j * npSign (wh j))

open Classical in
/-- The component loop with `dot = nandot`, `snipls.py:173-225` (see `snLoop`).  The deflation 199-200 leaves missing cells missing. -/
noncomputable def snLoopN {n p : ℕ} (eta : ℝ) : ℕ → NMat ℝ n p → (Fin n → Option ℝ) → Finset (Fin p) → Except Err (List (SnComp n p))
  | 0, _, _, _ => .ok []
  | h + 1, X, y, old =>
    let s : Fin p → ℝ := nandot X.tr y
    if (∀ j, s j = 0) then
      if old = ∅ then .ok [] else .error .other
    else
      let g := (snWeightsOf eta s).1
      let good := old ∪ Finset.univ.filter fun j => 0 < g j
      if good = ∅ then .ok []
      else
        let w : Fin p → ℝ := fun j => if j ∈ good then (snWeightsOf eta s).2 j else 0
        let t : Fin n → ℝ := nandot X fun j => some (w j)
        let nth2 := ∑ i, t i ^ 2
        if nth2 = 0 then .error .other
        else
          let c := nandot (asColN y).tr (fun i => some (t i)) 0 / nth2
          let ph : Fin p → ℝ := fun j => nandot X.tr (fun i => some (t i)) j / nth2
          match snLoopN eta h (fun i j => (X i j).map (· - t i * ph j)) (fun i => (y i).map (· - t i * c)) good with
          | .error e => .error e
          | .ok l => .ok (⟨w, fun j => if j ∈ good then ph j else 0, c, t, good⟩ :: l)

/-- The regression vector and the weights `R`, `snipls.py:157-159,226-249`. -/
noncomputable def snCoefN {n p : ℕ} (X0 : NMat ℝ n p) (y0 : Fin n → Option ℝ) (l : List (SnComp n p)) :
    Except Err (Matrix (Fin p) (Fin l.length) ℝ × (Fin p → ℝ)) :=
  if l.length = 0 then .ok (0, fun _ => 0)
  else do
    let W := compW l
    let S : Matrix (Fin p) (Fin p) ℝ := Matrix.of (nanmatdot X0.tr X0)
    let s0 : Fin p → ℝ := nandot X0.tr y0
    let M1 ← npInv ((compP l).transpose * W)
    let M2 ← npInv (W.transpose * S * W)
    .ok (W * M1, (W * (M2 * W.transpose)).mulVec s0)

/-- The intercept, `snipls.py:252-257`, from `y - X B`. -/
noncomputable def snInterceptN (c : NCentre) {n : ℕ} (r : Fin n → Option ℝ) : Option ℝ :=
  match c with
  | .mean => npNanReduce meanL (List.ofFn r)
  | .noneOpt => some 0
  | .median => npNanReduce medL (List.ofFn r)

/-- Parameters, as `SnParams`. -/
structure SnParamsN where
  eta : ℝ
  nComponents : ℕ
  centre : NCentre
  scale : NScale

/-- The parameters for data without missing cells. -/
def SnParamsN.full (pr : SnParamsN) : SnParams := ⟨pr.eta, pr.nComponents, pr.centre.full, pr.scale.full⟩

/-- A fitted model: the attributes set in `snipls.py:261-278`. -/
structure SnFitN (n p : ℕ) where
  comps : List (SnComp n p)
  R : Matrix (Fin p) (Fin comps.length) ℝ
  coefScaled : Fin p → ℝ
  coef : Fin p → ℝ
  intercept : ℝ
  fitted : Fin n → ℝ
  residuals : Fin n → Option ℝ
  xLoc : Fin p → Option ℝ
  xSca : Fin p → Option ℝ
  yLoc : Option ℝ
  ySca : Option ℝ

/-- `sy / sX * B`, `snipls.py:250`, NaN for a scale that is NaN or zero. -/
noncomputable def rescaledN {p : ℕ} (sy : Option ℝ) (sX : Fin p → Option ℝ) (B : Fin p → ℝ) (j : Fin p) : Option ℝ :=
  match sy, sX j with
  | some a, some b => if b = 0 then none else some (a / b * B j)
  | _, _ => none

open Classical in
/-- `snipls.fit` in the branch for missing cells, `snipls.py:147-279`. -/
noncomputable def snFitBranch (pr : SnParamsN) {n p : ℕ} (X : NMat ℝ n p) (y : Fin n → Option ℝ) : Except Err (SnFitN n p) :=
  let mX := pr.centre.run X
  let sX := pr.scale.run X
  let X0 := scaleMatN X mX sX
  let my := pr.centre.run (asColN y) 0
  let sy := pr.scale.run (asColN y) 0
  let y0 : Fin n → Option ℝ := fun i => scaleCell (y i) my sy
  match snLoopN pr.eta pr.nComponents X0 y0 ∅ with
  | .error e => .error e
  | .ok l =>
    match snCoefN X0 y0 l with
    | .error e => .error e
    | .ok (R, B) =>
      if ∃ j, rescaledN sy sX B j = none then .error .other
      else
        let Br : Fin p → ℝ := fun j => (rescaledN sy sX B j).getD 0
        let yp : Fin n → ℝ := nandot X fun j => some (Br j)
        match snInterceptN pr.centre fun i => (y i).map (· - yp i) with
        | none => .error .other
        | some b0 =>
          .ok { comps := l, R := R, coefScaled := B, coef := Br, intercept := b0
                fitted := fun i => yp i + b0
                residuals := fun i => (y i).map (· - (yp i + b0))
                xLoc := mX, xSca := sX, yLoc := my, ySca := sy }

/-- A model fitted to complete data, with the type of the other ones. -/
noncomputable def SnFit.toN {n p : ℕ} (f : SnFit n p) : SnFitN n p where
  comps := f.comps
  R := f.R
  coefScaled := f.coefScaled
  coef := f.coef
  intercept := f.intercept
  fitted := f.fitted
  residuals := fun i => some (f.residuals i)
  xLoc := fun j => some (f.xLoc j)
  xSca := fun j => some (f.xSca j)
  yLoc := some f.yLoc
  ySca := some f.ySca

open Classical in
/-- `snipls.fit`, `snipls.py:101-279`, with the test for missing cells at 156. -/
noncomputable def snFitNaN (pr : SnParamsN) {n p : ℕ} (X : NMat ℝ n p) (y : Fin n → Option ℝ) : Except Err (SnFitN n p) :=
  if anyNaN (scaleMatN X (pr.centre.run X) (pr.scale.run X)) ∨ ∃ i, scaleCell (y i) (pr.centre.run (asColN y) 0) (pr.scale.run (asColN y) 0) = none then
    snFitBranch pr X y
  else (snFitBody pr.full (fun i j => (X i j).getD 0) (fun i => (y i).getD 0)).map SnFit.toN

/-- `snipls.predict`, `snipls.py:281-299`: `np.matmul`, so NaN for a case with a missing cell. -/
noncomputable def SnFitN.predict {n p : ℕ} (f : SnFitN n p) (x : Fin p → Option ℝ) : Option ℝ :=
  if ∃ j, x j = none then none else some (∑ j, (x j).getD 0 * f.coef j + f.intercept)

end Direpack
