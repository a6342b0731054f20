import Mathlib.Algebra.Order.Archimedean.Real.Basic
import Mathlib.Data.Fintype.Card
import Mathlib.Data.List.FinRange
import Mathlib.Data.List.OfFn
import Mathlib.Algebra.Order.Floor.Ring
import Verif.Num
import Verif.Scaler

/-!
Model of what is drawn by the plots of `plot/sprm_plot.py`: the points, bars and annotations handed to matplotlib, with their coordinates.  The rendering by
matplotlib is not modelled.
-/

namespace Direpack

/-- Markers and colours distinguish three groups of cases, `sprm_plot.py:55-58`. -/
inductive OutlierClass where
  | regular
  | moderate
  | harsh
  deriving DecidableEq

/-- A point drawn for case `c`: its coordinates and the group with which it is drawn. -/
structure PlotPoint (n : ℕ) where
  case : Fin n
  x : ℝ
  y : ℝ
  cls : OutlierClass

/-- `ax.scatter(u[np.where(mask)], v[np.where(mask)], ...)`. -/
def scatter {n : ℕ} (u v : Fin n → ℝ) (mask : Fin n → Prop) [DecidablePred mask] (k : OutlierClass) : List (PlotPoint n) :=
  ((List.finRange n).filter fun c => decide (mask c)).map fun c => ⟨c, u c, v c, k⟩

/-- The points of the training cases in `plot_yyp`, `sprm_plot.py:97-107`, and `plot_projections`, `221-231`, and of the new cases, `120-131`, `241-252`: `w` are the
case weights. -/
noncomputable def plotPoints {n : ℕ} (u v w : Fin n → ℝ) : List (PlotPoint n) :=
  scatter u v (fun c => w c = 1) .regular ++ scatter u v (fun c => 0 < w c ∧ w c < 1) .moderate ++ scatter u v (fun c => w c = 0) .harsh

/-- A text drawn at a position. -/
structure PlotText where
  text : String
  x : ℝ
  y : ℝ

/-- `for i in range(0, len(names)-1): ax1.annotate(names[i], (u[i], v[i]))`, `sprm_plot.py:138-144`, `257-263`; an `IndexError` when there are more names than
cases to be named. -/
def annotate {n : ℕ} (names : List String) (u v : Fin n → ℝ) : Except Err (List PlotText) :=
  mapE (fun i => if h : i < n then .ok ⟨names.getD i "", u ⟨i, h⟩, v ⟨i, h⟩⟩ else .error .indexError) (List.range (names.length - 1))

/-- The bars of `plot_caseweights`: `(position, height)`, `sprm_plot.py:317-321`. -/
def weightBars {n : ℕ} (w : Fin n → ℝ) : List (ℝ × ℝ) := List.ofFn fun c => ((c.1 : ℝ) + 1, w c)

/-- The names in `plot_caseweights`, `sprm_plot.py:326-329`: `name_indices[i+1]` is the position, `name_indices` being `1, ..., total`. -/
def annotateWeights {n : ℕ} (total : ℕ) (names : List String) (w : Fin n → ℝ) : Except Err (List PlotText) :=
  mapE (fun i => if h : i < n then if i + 1 < total then .ok ⟨names.getD i "", ((i + 1 : ℕ) : ℝ) + 1, w ⟨i, h⟩⟩ else .error .indexError
    else .error .indexError) (List.range (names.length - 1))

/-- `np.argsort(np.argsort(b))[i]`, `sprm_plot.py:173`: the rank of coefficient `i` (ties in order of position). -/
noncomputable def rankOf {p : ℕ} (b : Fin p → ℝ) (i : Fin p) : ℕ :=
  (Finset.univ.filter fun j => b j < b i ∨ (b j = b i ∧ j < i)).card

/-- `np.ceil(p*(truncation/2))`, `sprm_plot.py:175`. -/
noncomputable def truncLeft (p : ℕ) (t : ℝ) : ℕ := ⌈(p : ℝ) * (t / 2)⌉₊

/-- Sorted list without repetitions of the union, `np.union1d`. -/
def union1d (p : ℕ) (s t : List ℕ) : List ℕ := (List.range p).filter fun i => i ∈ s ∨ i ∈ t

/-- The heights of the bars in `plot_coeffs` with truncation, `sprm_plot.py:174-178`. -/
noncomputable def coefHeights {p : ℕ} (b : Fin p → ℝ) (t : ℝ) : List ℝ :=
  let left := truncLeft p t
  (union1d p ((List.range p).filter (· < left)) ((List.range p).filter (p - left ≤ ·))).map fun i => (sortL (List.ofFn b)).getD i 0

/-- The labels of the bars, `sprm_plot.py:179-180`, without variable names: numbers of variables. -/
noncomputable def coefLabels {p : ℕ} (b : Fin p → ℝ) (t : ℝ) : List ℕ :=
  let left := truncLeft p t
  union1d p (((List.finRange p).filter fun i => i.1 < left).map (rankOf b)) (((List.finRange p).filter fun i => p - left ≤ i.1).map (rankOf b))

end Direpack
