import Mathlib.Analysis.SpecialFunctions.Pow.Real
import Mathlib.Analysis.Real.Sqrt
import Mathlib.Algebra.Order.Floor.Ring
import Mathlib.Data.List.FinRange
import Mathlib.Algebra.BigOperators.Intervals
import Verif.Num
import Verif.Scaler

/-!
Model of the (co-)moment statistics: `dicomo/_dicomo_utils.py` and the class `dicomo` in
`dicomo/dicomo.py`, over the real numbers.  The result NaN of numpy (square root of a negative number, mean of nothing)
is the failure `Err.other`; divisions by zero are excluded by hypotheses in the theorems.
-/

namespace Direpack

open scoped BigOperators

/-- Values of the `center` parameter. -/
inductive Loc where
  | mean | median
  deriving DecidableEq

/-- Python's `round` of a number: nearest integer, ties to the even one. -/
noncomputable def pyRound (v : ℝ) : ℤ :=
  let f := ⌊v⌋
  let r := v - f
  if r < 1 / 2 then f else if 1 / 2 < r then f + 1 else if f % 2 = 0 then f else f + 1

/-- `np.sqrt`, with NaN (here a failure) for negative arguments. -/
noncomputable def sqrtE (v : ℝ) : Except Err ℝ := if v < 0 then .error .other else .ok (Real.sqrt v)

/-! ### Product moments -/

/-- The small sample factor of `trim_mom`, `_dicomo_utils.py:95-100`. -/
noncomputable def momFactor (n : ℕ) (t : ℝ) (order : ℕ) (fscorr : Bool) : ℝ :=
  let ntrim : ℝ := (pyRound (n * (1 - t)) : ℤ)
  if fscorr then ntrim / ∏ k ∈ Finset.Ico (max 1 (order - 2)) order, (ntrim - (k : ℝ)) else 1

/-- `trim_mom` for `order ≥ 2` and `locest = trim_mean`, `_dicomo_utils.py:72-79,91-108`; `s1`, `s2` are
`iter_stop_1`, `iter_stop_2`. -/
noncomputable def momMean {n : ℕ} (x y : Fin n → ℝ) (s1 s2 order : ℕ) (t : ℝ) (fscorr : Bool) :
    Except Err ℝ := do
  let mx ← meanT t (List.ofFn x)
  let my ← meanT t (List.ofFn y)
  let como ← meanT t (List.ofFn fun i => (x i - mx) ^ s1 * (y i - my) ^ s2)
  .ok (como * momFactor n t order fscorr)

/-- `trim_mom` for `order ≥ 2` and `locest = np.median`, `_dicomo_utils.py:80-90,102-108`. -/
noncomputable def momMedian {n : ℕ} (x y : Fin n → ℝ) (s1 s2 order : ℕ) : ℝ :=
  open Classical in
  if ∀ i, x i = y i then
    med (fun i => (|x i - med x| ^ s1 * |y i - med y| ^ s2) ^ ((1 : ℝ) / order)) *
      (if order = 2 then 14826 / 10000 else 1)
  else med fun i => (x i - med x) ^ s1 * (y i - med y) ^ s2

/-- `trim_mom`, `_dicomo_utils.py:51-117`, for columns.  Order 0 fails at `como.shape` (line 110); order 1
with the median passes the trimming fraction as an axis.  `option ≤ order` (negative exponents are
not modelled). -/
noncomputable def trimMom {n : ℕ} (c : Loc) (x y : Fin n → ℝ) (order : ℕ) (t : ℝ) (option : ℕ)
    (fscorr : Bool) : Except Err ℝ :=
  if order = 0 then .error .attributeError
  else if order = 1 then
    match c with
    | .mean => meanT t (List.ofFn x)
    | .median => if t = 0 then .ok (med x) else .error .typeError
  else
    let s2 := if 2 < order then option else 1
    let s1 := if 2 < order then order - option else 1
    match c with
    | .mean => momMean x y s1 s2 order t fscorr
    | .median => .ok (momMedian x y s1 s2 order)

/-! ### Distances -/

/-- Euclidean distance matrix, `squareform(pdist(x))`, `_dicomo_utils.py:221`. -/
noncomputable def edist {n p : ℕ} (x : Fin n → Fin p → ℝ) : Fin n → Fin n → ℝ :=
  fun i k => Real.sqrt (∑ j, (x i j - x k j) ^ 2)

/-- The entries of a square matrix as one list, `a.reshape((dim**2,1))`, `_dicomo_utils.py:154`. -/
def flat {n : ℕ} (a : Fin n → Fin n → ℝ) : List ℝ :=
  (List.finRange n).flatMap fun i => (List.finRange n).map fun j => a i j

/-- Apply a fallible statistic per row. -/
def seqE {n : ℕ} (f : Fin n → Except Err ℝ) : Except Err (Fin n → ℝ) :=
  match mapE f (List.finRange n) with
  | .error e => .error e
  | .ok l => .ok fun i => l.getD i 0

/-- `double_center_flex`, `_dicomo_utils.py:119-184`: the centred matrix and `n1`. -/
noncomputable def doubleCenter {n : ℕ} (c : Loc) (t : ℝ) (biascorr : Bool) (a : Fin n → Fin n → ℝ) :
    Except Err ((Fin n → Fin n → ℝ) × ℝ) :=
  match c with
  | .mean => do
    let mu ← meanT t (flat a)
    let n1 : ℝ := if biascorr then (pyRound (n * (1 - t)) : ℤ) else n
    let mu := if biascorr then mu * (n1 ^ 2 / ((n1 - 1) * (n1 - 2))) else mu
    let muCols ← seqE fun j => meanT t (List.ofFn fun i => a i j)
    let muRows ← seqE fun i => meanT t (List.ofFn fun j => a i j)
    let muCols := if biascorr then fun j => muCols j * (n1 / (n1 - 2)) else muCols
    let muRows := if biascorr then fun i => muRows i * (n1 / (n1 - 2)) else muRows
    .ok (fun i j => if biascorr ∧ i = j then 0 else a i j - muRows i - muCols j + mu, n1)
  | .median =>
    let mu := medL (flat a)
    let muCols := fun j => medL (List.ofFn fun i => a i j)
    let muRows := fun i => medL (List.ofFn fun j => a i j)
    .ok (fun i j => if biascorr ∧ i = j then 0 else a i j - muRows i - muCols j + mu, n)

/-- `distance_matrix_centered`, `_dicomo_utils.py:187-225`, Euclidean metric. -/
noncomputable def distMatCentered {n p : ℕ} (c : Loc) (t : ℝ) (biascorr : Bool) (x : Fin n → Fin p → ℝ) :
    Except Err ((Fin n → Fin n → ℝ) × ℝ) := doubleCenter c t biascorr (edist x)

/-- The repeated in-place squaring `dm *= dm`, `_dicomo_utils.py:301-308`, `k` times. -/
def sqIter {n : ℕ} (k : ℕ) (a : Fin n → Fin n → ℝ) : Fin n → Fin n → ℝ :=
  (fun M i j => M i j * M i j)^[k] a

/-- The two matrices after the in-place squarings of `distance_moment`, `_dicomo_utils.py:300-308`; when both arguments are
the same object (`same`) every squaring acts on both. -/
def dmSquared {n : ℕ} (same : Bool) (order option : ℕ) (dmx dmy : Fin n → Fin n → ℝ) :
    (Fin n → Fin n → ℝ) × (Fin n → Fin n → ℝ) :=
  if 2 < order then
    let s2 := option
    let s1 := order - option
    if same then (sqIter (s2 - 1) (sqIter (s1 - 1) dmx), sqIter (s2 - 1) (sqIter (s1 - 1) dmx))
    else (sqIter (s1 - 1) dmx, sqIter (s2 - 1) dmy)
  else (dmx, dmy)

/-- The bias factor of `distance_moment`, `_dicomo_utils.py:286-298`.  For `n1 = 3` numpy divides by zero (infinite factor); here the
factor is 0. -/
noncomputable def corr4bias (n : ℕ) (n1 : ℝ) (t : ℝ) (biascorr : Bool) : ℝ :=
  if biascorr then
    let m : ℝ := if t = 0 then n else n1
    m ^ 2 / (m * (m - 3))
  else 1

/-- `distance_moment`, `_dicomo_utils.py:228-319`, on two matrices of equal size: the moment and the two matrices as
they are left behind.  Order 0 divides by zero at line 315. -/
noncomputable def distanceMoment {n : ℕ} (same : Bool) (c : Loc) (t : ℝ) (biascorr : Bool) (n1 : ℝ)
    (order option : ℕ) (dmx dmy : Fin n → Fin n → ℝ) :
    Except Err (ℝ × (Fin n → Fin n → ℝ) × (Fin n → Fin n → ℝ)) :=
  let d := dmSquared same order option dmx dmy
  match c with
  | .mean => if order = 0 then .error .zeroDivision else do
    let m ← meanT t (flat fun i j => d.1 i j * d.2 i j)
    let m := m * corr4bias n n1 t biascorr
    .ok ((-1 : ℝ) ^ order * |m| ^ ((1 : ℝ) / order), d.1, d.2)
  | .median => .ok (medL (flat fun i j => d.1 i j * d.2 i j), d.1, d.2)

/-- `D_inner` (`_dicomo_utils.py:398-422`) and, with `unbiased`, `U_inner` (371-395): trimmed sum of the products
of the entries; an empty selection (NaN) is a failure. -/
noncomputable def innerProd {n : ℕ} (unbiased : Bool) (t : ℝ) (X Y : Fin n → Fin n → ℝ) : Except Err ℝ :=
  let arr := flat fun i j => X i j * Y i j
  let lowercut := ⌊t * (n : ℝ) ^ 2⌋₊
  let res := ((sortL arr).drop lowercut).take (n ^ 2 - lowercut - lowercut)
  let m := Real.sqrt res.length
  if res.length = 0 then .error .other
  else if unbiased then .ok (1 / (m * (m - 3)) * res.sum) else .ok (1 / (m * m) * res.sum)

/-- `difference_divergence`, `_dicomo_utils.py:322-368`, for a univariate response. -/
noncomputable def differenceDivergence {n p : ℕ} (c : Loc) (t : ℝ) (biascorr : Bool)
    (X : Fin n → Fin p → ℝ) (y : Fin n → ℝ) : Except Err ℝ := do
  let A ← distMatCentered c t biascorr X
  let dy := fun i k => edist (fun i (_ : Fin 1) => y i) i k ^ 2
  let B ← doubleCenter c t biascorr fun i k => 1 / 2 * dy i k
  innerProd biascorr t A.1 B.1

/-- `MDDM`, `_dicomo_utils.py:424-464`.  With one predictor (`p = 1`) the distances are an `n × 1` column, and the
product with the `n × q` responses fails unless `n = 1`. -/
noncomputable def mddm {n p q : ℕ} (X : Fin n → Fin p → ℝ) (Y : Fin n → Fin q → ℝ) :
    Except Err (Fin q → Fin q → ℝ) :=
  let yc : Fin n → Fin q → ℝ := fun i k => Y i k - (∑ i', Y i' k) / n
  if p = 1 ∧ n ≠ 1 then .error .valueError
  else .ok fun k l => -(∑ i, yc i k * ∑ i', edist X i i' * yc i' l) / (n : ℝ) ^ 2

/-! ### The `dcor` library functions used by the fast path (third party, by their documented definition) -/

/-- `dcor.distance_covariance_sqr`: mean product of the doubly centred distance matrices. -/
noncomputable def dcovSqr {n p q : ℕ} (x : Fin n → Fin p → ℝ) (y : Fin n → Fin q → ℝ) : ℝ :=
  let cen : (Fin n → Fin n → ℝ) → Fin n → Fin n → ℝ := fun a i j =>
    a i j - (∑ k, a i k) / n - (∑ k, a k j) / n + (∑ k, ∑ l, a k l) / (n : ℝ) ^ 2
  (∑ i, ∑ j, cen (edist x) i j * cen (edist y) i j) / (n : ℝ) ^ 2

/-- `dcor.u_distance_covariance_sqr`: the unbiased version with U-centred matrices. -/
noncomputable def udcovSqr {n p q : ℕ} (x : Fin n → Fin p → ℝ) (y : Fin n → Fin q → ℝ) : ℝ :=
  let cen : (Fin n → Fin n → ℝ) → Fin n → Fin n → ℝ := fun a i j =>
    if i = j then 0 else
    a i j - (∑ k, a i k) / ((n : ℝ) - 2) - (∑ k, a k j) / ((n : ℝ) - 2) +
      (∑ k, ∑ l, a k l) / (((n : ℝ) - 1) * ((n : ℝ) - 2))
  (∑ i, ∑ j, cen (edist x) i j * cen (edist y) i j) / ((n : ℝ) * ((n : ℝ) - 3))

/-! ### The class -/

/-- Values of `est` accepted by the constructor. -/
inductive Est where
  | arithmetic | distance | sign | entropy
  deriving DecidableEq

/-- Values of `mode` accepted by the constructor, `dicomo.py:73`. -/
inductive Mode where
  | mom | var | std | skew | kurt | com | cov | cok | cos | corr | continuum | m3 | mdd | ballcov
  deriving DecidableEq

/-- A `dicomo` object: the parameters and the attribute `moment_`, if set.  (The attributes
`x_moment_`, `y_moment_`, `co_moment_` are written but never read by the class and are left out.) -/
structure Dicomo where
  est : Est
  mode : Mode
  center : Loc
  moment : Option ℝ

/-- The strings of `self.liest`, `dicomo.py:72`. -/
def parseEst (s : String) : Option Est :=
  if s = "arithmetic" then some .arithmetic else if s = "distance" then some .distance
  else if s = "sign" then some .sign else if s = "entropy" then some .entropy else none

/-- The strings of `self.limo`, `dicomo.py:73`. -/
def parseMode (s : String) : Option Mode :=
  if s = "mom" then some .mom else if s = "var" then some .var else if s = "std" then some .std
  else if s = "skew" then some .skew else if s = "kurt" then some .kurt else if s = "com" then some .com
  else if s = "cov" then some .cov else if s = "cok" then some .cok else if s = "cos" then some .cos
  else if s = "corr" then some .corr else if s = "continuum" then some .continuum
  else if s = "M3" then some .m3 else if s = "mdd" then some .mdd else if s = "ballcov" then some .ballcov
  else none

/-- The strings of `self.licenter`, `dicomo.py:74`. -/
def parseLoc (s : String) : Option Loc :=
  if s = "mean" then some .mean else if s = "median" then some .median else none

/-- `dicomo.__init__`, `dicomo.py:68-84`; `MyException` is `Err.other`. -/
noncomputable def Dicomo.init (est mode center : String) : Except Err Dicomo :=
  match parseMode mode, parseEst est, parseLoc center with
  | some m, some e, some c =>
    if e = .arithmetic ∧ m = .mdd then .error .other else .ok ⟨e, m, c, none⟩
  | _, _, _ => .error .other

/-- A matrix of any shape. -/
structure DMat where
  n : ℕ
  p : ℕ
  e : Fin n → Fin p → ℝ

/-- The keyword arguments of `fit`, `dicomo.py:114-142,165-206`, with their defaults.  `y1d` says that `y` was passed as a
one-dimensional array: `fit` reshapes it for the arithmetic estimators (line 266) but not for the distances (line 405). -/
structure FitArgs where
  trimming : ℝ := 0
  biascorr : Bool := false
  alpha : ℝ := 1
  order : ℕ := 2
  option : ℕ := 1
  fisher : Bool := true
  standardized : Bool := true
  fast : Bool := true
  y : Option DMat := none
  y1d : Bool := false

/-- Internal mode: `mom`, `com`, or the mode itself; and the order; `dicomo.py:144-198`. -/
inductive Inner where
  | mom | com | corr | continuum | mdd | ballcov
  deriving DecidableEq

/-- The mode table, `dicomo.py:144-198`. -/
def modeTable (m : Mode) (order : ℕ) : Inner × ℕ :=
  match m with
  | .var | .std => (.mom, 2)
  | .cov => (.com, 2)
  | .skew => (.mom, 3)
  | .kurt => (.mom, 4)
  | .cos | .m3 => (.com, 3)
  | .cok => (.com, 4)
  | .mom => (.mom, order)
  | .com => (.com, order)
  | .corr => (.corr, order)
  | .continuum => (.continuum, order)
  | .mdd => (.mdd, order)
  | .ballcov => (.ballcov, order)

/-- The modes that set `self.center = 'mean'`, `dicomo.py:151-186`. -/
def forcesMean (m : Mode) : Bool :=
  match m with
  | .std | .skew | .kurt | .cos | .m3 | .cok => true
  | _ => false

/-- The exponent `num_power`, `dicomo.py:154,159,164`. -/
noncomputable def numPower (m : Mode) : ℝ :=
  match m with
  | .std => 1 / 2
  | .skew => 3 / 2
  | _ => 2

/-- Standardisation and small sample correction of `std`, `skew`, `kurt`, `dicomo.py:237-248`. -/
noncomputable def standardizeMom (m : Mode) (biascorr fisher : Bool) (ntrim xmom x2mom : ℝ) : ℝ :=
  let r := xmom / x2mom ^ numPower m
  if biascorr then
    match m with
    | .skew => r * (ntrim - 1) ^ 2 / Real.sqrt (ntrim ^ 2 - ntrim)
    | .kurt =>
      let r := r * ntrim - r / ntrim
      let r := r - 3 * (ntrim - 1) ^ 2 / ((ntrim - 2) * (ntrim - 3))
      if fisher then r else r + 3
    | _ => r
  else r

/-- Is the mode one of `std`, `skew`, `kurt`? -/
def isStdMode (m : Mode) : Bool := m = .std ∨ m = .skew ∨ m = .kurt

/-- Is the mode one of `cok`, `cos`? -/
def isCoMode (m : Mode) : Bool := m = .cok ∨ m = .cos

/-- Presence and length of the second data set, `dicomo.py:256-265` (also 311-319, 395-403): the rows of `y`,
re-indexed. -/
def getY (n : ℕ) (y : Option DMat) : Except Err ((q : ℕ) × (Fin n → Fin q → ℝ)) :=
  match y with
  | none => .error .other
  | some y =>
    if y.n = 0 then .error .other
    else if h : y.n = n then .ok ⟨y.p, fun i => y.e (Fin.cast h.symm i)⟩
    else .error .other

/-- First column of a matrix (the arithmetic statistics work on columns, `dicomo.py:226-298`).  Simplification: for data with several
columns the code computes one value per column and `moment_` is an array; the model keeps the value of the first column. -/
def col0 {n p : ℕ} (x : Fin n → Fin p → ℝ) : Fin n → ℝ := fun i => if h : 0 < p then x i ⟨0, h⟩ else 0

/-- Values computed before the final stage of `fit`. -/
structure Pre where
  moment : Option ℝ := none
  xmom : ℝ := 0
  ymom : ℝ := 0
  como : ℝ := 0
  x2sd : ℝ := 0
  y2sd : ℝ := 0

/-- The single-variable part of the arithmetic estimators, `dicomo.py:229-248`. -/
noncomputable def arithX {n : ℕ} (m : Mode) (c : Loc) (order : ℕ) (a : FitArgs) (x : Fin n → ℝ) : Except Err ℝ := do
  let opt := if 2 < order then a.option else 0
  let ntrim : ℝ := (pyRound (n * (1 - a.trimming)) : ℤ)
  let xmom ← trimMom c x x order a.trimming opt a.biascorr
  if isStdMode m then do
    let x2mom ← trimMom c x x 2 a.trimming opt false
    .ok (standardizeMom m a.biascorr a.fisher ntrim xmom x2mom)
  else .ok xmom

/-- The two-variable part of the arithmetic estimators, `dicomo.py:269-298`. -/
noncomputable def arithXY {n : ℕ} (m : Mode) (inner : Inner) (c : Loc) (order : ℕ) (a : FitArgs) (xmom : ℝ)
    (x y : Fin n → ℝ) : Except Err Pre := do
  let opt := if 2 < order then a.option else 0
  let ntrim : ℝ := (pyRound (n * (1 - a.trimming)) : ℤ)
  let como ← trimMom c x y order a.trimming opt a.biascorr
  let como := if a.biascorr ∧ 2 < order then como * ntrim else como
  let moment := if inner = .com then some como else none
  let pre : Pre := { moment := moment, xmom := xmom, como := como }
  let pre ← if isCoMode m then do
      let x2 ← trimMom c x x 2 a.trimming opt a.biascorr
      let y2 ← trimMom c y y 2 a.trimming opt a.biascorr
      let x2sd ← sqrtE x2
      let y2sd ← sqrtE y2
      let como := if m = .cok ∧ a.biascorr then
          como - como / ntrim ^ 2 - 3 * (ntrim - 1) ^ 2 / ((ntrim - 2) * (ntrim - 3)) else como
      .ok { pre with como := como, x2sd := x2sd, y2sd := y2sd }
    else .ok pre
  if inner = .corr ∨ inner = .continuum then do
    let ymom ← trimMom c y y order a.trimming opt a.biascorr
    .ok { pre with ymom := ymom }
  else .ok pre

/-- The arithmetic branch, `dicomo.py:226-298`. -/
noncomputable def arithStage {n p : ℕ} (m : Mode) (inner : Inner) (c : Loc) (order : ℕ) (a : FitArgs)
    (x : Fin n → Fin p → ℝ) : Except Err Pre := do
  let xmom ← if inner = .com then .ok 0 else arithX m c order a (col0 x)
  if inner = .mom then .ok { moment := some xmom, xmom := xmom }
  else do
    let y ← getY n a.y
    arithXY m inner c order a xmom (col0 x) (col0 y.2)

/-- The fast distance branch, `dicomo.py:343-369`; there is no length check (lines 351-355), dcor is
taken to raise for unequal lengths. -/
noncomputable def fastStage {n p : ℕ} (inner : Inner) (a : FitArgs) (x : Fin n → Fin p → ℝ) : Except Err Pre := do
  let xmom ← if inner = .com then .ok 0
    else sqrtE (if a.biascorr then udcovSqr x x else dcovSqr x x)
  if inner = .mom then .ok { moment := some xmom, xmom := xmom }
  else do
    let y ← getY n a.y
    let como ← sqrtE (if a.biascorr then udcovSqr x y.2 else dcovSqr x y.2)
    if inner = .com then .ok { moment := some como, como := como }
    else do
      let ymom ← sqrtE (if a.biascorr then udcovSqr y.2 y.2 else dcovSqr y.2 y.2)
      .ok { moment := some xmom, xmom := xmom, ymom := ymom, como := como }

/-- The naive distance branch, `dicomo.py:373-426`; `pdist` rejects a one-dimensional `y`. -/
noncomputable def naiveStage {n p : ℕ} (m : Mode) (inner : Inner) (c : Loc) (order : ℕ) (a : FitArgs)
    (x : Fin n → Fin p → ℝ) : Except Err Pre := do
  let opt := if 2 < order then a.option else 0
  let dm ← distMatCentered c a.trimming a.biascorr x
  let xr ← if inner = .com then .ok (0, dm.1)
    else do
      let r ← distanceMoment true c a.trimming a.biascorr dm.2 order opt dm.1 dm.1
      if isStdMode m then do
        let r2 ← distanceMoment true c a.trimming a.biascorr dm.2 2 opt r.2.1 r.2.1
        .ok (r.1 / r2.1 ^ numPower m, r.2.1)
      else .ok (r.1, r.2.1)
  if inner = .mom then .ok { moment := some xr.1, xmom := xr.1 }
  else do
    let y ← getY n a.y
    if a.y1d then .error .valueError else do
    let dmy ← distMatCentered c a.trimming a.biascorr y.2
    let co ← distanceMoment false c a.trimming a.biascorr n order opt xr.2 dmy.1
    let pre : Pre := { moment := if inner = .com then some co.1 else none, xmom := xr.1, como := co.1 }
    let pre ← if isCoMode m then do
        let x2 ← distanceMoment true c a.trimming a.biascorr n 2 opt co.2.1 co.2.1
        let y2 ← distanceMoment true c a.trimming a.biascorr n 2 opt co.2.2 co.2.2
        let x2sd ← sqrtE x2.1
        let y2sd ← sqrtE y2.1
        .ok { pre with x2sd := x2sd, y2sd := y2sd }
      else .ok pre
    if inner = .corr ∨ inner = .continuum then do
      let ym ← distanceMoment true c a.trimming a.biascorr n order opt co.2.2 co.2.2
      .ok { pre with ymom := ym.1 }
    else .ok pre

/-- The branch for `mdd` and `ballcov`, `dicomo.py:309-338` (`Ball` is not imported). -/
noncomputable def mddStage {n p : ℕ} (inner : Inner) (c : Loc) (a : FitArgs) (x : Fin n → Fin p → ℝ) :
    Except Err Pre := do
  let y ← getY n a.y
  if inner = .mdd then do
    if y.1 = 1 then do
      let d ← differenceDivergence c a.trimming a.biascorr x (col0 y.2)
      let r ← sqrtE d
      .ok { moment := some r, como := r }
    else .error .other
  else .error .nameError

/-- The final stage, `dicomo.py:428-442`: `moment_` from the previous values, `none` meaning that it is not set in this
call. -/
noncomputable def finalStage (m : Mode) (inner : Inner) (order : ℕ) (a : FitArgs) (pre : Pre) : Except Err (Option ℝ) := do
  let pre ← match inner with
    | .corr => do
      let sx ← sqrtE pre.xmom
      let sy ← sqrtE pre.ymom
      let v := pre.como / (sx * sy)
      .ok { pre with moment := some v, como := v }
    | .continuum => do
      let sx ← sqrtE pre.xmom
      let v := pre.como * (pre.como * sx ^ (a.alpha - 1))
      .ok { pre with moment := some v, como := v }
    | _ => .ok pre
  if isCoMode m ∧ a.standardized then
    let v := pre.como / pre.x2sd ^ (order - a.option) / pre.y2sd ^ a.option
    let v := if m = .cok ∧ a.fisher = false then v + 3 else v
    .ok (some v)
  else .ok pre.moment

/-- Everything `fit` computes in one call: the new value of `moment_`, or `none` if this call does not set it;
`dicomo.py:144-442`.  For the estimators `sign` and `entropy` nothing is computed before the final stage, which then reads
unassigned variables for `corr`, `continuum`, `cos` and `cok`. -/
noncomputable def Dicomo.compute (est : Est) (m : Mode) (c : Loc) (a : FitArgs) (x : DMat) : Except Err (Option ℝ) :=
  let inner := (modeTable m a.order).1
  let order := (modeTable m a.order).2
  if x.n = 0 then .error .other
  else
    let pre : Except Err Pre := match est with
      | .arithmetic => arithStage m inner c order a x.e
      | .distance =>
        if inner = .mdd ∨ inner = .ballcov then mddStage inner c a x.e
        else if a.fast ∧ c = .mean ∧ a.trimming = 0 ∧ order = 2 then fastStage inner a x.e
        else naiveStage m inner c order a x.e
      | _ =>
        if inner = .corr ∨ inner = .continuum ∨ (isCoMode m ∧ a.standardized) then .error .unboundLocal
        else .ok {}
    match pre with
    | .error e => .error e
    | .ok pre => finalStage m inner order a pre

/-- `dicomo.fit`, `dicomo.py:88-448`: the object afterwards and the returned value.  `self.center` is overwritten for
some modes (lines 151-186); if this call did not set `moment_`, line 446 reads the value left by an earlier call, or
raises `AttributeError`.  Simplification: a value that the fast branch stores in `moment_` (line 349) before a later
failure of the same call is not kept. -/
noncomputable def Dicomo.fit (d : Dicomo) (a : FitArgs) (x : DMat) : Dicomo × Except Err ℝ :=
  let c := if forcesMean d.mode then Loc.mean else d.center
  let d1 : Dicomo := { d with center := c }
  match Dicomo.compute d.est d.mode c a x with
  | .error e => (d1, .error e)
  | .ok (some v) => ({ d1 with moment := some v }, .ok v)
  | .ok none =>
    match d.moment with
    | some v => (d1, .ok v)
    | none => (d1, .error .attributeError)

end Direpack
