import Verif.Props.SudireFit
import Verif.Props.DicomoDist
import Verif.SudireObj
import Verif.Spec.SudireObj

/-! Properties C101 and C102: the objective functions of `sudire` and the optimality of the loadings. -/

namespace Direpack

open scoped BigOperators
open Spec

variable {n p : ℕ}

/-! ### Distances of projected data -/

lemma matX_mul {h k : ℕ} (X : Fin n → Fin p → ℝ) (B : Matrix (Fin p) (Fin h) ℝ) (Q : Matrix (Fin h) (Fin k) ℝ) :
    matX X (B * Q) = matX (matX X B) Q := by
  funext c l
  simp only [matX, Matrix.mul_apply, Finset.mul_sum, Finset.sum_mul]
  rw [Finset.sum_comm]
  exact Finset.sum_congr rfl fun j _ => Finset.sum_congr rfl fun k _ => by ring

lemma edist_rotate {h : ℕ} (Z : Fin n → Fin h → ℝ) (Q : Matrix (Fin h) (Fin h) ℝ) (hQ : Q * Q.transpose = 1) : edist (matX Z Q) = edist Z := by
  rw [edist_rowDist, edist_rowDist]
  funext i k
  refine rowDist_orth (fun j l => Q j l) ?_ (Z i) (Z k)
  intro j k
  have := congrFun (congrFun hQ j) k
  rw [Matrix.mul_apply] at this
  simp only [Matrix.transpose_apply] at this
  rw [this, Matrix.one_apply]

lemma edist_shift {h : ℕ} (X : Fin n → Fin p → ℝ) (m : Fin p → ℝ) (B : Matrix (Fin p) (Fin h) ℝ) :
    edist (matX (fun c k => X c k - m k) B) = edist (matX X B) := by
  rw [edist_rowDist, edist_rowDist]
  funext i k
  have e : ∀ i, matX (fun c k => X c k - m k) B i = fun j => matX X B i j + (-∑ k, m k * B k j) := by
    intro i
    funext j
    simp only [matX]
    rw [← sub_eq_add_neg, ← Finset.sum_sub_distrib]
    exact Finset.sum_congr rfl fun k _ => by ring
  rw [e i, e k]
  exact rowDist_shift _ _ _

/-! ### C101: values and invariance -/

/-- C101 (partial: no bias correction): the objective of dcov-sdr for a matrix of loadings is minus ten times the distance covariance of the projected data and the response. -/
theorem C101_dcov_value_partial (hn : 0 < n) (X : Fin n → Fin p → ℝ) (y : Fin n → ℝ) {h : ℕ} (hh : 0 < h) (B : Matrix (Fin p) (Fin h) ℝ) :
    dcovTrim .mean false X y h 0 (vecF B) = .ok (-10 * √(dcov2 (fun c j => ∑ k, X c k * B k j) (fun i (_ : Fin 1) => y i))) := by
  unfold dcovTrim
  rw [C66_round_trip hh]
  dsimp only
  rw [dm_false, dm_false]
  dsimp only
  rw [dmoment_false hn]
  rfl

/-- C101 (partial: no bias correction): the objective of mdd-sdr is minus ten times the martingale difference divergence of the response given the projected data. -/
theorem C101_mdd_value_partial (hn : 0 < n) (X : Fin n → Fin p → ℝ) (y : Fin n → ℝ) {h : ℕ} (hh : 0 < h) (B : Matrix (Fin p) (Fin h) ℝ) :
    mddTrim .mean false X y h 0 (vecF B) = .ok (-10 * √(mdd2 (fun c j => ∑ k, X c k * B k j) y)) := by
  unfold mddTrim
  rw [C66_round_trip hh]
  dsimp only
  rw [differenceDivergence_eq hn]
  dsimp only
  have h0 := mdd2_nonneg hn (matX X B) y
  unfold sqrtE
  rw [if_neg (not_lt.mpr h0)]
  rfl

/-- C101: the objective of dcov-sdr depends on the loadings only up to a rotation, with any centring, trimming and response. -/
theorem C101_dcov_rotation (c : Loc) (b : Bool) (t : ℝ) (X : Fin n → Fin p → ℝ) (y : Fin n → ℝ) {h : ℕ} (hh : 0 < h) (B : Matrix (Fin p) (Fin h) ℝ)
    (Q : Matrix (Fin h) (Fin h) ℝ) (hQ : Q * Q.transpose = 1) : dcovTrim c b X y h t (vecF (B * Q)) = dcovTrim c b X y h t (vecF B) := by
  unfold dcovTrim
  rw [C66_round_trip hh, C66_round_trip hh]
  dsimp only
  unfold distMatCentered
  rw [matX_mul, edist_rotate _ Q hQ]

/-- C101: so does the objective of mdd-sdr. -/
theorem C101_mdd_rotation (c : Loc) (b : Bool) (t : ℝ) (X : Fin n → Fin p → ℝ) (y : Fin n → ℝ) {h : ℕ} (hh : 0 < h) (B : Matrix (Fin p) (Fin h) ℝ)
    (Q : Matrix (Fin h) (Fin h) ℝ) (hQ : Q * Q.transpose = 1) : mddTrim c b X y h t (vecF (B * Q)) = mddTrim c b X y h t (vecF B) := by
  unfold mddTrim
  rw [C66_round_trip hh, C66_round_trip hh]
  dsimp only
  unfold differenceDivergence distMatCentered
  rw [matX_mul, edist_rotate _ Q hQ]

/-- C101: neither objective depends on the location of the predictors. -/
theorem C101_shift (c : Loc) (b : Bool) (t : ℝ) (X : Fin n → Fin p → ℝ) (y : Fin n → ℝ) {h : ℕ} (m : Fin p → ℝ) (beta : List ℝ) :
    dcovTrim c b (fun i k => X i k - m k) y h t beta = dcovTrim c b X y h t beta ∧
      mddTrim c b (fun i k => X i k - m k) y h t beta = mddTrim c b X y h t beta := by
  constructor
  · unfold dcovTrim
    cases reshapeF p h beta with
    | error e => rfl
    | ok B =>
      dsimp only
      unfold distMatCentered
      rw [edist_shift]
  · unfold mddTrim
    cases reshapeF p h beta with
    | error e => rfl
    | ok B =>
      dsimp only
      unfold differenceDivergence distMatCentered
      rw [edist_shift]

/-- C101: rotations keep the constraints. -/
theorem C101_feasible (pr : SdParams) (q : SdPre n p) (B : Matrix (Fin p) (Fin pr.nComp) ℝ) (hh : 0 < pr.nComp) (Q : Matrix (Fin pr.nComp) (Fin pr.nComp) ℝ)
    (hQ : Q * Q.transpose = 1) (hB : ∀ c ∈ sdCons pr q, c.eval (vecF B) = .ok 0) : ∀ c ∈ sdCons pr q, c.eval (vecF (B * Q)) = .ok 0 := by
  rw [C66_constraints pr q _ hh] at hB ⊢
  unfold OrthonormalIn at hB ⊢
  generalize (if pr.scaleData then 1 else covMat q.Xs) = V at hB ⊢
  rw [Matrix.transpose_mul]
  have hQ' : Q.transpose * Q = 1 := mul_eq_one_comm.mp hQ
  calc Q.transpose * B.transpose * V * (B * Q) = Q.transpose * (B.transpose * V * B) * Q := by simp only [Matrix.mul_assoc]
    _ = 1 := by rw [hB, Matrix.mul_one, hQ']

/-- A quarter turn is a rotation. -/
example : (!![0, 1; -1, 0] : Matrix (Fin 2) (Fin 2) ℝ) * (!![0, 1; -1, 0] : Matrix (Fin 2) (Fin 2) ℝ).transpose = 1 := by
  ext i j
  fin_cases i <;> fin_cases j <;> simp [Matrix.mul_apply, Fin.sum_univ_two]

/-- Four cases in two pairs. -/
def pairsX : Fin 4 → Fin 1 → ℝ := ![![0], ![0], ![1], ![1]]

/-- Their response. -/
def pairsY : Fin 4 → ℝ := ![0, 0, 1, 1]

lemma pairs_dist : (fun i j => rowDist (pairsX i) (pairsX j)) = ![![0, 0, 1, 1], ![0, 0, 1, 1], ![1, 1, 0, 0], ![1, 1, 0, 0]] := by
  funext i j
  unfold rowDist
  fin_cases i <;> fin_cases j <;> simp [pairsX]

lemma pairsY_dist : (fun i j => rowDist (fun _ : Fin 1 => pairsY i) (fun _ : Fin 1 => pairsY j)) =
    ![![0, 0, 1, 1], ![0, 0, 1, 1], ![1, 1, 0, 0], ![1, 1, 0, 0]] := by
  funext i j
  unfold rowDist
  fin_cases i <;> fin_cases j <;> simp [pairsY]

/-- C101 is violated by dcov-sdr with `biascorr=True`: the value is not the bias corrected distance covariance, because the option is not used. -/
theorem C101_biascorr_violated : ∃ (X : Fin 4 → Fin 1 → ℝ) (y : Fin 4 → ℝ) (B : Matrix (Fin 1) (Fin 1) ℝ),
    dcovTrim .mean true X y 1 0 (vecF B) = dcovTrim .mean false X y 1 0 (vecF B) ∧
    dcovTrim .mean true X y 1 0 (vecF B) ≠ .ok (-10 * √(udcov2 (fun c j => ∑ k, X c k * B k j) (fun i (_ : Fin 1) => y i))) := by
  refine ⟨pairsX, pairsY, 1, rfl, ?_⟩
  have h := C101_dcov_value_partial (n := 4) (by norm_num) pairsX pairsY (h := 1) (by norm_num) 1
  have e : (fun (c : Fin 4) (j : Fin 1) => ∑ k, pairsX c k * (1 : Matrix (Fin 1) (Fin 1) ℝ) k j) = pairsX := by
    funext c j
    simp [Matrix.one_apply, Subsingleton.elim j 0]
  have h' : dcovTrim .mean true pairsX pairsY 1 0 (vecF (1 : Matrix (Fin 1) (Fin 1) ℝ)) =
      dcovTrim .mean false pairsX pairsY 1 0 (vecF (1 : Matrix (Fin 1) (Fin 1) ℝ)) := rfl
  rw [h', h, e]
  have h1 : dcov2 pairsX (fun i (_ : Fin 1) => pairsY i) = 1 / 4 := by
    unfold dcov2
    rw [pairs_dist, pairsY_dist]
    simp [dcen, Fin.sum_univ_four]
    norm_num
  have h2 : udcov2 pairsX (fun i (_ : Fin 1) => pairsY i) = 2 / 3 := by
    unfold udcov2
    rw [pairs_dist, pairsY_dist]
    simp [ucen, Fin.sum_univ_four]
    norm_num
  rw [h1, h2]
  intro hc
  have hc' := Except.ok.inj hc
  have h3 : √(1 / 4 : ℝ) = √(2 / 3) := by linarith
  have h4 := (Real.sqrt_inj (by norm_num) (by norm_num)).mp h3
  norm_num at h4

lemma innerProdU {n : ℕ} (hn : 0 < n) (X Y : Fin n → Fin n → ℝ) :
    innerProd true 0 X Y = .ok ((∑ i, ∑ j, X i j * Y i j) / ((n : ℝ) * ((n : ℝ) - 3))) := by
  unfold innerProd
  simp only [zero_mul, Nat.floor_zero, List.drop_zero, tsub_zero]
  have hl : (sortL (flat fun i j => X i j * Y i j)).length = n ^ 2 := by
    rw [(sortL_perm _).length_eq, flat_length]
  rw [List.take_of_length_le (by rw [hl]), hl, if_neg (by positivity), (sortL_perm _).sum_eq, flat_sum]
  simp only [if_true]
  congr 1
  push_cast
  rw [Real.sqrt_sq (Nat.cast_nonneg n)]
  ring

lemma differenceDivergence_biascorr (hn : 0 < n) {h : ℕ} (z : Fin n → Fin h → ℝ) (y : Fin n → ℝ) :
    differenceDivergence .mean 0 true z y = .ok (umdd2 z y) := by
  have e : (fun i k => 1 / 2 * edist (fun i (_ : Fin 1) => y i) i k ^ 2) = fun i j => (y i - y j) ^ 2 / 2 := by
    funext i k
    unfold edist
    rw [Real.sq_sqrt (Finset.sum_nonneg fun _ _ => sq_nonneg _)]
    simp
    ring
  unfold differenceDivergence distMatCentered
  rw [doubleCenter_true hn]
  simp only [bind, Except.bind, e]
  rw [doubleCenter_true hn]
  dsimp only
  rw [innerProdU hn]
  rfl

/-- C101 (partial: the bias corrected divergence is not negative): the objective of mdd-sdr with `biascorr=True` is minus ten times the root of the bias
corrected martingale difference divergence. -/
theorem C101_mdd_biascorr_partial (hn : 4 ≤ n) (X : Fin n → Fin p → ℝ) (y : Fin n → ℝ) {h : ℕ} (hh : 0 < h) (B : Matrix (Fin p) (Fin h) ℝ)
    (hd : 0 ≤ umdd2 (fun c j => ∑ k, X c k * B k j) y) :
    mddTrim .mean true X y h 0 (vecF B) = .ok (-10 * √(umdd2 (fun c j => ∑ k, X c k * B k j) y)) := by
  unfold mddTrim
  rw [C66_round_trip hh]
  dsimp only
  rw [differenceDivergence_biascorr (by omega)]
  dsimp only
  have hd' : ¬ umdd2 (matX X B) y < 0 := not_lt.mpr hd
  unfold sqrtE
  rw [if_neg hd']
  rfl

/-- The divergence of a response from itself is positive in this case. -/
example : 0 ≤ umdd2 (fun c j => ∑ k, pairsX c k * (1 : Matrix (Fin 1) (Fin 1) ℝ) k j) pairsY := by
  have e : (fun (c : Fin 4) (j : Fin 1) => ∑ k, pairsX c k * (1 : Matrix (Fin 1) (Fin 1) ℝ) k j) = pairsX := by
    funext c j
    simp [Matrix.one_apply, Subsingleton.elim j 0]
  rw [e]
  unfold umdd2
  rw [pairs_dist]
  simp [ucen, Fin.sum_univ_four, pairsY]
  norm_num

/-- C101 is violated by mdd-sdr with `biascorr=True`: there are data for which the objective is not a number. -/
theorem C101_mdd_biascorr_violated : ∃ (X : Fin 4 → Fin 1 → ℝ) (y : Fin 4 → ℝ) (B : Matrix (Fin 1) (Fin 1) ℝ) (e : Err),
    mddTrim .mean true X y 1 0 (vecF B) = .error e := by
  refine ⟨pairsX, ![0, 1, 0, 1], 1, .other, ?_⟩
  have e : matX pairsX (1 : Matrix (Fin 1) (Fin 1) ℝ) = pairsX := by
    funext c j
    simp [matX, Matrix.one_apply, Subsingleton.elim j 0]
  unfold mddTrim
  rw [C66_round_trip (by norm_num)]
  dsimp only
  rw [differenceDivergence_biascorr (by norm_num), e]
  dsimp only
  have h2 : umdd2 pairsX ![0, 1, 0, 1] < 0 := by
    unfold umdd2
    rw [pairs_dist]
    simp [ucen, Fin.sum_univ_four]
    norm_num
  unfold sqrtE
  rw [if_pos h2]

/-! ### C102: optimality -/

/-- Data after centring, and scaling if asked for. -/
lemma sdPre_shape {ext : SdExt} (hr : IsRootInv ext.rootInv) {pr : SdParams} (hw : pr.whiten = false) (hc : pr.center = .mean ∨ pr.scaleData = false)
    {X : Fin n → Fin p → ℝ} {q : SdPre n p} (h : sdPre ext pr X = .ok q) :
    0 < n ∧ q.N2.transpose = q.N2 ∧ q.N2 * covMat X * q.N2 = 1 ∧ ∃ m : Fin p → ℝ,
      q.Xs = if pr.scaleData then matX (fun c k => X c k - m k) q.N2 else fun c k => X c k - m k := by
  obtain ⟨N2, hN, hn, -, -, rfl⟩ := sdPre_ok h
  obtain ⟨h1, h2⟩ := hr _ _ (covMat_symm X) hN
  refine ⟨by omega, ?_⟩
  unfold sdWhitenStep sdScaleStep sdCentreStep
  rw [hw]
  simp only [Bool.false_eq_true, if_false]
  rcases hc with hc | hc
  · rw [hc]
    by_cases hs : pr.scaleData <;> by_cases hcd : pr.centerData <;> simp only [hs, hcd, if_true, if_false, Bool.false_eq_true]
    · exact ⟨h1, h2, _, rfl⟩
    · exact ⟨h1, h2, 0, by simp⟩
    · exact ⟨h1, h2, _, rfl⟩
    · exact ⟨h1, h2, 0, by simp⟩
  · rw [hc]
    by_cases hcd : pr.centerData <;> simp only [hcd, if_true, if_false, Bool.false_eq_true]
    · cases pr.center <;> exact ⟨h1, h2, _, rfl⟩
    · exact ⟨h1, h2, 0, by simp⟩

lemma edist_mapBack {ext : SdExt} (hr : IsRootInv ext.rootInv) {pr : SdParams} (hw : pr.whiten = false) (hc : pr.center = .mean ∨ pr.scaleData = false)
    {X : Fin n → Fin p → ℝ} {q : SdPre n p} (h : sdPre ext pr X = .ok q) {d : ℕ} (B : Matrix (Fin p) (Fin d) ℝ) :
    edist (matX q.Xs B) = edist (matX X (sdMapBack pr.scaleData q.N2 B)) := by
  obtain ⟨-, -, -, m, hm⟩ := sdPre_shape hr hw hc h
  rw [hm]
  by_cases hs : pr.scaleData
  · simp only [hs, if_true, sdMapBack]
    rw [← matX_mul, edist_shift]
  · simp only [hs, sdMapBack, Bool.false_eq_true, if_false]
    rw [edist_shift]

/-- What the constraints ask for is that the loadings, mapped back, are orthonormal in the metric of the covariance of the data. -/
lemma cons_mapBack {ext : SdExt} (hr : IsRootInv ext.rootInv) {pr : SdParams} (hw : pr.whiten = false) (hc : pr.center = .mean ∨ pr.scaleData = false) (hh : 0 < pr.nComp)
    {X : Fin n → Fin p → ℝ} {q : SdPre n p} (h : sdPre ext pr X = .ok q) (B : Matrix (Fin p) (Fin pr.nComp) ℝ) :
    (∀ c ∈ sdCons pr q, c.eval (vecF B) = .ok 0) ↔ OrthonormalIn (covMat X) (sdMapBack pr.scaleData q.N2 B) := by
  obtain ⟨hn, h1, h2, m, hm⟩ := sdPre_shape hr hw hc h
  rw [C66_constraints pr q _ hh]
  by_cases hs : pr.scaleData
  · simp only [hs, if_true, sdMapBack]
    unfold OrthonormalIn
    rw [Matrix.transpose_mul, h1, Matrix.mul_one]
    have : B.transpose * q.N2 * covMat X * (q.N2 * B) = B.transpose * B := by
      calc B.transpose * q.N2 * covMat X * (q.N2 * B) = B.transpose * (q.N2 * covMat X * q.N2) * B := by simp only [Matrix.mul_assoc]
        _ = B.transpose * B := by rw [h2, Matrix.mul_one]
    rw [this]
  · simp only [hs, Bool.false_eq_true, if_false, sdMapBack] at hm ⊢
    have e : covMat q.Xs = covMat X := by
      have := covMat_affine hn X m (1 : Matrix (Fin p) (Fin p) ℝ)
      rw [Matrix.transpose_one, Matrix.one_mul, Matrix.mul_one] at this
      rw [← this, hm]
      congr 1
      funext c j
      simp [matX, Matrix.one_apply]
    rw [e]

/-- Every matrix of loadings is the image of one in the scaled coordinates. -/
lemma mapBack_surj {ext : SdExt} (hr : IsRootInv ext.rootInv) {pr : SdParams} (hw : pr.whiten = false) (hc : pr.center = .mean ∨ pr.scaleData = false)
    {X : Fin n → Fin p → ℝ} {q : SdPre n p} (h : sdPre ext pr X = .ok q) {d : ℕ} (P : Matrix (Fin p) (Fin d) ℝ) :
    ∃ B, sdMapBack pr.scaleData q.N2 B = P := by
  obtain ⟨hn, h1, h2, m, hm⟩ := sdPre_shape hr hw hc h
  by_cases hs : pr.scaleData
  · refine ⟨covMat X * q.N2 * P, ?_⟩
    simp only [hs, sdMapBack, if_true]
    rw [← Matrix.mul_assoc, ← Matrix.mul_assoc, h2, Matrix.one_mul]
  · exact ⟨P, by simp [hs, sdMapBack]⟩

lemma opt_max {ext : SdExt} (hr : IsRootInv ext.rootInv) {pr : SdParams} (hw : pr.whiten = false) (hc : pr.center = .mean ∨ pr.scaleData = false) (hh : 0 < pr.nComp)
    {X : Fin n → Fin p → ℝ} {q : SdPre n p} (h : sdPre ext pr X = .ok q) (crit : (Fin n → Fin pr.nComp → ℝ) → ℝ)
    (hcong : ∀ z z', edist z = edist z' → crit z = crit z') (hnn : ∀ z, 0 ≤ crit z) (obj : List ℝ → Except Err ℝ)
    (hobj : ∀ B : Matrix (Fin p) (Fin pr.nComp) ℝ, obj (vecF B) = .ok (-10 * √(crit (matX q.Xs B)))) (x : List ℝ)
    (hx : IsMinimiser obj (sdCons pr q) SdCons.eval x) (B : Matrix (Fin p) (Fin pr.nComp) ℝ) (hB : reshapeF p pr.nComp x = .ok B) :
    MaximisesOver (covMat X) X crit (sdMapBack pr.scaleData q.N2 B) := by
  have hv := C66_round_trip_vec x B hB
  subst hv
  obtain ⟨hfeas, v, hv, hmin⟩ := hx
  refine ⟨(cons_mapBack hr hw hc hh h B).mp hfeas, ?_⟩
  intro P' hP'
  obtain ⟨B', rfl⟩ := mapBack_surj hr hw hc h P'
  have h1 := hmin _ _ ((cons_mapBack hr hw hc hh h B').mpr hP') (hobj B')
  rw [hobj B] at hv
  cases hv
  have h2 : √(crit (matX q.Xs B')) ≤ √(crit (matX q.Xs B)) := by linarith
  have h3 := (Real.sqrt_le_sqrt_iff (hnn _)).mp h2
  rw [hcong _ _ (edist_mapBack hr hw hc h B'), hcong _ _ (edist_mapBack hr hw hc h B)] at h3
  exact h3

lemma sdRun_ok {ext : SdExt} {pr : SdParams} {q : SdPre n p} {o : SdObjective} {start : List ℝ} {args : SdArgs} {cons : List SdCons}
    {P : Matrix (Fin p) (Fin pr.nComp) ℝ} (h : sdRun ext pr q o start args cons = .ok P) :
    ∃ x B, ext.solve o start args cons = .ok x ∧ reshapeF p pr.nComp x = .ok B ∧ P = sdMapBack pr.scaleData q.N2 B := by
  rw [sdRun] at h
  cases hs : ext.solve o start args cons with
  | error e => rw [hs] at h; exact absurd h (by simp)
  | ok x =>
    rw [hs] at h
    dsimp only at h
    cases hr : reshapeF p pr.nComp x with
    | error e => rw [hr] at h; exact absurd h (by simp)
    | ok B =>
      rw [hr] at h
      exact ⟨x, B, rfl, hr, (Except.ok.inj h).symm⟩

/-- The run whose result a new object keeps. -/
lemma sdOptimise_new {ext : SdExt} {pr : SdParams} {st st' : SdState} (hcons : st.cons = none) (hargs : st.args = none) {q : SdPre n p} {y : Fin n → ℝ}
    {second : Option SdObjective} {L : SdLoad p} (h : sdOptimise ext pr st q y second = .ok (L, st')) :
    ∃ start P, L = ⟨pr.nComp, P⟩ ∧ sdRun ext pr q (second.getD .dcov) start (sdArgs pr q y) (sdCons pr q) = .ok P := by
  rw [sdOptimise] at h
  split at h
  · exact absurd h (by simp)
  · rename_i start hst
    dsimp only at h
    rw [hcons, hargs] at h
    simp only [Option.getD_none] at h
    cases hrun : sdRun ext pr q .dcov start (sdArgs pr q y) (sdCons pr q) with
    | error e => rw [hrun] at h; exact absurd h (by simp)
    | ok B =>
      rw [hrun] at h
      dsimp only at h
      cases second with
      | none =>
        simp only [Except.ok.injEq, Prod.mk.injEq] at h
        exact ⟨start, B, h.1.symm, hrun⟩
      | some o =>
        dsimp only at h
        cases hrun2 : sdRun ext pr q o (vecF B) (sdArgs pr q y) (sdCons pr q) with
        | error e => rw [hrun2] at h; exact absurd h (by simp)
        | ok B2 =>
          rw [hrun2] at h
          simp only [Except.ok.injEq, Prod.mk.injEq] at h
          exact ⟨vecF B, B2, h.1.symm, hrun2⟩

lemma dcov2_edist {h q : ℕ} (z z' : Fin n → Fin h → ℝ) (y : Fin n → Fin q → ℝ) (e : edist z = edist z') : dcov2 z y = dcov2 z' y :=
  dcov2_congr _ _ _ _ (fun i j => congrFun (congrFun e i) j) (fun _ _ => rfl)

lemma mdd2_edist {h : ℕ} (z z' : Fin n → Fin h → ℝ) (y : Fin n → ℝ) (e : edist z = edist z') : mdd2 z y = mdd2 z' y := by
  have e' : ∀ i j, rowDist (z i) (z j) = rowDist (z' i) (z' j) := fun i j => congrFun (congrFun e i) j
  unfold mdd2
  simp only [e']

/-- C102: when the solver finds a global minimiser under the constraints, the loadings of dcov-sdr maximise the distance covariance between the scores and the
response among all directions that give uncorrelated scores of unit variance, whether the data are centred
and scaled or not (centred with the mean if they are scaled). -/
theorem C102_dcov_optimal {ext : SdExt} (hr : IsRootInv ext.rootInv) {pr : SdParams} (hm : pr.meth = .dcov) (hh : 0 < pr.nComp) (hw : pr.whiten = false)
    (hc : pr.center = .mean ∨ pr.scaleData = false) (ht : pr.trimming = 0)
    (hopt : ∀ start args cons x, ext.solve .dcov start args cons = .ok x → IsMinimiser (dcovObjective .mean false args) cons SdCons.eval x)
    {X : Fin n → Fin p → ℝ} {y : Fin n → ℝ} {o : SdObj} {f : SdFit n p} (h : (SdObj.new pr).fit ext X y = .ok (o, f)) :
    MaximisesOver (covMat X) X (fun T => dcov2 T (fun i (_ : Fin 1) => y i)) f.P := by
  obtain ⟨q, L, st', pm, T, hq, hd, -, -, -, rfl⟩ := SdObj.fit_ok h
  have hwp : pr.whitened = pr := by unfold SdParams.whitened; simp [hw]
  have hwp' : (SdObj.new pr).params.whitened = pr := hwp
  rw [hwp'] at hq hd
  unfold sdDirections at hd
  rw [hm] at hd
  dsimp only at hd
  obtain ⟨start, P, rfl, hrun⟩ := sdOptimise_new (by unfold SdState.setX0; split <;> rfl) (by unfold SdState.setX0; split <;> rfl) hd
  obtain ⟨x, B, hx, hB, rfl⟩ := sdRun_ok hrun
  obtain ⟨hn, -⟩ := sdPre_shape hr hw hc hq
  refine opt_max hr hw hc hh hq _ (fun z z' e => dcov2_edist z z' _ e) (fun z => dcov2_nonneg hn _ _) _ ?_ x (hopt _ _ _ _ hx) B hB
  intro B
  have := C101_dcov_value_partial hn q.Xs y hh B
  unfold dcovObjective sdArgs
  dsimp only
  rw [ht]
  exact this

/-- C102: the same for mdd-sdr and the martingale difference divergence. -/
theorem C102_mdd_optimal {ext : SdExt} (hr : IsRootInv ext.rootInv) {pr : SdParams} (hm : pr.meth = .opt .mdd) (hh : 0 < pr.nComp) (hw : pr.whiten = false)
    (hc : pr.center = .mean ∨ pr.scaleData = false) (ht : pr.trimming = 0)
    (hopt : ∀ start args cons x, ext.solve .mdd start args cons = .ok x → IsMinimiser (mddObjective .mean false args) cons SdCons.eval x)
    {X : Fin n → Fin p → ℝ} {y : Fin n → ℝ} {o : SdObj} {f : SdFit n p} (h : (SdObj.new pr).fit ext X y = .ok (o, f)) :
    MaximisesOver (covMat X) X (fun T => mdd2 T y) f.P := by
  obtain ⟨q, L, st', pm, T, hq, hd, -, -, -, rfl⟩ := SdObj.fit_ok h
  have hwp : pr.whitened = pr := by unfold SdParams.whitened; simp [hw]
  have hwp' : (SdObj.new pr).params.whitened = pr := hwp
  rw [hwp'] at hq hd
  unfold sdDirections at hd
  rw [hm] at hd
  dsimp only at hd
  obtain ⟨start, P, rfl, hrun⟩ := sdOptimise_new (by unfold SdState.setX0; split <;> rfl) (by unfold SdState.setX0; split <;> rfl) hd
  obtain ⟨x, B, hx, hB, rfl⟩ := sdRun_ok hrun
  obtain ⟨hn, -⟩ := sdPre_shape hr hw hc hq
  refine opt_max hr hw hc hh hq _ (fun z z' e => mdd2_edist z z' _ e) (fun z => mdd2_nonneg hn _ _) _ ?_ x (hopt _ _ _ _ hx) B hB
  intro B
  have := C101_mdd_value_partial hn q.Xs y hh B
  unfold mddObjective sdArgs
  dsimp only
  rw [ht]
  exact this

/-! ### A case with a solver that finds a global minimiser -/

/-- Two components. -/
def exParams2 (m : SdMeth) : SdParams := { exParams with meth := m, nComp := 2 }

/-- The objective of each run. -/
noncomputable def exObjective (o : SdObjective) (a : SdArgs) : List ℝ → Except Err ℝ :=
  match o with
  | .mdd => mddObjective .mean false a
  | _ => dcovObjective .mean false a

open Classical in
/-- A solver that gives a global minimiser when there is one and fails otherwise. -/
noncomputable def exExt2 (eigh : Eigh) : SdExt :=
  { exExt eigh with solve := fun o _ a cons =>
      if h : ∃ x, IsMinimiser (exObjective o a) cons SdCons.eval x then .ok h.choose else .error .other }

lemma exExt2_solve {eigh : Eigh} {o : SdObjective} {start : List ℝ} {a : SdArgs} {cons : List SdCons} {x : List ℝ}
    (h : (exExt2 eigh).solve o start a cons = .ok x) : IsMinimiser (exObjective o a) cons SdCons.eval x := by
  simp only [exExt2] at h
  split at h
  · rename_i hex
    cases h
    exact hex.choose_spec
  · exact absurd h (by simp)

/-- The preprocessed data of the example. -/
noncomputable def exPre : SdPre 6 2 := ⟨sixX 1, (1 / Real.sqrt (2 * 1 ^ 2 / 5)) • 1, fun _ => 0, fun _ => 1, false⟩

lemma ex_feasible (m : SdMeth) (B : Matrix (Fin 2) (Fin 2) ℝ) :
    (∀ c ∈ sdCons (exParams2 m) exPre, c.eval (vecF B) = .ok 0) ↔ B.transpose * B = (5 / 2 : ℝ) • 1 := by
  refine Iff.trans (C66_constraints (exParams2 m) exPre B (by simp [exParams2])) ?_
  have : (if (exParams2 m).scaleData then (1 : Matrix (Fin 2) (Fin 2) ℝ) else covMat exPre.Xs) = (2 / 5 : ℝ) • 1 := by
    simp only [exParams2, exParams, Bool.false_eq_true, if_false, exPre, sixX_cov]
    norm_num
  rw [this]
  change (B.transpose * ((2 / 5 : ℝ) • (1 : Matrix (Fin 2) (Fin 2) ℝ)) * B = 1) ↔ _
  rw [Matrix.mul_smul, Matrix.mul_one, Matrix.smul_mul]
  constructor
  · intro h
    have := congrArg (fun M => (5 / 2 : ℝ) • M) h
    simp only [smul_smul] at this
    norm_num at this
    exact this
  · intro h
    rw [h, smul_smul]
    norm_num

/-- All matrices that satisfy the constraints have the same value, so that each is a minimiser. -/
lemma ex_minimiser (m : SdMeth) (o : SdObjective) :
    ∃ x, IsMinimiser (exObjective o (sdArgs (exParams2 m) exPre sixY)) (sdCons (exParams2 m) exPre) SdCons.eval x := by
  have hs : √(5 / 2 : ℝ) * √(5 / 2 : ℝ) = 5 / 2 := Real.mul_self_sqrt (by norm_num)
  have hs0 : √(5 / 2 : ℝ) ≠ 0 := by positivity
  set B : Matrix (Fin 2) (Fin 2) ℝ := √(5 / 2 : ℝ) • 1 with hB
  have hval : ∃ v, exObjective o (sdArgs (exParams2 m) exPre sixY) (vecF B) = .ok v := by
    cases o
    case mdd => exact ⟨_, C101_mdd_value_partial (n := 6) (by norm_num) exPre.Xs sixY (h := 2) (by norm_num) B⟩
    all_goals exact ⟨_, C101_dcov_value_partial (n := 6) (by norm_num) exPre.Xs sixY (h := 2) (by norm_num) B⟩
  obtain ⟨v, hv⟩ := hval
  refine ⟨vecF B, (ex_feasible m B).mpr ?_, v, hv, ?_⟩
  · rw [hB, Matrix.transpose_smul, Matrix.transpose_one, Matrix.smul_mul, Matrix.mul_smul, Matrix.mul_one, smul_smul, hs]
  · intro x' v' hfeas hv'
    have hres : ∃ B' : Matrix (Fin 2) (Fin 2) ℝ, reshapeF 2 2 x' = .ok B' := by
      cases hr : reshapeF 2 2 x' with
      | ok B' => exact ⟨B', rfl⟩
      | error e =>
        exfalso
        have hc := hfeas ⟨false, ⟨6, 2, exPre.Xs⟩, 2, 0, 0⟩ (sdCons_mem.mpr ⟨0, by simp [exParams2], 0, by simp [exParams2], rfl⟩)
        unfold SdCons.eval constX at hc
        simp only [Bool.false_eq_true, if_false] at hc
        rw [hr] at hc
        exact absurd hc (by simp)
    obtain ⟨B', hB'⟩ := hres
    have hvec := C66_round_trip_vec x' B' hB'
    subst hvec
    have hBB := (ex_feasible m B').mp hfeas
    have hQ : ((√(5 / 2 : ℝ))⁻¹ • B').transpose * ((√(5 / 2 : ℝ))⁻¹ • B') = 1 := by
      rw [Matrix.transpose_smul, Matrix.smul_mul, Matrix.mul_smul, hBB, smul_smul, smul_smul]
      rw [← mul_inv, hs]
      norm_num
    have e : B' = B * ((√(5 / 2 : ℝ))⁻¹ • B') := by
      rw [hB, Matrix.smul_mul, Matrix.one_mul, smul_smul, mul_inv_cancel₀ hs0, one_smul]
    have hrot : exObjective o (sdArgs (exParams2 m) exPre sixY) (vecF B') = exObjective o (sdArgs (exParams2 m) exPre sixY) (vecF B) := by
      rw [e]
      cases o
      case mdd => exact C101_mdd_rotation (n := 6) .mean false _ exPre.Xs sixY (h := 2) (by norm_num) B _ (mul_eq_one_comm.mp hQ)
      all_goals exact C101_dcov_rotation (n := 6) .mean false _ exPre.Xs sixY (h := 2) (by norm_num) B _ (mul_eq_one_comm.mp hQ)
    rw [hrot, hv] at hv'
    cases hv'
    exact le_rfl

lemma ex_run {eigh : Eigh} (m : SdMeth) (o : SdObjective) (start : List ℝ) :
    ∃ P : Matrix (Fin 2) (Fin 2) ℝ, sdRun (exExt2 eigh) (exParams2 m) exPre o start (sdArgs (exParams2 m) exPre sixY) (sdCons (exParams2 m) exPre) = .ok P ∧
      P.transpose * P = (5 / 2 : ℝ) • 1 := by
  have hex := ex_minimiser m o
  obtain ⟨x, hx⟩ : ∃ x, (exExt2 eigh).solve o start (sdArgs (exParams2 m) exPre sixY) (sdCons (exParams2 m) exPre) = .ok x := by
    simp only [exExt2]
    rw [dif_pos hex]
    exact ⟨_, rfl⟩
  obtain ⟨hfeas, v, hv, -⟩ := exExt2_solve hx
  have hres : ∃ B' : Matrix (Fin 2) (Fin 2) ℝ, reshapeF 2 2 x = .ok B' := by
    cases hr : reshapeF 2 2 x with
    | ok B' => exact ⟨B', rfl⟩
    | error e =>
      exfalso
      have hc := hfeas ⟨false, ⟨6, 2, exPre.Xs⟩, 2, 0, 0⟩ (sdCons_mem.mpr ⟨0, by simp [exParams2], 0, by simp [exParams2], rfl⟩)
      unfold SdCons.eval constX at hc
      simp only [Bool.false_eq_true, if_false] at hc
      rw [hr] at hc
      exact absurd hc (by simp)
  obtain ⟨B, hB⟩ := hres
  have hvec := C66_round_trip_vec x B hB
  refine ⟨B, ?_, (ex_feasible m B).mp (by rw [hvec]; exact hfeas)⟩
  rw [sdRun, hx]
  dsimp only
  have hB' : reshapeF 2 (exParams2 m).nComp x = .ok B := hB
  rw [hB']
  rfl

/-- The fit of the example succeeds with both methods. -/
lemma ex_fit2 {eigh : Eigh} (he : IsEigh eigh) (m : SdMeth) (hm : m = .dcov ∨ m = .opt .mdd) :
    ∃ o f, (SdObj.new (exParams2 m)).fit (exExt2 eigh) (sixX 1) sixY = .ok (o, f) := by
  have hw : (exParams2 m).whitened = exParams2 m := rfl
  have hq : sdPre (exExt2 eigh) (exParams2 m) (sixX 1) = .ok exPre := by
    rw [sdPre, if_neg (by simp [exParams2]), if_neg (by norm_num)]
    have : (exExt2 eigh).rootInv (covMat (sixX 1)) = .ok ((1 / Real.sqrt (2 * 1 ^ 2 / 5)) • 1) := by
      rw [sixX_cov]
      exact invSqrt_const he (by norm_num)
    rw [this]
    dsimp only
    rw [if_neg]
    · simp [sdWhitenStep, sdScaleStep, sdCentreStep, exParams2, exParams, exPre]
    · rw [not_not]
      refine ⟨le_rfl, ?_, Or.inl rfl⟩
      simp only [exParams2, exParams]
      norm_num
  have hstart : ∃ l, sdStart (exExt2 eigh) (exParams2 m) exPre sixY = .ok l := by
    have hst : ∀ k s, s ≤ 6 → 0 < s → ∃ B, sdStartMat (exExt2 eigh) (exParams2 m) k s exPre sixY = .ok B := by
      intro k s hs hs0
      obtain ⟨B, hB⟩ := six_slice he k (a := 1) one_ne_zero hs hs0 2 false
      rw [sdStartMat]
      have hB' : sliceMethod k (exExt2 eigh).eigh exPre.Xs sixY s (exParams2 m).nComp false (exParams2 m).scaleData true = .ok B := hB
      rw [hB']
      exact ⟨_, rfl⟩
    obtain ⟨b1, h1⟩ := hst .save 3 (by norm_num) (by norm_num)
    obtain ⟨b2, h2⟩ := hst .sir 6 (by norm_num) (by norm_num)
    obtain ⟨b3, h3⟩ := hst .dr 6 (by norm_num) (by norm_num)
    rw [sdStart, h1, h2, h3]
    exact ⟨_, rfl⟩
  obtain ⟨start, hstart⟩ := hstart
  obtain ⟨P1, hP1, hPP1⟩ := ex_run (eigh := eigh) m .dcov start
  obtain ⟨P2, hP2, hPP2⟩ := ex_run (eigh := eigh) m .mdd (vecF P1)
  have hdir : ∃ (P : Matrix (Fin 2) (Fin 2) ℝ) (st : SdState), P.transpose * P = (5 / 2 : ℝ) • 1 ∧ st.x0 = some ⟨6, 2, sixX 1⟩ ∧
      sdDirections (exExt2 eigh) (exParams2 m) (SdState.init.setX0 (exParams2 m).copy (sixX 1)) exPre sixY = .ok (⟨2, P⟩, st) := by
    rcases hm with rfl | rfl
    · refine ⟨P1, ⟨some start, some (sdCons (exParams2 .dcov) exPre), some (sdArgs (exParams2 .dcov) exPre sixY), some ⟨6, 2, sixX 1⟩⟩, hPP1, rfl, ?_⟩
      rw [sdDirections]
      change sdOptimise (exExt2 eigh) (exParams2 _) ⟨none, none, none, some ⟨6, 2, sixX 1⟩⟩ exPre sixY none = _
      unfold sdOptimise
      dsimp only [Option.getD_none]
      rw [hstart]
      dsimp only
      rw [hP1]
      rfl
    · refine ⟨P2, ⟨some (vecF P1), some (sdCons (exParams2 (.opt .mdd)) exPre), some (sdArgs (exParams2 (.opt .mdd)) exPre sixY), some ⟨6, 2, sixX 1⟩⟩, hPP2, rfl, ?_⟩
      rw [sdDirections]
      change sdOptimise (exExt2 eigh) (exParams2 _) ⟨none, none, none, some ⟨6, 2, sixX 1⟩⟩ exPre sixY (some .mdd) = _
      unfold sdOptimise
      dsimp only [Option.getD_none]
      rw [hstart]
      dsimp only
      rw [hP1]
      dsimp only
      have hP2' : sdRun (exExt2 eigh) (exParams2 (.opt .mdd)) exPre .mdd (@vecF 2 (exParams2 (.opt .mdd)).nComp P1)
        (sdArgs (exParams2 (.opt .mdd)) exPre sixY) (sdCons (exParams2 (.opt .mdd)) exPre) = .ok P2 := hP2
      rw [hP2']
      rfl
  obtain ⟨P, st, hPP, hx0, hdir⟩ := hdir
  have hpm : ∃ pm, projMat P = .ok pm := by
    unfold projMat
    rw [if_pos]
    · exact ⟨_, rfl⟩
    · rw [hPP, Matrix.det_smul]
      simp
  obtain ⟨pm, hpm⟩ := hpm
  rw [SdObj.fit]
  simp only [SdObj.new, hw]
  rw [hq]
  dsimp only
  rw [hdir]
  dsimp only
  rw [hpm]
  dsimp only
  rw [hx0, sdScores_self]
  dsimp only
  rw [if_neg (by simp [exParams2, exParams, PpCentre.isMean])]
  exact ⟨_, _, rfl⟩

/-- The hypotheses of `C102_dcov_optimal` can be met. -/
example : ∃ (ext : SdExt) (pr : SdParams) (o : SdObj) (f : SdFit 6 2), IsRootInv ext.rootInv ∧ pr.meth = .dcov ∧ 0 < pr.nComp ∧ pr.whiten = false ∧
    pr.center = .mean ∧ pr.trimming = 0 ∧
    (∀ start args cons x, ext.solve .dcov start args cons = .ok x → IsMinimiser (dcovObjective .mean false args) cons SdCons.eval x) ∧
    (SdObj.new pr).fit ext (sixX 1) sixY = .ok (o, f) := by
  obtain ⟨eigh, he⟩ := exists_eigh
  obtain ⟨o, f, h⟩ := ex_fit2 he .dcov (Or.inl rfl)
  refine ⟨exExt2 eigh, exParams2 .dcov, o, f, ?_, rfl, by simp [exParams2], rfl, rfl, rfl, ?_, h⟩
  · intro p A N hA hN
    exact invSqrt_spec he hA hN
  · intro start args cons x hx
    exact exExt2_solve hx

/-- The hypotheses of `C102_mdd_optimal` can be met. -/
example : ∃ (ext : SdExt) (pr : SdParams) (o : SdObj) (f : SdFit 6 2), IsRootInv ext.rootInv ∧ pr.meth = .opt .mdd ∧ 0 < pr.nComp ∧ pr.whiten = false ∧
    pr.center = .mean ∧ pr.trimming = 0 ∧
    (∀ start args cons x, ext.solve .mdd start args cons = .ok x → IsMinimiser (mddObjective .mean false args) cons SdCons.eval x) ∧
    (SdObj.new pr).fit ext (sixX 1) sixY = .ok (o, f) := by
  obtain ⟨eigh, he⟩ := exists_eigh
  obtain ⟨o, f, h⟩ := ex_fit2 he (.opt .mdd) (Or.inr rfl)
  refine ⟨exExt2 eigh, exParams2 (.opt .mdd), o, f, ?_, rfl, by simp [exParams2], rfl, rfl, rfl, ?_, h⟩
  · intro p A N hA hN
    exact invSqrt_spec he hA hN
  · intro start args cons x hx
    exact exExt2_solve hx

end Direpack
