import Verif.DicomoDistLemmas
import Verif.Props.Dicomo

/-!
Properties of the energy statistics and of the `dicomo` class.
-/

namespace Direpack

open scoped BigOperators
open Spec

/-! ### C33 -/

/-- C33: the doubly centred distance matrix of any data is computed without failure, is symmetric and all its rows and
columns sum to zero. -/
theorem C33_double_centred {n p : ℕ} (hn : 0 < n) (x : Fin n → Fin p → ℝ) :
    ∃ A n1, distMatCentered .mean 0 false x = .ok (A, n1) ∧ (∀ i, ∑ j, A i j = 0) ∧ (∀ j, ∑ i, A i j = 0) ∧
      ∀ i j, A i j = A j i := by
  refine ⟨_, _, dm_false x, dcen_row hn _, fun j => ?_, dcen_symm _ (edist_symm x)⟩
  rw [Finset.sum_congr rfl fun i _ => dcen_symm _ (edist_symm x) i j]
  exact dcen_row hn _ j

/-- C33: with bias correction and at least three cases the matrix is symmetric with zero diagonal and zero row and column
sums. -/
theorem C33_u_centred {n p : ℕ} (hn : 3 ≤ n) (x : Fin n → Fin p → ℝ) :
    ∃ A n1, distMatCentered .mean 0 true x = .ok (A, n1) ∧ (∀ i, A i i = 0) ∧ (∀ i, ∑ j, A i j = 0) ∧
      (∀ j, ∑ i, A i j = 0) ∧ ∀ i j, A i j = A j i := by
  have hr := ucen_row hn (edist x) (edist_symm x) (edist_self x)
  refine ⟨_, _, doubleCenter_true (by omega) (edist x), fun i => by simp [ucen], hr, fun j => ?_,
    ucen_symm _ (edist_symm x)⟩
  rw [Finset.sum_congr rfl fun i _ => ucen_symm _ (edist_symm x) i j]
  exact hr j

/-! ### C34 -/

/-- C34: distance variance and covariance (no trimming, no bias correction) exist for all data, are nonnegative, and are the
square roots of the textbook squared distance (co)variance; with either algorithm. -/
theorem C34_dcov_nonneg {n p q : ℕ} (hn : 0 < n) (a : FitArgs) (ht : a.trimming = 0) (hb : a.biascorr = false)
    (hy : a.fast = true ∨ a.y1d = false) (x : Fin n → Fin p → ℝ) (y : Fin n → Fin q → ℝ) :
    (∃ v, run .distance .var .mean a (dmat x) (dmat y) = .ok v ∧ 0 ≤ v ∧ v ^ 2 = dcov2 x x) ∧
    ∃ v, run .distance .cov .mean a (dmat x) (dmat y) = .ok v ∧ 0 ≤ v ∧ v ^ 2 = dcov2 x y :=
  ⟨⟨_, run_dvar hn a ht hb x y, Real.sqrt_nonneg _, Real.sq_sqrt (dcov2_nonneg hn x x)⟩,
    ⟨_, run_dcov hn a ht hb hy x y, Real.sqrt_nonneg _, Real.sq_sqrt (dcov2_nonneg hn x y)⟩⟩

/-- C34: distance correlation lies in [0,1]. -/
theorem C34_dcorr_range {n p q : ℕ} (hn : 0 < n) (a : FitArgs) (ht : a.trimming = 0) (hb : a.biascorr = false)
    (ho : a.order = 2) (hy : a.fast = true ∨ a.y1d = false) (x : Fin n → Fin p → ℝ) (y : Fin n → Fin q → ℝ) :
    ∃ v, run .distance .corr .mean a (dmat x) (dmat y) = .ok v ∧ 0 ≤ v ∧ v ≤ 1 := by
  refine ⟨_, run_dcorr hn a ht hb ho hy x y, by positivity, ?_⟩
  refine div_le_one_of_le₀ ?_ (by positivity)
  rw [← Real.sqrt_mul (Real.sqrt_nonneg _)]
  exact Real.sqrt_le_sqrt (dcov2_cauchy x y)

/-- C34: the distance correlation of nondegenerate data with itself is 1. -/
theorem C34_dcorr_self {n p : ℕ} (hn : 0 < n) (a : FitArgs) (ht : a.trimming = 0) (hb : a.biascorr = false)
    (ho : a.order = 2) (hy : a.fast = true ∨ a.y1d = false) (x : Fin n → Fin p → ℝ) (hx : dcov2 x x ≠ 0) :
    run .distance .corr .mean a (dmat x) (dmat x) = .ok 1 := by
  rw [run_dcorr hn a ht hb ho hy x x]
  congr 1
  rw [Real.mul_self_sqrt (Real.sqrt_nonneg _)]
  exact div_self (Real.sqrt_ne_zero'.mpr (lt_of_le_of_ne (dcov2_nonneg hn x x) hx.symm))

/-- Two cases at different positions are nondegenerate. -/
example : dcov2 (fun (i : Fin 2) (_ : Fin 1) => (i : ℝ)) (fun (i : Fin 2) (_ : Fin 1) => (i : ℝ)) ≠ 0 := by
  simp [dcov2, dcen, rowDist, Fin.sum_univ_two]
  norm_num

/-! ### C35 -/

lemma dcov2_congr {n p q p' q' : ℕ} (x : Fin n → Fin p → ℝ) (y : Fin n → Fin q → ℝ) (x' : Fin n → Fin p' → ℝ)
    (y' : Fin n → Fin q' → ℝ) (hx : ∀ i j, rowDist (x i) (x j) = rowDist (x' i) (x' j))
    (hy : ∀ i j, rowDist (y i) (y j) = rowDist (y' i) (y' j)) : dcov2 x y = dcov2 x' y' := by
  unfold dcov2
  simp only [hx, hy]

lemma rowDist_shift {p : ℕ} (u v b : Fin p → ℝ) : rowDist (fun j => u j + b j) (fun j => v j + b j) = rowDist u v := by
  unfold rowDist
  congr 1
  exact Finset.sum_congr rfl fun j _ => by ring

lemma rowDist_orth {p : ℕ} (Q : Fin p → Fin p → ℝ) (hQ : ∀ j k, ∑ l, Q j l * Q k l = if j = k then 1 else 0) (u v : Fin p → ℝ) :
    rowDist (fun l => ∑ j, u j * Q j l) (fun l => ∑ j, v j * Q j l) = rowDist u v := by
  unfold rowDist
  congr 1
  have e : ∀ l, (∑ j, u j * Q j l - ∑ j, v j * Q j l) ^ 2 =
      ∑ j, ∑ k, (u j - v j) * (u k - v k) * (Q j l * Q k l) := by
    intro l
    rw [← Finset.sum_sub_distrib, sq, Finset.sum_mul_sum]
    exact Finset.sum_congr rfl fun j _ => Finset.sum_congr rfl fun k _ => by ring
  simp only [e]
  rw [Finset.sum_comm]
  refine Finset.sum_congr rfl fun j _ => ?_
  rw [Finset.sum_comm]
  simp only [← Finset.mul_sum, hQ]
  simp [sq]

lemma rowDist_smul {p : ℕ} (r : ℝ) (u v : Fin p → ℝ) : rowDist (fun j => r * u j) (fun j => r * v j) = |r| * rowDist u v := by
  unfold rowDist
  rw [← Real.sqrt_sq_eq_abs, ← Real.sqrt_mul (sq_nonneg r), Finset.mul_sum]
  congr 1
  exact Finset.sum_congr rfl fun j _ => by ring

lemma dcen_smul {n : ℕ} (r : ℝ) (a : Fin n → Fin n → ℝ) (i j : Fin n) : dcen (fun i j => r * a i j) i j = r * dcen a i j := by
  unfold dcen
  simp only [← Finset.mul_sum]
  ring

lemma dcov2_smul {n p q : ℕ} (r s : ℝ) (x : Fin n → Fin p → ℝ) (y : Fin n → Fin q → ℝ) :
    dcov2 (fun i j => r * x i j) (fun i j => s * y i j) = |r| * |s| * dcov2 x y := by
  unfold dcov2
  simp only [rowDist_smul, dcen_smul]
  rw [← mul_div_assoc, Finset.mul_sum]
  congr 1
  refine Finset.sum_congr rfl fun i _ => ?_
  rw [Finset.mul_sum]
  exact Finset.sum_congr rfl fun j _ => by ring

lemma dcen_perm {n : ℕ} (σ : Equiv.Perm (Fin n)) (a : Fin n → Fin n → ℝ) (i j : Fin n) :
    dcen (fun i j => a (σ i) (σ j)) i j = dcen a (σ i) (σ j) := by
  unfold dcen
  rw [Equiv.sum_comp σ (fun k => a (σ i) k), Equiv.sum_comp σ (fun k => a k (σ j)),
    Equiv.sum_comp σ (fun k => ∑ l, a k (σ l)), Finset.sum_congr rfl fun k _ => Equiv.sum_comp σ (fun l => a k l)]

lemma dcov2_perm {n p q : ℕ} (σ : Equiv.Perm (Fin n)) (x : Fin n → Fin p → ℝ) (y : Fin n → Fin q → ℝ) :
    dcov2 (fun i => x (σ i)) (fun i => y (σ i)) = dcov2 x y := by
  unfold dcov2
  congr 1
  have ex := dcen_perm σ (fun i j => rowDist (x i) (x j))
  have ey := dcen_perm σ (fun i j => rowDist (y i) (y j))
  simp only [ex, ey]
  rw [Equiv.sum_comp σ (fun i => ∑ j, dcen (fun i j => rowDist (x i) (x j)) i (σ j) * dcen (fun i j => rowDist (y i) (y j)) i (σ j))]
  exact Finset.sum_congr rfl fun i _ =>
    Equiv.sum_comp σ (fun j => dcen (fun i j => rowDist (x i) (x j)) i j * dcen (fun i j => rowDist (y i) (y j)) i j)

/-- C35: distance covariance and correlation ignore a shift of each data set and multiplication by orthogonal matrices
(`∑ₗ Qⱼₗ Qₖₗ = δⱼₖ`). -/
theorem C35_rigid_motion {n p q : ℕ} (hn : 0 < n) (m : Mode) (hm : m = .var ∨ m = .cov ∨ m = .corr) (a : FitArgs)
    (ht : a.trimming = 0) (hb : a.biascorr = false) (ho : a.order = 2) (hy : a.fast = true ∨ a.y1d = false)
    (x : Fin n → Fin p → ℝ) (y : Fin n → Fin q → ℝ) (bx : Fin p → ℝ) (by' : Fin q → ℝ)
    (Q : Fin p → Fin p → ℝ) (hQ : ∀ j k, ∑ l, Q j l * Q k l = if j = k then 1 else 0)
    (S : Fin q → Fin q → ℝ) (hS : ∀ j k, ∑ l, S j l * S k l = if j = k then 1 else 0) :
    run .distance m .mean a (dmat fun i l => (∑ j, x i j * Q j l) + bx l) (dmat fun i l => (∑ j, y i j * S j l) + by' l) =
      run .distance m .mean a (dmat x) (dmat y) := by
  have hx : ∀ i j, rowDist (fun l => (∑ k, x i k * Q k l) + bx l) (fun l => (∑ k, x j k * Q k l) + bx l) =
      rowDist (x i) (x j) := fun i j => by rw [rowDist_shift, rowDist_orth Q hQ]
  have hy' : ∀ i j, rowDist (fun l => (∑ k, y i k * S k l) + by' l) (fun l => (∑ k, y j k * S k l) + by' l) =
      rowDist (y i) (y j) := fun i j => by rw [rowDist_shift, rowDist_orth S hS]
  have e1 := dcov2_congr _ _ x y hx hy'
  have e2 := dcov2_congr _ _ x x hx hx
  have e3 := dcov2_congr _ _ y y hy' hy'
  rcases hm with h | h | h <;> subst h
  · rw [run_dvar hn a ht hb, run_dvar hn a ht hb, e2]
  · rw [run_dcov hn a ht hb hy, run_dcov hn a ht hb hy, e1]
  · rw [run_dcorr hn a ht hb ho hy, run_dcorr hn a ht hb ho hy, e1, e2, e3]

/-- A quarter turn is an orthogonal matrix in the sense above. -/
example : ∀ j k : Fin 2, ∑ l, (![![0, 1], ![-1, 0]] : Fin 2 → Fin 2 → ℝ) j l * (![![0, 1], ![-1, 0]] : Fin 2 → Fin 2 → ℝ) k l =
    if j = k then 1 else 0 := by
  intro j k
  fin_cases j <;> fin_cases k <;> simp [Fin.sum_univ_two]

/-- C35: permuting the cases of both data sets together changes nothing. -/
theorem C35_permutation {n p q : ℕ} (hn : 0 < n) (m : Mode) (hm : m = .var ∨ m = .cov ∨ m = .corr) (a : FitArgs)
    (ht : a.trimming = 0) (hb : a.biascorr = false) (ho : a.order = 2) (hy : a.fast = true ∨ a.y1d = false)
    (x : Fin n → Fin p → ℝ) (y : Fin n → Fin q → ℝ) (σ : Equiv.Perm (Fin n)) :
    run .distance m .mean a (dmat fun i => x (σ i)) (dmat fun i => y (σ i)) =
      run .distance m .mean a (dmat x) (dmat y) := by
  have e1 := dcov2_perm σ x y
  have e2 := dcov2_perm σ x x
  have e3 := dcov2_perm σ y y
  rcases hm with h | h | h <;> subst h
  · rw [run_dvar hn a ht hb, run_dvar hn a ht hb, e2]
  · rw [run_dcov hn a ht hb hy, run_dcov hn a ht hb hy, e1]
  · rw [run_dcorr hn a ht hb ho hy, run_dcorr hn a ht hb ho hy, e1, e2, e3]

/-- C35: multiplying the data by `r` and `s` multiplies distance covariance by `√|r| √|s|` (so distance variance by `|r|`) and
leaves distance correlation alone if `r` and `s` are nonzero. -/
theorem C35_scale {n p q : ℕ} (hn : 0 < n) (a : FitArgs)
    (ht : a.trimming = 0) (hb : a.biascorr = false) (ho : a.order = 2) (hy : a.fast = true ∨ a.y1d = false)
    (x : Fin n → Fin p → ℝ) (y : Fin n → Fin q → ℝ) (r s : ℝ) :
    run .distance .cov .mean a (dmat fun i j => r * x i j) (dmat fun i j => s * y i j) =
      (run .distance .cov .mean a (dmat x) (dmat y)).map (fun v => √|r| * √|s| * v) ∧
    run .distance .var .mean a (dmat fun i j => r * x i j) (dmat fun i j => s * y i j) =
      (run .distance .var .mean a (dmat x) (dmat y)).map (fun v => |r| * v) ∧
    (r ≠ 0 → s ≠ 0 → run .distance .corr .mean a (dmat fun i j => r * x i j) (dmat fun i j => s * y i j) =
      run .distance .corr .mean a (dmat x) (dmat y)) := by
  have e1 := dcov2_smul r s x y
  have e2 := dcov2_smul r r x x
  have e3 := dcov2_smul s s y y
  have k1 : √(dcov2 (fun i j => r * x i j) (fun i j => s * y i j)) = √|r| * √|s| * √(dcov2 x y) := by
    rw [e1, Real.sqrt_mul (by positivity), Real.sqrt_mul (abs_nonneg _)]
  have k2 : √(dcov2 (fun i j => r * x i j) (fun i j => r * x i j)) = |r| * √(dcov2 x x) := by
    rw [e2, Real.sqrt_mul (by positivity), Real.sqrt_mul_self (abs_nonneg _)]
  have k3 : √(dcov2 (fun i j => s * y i j) (fun i j => s * y i j)) = |s| * √(dcov2 y y) := by
    rw [e3, Real.sqrt_mul (by positivity), Real.sqrt_mul_self (abs_nonneg _)]
  refine ⟨?_, ?_, fun hr hs => ?_⟩
  · rw [run_dcov hn a ht hb hy, run_dcov hn a ht hb hy, k1]; rfl
  · rw [run_dvar hn a ht hb, run_dvar hn a ht hb, k2]; rfl
  · rw [run_dcorr hn a ht hb ho hy, run_dcorr hn a ht hb ho hy, k1, k2, k3, Real.sqrt_mul (abs_nonneg r),
      Real.sqrt_mul (abs_nonneg s)]
    congr 1
    have hr' : 0 < √|r| := Real.sqrt_pos.mpr (abs_pos.mpr hr)
    have hs' : 0 < √|s| := Real.sqrt_pos.mpr (abs_pos.mpr hs)
    rw [show √|r| * √√(dcov2 x x) * (√|s| * √√(dcov2 y y)) = √|r| * √|s| * (√√(dcov2 x x) * √√(dcov2 y y)) by ring,
      mul_div_mul_left _ _ (by positivity)]

/-! ### C36 -/

lemma run_distance {n p q : ℕ} (hn : 0 < n) (m : Mode) (c : Loc) (a : FitArgs) (x : Fin n → Fin p → ℝ) (y : Fin n → Fin q → ℝ)
    (hm : (modeTable m a.order).1 ≠ .mdd ∧ (modeTable m a.order).1 ≠ .ballcov) (hf : forcesMean m = false) :
    run .distance m c a (dmat x) (dmat y) =
      match (match (if a.fast ∧ c = .mean ∧ a.trimming = 0 ∧ (modeTable m a.order).2 = 2 then
          fastStage (modeTable m a.order).1 { a with y := some (dmat y) } x
        else naiveStage m (modeTable m a.order).1 c (modeTable m a.order).2 { a with y := some (dmat y) } x) with
      | .error e => Except.error e
      | .ok pre => finalStage m (modeTable m a.order).1 (modeTable m a.order).2 { a with y := some (dmat y) } pre) with
      | .error e => .error e
      | .ok (some v) => .ok v
      | .ok none => .error .attributeError := by
  rw [run_eq, hf]
  simp only [Bool.false_eq_true, if_false]
  rw [compute_distance hn m c a x y hm]
  rfl

/-- C36 (partial): without bias correction and trimming, and for a response given as a matrix, the fast and the naive
algorithm return the same variance, covariance and correlation. -/
theorem C36_fast_naive_partial {n p q : ℕ} (hn : 0 < n) (m : Mode) (hm : m = .var ∨ m = .cov ∨ m = .corr) (a : FitArgs)
    (ht : a.trimming = 0) (hb : a.biascorr = false) (ho : a.order = 2) (hy : a.y1d = false)
    (x : Fin n → Fin p → ℝ) (y : Fin n → Fin q → ℝ) :
    run .distance m .mean { a with fast := true } (dmat x) (dmat y) =
      run .distance m .mean { a with fast := false } (dmat x) (dmat y) := by
  rcases hm with h | h | h <;> subst h
  · rw [run_dvar hn { a with fast := true } ht hb, run_dvar hn { a with fast := false } ht hb]
  · rw [run_dcov hn { a with fast := true } ht hb (Or.inr hy), run_dcov hn { a with fast := false } ht hb (Or.inr hy)]
  · rw [run_dcorr hn { a with fast := true } ht hb ho (Or.inr hy),
      run_dcorr hn { a with fast := false } ht hb ho (Or.inr hy)]

lemma abs_sqrt_sq (v : ℝ) : √(v ^ 2) = |v| := Real.sqrt_sq_eq_abs v

/-- C36 fails with bias correction: for these data the unbiased squared distance covariance is -1/3; the fast algorithm
then returns NaN, the naive one √(1/3). -/
theorem C36_biascorr_violated :
    ∃ x y : Fin 4 → Fin 1 → ℝ,
      run .distance .cov .mean { biascorr := true, fast := true } (dmat x) (dmat y) = .error .other ∧
      run .distance .cov .mean { biascorr := true, fast := false } (dmat x) (dmat y) = .ok √(1 / 3) := by
  set x : Fin 4 → Fin 1 → ℝ := fun i _ => ![0, 0, 1, 1] i with hx
  set y : Fin 4 → Fin 1 → ℝ := fun i _ => ![0, 1, 0, 1] i with hy
  have hU : (∑ i, ∑ j, ucen (edist x) i j * ucen (edist y) i j) = -4 / 3 := by
    have ex : edist x = ![![0, 0, 1, 1], ![0, 0, 1, 1], ![1, 1, 0, 0], ![1, 1, 0, 0]] := by
      funext i j
      fin_cases i <;> fin_cases j <;> simp [edist, hx]
    have ey : edist y = ![![0, 1, 0, 1], ![1, 0, 1, 0], ![0, 1, 0, 1], ![1, 0, 1, 0]] := by
      funext i j
      fin_cases i <;> fin_cases j <;> simp [edist, hy]
    rw [ex, ey]
    simp [ucen, Fin.sum_univ_four]
    norm_num
  refine ⟨x, y, ?_, ?_⟩
  · refine (run_distance (by norm_num) .cov .mean { biascorr := true, fast := true } x y ⟨by simp [modeTable], by simp [modeTable]⟩ rfl).trans ?_
    have hneg : sqrtE (udcovSqr x y) = .error .other := by
      have : udcovSqr x y = (∑ i, ∑ j, ucen (edist x) i j * ucen (edist y) i j) / (((4 : ℕ) : ℝ) * (((4 : ℕ) : ℝ) - 3)) := rfl
      rw [this, hU]
      unfold sqrtE
      rw [if_pos (by norm_num)]
    simp only [modeTable]
    rw [if_pos (by simp)]
    unfold fastStage
    simp only [bind, Except.bind, if_true, reduceCtorEq, if_false, getY_dmat (show 0 < 4 by norm_num), hneg]
  · refine (run_distance (by norm_num) .cov .mean { biascorr := true, fast := false } x y ⟨by simp [modeTable], by simp [modeTable]⟩ rfl).trans ?_
    simp only [modeTable]
    rw [if_neg (by simp)]
    have d : ∀ z : Fin 4 → Fin 1 → ℝ, distMatCentered .mean 0 true z = .ok (ucen (edist z), ((4 : ℕ) : ℝ)) :=
      fun z => doubleCenter_true (by norm_num) _
    unfold naiveStage finalStage
    simp only [bind, Except.bind, if_true, reduceCtorEq, if_false, getY_dmat (show 0 < 4 by norm_num), d,
      distanceMoment_two, isCoMode, or_self, decide_false, Bool.false_eq_true, false_and, lt_irrefl, hU, corr4bias]
    congr 2
    norm_num

/-- C36 fails for a response passed as a one-dimensional array: the fast algorithm returns the distance covariance, the naive
one raises. -/
theorem C36_y1d_violated {n p q : ℕ} (hn : 0 < n) (a : FitArgs) (ht : a.trimming = 0) (hb : a.biascorr = false)
    (x : Fin n → Fin p → ℝ) (y : Fin n → Fin q → ℝ) :
    run .distance .cov .mean { a with fast := true, y1d := true } (dmat x) (dmat y) = .ok √(dcov2 x y) ∧
    run .distance .cov .mean { a with fast := false, y1d := true } (dmat x) (dmat y) = .error .valueError := by
  refine ⟨run_dcov hn { a with fast := true, y1d := true } ht hb (Or.inl rfl) x y, ?_⟩
  refine (run_distance hn .cov .mean { a with fast := false, y1d := true } x y ⟨by simp [modeTable], by simp [modeTable]⟩ rfl).trans ?_
  simp only [modeTable]
  rw [if_neg (by simp)]
  unfold naiveStage
  simp only [bind, Except.bind, if_true, reduceCtorEq, if_false, getY_dmat hn, ht, hb, dm_false]

/-! ### C37 -/

lemma sqIter_pow {n : ℕ} (k : ℕ) (a : Fin n → Fin n → ℝ) (i j : Fin n) : sqIter k a i j = a i j ^ 2 ^ k := by
  unfold sqIter
  induction k with
  | zero => simp
  | succ k ih =>
    rw [Function.iterate_succ_apply', ih, pow_succ, pow_mul, sq]

/-- Average over all pairs of cases of `Aᵃ Bᵇ`, for the doubly centred distances `A`, `B` of two data sets. -/
noncomputable def dprod {n p q : ℕ} (x : Fin n → Fin p → ℝ) (y : Fin n → Fin q → ℝ) (a b : ℕ) : ℝ :=
  (∑ i, ∑ j, dcen (fun i j => rowDist (x i) (x j)) i j ^ a * dcen (fun i j => rowDist (y i) (y j)) i j ^ b) / (n : ℝ) ^ 2

/-- What a distance co-moment of order `k > 2` returns: the centred distances enter with powers `2^(k-option-1)` and
`2^(option-1)`. -/
lemma run_dcom {n p q : ℕ} (hn : 0 < n) (a : FitArgs) (ht : a.trimming = 0) (hb : a.biascorr = false) (ho : 2 < a.order)
    (hy : a.y1d = false) (x : Fin n → Fin p → ℝ) (y : Fin n → Fin q → ℝ) :
    run .distance .com .mean a (dmat x) (dmat y) =
      .ok ((-1) ^ a.order * |dprod x y (2 ^ (a.order - a.option - 1)) (2 ^ (a.option - 1))| ^ ((1 : ℝ) / a.order)) := by
  rw [run_eq]
  simp only [forcesMean, Bool.false_eq_true, if_false]
  rw [compute_distance hn _ _ _ _ _ ⟨by simp [modeTable], by simp [modeTable]⟩]
  simp only [modeTable]
  rw [if_neg (fun h => by omega)]
  unfold naiveStage finalStage
  simp only [bind, Except.bind, reduceCtorEq, if_false, if_true, isCoMode, or_self, decide_false, Bool.false_eq_true, false_and, hb,
      ht, hy, dm_false, getY_dmat hn, ho]
  unfold distanceMoment
  simp only [dmSquared, ho, if_true, Bool.false_eq_true, if_false, bind, Except.bind, meanT0_flat, corr4bias_false, mul_one,
    show a.order ≠ 0 by omega]
  simp only [sqIter_pow]
  rfl

/-- C37 (partial): at order 2 the statistic is `√` of the average product of centred distances (C34); at order 3 with option
1 or 2 and at order 4 with option 2 a distance co-moment of two data sets aggregates the requested products
`A^(k-option) B^option`. -/
theorem C37_comoment_partial {n p q : ℕ} (hn : 0 < n) (a : FitArgs) (ht : a.trimming = 0) (hb : a.biascorr = false)
    (hk : (a.order = 3 ∧ (a.option = 1 ∨ a.option = 2)) ∨ (a.order = 4 ∧ a.option = 2))
    (hy : a.y1d = false) (x : Fin n → Fin p → ℝ) (y : Fin n → Fin q → ℝ) :
    run .distance .com .mean a (dmat x) (dmat y) =
      .ok ((-1) ^ a.order * |dprod x y (a.order - a.option) a.option| ^ ((1 : ℝ) / a.order)) := by
  rw [run_dcom hn a ht hb (by omega) hy]
  have e1 : 2 ^ (a.order - a.option - 1) = a.order - a.option := by
    rcases hk with ⟨h, h' | h'⟩ | ⟨h, h'⟩ <;> rw [h, h'] <;> norm_num
  have e2 : 2 ^ (a.option - 1) = a.option := by
    rcases hk with ⟨h, h' | h'⟩ | ⟨h, h'⟩ <;> rw [h'] <;> norm_num
  rw [e1, e2]

lemma two_points_dcen : dcen (fun i j : Fin 2 => rowDist (fun _ : Fin 1 => (i : ℝ)) (fun _ : Fin 1 => (j : ℝ))) =
    ![![-1 / 2, 1 / 2], ![1 / 2, -1 / 2]] := by
  funext i j
  fin_cases i <;> fin_cases j <;> simp [dcen, rowDist, Fin.sum_univ_two] <;> norm_num

/-- C37 fails at order 4 with option 1: for the data (0, 1) paired with itself the average of `A³B` is 1/16, so the
co-moment should be 1/2; the code returns 0 (the average of `A⁴B`). -/
theorem C37_order4_violated :
    ∃ x : Fin 2 → Fin 1 → ℝ, dprod x x 3 1 = 1 / 16 ∧
      run .distance .com .mean { order := 4, option := 1 } (dmat x) (dmat x) = .ok 0 := by
  refine ⟨fun i _ => (i : ℝ), ?_, ?_⟩
  · unfold dprod
    rw [two_points_dcen]
    simp [Fin.sum_univ_two]; norm_num
  · rw [run_dcom (by norm_num) _ rfl rfl (by norm_num) rfl]
    have : dprod (fun (i : Fin 2) (_ : Fin 1) => (i : ℝ)) (fun (i : Fin 2) (_ : Fin 1) => (i : ℝ)) (2 ^ (4 - 1 - 1)) (2 ^ (1 - 1)) = 0 := by
      unfold dprod
      rw [two_points_dcen]
      simp [Fin.sum_univ_two]; norm_num
    simp only [this]
    norm_num

/-- C37 fails for single-variable moments of order 3: for the data (0, 1) the average cube of the centred distances is 0; the
code returns `-(1/16)^(1/3)`, from the average fourth power. -/
theorem C37_moment3_violated :
    ∃ x : Fin 2 → Fin 1 → ℝ, dprod x x 2 1 = 0 ∧
      run .distance .mom .mean { order := 3, option := 1 } (dmat x) (dmat x) = .ok (-(1 / 16) ^ ((1 : ℝ) / 3)) := by
  refine ⟨fun i _ => (i : ℝ), ?_, ?_⟩
  · unfold dprod
    rw [two_points_dcen]
    simp [Fin.sum_univ_two]; norm_num
  · refine (run_distance (by norm_num) .mom .mean { order := 3, option := 1 } _ _ ⟨by simp [modeTable], by simp [modeTable]⟩ rfl).trans ?_
    simp only [modeTable]
    rw [if_neg (by simp)]
    unfold naiveStage finalStage
    simp only [bind, Except.bind, reduceCtorEq, if_false, if_true, isCoMode, isStdMode, or_self, decide_false, Bool.false_eq_true,
      false_and, dm_false, Nat.lt_add_one]
    unfold distanceMoment
    simp only [dmSquared, if_true, bind, Except.bind, meanT0_flat, corr4bias_false, mul_one, Nat.lt_add_one,
      show (3 : ℕ) ≠ 0 by norm_num, if_false]
    simp only [sqIter_pow, edist_rowDist, two_points_dcen]
    simp [Fin.sum_univ_two]
    norm_num

/-! ### C38 -/

lemma dcen_sqdist {n : ℕ} (hn : 0 < n) (y : Fin n → ℝ) (i j : Fin n) :
    dcen (fun i k => 1 / 2 * edist (fun i (_ : Fin 1) => y i) i k ^ 2) i j = -((y i - avg y) * (y j - avg y)) := by
  have hn' : (n : ℝ) ≠ 0 := by exact_mod_cast hn.ne'
  have e : ∀ i k, (1 : ℝ) / 2 * edist (fun i (_ : Fin 1) => y i) i k ^ 2 = 1 / 2 * (y i ^ 2 + y k ^ 2) - y i * y k := by
    intro i k
    unfold edist
    rw [Real.sq_sqrt (Finset.sum_nonneg fun _ _ => sq_nonneg _)]
    simp
    ring
  simp only [e]
  unfold dcen avg
  simp only [Finset.sum_sub_distrib, Finset.sum_add_distrib, ← Finset.mul_sum, ← Finset.sum_mul, Finset.sum_const,
    Finset.card_univ, Fintype.card_fin, nsmul_eq_mul]
  field_simp
  ring

lemma innerProd0 {n : ℕ} (hn : 0 < n) (X Y : Fin n → Fin n → ℝ) :
    innerProd false 0 X Y = .ok ((∑ i, ∑ j, X i j * Y i j) / (n : ℝ) ^ 2) := by
  have hn' : (n : ℝ) ≠ 0 := by exact_mod_cast hn.ne'
  unfold innerProd
  simp only [zero_mul, Nat.floor_zero, List.drop_zero, tsub_zero]
  have hl : (sortL (flat fun i j => X i j * Y i j)).length = n ^ 2 := by
    rw [(sortL_perm _).length_eq, flat_length]
  rw [List.take_of_length_le (by rw [hl]), hl, if_neg (by positivity), (sortL_perm _).sum_eq, flat_sum]
  simp only [Bool.false_eq_true, if_false]
  congr 1
  push_cast
  rw [Real.sqrt_sq (Nat.cast_nonneg n)]
  field_simp

lemma differenceDivergence_eq {n p : ℕ} (hn : 0 < n) (x : Fin n → Fin p → ℝ) (y : Fin n → ℝ) :
    differenceDivergence .mean 0 false x y = .ok (mdd2 x y) := by
  unfold differenceDivergence
  simp only [dm_false, doubleCenter_false, bind, Except.bind, innerProd0 hn]
  congr 1
  unfold mdd2
  congr 1
  have h := dcen_quad hn (edist x) (fun i => y i - avg y)
  have hz : avg (fun i => y i - avg y) = 0 := by
    unfold avg at *
    rw [show (∑ i, (y i - (∑ j, y j) / n)) = 0 from sum_sub_avg hn y, zero_div]
  rw [hz] at h
  simp only [sub_zero] at h
  rw [edist_rowDist] at h ⊢
  rw [← h, ← Finset.sum_neg_distrib]
  refine Finset.sum_congr rfl fun i _ => ?_
  rw [← Finset.sum_neg_distrib]
  refine Finset.sum_congr rfl fun j _ => ?_
  rw [dcen_sqdist hn]
  ring

lemma mdd2_nonneg {n p : ℕ} (hn : 0 < n) (x : Fin n → Fin p → ℝ) (y : Fin n → ℝ) : 0 ≤ mdd2 x y := by
  have := edist_cond_neg x (fun i => y i - avg y) (sum_sub_avg hn y)
  unfold mdd2
  rw [edist_rowDist] at this
  exact div_nonneg (by linarith) (sq_nonneg _)

/-- C38: `difference_divergence` equals minus the average over pairs of `(yᵢ-ȳ)(yⱼ-ȳ)|xᵢ-xⱼ|` and is nonnegative, for all data
with univariate y. -/
theorem C38_mdd_value {n p : ℕ} (hn : 0 < n) (x : Fin n → Fin p → ℝ) (y : Fin n → ℝ) :
    differenceDivergence .mean 0 false x y =
        .ok (-(∑ i, ∑ j, (y i - avg y) * (y j - avg y) * rowDist (x i) (x j)) / (n : ℝ) ^ 2) ∧
      0 ≤ -(∑ i, ∑ j, (y i - avg y) * (y j - avg y) * rowDist (x i) (x j)) / (n : ℝ) ^ 2 :=
  ⟨differenceDivergence_eq hn x y, mdd2_nonneg hn x y⟩

/-- C38: it is zero when y is constant. -/
theorem C38_mdd_constant {n p : ℕ} (hn : 0 < n) (x : Fin n → Fin p → ℝ) (c : ℝ) :
    differenceDivergence .mean 0 false x (fun _ => c) = .ok 0 := by
  have hn' : (n : ℝ) ≠ 0 := by exact_mod_cast hn.ne'
  rw [differenceDivergence_eq hn]
  simp [mdd2, avg, hn']

/-- C38: `dicomo(est='distance', mode='mdd')` returns the square root of that number; in particular it never returns NaN. -/
theorem C38_mdd_class {n p : ℕ} (hn : 0 < n) (a : FitArgs) (ht : a.trimming = 0) (hb : a.biascorr = false)
    (x : Fin n → Fin p → ℝ) (y : Fin n → ℝ) :
    run .distance .mdd .mean a (dmat x) (colMat y) = .ok √(mdd2 x y) := by
  rw [run_eq]
  simp only [forcesMean, Bool.false_eq_true, if_false]
  unfold Dicomo.compute
  have hn' : (dmat x).n ≠ 0 := hn.ne'
  simp only [hn', if_false, modeTable, true_or, if_true]
  have : mddStage .mdd .mean { a with y := some (colMat y) } x = .ok { moment := some √(mdd2 x y), como := √(mdd2 x y) } := by
    unfold mddStage
    simp only [getY_colMat hn, bind, Except.bind, if_true, col0_fun, ht, hb, differenceDivergence_eq hn,
      sqrtE_nonneg (mdd2_nonneg hn x y)]
  have e : mddStage .mdd .mean { a with y := some (colMat y) } (dmat x).e = .ok { moment := some √(mdd2 x y), como := √(mdd2 x y) } := this
  rw [e]
  unfold finalStage
  simp [isCoMode, bind, Except.bind]

/-! ### C39 -/

lemma quad_swap {n q : ℕ} (z : Fin n → Fin q → ℝ) (d : Fin n → Fin n → ℝ) (b : Fin q → ℝ) (N : ℝ) :
    ∑ k, ∑ l, b k * b l * (-(∑ i, ∑ j, z i k * z j l * d i j) / N) =
      -(∑ i, ∑ j, (∑ k, b k * z i k) * (∑ k, b k * z j k) * d i j) / N := by
  have A : ∀ k l, b k * b l * (-(∑ i, ∑ j, z i k * z j l * d i j) / N) =
      -(∑ i, ∑ j, b k * b l * (z i k * z j l * d i j)) / N := by
    intro k l
    simp only [← Finset.mul_sum]
    ring
  have B : ∀ i j, (∑ k, b k * z i k) * (∑ k, b k * z j k) * d i j = ∑ k, ∑ l, b k * b l * (z i k * z j l * d i j) := by
    intro i j
    rw [Finset.sum_mul_sum, Finset.sum_mul]
    refine Finset.sum_congr rfl fun k _ => ?_
    rw [Finset.sum_mul]
    exact Finset.sum_congr rfl fun l _ => by ring
  simp only [A, B, ← Finset.sum_div, Finset.sum_neg_distrib]
  congr 2
  calc _ = ∑ k, ∑ i, ∑ l, ∑ j, b k * b l * (z i k * z j l * d i j) :=
        Finset.sum_congr rfl fun k _ => Finset.sum_comm
    _ = ∑ i, ∑ k, ∑ l, ∑ j, b k * b l * (z i k * z j l * d i j) := Finset.sum_comm
    _ = ∑ i, ∑ k, ∑ j, ∑ l, b k * b l * (z i k * z j l * d i j) :=
        Finset.sum_congr rfl fun i _ => Finset.sum_congr rfl fun k _ => Finset.sum_comm
    _ = _ := Finset.sum_congr rfl fun i _ => Finset.sum_comm

/-- C39 (partial): for at least two predictors (or one case), `MDDM(X,Y)` is computed, symmetric, and its quadratic form in any
direction `b` is the (nonnegative) martingale difference divergence of the combination `Y b`; so it is positive
semidefinite. -/
theorem C39_mddm_partial {n p q : ℕ} (hn : 0 < n) (hp : p ≠ 1 ∨ n = 1) (x : Fin n → Fin p → ℝ) (y : Fin n → Fin q → ℝ) :
    ∃ M, mddm x y = .ok M ∧ (∀ k l, M k l = M l k) ∧
      (∀ k l, M k l = -(∑ i, ∑ j, (y i k - avg fun i => y i k) * (y j l - avg fun i => y i l) * rowDist (x i) (x j)) / (n : ℝ) ^ 2) ∧
      ∀ b : Fin q → ℝ, ∑ k, ∑ l, b k * b l * M k l = mdd2 x (fun i => ∑ k, y i k * b k) ∧
        0 ≤ ∑ k, ∑ l, b k * b l * M k l := by
  set M : Fin q → Fin q → ℝ := fun k l => -(∑ i, (y i k - (∑ i', y i' k) / n) * ∑ i', edist x i i' * (y i' l - (∑ i', y i' l) / n)) / (n : ℝ) ^ 2
    with hM
  have hv : ∀ k l, M k l = -(∑ i, ∑ j, (y i k - avg fun i => y i k) * (y j l - avg fun i => y i l) * rowDist (x i) (x j)) / (n : ℝ) ^ 2 := by
    intro k l
    simp only [hM]
    congr 2
    refine Finset.sum_congr rfl fun i _ => ?_
    rw [Finset.mul_sum]
    refine Finset.sum_congr rfl fun j _ => ?_
    unfold avg
    rw [edist_rowDist]
    ring
  have hq : ∀ b : Fin q → ℝ, ∑ k, ∑ l, b k * b l * M k l = mdd2 x (fun i => ∑ k, y i k * b k) := by
    intro b
    have hc : ∀ i, (∑ k, y i k * b k) - avg (fun i => ∑ k, y i k * b k) = ∑ k, b k * (y i k - avg fun i => y i k) := by
      intro i
      have : avg (fun i => ∑ k, y i k * b k) = ∑ k, b k * avg fun i => y i k := by
        unfold avg
        rw [Finset.sum_comm, Finset.sum_div]
        refine Finset.sum_congr rfl fun k _ => ?_
        rw [← Finset.sum_mul]; ring
      rw [this, ← Finset.sum_sub_distrib]
      exact Finset.sum_congr rfl fun k _ => by ring
    unfold mdd2
    simp only [hc, hv]
    exact quad_swap (fun i k => y i k - avg fun i => y i k) (fun i j => rowDist (x i) (x j)) b _
  refine ⟨M, ?_, fun k l => ?_, hv, fun b => ⟨hq b, by rw [hq]; exact mdd2_nonneg hn x _⟩⟩
  · unfold mddm
    rw [if_neg (by tauto)]
  · rw [hv, hv, Finset.sum_comm]
    congr 2
    refine Finset.sum_congr rfl fun i _ => Finset.sum_congr rfl fun j _ => ?_
    have := edist_symm x i j
    rw [edist_rowDist] at this
    simp only at this
    rw [this]; ring

/-- C39 fails for a single predictor: with more than one case `MDDM` raises. -/
theorem C39_mddm_violated {n q : ℕ} (hn : 2 ≤ n) (x : Fin n → Fin 1 → ℝ) (y : Fin n → Fin q → ℝ) :
    mddm x y = .error .valueError := by
  unfold mddm
  rw [if_pos ⟨rfl, by omega⟩]

/-! ### C78 for distances -/

/-- C78 (partial): with the naive algorithm the distance standard deviation is the square root of the distance variance. -/
theorem C78_distance_naive_partial {n p q : ℕ} (hn : 0 < n) (c : Loc) (a : FitArgs) (ht : a.trimming = 0) (hb : a.biascorr = false)
    (hf : a.fast = false) (x : Fin n → Fin p → ℝ) (y : Fin n → Fin q → ℝ) :
    run .distance .std c a (dmat x) (dmat y) = (run .distance .var .mean a (dmat x) (dmat y)).map Real.sqrt := by
  rw [run_dvar hn a ht hb, run_eq]
  simp only [forcesMean, if_true]
  rw [compute_distance hn _ _ _ _ _ ⟨by simp [modeTable], by simp [modeTable]⟩]
  simp only [modeTable]
  rw [if_neg (by simp [hf])]
  unfold naiveStage finalStage
  simp only [bind, Except.bind, reduceCtorEq, if_false, if_true, isCoMode, isStdMode, or_self, or_false, decide_false, decide_true,
      Bool.false_eq_true, false_and, hb, ht, dm_false, dmoment_false hn, lt_irrefl, Except.map, numPower]
  congr 1
  rw [← Real.sqrt_eq_rpow, Real.div_sqrt]

/-- C78 fails with the (default) fast algorithm, which returns the distance variance for mode `std`: 1/2 instead of √(1/2) for the
data (0, 1). -/
theorem C78_distance_fast_violated :
    (∀ {n p q : ℕ}, 0 < n → ∀ (x : Fin n → Fin p → ℝ) (y : Fin n → Fin q → ℝ),
      run .distance .std .mean {} (dmat x) (dmat y) = run .distance .var .mean {} (dmat x) (dmat y)) ∧
    run .distance .var .mean {} (dmat fun (i : Fin 2) (_ : Fin 1) => (i : ℝ)) (dmat fun (i : Fin 2) (_ : Fin 1) => (i : ℝ)) =
      .ok (1 / 2) := by
  refine ⟨fun hn x y => ?_, ?_⟩
  · rw [run_dvar hn _ rfl rfl]
    rw [run_eq]
    simp only [forcesMean, if_true]
    have h := compute_distance hn .std .mean {} x y ⟨by simp [modeTable], by simp [modeTable]⟩
    simp only at h
    rw [h]
    simp only [modeTable]
    rw [if_pos (by simp)]
    unfold fastStage finalStage
    simp only [bind, Except.bind, reduceCtorEq, if_false, if_true, isCoMode, or_self, decide_false, Bool.false_eq_true, false_and,
      dcovSqr_eq, sqrtE_nonneg (dcov2_nonneg hn x x)]
  · rw [run_dvar (by norm_num) _ rfl rfl]
    congr 1
    unfold dcov2
    rw [two_points_dcen]
    rw [show (1 : ℝ) / 2 = √((1 / 2) ^ 2) by rw [Real.sqrt_sq (by norm_num)]]
    congr 1
    simp [Fin.sum_univ_two]
    norm_num

end Direpack
