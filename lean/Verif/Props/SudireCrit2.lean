import Verif.Props.SudireCrit

/-! Properties C133 and C134: principal Hessian directions and iterative Hessian transformations. -/

namespace Direpack

open scoped BigOperators
open Spec

variable {n p : ℕ}

/-! ![7 / 8 * ![(1 : ℝ), 0, 0] 1, 7 / 8 * ![(1 : ℝ), 0, 0] 0, 0]# C133: principal Hessian directions -/

lemma phd_ok {eigh : Eigh} {X : Fin n → Fin p → ℝ} {y : Fin n → ℝ} {d : ℕ} {center scale : Bool} {B : Matrix (Fin p) (Fin (min d p)) ℝ}
    (h : phd eigh X y d center scale = .ok B) :
    ∃ S, sdrRoot eigh scale X = .ok S ∧ B = sdrBack scale S (leading eigh (phdMat (sdrScale scale (sdrCentre center X) S) y) d) := by
  rw [phd] at h
  by_cases h1 : n < 2 ∨ p < 2
  · rw [if_pos h1] at h; exact absurd h (by simp)
  · rw [if_neg h1] at h
    cases hS : sdrRoot eigh scale X with
    | error e => rw [hS] at h; exact absurd h (by simp)
    | ok S =>
      rw [hS] at h
      exact ⟨S, rfl, (Except.ok.inj h).symm⟩

lemma quad_phd (X : Fin n → Fin p → ℝ) (y : Fin n → ℝ) (v : Fin p → ℝ) : quad (phdMat X y) v = curvature X y v := by
  rw [phdMat_outer, quad_sum, curvature, Finset.sum_div]
  refine Finset.sum_congr rfl fun c _ => ?_
  rw [quad_smul, avgOf_eq]
  have : quad (outer (X c)) v = (∑ j, X c j * v j) ^ 2 := by
    rw [pow_two, Finset.sum_mul_sum, quad]
    exact Finset.sum_congr rfl fun j _ => Finset.sum_congr rfl fun k _ => by simp only [outer, Matrix.of_apply]; ring
  rw [this]
  ring

lemma curvature_scale (X : Fin n → Fin p → ℝ) (S : Matrix (Fin p) (Fin p) ℝ) (y : Fin n → ℝ) (v : Fin p → ℝ) :
    curvature (matX X S) y v = curvature X y (S.mulVec v) := by
  unfold curvature
  congr 1
  refine Finset.sum_congr rfl fun c _ => ?_
  congr 2
  simp only [matX, Matrix.mulVec, dotProduct, Finset.sum_mul, Finset.mul_sum]
  rw [Finset.sum_comm]
  exact Finset.sum_congr rfl fun k _ => Finset.sum_congr rfl fun j _ => by ring

/-- C133: the directions maximise, one after another, the signed curvature of the response. -/
theorem C133_phd_signed {eigh : Eigh} (he : IsEigh eigh) (X : Fin n → Fin p → ℝ) (y : Fin n → ℝ) (d : ℕ) (center scale : Bool)
    (B : Matrix (Fin p) (Fin (min d p)) ℝ) (h : phd eigh X y d center scale = .ok B) (k : Fin (min d p)) (b : Fin p → ℝ)
    (hb : quad (if scale then covMat X else 1) b = 1) (ho : ∀ l, l < k → bilin (if scale then covMat X else 1) (fun i => B i l) b = 0) :
    curvature (centredData center X) y b ≤ curvature (centredData center X) y (fun i => B i k) := by
  simp only [← sdrCentre_eq]
  obtain ⟨S, hS, rfl⟩ := phd_ok h
  obtain ⟨h1, h2, h3, h4⟩ := sdrRoot_spec he hS
  rw [h3] at ho ⊢
  rw [h4] at ho ⊢
  change quad (sdrMetric scale X) b = 1 at hb
  change ∀ l, l < k → bilin (sdrMetric scale X) _ b = 0 at ho
  refine leading_back (crit := curvature (sdrCentre center X) y) he h1 h2 (phdMat_symm ..) ?_ k b hb ho
  intro v
  rw [quad_phd]
  exact curvature_scale (sdrCentre center X) S y v

/-- C133 (partial: the response is nowhere curved downwards): the directions maximise the strength of the curvature, whatever its sign. -/
theorem C133_phd_strength_partial {eigh : Eigh} (he : IsEigh eigh) (X : Fin n → Fin p → ℝ) (y : Fin n → ℝ) (d : ℕ) (center scale : Bool)
    (hpos : ∀ b, 0 ≤ curvature (centredData center X) y b) (B : Matrix (Fin p) (Fin (min d p)) ℝ) (h : phd eigh X y d center scale = .ok B) (k : Fin (min d p)) (b : Fin p → ℝ)
    (hb : quad (if scale then covMat X else 1) b = 1) (ho : ∀ l, l < k → bilin (if scale then covMat X else 1) (fun i => B i l) b = 0) :
    |curvature (centredData center X) y b| ≤ |curvature (centredData center X) y (fun i => B i k)| := by
  rw [abs_of_nonneg (hpos _), abs_of_nonneg (hpos _)]
  exact C133_phd_signed he X y d center scale B h k b hb ho

/-- A response that is one on the first axis and in the middle, and minus two on the second axis. -/
def saddleY : Fin 6 → ℝ := ![1, 1, -2, -2, 1, 1]

lemma saddle_curvature (b : Fin 2 → ℝ) : curvature (sixX 1) saddleY b = b 0 ^ 2 / 3 - 2 * b 1 ^ 2 / 3 := by
  simp [curvature, avgOf, Fin.sum_univ_six, Fin.sum_univ_two, sixX, saddleY]
  ring

/-- A response that is one on the axes and minus two in the middle. -/
def cupY : Fin 6 → ℝ := ![1, 1, 1, 1, -2, -2]

/-- The hypotheses of the last theorem can be met. -/
example : ∃ (eigh : Eigh), IsEigh eigh ∧ (∃ B, phd eigh (sixX 1) cupY 1 true true = .ok B) ∧ (∀ b, 0 ≤ curvature (sdrCentre true (sixX 1)) cupY b) ∧
    ∃ b, 0 < curvature (sdrCentre true (sixX 1)) cupY b := by
  obtain ⟨eigh, he⟩ := exists_eigh
  have hc : ∀ b : Fin 2 → ℝ, curvature (sixX 1) cupY b = b 0 ^ 2 / 3 + b 1 ^ 2 / 3 := by
    intro b
    simp [curvature, avgOf, Fin.sum_univ_six, Fin.sum_univ_two, sixX, cupY]
    ring
  refine ⟨eigh, he, ?_, ?_, ![1, 0], ?_⟩
  · rw [phd, if_neg (by norm_num), sdrRoot, if_pos rfl, sixX_cov, invSqrt_const he (by norm_num)]
    exact ⟨_, rfl⟩
  · intro b; rw [sixX_centre, hc]; positivity
  · rw [sixX_centre, hc]; norm_num

/-- C133 is violated: the direction returned for these centred and scaled data is not the one in which the response is curved most. -/
theorem C133_phd_strength_violated {eigh : Eigh} (he : IsEigh eigh) : ∃ B : Matrix (Fin 2) (Fin (min 1 2)) ℝ, phd eigh (sixX 1) saddleY 1 true true = .ok B ∧
    ∃ b, quad (covMat (sixX 1)) b = 1 ∧ ∀ k, |curvature (centredData true (sixX 1)) saddleY (fun i => B i k)| < |curvature (centredData true (sixX 1)) saddleY b| := by
  simp only [← sdrCentre_eq]
  have hq : ∀ b : Fin 2 → ℝ, quad (covMat (sixX 1)) b = 2 / 5 * (b 0 ^ 2 + b 1 ^ 2) := by
    intro b
    rw [sixX_cov]
    simp [quad, Fin.sum_univ_two]
    ring
  obtain ⟨B, hB⟩ : ∃ B : Matrix (Fin 2) (Fin (min 1 2)) ℝ, phd eigh (sixX 1) saddleY 1 true true = .ok B := by
    rw [phd, if_neg (by norm_num), sdrRoot, if_pos rfl, sixX_cov, invSqrt_const he (by norm_num)]
    exact ⟨_, rfl⟩
  refine ⟨B, hB, ![0, Real.sqrt (5 / 2)], ?_, fun k => ?_⟩
  · rw [hq]
    simp only [Matrix.cons_val_zero, Matrix.cons_val_one]
    rw [Real.sq_sqrt (by norm_num)]
    norm_num
  · have horth := C89_phd he (sixX 1) saddleY 1 true true B hB
    have h1 := C133_phd_signed he (sixX 1) saddleY 1 true true B hB k ![Real.sqrt (5 / 2), 0] (by
      rw [if_pos rfl, hq]
      simp only [Matrix.cons_val_zero, Matrix.cons_val_one]
      rw [Real.sq_sqrt (by norm_num)]
      norm_num) (by
      intro l hl
      have := k.2
      have := l.2
      simp only [Fin.lt_def] at hl
      omega)
    simp only [if_true] at horth
    have hk := congrFun (congrFun horth k) k
    rw [Matrix.one_apply_eq, Matrix.mul_apply, Fin.sum_univ_two] at hk
    simp only [Matrix.mul_apply, Fin.sum_univ_two, Matrix.transpose_apply, sixX_cov] at hk
    simp at hk
    rw [← sdrCentre_eq, sixX_centre, saddle_curvature, saddle_curvature] at h1
    rw [sixX_centre, saddle_curvature, saddle_curvature]
    simp only [Matrix.cons_val_zero, Matrix.cons_val_one] at h1 ⊢
    rw [Real.sq_sqrt (by norm_num)] at h1 ⊢
    have h0 := sq_nonneg (B 0 k)
    have h2 := sq_nonneg (B 1 k)
    rw [show |(0 : ℝ) ^ 2 / 3 - 2 * (5 / 2) / 3| = 5 / 3 by norm_num [abs_of_neg]]
    rw [abs_lt]
    constructor <;> nlinarith

/-! ### C134: iterative Hessian transformation -/

lemma iht_ok {eigh : Eigh} {X : Fin n → Fin p → ℝ} {y : Fin n → ℝ} {d : ℕ} {center scale : Bool} {B : Matrix (Fin p) (Fin (min d p)) ℝ}
    (h : iht eigh X y d center scale = .ok B) : (2 ≤ n ∧ 2 ≤ p) ∧
    ∃ S, sdrRoot eigh scale X = .ok S ∧ B = sdrBack scale S (leading eigh (ihtCols eigh (sdrScale scale (sdrCentre center X) S) y *
      (ihtCols eigh (sdrScale scale (sdrCentre center X) S) y).transpose) d) := by
  rw [iht] at h
  by_cases h1 : n < 2 ∨ p < 2
  · rw [if_pos h1] at h; exact absurd h (by simp)
  · rw [if_neg h1] at h
    refine ⟨by omega, ?_⟩
    cases hS : sdrRoot eigh scale X with
    | error e => rw [hS] at h; exact absurd h (by simp)
    | ok S =>
      rw [hS] at h
      exact ⟨S, rfl, (Except.ok.inj h).symm⟩

lemma covWith_eq (X : Fin n → Fin p → ℝ) (y : Fin n → ℝ) : covWith X y = covXY X y := by
  funext j
  rw [covWith, covXY]
  congr 1
  exact Finset.sum_congr rfl fun c _ => by rw [avgOf_eq, avgOf_eq]; ring

lemma covXY_centre (hn : 0 < n) (center : Bool) (X : Fin n → Fin p → ℝ) (y : Fin n → ℝ) : covXY (sdrCentre center X) y = covXY X y := by
  cases center
  · rfl
  · funext j
    simp only [covXY, mean_centred hn, sub_zero]
    rfl

/-- The quadratic form of `vvᵀ`. -/
lemma quad_outer (u v : Fin p → ℝ) : quad (outer u) v = (∑ j, u j * v j) ^ 2 := by
  rw [pow_two, Finset.sum_mul_sum, quad]
  exact Finset.sum_congr rfl fun j _ => Finset.sum_congr rfl fun k _ => by simp only [outer, Matrix.of_apply]; ring

/-- The kernel of iterative Hessian transformation for scaled data: a multiple of `vvᵀ`. -/
lemma iht_kernel {eigh : Eigh} (he : IsEigh eigh) {X : Fin n → Fin p → ℝ} (hn : 0 < n) {S : Matrix (Fin p) (Fin p) ℝ} (h1 : S.transpose = S) (h2 : S * covMat X * S = 1)
    (center : Bool) (y : Fin n → ℝ) :
    ihtCols eigh (matX (sdrCentre center X) S) y * (ihtCols eigh (matX (sdrCentre center X) S) y).transpose = (p : ℝ) • outer (S.mulVec (covWith X y)) := by
  have hc : covMat (matX (sdrCentre center X) S) = 1 := by
    have h := covMat_affine hn (sdrCentre center X) 0 S
    simp only [Pi.zero_apply, sub_zero] at h
    change covMat (matX (sdrCentre center X) S) = _ at h
    rw [h, covMat_centre hn, h1, h2]
  rw [ihtMat_one he hc, covXY_rot hn, covXY_centre hn, covWith_eq]
  congr 2
  funext j
  simp only [Matrix.mulVec, dotProduct]
  refine Finset.sum_congr rfl fun k _ => ?_
  have := congrFun (congrFun h1 j) k
  rw [Matrix.transpose_apply] at this
  rw [this]; ring

/-- The leading eigenvector of a multiple of `vvᵀ`. -/
lemma leading_outer {eigh : Eigh} (he : IsEigh eigh) {a : ℝ} (ha : 0 < a) {u : Fin p → ℝ} (hu : u ≠ 0) {d : ℕ} (k : Fin (min d p)) (hk : k.1 = 0) :
    ∃ t : ℝ, t ≠ 0 ∧ (fun i => leading eigh (a • outer u) d i k) = t • u := by
  have hsym : (a • outer u).transpose = a • outer u := by
    ext i j
    simp only [Matrix.transpose_apply, Matrix.smul_apply, outer, Matrix.of_apply, smul_eq_mul]
    ring
  set q : Fin p → ℝ := fun i => leading eigh (a • outer u) d i k with hq
  have hqq : ∑ i, q i ^ 2 = 1 := by
    have h2 := congrFun (congrFun (leading_orth he hsym d) k) k
    rw [Matrix.mul_apply, Matrix.one_apply_eq] at h2
    rw [← h2]
    exact Finset.sum_congr rfl fun i _ => by rw [Matrix.transpose_apply, pow_two]
  set N := ∑ i, u i ^ 2 with hN
  have hNpos : 0 < N := by
    obtain ⟨i, hi⟩ := Function.ne_iff.mp hu
    exact lt_of_lt_of_le (sq_pos_of_ne_zero hi) (Finset.single_le_sum (fun j _ => sq_nonneg (u j)) (Finset.mem_univ i))
  have hs := Real.sq_sqrt hNpos.le
  have hs0 : Real.sqrt N ≠ 0 := (Real.sqrt_pos.mpr hNpos).ne'
  have h1 := leading_max he hsym k (fun i => u i / Real.sqrt N) (by
    simp only [div_pow, hs]
    rw [← Finset.sum_div, ← hN, div_self hNpos.ne']) (by
    intro l hl
    simp only [Fin.lt_def] at hl
    omega)
  rw [quad_smul, quad_smul, quad_outer, quad_outer] at h1
  have h2 := le_of_mul_le_mul_left h1 ha
  set w := ∑ j, u j * q j with hw
  change _ ≤ w ^ 2 at h2
  have h3 : (∑ j, u j * (u j / Real.sqrt N)) ^ 2 = N := by
    have : ∑ j, u j * (u j / Real.sqrt N) = N / Real.sqrt N := by
      rw [hN, Finset.sum_div]; exact Finset.sum_congr rfl fun j _ => by ring
    rw [this, div_pow, hs]
    field_simp
  rw [h3] at h2
  have h4 : ∑ i, (q i - w / N * u i) ^ 2 = 1 - w ^ 2 / N := by
    have : ∀ i, (q i - w / N * u i) ^ 2 = q i ^ 2 - 2 * (w / N) * (u i * q i) + (w / N) ^ 2 * u i ^ 2 := fun i => by ring
    simp only [this, Finset.sum_add_distrib, Finset.sum_sub_distrib, ← Finset.mul_sum]
    rw [hqq, ← hw, ← hN]
    field_simp
    ring
  have h5 : 1 - w ^ 2 / N ≤ 0 := by
    rw [sub_nonpos, le_div_iff₀ hNpos, one_mul]; exact h2
  have h6 : ∀ i, q i = w / N * u i := by
    intro i
    have : (q i - w / N * u i) ^ 2 ≤ 0 := by
      refine le_trans ?_ (h4.trans_le h5)
      exact Finset.single_le_sum (f := fun i => (q i - w / N * u i) ^ 2) (fun j _ => sq_nonneg _) (Finset.mem_univ i)
    have := pow_eq_zero_iff (two_ne_zero) |>.mp (le_antisymm this (sq_nonneg _))
    linarith
  refine ⟨w / N, fun h0 => ?_, funext fun i => by rw [h6]; rfl⟩
  have : ∀ i, q i = 0 := fun i => by rw [h6, h0, zero_mul]
  simp [this] at hqq

/-- C134 (partial: scaled data, and the first direction only): the first direction of iterative Hessian transformation is a multiple of the least squares coefficients, so
it is in the space of the method. -/
theorem C134_iht_space_partial {eigh : Eigh} (he : IsEigh eigh) (X : Fin n → Fin p → ℝ) (y : Fin n → ℝ) (d : ℕ) (center : Bool) (hy : covWith X y ≠ 0)
    (B : Matrix (Fin p) (Fin (min d p)) ℝ) (h : iht eigh X y d center true = .ok B) (k : Fin (min d p)) (hk : k.1 = 0) :
    (∃ t : ℝ, t ≠ 0 ∧ (fun i => B i k) = t • (covMat X)⁻¹.mulVec (covWith X y)) ∧ (fun i => B i k) ∈ ihtSpace (covMat X) (centredData center X) y := by
  simp only [← sdrCentre_eq]
  obtain ⟨⟨hn, hp⟩, S, hS, rfl⟩ := iht_ok h
  obtain ⟨h1, h2, h3, h4⟩ := sdrRoot_spec he hS
  change S * covMat X * S = 1 at h2
  have hmat : sdrScale true (sdrCentre center X) S = matX (sdrCentre center X) S := by rw [h4]; rfl
  rw [h3, hmat, iht_kernel he (by omega) h1 h2]
  have hSu : S.mulVec (covWith X y) ≠ 0 := by
    intro h0
    apply hy
    have h5 : (covMat X * S).mulVec (S.mulVec (covWith X y)) = covWith X y := by
      have h6 : S * (covMat X * S) = 1 := by rw [← Matrix.mul_assoc]; exact h2
      rw [Matrix.mulVec_mulVec, mul_eq_one_comm.mp h6, Matrix.one_mulVec]
    rw [← h5, h0, Matrix.mulVec_zero]
  obtain ⟨t, ht, hq⟩ := leading_outer he (a := (p : ℝ)) (by exact_mod_cast (show 0 < p by omega)) hSu k hk
  have hcol : (fun i => (S * leading eigh ((p : ℝ) • outer (S.mulVec (covWith X y))) d) i k) = t • (covMat X)⁻¹.mulVec (covWith X y) := by
    have : (fun i => (S * leading eigh ((p : ℝ) • outer (S.mulVec (covWith X y))) d) i k) =
        S.mulVec (fun i => leading eigh ((p : ℝ) • outer (S.mulVec (covWith X y))) d i k) := by funext i; rfl
    rw [this, hq, Matrix.mulVec_smul, Matrix.mulVec_mulVec, root_inv h2]
  refine ⟨⟨t, ht, hcol⟩, ?_⟩
  rw [hcol]
  refine Submodule.smul_mem _ _ (Submodule.subset_span ⟨0, ?_⟩)
  dsimp only
  rw [pow_zero, Matrix.one_mulVec, covWith_eq, covXY_centre (by omega), covWith_eq]

/-! The corners of a cube. -/

/-- The eight corners. -/
def cubeX : Fin 8 → Fin 3 → ℝ := ![![1, 1, 1], ![1, 1, -1], ![1, -1, 1], ![1, -1, -1], ![-1, 1, 1], ![-1, 1, -1], ![-1, -1, 1], ![-1, -1, -1]]

/-- The first coordinate plus its product with coordinate `j`. -/
def cubeY (j : Fin 3) : Fin 8 → ℝ := fun c => cubeX c 0 + cubeX c 0 * cubeX c j

lemma cubeX_mean (j : Fin 3) : (mean fun c => cubeX c j) = 0 := by
  rw [mean_eq]
  fin_cases j <;> simp [Fin.sum_univ_eight, cubeX]

lemma cubeX_centre (center : Bool) : sdrCentre center cubeX = cubeX := by
  cases center
  · rfl
  · funext c j
    simp only [sdrCentre, if_true]
    rw [cubeX_mean, sub_zero]

lemma cubeX_cov : covMat cubeX = (8 / 7 : ℝ) • 1 := by
  ext j k
  simp only [covMat, Matrix.of_apply, cubeX_mean]
  fin_cases j <;> fin_cases k <;> simp [Fin.sum_univ_eight, cubeX] <;> norm_num

lemma cube_covWith (j : Fin 3) (hj : j ≠ 0) : covWith cubeX (cubeY j) = (8 / 7 : ℝ) • ![1, 0, 0] := by
  funext k
  fin_cases j
  · exact absurd rfl hj
  all_goals
    fin_cases k <;> simp [covWith, avgOf, Fin.sum_univ_eight, cubeX, cubeY] <;> norm_num

lemma cube_hessian_one : hessian cubeX (cubeY 1) = Matrix.of ![![0, 1, 0], ![1, 0, 0], ![0, 0, 0]] := by
  ext j k
  fin_cases j <;> fin_cases k <;> simp [hessian, avgOf, Fin.sum_univ_eight, cubeX, cubeY] <;> norm_num

lemma cube_hessian_two : hessian cubeX (cubeY 2) = Matrix.of ![![0, 0, 1], ![0, 0, 0], ![1, 0, 0]] := by
  ext j k
  fin_cases j <;> fin_cases k <;> simp [hessian, avgOf, Fin.sum_univ_eight, cubeX, cubeY] <;> norm_num

lemma cube_inv : (covMat cubeX)⁻¹ = (7 / 8 : ℝ) • 1 := by
  refine Matrix.inv_eq_right_inv ?_
  rw [cubeX_cov, Matrix.smul_mul, Matrix.one_mul, smul_smul]
  norm_num

/-- Vectors in the space of the method for the first response. -/
lemma cube_space_one : ihtSpace (covMat cubeX) cubeX (cubeY 1) = Submodule.span ℝ (Set.range ![(![1, 0, 0] : Fin 3 → ℝ), ![0, 1, 0]]) := by
  have hstep : ∀ v : Fin 3 → ℝ, ((covMat cubeX)⁻¹ * hessian cubeX (cubeY 1)).mulVec v = ![7 / 8 * v 1, 7 / 8 * v 0, 0] := by
    intro v
    rw [cube_inv, cube_hessian_one, Matrix.smul_mul, Matrix.one_mul]
    funext i
    fin_cases i <;> simp [Matrix.mulVec, dotProduct, Fin.sum_univ_three]
  have hstart : (covMat cubeX)⁻¹.mulVec (covWith cubeX (cubeY 1)) = ![1, 0, 0] := by
    rw [cube_inv, cube_covWith 1 (by decide), Matrix.smul_mulVec, Matrix.one_mulVec, smul_smul]
    norm_num
  apply le_antisymm
  · rw [ihtSpace, Submodule.span_le]
    rintro _ ⟨k, rfl⟩
    dsimp only
    rw [hstart]
    have : ∀ v : Fin 3 → ℝ, v 2 = 0 → v ∈ Submodule.span ℝ (Set.range ![(![1, 0, 0] : Fin 3 → ℝ), ![0, 1, 0]]) := by
      intro v hv
      have e : v = v 0 • ![1, 0, 0] + v 1 • ![0, 1, 0] := by
        funext i; fin_cases i <;> simp [hv]
      rw [e]
      exact Submodule.add_mem _ (Submodule.smul_mem _ _ (Submodule.subset_span ⟨0, rfl⟩)) (Submodule.smul_mem _ _ (Submodule.subset_span ⟨1, rfl⟩))
    apply this
    cases k with
    | zero => simp
    | succ k => rw [pow_succ', ← Matrix.mulVec_mulVec, hstep]; rfl
  · rw [Submodule.span_le]
    rintro _ ⟨i, rfl⟩
    fin_cases i
    · refine Submodule.subset_span ⟨0, ?_⟩
      dsimp only
      rw [pow_zero, Matrix.one_mulVec, hstart]
      rfl
    · have h1 : ((covMat cubeX)⁻¹ * hessian cubeX (cubeY 1)).mulVec ![1, 0, 0] ∈ ihtSpace (covMat cubeX) cubeX (cubeY 1) := by
        refine Submodule.subset_span ⟨1, ?_⟩
        dsimp only
        rw [pow_one, hstart]
      rw [hstep] at h1
      have h2 := Submodule.smul_mem _ (8 / 7 : ℝ) h1
      have e : ![(![1, 0, 0] : Fin 3 → ℝ), ![0, 1, 0]] 1 = (8 / 7 : ℝ) • ![7 / 8 * ![(1 : ℝ), 0, 0] 1, 7 / 8 * ![(1 : ℝ), 0, 0] 0, 0] := by
        funext i
        show (![0, 1, 0] : Fin 3 → ℝ) i = ((8 / 7 : ℝ) • ![7 / 8 * ![(1 : ℝ), 0, 0] 1, 7 / 8 * ![(1 : ℝ), 0, 0] 0, 0]) i
        fin_cases i <;> simp
      rw [← e] at h2
      exact h2

lemma cube_space_two : ihtSpace (covMat cubeX) cubeX (cubeY 2) = Submodule.span ℝ (Set.range ![(![1, 0, 0] : Fin 3 → ℝ), ![0, 0, 1]]) := by
  have hstep : ∀ v : Fin 3 → ℝ, ((covMat cubeX)⁻¹ * hessian cubeX (cubeY 2)).mulVec v = ![7 / 8 * v 2, 0, 7 / 8 * v 0] := by
    intro v
    rw [cube_inv, cube_hessian_two, Matrix.smul_mul, Matrix.one_mul]
    funext i
    fin_cases i <;> simp [Matrix.mulVec, dotProduct, Fin.sum_univ_three]
  have hstart : (covMat cubeX)⁻¹.mulVec (covWith cubeX (cubeY 2)) = ![1, 0, 0] := by
    rw [cube_inv, cube_covWith 2 (by decide), Matrix.smul_mulVec, Matrix.one_mulVec, smul_smul]
    norm_num
  apply le_antisymm
  · rw [ihtSpace, Submodule.span_le]
    rintro _ ⟨k, rfl⟩
    dsimp only
    rw [hstart]
    have : ∀ v : Fin 3 → ℝ, v 1 = 0 → v ∈ Submodule.span ℝ (Set.range ![(![1, 0, 0] : Fin 3 → ℝ), ![0, 0, 1]]) := by
      intro v hv
      have e : v = v 0 • ![1, 0, 0] + v 2 • ![0, 0, 1] := by
        funext i; fin_cases i <;> simp [hv]
      rw [e]
      exact Submodule.add_mem _ (Submodule.smul_mem _ _ (Submodule.subset_span ⟨0, rfl⟩)) (Submodule.smul_mem _ _ (Submodule.subset_span ⟨1, rfl⟩))
    apply this
    cases k with
    | zero => simp
    | succ k => rw [pow_succ', ← Matrix.mulVec_mulVec, hstep]; rfl
  · rw [Submodule.span_le]
    rintro _ ⟨i, rfl⟩
    fin_cases i
    · refine Submodule.subset_span ⟨0, ?_⟩
      dsimp only
      rw [pow_zero, Matrix.one_mulVec, hstart]
      rfl
    · have h1 : ((covMat cubeX)⁻¹ * hessian cubeX (cubeY 2)).mulVec ![1, 0, 0] ∈ ihtSpace (covMat cubeX) cubeX (cubeY 2) := by
        refine Submodule.subset_span ⟨1, ?_⟩
        dsimp only
        rw [pow_one, hstart]
      rw [hstep] at h1
      have h2 := Submodule.smul_mem _ (8 / 7 : ℝ) h1
      have e : ![(![1, 0, 0] : Fin 3 → ℝ), ![0, 0, 1]] 1 = (8 / 7 : ℝ) • ![7 / 8 * ![(1 : ℝ), 0, 0] 2, 0, 7 / 8 * ![(1 : ℝ), 0, 0] 0] := by
        funext i
        show (![0, 0, 1] : Fin 3 → ℝ) i = ((8 / 7 : ℝ) • ![7 / 8 * ![(1 : ℝ), 0, 0] 2, 0, 7 / 8 * ![(1 : ℝ), 0, 0] 0]) i
        fin_cases i <;> simp
      rw [← e] at h2
      exact h2

/-- C134 is violated: for one of two responses whose space has dimension two, one of the two directions returned is outside that space.  The program takes powers of the
covariance matrix, which is the identity for scaled data, instead of powers of the Hessian matrix. -/
theorem C134_iht_space_violated {eigh : Eigh} (he : IsEigh eigh) (center : Bool) : ∃ (j : Fin 3) (B : Matrix (Fin 3) (Fin (min 2 3)) ℝ),
    iht eigh cubeX (cubeY j) 2 center true = .ok B ∧ Module.finrank ℝ (ihtSpace (covMat cubeX) (centredData center cubeX) (cubeY j)) = 2 ∧
    ∃ k, (fun i => B i k) ∉ ihtSpace (covMat cubeX) (centredData center cubeX) (cubeY j) := by
  have hS : sdrRoot eigh true cubeX = .ok ((1 / Real.sqrt (8 / 7)) • 1) := by
    simp only [sdrRoot, if_true]
    rw [cubeX_cov]
    exact invSqrt_const he (by norm_num)
  obtain ⟨h1, h2, h3, h4⟩ := sdrRoot_spec he hS
  change _ * covMat cubeX * _ = 1 at h2
  set S : Matrix (Fin 3) (Fin 3) ℝ := (1 / Real.sqrt (8 / 7)) • 1 with hSdef
  set B := S * leading eigh (((3 : ℕ) : ℝ) • outer (S.mulVec ((8 / 7 : ℝ) • ![1, 0, 0]))) 2 with hB
  have hrun : ∀ j : Fin 3, j ≠ 0 → iht eigh cubeX (cubeY j) 2 center true = .ok B := by
    intro j hj
    rw [iht, if_neg (by norm_num), hS]
    have hmat : sdrScale true (sdrCentre center cubeX) S = matX (sdrCentre center cubeX) S := by rw [h4]; rfl
    dsimp only
    rw [h3, hmat, iht_kernel he (by norm_num) h1 h2, cube_covWith j hj]
  rw [← sdrCentre_eq, cubeX_centre]
  by_cases hc : ∃ k, (fun i => B i k) ∉ ihtSpace (covMat cubeX) cubeX (cubeY 1)
  · refine ⟨1, B, hrun 1 (by decide), ?_, hc⟩
    rw [cube_space_one, finrank_span_eq_card]
    · simp
    · rw [LinearIndependent.pair_iff]
      intro s t hst
      have e0 := congrFun hst 0
      have e1 := congrFun hst 1
      simp at e0 e1
      exact ⟨e0, e1⟩
  · push Not at hc
    refine ⟨2, B, hrun 2 (by decide), ?_, ?_⟩
    · rw [cube_space_two, finrank_span_eq_card]
      · simp
      · rw [LinearIndependent.pair_iff]
        intro s t hst
        have e0 := congrFun hst 0
        have e1 := congrFun hst 2
        simp at e0 e1
        exact ⟨e0, e1⟩
    · by_contra hc'
      push Not at hc'
      have hz : ∀ k, B 2 k = 0 := by
        intro k
        have := hc k
        rw [cube_space_one, Matrix.range_cons, Matrix.range_cons, Matrix.range_empty, Set.union_empty, Set.singleton_union, Submodule.mem_span_pair] at this
        obtain ⟨a, b, hab⟩ := this
        have := congrFun hab 2
        simpa using this.symm
      have hz' : ∀ k, B 1 k = 0 := by
        intro k
        have := hc' k
        rw [cube_space_two, Matrix.range_cons, Matrix.range_cons, Matrix.range_empty, Set.union_empty, Set.singleton_union, Submodule.mem_span_pair] at this
        obtain ⟨a, b, hab⟩ := this
        have := congrFun hab 1
        simpa using this.symm
      have horth := C89_iht he cubeX (cubeY 1) 2 center true B (hrun 1 (by decide))
      simp only [if_true] at horth
      have hval : ∀ k l, (B.transpose * covMat cubeX * B) k l = 8 / 7 * (B 0 k * B 0 l) := by
        intro k l
        rw [cubeX_cov, Matrix.mul_smul, Matrix.mul_one, Matrix.smul_mul, Matrix.smul_apply, Matrix.mul_apply, Fin.sum_univ_three]
        simp only [Matrix.transpose_apply, hz, hz', smul_eq_mul]
        ring
      rw [OrthonormalIn] at horth
      have k0 : Fin (min 2 3) := ⟨0, by norm_num⟩
      have a00 := hval ⟨0, by norm_num⟩ ⟨0, by norm_num⟩
      have a01 := hval ⟨0, by norm_num⟩ ⟨1, by norm_num⟩
      have a11 := hval ⟨1, by norm_num⟩ ⟨1, by norm_num⟩
      rw [horth] at a00 a01 a11
      rw [Matrix.one_apply_eq] at a00 a11
      rw [Matrix.one_apply_ne (by simp)] at a01
      have : B 0 ⟨0, by norm_num⟩ * B 0 ⟨1, by norm_num⟩ = 0 := by linarith
      rcases mul_eq_zero.mp this with h | h
      · rw [h] at a00; norm_num at a00
      · rw [h] at a11; norm_num at a11

/-- The hypotheses of the partial theorem can be met. -/
example : ∃ (eigh : Eigh), IsEigh eigh ∧ covWith cubeX (cubeY 1) ≠ 0 ∧ ∃ B, iht eigh cubeX (cubeY 1) 1 true true = .ok B := by
  obtain ⟨eigh, he⟩ := exists_eigh
  refine ⟨eigh, he, ?_, ?_⟩
  · rw [cube_covWith 1 (by decide)]
    intro h
    have := congrFun h 0
    norm_num at this
  · rw [iht, if_neg (by norm_num), sdrRoot, if_pos rfl, cubeX_cov, invSqrt_const he (by norm_num)]
    exact ⟨_, rfl⟩

end Direpack
