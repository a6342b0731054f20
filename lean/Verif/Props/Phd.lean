import Mathlib.Tactic.FinCases
import Mathlib.Tactic.NormNum
import Verif.Props.SlicingEig

/-! Property C91: principal Hessian directions and the sign of the response.  Also data that meet the hypotheses of C89 and C90. -/

namespace Direpack

open scoped BigOperators
open Spec

variable {n p : ℕ}

/-! ### Shift and scale of the response -/

lemma phdMat_affine (hn : 0 < n) (X : Fin n → Fin p → ℝ) (y : Fin n → ℝ) (a b : ℝ) :
    phdMat X (fun c => a * y c + b) = a • phdMat X y := by
  have hm : mean (fun c => a * y c + b) = a * mean y + b := by
    have hn' : (n : ℝ) ≠ 0 := by exact_mod_cast hn.ne'
    rw [mean_eq, mean_eq, Finset.sum_add_distrib, ← Finset.mul_sum]
    simp
    field_simp
  ext j k
  simp only [phdMat, Matrix.of_apply, Matrix.smul_apply, smul_eq_mul, hm]
  rw [← mul_div_assoc, Finset.mul_sum]
  congr 1
  exact Finset.sum_congr rfl fun c _ => by ring

/-- C91 (partial: shift of the response only): adding a constant to the response does not change principal Hessian directions. -/
theorem C91_shift_partial (eigh : Eigh) (X : Fin n → Fin p → ℝ) (y : Fin n → ℝ) (b : ℝ) (d : ℕ) (center scale : Bool) :
    phd eigh X (fun c => y c + b) d center scale = phd eigh X y d center scale := by
  rw [phd, phd]
  by_cases h1 : n < 2 ∨ p < 2
  · rw [if_pos h1, if_pos h1]
  · rw [if_neg h1, if_neg h1]
    have h := fun Z => phdMat_affine (n := n) (p := p) (by omega) Z y 1 b
    simp only [one_mul, one_smul] at h
    simp only [h]

/-! ### The eigenvalue routine on multiples of the identity -/

lemma eigh_const {eigh : Eigh} (he : IsEigh eigh) (a : ℝ) (j : Fin p) : (eigh (a • (1 : Matrix (Fin p) (Fin p) ℝ))).1 j = a := by
  have hs : (a • (1 : Matrix (Fin p) (Fin p) ℝ)).transpose = a • 1 := by rw [Matrix.transpose_smul, Matrix.transpose_one]
  have h1 := he.decomp _ hs
  have h2 := he.orth _ hs
  set V := (eigh (a • (1 : Matrix (Fin p) (Fin p) ℝ))).2
  set l := (eigh (a • (1 : Matrix (Fin p) (Fin p) ℝ))).1
  have h3 : a • (1 : Matrix (Fin p) (Fin p) ℝ) = Matrix.diagonal l := by
    calc a • (1 : Matrix (Fin p) (Fin p) ℝ) = V.transpose * (a • 1 * V) := by rw [smul_mul_assoc, Matrix.one_mul, mul_smul_comm, h2]
      _ = Matrix.diagonal l := by rw [h1, ← Matrix.mul_assoc, h2, Matrix.one_mul]
  have := congrFun (congrFun h3 j) j
  simpa using this.symm

lemma invSqrt_const {eigh : Eigh} (he : IsEigh eigh) {a : ℝ} (ha : 0 < a) :
    invSqrt eigh (a • (1 : Matrix (Fin p) (Fin p) ℝ)) = .ok ((1 / Real.sqrt a) • 1) := by
  have hs : (a • (1 : Matrix (Fin p) (Fin p) ℝ)).transpose = a • 1 := by rw [Matrix.transpose_smul, Matrix.transpose_one]
  have hA2 : (1 / 2 : ℝ) • (a • (1 : Matrix (Fin p) (Fin p) ℝ) + (a • (1 : Matrix (Fin p) (Fin p) ℝ)).transpose) = a • 1 := by
    rw [hs, ← two_smul ℝ (a • (1 : Matrix (Fin p) (Fin p) ℝ)), smul_smul]; norm_num
  unfold invSqrt
  rw [hA2]
  dsimp only
  rw [if_pos fun j => by rw [eigh_const he]; exact ha]
  congr 1
  have : (fun j => 1 / Real.sqrt ((eigh (a • (1 : Matrix (Fin p) (Fin p) ℝ))).1 j)) = fun _ => 1 / Real.sqrt a := by
    funext j; rw [eigh_const he]
  rw [this, ← Matrix.smul_one_eq_diagonal, mul_smul_comm, Matrix.mul_one, smul_mul_assoc, he.orth' _ hs]

/-! ### Four points on the axes -/

/-- Four cases, at distance one from the origin on the two axes. -/
def crossX : Fin 4 → Fin 2 → ℝ := ![![1, 0], ![-1, 0], ![0, 1], ![0, -1]]

/-- The response is one on the first axis and minus one on the second. -/
def crossY : Fin 4 → ℝ := ![1, 1, -1, -1]

lemma crossX_mean (j : Fin 2) : (mean fun c => crossX c j) = 0 := by
  rw [mean_eq]
  fin_cases j <;> simp [Fin.sum_univ_four, crossX]

lemma crossX_cov : covMat crossX = (2 / 3 : ℝ) • 1 := by
  ext j k
  simp only [covMat, Matrix.of_apply, crossX_mean]
  fin_cases j <;> fin_cases k <;> simp [Fin.sum_univ_four, crossX] <;> norm_num

lemma crossX_centre (center : Bool) : sdrCentre center crossX = crossX := by
  cases center
  · rfl
  · funext c j
    simp only [sdrCentre, if_true]
    rw [crossX_mean, sub_zero]

/-- The standardised data. -/
lemma crossX_scale (center : Bool) (a : ℝ) : sdrScale true (sdrCentre center crossX) (a • 1) = fun c j => a * crossX c j := by
  rw [crossX_centre]
  funext c j
  simp only [sdrScale, if_true, Matrix.smul_apply, smul_eq_mul]
  rw [Finset.sum_eq_single j]
  · rw [Matrix.one_apply_eq]; ring
  · intro k _ hk; rw [Matrix.one_apply_ne hk]; ring
  · simp

lemma crossX_root {eigh : Eigh} (he : IsEigh eigh) : sdrRoot eigh true crossX = .ok ((1 / Real.sqrt (2 / 3)) • 1) := by
  simp only [sdrRoot, if_true]
  rw [crossX_cov]
  exact invSqrt_const he (by norm_num)

/-- SIR on these data: the hypotheses of C89 and C90 can be met. -/
example : ∃ (eigh : Eigh), IsEigh eigh ∧ ∃ B, sliceMethod .sir eigh crossX crossY 2 1 false true true = .ok B := by
  obtain ⟨eigh, he⟩ := exists_eigh
  refine ⟨eigh, he, ?_⟩
  have hl : numLabels crossY = 2 := by
    have : Finset.univ.image crossY = {1, -1} := by
      ext a
      simp [crossY, Fin.exists_fin_succ, eq_comm]
    unfold numLabels
    rw [this, Finset.card_pair (by norm_num)]
  obtain ⟨lab, hlab, -⟩ := C63_labels crossY (by norm_num) 2 (by rw [hl])
  rw [sliceMethod, if_neg (by norm_num), crossX_root he]
  dsimp only
  simp only [sliceResponse, Bool.false_eq_true, if_false]
  rw [hlab]
  dsimp only
  rw [if_neg (by norm_num)]
  exact ⟨_, rfl⟩

/-! ### Sign of the response -/

lemma cross_phdMat (a s : ℝ) : phdMat (fun c j => a * crossX c j) (fun c => s * crossY c) = Matrix.diagonal ![a ^ 2 * s / 2, -(a ^ 2 * s / 2)] := by
  have hm : mean (fun c => s * crossY c) = 0 := by
    rw [mean_eq]; simp [Fin.sum_univ_four, crossY]
  ext j k
  simp only [phdMat, Matrix.of_apply, hm]
  fin_cases j <;> fin_cases k <;> simp [Fin.sum_univ_four, crossX, crossY] <;> ring

lemma quad_two (a b : ℝ) (v : Fin 2 → ℝ) : quad (Matrix.diagonal ![a, b]) v = a * v 0 ^ 2 + b * v 1 ^ 2 := by
  simp [quad, Fin.sum_univ_two]
  ring

/-- The leading eigenvector of `diag (a, -a)` is along the first axis. -/
lemma leading_diag {eigh : Eigh} (he : IsEigh eigh) {a : ℝ} (ha : 0 < a) (k : Fin (min 1 2)) :
    leading eigh (Matrix.diagonal ![a, -a]) 1 1 k = 0 ∧ leading eigh (Matrix.diagonal ![a, -a]) 1 0 k ≠ 0 := by
  have hM := Matrix.diagonal_transpose (![a, -a] : Fin 2 → ℝ)
  have h1 := leading_max he hM k ![1, 0] (by simp [Fin.sum_univ_two]) (by
    intro l hl
    have := k.2
    have := l.2
    simp only [Fin.lt_def] at hl
    omega)
  have h2 := congrFun (congrFun (leading_orth he hM 1) k) k
  rw [Matrix.mul_apply, Fin.sum_univ_two, Matrix.one_apply_eq] at h2
  simp only [Matrix.transpose_apply] at h2
  rw [quad_two, quad_two] at h1
  simp only [Matrix.cons_val_zero, Matrix.cons_val_one] at h1
  have h3 : leading eigh (Matrix.diagonal ![a, -a]) 1 1 k ^ 2 ≤ 0 := by
    set u := leading eigh (Matrix.diagonal ![a, -a]) 1 0 k
    set w := leading eigh (Matrix.diagonal ![a, -a]) 1 1 k
    have : 0 ≤ a * (-2 * w ^ 2) := by nlinarith
    nlinarith [nonneg_of_mul_nonneg_right this ha]
  have h4 : leading eigh (Matrix.diagonal ![a, -a]) 1 1 k = 0 := by
    have := le_antisymm h3 (sq_nonneg _)
    exact pow_eq_zero_iff (two_ne_zero) |>.mp this
  refine ⟨h4, ?_⟩
  intro h0
  rw [h0, h4] at h2
  norm_num at h2

/-- The same for `diag (-a, a)`. -/
lemma leading_diag' {eigh : Eigh} (he : IsEigh eigh) {a : ℝ} (ha : 0 < a) (k : Fin (min 1 2)) :
    leading eigh (Matrix.diagonal ![-a, a]) 1 0 k = 0 ∧ leading eigh (Matrix.diagonal ![-a, a]) 1 1 k ≠ 0 := by
  have hM := Matrix.diagonal_transpose (![-a, a] : Fin 2 → ℝ)
  have h1 := leading_max he hM k ![0, 1] (by simp [Fin.sum_univ_two]) (by
    intro l hl
    have := k.2
    have := l.2
    simp only [Fin.lt_def] at hl
    omega)
  have h2 := congrFun (congrFun (leading_orth he hM 1) k) k
  rw [Matrix.mul_apply, Fin.sum_univ_two, Matrix.one_apply_eq] at h2
  simp only [Matrix.transpose_apply] at h2
  rw [quad_two, quad_two] at h1
  simp only [Matrix.cons_val_zero, Matrix.cons_val_one] at h1
  have h3 : leading eigh (Matrix.diagonal ![-a, a]) 1 0 k ^ 2 ≤ 0 := by
    set u := leading eigh (Matrix.diagonal ![-a, a]) 1 1 k
    set w := leading eigh (Matrix.diagonal ![-a, a]) 1 0 k
    have : 0 ≤ a * (-2 * w ^ 2) := by nlinarith
    nlinarith [nonneg_of_mul_nonneg_right this ha]
  have h4 : leading eigh (Matrix.diagonal ![-a, a]) 1 0 k = 0 := by
    have := le_antisymm h3 (sq_nonneg _)
    exact pow_eq_zero_iff (two_ne_zero) |>.mp this
  refine ⟨h4, ?_⟩
  intro h0
  rw [h0, h4] at h2
  norm_num at h2

lemma smul_one_mul_apply {d : ℕ} (a : ℝ) (B : Matrix (Fin p) (Fin d) ℝ) (i : Fin p) (k : Fin d) :
    ((a • (1 : Matrix (Fin p) (Fin p) ℝ)) * B) i k = a * B i k := by
  rw [Matrix.smul_mul, Matrix.one_mul]; rfl

/-- C91 is violated: the direction found for the response with its sign changed is not a multiple of the one found for the response itself,
because the directions are taken by the size of the eigenvalues and not by their absolute size. -/
theorem C91_sign_violated : ∃ (X : Fin 4 → Fin 2 → ℝ) (y : Fin 4 → ℝ), ∀ (eigh : Eigh), IsEigh eigh → ∀ center, ∃ B B',
    phd eigh X y 1 center true = .ok B ∧ phd eigh X (fun c => -y c) 1 center true = .ok B' ∧ ¬ ∃ a : ℝ, B' = a • B := by
  refine ⟨crossX, crossY, fun eigh he center => ?_⟩
  set a := 1 / Real.sqrt (2 / 3) with ha
  have hapos : 0 < a := by rw [ha]; positivity
  have hstep : ∀ s : ℝ, phd eigh crossX (fun c => s * crossY c) 1 center true =
      .ok ((a • (1 : Matrix (Fin 2) (Fin 2) ℝ)) * leading eigh (Matrix.diagonal ![a ^ 2 * s / 2, -(a ^ 2 * s / 2)]) 1) := by
    intro s
    rw [phd, if_neg (by norm_num), crossX_root he]
    dsimp only
    rw [crossX_scale, cross_phdMat]
    rfl
  have h1 := hstep 1
  have h2 := hstep (-1)
  simp only [one_mul, neg_one_mul, mul_one, mul_neg, neg_div, neg_neg] at h1 h2
  refine ⟨_, _, h1, h2, ?_⟩
  rintro ⟨t, ht⟩
  have hp : 0 < a ^ 2 / 2 := by positivity
  have k : Fin (min 1 2) := ⟨0, by norm_num⟩
  have e := congrFun (congrFun ht 1) k
  rw [Matrix.smul_apply, smul_eq_mul, smul_one_mul_apply, smul_one_mul_apply] at e
  rw [(leading_diag he hp k).1, mul_zero, mul_zero] at e
  rcases mul_eq_zero.mp e with h | h
  · exact absurd h hapos.ne'
  · exact (leading_diag' he hp k).2 h

end Direpack
