import Mathlib.Algebra.Order.Chebyshev
import Verif.Props.SudireCrit
import Verif.Props.SudireFit

/-! Property C174: what sliced inverse regression sees is also seen by sliced average variance estimation. -/

namespace Direpack

open scoped BigOperators
open Spec

variable {n p s : ℕ}

/-- The cases with response `a` projected on `b`. -/
lemma meanOf_proj (X : Fin n → Fin p → ℝ) (y : Fin n → ℝ) (a : ℝ) (b : Fin p → ℝ) :
    ∑ j, meanOf X y a j * b j = (∑ c ∈ casesWith y a, ∑ j, X c j * b j) / (casesWith y a).card := by
  simp only [meanOf]
  rw [Finset.sum_comm, Finset.sum_div]
  refine Finset.sum_congr rfl fun j _ => ?_
  rw [← Finset.sum_mul]
  ring

/-- The sum of squares of the projections within a slice. -/
lemma covOf_within (M : Matrix (Fin p) (Fin p) ℝ) (X : Fin n → Fin p → ℝ) (y : Fin n → ℝ) (a : ℝ) (b : Fin p → ℝ) (h : 0 < (casesWith y a).card) :
    (((casesWith y a).card : ℝ) - 1) * quad (covOf M X y a) b =
      ∑ c ∈ casesWith y a, (∑ j, X c j * b j - (∑ c ∈ casesWith y a, ∑ j, X c j * b j) / (casesWith y a).card) ^ 2 := by
  by_cases h1 : 1 < (casesWith y a).card
  · have h2 : (((casesWith y a).card : ℝ) - 1) ≠ 0 := by
      have : (1 : ℝ) < (casesWith y a).card := by exact_mod_cast h1
      linarith
    rw [covOf, if_pos h1, ← meanOf_proj]
    simp only [quad, Matrix.of_apply]
    rw [Finset.mul_sum]
    have : ∀ c, (∑ j, X c j * b j - ∑ j, meanOf X y a j * b j) ^ 2 = ∑ j, ∑ k, b j * ((X c j - meanOf X y a j) * (X c k - meanOf X y a k)) * b k := by
      intro c
      rw [← Finset.sum_sub_distrib, sq, Finset.sum_mul_sum]
      exact Finset.sum_congr rfl fun j _ => Finset.sum_congr rfl fun k _ => by ring
    simp only [this]
    rw [Finset.sum_comm]
    refine Finset.sum_congr rfl fun j _ => ?_
    rw [Finset.sum_comm, Finset.mul_sum]
    refine Finset.sum_congr rfl fun k _ => ?_
    rw [← Finset.sum_mul, ← Finset.mul_sum]
    field_simp
  · have h2 : (casesWith y a).card = 1 := by omega
    obtain ⟨c, hc⟩ := Finset.card_eq_one.mp h2
    rw [hc]
    simp

/-- Total variation is the variation within the slices plus that between them. -/
lemma sum_sq_slices (u : Fin n → ℝ) {y : Fin n → ℝ} {lab : Fin s → ℝ} (hinj : Function.Injective lab) (hcov : ∀ c, ∃ i, y c = lab i) (hne : ∀ i, 0 < (casesWith y (lab i)).card) :
    ∑ c, u c ^ 2 = ∑ i, (∑ c ∈ casesWith y (lab i), (u c - (∑ c ∈ casesWith y (lab i), u c) / (casesWith y (lab i)).card) ^ 2 +
      (casesWith y (lab i)).card * ((∑ c ∈ casesWith y (lab i), u c) / (casesWith y (lab i)).card) ^ 2) := by
  classical
  have h1 : ∑ c, u c ^ 2 = ∑ i, ∑ c ∈ casesWith y (lab i), u c ^ 2 := by
    rw [← Finset.sum_biUnion]
    · refine Finset.sum_congr ?_ fun _ _ => rfl
      ext c
      simpa [casesWith] using hcov c
    · intro i _ j _ hij
      rw [Function.onFun, Finset.disjoint_left]
      intro c hc hc'
      simp only [casesWith, Finset.mem_filter, Finset.mem_univ, true_and] at hc hc'
      exact hij (hinj (hc.symm.trans hc'))
  rw [h1]
  refine Finset.sum_congr rfl fun i _ => ?_
  have hc : ((casesWith y (lab i)).card : ℝ) ≠ 0 := by exact_mod_cast (hne i).ne'
  set m := (∑ c ∈ casesWith y (lab i), u c) / (casesWith y (lab i)).card with hm
  have h2 : ∑ c ∈ casesWith y (lab i), u c = (casesWith y (lab i)).card * m := by rw [hm]; field_simp
  have h3 : ∑ c ∈ casesWith y (lab i), (u c - m) ^ 2 = ∑ c ∈ casesWith y (lab i), u c ^ 2 - 2 * m * ∑ c ∈ casesWith y (lab i), u c + (casesWith y (lab i)).card * m ^ 2 := by
    rw [Finset.mul_sum, ← Finset.sum_sub_distrib, ← nsmul_eq_mul, ← Finset.sum_const, ← Finset.sum_add_distrib]
    exact Finset.sum_congr rfl fun c _ => by ring
  rw [h3, h2]
  ring

lemma covMat_proj (hn : 2 ≤ n) (X : Fin n → Fin p → ℝ) (b : Fin p → ℝ) : ∑ c, (∑ j, sdrCentre true X c j * b j) ^ 2 = ((n : ℝ) - 1) * quad (covMat X) b := by
  have h2 : ((n : ℝ) - 1) ≠ 0 := by
    have : (2 : ℝ) ≤ n := by exact_mod_cast hn
    intro h; linarith
  simp only [quad, covMat, Matrix.of_apply, sdrCentre, if_true]
  rw [Finset.mul_sum]
  have : ∀ c, (∑ j, (X c j - mean fun i => X i j) * b j) ^ 2 = ∑ j, ∑ k, b j * ((X c j - mean fun i => X i j) * (X c k - mean fun i => X i k)) * b k := by
    intro c
    rw [sq, Finset.sum_mul_sum]
    exact Finset.sum_congr rfl fun j _ => Finset.sum_congr rfl fun k _ => by ring
  simp only [this]
  rw [Finset.sum_comm]
  refine Finset.sum_congr rfl fun j _ => ?_
  rw [Finset.sum_comm, Finset.mul_sum]
  refine Finset.sum_congr rfl fun k _ => ?_
  rw [← Finset.sum_mul, ← Finset.mul_sum]
  field_simp

/-- The labels of slices that cover all cases. -/
lemma cover_labels {cont : Bool} {y : Fin n → ℝ} (hn : 0 < n) (hs : SlicesCover cont y s) {yd : Fin n → ℝ} {lab : Fin s → ℝ}
    (hy : sliceResponse cont y s = .ok yd) (hl : sliceLabels yd s = .ok lab) :
    Function.Injective lab ∧ (∀ c, ∃ i, yd c = lab i) ∧ ∀ i, 0 < (casesWith yd (lab i)).card := by
  have h1 := slicesCover_labels hs hn hy
  have h2 : ¬ numLabels yd < s := fun h => by rw [C63_too_few_labels yd hn s h] at hl; exact absurd hl (by simp)
  obtain ⟨lab', h3, h4, h5⟩ := C63_proportions_partial yd hn s (by omega)
  obtain ⟨lab'', h6, h7, h8⟩ := C63_labels yd hn s (by omega)
  rw [hl] at h3 h6
  cases h3
  cases h6
  refine ⟨h7, h4, fun i => ?_⟩
  obtain ⟨c, hc⟩ := h8 i
  exact Finset.card_pos.mpr ⟨c, by simp [casesWith, hc]⟩

/-- Analysis of variance: the variation between the slices in a direction of unit variance. -/
lemma between_anova {cont : Bool} {y : Fin n → ℝ} (hn : 2 ≤ n) (hs : SlicesCover cont y s) {yd : Fin n → ℝ} {lab : Fin s → ℝ}
    (hy : sliceResponse cont y s = .ok yd) (hl : sliceLabels yd s = .ok lab) (X : Fin n → Fin p → ℝ) (M : Matrix (Fin p) (Fin p) ℝ) (b : Fin p → ℝ)
    (hb : quad (covMat X) b = 1) :
    (n : ℝ) * betweenSlices (centredData true X) yd lab b =
      (s - 1) + ∑ i, (((casesWith yd (lab i)).card : ℝ) - 1) * (1 - quad (covOf M (centredData true X) yd (lab i)) b) := by
  obtain ⟨hinj, hcov, hne⟩ := cover_labels (by omega) hs hy hl
  have hn' : (n : ℝ) ≠ 0 := by
    have : n ≠ 0 := by omega
    exact_mod_cast this
  have h1 := covMat_proj hn X b
  rw [hb, mul_one, sum_sq_slices _ hinj hcov hne, Finset.sum_add_distrib, sdrCentre_eq] at h1
  have h2 : (n : ℝ) * betweenSlices (centredData true X) yd lab b = ∑ i, ((casesWith yd (lab i)).card : ℝ) *
      ((∑ c ∈ casesWith yd (lab i), ∑ j, centredData true X c j * b j) / (casesWith yd (lab i)).card) ^ 2 := by
    rw [betweenSlices, Finset.mul_sum]
    refine Finset.sum_congr rfl fun i _ => ?_
    unfold casesWith
    field_simp
  have h3 : ∑ i, ((casesWith yd (lab i)).card : ℝ) = n := by
    have := (slices_cover (by omega) hs hy hl X).1
    simp only [shareOf] at this
    rw [← Finset.sum_div, div_eq_one_iff_eq hn'] at this
    exact this
  rw [← h2] at h1
  rw [Finset.sum_congr rfl fun i _ => (covOf_within M (centredData true X) yd (lab i) b (hne i)).symm] at h1
  simp only [mul_sub, mul_one, Finset.sum_sub_distrib, h3]
  simp
  linarith

/-- In a direction of unit variance the difference of the variance of a slice and one is at most what SAVE sees of that slice. -/
lemma covOf_gap {M S V : Matrix (Fin p) (Fin p) ℝ} (h1 : S.transpose = S) (h2 : S * M * S = 1) (hM : M.transpose = M) (hV : V.transpose = V) (b : Fin p → ℝ) (hb : quad M b = 1) :
    (1 - quad V b) ^ 2 ≤ quad ((V - M) * M⁻¹ * (V - M)) b := by
  set c := (M * S).mulVec b with hc
  have hSA : S * (M * S) = 1 := by rw [← Matrix.mul_assoc]; exact h2
  have hbS : b = S.mulVec c := by rw [hc, Matrix.mulVec_mulVec, hSA, Matrix.one_mulVec]
  set W := S * (V - M) * S with hW
  have hWs : W.transpose = W := by
    rw [hW, Matrix.transpose_mul, Matrix.transpose_mul, Matrix.transpose_sub, h1, hM, hV, Matrix.mul_assoc]
  have hcc : c ⬝ᵥ c = 1 := by
    have := quad_conj h1 M c
    rw [h2, ← hbS, hb, quadForm_eq, Matrix.one_mulVec] at this
    exact this
  have e1 : quad V b - 1 = c ⬝ᵥ W.mulVec c := by
    have := quad_conj h1 (V - M) c
    rw [← hbS, quadForm_eq] at this
    rw [← hW] at this
    rw [this]
    have e : V - M = V + (-1 : ℝ) • M := by rw [neg_one_smul, sub_eq_add_neg]
    rw [e, quad_add, quad_smul, hb]
    ring
  have e2 : quad ((V - M) * M⁻¹ * (V - M)) b = W.mulVec c ⬝ᵥ W.mulVec c := by
    rw [root_inv h2]
    conv_lhs => rw [hbS]
    rw [← quad_conj h1]
    have : S * ((V - M) * (S * S) * (V - M)) * S = W * W := by rw [hW]; noncomm_ring
    rw [this, quadForm_eq, ← Matrix.mulVec_mulVec, Matrix.dotProduct_mulVec, ← Matrix.mulVec_transpose, hWs]
  have hcs : (c ⬝ᵥ W.mulVec c) ^ 2 ≤ (c ⬝ᵥ c) * (W.mulVec c ⬝ᵥ W.mulVec c) := by
    have := Finset.sum_mul_sq_le_sq_mul_sq Finset.univ c (W.mulVec c)
    simpa [dotProduct, sq] using this
  rw [e2, show (1 - quad V b) ^ 2 = (quad V b - 1) ^ 2 by ring, e1]
  rw [hcc, one_mul] at hcs
  exact hcs

/-- **C174.** Scaled data and slices that cover all cases.  If SAVE returns a model, then in every direction of unit variance the variation between the slices, which SIR maximises, is
at most `(s - 1) / n` plus the square root of what SAVE maximises; if SAVE sees nothing it is exactly `(s - 1) / n`.  (Missing: it should be zero; see `C174_save_sir_violated`.) -/
theorem C174_save_sir_partial {eigh : Eigh} (he : IsEigh eigh) (X : Fin n → Fin p → ℝ) (y : Fin n → ℝ) (s d : ℕ) (cont center : Bool) (hs : SlicesCover cont y s)
    (B : Matrix (Fin p) (Fin (min d p)) ℝ) (h : sliceMethod .save eigh X y s d cont center true = .ok B) :
    ∃ yd lab, sliceResponse cont y s = .ok yd ∧ sliceLabels yd s = .ok lab ∧ ∀ b : Fin p → ℝ, quad (covMat X) b = 1 →
      betweenSlices (centredData true X) yd lab b ≤ ((s : ℝ) - 1) / n + √(saveCriterion (covMat X) (centredData true X) yd lab b) ∧
      (saveCriterion (covMat X) (centredData true X) yd lab b = 0 → betweenSlices (centredData true X) yd lab b = ((s : ℝ) - 1) / n) := by
  obtain ⟨S, yd, lab, hS, hy, hl, -⟩ := sliceMethod_ok h
  refine ⟨yd, lab, hy, hl, fun b hb => ?_⟩
  have hsz := (sliceMethod_size h).1
  obtain ⟨h1, h2, -, -⟩ := sdrRoot_spec he hS
  change S * covMat X * S = 1 at h2
  have hn0 : (0 : ℝ) < n := by exact_mod_cast (by omega : 0 < n)
  obtain ⟨hinj, hcov, hne⟩ := cover_labels (by omega) hs hy hl
  have hsum := (slices_cover (by omega) hs hy hl X).1
  have han := between_anova hsz hs hy hl X (covMat X) b hb
  set Z := centredData true X with hZ
  set g : Fin s → ℝ := fun i => 1 - quad (covOf (covMat X) Z yd (lab i)) b with hg
  have hsh : ∀ i, 0 ≤ shareOf yd (lab i) := fun i => by unfold shareOf; positivity
  have hgap : ∑ i, shareOf yd (lab i) * g i ^ 2 ≤ saveCriterion (covMat X) Z yd lab b :=
    Finset.sum_le_sum fun i _ => mul_le_mul_of_nonneg_left (covOf_gap h1 h2 (covMat_symm X) (covOf_symm (covMat_symm X) ..) b hb) (hsh i)
  have hjen : (∑ i, shareOf yd (lab i) * |g i|) ^ 2 ≤ ∑ i, shareOf yd (lab i) * g i ^ 2 := by
    have := Finset.sum_mul_sq_le_sq_mul_sq Finset.univ (fun i => √(shareOf yd (lab i))) fun i => √(shareOf yd (lab i)) * |g i|
    have e1 : ∀ i, √(shareOf yd (lab i)) * (√(shareOf yd (lab i)) * |g i|) = shareOf yd (lab i) * |g i| := fun i => by
      rw [← mul_assoc, Real.mul_self_sqrt (hsh i)]
    have e2 : ∀ i, √(shareOf yd (lab i)) ^ 2 = shareOf yd (lab i) := fun i => Real.sq_sqrt (hsh i)
    have e3 : ∀ i, (√(shareOf yd (lab i)) * |g i|) ^ 2 = shareOf yd (lab i) * g i ^ 2 := fun i => by rw [mul_pow, e2, sq_abs]
    simp only [e1, e2, e3, hsum, one_mul] at this
    exact this
  have hle : ∑ i, (((casesWith yd (lab i)).card : ℝ) - 1) * g i ≤ n * ∑ i, shareOf yd (lab i) * |g i| := by
    rw [Finset.mul_sum]
    refine Finset.sum_le_sum fun i _ => ?_
    have hc : (1 : ℝ) ≤ (casesWith yd (lab i)).card := by exact_mod_cast hne i
    have : (n : ℝ) * (shareOf yd (lab i) * |g i|) = (casesWith yd (lab i)).card * |g i| := by unfold shareOf; field_simp
    rw [this]
    calc (((casesWith yd (lab i)).card : ℝ) - 1) * g i ≤ (((casesWith yd (lab i)).card : ℝ) - 1) * |g i| :=
          mul_le_mul_of_nonneg_left (le_abs_self _) (by linarith)
      _ ≤ _ := mul_le_mul_of_nonneg_right (by linarith) (abs_nonneg _)
  constructor
  · have h5 : ∑ i, shareOf yd (lab i) * |g i| ≤ √(saveCriterion (covMat X) Z yd lab b) := Real.le_sqrt_of_sq_le (hjen.trans hgap)
    rw [div_add' _ _ _ hn0.ne', le_div_iff₀ hn0, mul_comm, han]
    nlinarith [mul_le_mul_of_nonneg_left h5 hn0.le]
  · intro h0
    have h6 : ∑ i, shareOf yd (lab i) * g i ^ 2 = 0 :=
      le_antisymm (hgap.trans h0.le) (Finset.sum_nonneg fun i _ => mul_nonneg (hsh i) (sq_nonneg _))
    have h7 : ∀ i, g i = 0 := fun i => by
      have := (Finset.sum_eq_zero_iff_of_nonneg fun i _ => mul_nonneg (hsh i) (sq_nonneg (g i))).mp h6 i (Finset.mem_univ i)
      have hpos : 0 < shareOf yd (lab i) := by
        have : (0 : ℝ) < (casesWith yd (lab i)).card := by exact_mod_cast hne i
        unfold shareOf; positivity
      rcases mul_eq_zero.mp this with h | h
      · exact absurd h hpos.ne'
      · exact pow_eq_zero_iff (by norm_num) |>.mp h
    rw [eq_div_iff hn0.ne', mul_comm, han, Finset.sum_eq_zero fun i _ => by
      change _ * g i = 0
      rw [h7, mul_zero]]
    ring

/-! ### Eight cases -/

/-- Two slices of four; the means of the first variable in the slices are 1 and -1, those of the second are zero. -/
def eightX : Fin 8 → Fin 2 → ℝ := ![![5, 0], ![-1, 1], ![-1, -1], ![1, 0], ![3, 0], ![-3, 2], ![-3, -2], ![-1, 0]]

/-- The slices. -/
def eightY : Fin 8 → ℝ := ![1, 1, 1, 1, 0, 0, 0, 0]

lemma eightX_mean (j : Fin 2) : (mean fun c => eightX c j) = 0 := by
  rw [mean_eq]
  fin_cases j <;> simp [Fin.sum_univ_eight, eightX] <;> norm_num

lemma eightX_centre : centredData true eightX = eightX := by
  rw [← sdrCentre_eq]
  funext c j
  simp only [sdrCentre, if_true]
  rw [eightX_mean, sub_zero]

lemma eightX_cov : covMat eightX = Matrix.diagonal ![8, 10 / 7] := by
  ext j k
  simp only [covMat, Matrix.of_apply, eightX_mean]
  fin_cases j <;> fin_cases k <;> simp [Fin.sum_univ_eight, eightX] <;> norm_num

lemma eightY_image : Finset.univ.image eightY = {1, 0} := by
  ext a
  simp [eightY, Fin.exists_fin_succ, eq_comm]

lemma eight_one : casesWith eightY 1 = {0, 1, 2, 3} := by
  ext c; rw [casesWith, Finset.mem_filter]; fin_cases c <;> simp [eightY]

lemma eight_zero : casesWith eightY 0 = {4, 5, 6, 7} := by
  ext c; rw [casesWith, Finset.mem_filter]; fin_cases c <;> simp [eightY]

lemma eight_card_one : ({0, 1, 2, 3} : Finset (Fin 8)).card = 4 := by decide

lemma eight_card_zero : ({4, 5, 6, 7} : Finset (Fin 8)).card = 4 := by decide

lemma eight_mean_one : meanOf eightX eightY 1 = ![1, 0] := by
  funext j
  rw [meanOf, eight_one, eight_card_one]; fin_cases j <;> simp [eightX] <;> norm_num

lemma eight_mean_zero : meanOf eightX eightY 0 = ![-1, 0] := by
  funext j
  rw [meanOf, eight_zero, eight_card_zero]; fin_cases j <;> simp [eightX] <;> norm_num

lemma eight_cov_one (M : Matrix (Fin 2) (Fin 2) ℝ) : covOf M eightX eightY 1 = Matrix.diagonal ![8, 2 / 3] := by
  rw [covOf, if_pos (by rw [eight_one]; decide)]
  ext j k
  simp only [Matrix.of_apply, eight_mean_one, eight_one, eight_card_one]
  fin_cases j <;> fin_cases k <;> simp [eightX] <;> norm_num

lemma eight_cov_zero (M : Matrix (Fin 2) (Fin 2) ℝ) : covOf M eightX eightY 0 = Matrix.diagonal ![8, 8 / 3] := by
  rw [covOf, if_pos (by rw [eight_zero]; decide)]
  ext j k
  simp only [Matrix.of_apply, eight_mean_zero, eight_zero, eight_card_zero]
  fin_cases j <;> fin_cases k <;> simp [eightX] <;> norm_num

lemma eight_share_one : shareOf eightY 1 = 1 / 2 := by rw [shareOf, eight_one, eight_card_one]; norm_num

lemma eight_share_zero : shareOf eightY 0 = 1 / 2 := by rw [shareOf, eight_zero, eight_card_zero]; norm_num

/-- What SAVE sees: nothing of the first variable. -/
lemma eight_save {lab : Fin 2 → ℝ} (h : lab = ![1, 0] ∨ lab = ![0, 1]) (b : Fin 2 → ℝ) :
    saveCriterion (Matrix.diagonal ![8, 10 / 7]) eightX eightY lab b = 233 / 315 * b 1 ^ 2 := by
  rcases h with rfl | rfl <;>
  · simp only [saveCriterion, Fin.sum_univ_two, Matrix.cons_val_zero, Matrix.cons_val_one, eight_share_one, eight_share_zero, eight_cov_one, eight_cov_zero,
      inv_diag_two (show (8 : ℝ) ≠ 0 by norm_num) (show (10 / 7 : ℝ) ≠ 0 by norm_num), diag_sub_two, diag_mul_two, quad_two]
    ring

lemma between_meanOf (X : Fin n → Fin p → ℝ) (y : Fin n → ℝ) (lab : Fin s → ℝ) (b : Fin p → ℝ) :
    betweenSlices X y lab b = ∑ i, shareOf y (lab i) * (∑ j, meanOf X y (lab i) j * b j) ^ 2 := by
  simp only [meanOf_proj]
  rfl

/-- What SIR sees: only the first variable. -/
lemma eight_sir {lab : Fin 2 → ℝ} (h : lab = ![1, 0] ∨ lab = ![0, 1]) (b : Fin 2 → ℝ) :
    betweenSlices eightX eightY lab b = b 0 ^ 2 := by
  rw [between_meanOf]
  rcases h with rfl | rfl <;>
  · simp only [Fin.sum_univ_two, Matrix.cons_val_zero, Matrix.cons_val_one, eight_share_one, eight_share_zero, eight_mean_one, eight_mean_zero]
    ring

/-- C174 is violated: the means of the first variable differ between the two slices and SIR finds that direction, but SAVE sees nothing of it and returns a direction in which no means
differ.  The data meet the hypotheses of `C174_save_sir_partial`. -/
theorem C174_save_sir_violated {eigh : Eigh} (he : IsEigh eigh) : ∃ (B : Matrix (Fin 2) (Fin (min 1 2)) ℝ) (lab : Fin 2 → ℝ),
    sliceMethod .save eigh eightX eightY 2 1 false true true = .ok B ∧ sliceLabels eightY 2 = .ok lab ∧ SlicesCover false eightY 2 ∧
    (∀ k, betweenSlices (centredData true eightX) eightY lab (fun i => B i k) = 0) ∧
    ∃ b, quad (covMat eightX) b = 1 ∧ saveCriterion (covMat eightX) (centredData true eightX) eightY lab b = 0 ∧
      betweenSlices (centredData true eightX) eightY lab b = (2 - 1) / 8 := by
  obtain ⟨lab, hlab, h⟩ := two_labels (y := eightY) (a := 1) (b := 0) (by norm_num) (by norm_num) eightY_image
  have hcov : SlicesCover false eightY 2 := Or.inr (by rw [eightY_image, Finset.card_pair (by norm_num)])
  have hpd : ∀ v, v ≠ 0 → 0 < quad (covMat eightX) v := by
    intro v hv
    rw [eightX_cov, quad_two]
    rcases eq_or_ne (v 0) 0 with h0 | h0
    · have h1 : v 1 ≠ 0 := fun h1 => hv (by funext i; fin_cases i <;> simp [h0, h1])
      have := pow_pos (abs_pos.mpr h1) 2
      rw [sq_abs] at this
      nlinarith [sq_nonneg (v 0)]
    · have := pow_pos (abs_pos.mpr h0) 2
      rw [sq_abs] at this
      nlinarith [sq_nonneg (v 1)]
  obtain ⟨S, hS⟩ := invSqrt_pd he (covMat_symm eightX) hpd
  have hB : ∃ B, sliceMethod .save eigh eightX eightY 2 1 false true true = .ok B := by
    rw [sliceMethod, if_neg (by norm_num)]
    simp only [sdrRoot, sliceResponse, Bool.false_eq_true, if_false, if_true]
    rw [hS, hlab]
    dsimp only
    rw [if_neg (by norm_num)]
    exact ⟨_, rfl⟩
  obtain ⟨B, hB⟩ := hB
  refine ⟨B, lab, hB, hlab, hcov, fun k => ?_, ![√(1 / 8), 0], ?_, ?_, ?_⟩
  · obtain ⟨yd, lab', hy, hl, hmax⟩ := C131_save_optimal he eightX eightY 2 1 false true true B hB
    simp only [sliceResponse, Bool.false_eq_true, if_false, Except.ok.injEq] at hy
    subst hy
    rw [hlab] at hl
    cases hl
    have hk0 : ∀ l, ¬ l < k := fun l hl => by
      have h1 := l.2
      have h2 := k.2
      have h3 : l.1 < k.1 := hl
      omega
    have h1 := hmax k ![0, √(7 / 10)] (by
      simp only [if_true]
      rw [eightX_cov, quad_two]
      simp only [Matrix.cons_val_zero, Matrix.cons_val_one]
      rw [Real.sq_sqrt (show (0 : ℝ) ≤ 7 / 10 by norm_num)]
      norm_num) fun l hl => absurd hl (hk0 l)
    have horth := C89_slicing he .save eightX eightY 2 1 false true true B hB
    have h2 := congrFun (congrFun horth k) k
    rw [Matrix.one_apply_eq, Matrix.mul_apply, Fin.sum_univ_two] at h2
    simp only [Matrix.mul_apply, Fin.sum_univ_two, Matrix.transpose_apply, if_true, eightX_cov] at h2
    simp at h2
    simp only [if_true] at h1
    rw [eightX_cov, eightX_centre, eight_save h, eight_save h] at h1
    simp only [Matrix.cons_val_one, Matrix.cons_val_zero] at h1
    rw [Real.sq_sqrt (show (0 : ℝ) ≤ 7 / 10 by norm_num)] at h1
    rw [eightX_centre, eight_sir h]
    nlinarith [sq_nonneg (B 0 k)]
  · rw [eightX_cov, quad_two]
    simp only [Matrix.cons_val_zero, Matrix.cons_val_one]
    rw [Real.sq_sqrt (show (0 : ℝ) ≤ 1 / 8 by norm_num)]
    norm_num
  · rw [eightX_cov, eightX_centre, eight_save h]
    simp
  · rw [eightX_centre, eight_sir h]
    simp only [Matrix.cons_val_zero]
    rw [Real.sq_sqrt (show (0 : ℝ) ≤ 1 / 8 by norm_num)]
    norm_num

end Direpack
