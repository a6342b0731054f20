import Mathlib.LinearAlgebra.Matrix.NonsingularInverse
import Mathlib.Tactic.NoncommRing
import Verif.Props.Phd
import Verif.Props.SudireAffine
import Verif.Spec.SudireCrit

/-! Properties C131 to C134: what the directions of SAVE, directional regression, principal Hessian directions and iterative Hessian transformation maximise. -/

namespace Direpack

open scoped BigOperators
open Spec

variable {n p : ℕ}

lemma casesWith_eq (y : Fin n → ℝ) (a : ℝ) : casesWith y a = inSlice y a := by
  ext c; simp [casesWith, inSlice]

lemma shareOf_eq (y : Fin n → ℝ) (a : ℝ) : shareOf y a = sliceProb y a := by rw [shareOf, sliceProb, casesWith_eq]

lemma avgOf_eq (y : Fin n → ℝ) : avgOf y = mean y := by rw [avgOf, mean_eq]

/-- A symmetric root of the inverse. -/
lemma root_inv {M S : Matrix (Fin p) (Fin p) ℝ} (h2 : S * M * S = 1) : M⁻¹ = S * S := by
  refine Matrix.inv_eq_right_inv ?_
  have h3 : S * (M * S) = 1 := by rw [← Matrix.mul_assoc]; exact h2
  have h4 : M * S * S = 1 := mul_eq_one_comm.mp h3
  rw [← Matrix.mul_assoc]; exact h4

lemma quad_conj {S : Matrix (Fin p) (Fin p) ℝ} (h1 : S.transpose = S) (K : Matrix (Fin p) (Fin p) ℝ) (v : Fin p → ℝ) :
    quad (S * K * S) v = quad K (S.mulVec v) := by
  have e : S.mulVec v = Matrix.vecMul v S := by rw [← Matrix.vecMul_transpose, h1]
  rw [quadForm_eq, quadForm_eq, ← Matrix.mulVec_mulVec, ← Matrix.mulVec_mulVec, Matrix.dotProduct_mulVec v S, ← e]

/-- Leading eigenvectors transformed back maximise what the quadratic form is of the transformed data. -/
lemma leading_back {eigh : Eigh} (he : IsEigh eigh) {A S K : Matrix (Fin p) (Fin p) ℝ} (h1 : S.transpose = S) (h2 : S * A * S = 1) (hK : K.transpose = K)
    {crit : (Fin p → ℝ) → ℝ} (hq : ∀ v, quad K v = crit (S.mulVec v)) {d : ℕ} (k : Fin (min d p)) (b : Fin p → ℝ) (hb : quad A b = 1)
    (ho : ∀ l, l < k → bilin A (fun i => (S * leading eigh K d) i l) b = 0) : crit b ≤ crit fun i => (S * leading eigh K d) i k := by
  set c := (A * S).mulVec b with hc
  have hSA : S * (A * S) = 1 := by rw [← Matrix.mul_assoc]; exact h2
  have hbS : b = S.mulVec c := by rw [hc, Matrix.mulVec_mulVec, hSA, Matrix.one_mulVec]
  have hcol : (fun i => (S * leading eigh K d) i k) = S.mulVec (fun i => leading eigh K d i k) := by funext i; rfl
  rw [hcol, ← hq]
  conv_lhs => rw [hbS, ← hq]
  have hmove : ∀ u v, bilin A (S.mulVec u) (S.mulVec v) = u ⬝ᵥ v := by
    intro u v
    have e : S.mulVec u = Matrix.vecMul u S := by rw [← Matrix.vecMul_transpose, h1]
    rw [bilin_eq, e, ← Matrix.dotProduct_mulVec, Matrix.mulVec_mulVec, Matrix.mulVec_mulVec, h2, Matrix.one_mulVec]
  refine leading_max he hK k c ?_ ?_
  · have := hmove c c
    rw [← hbS] at this
    have e : quad A b = bilin A b b := rfl
    rw [e, this] at hb
    rw [← hb]
    exact Finset.sum_congr rfl fun j _ => pow_two _
  · intro l hlk
    have h5 := ho l hlk
    have e : (fun i => (S * leading eigh K d) i l) = S.mulVec (fun i => leading eigh K d i l) := by funext i; rfl
    rw [e, hbS, hmove] at h5
    exact h5

/-! ### Slices of transformed data -/

lemma meanOf_scale (X : Fin n → Fin p → ℝ) {S : Matrix (Fin p) (Fin p) ℝ} (y : Fin n → ℝ) (a : ℝ) (j : Fin p) :
    sliceMean (matX X S) y a j = ∑ k, meanOf X y a k * S k j := by
  rw [sliceMean_rot]
  refine Finset.sum_congr rfl fun k _ => ?_
  rw [meanOf, sliceMean, casesWith_eq]

lemma outer_scale (v : Fin p → ℝ) {S : Matrix (Fin p) (Fin p) ℝ} (h1 : S.transpose = S) : outer (fun j => ∑ k, v k * S k j) = S * outer v * S := by
  rw [outer_rot, h1]

lemma meanOf_eq (X : Fin n → Fin p → ℝ) (y : Fin n → ℝ) (a : ℝ) : meanOf X y a = sliceMean X y a := by funext j; rw [meanOf, sliceMean, casesWith_eq]

lemma covOf_eq {M : Matrix (Fin p) (Fin p) ℝ} (X : Fin n → Fin p → ℝ) (y : Fin n → ℝ) (a : ℝ) (hc : 1 < (inSlice y a).card) :
    covOf M X y a = sliceCov X y a := by
  rw [covOf, casesWith_eq, if_pos hc, sliceCov, if_pos hc, meanOf_eq]

lemma covOf_scale (X : Fin n → Fin p → ℝ) {M S : Matrix (Fin p) (Fin p) ℝ} (h1 : S.transpose = S) (h2 : S * M * S = 1) (y : Fin n → ℝ) (a : ℝ) :
    sliceCov (matX X S) y a = S * covOf M X y a * S := by
  by_cases hc : 1 < (inSlice y a).card
  · rw [covOf_eq X y a hc, sliceCov_outer hc, sliceCov_outer hc]
    conv_rhs => rw [← h1]
    conv_rhs => arg 2; rw [h1]
    rw [← sum_outer_rot]
    refine Finset.sum_congr rfl fun c _ => ?_
    congr 2
    funext j
    rw [meanOf_scale, meanOf_eq]
    unfold matX
    rw [← Finset.sum_sub_distrib]
    exact Finset.sum_congr rfl fun k _ => by ring
  · rw [sliceCov, if_neg hc, covOf, casesWith_eq, if_neg hc, h2]

lemma covOf_symm {M : Matrix (Fin p) (Fin p) ℝ} (hM : M.transpose = M) (X : Fin n → Fin p → ℝ) (y : Fin n → ℝ) (a : ℝ) :
    (covOf M X y a).transpose = covOf M X y a := by
  by_cases hc : 1 < (inSlice y a).card
  · rw [covOf_eq X y a hc, sliceCov_symm]
  · rw [covOf, casesWith_eq, if_neg hc, hM]

/-! ### C131: SAVE -/

lemma quad_save {s : ℕ} (X : Fin n → Fin p → ℝ) {M S : Matrix (Fin p) (Fin p) ℝ} (h1 : S.transpose = S) (h2 : S * M * S = 1) (y : Fin n → ℝ)
    (lab : Fin s → ℝ) (v : Fin p → ℝ) :
    quad (saveMat (matX X S) y lab) v = saveCriterion M X y lab (S.mulVec v) := by
  rw [saveMat, quad_sum, saveCriterion]
  refine Finset.sum_congr rfl fun i _ => ?_
  rw [quad_smul, shareOf_eq, covOf_scale X h1 h2, ← quad_conj h1, root_inv h2]
  congr 2
  conv_lhs => rw [← h2]
  noncomm_ring

/-- C131: the directions of SAVE maximise, one after another, the distance of the slice covariance matrices from the metric: column `k` does so among all directions of unit
length in the metric (the covariance matrix of the data when they are scaled) that are orthogonal in that metric to the columns before. -/
theorem C131_save_optimal {eigh : Eigh} (he : IsEigh eigh) (X : Fin n → Fin p → ℝ) (y : Fin n → ℝ) (s d : ℕ) (cont center scale : Bool)
    (B : Matrix (Fin p) (Fin (min d p)) ℝ) (h : sliceMethod .save eigh X y s d cont center scale = .ok B) :
    ∃ yd lab, sliceResponse cont y s = .ok yd ∧ sliceLabels yd s = .ok lab ∧
      ∀ (k : Fin (min d p)) (b : Fin p → ℝ), quad (if scale then covMat X else 1) b = 1 →
        (∀ l, l < k → bilin (if scale then covMat X else 1) (fun i => B i l) b = 0) →
        saveCriterion (if scale then covMat X else 1) (centredData center X) yd lab b ≤ saveCriterion (if scale then covMat X else 1) (centredData center X) yd lab (fun i => B i k) := by
  simp only [← sdrCentre_eq]
  obtain ⟨S, yd, lab, hS, hy, hl, rfl⟩ := sliceMethod_ok h
  refine ⟨yd, lab, hy, hl, ?_⟩
  obtain ⟨h1, h2, h3, h4⟩ := sdrRoot_spec he hS
  intro k b hb ho
  rw [h3] at ho ⊢
  rw [h4] at ho ⊢
  change quad (sdrMetric scale X) b = 1 at hb
  change ∀ l, l < k → bilin (sdrMetric scale X) _ b = 0 at ho
  change saveCriterion (sdrMetric scale X) _ _ _ _ ≤ saveCriterion (sdrMetric scale X) _ _ _ _
  refine leading_back (crit := saveCriterion (sdrMetric scale X) (sdrCentre center X) yd lab) he h1 h2 (kernel_symm ..) ?_ k b hb ho
  intro v
  exact quad_save (sdrCentre center X) h1 h2 yd lab v

/-! ### C132: directional regression -/

section dr
variable {s : ℕ} {w : Fin s → ℝ}

lemma sum_pair_left {q r : ℕ} (hw : ∑ i, w i = 1) (F : Fin s → Matrix (Fin q) (Fin r) ℝ) : ∑ i, ∑ j, (w i * w j) • F i = ∑ i, w i • F i := by
  refine Finset.sum_congr rfl fun i _ => ?_
  rw [← Finset.sum_smul, ← Finset.mul_sum, hw, mul_one]

lemma sum_pair_right {q r : ℕ} (hw : ∑ i, w i = 1) (F : Fin s → Matrix (Fin q) (Fin r) ℝ) : ∑ i, ∑ j, (w i * w j) • F j = ∑ i, w i • F i := by
  rw [Finset.sum_comm, ← sum_pair_left hw]
  exact Finset.sum_congr rfl fun i _ => Finset.sum_congr rfl fun j _ => by rw [mul_comm]

lemma sum_pair_mul {q r t : ℕ} (F : Fin s → Matrix (Fin q) (Fin r) ℝ) (G : Fin s → Matrix (Fin r) (Fin t) ℝ) :
    ∑ i, ∑ j, (w i * w j) • (F i * G j) = (∑ i, w i • F i) * ∑ j, w j • G j := by
  rw [Matrix.sum_mul]
  refine Finset.sum_congr rfl fun i _ => ?_
  rw [Matrix.mul_sum]
  refine Finset.sum_congr rfl fun j _ => ?_
  rw [Matrix.smul_mul, Matrix.mul_smul, smul_smul]

lemma sum_pair_mul' {q r t : ℕ} (F : Fin s → Matrix (Fin q) (Fin r) ℝ) (G : Fin s → Matrix (Fin r) (Fin t) ℝ) :
    ∑ i, ∑ j, (w i * w j) • (F j * G i) = (∑ i, w i • F i) * ∑ j, w j • G j := by
  rw [Finset.sum_comm, ← sum_pair_mul]
  exact Finset.sum_congr rfl fun i _ => Finset.sum_congr rfl fun j _ => by rw [mul_comm (w j)]

lemma sum_pair_zero {q r : ℕ} {H : Fin s → Fin s → Matrix (Fin q) (Fin r) ℝ} (h : ∀ i, ∑ j, w j • H i j = 0) : ∑ i, ∑ j, (w i * w j) • H i j = 0 := by
  refine Finset.sum_eq_zero fun i _ => ?_
  simp only [mul_smul]
  rw [← Finset.smul_sum, h, smul_zero]

lemma sum_pair_zero' {q r : ℕ} {H : Fin s → Fin s → Matrix (Fin q) (Fin r) ℝ} (h : ∀ j, ∑ i, w i • H i j = 0) : ∑ i, ∑ j, (w i * w j) • H i j = 0 := by
  rw [Finset.sum_comm, ← sum_pair_zero (H := fun j i => H i j) h]
  exact Finset.sum_congr rfl fun i _ => Finset.sum_congr rfl fun j _ => by rw [mul_comm]

lemma sum_mid {q r t u : ℕ} (F : Matrix (Fin q) (Fin r) ℝ) (E : Fin s → Matrix (Fin r) (Fin t) ℝ) (G : Matrix (Fin t) (Fin u) ℝ) :
    ∑ j, w j • (F * E j * G) = F * (∑ j, w j • E j) * G := by
  rw [Matrix.mul_sum, Matrix.sum_mul]
  refine Finset.sum_congr rfl fun j _ => ?_
  rw [Matrix.mul_smul, Matrix.smul_mul]

/-- The average over pairs of the squared differences, in terms of averages over slices. -/
lemma dr_identity (hw : ∑ i, w i = 1) (b : Fin s → Matrix (Fin p) (Fin p) ℝ) (O : Fin s → Fin s → Matrix (Fin p) (Fin p) ℝ) (t : Fin s → ℝ)
    (h1 : ∀ i, ∑ j, w j • O i j = 0) (h2 : ∀ j, ∑ i, w i • O i j = 0) (h3 : ∀ i j, O i j * O i j = O i i * O j j) (h4 : ∀ i j, O i j * O j i = t j • O i i) :
    (∑ i, ∑ j, (w i * w j) • (((2 : ℝ) • (1 : Matrix (Fin p) (Fin p) ℝ) - (b i + b j - O i j - O j i)) *
        ((2 : ℝ) • (1 : Matrix (Fin p) (Fin p) ℝ) - (b i + b j - O i j - O j i)))) =
      (2 : ℝ) • (∑ i, w i • (b i * b i)) + (2 : ℝ) • ((∑ i, w i • O i i) * (∑ i, w i • O i i)) +
        (2 * ∑ i, w i * t i) • (∑ i, w i • O i i) - (2 : ℝ) • (1 : Matrix (Fin p) (Fin p) ℝ) +
        (2 : ℝ) • ((∑ i, w i • b i - 1) * (∑ i, w i • b i - (3 : ℝ) • 1)) := by
  set c : Fin s → Matrix (Fin p) (Fin p) ℝ := fun i => 1 - b i with hc
  set B := ∑ i, w i • b i with hB
  have hexp : ∀ i j, (w i * w j) • (((2 : ℝ) • (1 : Matrix (Fin p) (Fin p) ℝ) - (b i + b j - O i j - O j i)) *
        ((2 : ℝ) • (1 : Matrix (Fin p) (Fin p) ℝ) - (b i + b j - O i j - O j i))) =
      (w i * w j) • (c i * c i) + (w i * w j) • (c j * c j) + (w i * w j) • (c i * c j) + (w i * w j) • (c j * c i) +
      (w i * w j) • (O i i * O j j) + (w i * w j) • (O j j * O i i) + (w i * w j) • (t j • O i i) + (w i * w j) • (t i • O j j) +
      (w i * w j) • (c i * O i j) + (w i * w j) • (c i * O j i) + (w i * w j) • (c j * O i j) + (w i * w j) • (c j * O j i) +
      (w i * w j) • (O i j * c i) + (w i * w j) • (O i j * c j) + (w i * w j) • (O j i * c i) + (w i * w j) • (O j i * c j) := by
    intro i j
    simp only [← smul_add]
    congr 1
    rw [← h3 i j, ← h3 j i, ← h4 i j, ← h4 j i, two_smul, hc]
    noncomm_ring
  simp only [hexp, Finset.sum_add_distrib]
  have hC : ∑ i, w i • c i = 1 - B := by
    simp only [hc, smul_sub, Finset.sum_sub_distrib]
    rw [← Finset.sum_smul, hw, one_smul]
  have hC2 : ∑ i, w i • (c i * c i) = 1 - B - B + ∑ i, w i • (b i * b i) := by
    have : ∀ i, w i • (c i * c i) = w i • (1 : Matrix (Fin p) (Fin p) ℝ) - w i • b i - w i • b i + w i • (b i * b i) := by
      intro i
      rw [← smul_sub, ← smul_sub, ← smul_add, hc]
      congr 1
      noncomm_ring
    simp only [this, Finset.sum_add_distrib, Finset.sum_sub_distrib]
    rw [← Finset.sum_smul, hw, one_smul]
  have e1 : ∀ F : Fin s → Matrix (Fin p) (Fin p) ℝ, ∑ i, ∑ j, (w i * w j) • (F i * O i j) = 0 := fun F => sum_pair_zero fun i => by
    have := Matrix.mul_sum Finset.univ (fun j => w j • O i j) (F i)
    simp only [Matrix.mul_smul] at this
    rw [← this, h1, Matrix.mul_zero]
  have e2 : ∀ F : Fin s → Matrix (Fin p) (Fin p) ℝ, ∑ i, ∑ j, (w i * w j) • (F i * O j i) = 0 := fun F => sum_pair_zero fun i => by
    have := Matrix.mul_sum Finset.univ (fun j => w j • O j i) (F i)
    simp only [Matrix.mul_smul] at this
    rw [← this, h2, Matrix.mul_zero]
  have e3 : ∀ F : Fin s → Matrix (Fin p) (Fin p) ℝ, ∑ i, ∑ j, (w i * w j) • (F j * O i j) = 0 := fun F => sum_pair_zero' fun j => by
    have := Matrix.mul_sum Finset.univ (fun i => w i • O i j) (F j)
    simp only [Matrix.mul_smul] at this
    rw [← this, h2, Matrix.mul_zero]
  have e4 : ∀ F : Fin s → Matrix (Fin p) (Fin p) ℝ, ∑ i, ∑ j, (w i * w j) • (F j * O j i) = 0 := fun F => sum_pair_zero' fun j => by
    have := Matrix.mul_sum Finset.univ (fun i => w i • O j i) (F j)
    simp only [Matrix.mul_smul] at this
    rw [← this, h1, Matrix.mul_zero]
  have e5 : ∀ F : Fin s → Matrix (Fin p) (Fin p) ℝ, ∑ i, ∑ j, (w i * w j) • (O i j * F i) = 0 := fun F => sum_pair_zero fun i => by
    have := Matrix.sum_mul Finset.univ (fun j => w j • O i j) (F i)
    simp only [Matrix.smul_mul] at this
    rw [← this, h1, Matrix.zero_mul]
  have e6 : ∀ F : Fin s → Matrix (Fin p) (Fin p) ℝ, ∑ i, ∑ j, (w i * w j) • (O j i * F i) = 0 := fun F => sum_pair_zero fun i => by
    have := Matrix.sum_mul Finset.univ (fun j => w j • O j i) (F i)
    simp only [Matrix.smul_mul] at this
    rw [← this, h2, Matrix.zero_mul]
  have e7 : ∀ F : Fin s → Matrix (Fin p) (Fin p) ℝ, ∑ i, ∑ j, (w i * w j) • (O i j * F j) = 0 := fun F => sum_pair_zero' fun j => by
    have := Matrix.sum_mul Finset.univ (fun i => w i • O i j) (F j)
    simp only [Matrix.smul_mul] at this
    rw [← this, h2, Matrix.zero_mul]
  have e8 : ∀ F : Fin s → Matrix (Fin p) (Fin p) ℝ, ∑ i, ∑ j, (w i * w j) • (O j i * F j) = 0 := fun F => sum_pair_zero' fun j => by
    have := Matrix.sum_mul Finset.univ (fun i => w i • O j i) (F j)
    simp only [Matrix.smul_mul] at this
    rw [← this, h1, Matrix.zero_mul]
  have t1 : ∑ i, ∑ j, (w i * w j) • (t j • O i i) = (∑ i, w i * t i) • ∑ i, w i • O i i := by
    rw [Finset.smul_sum]
    refine Finset.sum_congr rfl fun i _ => ?_
    rw [smul_smul, Finset.sum_mul, Finset.sum_smul]
    exact Finset.sum_congr rfl fun j _ => by rw [smul_smul]; congr 1; ring
  have t2 : ∑ i, ∑ j, (w i * w j) • (t i • O j j) = (∑ i, w i * t i) • ∑ i, w i • O i i := by
    rw [Finset.sum_comm, ← t1]
    exact Finset.sum_congr rfl fun i _ => Finset.sum_congr rfl fun j _ => by rw [mul_comm (w j)]
  rw [sum_pair_left hw fun i => c i * c i, sum_pair_right hw fun i => c i * c i, sum_pair_mul c c, sum_pair_mul' c c, sum_pair_mul (fun i => O i i) fun i => O i i,
    sum_pair_mul' (fun i => O i i) fun i => O i i, t1, t2, e1, e2, e3, e4, e5, e6, e7, e8, hC, hC2]
  have h33 : (3 : ℝ) • (1 : Matrix (Fin p) (Fin p) ℝ) = 1 + 1 + 1 := by
    rw [show (3 : ℝ) = 1 + 1 + 1 by norm_num, add_smul, add_smul, one_smul]
  rw [h33, mul_smul]
  simp only [two_smul]
  noncomm_ring

end dr

lemma pairMoment_scale (X : Fin n → Fin p → ℝ) {M S : Matrix (Fin p) (Fin p) ℝ} (h1 : S.transpose = S) (h2 : S * M * S = 1) (y : Fin n → ℝ) (a a' : ℝ) :
    S * pairMoment M X y a a' * S = sliceCov (matX X S) y a + sliceCov (matX X S) y a' +
      outer (fun j => sliceMean (matX X S) y a j - sliceMean (matX X S) y a' j) := by
  rw [covOf_scale X h1 h2, covOf_scale X h1 h2]
  have : (fun j => sliceMean (matX X S) y a j - sliceMean (matX X S) y a' j) = fun j => ∑ k, (meanOf X y a k - meanOf X y a' k) * S k j := by
    funext j
    rw [meanOf_scale, meanOf_scale, ← Finset.sum_sub_distrib]
    exact Finset.sum_congr rfl fun k _ => by ring
  rw [this, outer_scale _ h1, pairMoment]
  have e : (Matrix.of fun j k => (meanOf X y a j - meanOf X y a' j) * (meanOf X y a k - meanOf X y a' k)) = outer fun k => meanOf X y a k - meanOf X y a' k := rfl
  rw [e]
  noncomm_ring

lemma averageMoment_scale {s : ℕ} (X : Fin n → Fin p → ℝ) {M S : Matrix (Fin p) (Fin p) ℝ} (h1 : S.transpose = S) (h2 : S * M * S = 1) (y : Fin n → ℝ)
    (lab : Fin s → ℝ) :
    S * averageMoment M X y lab * S = ∑ i, sliceProb y (lab i) • (sliceCov (matX X S) y (lab i) + outer (sliceMean (matX X S) y (lab i))) := by
  rw [averageMoment, Matrix.mul_sum, Matrix.sum_mul]
  refine Finset.sum_congr rfl fun i _ => ?_
  rw [Matrix.mul_smul, Matrix.smul_mul, shareOf_eq, covOf_scale X h1 h2]
  have : sliceMean (matX X S) y (lab i) = fun j => ∑ k, meanOf X y (lab i) k * S k j := by funext j; rw [meanOf_scale]
  rw [this, outer_scale _ h1]
  have e : (Matrix.of fun j k => meanOf X y (lab i) j * meanOf X y (lab i) k) = outer fun k => meanOf X y (lab i) k := rfl
  rw [e]
  congr 1
  noncomm_ring

/-- The quadratic form of the kernel of directional regression. -/
lemma quad_dr {s : ℕ} (X : Fin n → Fin p → ℝ) {M S : Matrix (Fin p) (Fin p) ℝ} (h1 : S.transpose = S) (h2 : S * M * S = 1) (y : Fin n → ℝ) (lab : Fin s → ℝ)
    (hp : ∑ i, shareOf y (lab i) = 1) (hm : ∀ j, ∑ i, shareOf y (lab i) * meanOf X y (lab i) j = 0) (v : Fin p → ℝ) :
    quad (drMat (matX X S) y lab) v = drCriterion M X y lab (S.mulVec v) -
      2 * quad ((averageMoment M X y lab - M) * M⁻¹ * (averageMoment M X y lab - (3 : ℝ) • M)) (S.mulVec v) := by
  set Z := matX X S with hZ
  set w : Fin s → ℝ := fun i => sliceProb y (lab i) with hw
  set e : Fin s → Fin p → ℝ := fun i => sliceMean Z y (lab i) with he
  set b : Fin s → Matrix (Fin p) (Fin p) ℝ := fun i => sliceCov Z y (lab i) + outer (e i) with hb
  set O : Fin s → Fin s → Matrix (Fin p) (Fin p) ℝ := fun i j => Matrix.of fun k l => e i k * e j l with hO
  have hw1 : ∑ i, w i = 1 := by rw [← hp]; exact Finset.sum_congr rfl fun i _ => (shareOf_eq y (lab i)).symm
  have hez : ∀ k, ∑ i, w i * e i k = 0 := by
    intro k
    simp only [he, hw, hZ, meanOf_scale]
    calc ∑ i, sliceProb y (lab i) * ∑ l, meanOf X y (lab i) l * S l k = ∑ l, (∑ i, shareOf y (lab i) * meanOf X y (lab i) l) * S l k := by
          simp only [Finset.mul_sum, Finset.sum_mul]
          rw [Finset.sum_comm]
          exact Finset.sum_congr rfl fun l _ => Finset.sum_congr rfl fun i _ => by rw [shareOf_eq]; ring
      _ = 0 := by simp [hm]
  have hid := dr_identity hw1 b O (fun j => ∑ k, e j k ^ 2) (by
      intro i
      ext k l
      rw [Matrix.sum_apply]
      simp only [Matrix.smul_apply, smul_eq_mul, hO, Matrix.of_apply, Matrix.zero_apply]
      rw [← mul_zero (e i k), ← hez l, Finset.mul_sum]
      exact Finset.sum_congr rfl fun j _ => by ring) (by
      intro j
      ext k l
      rw [Matrix.sum_apply]
      simp only [Matrix.smul_apply, smul_eq_mul, hO, Matrix.of_apply, Matrix.zero_apply]
      rw [← zero_mul (e j l), ← hez k, Finset.sum_mul]
      exact Finset.sum_congr rfl fun j _ => by ring) (by
      intro i j
      ext k l
      simp only [hO, Matrix.mul_apply, Matrix.of_apply]
      exact Finset.sum_congr rfl fun q _ => by ring) (by
      intro i j
      ext k l
      simp only [hO, Matrix.mul_apply, Matrix.of_apply, Matrix.smul_apply, smul_eq_mul, Finset.sum_mul]
      exact Finset.sum_congr rfl fun q _ => by ring)
  have hOii : ∀ i, O i i = outer (e i) := fun i => rfl
  have htr : ∑ i, w i * ∑ k, e i k ^ 2 = (∑ i, w i • O i i).trace := by
    rw [Matrix.trace_sum]
    refine Finset.sum_congr rfl fun i _ => ?_
    rw [Matrix.trace_smul, smul_eq_mul]
    congr 1
    simp only [Matrix.trace, Matrix.diag, hO, Matrix.of_apply]
    exact Finset.sum_congr rfl fun k _ => pow_two _
  rw [htr] at hid
  have hK : drMat Z y lab = (2 : ℝ) • (∑ i, w i • (b i * b i)) + (2 : ℝ) • ((∑ i, w i • O i i) * (∑ i, w i • O i i)) +
        (2 * (∑ i, w i • O i i).trace) • (∑ i, w i • O i i) - (2 : ℝ) • (1 : Matrix (Fin p) (Fin p) ℝ) := rfl
  rw [← hK] at hid
  have hsub := eq_sub_of_add_eq hid.symm
  rw [hsub, sub_eq_add_neg, ← neg_one_smul ℝ ((2 : ℝ) • _), smul_smul, quad_add, quad_smul]
  have hA : ∑ i, w i • b i = S * averageMoment M X y lab * S := (averageMoment_scale X h1 h2 y lab).symm
  have h3 : quad ((∑ i, w i • b i - 1) * (∑ i, w i • b i - (3 : ℝ) • 1)) v =
      quad ((averageMoment M X y lab - M) * M⁻¹ * (averageMoment M X y lab - (3 : ℝ) • M)) (S.mulVec v) := by
    rw [← quad_conj h1, root_inv h2, hA]
    congr 1
    have e1 : S * averageMoment M X y lab * S - 1 = S * (averageMoment M X y lab - M) * S := by rw [Matrix.mul_sub, Matrix.sub_mul, h2]
    have e2 : S * averageMoment M X y lab * S - (3 : ℝ) • 1 = S * (averageMoment M X y lab - (3 : ℝ) • M) * S := by
      rw [Matrix.mul_sub, Matrix.sub_mul, Matrix.mul_smul, Matrix.smul_mul, h2]
    rw [e1, e2]
    noncomm_ring
  rw [h3]
  have h4 : quad (∑ i, ∑ j, (w i * w j) • (((2 : ℝ) • (1 : Matrix (Fin p) (Fin p) ℝ) - (b i + b j - O i j - O j i)) *
        ((2 : ℝ) • (1 : Matrix (Fin p) (Fin p) ℝ) - (b i + b j - O i j - O j i)))) v = drCriterion M X y lab (S.mulVec v) := by
    rw [quad_sum, drCriterion]
    refine Finset.sum_congr rfl fun i _ => ?_
    rw [quad_sum]
    refine Finset.sum_congr rfl fun j _ => ?_
    rw [quad_smul, shareOf_eq, shareOf_eq, ← quad_conj h1, root_inv h2]
    congr 2
    have e0 : b i + b j - O i j - O j i = S * pairMoment M X y (lab i) (lab j) * S := by
      rw [pairMoment_scale X h1 h2]
      ext k l
      simp only [hb, hO, outer, he, Matrix.add_apply, Matrix.sub_apply, Matrix.of_apply]
      ring
    have e1 : (2 : ℝ) • (1 : Matrix (Fin p) (Fin p) ℝ) - S * pairMoment M X y (lab i) (lab j) * S = S * ((2 : ℝ) • M - pairMoment M X y (lab i) (lab j)) * S := by
      rw [Matrix.mul_sub, Matrix.sub_mul, Matrix.mul_smul, Matrix.smul_mul, h2]
    rw [e0, e1]
    noncomm_ring
  rw [h4]
  ring


/-- Slices that cover all cases: their shares add up to one and their weighted means to that of the data. -/
lemma slices_cover {cont : Bool} {y : Fin n → ℝ} {s : ℕ} (hn : 0 < n) (hs : SlicesCover cont y s) {yd : Fin n → ℝ} {lab : Fin s → ℝ}
    (hy : sliceResponse cont y s = .ok yd) (hl : sliceLabels yd s = .ok lab) (X : Fin n → Fin p → ℝ) :
    ∑ i, shareOf yd (lab i) = 1 ∧ ∀ j, ∑ i, shareOf yd (lab i) * meanOf X yd (lab i) j = mean fun c => X c j := by
  have h1 := slicesCover_labels hs hn hy
  have h2 : ¬ numLabels yd < s := fun h => by rw [C63_too_few_labels yd hn s h] at hl; exact absurd hl (by simp)
  obtain ⟨lab', h3, h4, h5⟩ := C63_proportions_partial yd hn s (by omega)
  obtain ⟨lab'', h6, h7, -⟩ := C63_labels yd hn s (by omega)
  rw [hl] at h3 h6
  cases h3
  cases h6
  refine ⟨by simpa only [shareOf_eq] using h5, fun j => ?_⟩
  rw [← C62_slice_means yd X lab h7 h4 j]
  exact Finset.sum_congr rfl fun i _ => by rw [shareOf_eq, meanOf_eq]

lemma mean_centred (hn : 0 < n) (X : Fin n → Fin p → ℝ) (j : Fin p) : (mean fun c => sdrCentre true X c j) = 0 := by
  have : (n : ℝ) ≠ 0 := by exact_mod_cast hn.ne'
  simp only [sdrCentre, if_true]
  rw [mean_eq, Finset.sum_sub_distrib, Finset.sum_const, Finset.card_univ, Fintype.card_fin, nsmul_eq_mul, mean_eq]
  field_simp
  ring

lemma sliceMethod_size {m : SdrMethod} {eigh : Eigh} {X : Fin n → Fin p → ℝ} {y : Fin n → ℝ} {s d : ℕ} {cont center scale : Bool}
    {B : Matrix (Fin p) (Fin (min d p)) ℝ} (h : sliceMethod m eigh X y s d cont center scale = .ok B) : 2 ≤ n ∧ 2 ≤ p := by
  rw [sliceMethod] at h
  by_cases h1 : n < 2 ∨ p < 2
  · rw [if_pos h1] at h; exact absurd h (by simp)
  · omega

/-- C132: what the directions of directional regression maximise, for centred data and slices that cover all cases: the criterion of directional regression less a
term that vanishes when the second moments of the slices average to the metric. -/
theorem C132_dr_corrected {eigh : Eigh} (he : IsEigh eigh) (X : Fin n → Fin p → ℝ) (y : Fin n → ℝ) (s d : ℕ) (cont scale : Bool) (hs : SlicesCover cont y s)
    (B : Matrix (Fin p) (Fin (min d p)) ℝ) (h : sliceMethod .dr eigh X y s d cont true scale = .ok B) :
    ∃ yd lab, sliceResponse cont y s = .ok yd ∧ sliceLabels yd s = .ok lab ∧
      ∀ (k : Fin (min d p)) (b : Fin p → ℝ), quad (if scale then covMat X else 1) b = 1 →
        (∀ l, l < k → bilin (if scale then covMat X else 1) (fun i => B i l) b = 0) →
        drCriterion (if scale then covMat X else 1) (centredData true X) yd lab b -
            2 * quad ((averageMoment (if scale then covMat X else 1) (centredData true X) yd lab - (if scale then covMat X else 1)) * (if scale then covMat X else 1)⁻¹ *
              (averageMoment (if scale then covMat X else 1) (centredData true X) yd lab - (3 : ℝ) • (if scale then covMat X else 1))) b ≤
          drCriterion (if scale then covMat X else 1) (centredData true X) yd lab (fun i => B i k) -
            2 * quad ((averageMoment (if scale then covMat X else 1) (centredData true X) yd lab - (if scale then covMat X else 1)) * (if scale then covMat X else 1)⁻¹ *
              (averageMoment (if scale then covMat X else 1) (centredData true X) yd lab - (3 : ℝ) • (if scale then covMat X else 1))) (fun i => B i k) := by
  simp only [← sdrCentre_eq]
  obtain ⟨hn, -⟩ := sliceMethod_size h
  obtain ⟨S, yd, lab, hS, hy, hl, rfl⟩ := sliceMethod_ok h
  refine ⟨yd, lab, hy, hl, ?_⟩
  obtain ⟨h1, h2, h3, h4⟩ := sdrRoot_spec he hS
  obtain ⟨hp, hm⟩ := slices_cover (by omega) hs hy hl (sdrCentre true X)
  intro k b hb ho
  rw [h3] at ho ⊢
  rw [h4] at ho ⊢
  change quad (sdrMetric scale X) b = 1 at hb
  change ∀ l, l < k → bilin (sdrMetric scale X) _ b = 0 at ho
  change drCriterion (sdrMetric scale X) _ _ _ _ - 2 * quad ((averageMoment (sdrMetric scale X) _ _ _ - sdrMetric scale X) * (sdrMetric scale X)⁻¹ *
      (averageMoment (sdrMetric scale X) _ _ _ - (3 : ℝ) • sdrMetric scale X)) _ ≤
    drCriterion (sdrMetric scale X) _ _ _ _ - 2 * quad ((averageMoment (sdrMetric scale X) _ _ _ - sdrMetric scale X) * (sdrMetric scale X)⁻¹ *
      (averageMoment (sdrMetric scale X) _ _ _ - (3 : ℝ) • sdrMetric scale X)) _
  refine leading_back (crit := fun b => drCriterion (sdrMetric scale X) (sdrCentre true X) yd lab b -
      2 * quad ((averageMoment (sdrMetric scale X) (sdrCentre true X) yd lab - sdrMetric scale X) * (sdrMetric scale X)⁻¹ *
      (averageMoment (sdrMetric scale X) (sdrCentre true X) yd lab - (3 : ℝ) • sdrMetric scale X)) b) he h1 h2 (kernel_symm ..) ?_ k b hb ho
  intro v
  exact quad_dr (sdrCentre true X) h1 h2 yd lab hp (fun j => by rw [hm, mean_centred (by omega)]) v

/-- C132 (partial: centred data, slices that cover all cases, and second moments of the slices that average to the metric): the directions of directional regression
maximise, one after another, how far the expected squared differences of cases are from those of independent cases. -/
theorem C132_dr_optimal_partial {eigh : Eigh} (he : IsEigh eigh) (X : Fin n → Fin p → ℝ) (y : Fin n → ℝ) (s d : ℕ) (cont scale : Bool) (hs : SlicesCover cont y s)
    (B : Matrix (Fin p) (Fin (min d p)) ℝ) (h : sliceMethod .dr eigh X y s d cont true scale = .ok B) :
    ∃ yd lab, sliceResponse cont y s = .ok yd ∧ sliceLabels yd s = .ok lab ∧
      (averageMoment (if scale then covMat X else 1) (centredData true X) yd lab = (if scale then covMat X else 1) →
        ∀ (k : Fin (min d p)) (b : Fin p → ℝ), quad (if scale then covMat X else 1) b = 1 →
          (∀ l, l < k → bilin (if scale then covMat X else 1) (fun i => B i l) b = 0) →
          drCriterion (if scale then covMat X else 1) (centredData true X) yd lab b ≤ drCriterion (if scale then covMat X else 1) (centredData true X) yd lab (fun i => B i k)) := by
  obtain ⟨yd, lab, hy, hl, hmax⟩ := C132_dr_corrected he X y s d cont scale hs B h
  refine ⟨yd, lab, hy, hl, fun ha k b hb ho => ?_⟩
  have := hmax k b hb ho
  rw [ha] at this
  have hz : ∀ v, quad ((0 : Matrix (Fin p) (Fin p) ℝ)) v = 0 := fun v => by simp [quad]
  rw [sub_self, Matrix.zero_mul, Matrix.zero_mul, hz, hz] at this
  simpa using this

/-! A case where the second moments average to the metric, and one where the direction found is not the best one. -/

lemma two_labels {y : Fin n → ℝ} {a b : ℝ} (hab : a ≠ b) (hn : 0 < n) (hy : Finset.univ.image y = {a, b}) :
    ∃ lab, sliceLabels y 2 = .ok lab ∧ (lab = ![a, b] ∨ lab = ![b, a]) := by
  have hl : numLabels y = 2 := by
    unfold numLabels
    rw [hy, Finset.card_pair hab]
  obtain ⟨lab, hlab, hinj, hobs⟩ := C63_labels y hn 2 (by rw [hl])
  refine ⟨lab, hlab, ?_⟩
  have hv : ∀ i, lab i = a ∨ lab i = b := by
    intro i
    obtain ⟨c, hc⟩ := hobs i
    have : y c ∈ Finset.univ.image y := Finset.mem_image_of_mem _ (Finset.mem_univ c)
    rw [hy] at this
    rw [← hc]
    simpa using this
  have hne : lab 0 ≠ lab 1 := fun h => absurd (hinj h) (by decide)
  rcases hv 0 with h0 | h0 <;> rcases hv 1 with h1 | h1
  · exact absurd (h0.trans h1.symm) hne
  · left; funext i; fin_cases i <;> simp [h0, h1]
  · right; funext i; fin_cases i <;> simp [h0, h1]
  · exact absurd (h0.trans h1.symm) hne

lemma crossY_image : Finset.univ.image crossY = {1, -1} := by
  ext a
  simp [crossY, Fin.exists_fin_succ, eq_comm]

lemma cross_pos : casesWith crossY 1 = {0, 1} := by
  ext c; rw [casesWith, Finset.mem_filter]; fin_cases c <;> simp [crossY] <;> norm_num

lemma cross_neg : casesWith crossY (-1) = {2, 3} := by
  ext c; rw [casesWith, Finset.mem_filter]; fin_cases c <;> simp [crossY] <;> norm_num

lemma cross_moment {lab : Fin 2 → ℝ} (h : lab = ![1, -1] ∨ lab = ![-1, 1]) : averageMoment 1 crossX crossY lab = 1 := by
  have hm : ∀ j, meanOf crossX crossY 1 j = 0 := by
    intro j; rw [meanOf, cross_pos]; fin_cases j <;> simp [crossX]
  have hm' : ∀ j, meanOf crossX crossY (-1) j = 0 := by
    intro j; rw [meanOf, cross_neg]; fin_cases j <;> simp [crossX]
  have hc : covOf 1 crossX crossY 1 = Matrix.of ![![2, 0], ![0, 0]] := by
    rw [covOf, if_pos (by rw [cross_pos]; decide)]
    ext j k
    simp only [Matrix.of_apply, hm, cross_pos]
    fin_cases j <;> fin_cases k <;> simp [crossX] <;> norm_num
  have hc' : covOf 1 crossX crossY (-1) = Matrix.of ![![0, 0], ![0, 2]] := by
    rw [covOf, if_pos (by rw [cross_neg]; decide)]
    ext j k
    simp only [Matrix.of_apply, hm', cross_neg]
    fin_cases j <;> fin_cases k <;> simp [crossX] <;> norm_num
  have hs : shareOf crossY 1 = 1 / 2 := by rw [shareOf, cross_pos, Finset.card_pair (by decide)]; norm_num
  have hs' : shareOf crossY (-1) = 1 / 2 := by rw [shareOf, cross_neg, Finset.card_pair (by decide)]; norm_num
  ext j k
  rcases h with rfl | rfl <;>
  · simp only [averageMoment, Fin.sum_univ_two, Matrix.cons_val_zero, Matrix.cons_val_one, hs, hs', hc, hc', hm, hm', Matrix.add_apply, Matrix.smul_apply, Matrix.of_apply,
      smul_eq_mul]
    fin_cases j <;> fin_cases k <;> simp

/-- Directional regression on the four points: the hypotheses of C132 can be met. -/
example : ∃ (eigh : Eigh), IsEigh eigh ∧ ∃ B, sliceMethod .dr eigh crossX crossY 2 1 false true false = .ok B ∧ SlicesCover false crossY 2 ∧
    ∃ lab, sliceLabels crossY 2 = .ok lab ∧ averageMoment 1 (sdrCentre true crossX) crossY lab = 1 := by
  obtain ⟨eigh, he⟩ := exists_eigh
  obtain ⟨lab, hlab, h⟩ := two_labels (y := crossY) (a := 1) (b := -1) (by norm_num) (by norm_num) crossY_image
  refine ⟨eigh, he, ?_⟩
  rw [sliceMethod, if_neg (by norm_num)]
  simp only [sdrRoot, sliceResponse, Bool.false_eq_true, if_false]
  rw [hlab]
  dsimp only
  rw [if_neg (by norm_num)]
  refine ⟨_, rfl, Or.inr ?_, lab, rfl, ?_⟩
  · rw [crossY_image, Finset.card_pair (by norm_num)]
  · rw [crossX_centre, cross_moment h]


/-- The root exists for positive definite matrices. -/
lemma invSqrt_pd {eigh : Eigh} (he : IsEigh eigh) {A : Matrix (Fin p) (Fin p) ℝ} (hA : A.transpose = A) (hpd : ∀ v, v ≠ 0 → 0 < quad A v) :
    ∃ S, invSqrt eigh A = .ok S := by
  have hA2 : (1 / 2 : ℝ) • (A + A.transpose) = A := by
    rw [hA, ← two_smul ℝ A, smul_smul]; norm_num
  unfold invSqrt
  rw [hA2]
  dsimp only
  rw [if_pos]
  · exact ⟨_, rfl⟩
  · intro j
    set Q := (eigh A).2 with hQ
    have h1 : Q.transpose * (A * Q) = Matrix.diagonal (eigh A).1 := by rw [he.decomp A hA, ← Matrix.mul_assoc, he.orth A hA, Matrix.one_mul]
    have h2 := congrFun (congrFun h1 j) j
    rw [Matrix.diagonal_apply_eq] at h2
    rw [← h2]
    have h3 : quad A (fun i => Q i j) = (Q.transpose * (A * Q)) j j := by rw [quadForm_eq]; rfl
    rw [← h3]
    refine hpd _ fun h0 => ?_
    have h4 := congrFun (congrFun (he.orth A hA) j) j
    rw [Matrix.one_apply_eq, Matrix.mul_apply] at h4
    have h5 : ∀ i, Q i j = 0 := fun i => congrFun h0 i
    simp [← hQ, h5] at h4

/-- Two cases on the first axis, and five at the corners and the centre of a square. -/
def sevenX : Fin 7 → Fin 2 → ℝ := ![![1, 0], ![-1, 0], ![0, 0], ![1, 1], ![-1, 1], ![1, -1], ![-1, -1]]

/-- The response is one for the two and zero for the five. -/
def sevenY : Fin 7 → ℝ := ![1, 1, 0, 0, 0, 0, 0]

lemma sevenX_mean (j : Fin 2) : (mean fun c => sevenX c j) = 0 := by
  rw [mean_eq]
  fin_cases j <;> simp [Fin.sum_univ_seven, sevenX]

lemma sevenX_centre : sdrCentre true sevenX = sevenX := by
  funext c j
  simp only [sdrCentre, if_true]
  rw [sevenX_mean, sub_zero]

lemma sevenX_cov : covMat sevenX = Matrix.diagonal ![1, 2 / 3] := by
  ext j k
  simp only [covMat, Matrix.of_apply, sevenX_mean]
  fin_cases j <;> fin_cases k <;> simp [Fin.sum_univ_seven, sevenX] <;> norm_num

lemma sevenY_image : Finset.univ.image sevenY = {1, 0} := by
  ext a
  simp [sevenY, Fin.exists_fin_succ, eq_comm]

lemma seven_one : casesWith sevenY 1 = {0, 1} := by
  ext c; rw [casesWith, Finset.mem_filter]; fin_cases c <;> simp [sevenY]

lemma seven_zero : casesWith sevenY 0 = {2, 3, 4, 5, 6} := by
  ext c; rw [casesWith, Finset.mem_filter]; fin_cases c <;> simp [sevenY]

lemma seven_card : ({2, 3, 4, 5, 6} : Finset (Fin 7)).card = 5 := by decide

lemma seven_mean_one (j : Fin 2) : meanOf sevenX sevenY 1 j = 0 := by
  rw [meanOf, seven_one]; fin_cases j <;> simp [sevenX]

lemma seven_mean_zero (j : Fin 2) : meanOf sevenX sevenY 0 j = 0 := by
  rw [meanOf, seven_zero]; fin_cases j <;> simp [sevenX]

lemma seven_cov_one (M : Matrix (Fin 2) (Fin 2) ℝ) : covOf M sevenX sevenY 1 = Matrix.diagonal ![2, 0] := by
  rw [covOf, if_pos (by rw [seven_one]; decide)]
  ext j k
  simp only [Matrix.of_apply, seven_mean_one, seven_one]
  fin_cases j <;> fin_cases k <;> simp [sevenX] <;> norm_num

lemma seven_cov_zero (M : Matrix (Fin 2) (Fin 2) ℝ) : covOf M sevenX sevenY 0 = Matrix.diagonal ![1, 1] := by
  rw [covOf, if_pos (by rw [seven_zero]; decide)]
  ext j k
  simp only [Matrix.of_apply, seven_mean_zero, seven_zero, seven_card]
  fin_cases j <;> fin_cases k <;> simp [sevenX] <;> norm_num

lemma seven_share_one : shareOf sevenY 1 = 2 / 7 := by rw [shareOf, seven_one, Finset.card_pair (by decide)]; norm_num

lemma seven_share_zero : shareOf sevenY 0 = 5 / 7 := by rw [shareOf, seven_zero, seven_card]; norm_num

lemma inv_diag_two {a b : ℝ} (ha : a ≠ 0) (hb : b ≠ 0) : (Matrix.diagonal ![a, b])⁻¹ = Matrix.diagonal ![a⁻¹, b⁻¹] := by
  refine Matrix.inv_eq_right_inv ?_
  rw [Matrix.diagonal_mul_diagonal, ← Matrix.diagonal_one]
  congr 1
  funext i
  fin_cases i <;> simp [ha, hb]

lemma seven_pair_oo (M : Matrix (Fin 2) (Fin 2) ℝ) : pairMoment M sevenX sevenY 1 1 = Matrix.diagonal ![4, 0] := by
  rw [pairMoment, seven_cov_one]
  ext j k
  fin_cases j <;> fin_cases k <;> simp <;> norm_num

lemma seven_pair_zz (M : Matrix (Fin 2) (Fin 2) ℝ) : pairMoment M sevenX sevenY 0 0 = Matrix.diagonal ![2, 2] := by
  rw [pairMoment, seven_cov_zero]
  ext j k
  fin_cases j <;> fin_cases k <;> simp <;> norm_num

lemma seven_pair_oz (M : Matrix (Fin 2) (Fin 2) ℝ) : pairMoment M sevenX sevenY 1 0 = Matrix.diagonal ![3, 1] := by
  rw [pairMoment, seven_cov_zero, seven_cov_one]
  ext j k
  simp only [seven_mean_one, seven_mean_zero]
  fin_cases j <;> fin_cases k <;> simp <;> norm_num

lemma seven_pair_zo (M : Matrix (Fin 2) (Fin 2) ℝ) : pairMoment M sevenX sevenY 0 1 = Matrix.diagonal ![3, 1] := by
  rw [pairMoment, seven_cov_zero, seven_cov_one]
  ext j k
  simp only [seven_mean_one, seven_mean_zero]
  fin_cases j <;> fin_cases k <;> simp <;> norm_num

lemma diag_sub_two (a b c d : ℝ) : Matrix.diagonal ![a, b] - Matrix.diagonal ![c, d] = Matrix.diagonal ![a - c, b - d] := by
  rw [Matrix.diagonal_sub]; congr 1; funext i; fin_cases i <;> simp

lemma diag_mul_two (a b c d : ℝ) : Matrix.diagonal ![a, b] * Matrix.diagonal ![c, d] = Matrix.diagonal ![a * c, b * d] := by
  rw [Matrix.diagonal_mul_diagonal]; congr 1; funext i; fin_cases i <;> simp

lemma diag_smul_two (r a b : ℝ) : r • Matrix.diagonal ![a, b] = Matrix.diagonal ![r * a, r * b] := by
  rw [← Matrix.diagonal_smul]; congr 1; funext i; fin_cases i <;> simp

lemma diag_add_two (a b c d : ℝ) : Matrix.diagonal ![a, b] + Matrix.diagonal ![c, d] = Matrix.diagonal ![a + c, b + d] := by
  rw [Matrix.diagonal_add]; congr 1; funext i; fin_cases i <;> simp

lemma seven_dr {lab : Fin 2 → ℝ} (h : lab = ![1, 0] ∨ lab = ![0, 1]) (b : Fin 2 → ℝ) :
    drCriterion (Matrix.diagonal ![1, 2 / 3]) sevenX sevenY lab b = 36 / 49 * b 0 ^ 2 + 92 / 147 * b 1 ^ 2 := by
  rcases h with rfl | rfl <;>
  · simp only [drCriterion, Fin.sum_univ_two, Matrix.cons_val_zero, Matrix.cons_val_one, seven_share_one, seven_share_zero, seven_pair_oo, seven_pair_zz, seven_pair_oz,
      seven_pair_zo, inv_diag_two one_ne_zero (show (2 / 3 : ℝ) ≠ 0 by norm_num), diag_smul_two, diag_sub_two, diag_mul_two, quad_two]
    ring

lemma seven_average {lab : Fin 2 → ℝ} (h : lab = ![1, 0] ∨ lab = ![0, 1]) (M : Matrix (Fin 2) (Fin 2) ℝ) :
    averageMoment M sevenX sevenY lab = Matrix.diagonal ![9 / 7, 5 / 7] := by
  have h0 : (Matrix.of fun j k => meanOf sevenX sevenY 1 j * meanOf sevenX sevenY 1 k) = (0 : Matrix (Fin 2) (Fin 2) ℝ) := by
    ext j k; simp [seven_mean_one]
  have h1 : (Matrix.of fun j k => meanOf sevenX sevenY 0 j * meanOf sevenX sevenY 0 k) = (0 : Matrix (Fin 2) (Fin 2) ℝ) := by
    ext j k; simp [seven_mean_zero]
  rcases h with rfl | rfl <;>
  · simp only [averageMoment, Fin.sum_univ_two, Matrix.cons_val_zero, Matrix.cons_val_one, seven_share_one, seven_share_zero, h0, h1, add_zero, seven_cov_one, seven_cov_zero,
      diag_smul_two, diag_add_two]
    norm_num

/-- C132 is violated: for these centred and scaled data, whose slices cover all cases, the direction that directional regression returns does not maximise its criterion,
because the covariance matrices of the slices (divisor one less than their size) do not average to what the method assumes. -/
theorem C132_dr_optimal_violated {eigh : Eigh} (he : IsEigh eigh) : ∃ (B : Matrix (Fin 2) (Fin (min 1 2)) ℝ) (lab : Fin 2 → ℝ),
    sliceMethod .dr eigh sevenX sevenY 2 1 false true true = .ok B ∧ sliceLabels sevenY 2 = .ok lab ∧ SlicesCover false sevenY 2 ∧
    ∃ b, quad (covMat sevenX) b = 1 ∧ ∀ k, drCriterion (covMat sevenX) (centredData true sevenX) sevenY lab (fun i => B i k) <
      drCriterion (covMat sevenX) (centredData true sevenX) sevenY lab b := by
  simp only [← sdrCentre_eq]
  obtain ⟨lab, hlab, hcase⟩ := two_labels (y := sevenY) (a := 1) (b := 0) (by norm_num) (by norm_num) sevenY_image
  have hcov : SlicesCover false sevenY 2 := Or.inr (by rw [sevenY_image, Finset.card_pair (by norm_num)])
  obtain ⟨S, hS⟩ : ∃ S, sdrRoot eigh true sevenX = .ok S := by
    simp only [sdrRoot, if_true]
    refine invSqrt_pd he (covMat_symm _) ?_
    intro v hv
    rw [sevenX_cov, quad_two]
    have : v 0 ≠ 0 ∨ v 1 ≠ 0 := by
      by_contra hc
      push Not at hc
      exact hv (by funext i; fin_cases i <;> simp [hc.1, hc.2])
    rcases this with h | h
    · have := sq_pos_of_ne_zero h; have := sq_nonneg (v 1); linarith
    · have := sq_pos_of_ne_zero h; have := sq_nonneg (v 0); linarith
  obtain ⟨B, hB⟩ : ∃ B, sliceMethod .dr eigh sevenX sevenY 2 1 false true true = .ok B := by
    rw [sliceMethod, if_neg (by norm_num), hS]
    simp only [sliceResponse, Bool.false_eq_true, if_false]
    rw [hlab]
    dsimp only
    rw [if_neg (by norm_num)]
    exact ⟨_, rfl⟩
  refine ⟨B, lab, hB, hlab, hcov, ![0, Real.sqrt (3 / 2)], ?_, fun k => ?_⟩
  · rw [sevenX_cov, quad_two]
    simp only [Matrix.cons_val_zero, Matrix.cons_val_one]
    rw [Real.sq_sqrt (by norm_num)]
    norm_num
  · have horth := C89_slicing he .dr sevenX sevenY 2 1 false true true B hB
    obtain ⟨yd, lab', hy, hl, hmax⟩ := C132_dr_corrected he sevenX sevenY 2 1 false true hcov B hB
    simp only [sliceResponse, Bool.false_eq_true, if_false, Except.ok.injEq] at hy
    subst hy
    rw [hlab] at hl
    cases hl
    simp only [if_true] at hmax horth
    have hk := congrFun (congrFun horth k) k
    rw [Matrix.one_apply_eq, Matrix.mul_apply, Fin.sum_univ_two] at hk
    simp only [Matrix.mul_apply, Fin.sum_univ_two, Matrix.transpose_apply, sevenX_cov] at hk
    have h1 := hmax k ![1, 0] (by rw [sevenX_cov, quad_two]; norm_num) (by
      intro l hl
      have := k.2
      have := l.2
      simp only [Fin.lt_def] at hl
      omega)
    rw [← sdrCentre_eq] at h1
    rw [sevenX_centre, sevenX_cov] at h1 ⊢
    rw [seven_dr hcase, seven_dr hcase, seven_average hcase, inv_diag_two one_ne_zero (by norm_num), diag_smul_two, diag_sub_two, diag_sub_two, diag_mul_two, diag_mul_two,
      quad_two, quad_two] at h1
    rw [seven_dr hcase, seven_dr hcase]
    simp only [Matrix.cons_val_zero, Matrix.cons_val_one] at h1 ⊢
    rw [Real.sq_sqrt (by norm_num)]
    simp at hk
    nlinarith [sq_nonneg (B 0 k), sq_nonneg (B 1 k)]

end Direpack
