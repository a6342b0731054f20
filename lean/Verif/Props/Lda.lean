import Verif.Props.DrSir
import Verif.Spec.Lda

/-! Property C182: sliced inverse regression is linear discriminant analysis of the slices. -/

namespace Direpack

open scoped BigOperators
open Spec

variable {n p s : ℕ}

lemma sum_slices (F : Fin n → ℝ) {y : Fin n → ℝ} {lab : Fin s → ℝ} (hinj : Function.Injective lab) (hcov : ∀ c, ∃ i, y c = lab i) :
    ∑ c, F c = ∑ i, ∑ c ∈ casesWith y (lab i), F c := by
  classical
  rw [← Finset.sum_biUnion]
  · refine Finset.sum_congr ?_ fun _ _ => rfl
    ext c
    simpa [casesWith] using hcov c
  · intro i _ j _ hij
    rw [Function.onFun, Finset.disjoint_left]
    intro c hc hc'
    simp only [casesWith, Finset.mem_filter, Finset.mem_univ, true_and] at hc hc'
    exact hij (hinj (hc.symm.trans hc'))

lemma scoresOf_centred (hn : 0 < n) (X : Fin n → Fin p → ℝ) (b : Fin p → ℝ) (c : Fin n) :
    ∑ j, centredData true X c j * b j = scoresOf X b c - average (scoresOf X b) := by
  simp only [centredData, if_true, scoresOf, average, sub_mul, Finset.sum_sub_distrib]
  congr 1
  rw [Finset.sum_comm, Finset.sum_div]
  refine Finset.sum_congr rfl fun j _ => ?_
  rw [← Finset.sum_mul]
  ring

/-- The two sums of squares in terms of the slices. -/
lemma lda_anova {cont : Bool} {y : Fin n → ℝ} (hn : 2 ≤ n) (hs : SlicesCover cont y s) {yd : Fin n → ℝ} {lab : Fin s → ℝ}
    (hy : sliceResponse cont y s = .ok yd) (hl : sliceLabels yd s = .ok lab) (X : Fin n → Fin p → ℝ) (b : Fin p → ℝ) :
    betweenSS (scoresOf X b) yd = n * betweenSlices (centredData true X) yd lab b ∧
      withinSS (scoresOf X b) yd + betweenSS (scoresOf X b) yd = ((n : ℝ) - 1) * quad (covMat X) b := by
  obtain ⟨hinj, hcov, hne⟩ := cover_labels (by omega) hs hy hl
  have hn' : (n : ℝ) ≠ 0 := by
    have : n ≠ 0 := by omega
    exact_mod_cast this
  set z := scoresOf X b with hz
  set u : Fin n → ℝ := fun c => z c - average z with hu
  have hcu : ∀ c, ∑ j, centredData true X c j * b j = u c := fun c => scoresOf_centred (by omega) X b c
  have hmu : ∀ i, ∀ c ∈ casesWith yd (lab i), groupMean z yd c - average z = (∑ c ∈ casesWith yd (lab i), u c) / (casesWith yd (lab i)).card := by
    intro i c hc
    have hc' : yd c = lab i := by simpa [casesWith] using hc
    have h0 : ((casesWith yd (lab i)).card : ℝ) ≠ 0 := by exact_mod_cast (hne i).ne'
    unfold groupMean
    rw [hc', hu, Finset.sum_sub_distrib, Finset.sum_const, nsmul_eq_mul]
    field_simp
  have hB : betweenSS z yd = ∑ i, ((casesWith yd (lab i)).card : ℝ) * ((∑ c ∈ casesWith yd (lab i), u c) / (casesWith yd (lab i)).card) ^ 2 := by
    rw [betweenSS, sum_slices _ hinj hcov]
    refine Finset.sum_congr rfl fun i _ => ?_
    rw [Finset.sum_congr rfl fun c hc => by rw [hmu i c hc], Finset.sum_const, nsmul_eq_mul]
  have hW : withinSS z yd = ∑ i, ∑ c ∈ casesWith yd (lab i), (u c - (∑ c ∈ casesWith yd (lab i), u c) / (casesWith yd (lab i)).card) ^ 2 := by
    rw [withinSS, sum_slices _ hinj hcov]
    refine Finset.sum_congr rfl fun i _ => Finset.sum_congr rfl fun c hc => ?_
    rw [← hmu i c hc]
    simp only [hu]
    ring
  constructor
  · rw [hB, betweenSlices, Finset.mul_sum]
    simp only [hcu]
    refine Finset.sum_congr rfl fun i _ => ?_
    unfold casesWith
    field_simp
  · have h1 := covMat_proj hn X b
    rw [sdrCentre_eq] at h1
    simp only [hcu] at h1
    rw [← h1, hB, hW, sum_sq_slices u hinj hcov hne, Finset.sum_add_distrib]

lemma withinSS_nonneg (z g : Fin n → ℝ) : 0 ≤ withinSS z g := Finset.sum_nonneg fun _ _ => sq_nonneg _

lemma betweenSS_nonneg (z g : Fin n → ℝ) : 0 ≤ betweenSS z g := Finset.sum_nonneg fun _ _ => sq_nonneg _

lemma quad_smul_vec (A : Matrix (Fin p) (Fin p) ℝ) (t : ℝ) (b : Fin p → ℝ) : quad A (fun j => t * b j) = t ^ 2 * quad A b := by
  unfold quad
  rw [Finset.mul_sum]
  refine Finset.sum_congr rfl fun j _ => ?_
  rw [Finset.mul_sum]
  exact Finset.sum_congr rfl fun k _ => by ring

lemma betweenSlices_smul (X : Fin n → Fin p → ℝ) (y : Fin n → ℝ) (lab : Fin s → ℝ) (t : ℝ) (b : Fin p → ℝ) :
    betweenSlices X y lab (fun j => t * b j) = t ^ 2 * betweenSlices X y lab b := by
  unfold betweenSlices
  rw [Finset.mul_sum]
  refine Finset.sum_congr rfl fun i _ => ?_
  have : ∀ c, ∑ j, X c j * (t * b j) = t * ∑ j, X c j * b j := fun c => by
    rw [Finset.mul_sum]
    exact Finset.sum_congr rfl fun j _ => by ring
  simp only [this, ← Finset.mul_sum]
  ring

/-- **C182.** Scaled and centred data and slices that cover all cases.  The directions of SIR maximise, one after another, Fisher's criterion for the slices: no direction `b` that gives scores uncorrelated with
those of the directions before has a larger ratio of the variation between the slices to that within them (the ratios are compared crosswise, as the slices can be separated perfectly). -/
theorem C182_fisher {eigh : Eigh} (he : IsEigh eigh) (X : Fin n → Fin p → ℝ) (y : Fin n → ℝ) (s d : ℕ) (cont : Bool) (hs : SlicesCover cont y s)
    (B : Matrix (Fin p) (Fin (min d p)) ℝ) (h : sliceMethod .sir eigh X y s d cont true true = .ok B) :
    ∃ yd, sliceResponse cont y s = .ok yd ∧ ∀ (k : Fin (min d p)) (b : Fin p → ℝ), (∀ l, l < k → bilin (covMat X) (fun i => B i l) b = 0) →
      betweenSS (scoresOf X b) yd * withinSS (scoresOf X fun i => B i k) yd ≤ betweenSS (scoresOf X fun i => B i k) yd * withinSS (scoresOf X b) yd := by
  obtain ⟨yd, lab, hy, hl, hmax⟩ := C90_sir_optimal he X y s d cont true true B h
  have horth := C89_slicing he .sir X y s d cont true true B h
  simp only [if_true] at hmax horth
  have hsz := (sliceMethod_size h).1
  have hn1 : (0 : ℝ) < (n : ℝ) - 1 := by
    have : (2 : ℝ) ≤ n := by exact_mod_cast hsz
    linarith
  refine ⟨yd, hy, fun k b hb => ?_⟩
  obtain ⟨eB, eT⟩ := lda_anova hsz hs hy hl X b
  obtain ⟨eB0, eT0⟩ := lda_anova hsz hs hy hl X (fun i => B i k)
  have hq : quad (covMat X) (fun i => B i k) = 1 := by
    have := congrFun (congrFun horth k) k
    rw [Matrix.one_apply_eq] at this
    rw [← this, quad]
    simp only [Matrix.mul_apply, Matrix.transpose_apply, Finset.sum_mul]
    rw [Finset.sum_comm]
  have hT : 0 ≤ quad (covMat X) b := by
    have h0 : 0 ≤ ((n : ℝ) - 1) * quad (covMat X) b := by
      rw [← eT]
      exact add_nonneg (withinSS_nonneg _ _) (betweenSS_nonneg _ _)
    exact nonneg_of_mul_nonneg_right h0 hn1
  have key : betweenSS (scoresOf X b) yd ≤ betweenSS (scoresOf X fun i => B i k) yd * quad (covMat X) b := by
    rcases hT.eq_or_lt with h0 | hpos
    · rw [← h0, mul_zero] at eT ⊢
      have := withinSS_nonneg (scoresOf X b) yd
      linarith
    · set t := √(quad (covMat X) b) with ht
      have htp : 0 < t := Real.sqrt_pos.2 hpos
      have ht2 : t ^ 2 = quad (covMat X) b := Real.sq_sqrt hT
      have h1 := hmax k (fun j => t⁻¹ * b j) (by rw [quad_smul_vec, ← ht2]; field_simp) (by
        intro l hlk
        have h2 := hb l hlk
        have : bilin (covMat X) (fun i => B i l) (fun j => t⁻¹ * b j) = t⁻¹ * bilin (covMat X) (fun i => B i l) b := by
          unfold bilin
          rw [Finset.mul_sum]
          refine Finset.sum_congr rfl fun j _ => ?_
          rw [Finset.mul_sum]
          exact Finset.sum_congr rfl fun k _ => by ring
        rw [this, h2, mul_zero])
      rw [betweenSlices_smul] at h1
      rw [eB, eB0, ← ht2]
      have h3 : betweenSlices (centredData true X) yd lab b ≤ betweenSlices (centredData true X) yd lab (fun i => B i k) * t ^ 2 := by
        have := mul_le_mul_of_nonneg_right h1 (sq_nonneg t)
        have e : t⁻¹ ^ 2 * betweenSlices (centredData true X) yd lab b * t ^ 2 = betweenSlices (centredData true X) yd lab b := by
          field_simp
        rwa [e] at this
      have hn0 : (0 : ℝ) ≤ n := Nat.cast_nonneg n
      nlinarith
  rw [hq, mul_one] at eT0
  have hW0 : withinSS (scoresOf X fun i => B i k) yd = (n : ℝ) - 1 - betweenSS (scoresOf X fun i => B i k) yd := by linarith
  have hW : withinSS (scoresOf X b) yd = ((n : ℝ) - 1) * quad (covMat X) b - betweenSS (scoresOf X b) yd := by linarith
  rw [hW0, hW]
  nlinarith

/-- The hypotheses are met: the eight cases of C174, in two groups. -/
example {eigh : Eigh} (he : IsEigh eigh) : ∃ B, sliceMethod .sir eigh eightX eightY 2 1 false true true = .ok B ∧ SlicesCover false eightY 2 := by
  obtain ⟨lab, hlab, h⟩ := two_labels (y := eightY) (a := 1) (b := 0) (by norm_num) (by norm_num) eightY_image
  have hpd : ∀ v, v ≠ 0 → 0 < quad (covMat eightX) v := by
    intro v hv
    rw [eightX_cov, quad_two]
    rcases eq_or_ne (v 0) 0 with h0 | h0
    · have h1 : v 1 ≠ 0 := fun h1 => hv (by funext i; fin_cases i <;> simp [h0, h1])
      have := pow_pos (abs_pos.mpr h1) 2
      rw [sq_abs] at this
      nlinarith [sq_nonneg (v 0)]
    · have := pow_pos (abs_pos.mpr h0) 2
      rw [sq_abs] at this
      nlinarith [sq_nonneg (v 1)]
  obtain ⟨S, hS⟩ := invSqrt_pd he (covMat_symm eightX) hpd
  rw [sliceMethod, if_neg (by norm_num)]
  simp only [sdrRoot, sliceResponse, Bool.false_eq_true, if_false, if_true]
  rw [hS, hlab]
  dsimp only
  rw [if_neg (by norm_num)]
  exact ⟨_, rfl, Or.inr (by rw [eightY_image, Finset.card_pair (by norm_num)])⟩

end Direpack
