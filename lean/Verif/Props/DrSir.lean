import Verif.Props.SaveSir

/-! Property C176: what sliced inverse regression sees is also seen by directional regression. -/

namespace Direpack

open scoped BigOperators
open Spec

variable {n p s : ℕ}

/-- The second moment matrix of the cases of a slice. -/
noncomputable def Spec.momentOf (M : Matrix (Fin p) (Fin p) ℝ) (X : Fin n → Fin p → ℝ) (y : Fin n → ℝ) (a : ℝ) : Matrix (Fin p) (Fin p) ℝ :=
  covOf M X y a + Matrix.of fun j k => meanOf X y a j * meanOf X y a k

/-- The covariance matrix of the slice means. -/
noncomputable def Spec.betweenMat (X : Fin n → Fin p → ℝ) (y : Fin n → ℝ) (lab : Fin s → ℝ) : Matrix (Fin p) (Fin p) ℝ :=
  ∑ i, shareOf y (lab i) • Matrix.of fun j k => meanOf X y (lab i) j * meanOf X y (lab i) k

/-- The kernel of directional regression by the formula of B. Li and S. Wang (2007), as a function of the direction `b`, for data in their own units: twice the average over the slices of
the squared second moments, twice the square of the covariance of the slice means, twice the product of its trace and itself, less twice the identity. -/
noncomputable def Spec.drValue (M : Matrix (Fin p) (Fin p) ℝ) (X : Fin n → Fin p → ℝ) (y : Fin n → ℝ) (lab : Fin s → ℝ) (b : Fin p → ℝ) : ℝ :=
  2 * (∑ i, shareOf y (lab i) * quad (momentOf M X y (lab i) * M⁻¹ * momentOf M X y (lab i)) b) +
    2 * quad (betweenMat X y lab * M⁻¹ * betweenMat X y lab) b +
    2 * (∑ i, shareOf y (lab i) * quad M⁻¹ (meanOf X y (lab i))) * quad (betweenMat X y lab) b - 2 * quad M b

lemma momentOf_scale (X : Fin n → Fin p → ℝ) {M S : Matrix (Fin p) (Fin p) ℝ} (h1 : S.transpose = S) (h2 : S * M * S = 1) (y : Fin n → ℝ) (a : ℝ) :
    sliceCov (matX X S) y a + outer (sliceMean (matX X S) y a) = S * momentOf M X y a * S := by
  have : sliceMean (matX X S) y a = fun j => ∑ k, meanOf X y a k * S k j := by funext j; rw [meanOf_scale]
  rw [this, outer_scale _ h1, covOf_scale X h1 h2, momentOf, Matrix.mul_add, Matrix.add_mul]
  rfl

lemma betweenMat_scale (X : Fin n → Fin p → ℝ) {S : Matrix (Fin p) (Fin p) ℝ} (h1 : S.transpose = S) (y : Fin n → ℝ) (lab : Fin s → ℝ) :
    ∑ i, sliceProb y (lab i) • outer (sliceMean (matX X S) y (lab i)) = S * betweenMat X y lab * S := by
  rw [betweenMat, Matrix.mul_sum, Matrix.sum_mul]
  refine Finset.sum_congr rfl fun i _ => ?_
  have : sliceMean (matX X S) y (lab i) = fun j => ∑ k, meanOf X y (lab i) k * S k j := by funext j; rw [meanOf_scale]
  rw [this, outer_scale _ h1, Matrix.mul_smul, Matrix.smul_mul, shareOf_eq]
  rfl

lemma quad_conj_sq {S M : Matrix (Fin p) (Fin p) ℝ} (h1 : S.transpose = S) (h2 : S * M * S = 1) (K : Matrix (Fin p) (Fin p) ℝ) (v : Fin p → ℝ) :
    quad ((S * K * S) * (S * K * S)) v = quad (K * M⁻¹ * K) (S.mulVec v) := by
  rw [root_inv h2, ← quad_conj h1]
  congr 1
  noncomm_ring

/-- The kernel of the code. -/
lemma quad_drValue (X : Fin n → Fin p → ℝ) {M S : Matrix (Fin p) (Fin p) ℝ} (h1 : S.transpose = S) (h2 : S * M * S = 1) (y : Fin n → ℝ) (lab : Fin s → ℝ) (v : Fin p → ℝ) :
    quad (drMat (matX X S) y lab) v = drValue M X y lab (S.mulVec v) := by
  have ht : (∑ i, sliceProb y (lab i) • outer (sliceMean (matX X S) y (lab i))).trace = ∑ i, shareOf y (lab i) * quad M⁻¹ (meanOf X y (lab i)) := by
    rw [Matrix.trace_sum]
    refine Finset.sum_congr rfl fun i _ => ?_
    rw [Matrix.trace_smul, smul_eq_mul, shareOf_eq]
    congr 1
    have e : sliceMean (matX X S) y (lab i) = S.mulVec (meanOf X y (lab i)) := by
      funext j
      rw [meanOf_scale]
      simp only [Matrix.mulVec, dotProduct]
      refine Finset.sum_congr rfl fun k _ => ?_
      rw [mul_comm, ← congrFun (congrFun h1 k) j, Matrix.transpose_apply]
    have e2 := quad_conj h1 (1 : Matrix (Fin p) (Fin p) ℝ) (meanOf X y (lab i))
    rw [Matrix.mul_one] at e2
    rw [root_inv h2, e2, ← e]
    simp only [Matrix.trace, Matrix.diag_apply, outer, Matrix.of_apply]
    rw [quadForm_eq, Matrix.one_mulVec]
    rfl
  have hd : drMat (matX X S) y lab = (2 : ℝ) • (∑ i, sliceProb y (lab i) • ((sliceCov (matX X S) y (lab i) + outer (sliceMean (matX X S) y (lab i))) *
        (sliceCov (matX X S) y (lab i) + outer (sliceMean (matX X S) y (lab i))))) +
      (2 : ℝ) • ((∑ i, sliceProb y (lab i) • outer (sliceMean (matX X S) y (lab i))) * (∑ i, sliceProb y (lab i) • outer (sliceMean (matX X S) y (lab i)))) +
      (2 * (∑ i, sliceProb y (lab i) • outer (sliceMean (matX X S) y (lab i))).trace) • (∑ i, sliceProb y (lab i) • outer (sliceMean (matX X S) y (lab i))) +
      (-2 : ℝ) • (S * M * S) := by
    rw [h2, neg_smul, ← sub_eq_add_neg]
    rfl
  rw [hd, ht, betweenMat_scale X h1]
  simp only [momentOf_scale X h1 h2]
  rw [quad_add, quad_add, quad_add, quad_smul, quad_smul, quad_smul, quad_smul, quad_sum, quad_conj_sq h1 h2, quad_conj h1, quad_conj h1, drValue]
  simp only [quad_smul, quad_conj_sq h1 h2, shareOf_eq]
  ring

/-- **C176.** The directions of directional regression maximise, one after another, the kernel of directional regression: column `k` does so among all directions of unit length in the metric
that are orthogonal in that metric to the columns before, for all data, slices and settings. -/
theorem C176_dr_optimal {eigh : Eigh} (he : IsEigh eigh) (X : Fin n → Fin p → ℝ) (y : Fin n → ℝ) (s d : ℕ) (cont center scale : Bool)
    (B : Matrix (Fin p) (Fin (min d p)) ℝ) (h : sliceMethod .dr eigh X y s d cont center scale = .ok B) :
    ∃ yd lab, sliceResponse cont y s = .ok yd ∧ sliceLabels yd s = .ok lab ∧
      ∀ (k : Fin (min d p)) (b : Fin p → ℝ), quad (if scale then covMat X else 1) b = 1 →
        (∀ l, l < k → bilin (if scale then covMat X else 1) (fun i => B i l) b = 0) →
        drValue (if scale then covMat X else 1) (centredData center X) yd lab b ≤ drValue (if scale then covMat X else 1) (centredData center X) yd lab (fun i => B i k) := by
  simp only [← sdrCentre_eq]
  obtain ⟨S, yd, lab, hS, hy, hl, rfl⟩ := sliceMethod_ok h
  refine ⟨yd, lab, hy, hl, ?_⟩
  obtain ⟨h1, h2, h3, h4⟩ := sdrRoot_spec he hS
  intro k b hb ho
  rw [h3] at ho ⊢
  rw [h4] at ho ⊢
  change quad (sdrMetric scale X) b = 1 at hb
  change ∀ l, l < k → bilin (sdrMetric scale X) _ b = 0 at ho
  change drValue (sdrMetric scale X) _ _ _ _ ≤ drValue (sdrMetric scale X) _ _ _ _
  refine leading_back (crit := drValue (sdrMetric scale X) (sdrCentre center X) yd lab) he h1 h2 (kernel_symm ..) ?_ k b hb ho
  intro v
  exact quad_drValue (sdrCentre center X) h1 h2 yd lab v

/-! ### The lower bound -/

/-- Cauchy-Schwarz in the metric. -/
lemma quad_sq_le {M S K : Matrix (Fin p) (Fin p) ℝ} (h1 : S.transpose = S) (h2 : S * M * S = 1) (hK : K.transpose = K) (b : Fin p → ℝ) (hb : quad M b = 1) :
    quad K b ^ 2 ≤ quad (K * M⁻¹ * K) b := by
  set c := (M * S).mulVec b with hc
  have hSA : S * (M * S) = 1 := by rw [← Matrix.mul_assoc]; exact h2
  have hbS : b = S.mulVec c := by rw [hc, Matrix.mulVec_mulVec, hSA, Matrix.one_mulVec]
  set W := S * K * S with hW
  have hWs : W.transpose = W := by
    rw [hW, Matrix.transpose_mul, Matrix.transpose_mul, h1, hK, Matrix.mul_assoc]
  have hcc : c ⬝ᵥ c = 1 := by
    have := quad_conj h1 M c
    rw [h2, ← hbS, hb, quadForm_eq, Matrix.one_mulVec] at this
    exact this
  have e1 : quad K b = c ⬝ᵥ W.mulVec c := by
    have := quad_conj h1 K c
    rw [← hbS, quadForm_eq, ← hW] at this
    exact this.symm
  have e2 : quad (K * M⁻¹ * K) b = W.mulVec c ⬝ᵥ W.mulVec c := by
    have := quad_conj_sq h1 h2 K c
    rw [← hbS, ← hW, quadForm_eq, ← Matrix.mulVec_mulVec, Matrix.dotProduct_mulVec, ← Matrix.mulVec_transpose, hWs] at this
    exact this.symm
  have hcs : (c ⬝ᵥ W.mulVec c) ^ 2 ≤ (c ⬝ᵥ c) * (W.mulVec c ⬝ᵥ W.mulVec c) := by
    have := Finset.sum_mul_sq_le_sq_mul_sq Finset.univ c (W.mulVec c)
    simpa [dotProduct, sq] using this
  rw [hcc, one_mul] at hcs
  rw [e1, e2]
  exact hcs

/-- A projection is no longer than the vector, in the metric. -/
lemma proj_sq_le {M S : Matrix (Fin p) (Fin p) ℝ} (h1 : S.transpose = S) (h2 : S * M * S = 1) (m b : Fin p → ℝ) (hb : quad M b = 1) :
    (∑ j, m j * b j) ^ 2 ≤ quad M⁻¹ m := by
  set c := (M * S).mulVec b with hc
  have hSA : S * (M * S) = 1 := by rw [← Matrix.mul_assoc]; exact h2
  have hbS : b = S.mulVec c := by rw [hc, Matrix.mulVec_mulVec, hSA, Matrix.one_mulVec]
  have hcc : c ⬝ᵥ c = 1 := by
    have := quad_conj h1 M c
    rw [h2, ← hbS, hb, quadForm_eq, Matrix.one_mulVec] at this
    exact this
  have e2 := quad_conj h1 (1 : Matrix (Fin p) (Fin p) ℝ) m
  rw [Matrix.mul_one, quadForm_eq 1, Matrix.one_mulVec] at e2
  have e1 : ∑ j, m j * b j = (S.mulVec m) ⬝ᵥ c := by
    change m ⬝ᵥ b = _
    rw [hbS, Matrix.dotProduct_mulVec, ← Matrix.mulVec_transpose, h1]
  rw [root_inv h2, e2, e1]
  have hcs : (S.mulVec m ⬝ᵥ c) ^ 2 ≤ (S.mulVec m ⬝ᵥ S.mulVec m) * (c ⬝ᵥ c) := by
    have := Finset.sum_mul_sq_le_sq_mul_sq Finset.univ (S.mulVec m) c
    simpa [dotProduct, sq] using this
  rw [hcc, mul_one] at hcs
  exact hcs

lemma quad_outer_of (m b : Fin p → ℝ) : quad (Matrix.of fun j k => m j * m k) b = (∑ j, m j * b j) ^ 2 := by
  rw [sq, Finset.sum_mul_sum]
  simp only [quad, Matrix.of_apply]
  exact Finset.sum_congr rfl fun j _ => Finset.sum_congr rfl fun k _ => by ring

lemma quad_betweenMat (X : Fin n → Fin p → ℝ) (y : Fin n → ℝ) (lab : Fin s → ℝ) (b : Fin p → ℝ) : quad (betweenMat X y lab) b = betweenSlices X y lab b := by
  rw [between_meanOf, betweenMat, quad_sum]
  exact Finset.sum_congr rfl fun i _ => by rw [quad_smul, quad_outer_of]

lemma betweenMat_symm (X : Fin n → Fin p → ℝ) (y : Fin n → ℝ) (lab : Fin s → ℝ) : (betweenMat X y lab).transpose = betweenMat X y lab := by
  rw [betweenMat, Matrix.transpose_sum]
  refine Finset.sum_congr rfl fun i _ => ?_
  ext j k
  simp [Matrix.transpose_apply, mul_comm]

lemma momentOf_symm {M : Matrix (Fin p) (Fin p) ℝ} (hM : M.transpose = M) (X : Fin n → Fin p → ℝ) (y : Fin n → ℝ) (a : ℝ) : (momentOf M X y a).transpose = momentOf M X y a := by
  rw [momentOf, Matrix.transpose_add, covOf_symm hM]
  congr 1
  ext j k
  simp [Matrix.transpose_apply, mul_comm]

/-- The kernel is at least what the averages of the projected data give. -/
lemma drValue_lower {M S : Matrix (Fin p) (Fin p) ℝ} (h1 : S.transpose = S) (h2 : S * M * S = 1) (hM : M.transpose = M) (X : Fin n → Fin p → ℝ) (y : Fin n → ℝ) (lab : Fin s → ℝ)
    (hsum : ∑ i, shareOf y (lab i) = 1) (b : Fin p → ℝ) (hb : quad M b = 1) :
    2 * (betweenSlices X y lab b + ∑ i, shareOf y (lab i) * quad (covOf M X y (lab i)) b) ^ 2 + 4 * betweenSlices X y lab b ^ 2 - 2 ≤ drValue M X y lab b := by
  have hsh : ∀ i, 0 ≤ shareOf y (lab i) := fun i => by unfold shareOf; positivity
  set u : Fin s → ℝ := fun i => quad (momentOf M X y (lab i)) b with hu
  have hw : betweenSlices X y lab b + ∑ i, shareOf y (lab i) * quad (covOf M X y (lab i)) b = ∑ i, shareOf y (lab i) * u i := by
    rw [between_meanOf, ← Finset.sum_add_distrib]
    refine Finset.sum_congr rfl fun i _ => ?_
    rw [hu]
    dsimp only
    rw [momentOf, quad_add, quad_outer_of]
    ring
  have hjen : (∑ i, shareOf y (lab i) * u i) ^ 2 ≤ ∑ i, shareOf y (lab i) * u i ^ 2 := by
    have := Finset.sum_mul_sq_le_sq_mul_sq Finset.univ (fun i => √(shareOf y (lab i))) fun i => √(shareOf y (lab i)) * u i
    have e1 : ∀ i, √(shareOf y (lab i)) * (√(shareOf y (lab i)) * u i) = shareOf y (lab i) * u i := fun i => by
      rw [← mul_assoc, Real.mul_self_sqrt (hsh i)]
    have e2 : ∀ i, √(shareOf y (lab i)) ^ 2 = shareOf y (lab i) := fun i => Real.sq_sqrt (hsh i)
    have e3 : ∀ i, (√(shareOf y (lab i)) * u i) ^ 2 = shareOf y (lab i) * u i ^ 2 := fun i => by rw [mul_pow, e2]
    simp only [e1, e2, e3, hsum, one_mul] at this
    exact this
  have hA : ∑ i, shareOf y (lab i) * u i ^ 2 ≤ ∑ i, shareOf y (lab i) * quad (momentOf M X y (lab i) * M⁻¹ * momentOf M X y (lab i)) b :=
    Finset.sum_le_sum fun i _ => mul_le_mul_of_nonneg_left (quad_sq_le h1 h2 (momentOf_symm hM ..) b hb) (hsh i)
  have hB := quad_sq_le h1 h2 (betweenMat_symm X y lab) b hb
  have hT : betweenSlices X y lab b ≤ ∑ i, shareOf y (lab i) * quad M⁻¹ (meanOf X y (lab i)) := by
    rw [between_meanOf]
    exact Finset.sum_le_sum fun i _ => mul_le_mul_of_nonneg_left (proj_sq_le h1 h2 _ b hb) (hsh i)
  have h0 : 0 ≤ betweenSlices X y lab b := by
    rw [between_meanOf]
    exact Finset.sum_nonneg fun i _ => mul_nonneg (hsh i) (sq_nonneg _)
  rw [drValue, hw, hb]
  rw [quad_betweenMat] at hB ⊢
  nlinarith [mul_le_mul_of_nonneg_right hT h0]

lemma dr_arith {v q x : ℝ} (hv0 : 0 ≤ v) (hv : v ≤ 1 / 4) (hq : q ≤ 1) (hx : 1 - v + v * q - (1 - 2 * v) * q ≤ x) :
    2 * x ^ 2 ≤ 2 * (1 - v + v * q) ^ 2 + 4 * x ^ 2 - 2 := by
  set t := 1 - q with ht
  have ht0 : 0 ≤ t := by linarith
  have h1 : 2 * v + (1 - 3 * v) * t ≤ x := by rw [ht]; linarith
  have h2 : 0 ≤ 2 * v + (1 - 3 * v) * t := by
    have : 0 ≤ (1 - 3 * v) * t := mul_nonneg (by linarith) ht0
    linarith
  have h3 : (2 * v + (1 - 3 * v) * t) ^ 2 ≤ x ^ 2 := pow_le_pow_left₀ h2 h1 2
  have h4 : 0 ≤ (2 * v + (1 - 6 * v) * t / 2) ^ 2 + t ^ 2 * (3 / 4 - 3 * v + v ^ 2) :=
    add_nonneg (sq_nonneg _) (mul_nonneg (sq_nonneg _) (by nlinarith))
  have h5 : 1 - v + v * q = 1 - v * t := by rw [ht]; ring
  rw [h5]
  nlinarith

lemma quad_covOf_nonneg {M : Matrix (Fin p) (Fin p) ℝ} (X : Fin n → Fin p → ℝ) (y : Fin n → ℝ) (a : ℝ) (b : Fin p → ℝ) (hb : quad M b = 1) : 0 ≤ quad (covOf M X y a) b := by
  by_cases h1 : 1 < (casesWith y a).card
  · have h2 := covOf_within M X y a b (by omega)
    have h3 : (1 : ℝ) < (casesWith y a).card := by exact_mod_cast h1
    have h4 : 0 ≤ (((casesWith y a).card : ℝ) - 1) * quad (covOf M X y a) b := by
      rw [h2]
      exact Finset.sum_nonneg fun _ _ => sq_nonneg _
    exact nonneg_of_mul_nonneg_right h4 (by linarith)
  · rw [covOf, if_neg h1, hb]
    exact zero_le_one

/-- **C176.** Scaled and centred data and slices that cover all cases.  If directional regression returns a model, then in every direction of unit variance the value it maximises is at least twice the square of
the variation between the slices, which SIR maximises (four times, if the variances of the slices add up to at least that of the data); so is the value of the first direction it returns. -/
theorem C176_dr_sir {eigh : Eigh} (he : IsEigh eigh) (X : Fin n → Fin p → ℝ) (y : Fin n → ℝ) (s d : ℕ) (cont : Bool) (hs : SlicesCover cont y s)
    (B : Matrix (Fin p) (Fin (min d p)) ℝ) (h : sliceMethod .dr eigh X y s d cont true true = .ok B) :
    ∃ yd lab, sliceResponse cont y s = .ok yd ∧ sliceLabels yd s = .ok lab ∧ ∀ b : Fin p → ℝ, quad (covMat X) b = 1 →
      2 * betweenSlices (centredData true X) yd lab b ^ 2 ≤ drValue (covMat X) (centredData true X) yd lab b ∧
      (1 ≤ ∑ i, quad (covOf (covMat X) (centredData true X) yd (lab i)) b → 4 * betweenSlices (centredData true X) yd lab b ^ 2 ≤ drValue (covMat X) (centredData true X) yd lab b) ∧
      ∀ k : Fin (min d p), k.1 = 0 → 2 * betweenSlices (centredData true X) yd lab b ^ 2 ≤ drValue (covMat X) (centredData true X) yd lab (fun i => B i k) := by
  obtain ⟨yd, lab, hy, hl, hmax⟩ := C176_dr_optimal he X y s d cont true true B h
  simp only [if_true] at hmax
  obtain ⟨S, yd', lab', hS, hy', hl', -⟩ := sliceMethod_ok h
  have hsz := (sliceMethod_size h).1
  obtain ⟨h1, h2, -, -⟩ := sdrRoot_spec he hS
  change S * covMat X * S = 1 at h2
  have hn0 : (0 : ℝ) < n := by exact_mod_cast (by omega : 0 < n)
  obtain ⟨hinj, hcov, hne⟩ := cover_labels (by omega) hs hy hl
  obtain ⟨hsum, hmean⟩ := slices_cover (by omega) hs hy hl (centredData true X)
  have key : ∀ b : Fin p → ℝ, quad (covMat X) b = 1 → 2 * betweenSlices (centredData true X) yd lab b ^ 2 ≤ drValue (covMat X) (centredData true X) yd lab b ∧
      (1 ≤ ∑ i, quad (covOf (covMat X) (centredData true X) yd (lab i)) b → 4 * betweenSlices (centredData true X) yd lab b ^ 2 ≤ drValue (covMat X) (centredData true X) yd lab b) := by
    intro b hb
    have han := between_anova hsz hs hy hl X (covMat X) b hb
    have hlow := drValue_lower h1 h2 (covMat_symm X) (centredData true X) yd lab hsum b hb
    have hq0 : ∀ i, 0 ≤ quad (covOf (covMat X) (centredData true X) yd (lab i)) b := fun i => quad_covOf_nonneg _ _ _ b hb
    set Z := centredData true X with hZ
    set q : Fin s → ℝ := fun i => quad (covOf (covMat X) Z yd (lab i)) b with hq
    set x := betweenSlices Z yd lab b with hx
    have hcs : ∑ i, ((casesWith yd (lab i)).card : ℝ) = n := by
      have := hsum
      simp only [shareOf] at this
      rw [← Finset.sum_div, div_eq_one_iff_eq hn0.ne'] at this
      exact this
    have hw : x + ∑ i, shareOf yd (lab i) * q i = 1 - 1 / n + 1 / n * ∑ i, q i := by
      have e : ∑ i, shareOf yd (lab i) * q i = (∑ i, (casesWith yd (lab i)).card * q i) / n := by
        rw [Finset.sum_div]
        exact Finset.sum_congr rfl fun i _ => by unfold shareOf; ring
      have e2 : ∑ i, (((casesWith yd (lab i)).card : ℝ) - 1) * (1 - q i) = n - s - ∑ i, (casesWith yd (lab i)).card * q i + ∑ i, q i := by
        have e3 : ∀ i, (((casesWith yd (lab i)).card : ℝ) - 1) * (1 - q i) = (casesWith yd (lab i)).card - 1 - (casesWith yd (lab i)).card * q i + q i := fun i => by ring
        simp only [e3, Finset.sum_add_distrib, Finset.sum_sub_distrib, hcs]
        simp
      have e4 : (n : ℝ) * x = n - 1 - ∑ i, (casesWith yd (lab i)).card * q i + ∑ i, q i := by
        have := han
        rw [e2] at this
        linarith
      rw [e]
      field_simp
      linarith
    have hbig : 1 ≤ ∑ i, q i → 4 * x ^ 2 ≤ drValue (covMat X) Z yd lab b := by
      intro hQ
      have : 1 ≤ x + ∑ i, shareOf yd (lab i) * q i := by
        rw [hw]
        have : 0 ≤ 1 / (n : ℝ) * (∑ i, q i - 1) := mul_nonneg (by positivity) (by linarith)
        linarith
      nlinarith
    refine ⟨?_, hbig⟩
    by_cases hQ : 1 ≤ ∑ i, q i
    · nlinarith [hbig hQ, sq_nonneg x]
    · have hQ' : ∑ i, q i < 1 := not_le.mp hQ
      have h2c : ∀ i, 2 ≤ (casesWith yd (lab i)).card := by
        intro i
        by_contra hc
        have hqi : q i = 1 := by
          rw [hq]
          dsimp only
          rw [covOf, if_neg (by omega), hb]
        have := Finset.single_le_sum (f := q) (fun i _ => hq0 i) (Finset.mem_univ i)
        linarith
      by_cases hs1 : s ≤ 1
      · -- one slice: no variation between slices
        have hx0 : x = 0 := by
          rw [hx, between_meanOf]
          refine Finset.sum_eq_zero fun i _ => ?_
          have hm0 : ∀ j, shareOf yd (lab i) * meanOf Z yd (lab i) j = 0 := by
            intro j
            have h3 := hmean j
            rw [hZ, ← sdrCentre_eq, mean_centred (by omega)] at h3
            rw [hZ, ← sdrCentre_eq]
            have : ∀ i', i' = i := fun i' => Fin.ext (by omega)
            rw [← h3, Finset.sum_eq_single i (fun i' _ hne' => absurd (this i') hne') (by simp)]
          have hpos : 0 < shareOf yd (lab i) := by
            have : (0 : ℝ) < (casesWith yd (lab i)).card := by exact_mod_cast hne i
            unfold shareOf; positivity
          have : ∀ j, meanOf Z yd (lab i) j = 0 := fun j => (mul_eq_zero.mp (hm0 j)).resolve_left hpos.ne'
          simp [this]
        rw [hx0] at hw han ⊢
        exfalso
        have hs1' : s = 1 := by
          rcases Nat.eq_zero_or_pos s with h0 | h0
          · subst h0
            obtain ⟨i, -⟩ := hcov ⟨0, by omega⟩
            exact i.elim0
          · omega
        subst hs1'
        simp only [Fin.sum_univ_one, Fin.isValue] at hsum hw hQ'
        rw [hsum, one_mul, zero_add] at hw
        have h5 : (1 - 1 / (n : ℝ)) * (q 0 - 1) = 0 := by linear_combination hw
        have h6 : (1 - 1 / (n : ℝ)) ≠ 0 := by
          have : (2 : ℝ) ≤ n := by exact_mod_cast hsz
          have : 1 / (n : ℝ) ≤ 1 / 2 := one_div_le_one_div_of_le (by norm_num) this
          intro h; linarith
        have := (mul_eq_zero.mp h5).resolve_left h6
        linarith
      · have hup : ∀ i, ((casesWith yd (lab i)).card : ℝ) + 2 ≤ n := by
          intro i
          obtain ⟨i', hi'⟩ : ∃ i' : Fin s, i' ≠ i := by
            have : Nontrivial (Fin s) := Fin.nontrivial_iff_two_le.mpr (by omega)
            exact exists_ne i
          rw [← hcs]
          have hpair : ∑ j ∈ ({i, i'} : Finset (Fin s)), ((casesWith yd (lab j)).card : ℝ) ≤ ∑ j, ((casesWith yd (lab j)).card : ℝ) :=
            Finset.sum_le_sum_of_subset_of_nonneg (Finset.subset_univ _) fun _ _ _ => Nat.cast_nonneg _
          rw [Finset.sum_pair hi'.symm] at hpair
          have : (2 : ℝ) ≤ (casesWith yd (lab i')).card := by exact_mod_cast h2c i'
          linarith
        have hn4 : (4 : ℝ) ≤ n := by
          have := hup ⟨0, by omega⟩
          have h3 : (2 : ℝ) ≤ (casesWith yd (lab ⟨0, by omega⟩)).card := by exact_mod_cast h2c ⟨0, by omega⟩
          linarith
        have hle : ∑ i, shareOf yd (lab i) * q i ≤ (1 - 2 * (1 / n)) * ∑ i, q i := by
          rw [Finset.mul_sum]
          refine Finset.sum_le_sum fun i _ => mul_le_mul_of_nonneg_right ?_ (hq0 i)
          unfold shareOf
          rw [div_le_iff₀ hn0]
          have := hup i
          field_simp
          linarith
        have := dr_arith (v := 1 / n) (q := ∑ i, q i) (x := x) (by positivity) (one_div_le_one_div_of_le (by norm_num) hn4) hQ'.le (by linarith)
        rw [← hw] at this
        exact this.trans hlow
  refine ⟨yd, lab, hy, hl, fun b hb => ⟨(key b hb).1, (key b hb).2, fun k hk => ?_⟩⟩
  exact (key b hb).1.trans (hmax k b hb fun l hl => absurd hl (by
    intro hlt
    have : l.1 < k.1 := hlt
    omega))

/-! The hypotheses are met: the eight cases of C174, for which directional regression returns a direction. -/

example {eigh : Eigh} (he : IsEigh eigh) : ∃ B, sliceMethod .dr eigh eightX eightY 2 1 false true true = .ok B ∧ SlicesCover false eightY 2 ∧
    ∃ lab : Fin 2 → ℝ, 0 < betweenSlices (centredData true eightX) eightY lab ![√(1 / 8), 0] := by
  obtain ⟨lab, hlab, h⟩ := two_labels (y := eightY) (a := 1) (b := 0) (by norm_num) (by norm_num) eightY_image
  have hpd : ∀ v, v ≠ 0 → 0 < quad (covMat eightX) v := by
    intro v hv
    rw [eightX_cov, quad_two]
    rcases eq_or_ne (v 0) 0 with h0 | h0
    · have h1 : v 1 ≠ 0 := fun h1 => hv (by funext i; fin_cases i <;> simp [h0, h1])
      have := pow_pos (abs_pos.mpr h1) 2
      rw [sq_abs] at this
      nlinarith [sq_nonneg (v 0)]
    · have := pow_pos (abs_pos.mpr h0) 2
      rw [sq_abs] at this
      nlinarith [sq_nonneg (v 1)]
  obtain ⟨S, hS⟩ := invSqrt_pd he (covMat_symm eightX) hpd
  have hB : ∃ B, sliceMethod .dr eigh eightX eightY 2 1 false true true = .ok B := by
    rw [sliceMethod, if_neg (by norm_num)]
    simp only [sdrRoot, sliceResponse, Bool.false_eq_true, if_false, if_true]
    rw [hS, hlab]
    dsimp only
    rw [if_neg (by norm_num)]
    exact ⟨_, rfl⟩
  obtain ⟨B, hB⟩ := hB
  refine ⟨B, hB, Or.inr (by rw [eightY_image, Finset.card_pair (by norm_num)]), lab, ?_⟩
  rw [eightX_centre, eight_sir h]
  simp only [Matrix.cons_val_zero]
  rw [Real.sq_sqrt (show (0 : ℝ) ≤ 1 / 8 by norm_num)]
  norm_num

end Direpack
