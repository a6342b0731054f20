import Verif.Props.KyFan
import Verif.Props.SudireCrit2
import Verif.Props.SirRank

/-! Property C189: the directions of the methods of sudire that are based on eigenvectors are the best ones together. -/

namespace Direpack

open scoped BigOperators
open Spec

variable {n p : ℕ}

lemma leading_sys {eigh : Eigh} (he : IsEigh eigh) {M : Matrix (Fin p) (Fin p) ℝ} (hM : M.transpose = M) (d : ℕ) : OrthoSys fun (k : Fin (min d p)) i => leading eigh M d i k := by
  intro a b
  have := congrFun (congrFun (leading_orth he hM d) a) b
  rw [Matrix.mul_apply, Matrix.one_apply] at this
  exact this

lemma leading_eigen {eigh : Eigh} (he : IsEigh eigh) {M : Matrix (Fin p) (Fin p) ℝ} (hM : M.transpose = M) {d : ℕ} (k : Fin (min d p)) :
    M.mulVec (fun i => leading eigh M d i k) = quad M (fun i => leading eigh M d i k) • fun i => leading eigh M d i k := by
  rw [quad_leading he hM]
  funext i
  have := congrFun (congrFun (he.decomp M hM) i) (descIdx (eigh M).1 (Fin.castLE (min_le_right d p) k))
  rw [Matrix.mul_diagonal, Matrix.mul_apply] at this
  rw [Pi.smul_apply, smul_eq_mul, mul_comm]
  exact this

/-- No orthonormal system of as many vectors has a larger sum of values of the quadratic form. -/
lemma leading_joint {eigh : Eigh} (he : IsEigh eigh) {M : Matrix (Fin p) (Fin p) ℝ} (hM : M.transpose = M) {d : ℕ} {V : Fin (min d p) → Fin p → ℝ} (hV : OrthoSys V) :
    ∑ k, quad M (V k) ≤ ∑ k : Fin (min d p), quad M fun i => leading eigh M d i k := by
  rcases Nat.eq_zero_or_pos (min d p) with h0 | hpos
  · haveI : IsEmpty (Fin (min d p)) := by rw [h0]; infer_instance
    simp
  · have hq : ∀ v, quad M v = v ⬝ᵥ M.mulVec v := fun v => bilin_eq M v v
    set last : Fin (min d p) := ⟨min d p - 1, by omega⟩ with hlast
    have hle : ∀ a : Fin (min d p), a ≤ last := fun a => by rw [Fin.le_def, hlast]; have := a.2; dsimp only; omega
    have hone : ∀ a : Fin (min d p), ∑ j, leading eigh M d j a ^ 2 = 1 := by
      intro a
      have := leading_sys he hM d a a
      rw [if_pos rfl] at this
      rw [← this]
      exact Finset.sum_congr rfl fun j _ => sq _
    refine (Finset.sum_congr rfl fun k _ => hq (V k)).trans_le (ky_fan (mu := quad M fun i => leading eigh M d i last) hM (leading_sys he hM d)
      (fun a => leading_eigen he hM a) (fun a => ?_) (fun r hr => ?_) hV (le_refl _))
    · refine leading_max he hM a _ (hone last) fun l hl => ?_
      have := leading_sys he hM d l last
      rw [if_neg (fun e => by subst e; exact absurd (hle a) (not_le.mpr hl))] at this
      exact this
    · rw [← hq]
      rcases (dot_self_nonneg r).eq_or_lt with h0 | h0
      · have : r = 0 := dotProduct_self_eq_zero.mp h0.symm
        subst this
        simp [quad]
      · have hs : ∑ j, (r j / Real.sqrt (r ⬝ᵥ r)) ^ 2 = 1 := by
          simp only [div_pow, ← Finset.sum_div]
          rw [Real.sq_sqrt h0.le]
          have : ∑ k, r k ^ 2 = r ⬝ᵥ r := Finset.sum_congr rfl fun k _ => sq _
          rw [this]
          exact div_self h0.ne'
        have h1 := leading_max he hM last (fun j => r j / Real.sqrt (r ⬝ᵥ r)) hs fun l _ => by
          have e : ∑ j, leading eigh M d j l * (r j / Real.sqrt (r ⬝ᵥ r)) = ((fun i => leading eigh M d i l) ⬝ᵥ r) / Real.sqrt (r ⬝ᵥ r) := by
            unfold dotProduct
            rw [Finset.sum_div]
            exact Finset.sum_congr rfl fun j _ => by ring
          rw [e, hr l, zero_div]
        have h2 : quad M (fun j => r j / Real.sqrt (r ⬝ᵥ r)) = quad M r / (r ⬝ᵥ r) := by
          unfold quad
          rw [Finset.sum_div]
          refine Finset.sum_congr rfl fun j _ => ?_
          rw [Finset.sum_div]
          refine Finset.sum_congr rfl fun k _ => ?_
          have h3 : Real.sqrt (r ⬝ᵥ r) * Real.sqrt (r ⬝ᵥ r) = r ⬝ᵥ r := Real.mul_self_sqrt h0.le
          rw [div_mul_eq_mul_div, div_mul_div_comm, h3]
        rw [h2, div_le_iff₀ h0] at h1
        exact h1

/-- The same after the transformation back to the original variables. -/
lemma leading_back_joint {eigh : Eigh} (he : IsEigh eigh) {A S K : Matrix (Fin p) (Fin p) ℝ} (h1 : S.transpose = S) (h2 : S * A * S = 1) (hK : K.transpose = K)
    {crit : (Fin p → ℝ) → ℝ} (hq : ∀ v, quad K v = crit (S.mulVec v)) {d : ℕ} (C : Matrix (Fin p) (Fin (min d p)) ℝ) (hC : OrthonormalIn A C) :
    ∑ k, crit (fun i => C i k) ≤ ∑ k, crit fun i => (S * leading eigh K d) i k := by
  have hSA : S * (A * S) = 1 := by rw [← Matrix.mul_assoc]; exact h2
  have hmove : ∀ u v, bilin A (S.mulVec u) (S.mulVec v) = u ⬝ᵥ v := by
    intro u v
    have e : S.mulVec u = Matrix.vecMul u S := by rw [← Matrix.vecMul_transpose, h1]
    rw [bilin_eq, e, ← Matrix.dotProduct_mulVec, Matrix.mulVec_mulVec, Matrix.mulVec_mulVec, h2, Matrix.one_mulVec]
  have hb : ∀ k, (fun i => C i k) = S.mulVec ((A * S).mulVec fun i => C i k) := fun k => by rw [Matrix.mulVec_mulVec, hSA, Matrix.one_mulVec]
  have hsys : OrthoSys fun k : Fin (min d p) => (A * S).mulVec fun i => C i k := by
    intro a b
    have h3 := hmove ((A * S).mulVec fun i => C i a) ((A * S).mulVec fun i => C i b)
    rw [← hb, ← hb] at h3
    rw [← h3, bilin_eq]
    have h4 := congrFun (congrFun hC a) b
    rw [Matrix.one_apply, Matrix.mul_assoc, Matrix.mul_apply] at h4
    rw [← h4]
    rfl
  have h5 := leading_joint he hK hsys
  refine le_trans (le_of_eq ?_) (h5.trans (le_of_eq ?_))
  · exact Finset.sum_congr rfl fun k _ => by rw [hq, ← hb]
  · exact Finset.sum_congr rfl fun k _ => by rw [hq]; rfl

/-- **C189**, SIR: no other system of as many directions, orthonormal in the metric, has a larger total variation between the slices. -/
theorem C189_sir {eigh : Eigh} (he : IsEigh eigh) (X : Fin n → Fin p → ℝ) (y : Fin n → ℝ) (s d : ℕ) (cont center scale : Bool)
    (B : Matrix (Fin p) (Fin (min d p)) ℝ) (h : sliceMethod .sir eigh X y s d cont center scale = .ok B) :
    OrthonormalIn (if scale then covMat X else 1) B ∧ ∃ yd lab, sliceResponse cont y s = .ok yd ∧ sliceLabels yd s = .ok lab ∧
      ∀ C : Matrix (Fin p) (Fin (min d p)) ℝ, OrthonormalIn (if scale then covMat X else 1) C →
        ∑ k, betweenSlices (centredData center X) yd lab (fun i => C i k) ≤ ∑ k, betweenSlices (centredData center X) yd lab fun i => B i k := by
  refine ⟨C89_slicing he .sir X y s d cont center scale B h, ?_⟩
  simp only [← sdrCentre_eq]
  obtain ⟨S, yd, lab, hS, hy, hl, rfl⟩ := sliceMethod_ok h
  refine ⟨yd, lab, hy, hl, ?_⟩
  obtain ⟨h1, h2, h3, h4⟩ := sdrRoot_spec he hS
  intro C hC
  rw [h3, h4]
  change OrthonormalIn (sdrMetric scale X) C at hC
  refine leading_back_joint (crit := betweenSlices (sdrCentre center X) yd lab) he h1 h2 (kernel_symm ..) ?_ C hC
  intro v
  rw [← between_scale, ← quad_sir]
  rfl

/-- **C189**, SAVE: no other system of as many directions, orthonormal in the metric, has a larger total distance of the slice covariance matrices from the metric. -/
theorem C189_save {eigh : Eigh} (he : IsEigh eigh) (X : Fin n → Fin p → ℝ) (y : Fin n → ℝ) (s d : ℕ) (cont center scale : Bool)
    (B : Matrix (Fin p) (Fin (min d p)) ℝ) (h : sliceMethod .save eigh X y s d cont center scale = .ok B) :
    OrthonormalIn (if scale then covMat X else 1) B ∧ ∃ yd lab, sliceResponse cont y s = .ok yd ∧ sliceLabels yd s = .ok lab ∧
      ∀ C : Matrix (Fin p) (Fin (min d p)) ℝ, OrthonormalIn (if scale then covMat X else 1) C →
        ∑ k, saveCriterion (if scale then covMat X else 1) (centredData center X) yd lab (fun i => C i k) ≤
          ∑ k, saveCriterion (if scale then covMat X else 1) (centredData center X) yd lab fun i => B i k := by
  refine ⟨C89_slicing he .save X y s d cont center scale B h, ?_⟩
  simp only [← sdrCentre_eq]
  obtain ⟨S, yd, lab, hS, hy, hl, rfl⟩ := sliceMethod_ok h
  refine ⟨yd, lab, hy, hl, ?_⟩
  obtain ⟨h1, h2, h3, h4⟩ := sdrRoot_spec he hS
  intro C hC
  rw [h3, h4]
  change OrthonormalIn (sdrMetric scale X) C at hC
  change ∑ k, saveCriterion (sdrMetric scale X) _ _ _ _ ≤ ∑ k, saveCriterion (sdrMetric scale X) _ _ _ _
  refine leading_back_joint (crit := saveCriterion (sdrMetric scale X) (sdrCentre center X) yd lab) he h1 h2 (kernel_symm ..) ?_ C hC
  intro v
  exact quad_save (sdrCentre center X) h1 h2 yd lab v

/-- **C189**, directional regression (centred data, slices that cover all cases and second moments of the slices that average to the metric; without the last condition the
code does not maximise the criterion, see `C132_dr_optimal_violated`): no other system of as many directions, orthonormal in the metric, has a larger total criterion. -/
theorem C189_dr {eigh : Eigh} (he : IsEigh eigh) (X : Fin n → Fin p → ℝ) (y : Fin n → ℝ) (s d : ℕ) (cont scale : Bool) (hs : SlicesCover cont y s)
    (B : Matrix (Fin p) (Fin (min d p)) ℝ) (h : sliceMethod .dr eigh X y s d cont true scale = .ok B) :
    OrthonormalIn (if scale then covMat X else 1) B ∧ ∃ yd lab, sliceResponse cont y s = .ok yd ∧ sliceLabels yd s = .ok lab ∧
      (averageMoment (if scale then covMat X else 1) (centredData true X) yd lab = (if scale then covMat X else 1) →
        ∀ C : Matrix (Fin p) (Fin (min d p)) ℝ, OrthonormalIn (if scale then covMat X else 1) C →
          ∑ k, drCriterion (if scale then covMat X else 1) (centredData true X) yd lab (fun i => C i k) ≤
            ∑ k, drCriterion (if scale then covMat X else 1) (centredData true X) yd lab fun i => B i k) := by
  refine ⟨C89_slicing he .dr X y s d cont true scale B h, ?_⟩
  simp only [← sdrCentre_eq]
  obtain ⟨hn, -⟩ := sliceMethod_size h
  obtain ⟨S, yd, lab, hS, hy, hl, rfl⟩ := sliceMethod_ok h
  refine ⟨yd, lab, hy, hl, ?_⟩
  obtain ⟨h1, h2, h3, h4⟩ := sdrRoot_spec he hS
  obtain ⟨hp, hm⟩ := slices_cover (by omega) hs hy hl (sdrCentre true X)
  intro ha C hC
  rw [h3, h4]
  change OrthonormalIn (sdrMetric scale X) C at hC
  change averageMoment (sdrMetric scale X) _ _ _ = sdrMetric scale X at ha
  change ∑ k, drCriterion (sdrMetric scale X) _ _ _ _ ≤ ∑ k, drCriterion (sdrMetric scale X) _ _ _ _
  refine leading_back_joint (crit := drCriterion (sdrMetric scale X) (sdrCentre true X) yd lab) he h1 h2 (kernel_symm ..) (fun v => ?_) C hC
  have hqd := quad_dr (sdrCentre true X) h1 h2 yd lab hp (fun j => by rw [hm, mean_centred (by omega)]) v
  rw [ha, sub_self, Matrix.zero_mul, Matrix.zero_mul] at hqd
  have hz : ∀ v, quad ((0 : Matrix (Fin p) (Fin p) ℝ)) v = 0 := fun v => by simp [quad]
  rw [hz, mul_zero, sub_zero] at hqd
  exact hqd

/-- **C189**, principal Hessian directions: no other system of as many directions, orthonormal in the metric, has a larger total curvature. -/
theorem C189_phd {eigh : Eigh} (he : IsEigh eigh) (X : Fin n → Fin p → ℝ) (y : Fin n → ℝ) (d : ℕ) (center scale : Bool)
    (B : Matrix (Fin p) (Fin (min d p)) ℝ) (h : phd eigh X y d center scale = .ok B) :
    OrthonormalIn (if scale then covMat X else 1) B ∧ ∀ C : Matrix (Fin p) (Fin (min d p)) ℝ, OrthonormalIn (if scale then covMat X else 1) C →
      ∑ k, curvature (centredData center X) y (fun i => C i k) ≤ ∑ k, curvature (centredData center X) y fun i => B i k := by
  refine ⟨C89_phd he X y d center scale B h, ?_⟩
  simp only [← sdrCentre_eq]
  obtain ⟨S, hS, rfl⟩ := phd_ok h
  obtain ⟨h1, h2, h3, h4⟩ := sdrRoot_spec he hS
  intro C hC
  rw [h3, h4]
  change OrthonormalIn (sdrMetric scale X) C at hC
  refine leading_back_joint (crit := curvature (sdrCentre center X) y) he h1 h2 (phdMat_symm ..) (fun v => ?_) C hC
  rw [quad_phd]
  exact curvature_scale (sdrCentre center X) S y v

/-- The hypotheses can be met: two directions of three, for SIR, SAVE and principal Hessian directions. -/
example : ∃ (eigh : Eigh), IsEigh eigh ∧ (∃ B, sliceMethod .sir eigh (fun c => ![crossX c 0, crossX c 1, crossY c] : Fin _ → Fin 3 → ℝ) crossY 2 2 false true false = .ok B) ∧
    (∃ B, sliceMethod .save eigh (fun c => ![crossX c 0, crossX c 1, crossY c] : Fin _ → Fin 3 → ℝ) crossY 2 2 false true false = .ok B) ∧
    ∃ B, phd eigh (fun c => ![crossX c 0, crossX c 1, crossY c] : Fin _ → Fin 3 → ℝ) crossY 2 true false = .ok B := by
  obtain ⟨eigh, he⟩ := exists_eigh
  obtain ⟨lab, hlab, h⟩ := two_labels (y := crossY) (a := 1) (b := -1) (by norm_num) (by norm_num) crossY_image
  refine ⟨eigh, he, ?_, ?_, ?_⟩
  · rw [sliceMethod, if_neg (by norm_num)]
    simp only [sdrRoot, sliceResponse, Bool.false_eq_true, if_false]
    rw [hlab]
    dsimp only
    rw [if_neg (by norm_num)]
    exact ⟨_, rfl⟩
  · rw [sliceMethod, if_neg (by norm_num)]
    simp only [sdrRoot, sliceResponse, Bool.false_eq_true, if_false]
    rw [hlab]
    dsimp only
    rw [if_neg (by norm_num)]
    exact ⟨_, rfl⟩
  · rw [phd, if_neg (by norm_num)]
    simp only [sdrRoot, Bool.false_eq_true, if_false]
    exact ⟨_, rfl⟩

/-- The hypotheses for directional regression can be met. -/
example : ∃ (eigh : Eigh), IsEigh eigh ∧ ∃ B, sliceMethod .dr eigh crossX crossY 2 1 false true false = .ok B ∧ SlicesCover false crossY 2 ∧
    ∃ lab, sliceLabels crossY 2 = .ok lab ∧ averageMoment 1 (centredData true crossX) crossY lab = 1 := by
  obtain ⟨eigh, he⟩ := exists_eigh
  obtain ⟨lab, hlab, h⟩ := two_labels (y := crossY) (a := 1) (b := -1) (by norm_num) (by norm_num) crossY_image
  refine ⟨eigh, he, ?_⟩
  rw [sliceMethod, if_neg (by norm_num)]
  simp only [sdrRoot, sliceResponse, Bool.false_eq_true, if_false]
  rw [hlab]
  dsimp only
  rw [if_neg (by norm_num)]
  refine ⟨_, rfl, Or.inr ?_, lab, rfl, ?_⟩
  · rw [crossY_image, Finset.card_pair (by norm_num)]
  · rw [← sdrCentre_eq, crossX_centre, cross_moment h]

end Direpack
