import Verif.Spec.RSquare
import Verif.Props.FullModel
import Verif.Props.ResidCentre

/-! Property C190: on the training data the coefficient of determination lies between 0 and 1 and is the squared correlation of fitted values and response. -/

namespace Direpack

open scoped BigOperators
open Spec

variable {n p : ℕ}

/-- Deviations from the average vanish only for constant values. -/
lemma devProd_pos {v : Fin n → ℝ} (h : ∃ i j, v i ≠ v j) : 0 < devProd v v := by
  obtain ⟨i, j, hij⟩ := h
  unfold devProd
  by_contra hc
  have h0 : ∑ i, (v i - avg v) * (v i - avg v) = 0 := le_antisymm (not_lt.mp hc) (Finset.sum_nonneg fun i _ => mul_self_nonneg _)
  have h1 := (Finset.sum_eq_zero_iff_of_nonneg fun i _ => mul_self_nonneg _).mp h0
  have hi := mul_self_eq_zero.mp (h1 i (Finset.mem_univ i))
  have hj := mul_self_eq_zero.mp (h1 j (Finset.mem_univ j))
  exact hij (by linarith)

/-- Residuals that sum to zero and are orthogonal to the fitted values split the variation. -/
lemma splits_of_orth {y u : Fin n → ℝ} (h0 : ∑ i, (y i - u i) = 0) (h1 : ∑ i, (y i - u i) * u i = 0) : SplitsVariation y u := by
  have hm : avg u = avg y := by
    unfold avg
    rw [Finset.sum_sub_distrib] at h0
    rw [sub_eq_zero.mp h0]
  have hx : ∀ c : ℝ, ∑ i, (y i - u i) * (u i - c) = 0 := by
    intro c
    have : ∑ i, (y i - u i) * (u i - c) = ∑ i, (y i - u i) * u i - c * ∑ i, (y i - u i) := by
      rw [Finset.mul_sum, ← Finset.sum_sub_distrib]
      exact Finset.sum_congr rfl fun i _ => by ring
    rw [this, h0, h1]; ring
  have hs : devProd y y = devProd u u + ∑ i, (y i - u i) ^ 2 := by
    have : devProd y y = devProd u u + ∑ i, (y i - u i) ^ 2 + 2 * ∑ i, (y i - u i) * (u i - avg u) := by
      unfold devProd
      rw [Finset.mul_sum, ← Finset.sum_add_distrib, ← Finset.sum_add_distrib, ← hm]
      exact Finset.sum_congr rfl fun i _ => by ring
    rw [this, hx]; ring
  have hyu : devProd y u = devProd u u := by
    have : devProd y u = devProd u u + ∑ i, (y i - u i) * (u i - avg u) := by
      unfold devProd
      rw [← Finset.sum_add_distrib, ← hm]
      exact Finset.sum_congr rfl fun i _ => by ring
    rw [this, hx]; ring
  have hu0 : 0 ≤ devProd u u := Finset.sum_nonneg fun i _ => mul_self_nonneg _
  have hr0 : 0 ≤ ∑ i, (y i - u i) ^ 2 := Finset.sum_nonneg fun i _ => sq_nonneg _
  have hR : rSquared (fun _ => 1) y u = 1 - (∑ i, (y i - u i) ^ 2) / devProd y y := by
    unfold rSquared devProd avg
    simp only [one_mul, Finset.sum_const, Finset.card_univ, Fintype.card_fin, nsmul_eq_mul, mul_one, sq]
  have hR2 : 0 < devProd y y → rSquared (fun _ => 1) y u = devProd u u / devProd y y := by
    intro hp
    rw [hR, eq_div_iff hp.ne', sub_mul, div_mul_cancel₀ _ hp.ne']
    linarith
  refine ⟨hm, hs, fun hy => ?_, fun hy hu => ?_, fun hy hu => ?_⟩
  · have hp := devProd_pos hy
    rw [hR2 hp]
    exact ⟨div_nonneg hu0 hp.le, (div_le_one hp).mpr (by linarith)⟩
  · have hp := devProd_pos hy
    have hq := devProd_pos hu
    rw [hR2 hp, hyu]
    field_simp
  · have hp := devProd_pos hy
    have : devProd u u = 0 := by
      unfold devProd
      refine Finset.sum_eq_zero fun i _ => ?_
      have ha : avg u = u i := by
        unfold avg
        have hn : (n : ℝ) ≠ 0 := Nat.cast_ne_zero.mpr (Nat.pos_iff_ne_zero.mp (Fin.pos i))
        simp only [fun j => hu j i, Finset.sum_const, Finset.card_univ, Fintype.card_fin, nsmul_eq_mul]
        field_simp
      rw [ha]; ring
    rw [hR2 hp, this, zero_div]

/-- Fitted values that are an intercept plus a combination of scores to which the residuals are orthogonal. -/
lemma splits_of_scores {h : ℕ} {y u : Fin n → ℝ} (T : Fin n → Fin h → ℝ) (b0 : ℝ) (b : Fin h → ℝ) (hu : ∀ i, u i = b0 + ∑ a, T i a * b a) (h0 : ∑ i, (y i - u i) = 0)
    (hT : ∀ a, ∑ i, (y i - u i) * T i a = 0) : SplitsVariation y u := by
  refine splits_of_orth h0 ?_
  have : ∑ i, (y i - u i) * u i = b0 * ∑ i, (y i - u i) + ∑ a, b a * ∑ i, (y i - u i) * T i a := by
    simp only [Finset.mul_sum]
    rw [Finset.sum_comm, ← Finset.sum_add_distrib]
    refine Finset.sum_congr rfl fun i _ => ?_
    conv_lhs => rw [hu i, mul_add, Finset.mul_sum]
    rw [← hu i]
    congr 1
    · ring
    · exact Finset.sum_congr rfl fun a _ => by ring
  rw [this, h0]
  simp only [hT]
  simp

/-- **C190** for ppdire with least squares and `center='mean'`: the fitted values split the variation of the response, whatever the projection index, the optimiser, the
directions found and the number of components. -/
theorem C190_ppdire (pr : PpParams) (pinv : Pinv) (hp : IsGenInverse pinv) (φ : (Fin n → ℝ) → (Fin n → ℝ) → ℝ) (X : Fin n → Fin p → ℝ) (y : Fin n → ℝ) (f : PpFit n p)
    (h : ppFit pr pinv .ols φ X y = .ok f) (hm : pr.centre = .mean) (ht : pr.trimming = 0) (hc : pr.centerData = true) : SplitsVariation y f.fitted := by
  obtain ⟨h0, h1, ⟨b0, b, hb⟩, -⟩ := C83_least_squares pr pinv hp φ X y f h hm ht hc
  obtain ⟨-, -, -, -, -, -, -, -, -, -, -, -, -, -, -, -, -, hres, -⟩ := ppFit_inv h
  have hr : ∀ i, f.residuals i = y i - f.fitted i := fun i => by rw [hres]
  simp only [hr] at h0 h1
  refine splits_of_scores (ppT f.comps) b0 b (fun i => ?_) h0 h1
  rw [hb]
  unfold Spec.affine
  ring

/-- **C190** for SNIPLS with the mean as centre: the same for every sparsity parameter and number of components. -/
theorem C190_snipls {pr : SnParams} {X : Fin n → Fin p → ℝ} {y : Fin n → ℝ} {f : SnFit n p} (h : snFit pr X y = .ok f) (hn : 0 < n) (hm : pr.centre = .mean) (hsy : f.ySca ≠ 0) :
    SplitsVariation y f.fitted := by
  obtain ⟨h1, q, hq⟩ := C45_residuals hn h (Or.inl hm) hsy
  have h0 := ((C178_snipls h hn).1 hm).1
  obtain ⟨-, -, -, -, -, -, -, -, -, -, -, hr⟩ := snFit_inv h
  simp only [dot, hr] at h0 h1
  exact splits_of_scores (compT f.comps) f.yLoc q hq h0 h1

/-- **C190** for sudire: the predictions for the training data split the variation of the response, whatever the reduction method and the number of directions. -/
theorem C190_sudire {ext : SdExt} (hols : ∀ {n k : ℕ} (A : Fin n → Fin k → ℝ) (y : Fin n → ℝ), IsLeastSquares A y (ext.ols A y)) {o o' : SdObj}
    (hc : o.params.copy = true) {X : Fin n → Fin p → ℝ} {y : Fin n → ℝ} {f : SdFit n p} (h : o.fit ext X y = .ok (o', f)) :
    ∃ yh, f.predict X = .ok yh ∧ SplitsVariation y yh := by
  obtain ⟨yh, hyh, horth, hone⟩ := C93_training hols hc h
  obtain ⟨yh', b0, b, hyh', hb⟩ := fit_predict_affine hc h
  have : yh' = yh := by rw [hyh] at hyh'; exact (Except.ok.inj hyh').symm
  subst this
  have hsum : ∑ c, (y c - yh' c) = 0 := by
    by_cases hcst : ∃ j, IsConstCol f.T j
    · obtain ⟨j, h1, h2⟩ := hcst
      rcases Nat.eq_zero_or_pos n with rfl | hn
      · simp
      · have h3 := horth j
        have h4 : ∀ c, f.T c j = f.T ⟨0, hn⟩ j := fun c => h1 c _
        simp only [h4, ← Finset.mul_sum] at h3
        exact (mul_eq_zero.mp h3).resolve_left (h2 _)
    · exact hone hcst
  refine ⟨yh', hyh, splits_of_scores f.T b0 b hb hsum fun a => ?_⟩
  rw [← horth a]
  exact Finset.sum_congr rfl fun i _ => mul_comm _ _

/-- The hypotheses for ppdire can be met. -/
example : ∃ (pinv : Pinv) (f : PpFit 3 2), IsGenInverse pinv ∧ ppFit (ppExPr true) pinv .ols (fun _ t => t 0) ppExX ![1, 5, 2] = .ok f ∧
    SplitsVariation ![1, 5, 2] f.fitted := by
  obtain ⟨pinv, hp⟩ := exists_pinv
  obtain ⟨f, hf⟩ := ppExFit true pinv .ols (fun _ t => t 0) ![1, 5, 2]
  exact ⟨pinv, f, hp, hf, C190_ppdire _ pinv hp _ _ _ f hf rfl rfl rfl⟩

/-- The hypotheses for SNIPLS can be met. -/
example : ∃ f, snFit ⟨0, 1, .mean, .noneOpt⟩ spXs spYs = .ok f ∧ SplitsVariation spYs f.fitted := by
  obtain ⟨f, -, hf, -⟩ := sp_snfit
  obtain ⟨-, -, -, -, e4, -⟩ := snFit_inv hf
  have e4' : f.ySca = 1 := e4
  exact ⟨f, hf, C190_snipls hf (by norm_num) rfl (by rw [e4']; exact one_ne_zero)⟩

/-- The hypotheses for sudire can be met. -/
example : ∃ (ext : SdExt) (o : SdObj) (f : SdFit 6 2), (∀ {n k : ℕ} (A : Fin n → Fin k → ℝ) (y : Fin n → ℝ), IsLeastSquares A y (ext.ols A y)) ∧
    iht2Params.copy = true ∧ (SdObj.new iht2Params).fit ext (sixX 1) sixY = .ok (o, f) := by
  obtain ⟨ext, o, f, h1, -, h2, -, h3, h4⟩ := iht2_fits sixY
  exact ⟨ext, o, f, h1, h2, h3⟩

end Direpack
