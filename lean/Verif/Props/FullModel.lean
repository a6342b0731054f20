import Verif.Props.Reproduce
import Verif.Props.ExactFit
import Verif.Props.NestedSudire
import Verif.Props.FullRank

/-! Property C187: with all components every method is ordinary least squares regression. -/

namespace Direpack

open scoped BigOperators
open Spec

variable {n p : ℕ}

/-- **C187**, uniqueness: there is only one vector of fitted values of ordinary least squares regression. With `C187_ppdire`, `C187_sudire` and `C187_snipls`: all
three estimators with all components, fitted to the same data, have the same fitted values. -/
theorem C187_unique {X : Fin n → Fin p → ℝ} {y u v : Fin n → ℝ} (hu : OlsFitted X y u) (hv : OlsFitted X y v) : u = v := by
  obtain ⟨⟨a, b, hab⟩, hu2⟩ := hu
  obtain ⟨⟨c, d, hcd⟩, hv2⟩ := hv
  have h1 : ∑ i, (y i - u i) ^ 2 ≤ ∑ i, (y i - v i) ^ 2 := (hu2 c d).trans_eq (Finset.sum_congr rfl fun i _ => by rw [hcd])
  have h2 : ∑ i, (y i - v i) ^ 2 ≤ ∑ i, (y i - (u i + v i) / 2) ^ 2 := by
    refine (hv2 ((a + c) / 2) fun k => (b k + d k) / 2).trans_eq (Finset.sum_congr rfl fun i _ => ?_)
    have : ∑ k, X i k * ((b k + d k) / 2) = (∑ k, X i k * b k + ∑ k, X i k * d k) / 2 := by
      rw [← Finset.sum_add_distrib, Finset.sum_div]
      exact Finset.sum_congr rfl fun k _ => by ring
    rw [this, hab, hcd]
    ring
  have h3 : ∑ i, (u i - v i) ^ 2 ≤ 0 := by
    have e : ∑ i, (y i - (u i + v i) / 2) ^ 2 = (∑ i, (y i - u i) ^ 2) / 2 + (∑ i, (y i - v i) ^ 2) / 2 - (∑ i, (u i - v i) ^ 2) / 4 := by
      rw [Finset.sum_div, Finset.sum_div, Finset.sum_div, ← Finset.sum_add_distrib, ← Finset.sum_sub_distrib]
      exact Finset.sum_congr rfl fun i _ => by ring
    linarith
  funext i
  have h4 := le_antisymm h3 (Finset.sum_nonneg fun i _ => sq_nonneg _)
  have := (Finset.sum_eq_zero_iff_of_nonneg fun i _ => sq_nonneg _).mp h4 i (Finset.mem_univ i)
  exact sub_eq_zero.mp (pow_eq_zero_iff two_ne_zero |>.mp this)

/-- **C187** for ppdire with least squares and `center='mean'`: with as many components as the rank of the predictors the fitted values are those of ordinary least squares,
whatever the projection index, the optimiser and the directions it has found. -/
theorem C187_ppdire (pr : PpParams) (hm : pr.centre = .mean) (ht : pr.trimming = 0) (hc : pr.centerData = true) (pinv : Pinv) (hp : IsGenInverse pinv)
    (φ : (Fin n → ℝ) → (Fin n → ℝ) → ℝ) (X : Fin n → Fin p → ℝ) (y : Fin n → ℝ) (f : PpFit n p) (h : ppFit pr pinv .ols φ X y = .ok f)
    (hr : pr.nComponents = (Matrix.of (stdMat X f.xLoc f.xSca)).rank) : OlsFitted X y f.fitted := by
  obtain ⟨-, -, -, hmin⟩ := C83_least_squares pr pinv hp φ X y f h hm ht hc
  have hfull := (C186_ppdire_full pr pinv .ols φ X y f h).2 hr
  obtain ⟨Xs, ys, -, -, -, -, -, -, -, -, -, hs, -, -, -, -, hfit, -⟩ := ppFit_inv h
  refine ⟨⟨f.intercept, f.coef, fun i => by rw [hfit]; exact add_comm _ _⟩, fun a b => ?_⟩
  refine (hmin (a + ∑ k, f.xLoc k * b k) fun c => ∑ k, f.xSca k * b k * ppP f.comps k c).trans_eq (Finset.sum_congr rfl fun i _ => ?_)
  have hX : ∀ k, X i k * b k = f.xLoc k * b k + ∑ c, ppT f.comps i c * (f.xSca k * b k * ppP f.comps k c) := by
    intro k
    have h1 : X i k = f.xLoc k + f.xSca k * stdMat X f.xLoc f.xSca i k := by
      unfold stdMat std1
      rw [if_neg (hs k)]
      have := hs k
      field_simp
      ring
    rw [h1, hfull i k, add_mul, Finset.mul_sum, Finset.sum_mul]
    congr 1
    exact Finset.sum_congr rfl fun c _ => by ring
  unfold Spec.affine
  simp only [hX, Finset.sum_add_distrib, Finset.mul_sum]
  rw [Finset.sum_comm (f := fun k c => ppT f.comps i c * (f.xSca k * b k * ppP f.comps k c))]
  ring

/-- **C187** for sudire: with as many directions as predictors the predictions for the training data are those of ordinary least squares, whatever the method. -/
theorem C187_sudire {ext : SdExt} (hols : ∀ {n k : ℕ} (A : Fin n → Fin k → ℝ) (y : Fin n → ℝ), IsLeastSquares A y (ext.ols A y)) {o o' : SdObj}
    (hc : o.params.copy = true) {X : Fin n → Fin p → ℝ} {y : Fin n → ℝ} {f : SdFit n p} (h : o.fit ext X y = .ok (o', f)) (hp : f.h = p) :
    ∃ yh, f.predict X = .ok yh ∧ OlsFitted X y yh := by
  obtain ⟨yh, hyh, horth, hone⟩ := C93_training hols hc h
  obtain ⟨yh', b0, b, hyh', hb⟩ := fit_predict_affine hc h
  have : yh' = yh := by rw [hyh] at hyh'; exact (Except.ok.inj hyh').symm
  subst this
  have hT := fit_scores hc h
  have hsum : ∑ c, (y c - yh' c) = 0 := by
    by_cases hcst : ∃ j, IsConstCol f.T j
    · obtain ⟨j, h1, h2⟩ := hcst
      rcases Nat.eq_zero_or_pos n with rfl | hn
      · simp
      · have h3 := horth j
        have h4 : ∀ c, f.T c j = f.T ⟨0, hn⟩ j := fun c => h1 c _
        simp only [h4, ← Finset.mul_sum] at h3
        exact (mul_eq_zero.mp h3).resolve_left (h2 _)
    · exact hone hcst
  refine ⟨yh', hyh, ⟨b0, fun k => ∑ j, f.P k j * b j, fun i => ?_⟩, fun a β => ?_⟩
  · rw [hb, hT]
    congr 1
    unfold matX
    simp only [Finset.sum_mul, Finset.mul_sum]
    rw [Finset.sum_comm]
    exact Finset.sum_congr rfl fun k _ => Finset.sum_congr rfl fun j _ => by ring
  · -- combinations of the predictors are combinations of the scores
    have hq : ∃ q : Fin f.h → ℝ, ∀ c, ∑ k, X c k * β k = ∑ j, f.T c j * q j := by
      obtain ⟨q, L, st', pm, T, -, -, hpm, -, -, rfl⟩ := SdObj.fit_ok h
      obtain ⟨hu, -⟩ := projMat_ok hpm
      dsimp only at hp hT ⊢
      obtain ⟨hd, P⟩ := L
      dsimp only at *
      subst hp
      have hPu : IsUnit P.det := by
        rw [Matrix.det_mul, Matrix.det_transpose] at hu
        exact isUnit_of_mul_isUnit_right hu
      refine ⟨P⁻¹.mulVec β, fun c => ?_⟩
      rw [hT]
      have h1 : (Matrix.of X * P).mulVec (P⁻¹.mulVec β) = (Matrix.of X).mulVec β := by
        rw [Matrix.mulVec_mulVec, Matrix.mul_nonsing_inv_cancel_right _ _ hPu]
      exact (congrFun h1 c).symm
    obtain ⟨q, hq⟩ := hq
    have hd : ∀ c, y c - (a + ∑ k, X c k * β k) =
        (y c - yh' c) + ∑ e, (Fin.cons 1 (f.T c) : Fin (f.h + 1) → ℝ) e * (Fin.cons (b0 - a) (fun j => b j - q j) : Fin (f.h + 1) → ℝ) e := by
      intro c
      rw [Fin.sum_univ_succ]
      simp only [Fin.cons_zero, Fin.cons_succ, one_mul]
      rw [hq, hb]
      have : ∑ i, f.T c i * (b i - q i) = ∑ i, f.T c i * b i - ∑ i, f.T c i * q i := by
        rw [← Finset.sum_sub_distrib]
        exact Finset.sum_congr rfl fun i _ => by ring
      rw [this]
      ring
    have key := rss_le_of_orth (fun c => (Fin.cons 1 (f.T c) : Fin (f.h + 1) → ℝ)) (fun c => y c - yh' c)
      (fun c => ∑ e, (Fin.cons 1 (f.T c) : Fin (f.h + 1) → ℝ) e * (Fin.cons (b0 - a) (fun j => b j - q j) : Fin (f.h + 1) → ℝ) e) _ (fun e => by
        refine Fin.cases ?_ (fun j => ?_) e
        · simpa using hsum
        · rw [← horth j]
          exact Finset.sum_congr rfl fun c _ => by simp only [Fin.cons_succ]; ring) (fun c => rfl)
    simp only [hd]
    exact key

/-- **C187** for SNIPLS with the mean as centre: with as many components as the rank of the predictors the fitted values are those of ordinary least squares, for every
sparsity parameter. -/
theorem C187_snipls {pr : SnParams} {X : Fin n → Fin p → ℝ} {y : Fin n → ℝ} {f : SnFit n p} (h : snFit pr X y = .ok f) (hn : 0 < n) (hm : pr.centre = .mean) (hsy : f.ySca ≠ 0)
    (hr : (Matrix.of (stdMat X f.xLoc f.xSca)).rank ≤ pr.nComponents) : OlsFitted X y f.fitted := by
  obtain ⟨-, -, -, -, -, -, -, -, -, -, hfit, -⟩ := snFit_inv h
  exact ⟨⟨f.intercept, f.coef, fun i => by rw [hfit i]; exact add_comm _ _⟩, fun a b => C152_ols h hn hm hsy hr a b⟩

/-- The hypotheses for ppdire can be met. -/
example : ∃ (pinv : Pinv) (f : PpFit 3 2), IsGenInverse pinv ∧ ppFit (ppExPr true) pinv .ols (fun _ t => t 0) ppExX ![1, 5, 2] = .ok f ∧ (ppExPr true).nComponents = 2 := by
  obtain ⟨pinv, hp⟩ := exists_pinv
  obtain ⟨f, hf⟩ := ppExFit true pinv .ols (fun _ t => t 0) ![1, 5, 2]
  exact ⟨pinv, f, hp, hf, rfl⟩

/-- The hypotheses for SNIPLS can be met. -/
example : ∃ f, snFit ⟨0, 1, .mean, .noneOpt⟩ spXs spYs = .ok f ∧ OlsFitted spXs spYs f.fitted := by
  obtain ⟨f, -, hf, -⟩ := sp_snfit
  obtain ⟨-, -, -, -, e4, -⟩ := snFit_inv hf
  have e4' : f.ySca = 1 := e4
  exact ⟨f, hf, C187_snipls hf (by norm_num) rfl (by rw [e4']; exact one_ne_zero) (Matrix.rank_le_width _)⟩

/-- The hypotheses for sudire can be met. -/
example : ∃ (ext : SdExt) (o : SdObj) (f : SdFit 6 2), (∀ {n k : ℕ} (A : Fin n → Fin k → ℝ) (y : Fin n → ℝ), IsLeastSquares A y (ext.ols A y)) ∧
    iht2Params.copy = true ∧ (SdObj.new iht2Params).fit ext (sixX 1) sixY = .ok (o, f) ∧ f.h = 2 := by
  obtain ⟨ext, o, f, h1, -, h2, -, h3, h4⟩ := iht2_fits sixY
  exact ⟨ext, o, f, h1, h2, h3, h4⟩

end Direpack
