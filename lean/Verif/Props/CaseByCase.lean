import Verif.Spec.CaseByCase
import Verif.Props.SPRM
import Verif.Props.SPRMExample
import Verif.Props.RM
import Verif.Props.RMExample
import Verif.Props.Snipls
import Verif.Props.PPFull
import Verif.Props.PPFullExample
import Verif.Props.PPFullMedian
import Verif.Props.SudireFit
import Verif.Props.NestedSudire
import Verif.Props.ExactFit

/-! Property C143: predictions, scores and weights of new cases are computed case by case. -/

set_option linter.unusedSectionVars false

namespace Direpack

open scoped BigOperators
open Spec Matrix

variable {n p : ℕ}

/-- What case-by-case results mean for batches: cutting, reordering or repeating the cases of a batch does the same to the results. -/
lemma caseByCase_batches {α : Type} {run : (m : ℕ) → (Fin m → Fin p → ℝ) → Except Err (Fin m → α)} (h : CaseByCase run) {m m' : ℕ}
    (X : Fin m → Fin p → ℝ) (ρ : Fin m' → Fin m) : ∃ r, run m X = .ok r ∧ run m' (fun i => X (ρ i)) = .ok fun i => r (ρ i) := by
  obtain ⟨g, hg⟩ := h
  exact ⟨_, hg m X, hg m' _⟩

/-- C143: predictions of a `snipls` model are made case by case. -/
theorem C143_snipls_predict (f : SnFit n p) : CaseByCase fun m (Xn : Fin m → Fin p → ℝ) => f.predict Xn := by
  refine ⟨fun x => (∑ j, x j * f.coef j) + f.intercept, fun m X => ?_⟩
  unfold SnFit.predict
  simp

/-- C143: scores of a `snipls` model are computed case by case. -/
theorem C143_snipls_transform (f : SnFit n p) : CaseByCase fun m (Xn : Fin m → Fin p → ℝ) => f.transform Xn := by
  refine ⟨fun x a => (Matrix.of (scaleMat (fun (_ : Fin 1) j => x j) f.xLoc f.xSca) * f.R) 0 a, fun m X => ?_⟩
  unfold SnFit.transform
  simp only [dif_pos]
  rfl

/-- C143: predictions of an `rm` model fitted with `copy=True` are made case by case. -/
theorem C143_rm_predict (ext : RmExt) (pr : RmParams) (X : Fin n → Fin p → ℝ) (y : Fin n → ℝ) (f : RmFit n p) (h : rmFit ext pr X y = .ok f)
    (hc : pr.copy = true) : CaseByCase fun m (Xn : Fin m → Fin p → ℝ) => f.predict Xn := by
  obtain ⟨-, -, -, -, -, -, dx, dy, o, -, -, -, -, -, -, -, -, -, -, htc, -⟩ := rmFit_inv h
  refine ⟨fun x => (∑ j, x j * f.coef j) + f.intercept, fun m X => ?_⟩
  unfold RmFit.predict
  rw [htc, hc]
  simp only [if_true, dif_pos]
  rfl

/-- C143: predictions of an `sprm` model fitted with `copy=True` are made case by case. -/
theorem C143_sprm_predict (ext : SprmExt) (pr : SprmParams) (X : Fin n → Fin p → ℝ) (y : Fin n → ℝ) (f : SprmFit n p)
    (h : (sprmFit ext pr X y).2 = .ok f) (hc : pr.copy = true) : CaseByCase fun m (Xn : Fin m → Fin p → ℝ) => f.predict Xn := by
  obtain ⟨-, -, -, -, -, -, -, rc, dx, dy, cx, o, -, -, -, -, -, -, -, -, -, -, -, -, -, htc, -, -, -⟩ := sprmFit_inv h
  refine ⟨fun x => (∑ a, selCols (fun (_ : Fin 1) (j : Fin p) => x j) f.keep 0 a * f.coef a) + f.intercept, fun m X => ?_⟩
  unfold SprmFit.predict
  rw [htc, hc]
  simp only [if_true, dif_pos]
  rfl

/-- C143: scores of an `sprm` model fitted with `copy=True` are computed case by case. -/
theorem C143_sprm_transform (ext : SprmExt) (pr : SprmParams) (X : Fin n → Fin p → ℝ) (y : Fin n → ℝ) (f : SprmFit n p)
    (h : (sprmFit ext pr X y).2 = .ok f) (hc : pr.copy = true) : CaseByCase fun m (Xn : Fin m → Fin p → ℝ) => f.transform Xn := by
  obtain ⟨-, -, -, -, -, -, -, rc, dx, dy, cx, o, -, -, -, -, -, -, -, -, -, -, -, -, -, htc, -, -, -⟩ := sprmFit_inv h
  refine ⟨fun x a => (Matrix.of (scaleMat (selCols (fun (_ : Fin 1) (j : Fin p) => x j) f.keep) (fun a => f.xLoc (f.keep.get a))
    (fun a => f.xSca (f.keep.get a))) * f.inner.R) 0 a, fun m X => ?_⟩
  unfold SprmFit.transform
  rw [htc, hc]
  simp only [if_true, dif_pos]
  rfl

/-- C143 is violated by the weights `sprm` gives to new cases: they are relative to the other cases of the batch. -/
theorem C143_sprm_weights_violated (ext : SprmExt) (pr : SprmParams) (hc : pr.centre = .mean ∨ pr.centre = .median)
    (cx : ℝ × ℝ × ℝ) (f : SprmFit n p) : ¬ CaseByCase fun m (Xn : Fin m → Fin p → ℝ) => f.weightnewx ext pr cx Xn := by
  rintro ⟨g, hg⟩
  obtain ⟨e, he⟩ := C80_single_case_violated ext pr hc cx f (fun (_ : Fin 1) (_ : Fin p) => 0)
  have := hg 1 fun _ _ => 0
  dsimp only at this
  rw [he] at this
  cases this

/-- C143: predictions of a `ppdire` model fitted without compression are made case by case. -/
theorem C143_ppdire_predict_partial (f : PpFit n p) : CaseByCase fun m (Xn : Fin m → Fin p → ℝ) => f.predict Xn := by
  refine ⟨fun x => (∑ j, x j * f.coef j) + f.intercept, fun m X => ?_⟩
  unfold PpFit.predict
  simp

/-- C143: scores of a `ppdire` model fitted with `center_data=True` and without compression are computed case by case. -/
theorem C143_ppdire_transform_partial (pr : PpParams) (pinv : Pinv) (rg : PpReg) (φ : (Fin n → ℝ) → (Fin n → ℝ) → ℝ) (X : Fin n → Fin p → ℝ)
    (y : Fin n → ℝ) (f : PpFit n p) (h : ppFit pr pinv rg φ X y = .ok f) (hc : pr.centerData = true) :
    ∃ run : (m : ℕ) → (Fin m → Fin p → ℝ) → Except Err (Fin m → Fin f.comps.length → ℝ), CaseByCase run ∧
      ∀ (m : ℕ) (Xn : Fin m → Fin p → ℝ), f.transform Xn = (run m Xn).map fun T => .mat (Matrix.of T) := by
  obtain ⟨Xs, ys, -, -, -, -, -, -, -, -, -, -, -, -, -, -, -, -, hl, -⟩ := ppFit_inv h
  refine ⟨fun m Xn => .ok (Matrix.of (scaleMat Xn f.xLoc f.xSca) * f.rot),
    ⟨fun x a => (Matrix.of (scaleMat (fun (_ : Fin 1) k => x k) f.xLoc f.xSca) * f.rot) 0 a, fun m X => rfl⟩, fun m Xn => ?_⟩
  unfold PpFit.transform
  rw [dif_pos rfl, hl, hc]
  simp only [Bool.not_true, Bool.false_eq_true, false_and, if_false]
  rfl

/-- C143 is violated by the scores of a `ppdire` model fitted with `center_data=False` to two or more variables: no matrix of scores is returned. -/
theorem C143_ppdire_uncentred_violated (pr : PpParams) (pinv : Pinv) (rg : PpReg) (φ : (Fin n → ℝ) → (Fin n → ℝ) → ℝ) (X : Fin n → Fin p → ℝ)
    (y : Fin n → ℝ) (f : PpFit n p) (h : ppFit pr pinv rg φ X y = .ok f) (hc : pr.centerData = false) (hp : p ≠ 1) {m : ℕ} (Xn : Fin m → Fin p → ℝ) :
    ¬ ∃ T, f.transform Xn = .ok (.mat T) := by
  obtain ⟨Xs, ys, -, -, -, -, -, -, -, -, -, -, -, -, -, -, -, -, hl, -⟩ := ppFit_inv h
  rintro ⟨T, hT⟩
  unfold PpFit.transform at hT
  rw [dif_pos rfl, hl, hc] at hT
  simp [hp] at hT

/-- C143 is violated by predictions after compression with the mean as centre: batches of another size than the training data fail. -/
theorem C143_ppdire_compression_violated (cf : PpConf) (h : Option ℕ) (svd : PpSvd) (pinv : Pinv) (rg : PpReg) (φ : (Fin n → ℝ) → (Fin n → ℝ) → ℝ)
    (X : Fin n → Fin p → ℝ) (y : Fin n → ℝ) (f : PpCompFit n p) (hf : (cf.fit h svd pinv rg φ X y).2 = .ok (.compressed f))
    (hc : cf.base.centre = .mean) (hn : n ≠ 1) :
    ¬ ∃ g : (Fin p → ℝ) → ℝ, ∀ (m : ℕ) (Xn : Fin m → Fin p → ℝ), f.predict Xn = .ok (List.ofFn fun i => g (Xn i)) := by
  rintro ⟨g, hg⟩
  have h1 := (C85_compression_violated cf h svd pinv rg φ X y f hf hc).2 (fun (_ : Fin (n + 2)) (_ : Fin p) => (0 : ℝ)) (by omega) (by omega) hn
  rw [hg] at h1
  cases h1

/-- C143: scores of a `sudire` model are computed case by case. -/
theorem C143_sudire_transform (f : SdFit n p) : CaseByCase fun m (Xn : Fin m → Fin p → ℝ) => f.transform Xn := by
  refine ⟨fun x a => matX (fun (_ : Fin 1) k => x k) f.P 0 a, fun m X => ?_⟩
  unfold SdFit.transform
  simp only [dif_pos]
  rfl

/-- C143 is violated by the predictions of `sudire`: a single case cannot be predicted although the same case can be predicted together with
others (`C93_predict_partial`). -/
theorem C143_sudire_predict_violated {ext : SdExt} {o o' : SdObj} {X : Fin n → Fin p → ℝ} {y : Fin n → ℝ} {f : SdFit n p}
    (hf : o.fit ext X y = .ok (o', f)) (hh : 0 < f.h) (hT : ¬ ∃ j, IsConstCol f.T j) :
    ¬ CaseByCase fun m (Xn : Fin m → Fin p → ℝ) => f.predict Xn := by
  rintro ⟨g, hg⟩
  have hk : f.k = f.h + 1 := by
    obtain ⟨q, L, st', pm, T, -, -, -, -, -, rfl⟩ := SdObj.fit_ok hf
    show (addConstant T).1 = _
    unfold addConstant
    rw [if_neg hT]
  have hP : ∃ k, f.P k ⟨0, hh⟩ ≠ 0 := by
    obtain ⟨q, L, st', pm, T, -, -, hpm, -, -, rfl⟩ := SdObj.fit_ok hf
    by_contra hcon
    push Not at hcon
    obtain ⟨hu, -⟩ := projMat_ok hpm
    refine hu.ne_zero (Matrix.det_eq_zero_of_row_eq_zero (⟨0, hh⟩ : Fin L.h) fun a => ?_)
    rw [Matrix.mul_apply]
    exact Finset.sum_eq_zero fun k _ => by
      rw [Matrix.transpose_apply]
      exact mul_eq_zero_of_left (hcon k) _
  obtain ⟨k, hkj⟩ := hP
  have h1 := C93_single_violated f hk (fun _ => Pi.single k 1) ⟨0, hh⟩ (by simpa [Pi.single_apply] using hkj)
  have h2 := hg 1 fun _ => Pi.single k 1
  dsimp only at h2
  rw [h1] at h2
  cases h2

/-! ### Fits that meet the hypotheses -/

example : ∃ f, snFit snPr snX snY = .ok f ∧ CaseByCase fun m (Xn : Fin m → Fin 2 → ℝ) => f.predict Xn := by
  obtain ⟨f, hf, -⟩ := snExFit
  exact ⟨f, hf, C143_snipls_predict f⟩

example : ∃ f, rmFit rmExt0 (rmPr true) rmX rmY = .ok f ∧ CaseByCase fun m (Xn : Fin m → Fin 1 → ℝ) => f.predict Xn := by
  obtain ⟨f, hf, -⟩ := rmExFit rmExt0 rmExt0_lstsq (by simp only [rmExt0]; norm_num) (by simp only [rmExt0]; norm_num) true
  exact ⟨f, hf, C143_rm_predict _ _ _ _ _ hf rfl⟩

example (cx : ℝ × ℝ × ℝ) : ∃ f, (sprmFit spExt0 (spPr true) spX rmY).2 = .ok f ∧ (CaseByCase fun m (Xn : Fin m → Fin 1 → ℝ) => f.predict Xn) ∧
    (CaseByCase fun m (Xn : Fin m → Fin 1 → ℝ) => f.transform Xn) ∧
    ¬ CaseByCase fun m (Xn : Fin m → Fin 1 → ℝ) => f.weightnewx spExt0 (spPr true) cx Xn := by
  obtain ⟨f, hf⟩ := spExFit spExt0 (by simp only [spExt0, rmExt0]; norm_num) true
  exact ⟨f, hf, C143_sprm_predict _ _ _ _ _ hf rfl, C143_sprm_transform _ _ _ _ _ hf rfl, C143_sprm_weights_violated _ _ (by simp [spPr]) _ _⟩

example : ∃ (pinv : Pinv) (f : PpFit 3 2), ppFit (ppExPr true) pinv .ols (fun _ t => t 0) ppExX ![1, 5, 2] = .ok f ∧ (ppExPr true).centerData = true := by
  obtain ⟨pinv, h⟩ := exists_pinv
  obtain ⟨f, hf⟩ := ppExFit true pinv .ols (fun _ t => t 0) ![1, 5, 2]
  exact ⟨pinv, f, hf, rfl⟩

example : ∃ (pinv : Pinv) (f : PpFit 3 2), ppFit (ppExPr false) pinv .ols (fun _ t => t 0) ppExX ![1, 5, 2] = .ok f ∧ (ppExPr false).centerData = false := by
  obtain ⟨pinv, h⟩ := exists_pinv
  obtain ⟨f, hf⟩ := ppExFit false pinv .ols (fun _ t => t 0) ![1, 5, 2]
  exact ⟨pinv, f, hf, rfl⟩

example : ∃ (pinv : Pinv) (f : PpCompFit 2 3), ((cmpConf false).fit none cmpSvd pinv .ols (fun _ t => t 0) cmpX ![1, 5]).2 = .ok (.compressed f) ∧
    (cmpConf false).base.centre = .mean := by
  obtain ⟨pinv, h⟩ := exists_pinv
  obtain ⟨f, hf⟩ := cmp_compressed false pinv .ols (fun _ t => t 0) ![1, 5]
  exact ⟨pinv, f, hf, rfl⟩

example : ∃ (ext : SdExt) (o : SdObj) (f : SdFit 6 2), (SdObj.new iht2Params).fit ext (sixX 1) sixY = .ok (o, f) ∧ 0 < f.h ∧ ¬ ∃ j, IsConstCol f.T j := by
  obtain ⟨ext, o, f, -, -, h2, -, h3, h4⟩ := iht2_fits sixY
  refine ⟨ext, o, f, h3, by omega, ?_⟩
  rintro ⟨j, -, hj⟩
  rw [fit_scores (o := SdObj.new iht2Params) rfl h3] at hj
  exact hj 5 (by simp [matX, sixX])

end Direpack
