import Verif.Props.Stats
import Verif.Props.SPRMExample
import Verif.Props.RMExample
import Verif.Props.PPDireExample

/-! C178: what a model leaves unexplained is centred by the location that was asked for. -/

namespace Direpack

open scoped BigOperators
open Spec

variable {n p : ℕ}

lemma average_sub_average (hn : 0 < n) (r : Fin n → ℝ) : ∑ i, (r i - Direpack.mean r) = 0 := by
  have h0 : (n : ℝ) ≠ 0 := by exact_mod_cast hn.ne'
  rw [mean_average, average, Finset.sum_sub_distrib, Finset.sum_const, Finset.card_univ, Fintype.card_fin, nsmul_eq_mul]
  field_simp
  ring

lemma median_sub_median (hn : 0 < n) (r : Fin n → ℝ) : IsMedianOf (fun i => r i - med r) 0 := by
  have h := med_isMedian hn fun i => r i - med r
  have e : med (fun i => r i - med r) = 0 := by
    have := med_affine hn 1 (-med r) r
    simp only [one_mul] at this
    simp only [sub_eq_add_neg, this]
    ring
  rwa [e] at h

/-- The mean of the responses less the mean of the linear predictor. -/
lemma mean_sub_lin (hn : 0 < n) (X : Fin n → Fin p → ℝ) (y : Fin n → ℝ) (b : Fin p → ℝ) :
    (∑ j, Direpack.mean (fun i => X i j) * b j) + Direpack.mean (fun i => y i - ∑ j, X i j * b j) = Direpack.mean y := by
  have h0 : (n : ℝ) ≠ 0 := by exact_mod_cast hn.ne'
  simp only [mean_average, average, Finset.sum_sub_distrib]
  rw [Finset.sum_comm]
  simp only [div_mul_eq_mul_div, Finset.sum_mul]
  rw [← Finset.sum_div]
  field_simp
  ring

/-- **C178**, SNIPLS: with the mean the residuals sum to zero and the model goes through the point of means that it reports; without centring it goes through the
origin; with any other centre the median of the residuals is zero. -/
theorem C178_snipls {pr : SnParams} {X : Fin n → Fin p → ℝ} {y : Fin n → ℝ} {f : SnFit n p} (h : snFit pr X y = .ok f) (hn : 0 < n) :
    (pr.centre = .mean → ∑ i, f.residuals i = 0 ∧ f.predict (fun (_ : Fin 1) => f.xLoc) = .ok fun _ => f.yLoc) ∧
      (pr.centre = .noneOpt → f.predict (fun (_ : Fin 1) (_ : Fin p) => 0) = .ok fun _ => 0) ∧
      (pr.centre ≠ .mean → pr.centre ≠ .noneOpt → IsMedianOf f.residuals 0) := by
  obtain ⟨-, hx, -, hy, -, -, -, -, -, hi, hf, hr⟩ := snFit_inv h
  have hres : f.residuals = fun i => (y i - lin X f.coef i) - f.intercept := by
    funext i; rw [hr, hf]; ring
  refine ⟨fun hc => ⟨?_, ?_⟩, fun hc => ?_, fun h1 h2 => ?_⟩
  · rw [hres, hi, hc]
    exact average_sub_average hn _
  · unfold SnFit.predict
    rw [dif_pos rfl, hi, hx, hy, hc]
    congr 1
    funext _
    exact mean_sub_lin hn X y f.coef
  · unfold SnFit.predict
    rw [dif_pos rfl, hi, hc]
    congr 1
    funext _
    simp [snIntercept]
  · rw [hres, hi]
    have e : snIntercept pr.centre (fun i => y i - lin X f.coef i) = med fun i => y i - lin X f.coef i := by
      cases hc : pr.centre <;> simp_all [snIntercept]
    rw [e]
    exact median_sub_median hn _

/-- **C178**, SPRM: as for SNIPLS; the variables are those that were kept. -/
theorem C178_sprm {ext : SprmExt} {pr : SprmParams} {X : Fin n → Fin p → ℝ} {y : Fin n → ℝ} {f : SprmFit n p} (h : (sprmFit ext pr X y).2 = .ok f)
    (hn : 0 < n) :
    (pr.centre = .mean → ∑ i, f.residuals i = 0 ∧ (pr.copy = true → f.predict (fun (_ : Fin 1) => f.xLoc) = .ok fun _ => f.yLoc)) ∧
      (pr.centre = .noneOpt → pr.copy = true → f.predict (fun (_ : Fin 1) (_ : Fin p) => 0) = .ok fun _ => 0) ∧
      (pr.centre ≠ .mean → pr.centre ≠ .noneOpt → IsMedianOf f.residuals 0) := by
  obtain ⟨-, hx, -, hy, -, -, -, rc, dx, dy, cx, o, -, -, -, -, -, -, -, hf, hi, -, -, -, -, htc, -, hr, -⟩ := sprmFit_inv h
  have hres : f.residuals = fun i => (y i - lin (selCols X f.keep) f.coef i) - f.intercept := by
    funext i; rw [hr, hf]; ring
  refine ⟨fun hc => ⟨?_, fun hcp => ?_⟩, fun hc hcp => ?_, fun h1 h2 => ?_⟩
  · rw [hres, hi, hc]
    exact average_sub_average hn _
  · unfold SprmFit.predict
    rw [htc, if_pos hcp]
    simp only [dif_pos]
    rw [hi, hx, hy, hc]
    congr 1
    funext _
    exact mean_sub_lin hn (selCols X f.keep) y f.coef
  · unfold SprmFit.predict
    rw [htc, if_pos hcp]
    simp only [dif_pos]
    rw [hi, hc]
    congr 1
    funext _
    simp [snIntercept, selCols]
  · rw [hres, hi]
    have e : snIntercept pr.centre (fun i => y i - lin (selCols X f.keep) f.coef i) = med fun i => y i - lin (selCols X f.keep) f.coef i := by
      cases hc : pr.centre <;> simp_all [snIntercept]
    rw [e]
    exact median_sub_median hn _

/-- **C178**, robust M regression: with the mean the residuals sum to zero and the model goes through the point of means that it reports; with any other centre the
median of the residuals is zero.  Missing: without centring the model has an intercept all the same (`C178_rm_violated`). -/
theorem C178_rm_partial {ext : RmExt} {pr : RmParams} {X : Fin n → Fin p → ℝ} {y : Fin n → ℝ} {f : RmFit n p} (h : rmFit ext pr X y = .ok f) (hn : 0 < n) :
    (pr.centre = .mean → ∑ i, f.residuals i = 0 ∧ (pr.copy = true → f.predict (fun (_ : Fin 1) => f.xLoc) = .ok fun _ => f.yLoc)) ∧
      (pr.centre ≠ .mean → IsMedianOf f.residuals 0) := by
  obtain ⟨-, hx, hsx, hy, hsy, -, dx, dy, o, -, -, -, hb, hco, hf, hi, -, -, -, htc, -, hr⟩ := rmFit_inv h
  have hres : f.residuals = fun i => (y i - lin X f.coef i) - rmIntercept pr.centre (fun i => y i - lin X f.coef i) := by
    funext i; rw [hr, hf]; ring
  refine ⟨fun hc => ⟨?_, fun hcp => ?_⟩, fun h1 => ?_⟩
  · rw [hres, hc]
    exact average_sub_average hn _
  · have hint : f.intercept = Direpack.mean fun i => y i - lin X f.coef i := by
      rw [hc] at hi
      unfold rmIntercepts at hi
      cases hs : pr.scale <;> rw [hs] at hi
      all_goals simp only [ScaleOpt.isNone, Centre.isMean, if_true, Bool.false_eq_true, if_false, Except.ok.injEq, Prod.mk.injEq] at hi
      case noneOpt =>
        rw [← hi.1]
        have e : f.coef = o.b := by
          funext j
          rw [hco, hsx, hsy, hs]
          simp [ScaleOpt.run]
        rw [e]; rfl
      all_goals
        rw [← hi.1]
        simp [rmIntercept, Centre.isMean]
    unfold RmFit.predict
    rw [htc, if_pos hcp]
    simp only [dif_pos]
    rw [hint, hx, hy, hc]
    congr 1
    funext _
    exact mean_sub_lin hn X y f.coef
  · rw [hres]
    have e : rmIntercept pr.centre (fun i => y i - lin X f.coef i) = med fun i => y i - lin X f.coef i := by
      cases hc : pr.centre <;> simp_all [rmIntercept, Centre.isMean]
    rw [e]
    exact median_sub_median hn _

/-- **C178**, `ppdire`: whatever the optimiser, the index and the regression, the location of the residuals - the mean, the trimmed mean or the median - is zero; with
the untrimmed mean and centred data the model goes through the point of means that it reports. -/
theorem C178_ppdire {pr : PpParams} {pinv : Pinv} {rg : PpReg} {φ : (Fin n → ℝ) → (Fin n → ℝ) → ℝ} {X : Fin n → Fin p → ℝ} {y : Fin n → ℝ} {f : PpFit n p}
    (h : ppFit pr pinv rg φ X y = .ok f) (hn : 0 < n) :
    IsLocation pr.centre pr.trimming f.residuals 0 ∧
      (pr.centre = .mean → pr.trimming = 0 → pr.centerData = true → f.predict (fun (_ : Fin 1) => f.xLoc) = .ok fun _ => f.yLoc) := by
  obtain ⟨Xs, ys, -, -, hx, -, hy, -, -, ht, -, -, -, -, -, hi, hf, hr, -⟩ := ppFit_inv h
  refine ⟨?_, fun hm h0 hc => ?_⟩
  · have hl := loc_isLocation hn ht pr.centre f.residuals
    have e : pr.centre.loc pr.trimming f.residuals = 0 := by
      have hres : f.residuals = fun i => 1 * (y i - ∑ k, X i k * f.coef k) + -f.intercept := by
        rw [hr, hf]; funext i; ring
      rw [hres, pr.centre.loc_affine hn ht, ← hi]; ring
    rwa [e] at hl
  · unfold PpFit.predict
    rw [dif_pos rfl, hi, hx, hy, hm, h0]
    simp only [hc, if_true, PpCentre.loc, ppMean_zero]
    congr 1
    funext _
    exact mean_sub_lin hn X y f.coef

/-- The worked RM fit without centring. -/
noncomputable def rmPrNone : RmParams := { rmPr true with centre := .noneOpt }

lemma rm_startNone : startY .noneOpt .mad (fun i => (![-2, 1, 0] : Fin 3 → ℝ) i * madConst) rmY = .ok fun i => rmY i / (14826 / 10000) := by
  have hd : med (fun i => |rmY i - 0|) = 1 :=
    med3 (fun i => |rmY i - 0|) 1 2 1 0 (by decide) (by decide) (by simp [rmY]) (by simp [rmY]) (by simp [rmY])
  simp only [startY, isMedianMad, rm_medY, hd, Bool.false_eq_true, if_false]
  rw [if_neg (by norm_num)]
  simp

/-- **C178** fails for robust M regression without centring: a model is fitted whose prediction at the origin is not zero, where SNIPLS and SPRM have no
intercept with the same setting. -/
theorem C178_rm_violated (ext : RmExt)
    (hls : ∀ {n p : ℕ} (X : Fin n → Fin p → ℝ) (y : Fin n → ℝ), IsLeastSquares X y (ext.lstsq X y))
    (hz : 27 / 20 ≤ ext.normPpf (95 / 100)) (hx : 3 ≤ ext.chi2Ppf (95 / 100) 1) :
    ∃ f, rmFit ext rmPrNone rmX rmY = .ok f ∧ rmPrNone.centre = .noneOpt ∧ f.predict (fun (_ : Fin 1) (_ : Fin 1) => 0) = .ok fun _ => -1 / 5 := by
  have hm := madC_pos
  have hcx : WFun.huber.run (![3, 0, 1] : Fin 3 → ℝ) (cutX ext true 1 (95 / 100) (975 / 1000) (999 / 1000)) = fun _ => 1 := by
    apply huber_ones
    · show 1 ≤ ext.chi2Ppf (95 / 100) 1; linarith
    · intro i
      show _ ≤ ext.chi2Ppf (95 / 100) 1
      fin_cases i <;> simp <;> linarith
  have hcy : ∀ v : Fin 3 → ℝ, (∀ i, v i ≤ 27 / 20) →
      WFun.huber.run v (cutY ext (95 / 100) (975 / 1000) (999 / 1000)) = fun _ => 1 := by
    intro v hv
    apply huber_ones
    · show 1 ≤ ext.normPpf (95 / 100); linarith
    · intro i
      show _ ≤ ext.normPpf (95 / 100)
      linarith [hv i]
  have hwy : WFun.huber.run (fun i => rmY i / (14826 / 10000)) (cutY ext (95 / 100) (975 / 1000) (999 / 1000)) = fun _ => 1 := by
    apply hcy
    intro i
    fin_cases i <;> simp [rmY] <;> norm_num
  have hwr : WFun.huber.run (fun i => (![1 / 3, 5 / 3, 1] : Fin 3 → ℝ) i / (14826 / 10000))
      (cutY ext (95 / 100) (975 / 1000) (999 / 1000)) = fun _ => 1 := by
    apply hcy
    intro i
    fin_cases i <;> norm_num
  have hstep : rmStep ext .huber (cutY ext (95 / 100) (975 / 1000) (999 / 1000))
      (fun (i : Fin 3) (_ : Fin 1) => (![-3, 0, 1] : Fin 3 → ℝ) i * madConst)
      (fun i => (![-2, 1, 0] : Fin 3 → ℝ) i * madConst) (fun _ => 1) (fun _ => 1) =
      .ok (fun _ => 3 / 5, ∑ _j : Fin 1, (3 / 5) ^ 2, fun _ => 1, fun _ => 1) := by
    unfold rmStep
    simp only [rm_lstsq ext hls, rm_resid, hwr]
  have hclip : (clipW fun _ : Fin 3 => (1 : ℝ) * 1) = fun _ => 1 := by
    funext i
    have := wMin_le_one
    simp [clipW, not_lt.mpr this]
  have hloop : rwLoop (rmStep ext .huber (cutY ext (95 / 100) (975 / 1000) (999 / 1000))
      (fun (i : Fin 3) (_ : Fin 1) => (![-3, 0, 1] : Fin 3 → ℝ) i * madConst)
      (fun i => (![-2, 1, 0] : Fin 3 → ℝ) i * madConst) (fun _ => 1)) (1 / 100) 2 ((2 : ℤ).toNat + 1) 1 (1 / 100000)
      ((1 / 100 : ℝ) < 1) (fun _ => 1) none =
      some (.ok (some ⟨fun _ => 3 / 5, fun _ => 1, fun _ => 1, fun _ => 1, ∅, 1⟩)) := by
    have h1 : ¬ ((1 : ℝ) * 1 < wMin) := by have := wMin_le_one; linarith
    rw [show ((2 : ℤ).toNat + 1) = 3 from rfl]
    rw [rwLoop, if_pos (by norm_num), hstep]
    simp only [h1, if_false, Finset.filter_false, Finset.card_empty, Option.elim]
    rw [if_neg (by norm_num), rwLoop, if_neg (by norm_num)]
    simp
  have hs1 : ScaleOpt.mad.run rmX 0 = 1 / madConst := rm_madX
  have hs2 : ScaleOpt.mad.run (asCol rmY) 0 = 1 / madConst := rm_madY
  have hsnz : ¬ ∃ j, ScaleOpt.mad.run rmX j = 0 := by
    rintro ⟨j, hj⟩
    rw [Subsingleton.elim j 0, hs1] at hj
    exact absurd hj (by positivity)
  have hbr : ∀ j : Fin 1, (1 / madConst : ℝ) / ScaleOpt.mad.run rmX j * (3 / 5) = 3 / 5 := by
    intro j
    rw [Subsingleton.elim j 0, hs1]; field_simp
  have hi : rmIntercept Centre.noneOpt (fun i => rmY i - ∑ j : Fin 1, rmX i j * (3 / 5)) = -1 / 5 := by
    have : med (fun i => rmY i - ∑ j : Fin 1, rmX i j * (3 / 5)) = -1 / 5 := by
      refine med3 _ _ 2 0 1 (by decide) (by decide) ?_ ?_ ?_ <;> simp [rmX, rmY] <;> norm_num
    exact this
  have hcm : Centre.noneOpt.run rmX = Centre.median.run rmX := by
    funext j; rw [Subsingleton.elim j 0]; exact rm_medX.symm
  have hcy0 : Centre.noneOpt.run (asCol rmY) = Centre.median.run (asCol rmY) := by
    funext j; exact rm_medY.symm
  have hfit : rmFit ext rmPrNone rmX rmY = rmFinish rmPrNone rmX rmY
      (fun (i : Fin 3) (_ : Fin 1) => (![-3, 0, 1] : Fin 3 → ℝ) i * madConst)
      (fun i => (![-2, 1, 0] : Fin 3 → ℝ) i * madConst) (fun _ => 1) (Centre.median.run rmX) (ScaleOpt.mad.run rmX)
      (Centre.median.run (asCol rmY) 0) (ScaleOpt.mad.run (asCol rmY) 0)
      (some ⟨fun _ => 3 / 5, fun _ => 1, fun _ => 1, fun _ => 1, ∅, 1⟩) := by
    unfold rmFit
    rw [show checkProbs rmPrNone.fn rmPrNone.probp1 rmPrNone.probp2 rmPrNone.probp3 = .ok () from rm_check true]
    simp only [show rmPrNone.centre = .noneOpt from rfl, show rmPrNone.scale = .mad from rfl, hcm, hcy0, rmYs]
    simp only [rmXs, rm_dist, rm_startNone]
    simp only [show rmPrNone.fn = .huber from rfl, show rmPrNone.probp1 = 95 / 100 from rfl,
      show rmPrNone.probp2 = 975 / 1000 from rfl, show rmPrNone.probp3 = 999 / 1000 from rfl,
      show rmPrNone.specific = true from rfl, show rmPrNone.maxit = 2 from rfl,
      show rmPrNone.tol = 1 / 100 from rfl, hcx, hwy, hclip, hloop]
  rw [hfit]
  unfold rmFinish
  simp only [if_neg hsnz, hs2, hbr, show rmPrNone.centre = .noneOpt from rfl, show rmPrNone.scale = .mad from rfl, hi]
  have hint : rmIntercepts .noneOpt .mad rmX rmY (fun (i : Fin 3) (_ : Fin 1) => (![-3, 0, 1] : Fin 3 → ℝ) i * madConst)
      (fun i => (![-2, 1, 0] : Fin 3 → ℝ) i * madConst) (fun _ => 3 / 5) (-1 / 5) = .ok (-1 / 5, 0) := by
    simp only [rmIntercepts, ScaleOpt.isNone, Centre.isMean, Bool.false_eq_true, if_false]
    rw [rm_allPairs]
  simp only [hint]
  refine ⟨_, rfl, trivial, ?_⟩
  simp [RmFit.predict, rmPrNone, rmPr]

/-! Cases that meet the hypotheses. -/

example : ∃ f, snFit ⟨0, 1, .mean, .noneOpt⟩ snX snY = .ok f ∧ ∑ i, f.residuals i = 0 ∧ f.predict (fun (_ : Fin 1) => f.xLoc) = .ok fun _ => f.yLoc := by
  obtain ⟨f, hf⟩ := C44_one_component_total ⟨0, 1, .mean, .noneOpt⟩ snX snY le_rfl zero_lt_one rfl (fun j => one_ne_zero)
  exact ⟨f, hf, (C178_snipls hf (by norm_num)).1 rfl⟩

example : ∃ (pinv : Pinv) (f : PpFit 3 2), ppFit (ppExPr true) pinv .ols (fun _ t => t 0) ppExX ![1, 5, 2] = .ok f ∧
    f.predict (fun (_ : Fin 1) => f.xLoc) = .ok fun _ => f.yLoc := by
  obtain ⟨pinv, h⟩ := exists_pinv
  obtain ⟨f, hf⟩ := ppExFit true pinv .ols (fun _ t => t 0) ![1, 5, 2]
  exact ⟨pinv, f, hf, (C178_ppdire hf (by norm_num)).2 rfl rfl rfl⟩

example : ∃ f, rmFit rmExt0 (rmPr true) rmX rmY = .ok f ∧ IsMedianOf f.residuals 0 := by
  obtain ⟨f, hf, -⟩ := rmExFit rmExt0 rmExt0_lstsq (by simp only [rmExt0]; norm_num) (by simp only [rmExt0]; norm_num) true
  exact ⟨f, hf, (C178_rm_partial hf (by norm_num)).2 (by simp [rmPr])⟩

example : ∃ f, (sprmFit spExt0 (spPr true) spX rmY).2 = .ok f ∧ IsMedianOf f.residuals 0 := by
  obtain ⟨f, hf⟩ := spExFit spExt0 (by simp only [spExt0, rmExt0]; norm_num) true
  exact ⟨f, hf, (C178_sprm hf (by norm_num)).2.2 (by simp [spPr]) (by simp [spPr])⟩

example : ∃ ext : RmExt, ∃ f, rmFit ext rmPrNone rmX rmY = .ok f ∧ f.predict (fun (_ : Fin 1) (_ : Fin 1) => 0) = .ok fun _ => -1 / 5 := by
  obtain ⟨f, hf, -, h⟩ := C178_rm_violated rmExt0 rmExt0_lstsq (by simp only [rmExt0]; norm_num) (by simp only [rmExt0]; norm_num)
  exact ⟨rmExt0, f, hf, h⟩

end Direpack
