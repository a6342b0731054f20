import Verif.Spec.Beforehand
import Verif.Props.FullRank
import Verif.Props.SniplsEquiv
import Verif.Props.PPDireEquiv
import Verif.Props.RMExample

/-! Property C196: standardising beforehand and fitting without centring and scaling gives the model that the estimator finds when it standardises. -/

namespace Direpack

open scoped BigOperators
open Spec

variable {n p : ℕ}

lemma stdMat_none (X : Fin n → Fin p → ℝ) : stdMat X (fun _ => 0) (fun _ => 1) = X := by
  funext i j; simp [stdMat, std1]

lemma stdVec_none (y : Fin n → ℝ) : stdVec y 0 1 = y := by
  funext i; simp [stdVec, std1]

/-- C196 (snipls, any location and scale): the fit without centring and scaling to the data standardised beforehand succeeds; components, scaled coefficients and thereby
the retained variables are the same; its predictions for new cases, standardised in the same way, are in the original units those of the model that standardises, up to one
constant.  Missing: that the constant is zero, which is `C196_snipls_mean` for the mean and false for the median (`C196_snipls_median_violated`). -/
theorem C196_snipls_partial {pr : SnParams} {X : Fin n → Fin p → ℝ} {y : Fin n → ℝ} {f : SnFit n p} (h : snFit pr X y = .ok f) :
    ∃ g, snFit { pr with centre := .noneOpt, scale := .noneOpt } (stdMat X f.xLoc f.xSca) (stdVec y f.yLoc f.ySca) = .ok g ∧
      g.comps = f.comps ∧ g.coef = f.coefScaled ∧ g.coefScaled = f.coefScaled ∧
      ∃ d, ∀ {m : ℕ} (Xn : Fin m → Fin p → ℝ), f.predict Xn = (g.predict (stdMat Xn f.xLoc f.xSca)).map (inUnitsOf (f.yLoc + d) f.ySca) := by
  obtain ⟨hpar, e1, e2, e3, e4, hs, hl, hcf, hco, hint, -⟩ := snFit_inv h
  obtain ⟨g, hg, hgc, hgs⟩ := snFit_intro { pr with centre := .noneOpt, scale := .noneOpt } (stdMat X f.xLoc f.xSca) (stdVec y f.yLoc f.ySca) hpar
    (fun j => by simp [ScaleOpt.run]) f.comps (by simpa only [Centre.run, ScaleOpt.run, stdMat_none, stdVec_none] using hl) f.R f.coefScaled
    (by simpa only [Centre.run, ScaleOpt.run, stdMat_none, stdVec_none] using hcf)
  obtain ⟨-, g1, g2, g3, g4, -, -, -, gco, gint, -⟩ := snFit_inv hg
  have hgco : g.coef = f.coefScaled := by
    funext j
    rw [gco, g2, g4, hgs]; simp [ScaleOpt.run]
  have hgi : g.intercept = 0 := by rw [gint]; rfl
  refine ⟨g, hg, hgc, hgco, hgs, f.intercept - f.yLoc + ∑ j, f.xLoc j * f.coef j, fun {m} Xn => ?_⟩
  simp only [SnFit.predict, dif_pos, Except.map, Fin.cast_eq_self]
  congr 1
  funext i
  have : ∀ j, f.ySca * (stdMat Xn f.xLoc f.xSca i j * f.coefScaled j) = Xn i j * f.coef j - f.xLoc j * f.coef j := fun j => by
    rw [hco, stdMat, std1, if_neg (hs j)]
    have := hs j
    field_simp
  simp only [inUnitsOf, hgi, hgco, add_zero, Finset.mul_sum, this, Finset.sum_sub_distrib]
  ring

/-- C196 (snipls about the means, with any scale): a fit without centring and scaling to the data standardised beforehand is the same model; predictions for new cases
standardised in the same way are, in the original units, the predictions of the model that standardises. -/
theorem C196_snipls_mean {pr : SnParams} (hm : pr.centre = .mean) (hn : 0 < n) {X : Fin n → Fin p → ℝ} {y : Fin n → ℝ} {f : SnFit n p} (h : snFit pr X y = .ok f) :
    ∃ g, snFit { pr with centre := .noneOpt, scale := .noneOpt } (stdMat X f.xLoc f.xSca) (stdVec y f.yLoc f.ySca) = .ok g ∧
      g.comps = f.comps ∧ g.coef = f.coefScaled ∧ g.coefScaled = f.coefScaled ∧
      ∀ {m : ℕ} (Xn : Fin m → Fin p → ℝ), f.predict Xn = (g.predict (stdMat Xn f.xLoc f.xSca)).map (inUnitsOf f.yLoc f.ySca) := by
  obtain ⟨g, hg, hgc, hgco, hgs, d, hd⟩ := C196_snipls_partial h
  refine ⟨g, hg, hgc, hgco, hgs, ?_⟩
  suffices d = 0 by
    intro m Xn
    have := hd Xn
    rwa [‹d = 0›, add_zero] at this
  obtain ⟨hpar, e1, e2, e3, e4, hs, hl, hcf, hco, hint, -⟩ := snFit_inv h
  obtain ⟨-, -, -, -, -, -, -, -, -, gint, -⟩ := snFit_inv hg
  have hgi : g.intercept = 0 := by rw [gint]; rfl
  have hb : f.intercept = f.yLoc - ∑ j, f.xLoc j * f.coef j := by
    rw [hint, hm, e3, e1, hm]
    have hn' : (n : ℝ) ≠ 0 := by exact_mod_cast hn.ne'
    simp only [snIntercept, Centre.run, asCol, mean_eq, lin, Finset.sum_sub_distrib, sub_div]
    congr 1
    rw [Finset.sum_comm, Finset.sum_div]
    refine Finset.sum_congr rfl fun j _ => ?_
    rw [← Finset.sum_mul]; ring
  have h1 := hd (m := 1) (fun _ j => f.xLoc j)
  simp only [SnFit.predict, dif_pos, Except.map, Fin.cast_eq_self, Except.ok.injEq] at h1
  have h2 := congrFun h1 0
  have hz : ∀ j, stdMat (fun (_ : Fin 1) j => f.xLoc j) f.xLoc f.xSca 0 j = 0 := fun j => by simp [stdMat, std1]
  simp only [inUnitsOf, hgi, hz, zero_mul, Finset.sum_const_zero, hb] at h2
  linarith

/-- Three cases whose response has median 1. -/
def befX : Fin 3 → Fin 1 → ℝ := ![![-1], ![0], ![1]]
/-- Their responses. -/
def befY : Fin 3 → ℝ := ![1, 0, 5]
/-- One component, medians, no scaling, no sparsity. -/
noncomputable def befPr : SnParams := ⟨0, 1, .median, .noneOpt⟩

/-- C196 is violated for snipls about the medians: for these three cases the model that centres predicts 3 at zero; the model of the centred data predicts 0 there, which in
the original units is 1. -/
theorem C196_snipls_median_violated :
    ∃ f g, snFit befPr befX befY = .ok f ∧
      snFit { befPr with centre := .noneOpt, scale := .noneOpt } (stdMat befX f.xLoc f.xSca) (stdVec befY f.yLoc f.ySca) = .ok g ∧
      f.predict (fun (_ : Fin 1) (_ : Fin 1) => 0) = .ok ![3] ∧
      (g.predict (stdMat (fun (_ : Fin 1) (_ : Fin 1) => 0) f.xLoc f.xSca)).map (inUnitsOf f.yLoc f.ySca) = .ok ![1] := by
  obtain ⟨f, hf⟩ := C44_one_component_total befPr befX befY (by norm_num [befPr]) (by norm_num [befPr]) rfl (fun j => by simp [befPr, ScaleOpt.run])
  obtain ⟨g, hg, -, hgco, -, -⟩ := C196_snipls_partial hf
  have hls := C152_all_components hf (by simp [befPr])
  obtain ⟨-, e1, e2, e3, e4, -, -, -, hco, hint, -⟩ := snFit_inv hf
  obtain ⟨-, -, -, -, -, -, -, -, -, gint, -⟩ := snFit_inv hg
  have hgi : g.intercept = 0 := by rw [gint]; rfl
  have mx : f.xLoc = fun _ => 0 := by
    rw [e1]; funext j
    fin_cases j
    exact med3 _ 0 0 1 2 (by decide) (by decide) (by simp [befX]) (by simp [befX]) (by simp [befX])
  have my : f.yLoc = 1 := by
    rw [e3]
    exact med3 _ 1 1 0 2 (by decide) (by decide) (by simp [befY, asCol]) (by simp [befY, asCol]) (by simp [befY, asCol])
  have sx : f.xSca = fun _ => 1 := by rw [e2]; rfl
  have sy : f.ySca = 1 := by rw [e4]; rfl
  have hb : f.coefScaled 0 = 2 := by
    have := hls 0
    rw [mx, sx, my, sy, stdMat_none] at this
    simp [Fin.sum_univ_three, lin, stdVec, std1, befX, befY, dot] at this
    linarith
  have hc : f.coef 0 = 2 := by rw [hco, sx, sy, hb]; norm_num
  have hi : f.intercept = 3 := by
    rw [hint]
    refine med3 _ 3 1 0 2 (by decide) (by decide) ?_ ?_ ?_ <;> simp [befX, befY, lin, hc] <;> norm_num
  refine ⟨f, g, hf, hg, ?_, ?_⟩
  · simp only [SnFit.predict, dif_pos, Except.ok.injEq]
    funext i; fin_cases i; simp [hi]
  · simp only [SnFit.predict, dif_pos, Except.map, Except.ok.injEq]
    funext i; fin_cases i; simp [hgi, mx, sx, my, sy, inUnitsOf, stdMat, std1]

/-- C196 (ppdire; least squares or robust regression; mean, trimmed mean or median): the fit with `center_data=False` to the data standardised beforehand succeeds; components
and scaled coefficients are the same; predictions for new cases standardised in the same way are, in the original units, the predictions of the model that standardises.
Missing: quantile regression, for which this is false (`C196_ppdire_quantile_violated`). -/
theorem C196_ppdire_partial {pr : PpParams} {pinv : Pinv} {rg : PpReg} (hrg : ∀ q, rg ≠ .raw q) (hn : 0 < n)
    {φ : (Fin n → ℝ) → (Fin n → ℝ) → ℝ} {X : Fin n → Fin p → ℝ} {y : Fin n → ℝ} {f : PpFit n p} (hc : pr.centerData = true) (h : ppFit pr pinv rg φ X y = .ok f) :
    ∃ g, ppFit { pr with centerData := false } pinv rg φ (stdMat X f.xLoc f.xSca) (stdVec y f.yLoc f.ySca) = .ok g ∧
      g.comps = f.comps ∧ g.coef = f.coefScaled ∧ g.coefScaled = f.coefScaled ∧
      ∀ {m : ℕ} (Xn : Fin m → Fin p → ℝ), f.predict Xn = (g.predict (stdMat Xn f.xLoc f.xSca)).map (inUnitsOf f.yLoc f.ySca) := by
  obtain ⟨Xs, ys, hXs, hys, hmX, hsX, hmy, hsy, hk, ht, hl, hs, hrot, hbs, hb, hb0, -⟩ := ppFit_inv h
  simp only [hc, if_true] at hXs hys hmX hsX hmy hsy
  have eX : stdMat X f.xLoc f.xSca = Xs := by rw [hXs, scaleMat_eq]
  have ey : stdVec y f.yLoc f.ySca = ys := by
    rw [hys]; funext i; unfold stdVec std1; split <;> simp
  have hrun : rg.run ys y = rg.run ys ys := by
    funext t
    cases rg with
    | ols => rfl
    | ext f => rfl
    | raw q => exact absurd rfl (hrg q)
  rw [hrun] at hl
  have hg : ∃ g, ppFit { pr with centerData := false } pinv rg φ Xs ys = .ok g ∧ g.comps = f.comps := by
    unfold ppFit
    rw [if_neg (by simpa using hk), if_neg (by simpa using ht)]
    simp only [Bool.false_eq_true, if_false]
    rw [hl]
    simp
  obtain ⟨g, hg, hgc⟩ := hg
  rw [eX, ey]
  obtain ⟨Xs', ys', -, -, gmX, gsX, gmy, gsy, -, -, -, -, grot, gbs, gb, gb0, -⟩ := ppFit_inv hg
  simp only [Bool.false_eq_true, if_false] at gmX gsX gmy gsy
  have hgs : g.coefScaled = f.coefScaled := by
    rw [gbs, hbs, grot, hrot, hgc]
  have hgco : g.coef = f.coefScaled := by
    rw [gb, gsX, gsy, hgs]; funext k; simp
  refine ⟨g, hg, hgc, hgco, hgs, fun {m} Xn => ?_⟩
  have key : ∀ {m : ℕ} (Xn : Fin m → Fin p → ℝ) i, f.ySca * (∑ j, stdMat Xn f.xLoc f.xSca i j * f.coefScaled j) = (∑ j, Xn i j * f.coef j) - ∑ j, f.xLoc j * f.coef j := by
    intro m Xn i
    rw [Finset.mul_sum, ← Finset.sum_sub_distrib]
    refine Finset.sum_congr rfl fun j _ => ?_
    rw [hb, stdMat, std1, if_neg (hs j)]
    have := hs j
    field_simp
  have hint : f.intercept = f.ySca * g.intercept + (f.yLoc - ∑ j, f.xLoc j * f.coef j) := by
    rw [hb0, gb0]
    by_cases h0 : f.ySca = 0
    · have hcz : ∀ k, f.coef k = 0 := fun k => by rw [hb, h0]; simp
      simp only [hcz, mul_zero, Finset.sum_const_zero, sub_zero, h0, zero_mul, zero_add]
      exact hmy.symm
    · rw [← pr.centre.loc_affine hn ht]
      congr 1
      funext i
      have := key X i
      rw [eX] at this
      rw [mul_sub, hgco, this, ← ey, stdVec, std1, if_neg h0]
      field_simp
      ring
  simp only [PpFit.predict, dif_pos, Except.map, Fin.cast_eq_self]
  congr 1
  funext i
  simp only [inUnitsOf, hgco, mul_add, key, hint]
  ring

/-- C196 is violated for quantile regression in ppdire, whatever median regression routine is used: for the response `2 x` the model that standardises predicts `4 x`, the model
of the standardised data predicts the response. -/
theorem C196_ppdire_quantile_violated (q : {n : ℕ} → (Fin n → ℝ) → (Fin n → ℝ) → ℝ)
    (hq : ∀ {n : ℕ} (t y : Fin n → ℝ), (∃ c, IsQuantileFit (1 / 2) t y c) → IsQuantileFit (1 / 2) t y (q t y)) (pinv : Pinv) (hp : IsGenInverse pinv)
    (φ : (Fin 2 → ℝ) → (Fin 2 → ℝ) → ℝ) :
    ∃ f g, ppFit ppQPr pinv (.raw q) φ ppQX (fun i => 2 * ppQX i 0) = .ok f ∧
      ppFit { ppQPr with centerData := false } pinv (.raw q) φ (stdMat ppQX f.xLoc f.xSca) (stdVec (fun i => 2 * ppQX i 0) f.yLoc f.ySca) = .ok g ∧
      f.predict ppQX = .ok (fun i => 4 * ppQX i 0) ∧
      (g.predict (stdMat ppQX f.xLoc f.xSca)).map (inUnitsOf f.yLoc f.ySca) = .ok (fun i => 2 * ppQX i 0) := by
  obtain ⟨f, hf, hfit⟩ := C112_quantile_violated q hq pinv hp φ 2 two_pos
  obtain ⟨Xs, ys, -, -, hmX, hsX, hmy, hsy, -, -, -, -, -, -, -, -, hfi, -⟩ := ppFit_inv hf
  have hm : ∀ c : ℝ, ppMean 0 (fun i => c * ppQX i 0) = 0 := by
    intro c
    rw [ppMean_zero, mean_eq]
    simp [ppQX, Fin.sum_univ_succ]
  have hs : ∀ c : ℝ, 0 < c → ppStd 0 (fun i => c * ppQX i 0) = c := by
    intro c hc
    have e : stdT Real.sqrt 0 (List.ofFn fun i => c * ppQX i 0) = .ok (Real.sqrt (var fun i => c * ppQX i 0)) := by
      simp [stdT, var]
    rw [ppStd, e]
    have e2 : var (fun i => c * ppQX i 0) = c ^ 2 := by
      rw [var_eq, ← ppMean_zero (fun i => c * ppQX i 0), hm, mean_eq]
      simp [ppQX, Fin.sum_univ_succ]
    simp only [e2]
    exact Real.sqrt_sq hc.le
  have mx : f.xLoc = fun _ => 0 := by
    rw [hmX]; funext j
    have := hm 1
    simp only [one_mul] at this
    rw [Subsingleton.elim j 0]; exact this
  have sx : f.xSca = fun _ => 1 := by
    rw [hsX]; funext j
    have := hs 1 one_pos
    simp only [one_mul] at this
    rw [Subsingleton.elim j 0]; exact this
  have my : f.yLoc = 0 := by rw [hmy]; exact hm 2
  have sy : f.ySca = 2 := by rw [hsy]; exact hs 2 two_pos
  have hv : stdVec (fun i => 2 * ppQX i 0) 0 2 = fun i => ppQX i 0 := by
    funext i; simp [stdVec, std1]
  have hqv : q (fun i => ppQX i 0) (fun i => ppQX i 0) = 1 := by
    have h := hq (fun i => ppQX i 0) (fun i => ppQX i 0) ⟨1, fun c' => by
      have h0 : ∀ r, 0 ≤ checkLoss (1 / 2) r := by
        intro r
        unfold checkLoss
        split_ifs with hr
        · linarith
        · linarith
      have h1 : ∀ i : Fin 2, checkLoss (1 / 2) (ppQX i 0 - 1 * ppQX i 0) = 0 := by
        intro i; rw [one_mul, sub_self]; simp [checkLoss]
      simp only [h1, Finset.sum_const_zero]
      exact Finset.sum_nonneg fun i _ => h0 _⟩ 1
    generalize q (fun i => ppQX i 0) (fun i => ppQX i 0) = v at h ⊢
    simp [Fin.sum_univ_succ, ppQX, checkLoss] at h
    split_ifs at h <;> linarith
  refine ⟨f, ?_⟩
  rw [mx, sx, my, sy, stdMat_none, hv]
  obtain ⟨g, hg, hgc⟩ := ppOne_fit (n := 2) (pr := { ppQPr with centerData := false }) rfl rfl (by simp [ppQPr, trimOk]; norm_num) (pinv := pinv) hp (rg := .raw q) (φ := φ)
    (X := ppQX) (y := fun i => ppQX i 0) (by norm_num) ppQX (fun i => ppQX i 0) (by simp) (by simp) (by simp) (by simp [ppQX, Fin.sum_univ_succ])
  obtain ⟨-, -, -, -, -, gsX, -, gsy, -, -, -, -, -, -, gb, gb0, -⟩ := ppFit_inv hg
  simp only [Bool.false_eq_true, if_false] at gsX gsy
  have hc : g.coef = fun _ => 1 := by
    rw [gb, gsX, gsy, hgc]
    funext k
    simp only [PpReg.run, hqv]; norm_num
  have hi : g.intercept = 0 := by
    rw [gb0, hc]
    have : (fun i => ppQX i 0 - ∑ k : Fin 1, ppQX i k * 1) = fun i => 0 * ppQX i 0 := by
      funext i; simp
    rw [this]; exact hm 0
  refine ⟨g, hf, hg, ?_, ?_⟩
  · simp only [PpFit.predict, dif_pos, Fin.cast_eq_self, Except.ok.injEq]
    rw [hfi] at hfit
    funext i
    have := hfit i
    dsimp only at this
    rw [this]; ring
  · simp only [PpFit.predict, dif_pos, Fin.cast_eq_self, Except.map, Except.ok.injEq]
    funext i
    simp [inUnitsOf, hc, hi]

/-- Non-vacuity of `C196_snipls_mean`: the three cases, autoscaled. -/
example : ∃ f g, snFit ⟨0, 1, .mean, .std⟩ befX befY = .ok f ∧ snFit ⟨0, 1, .noneOpt, .noneOpt⟩ (stdMat befX f.xLoc f.xSca) (stdVec befY f.yLoc f.ySca) = .ok g ∧
    f.predict befX = (g.predict (stdMat befX f.xLoc f.xSca)).map (inUnitsOf f.yLoc f.ySca) := by
  obtain ⟨f, hf⟩ := C44_one_component_total ⟨0, 1, .mean, .std⟩ befX befY (by norm_num) (by norm_num) rfl (fun j => by
    fin_cases j
    simp only [ScaleOpt.run]
    refine (Real.sqrt_pos.mpr ?_).ne'
    rw [var_eq]
    simp [mean_eq, befX, Fin.sum_univ_three])
  obtain ⟨g, hg, -, -, -, hp⟩ := C196_snipls_mean rfl (by norm_num) hf
  exact ⟨f, g, hf, hg, hp befX⟩

/-- Non-vacuity of `C196_ppdire_partial`: three cases, median and MAD. -/
example (pinv : Pinv) (hp : IsGenInverse pinv) (φ : (Fin 3 → ℝ) → (Fin 3 → ℝ) → ℝ) : ∃ f g, ppFit ppMPr pinv .ols φ ![![0], ![1], ![3]] ![0, 4, 2] = .ok f ∧
    ppFit { ppMPr with centerData := false } pinv .ols φ (stdMat ![![0], ![1], ![3]] f.xLoc f.xSca) (stdVec ![0, 4, 2] f.yLoc f.ySca) = .ok g ∧
    f.predict (![![7]] : Fin 1 → Fin 1 → ℝ) = (g.predict (stdMat (![![7]] : Fin 1 → Fin 1 → ℝ) f.xLoc f.xSca)).map (inUnitsOf f.yLoc f.ySca) := by
  obtain ⟨f, hf, -⟩ := C115_median_violated pinv hp φ
  obtain ⟨g, hg, -, -, -, h⟩ := C196_ppdire_partial (fun q h => by cases h) (by norm_num) rfl hf
  exact ⟨f, g, hf, hg, h _⟩

end Direpack
