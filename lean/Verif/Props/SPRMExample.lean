import Verif.Props.SPRM
import Verif.Props.RMExample

/-! A worked SPRM fit: the hypotheses of the C48-C51 and C79-C81 theorems can be met. -/

namespace Direpack

open scoped BigOperators
open Spec

noncomputable def spX : Fin 3 → Fin 1 → ℝ := fun i _ => ![-1, 0, 1] i
noncomputable def spPr (copy : Bool) : SprmParams :=
  { nComponents := 1, eta := 0, fn := .huber, probp1 := 95 / 100, probp2 := 975 / 1000, probp3 := 999 / 1000
    centre := .median, scale := .plain .mad, maxit := 2, tol := 1 / 100, specific := false, pcapp := false, copy := copy }
/-- Third-party functions with the assumed properties (the singular value decomposition is not called). -/
noncomputable def spExt0 : SprmExt := ⟨rmExt0.normPpf, rmExt0.chi2Ppf, fun _ => (0, 0)⟩

lemma sp_medX : med (fun i => spX i 0) = 0 :=
  med3 _ 0 0 1 2 (by decide) (by decide) (by simp [spX]) (by simp [spX]) (by simp [spX])

lemma sp_madX : Direpack.mad (fun i => spX i 0) = 1 / madConst := by
  rw [rm_mad_eq, sp_medX, med3 (fun i => |spX i 0 - 0|) 1 1 2 0 (by decide) (by decide) (by simp [spX]) (by simp [spX])
    (by simp [spX])]

/-- The standardised predictor. -/
noncomputable def spXs : Fin 3 → Fin 1 → ℝ := fun i _ => ![-1, 0, 1] i * madConst
/-- The standardised response. -/
noncomputable def spYs : Fin 3 → ℝ := fun i => ![-2, 1, 0] i * madConst

lemma sp_mean_x : Direpack.mean (fun i => spXs i 0) = 0 := by
  rw [mean_eq]; simp [spXs, Fin.sum_univ_succ]

lemma sp_mean_y : Direpack.mean spYs = -1 / 3 * madConst := by
  rw [mean_eq]; simp [spYs, Fin.sum_univ_succ]; ring

lemma sp_loop : ∃ c : SnComp 3 1, snLoop 0 1 spXs (fun i => spYs i + 1 / 3 * madConst) ∅ = .ok [c] ∧
    ∀ i, c.t i = spXs i 0 := by
  have hm := madC_pos
  have hcov : ∑ i, spXs i 0 * (spYs i + 1 / 3 * madConst) = 2 * madConst ^ 2 := by
    simp [spXs, spYs, Fin.sum_univ_succ]; ring
  have hw : snWeights 0 spXs (fun i => spYs i + 1 / 3 * madConst) = (fun _ => 1, fun _ => 1) := by
    unfold snWeights
    have hs : Real.sqrt (∑ j : Fin 1, (∑ i, spXs i j * (spYs i + 1 / 3 * madConst)) ^ 2) = 2 * madConst ^ 2 := by
      rw [Fin.sum_univ_one, hcov, Real.sqrt_sq (by positivity)]
    have h1 : (fun j : Fin 1 => (∑ i, spXs i j * (spYs i + 1 / 3 * madConst)) / (2 * madConst ^ 2)) = fun _ => 1 := by
      funext j
      rw [Subsingleton.elim j 0, hcov, div_self (by positivity)]
    simp only [hs]
    simp only [show ∀ j : Fin 1, (∑ i, spXs i j * (spYs i + 1 / 3 * madConst)) / (2 * madConst ^ 2) = 1 from
      fun j => congrFun h1 j]
    simp [npSign]
  have ht : ∀ i, ∑ j : Fin 1, spXs i j * (if j ∈ (∅ ∪ Finset.univ.filter fun _ : Fin 1 => (0 : ℝ) < 1) then (1 : ℝ) else 0)
      = spXs i 0 := by
    intro i; simp
  have hn2 : ∑ i, spXs i 0 ^ 2 ≠ 0 := by
    have : ∑ i, spXs i 0 ^ 2 = 2 * madConst ^ 2 := by simp [spXs, Fin.sum_univ_succ]; ring
    rw [this]; positivity
  simp only [snLoop]
  rw [if_neg (by
    intro h
    have := h 0
    rw [hcov] at this
    exact absurd this (by positivity))]
  simp only [hw]
  rw [if_neg (by simp)]
  simp only [ht]
  rw [if_neg hn2]
  exact ⟨_, rfl, fun i => rfl⟩

/-- The weighted SNIPLS fit of the example. -/
lemma sp_snfit : ∃ (g : SnFit 3 1) (c : SnComp 3 1),
    snFit ⟨0, 1, .mean, .noneOpt⟩ spXs spYs = .ok g ∧ g.comps = [c] ∧ (∀ i, c.t i = spXs i 0) ∧
    ∀ i, spYs i - g.fitted i = ![-2 / 3, 4 / 3, -2 / 3] i * madConst := by
  have hm := madC_pos
  obtain ⟨g, hg⟩ := C44_one_component_total ⟨0, 1, .mean, .noneOpt⟩ spXs spYs (le_refl _) zero_lt_one rfl
    (fun j => by simp [ScaleOpt.run])
  have hmx : Centre.mean.run spXs = fun _ => 0 := by
    funext j; rw [Subsingleton.elim j 0]; exact sp_mean_x
  have hmy : Centre.mean.run (asCol spYs) 0 = -1 / 3 * madConst := sp_mean_y
  obtain ⟨-, e1, e2, e3, e4, -, hl, -, hco, hint, hfit, -⟩ := snFit_inv hg
  simp only at e1 e2 e3 e4 hl hint
  rw [hmx] at e1
  rw [hmy] at e3
  have e2' : g.xSca = fun _ => 1 := e2
  have e4' : g.ySca = 1 := e4
  have hX0 : stdMat spXs g.xLoc g.xSca = spXs := by
    rw [e1, e2']; funext i j; simp [stdMat, std1]
  have hy0 : stdVec spYs g.yLoc g.ySca = fun i => spYs i + 1 / 3 * madConst := by
    rw [e3, e4']; funext i; simp [stdVec, std1]; ring
  rw [hX0, hy0] at hl
  obtain ⟨c, hc, hct⟩ := sp_loop
  rw [hc] at hl
  simp only [Except.ok.injEq] at hl
  refine ⟨g, c, hg, hl.symm, hct, ?_⟩
  have hne := (C45_normal_equations hg).1
  rw [hX0, hy0] at hne
  have hT : ∀ (l : List (SnComp 3 1)) (hl : [c] = l), ∃ a : Fin l.length, ∀ i, compT l i a = spXs i 0 := by
    intro l hl; subst hl
    exact ⟨0, fun i => hct i⟩
  obtain ⟨a, ha⟩ := hT _ hl
  have hb := hne a
  simp only [dot, lin, ha, Fin.sum_univ_one, Fin.isValue] at hb
  have hB : g.coefScaled 0 = 1 := by
    simp [Fin.sum_univ_succ, spXs, spYs] at hb
    have h2 : (madConst : ℝ) ^ 2 * (g.coefScaled 0 - 1) = 0 := by linear_combination (-1 / 2) * hb
    rcases mul_eq_zero.mp h2 with h3 | h3
    · exact absurd h3 (by positivity)
    · linarith
  have hcoef : g.coef 0 = 1 := by rw [hco, e2', e4', hB]; norm_num
  have hi : g.intercept = -1 / 3 * madConst := by
    rw [hint]
    show Direpack.mean _ = _
    rw [mean_sub', mean_lin, sp_mean_y, Fin.sum_univ_one, sp_mean_x]; ring
  intro i
  rw [hfit, hi]
  simp only [lin, Fin.sum_univ_one, Fin.isValue, hcoef]
  fin_cases i <;> simp [spXs, spYs] <;> ring

lemma sp_dist_of {k : ℕ} (Z : Fin 3 → Fin k → ℝ) (hk : k = 1) (hZ : ∀ i a, Z i a = spXs i 0) :
    rowDistances Z = .ok ![1, 0, 1] := by
  subst hk
  have hm := madC_pos
  have hd : ∀ i : Fin 3, Real.sqrt (∑ a : Fin 1, Z i a ^ 2) = |(![-1, 0, 1] : Fin 3 → ℝ) i| * madConst := by
    intro i
    rw [Fin.sum_univ_one, hZ, Real.sqrt_sq_eq_abs]
    simp only [spXs]
    rw [abs_mul, abs_of_pos hm]
  unfold rowDistances
  simp only [hd]
  have hmed : med (fun i => |(![-1, 0, 1] : Fin 3 → ℝ) i| * (madConst : ℝ)) = madConst :=
    med3 _ _ 1 2 0 (by decide) (by decide) (by simp [hm.le]) (by simp) (by simp)
  rw [hmed, if_neg hm.ne']
  congr 1
  funext i
  fin_cases i <;> simp [hm.ne']

lemma sp_res : scaleRes (fun i => ![-2 / 3, 4 / 3, -2 / 3] i * (madConst : ℝ)) =
    .ok fun i => ![1, 2, 1] i / (14826 / 10000) := by
  have hm := madC_pos
  have ha : ∀ i, |(![-2 / 3, 4 / 3, -2 / 3] : Fin 3 → ℝ) i * madConst| = (![2 / 3, 4 / 3, 2 / 3] : Fin 3 → ℝ) i * madConst := by
    intro i
    rw [abs_mul, abs_of_pos hm]
    congr 1
    fin_cases i <;> simp [abs_div]
  have hnz : (Finset.univ.filter fun i : Fin 3 => (![-2 / 3, 4 / 3, -2 / 3] : Fin 3 → ℝ) i * madConst = 0) = ∅ := by
    apply Finset.filter_eq_empty_iff.mpr
    intro i _
    have : (![-2 / 3, 4 / 3, -2 / 3] : Fin 3 → ℝ) i ≠ 0 := by fin_cases i <;> norm_num
    exact mul_ne_zero this hm.ne'
  have hmed : med (fun k => |(![-2 / 3, 4 / 3, -2 / 3] : Fin 3 → ℝ) k * madConst|) = 2 / 3 * madConst := by
    simp only [ha]
    refine med3 _ _ 0 2 1 (by decide) (by decide) ?_ ?_ ?_
    · simp
    · simp
    · simp; linarith
  unfold scaleRes
  rw [hmed]
  simp only [ha]
  rw [if_pos]
  · congr 1
    funext i
    fin_cases i <;> simp <;> field_simp; norm_num
  · convert (by norm_num : ((0 : ℕ) : ℝ) < ((3 : ℕ) : ℝ) / 2)
    simp only [hnz]
    rfl

lemma sp_scaled : scaleMat spX (Centre.median.run spX) (ScaleOpt.mad.run spX) = spXs := by
  funext i j
  have hj : j = 0 := Subsingleton.elim _ _
  subst hj
  have h1 : Centre.median.run spX 0 = 0 := sp_medX
  have h2 : ScaleOpt.mad.run spX 0 = 1 / madConst := sp_madX
  unfold scaleMat
  rw [h1, h2, if_neg (by have := madC_pos; positivity)]
  simp only [spX, spXs, sub_zero]
  rw [div_div_eq_mul_div, div_one]

lemma sp_keep : keepVars (ScaleOpt.mad.run spX) = [0] := by
  have h2 : ScaleOpt.mad.run spX 0 = 1 / madConst := sp_madX
  have h3 : ¬ (1 / madConst : ℝ) < 1 / 100000 := by
    unfold madConst; norm_num
  unfold keepVars
  rw [show List.finRange 1 = [0] from rfl]
  simp [h2] at h3 ⊢
  exact h3

lemma sp_scores {l : List (SnComp 3 1)} {c : SnComp 3 1} (hl : l = [c]) (hc : ∀ i, c.t i = spXs i 0) (s : ScaleOpt)
    (hs : s = .mad) :
    rowDistances (scaleMat (fun i a => compT l i a / Real.sqrt 1)
      (Centre.median.run fun i a => compT l i a / Real.sqrt 1) (s.run fun i a => compT l i a / Real.sqrt 1)) =
      .ok ![1, 0, 1] := by
  subst hl hs
  have hm := madC_pos
  have hT : (fun i a => compT [c] i a / Real.sqrt 1) = fun i (_ : Fin [c].length) => spXs i 0 := by
    funext i a
    have : a = (0 : Fin 1) := Subsingleton.elim (α := Fin 1) _ _
    rw [Real.sqrt_one, div_one, this]
    exact hc i
  rw [hT]
  apply sp_dist_of _ rfl
  intro i a
  have hmed : med (fun i => spXs i 0) = 0 :=
    med3 _ 0 0 1 2 (by decide) (by decide) (by simp [spXs, hm.le]) (by simp [spXs]) (by simp [spXs, hm.le])
  have hmad : Direpack.mad (fun i => spXs i 0) = 1 := by
    rw [rm_mad_eq, hmed, med3 (fun i => |spXs i 0 - 0|) madConst 1 2 0 (by decide) (by decide) (by simp [spXs, hm.le])
      (by simp [spXs, abs_of_pos hm]) (by simp [spXs, abs_of_pos hm])]
    exact div_self hm.ne'
  show (spXs i 0 - med (fun i => spXs i 0)) / (if Direpack.mad (fun i => spXs i 0) = 0 then 1 else Direpack.mad (fun i => spXs i 0)) = _
  rw [hmed, hmad]; simp

/-- The example fit, whose weights for the scores are not all zero. -/
theorem spExFitR (ext : SprmExt) (hz : 27 / 20 ≤ ext.normPpf (95 / 100)) (copy : Bool) :
    ∃ f, (sprmFit ext (spPr copy) spX rmY).2 = .ok f ∧ ∃ j a, f.inner.R j a ≠ 0 := by
  have hm := madC_pos
  have hm1 : (madConst : ℝ) ≤ 27 / 40 := by unfold madConst; norm_num
  have hcy : ∀ v : Fin 3 → ℝ, (∀ i, v i ≤ 27 / 20) →
      WFun.huber.run v (cutY ext.toRm (95 / 100) (975 / 1000) (999 / 1000)) = fun _ => 1 := by
    intro v hv
    apply huber_ones
    · show 1 ≤ ext.normPpf (95 / 100); linarith
    · intro i
      show _ ≤ ext.normPpf (95 / 100)
      linarith [hv i]
  have hchk : sprmCheck (spPr copy) 3 1 = .ok () := by
    unfold sprmCheck checkProbs spPr; norm_num
  obtain ⟨g, c, hg, hgc, hct, hres⟩ := sp_snfit
  have hgR : ∃ j a, g.R j a ≠ 0 := by
    by_contra hcon
    push Not at hcon
    have hR : g.R = 0 := by ext j a; exact hcon j a
    have h1 := C47_one_component_partial hg rfl
    simp only [SnFit.transform, dif_pos trivial, hR, Matrix.mul_zero, Except.ok.injEq] at h1
    have hl : 0 < g.comps.length := by rw [hgc]; simp
    have h2 := congrFun (congrFun h1 2) ⟨0, hl⟩
    have h3 : compT g.comps 2 ⟨0, hl⟩ = c.t 2 := by
      simp only [compT, Matrix.of_apply]
      congr 1
      simp [hgc]
    rw [h3, hct 2] at h2
    simp [spXs] at h2
    exact hm.ne h2
  have hw1 : weightRows spXs (fun _ => 1) = spXs := by
    funext i j; simp [weightRows]
  have hstep : sprmStep ext (spPr copy) .mad (cutY ext.toRm (95 / 100) (975 / 1000) (999 / 1000)) spXs spYs (fun _ => 1) =
      .ok (g, ∑ j, g.coef j ^ 2, fun _ => 1, fun _ => 1) := by
    unfold sprmStep
    have hy1 : (fun i => spYs i * Real.sqrt 1) = spYs := by funext i; simp
    simp only [hw1, hy1, show (spPr copy).eta = 0 from rfl, show (spPr copy).nComponents.toNat = 1 from rfl, hg]
    simp only [hres, sp_res, show (spPr copy).centre = .median from rfl,
      show scoreScale .mad = .mad from rfl, sp_scores hgc hct .mad rfl,
      show (spPr copy).fn = .huber from rfl, show (spPr copy).probp1 = 95 / 100 from rfl,
      show (spPr copy).probp2 = 975 / 1000 from rfl, show (spPr copy).probp3 = 999 / 1000 from rfl]
    rw [hcy _ (by intro i; fin_cases i <;> norm_num)]
    simp only [reduceCtorEq, if_false]
    rw [hcy _ (by intro i; fin_cases i <;> norm_num)]
  have hclip : (clipW fun _ : Fin 3 => (1 : ℝ) * 1) = fun _ => 1 := by
    funext i
    have := wMin_le_one
    simp [clipW, not_lt.mpr this]
  have hloop : ∃ o, rwLoop (sprmStep ext (spPr copy) .mad (cutY ext.toRm (95 / 100) (975 / 1000) (999 / 1000)) spXs spYs)
      (1 / 100) 2 ((2 : ℤ).toNat + 1) 1 (1 / 100000) ((1 / 100 : ℝ) < 1) (fun _ => 1) none = some (.ok (some o)) ∧
      o.b = g := by
    have h1 : ¬ ((1 : ℝ) * 1 < wMin) := by have := wMin_le_one; linarith
    rw [show ((2 : ℤ).toNat + 1) = 3 from rfl]
    rw [rwLoop, if_pos (by norm_num), hstep]
    simp only [h1, if_false, Finset.filter_false, Finset.card_empty, Option.elim]
    rw [if_neg (by norm_num), rwLoop, if_neg (by norm_num)]
    exact ⟨_, rfl, rfl⟩
  obtain ⟨o, ho, hob⟩ := hloop
  rw [← hob] at hgR
  have hsy : startY .median .mad spYs rmY = .ok fun i => |spYs i| := by
    simp [startY, isMedianMad]
  have hwy : WFun.huber.run (fun i => |spYs i|) (cutY ext.toRm (95 / 100) (975 / 1000) (999 / 1000)) = fun _ => 1 := by
    apply hcy
    intro i
    simp only [spYs]
    rw [abs_mul, abs_of_pos hm]
    fin_cases i <;> simp <;> linarith
  have hwx : WFun.huber.run ![1, 0, 1] (cutY ext.toRm (95 / 100) (975 / 1000) (999 / 1000)) = fun _ => 1 :=
    hcy _ (by intro i; fin_cases i <;> norm_num)
  have hys : (fun i => scaleMat (asCol rmY) (Centre.median.run (asCol rmY)) (ScaleOpt.mad.run (asCol rmY)) i 0) = spYs := rmYs
  unfold sprmFit
  rw [hchk]
  dsimp only
  have hsr : ((spPr copy).scale.resolve spX).opt = .mad := rfl
  generalize ((spPr copy).scale.resolve spX).opt = sr at hsr ⊢
  subst hsr
  have hce : (spPr copy).centre = .median := rfl
  generalize (spPr copy).centre = ce at hce ⊢
  subst hce
  rw [hys]
  generalize hk : keepVars (ScaleOpt.mad.run spX) = kp
  rw [sp_keep] at hk
  subst hk
  rw [sp_scaled]
  have hsel : selCols spXs [0] = spXs := by
    funext i a
    have : a = (0 : Fin 1) := Subsingleton.elim (α := Fin 1) _ _
    rw [this]; rfl
  have hsx : sprmStartX ext (spPr copy) .mad (selCols spXs [0]) = .ok (none, ![1, 0, 1]) := by
    unfold sprmStartX
    simp only [show (spPr copy).pcapp = false from rfl, Bool.false_eq_true, if_false]
    rw [sp_dist_of _ rfl (fun i a => by
      have : a = (0 : Fin 1) := Subsingleton.elim (α := Fin 1) _ _
      rw [this]; rfl)]
  have hsc : sprmStartCut ext (spPr copy) none = .ok (cutY ext.toRm (95 / 100) (975 / 1000) (999 / 1000)) := rfl
  rw [if_neg (by simp [spPr])]
  simp only [hsx, hsy, hsc, show (spPr copy).fn = .huber from rfl, show (spPr copy).probp1 = 95 / 100 from rfl,
      show (spPr copy).probp2 = 975 / 1000 from rfl, show (spPr copy).probp3 = 999 / 1000 from rfl,
      show (spPr copy).maxit = 2 from rfl, show (spPr copy).tol = 1 / 100 from rfl, hwx, hwy, hclip]
  have ho' : rwLoop (sprmStep ext (spPr copy) .mad (cutY ext.toRm (95 / 100) (975 / 1000) (999 / 1000)) (selCols spXs [0]) spYs)
      (1 / 100) 2 ((2 : ℤ).toNat + 1) 1 (1 / 100000) ((1 / 100 : ℝ) < 1) (fun _ => 1) none = some (.ok (some o)) := by
    exact ho
  rw [ho']
  exact ⟨_, rfl, hgR⟩

/-- The example fit. -/
theorem spExFit (ext : SprmExt) (hz : 27 / 20 ≤ ext.normPpf (95 / 100)) (copy : Bool) :
    ∃ f, (sprmFit ext (spPr copy) spX rmY).2 = .ok f :=
  (spExFitR ext hz copy).imp fun _ h => h.1

/-- Non-vacuity: the theorems about SPRM apply to a fit (for either value of `copy`). -/
example (copy : Bool) : ∃ f, (sprmFit spExt0 (spPr copy) spX rmY).2 = .ok f :=
  spExFit spExt0 (by simp only [spExt0, rmExt0]; norm_num) copy

example (i : Fin 3) : ∃ f, (sprmFit spExt0 (spPr true) spX rmY).2 = .ok f ∧ f.predict spX = .ok f.fitted ∧
    f.transform spX = .ok f.scores ∧ f.fits = 1 ∧
    (f.caseweights i = 0 ∨ (1 / 1000000 ≤ f.caseweights i ∧ f.caseweights i ≤ 1)) := by
  obtain ⟨f, hf⟩ := spExFit spExt0 (by simp only [spExt0, rmExt0]; norm_num) true
  have h2 := C50_sprm_fits _ _ _ _ _ hf
  exact ⟨f, hf, (C49_sprm_predict_partial _ _ _ _ _ hf rfl).1, C79_transform_train _ _ _ _ _ hf rfl, by
    have := h2.2.1
    simp only [spPr] at this
    have := h2.1
    omega,
    (C48_sprm_weights _ rmExt0_quantiles _ (by norm_num [spPr]) (by norm_num [spPr]) (by simp [spPr]) _ _ _ hf i).1⟩

end Direpack
