import Verif.Props.Rotate3
import Verif.Props.Clean
import Verif.Props.RMTotal
import Verif.Props.RMEquiv

/-! Property C166, continued: where the choice of the axes matters (column-wise median, sparsity), and data that meet the hypotheses of the theorems. -/

namespace Direpack

open scoped BigOperators
open Spec

/-- A reflection of the plane with rational entries. -/
noncomputable def rotQ : Fin 2 → Fin 2 → ℝ := ![![3 / 5, 4 / 5], ![4 / 5, -(3 / 5)]]

lemma rotQ_orthogonal : Orthogonal rotQ := by
  intro j k
  fin_cases j <;> fin_cases k <;> simp [rotQ, Fin.sum_univ_two] <;> norm_num

/-- C166 (violated for the median): the column-wise median of three points is not the rotated median. -/
theorem C166_median_violated : ∃ (Q : Fin 2 → Fin 2 → ℝ) (X : Fin 3 → Fin 2 → ℝ), Orthogonal Q ∧ Centre.median.run (rotMat Q X) ≠ rotVec Q (Centre.median.run X) := by
  refine ⟨rotQ, ![![0, 0], ![1, 0], ![0, 1]], rotQ_orthogonal, fun h => ?_⟩
  have h0 := congrFun h 0
  have e : ∀ j, Centre.median.run (![![0, 0], ![1, 0], ![0, 1]] : Fin 3 → Fin 2 → ℝ) j = 0 := by
    intro j
    show med _ = 0
    fin_cases j
    · exact med3 _ 0 0 2 1 (by decide) (by decide) (by simp) (by simp) (by simp)
    · exact med3 _ 0 0 1 2 (by decide) (by decide) (by simp) (by simp) (by simp)
  have e' : Centre.median.run (rotMat rotQ (![![0, 0], ![1, 0], ![0, 1]] : Fin 3 → Fin 2 → ℝ)) 0 = 3 / 5 := by
    show med _ = 3 / 5
    refine med3 _ (3 / 5) 0 1 2 (by decide) (by decide) ?_ ?_ ?_ <;> simp [rotMat, rotVec, rotQ, Fin.sum_univ_two] <;> norm_num
  rw [e'] at h0
  simp [rotVec, e] at h0

/-! ### Sparsity depends on the axes -/

/-- Two cases whose predictors are the unit vectors. -/
def rotSnX : Fin 2 → Fin 2 → ℝ := ![![1, 0], ![0, 1]]

/-- The response, which is the first predictor. -/
def rotSnY : Fin 2 → ℝ := ![1, 0]

/-- One component, no centring or scaling, `eta = 4/5`. -/
noncomputable def rotSnPr : SnParams := ⟨4 / 5, 1, .noneOpt, .noneOpt⟩

lemma rotSn_X' : rotMat rotQ rotSnX = rotQ := by
  funext i l
  fin_cases i <;> fin_cases l <;> simp [rotMat, rotVec, rotSnX, rotQ, Fin.sum_univ_two]

lemma rotSn_weights : snWeights (4 / 5) rotSnX rotSnY = (![1 / 5, -(4 / 5)], ![1 / 5, 0]) := by
  have hs : ∀ j, ∑ i, rotSnX i j * rotSnY i = ![1, 0] j := by
    intro j; fin_cases j <;> simp [rotSnX, rotSnY, Fin.sum_univ_two]
  have hn : Real.sqrt (∑ j : Fin 2, (![1, 0] j : ℝ) ^ 2) = 1 := by
    rw [Fin.sum_univ_two]; simp
  have hm : maxAbs (fun j => (![1, 0] j : ℝ) / 1) = 1 := by
    rw [maxAbs_two]; simp
  simp only [snWeights, hs, hn, hm]
  refine Prod.ext ?_ ?_ <;> funext j <;> fin_cases j <;> norm_num [npSign]

lemma rotSn_weights' : snWeights (4 / 5) rotQ rotSnY = (![-(1 / 25), 4 / 25], ![-(1 / 25), 4 / 25]) := by
  have hs : ∀ j, ∑ i, rotQ i j * rotSnY i = ![3 / 5, 4 / 5] j := by
    intro j; fin_cases j <;> simp [rotQ, rotSnY, Fin.sum_univ_two]
  have hn : Real.sqrt (∑ j : Fin 2, (![3 / 5, 4 / 5] j : ℝ) ^ 2) = 1 := by
    rw [Fin.sum_univ_two, show ((![3 / 5, 4 / 5] : Fin 2 → ℝ) 0) ^ 2 + (![3 / 5, 4 / 5] : Fin 2 → ℝ) 1 ^ 2 = 1 ^ 2 by
      simp; norm_num]
    exact Real.sqrt_sq (by norm_num)
  have hm : maxAbs (fun j => (![3 / 5, 4 / 5] j : ℝ) / 1) = 4 / 5 := by
    rw [maxAbs_two]
    norm_num [abs_of_pos, max_eq_left, max_eq_right]
  simp only [snWeights, hs, hn, hm]
  refine Prod.ext ?_ ?_ <;> funext j <;> fin_cases j <;> norm_num [npSign, abs_of_pos]

lemma rotSn_fit : ∃ f, snFit rotSnPr rotSnX rotSnY = .ok f ∧ ∃ c : SnComp 2 2, f.comps = [c] ∧ c.t = ![1 / 5, 0] := by
  have h1 := snLoop_step (eta := 4 / 5) (h := 0) (X := rotSnX) (y := rotSnY) (old := ∅)
    (good := {0}) (w := ![1 / 5, 0]) (t := ![1 / 5, 0]) (q := 1 / 25) (c := 5) (l := [])
    (by intro h; have := h 0; simp [rotSnX, rotSnY, Fin.sum_univ_two] at this) rotSn_weights
    (by ext j; fin_cases j <;> simp <;> norm_num) (by simp)
    (by funext j; fin_cases j <;> simp)
    (by funext i; fin_cases i <;> simp [rotSnX, Fin.sum_univ_two])
    (by simp [Fin.sum_univ_two]; norm_num) (by norm_num) (by simp [rotSnY, Fin.sum_univ_two]; norm_num)
    rfl rfl rfl rfl
  have e1 : stdMat rotSnX (rotSnPr.centre.run rotSnX) (rotSnPr.scale.run rotSnX) = rotSnX := by
    funext i j; simp [stdMat, std1, rotSnPr, Centre.run, ScaleOpt.run]
  have e2 : stdVec rotSnY (rotSnPr.centre.run (asCol rotSnY) 0) (rotSnPr.scale.run (asCol rotSnY) 0) = rotSnY := by
    funext i; simp [stdVec, std1, rotSnPr, Centre.run, ScaleOpt.run]
  obtain ⟨f, hf, hc⟩ := snFit_of_loop rotSnPr rotSnX rotSnY (by norm_num [rotSnPr]) (by norm_num [rotSnPr]) (by simp [rotSnPr])
    (fun j => by simp [rotSnPr, ScaleOpt.run]) _ (by rw [e1, e2]; exact h1)
  exact ⟨f, hf, _, hc, rfl⟩

lemma rotSn_fit' : ∃ f, snFit rotSnPr rotQ rotSnY = .ok f ∧ ∃ c : SnComp 2 2, f.comps = [c] ∧ c.t = ![16 / 125, -(12 / 125)] := by
  have h1 := snLoop_step (eta := 4 / 5) (h := 0) (X := rotQ) (y := rotSnY) (old := ∅)
    (good := {1}) (w := ![0, 4 / 25]) (t := ![16 / 125, -(12 / 125)]) (q := 16 / 625) (c := 5) (l := [])
    (by intro h; have := h 0; simp [rotQ, rotSnY, Fin.sum_univ_two] at this) rotSn_weights'
    (by ext j; fin_cases j <;> simp) (by simp)
    (by funext j; fin_cases j <;> simp)
    (by funext i; fin_cases i <;> simp [rotQ, Fin.sum_univ_two] <;> norm_num)
    (by simp [Fin.sum_univ_two]; norm_num) (by norm_num) (by simp [rotSnY, Fin.sum_univ_two]; norm_num)
    rfl rfl rfl rfl
  have e1 : stdMat rotQ (rotSnPr.centre.run rotQ) (rotSnPr.scale.run rotQ) = rotQ := by
    funext i j; simp [stdMat, std1, rotSnPr, Centre.run, ScaleOpt.run]
  have e2 : stdVec rotSnY (rotSnPr.centre.run (asCol rotSnY) 0) (rotSnPr.scale.run (asCol rotSnY) 0) = rotSnY := by
    funext i; simp [stdVec, std1, rotSnPr, Centre.run, ScaleOpt.run]
  obtain ⟨f, hf, hc⟩ := snFit_of_loop rotSnPr rotQ rotSnY (by norm_num [rotSnPr]) (by norm_num [rotSnPr]) (by simp [rotSnPr])
    (fun j => by simp [rotSnPr, ScaleOpt.run]) _ (by rw [e1, e2]; exact h1)
  exact ⟨f, hf, _, hc, rfl⟩

/-- With one component and no centring the fitted values are the projection of the response on the scores. -/
lemma one_comp_fitted {X : Fin 2 → Fin 2 → ℝ} {f : SnFit 2 2} (h : snFit rotSnPr X rotSnY = .ok f) {c : SnComp 2 2} (hc : f.comps = [c]) :
    ∃ q, (∀ i, f.fitted i = c.t i * q) ∧ ∑ i, (rotSnY i - f.fitted i) * c.t i = 0 := by
  have e4 := (snFit_inv h).2.2.2.2.1
  have e3 := (snFit_inv h).2.2.2.1
  have hr := (snFit_inv h).2.2.2.2.2.2.2.2.2.2.2
  obtain ⟨h1, q, h2⟩ := C45_residuals (by norm_num) h (.inr rfl) (by rw [e4]; simp [rotSnPr, ScaleOpt.run])
  have e3' : f.yLoc = 0 := by rw [e3]; simp [rotSnPr, Centre.run]
  have hl : f.comps.length = 1 := by rw [hc]; rfl
  have hT : ∀ i a, compT f.comps i a = c.t i := by
    intro i a
    have : f.comps.get a ∈ f.comps := List.get_mem _ _
    have h3 : f.comps.get a = c := by
      generalize f.comps.get a = d at this
      rw [hc] at this
      simpa using this
    show (f.comps.get a).t i = c.t i
    rw [h3]
  refine ⟨∑ a, q a, fun i => ?_, ?_⟩
  · rw [h2, e3', zero_add, Finset.mul_sum]
    exact Finset.sum_congr rfl fun a _ => by rw [hT]
  · have := h1 ⟨0, by omega⟩
    simp only [dot, hT] at this
    rw [← this]
    exact Finset.sum_congr rfl fun i _ => by rw [hr]

/-- C166 (violated with sparsity): with `eta = 4/5` SNIPLS fits another model after a rotation of the axes, with other fitted values. -/
theorem C166_sparse_violated : ∃ (Q X : Fin 2 → Fin 2 → ℝ) (y : Fin 2 → ℝ) (f f' : SnFit 2 2), Orthogonal Q ∧ snFit ⟨4 / 5, 1, .noneOpt, .noneOpt⟩ X y = .ok f ∧
    snFit ⟨4 / 5, 1, .noneOpt, .noneOpt⟩ (rotMat Q X) y = .ok f' ∧ f'.fitted ≠ f.fitted ∧ f'.coef ≠ rotVec Q f.coef := by
  obtain ⟨f, hf, c, hc, ht⟩ := rotSn_fit
  obtain ⟨f', hf', c', hc', ht'⟩ := rotSn_fit'
  obtain ⟨q, h1, h2⟩ := one_comp_fitted hf hc
  obtain ⟨q', h1', h2'⟩ := one_comp_fitted hf' hc'
  have hne : f'.fitted ≠ f.fitted := by
    intro h
    simp only [h1] at h2
    simp only [h1'] at h2'
    have h0 := congrFun h 0
    rw [h1, h1'] at h0
    simp [ht, ht', rotSnY, Fin.sum_univ_two] at h0 h2 h2'
    linarith
  refine ⟨rotQ, rotSnX, rotSnY, f, f', rotQ_orthogonal, hf, by rw [rotSn_X']; exact hf', hne, fun hco => hne ?_⟩
  obtain ⟨-, -, -, -, -, -, -, -, -, a1, a2, -⟩ := snFit_inv hf
  obtain ⟨-, -, -, -, -, -, -, -, -, b1, b2, -⟩ := snFit_inv hf'
  funext i
  have hl : lin rotQ (rotVec rotQ f.coef) i = lin (rotMat rotQ rotSnX) (rotVec rotQ f.coef) i := by rw [rotSn_X']
  rw [a2, b2, a1, b1, hco, hl]
  exact congrArg (· + (0 : ℝ)) (rotQ_orthogonal.lin rotSnX f.coef i)

/-! ### Data that meet the hypotheses -/

/-- Non-vacuity of `C166_signs`: signs around the mean in the axes of `rotQ`. -/
example (X : Fin 3 → Fin 2 → ℝ) (f : Radial) : gssFitTransform Centre.mean.run f (rotMat rotQ X) = (gssFitTransform Centre.mean.run f X).map (rotMat rotQ) :=
  (C166_signs rotQ_orthogonal _ f X (C166_mean rotQ X)).1

/-- Non-vacuity of `C166_snipls`: a model of the same data exists without sparsity, with the mean as centre. -/
example : ∃ f f', snFit ⟨0, 1, .mean, .noneOpt⟩ snX snY = .ok f ∧ snFit ⟨0, 1, .mean, .noneOpt⟩ (rotMat rotQ snX) snY = .ok f' ∧ f'.coef = rotVec rotQ f.coef ∧
    f'.fitted = f.fitted := by
  obtain ⟨f, hf⟩ := C44_one_component_total ⟨0, 1, .mean, .noneOpt⟩ snX snY le_rfl zero_lt_one rfl (fun j => one_ne_zero)
  obtain ⟨f', h1, -, h2, -, h3, -⟩ := (C166_snipls rotQ_orthogonal rfl rfl snX snY (C166_mean rotQ snX)).2 f hf
  exact ⟨f, f', hf, h1, h2, h3⟩

/-- Five cases in the plane with mean zero. -/
def rotRmX : Fin 5 → Fin 2 → ℝ := ![![1, 0], ![-1, 0], ![0, 1], ![0, -1], ![0, 0]]

/-- Responses of the five cases. -/
def rotRmY : Fin 5 → ℝ := ![1, 2, 3, 4, 5]

/-- There is a model for the five cases. -/
theorem rotRm_model : ∃ f, rmFit rmExt1 ⟨.huber, 95 / 100, 975 / 1000, 999 / 1000, .mean, .noneOpt, false, 2, 1 / 100, true⟩ rotRmX rotRmY = .ok f := by
  have hmx : ∀ j, Centre.mean.run rotRmX j = 0 := fun j => by
    show mean _ = 0
    rw [mean_eq_sum]; fin_cases j <;> simp [Fin.sum_univ_succ, rotRmX]
  have hmy : Centre.mean.run (asCol rotRmY) 0 = 3 := by
    show mean _ = 3
    rw [mean_eq_sum]; simp [Fin.sum_univ_succ, rotRmY, asCol]; norm_num
  have hmed : med rotRmY = 3 :=
    med_pinned rotRmY 3 {0, 1, 2} {2, 3, 4} (by decide) (by decide) (by intro i hi; fin_cases i <;> simp_all [rotRmY] <;> norm_num) (by intro i hi; fin_cases i <;> simp_all [rotRmY] <;> norm_num)
  obtain ⟨f, hf⟩ := (C145_rm_model_iff rmExt1 rmExt1_ls ⟨.huber, 95 / 100, 975 / 1000, 999 / 1000, .mean, .noneOpt, false, 2, 1 / 100, true⟩ rotRmX rotRmY).mpr
    ⟨⟨by norm_num, by norm_num, fun _ => rfl⟩, ⟨fun j => one_ne_zero, by
      simp only [hmx, ScaleOpt.run, sub_zero, div_one]
      rw [med_pinned _ 1 Finset.univ {0, 1, 2, 3} (by decide) (by decide)]
      · exact one_ne_zero
      · intro i _; fin_cases i <;> simp [Fin.sum_univ_two, rotRmX]
      · intro i hi; fin_cases i <;> simp_all [Fin.sum_univ_two, rotRmX], .inr (by
      rw [hmed, med_pinned _ 1 {1, 2, 3} {0, 1, 3, 4} (by decide) (by decide)]
      · exact one_ne_zero
      · intro i hi; fin_cases i <;> simp_all [rotRmY] <;> norm_num
      · intro i hi; fin_cases i <;> simp_all [rotRmY] <;> norm_num), by
      rintro ⟨β, hβ⟩
      have h0 := hβ 4
      simp only [hmy, hmx, Fin.sum_univ_two] at h0
      simp [rotRmX, rotRmY] at h0
      norm_num at h0⟩⟩
  exact ⟨f, hf⟩

/-- Non-vacuity of `C166_rm`. -/
example : ∃ f, rmFit rmExt1 ⟨.huber, 95 / 100, 975 / 1000, 999 / 1000, .mean, .noneOpt, false, 2, 1 / 100, true⟩ rotRmX rotRmY = .ok f ∧
    rmFit rmExt1 ⟨.huber, 95 / 100, 975 / 1000, 999 / 1000, .mean, .noneOpt, false, 2, 1 / 100, true⟩ (rotMat rotQ rotRmX) rotRmY = .ok (f.rot rotQ) := by
  obtain ⟨f, hf⟩ := rotRm_model
  refine ⟨f, hf, ?_⟩
  rw [C166_rm rotQ_orthogonal rfl rmExt1_min _ _ (C166_mean _ _), hf]
  rfl

/-- Non-vacuity of `C166_sprm`: reflected data of the example in `Props/Clean.lean`. -/
example : ∃ f f', (sprmFit spExt0 ⟨1, 0, .huber, 95 / 100, 975 / 1000, 999 / 1000, .mean, .plain .noneOpt, 2, 1 / 100, false, false, true⟩ spXs spYs).2 = .ok f ∧
    (sprmFit spExt0 ⟨1, 0, .huber, 95 / 100, 975 / 1000, 999 / 1000, .mean, .plain .noneOpt, 2, 1 / 100, false, false, true⟩ (rotMat ![![-1]] spXs) spYs).2 = .ok f' ∧
    SprmRotated ![![-1]] f f' := by
  obtain ⟨f, -, hf, -⟩ := cl_sprm_example
  have hQ : Orthogonal (![![-1]] : Fin 1 → Fin 1 → ℝ) := by
    intro j k; simp [Subsingleton.elim j 0, Subsingleton.elim k 0]
  rcases C166_sprm hQ (ext := spExt0) (pr := ⟨1, 0, .huber, 95 / 100, 975 / 1000, 999 / 1000, .mean, .plain .noneOpt, 2, 1 / 100, false, false, true⟩) rfl rfl rfl spXs spYs
    (C166_mean _ _) with ⟨e, he, -⟩ | h
  · rw [hf] at he; cases he
  · exact h

end Direpack
