import Mathlib.Tactic.Linarith
import Mathlib.Tactic.FieldSimp
import Mathlib.Tactic.Ring
import Verif.Props.Krylov
import Verif.Props.FullRank
import Verif.Props.Clean
import Verif.Props.Rotate4

/-! Property C172: adding a known linear function of the predictors to the response adds it to the fit. -/

set_option linter.unusedSectionVars false

namespace Direpack

open scoped BigOperators
open Matrix Spec

variable {n p : ℕ}

/-- The response `y` with the linear function `a + ∑ j, x j * γ j` of the predictors added. -/
def Spec.addLinear (X : Fin n → Fin p → ℝ) (a : ℝ) (γ : Fin p → ℝ) (y : Fin n → ℝ) : Fin n → ℝ := fun i => y i + (a + ∑ j, X i j * γ j)

/-- The fit and the residuals of the response with a linear function added are what they should be: the fit has the function added and the residuals are the same. -/
def Spec.RegressionEquivariant (X : Fin n → Fin p → ℝ) (a : ℝ) (γ : Fin p → ℝ) (fit res fit' res' : Fin n → ℝ) : Prop :=
  (∀ i, fit' i = fit i + (a + ∑ j, X i j * γ j)) ∧ ∀ i, res' i = res i

/-- Two linear functions of the predictors that fit the response best have the same values. -/
lemma best_fit_unique {X : Fin n → Fin p → ℝ} {y : Fin n → ℝ} {a b : ℝ} {c d : Fin p → ℝ}
    (hc : ∀ a' c', ∑ i, (y i - (a + lin X c i)) ^ 2 ≤ ∑ i, (y i - (a' + lin X c' i)) ^ 2)
    (hd : ∀ a' c', ∑ i, (y i - (b + lin X d i)) ^ 2 ≤ ∑ i, (y i - (a' + lin X c' i)) ^ 2) (i : Fin n) : a + lin X c i = b + lin X d i := by
  have h1 := hc ((a + b) / 2) (fun j => (c j + d j) / 2)
  have h2 := hd ((a + b) / 2) (fun j => (c j + d j) / 2)
  have e : ∀ i, lin X (fun j => (c j + d j) / 2) i = (lin X c i + lin X d i) / 2 := fun i => by
    simp only [lin]
    rw [← Finset.sum_add_distrib, Finset.sum_div]
    exact Finset.sum_congr rfl fun j _ => by ring
  have h3 : ∑ i, ((a + lin X c i) - (b + lin X d i)) ^ 2 ≤ 0 := by
    have : ∑ i, ((a + lin X c i) - (b + lin X d i)) ^ 2 = 2 * ∑ i, (y i - (a + lin X c i)) ^ 2 + 2 * ∑ i, (y i - (b + lin X d i)) ^ 2 -
        4 * ∑ i, (y i - ((a + b) / 2 + lin X (fun j => (c j + d j) / 2) i)) ^ 2 := by
      rw [Finset.mul_sum, Finset.mul_sum, Finset.mul_sum, ← Finset.sum_add_distrib, ← Finset.sum_sub_distrib]
      exact Finset.sum_congr rfl fun i _ => by rw [e i]; ring
    linarith
  have h4 := (Finset.sum_eq_zero_iff_of_nonneg fun i _ => sq_nonneg _).mp (le_antisymm h3 (Finset.sum_nonneg fun i _ => sq_nonneg _)) i (Finset.mem_univ i)
  have := pow_eq_zero_iff (two_ne_zero) |>.mp h4
  linarith

/-- A method that fits best is regression equivariant. -/
lemma best_fit_equiv {X : Fin n → Fin p → ℝ} {y : Fin n → ℝ} {a b b' : ℝ} {γ c c' : Fin p → ℝ}
    (hc : ∀ e d, ∑ i, (y i - (b + lin X c i)) ^ 2 ≤ ∑ i, (y i - (e + lin X d i)) ^ 2)
    (hc' : ∀ e d, ∑ i, (addLinear X a γ y i - (b' + lin X c' i)) ^ 2 ≤ ∑ i, (addLinear X a γ y i - (e + lin X d i)) ^ 2) (i : Fin n) :
    b' + lin X c' i = b + lin X c i + (a + ∑ j, X i j * γ j) := by
  have e : ∀ (d : Fin p → ℝ) i, lin X (fun j => d j + γ j) i = lin X d i + ∑ j, X i j * γ j := fun d i => by
    simp only [lin]
    rw [← Finset.sum_add_distrib]
    exact Finset.sum_congr rfl fun j _ => by ring
  have e' : ∀ (d : Fin p → ℝ) i, lin X (fun j => d j - γ j) i = lin X d i - ∑ j, X i j * γ j := fun d i => by
    simp only [lin]
    rw [← Finset.sum_sub_distrib]
    exact Finset.sum_congr rfl fun j _ => by ring
  have h := best_fit_unique (a := b') (b := b + a) (c := c') (d := fun j => c j + γ j) hc' (fun f d => by
    have := hc (f - a) (fun j => d j - γ j)
    convert this using 2
    · rw [e]; simp only [addLinear]; ring
    · rw [e']; simp only [addLinear]; ring) i
  rw [h, e]
  ring

/-- **C172 (partial).** SNIPLS with mean centring and as many components as the rank of the predictors: adding a linear function of the predictors and a constant to the
response adds it to the fitted values and leaves the residuals as they were. (Missing: fewer components.) -/
theorem C172_snipls_partial {pr : SnParams} {X : Fin n → Fin p → ℝ} {y : Fin n → ℝ} {a : ℝ} {γ : Fin p → ℝ} {f f' : SnFit n p} (h : snFit pr X y = .ok f)
    (h' : snFit pr X (addLinear X a γ y) = .ok f') (hn : 0 < n) (hm : pr.centre = .mean) (hsy : f.ySca ≠ 0) (hsy' : f'.ySca ≠ 0)
    (hr : (Matrix.of (stdMat X f.xLoc f.xSca)).rank ≤ pr.nComponents) :
    RegressionEquivariant X a γ f.fitted f.residuals f'.fitted f'.residuals := by
  obtain ⟨-, e1, e2, -, -, -, -, -, -, -, hfit, hres⟩ := snFit_inv h
  obtain ⟨-, e1', e2', -, -, -, -, -, -, -, hfit', hres'⟩ := snFit_inv h'
  have h1 := C152_ols h hn hm hsy hr
  have h2 := C152_ols h' hn hm hsy' (by rw [e1', e2', ← e1, ← e2]; exact hr)
  have key : ∀ i, f'.fitted i = f.fitted i + (a + ∑ j, X i j * γ j) := fun i => by
    have := best_fit_equiv (X := X) (y := y) (a := a) (b := f.intercept) (b' := f'.intercept) (γ := γ) (c := f.coef) (c' := f'.coef)
      (fun e d => by simpa only [hfit, add_comm] using h1 e d) (fun e d => by simpa only [hfit', add_comm] using h2 e d) i
    rw [hfit, hfit']
    linarith
  refine ⟨key, fun i => ?_⟩
  rw [hres, hres', key]
  simp only [addLinear]
  ring

/-- The data have no outliers for robust M regression: the conditions of C151. -/
def Spec.RmClean (ext : RmExt) (pr : RmParams) (X : Fin n → Fin p → ℝ) (y : Fin n → ℝ) (f : RmFit n p) : Prop :=
  TypicalSizes (cutX ext pr.specific p pr.probp1 pr.probp2 pr.probp3).1 (rowLengths (stdMat X f.xLoc f.xSca)) ∧
  (TypicalValues (ext.normPpf pr.probp1) fun i => y i - med y) ∧
  (TypicalValues (ext.normPpf pr.probp1) fun i => stdVec y f.yLoc f.ySca i - lin (stdMat X f.xLoc f.xSca) (ext.lstsq (stdMat X f.xLoc f.xSca) (stdVec y f.yLoc f.ySca)) i) ∧
  2 * (Finset.univ.filter fun i => stdVec y f.yLoc f.ySca i - lin (stdMat X f.xLoc f.xSca) (ext.lstsq (stdMat X f.xLoc f.xSca) (stdVec y f.yLoc f.ySca)) i = 0).card < n

/-- **C172 (partial).** Robust M regression with mean centring, when neither the response nor the response with the linear function added has outliers.
(Missing: data with outliers, for which the claim is false.) -/
theorem C172_rm_partial {ext : RmExt} (hls : ∀ {n p : ℕ} (X : Fin n → Fin p → ℝ) (y : Fin n → ℝ), IsLeastSquares X y (ext.lstsq X y)) {pr : RmParams} {X : Fin n → Fin p → ℝ}
    {y : Fin n → ℝ} {a : ℝ} {γ : Fin p → ℝ} {f f' : RmFit n p} (h : rmFit ext pr X y = .ok f) (h' : rmFit ext pr X (addLinear X a γ y) = .ok f') (hn : 0 < n)
    (hm : pr.centre = .mean) (hsy : f.ySca ≠ 0) (hsy' : f'.ySca ≠ 0) (hfn : pr.fn ≠ .fair)
    (hcy : UsualCutoffs (cutY ext pr.probp1 pr.probp2 pr.probp3)) (hcx : UsualCutoffs (cutX ext pr.specific p pr.probp1 pr.probp2 pr.probp3))
    (hcl : RmClean ext pr X y f) (hcl' : RmClean ext pr X (addLinear X a γ y) f') :
    RegressionEquivariant X a γ f.fitted f.residuals f'.fitted f'.residuals := by
  obtain ⟨k1, k2, k3, k4⟩ := hcl
  obtain ⟨k1', k2', k3', k4'⟩ := hcl'
  have h1 := C151_rm_ols hls h hn hm hsy hfn hcy hcx k1 k2 _ rfl k3 k4
  have h2 := C151_rm_ols hls h' hn hm hsy' hfn hcy hcx k1' k2' _ rfl k3' k4'
  obtain ⟨-, -, -, -, -, -, _, _, _, -, -, -, -, -, hfit, -, -, -, -, -, -, hres⟩ := rmFit_inv h
  obtain ⟨-, -, -, -, -, -, _, _, _, -, -, -, -, -, hfit', -, -, -, -, -, -, hres'⟩ := rmFit_inv h'
  have key : ∀ i, f'.fitted i = f.fitted i + (a + ∑ j, X i j * γ j) := fun i => by
    have := best_fit_equiv (X := X) (y := y) (a := a) (b := rmIntercept pr.centre (fun i => y i - lin X f.coef i))
      (b' := rmIntercept pr.centre (fun i => addLinear X a γ y i - lin X f'.coef i)) (γ := γ) (c := f.coef) (c' := f'.coef)
      (fun e d => by simpa only [hfit, add_comm] using h1 e d) (fun e d => by simpa only [hfit', add_comm] using h2 e d) i
    rw [hfit, hfit']
    linarith
  refine ⟨key, fun i => ?_⟩
  rw [hres, hres', key]
  simp only [addLinear]
  ring

/-! ### Where it fails -/

/-- Two orthogonal centred predictors, of different lengths. -/
def rgX : Fin 3 → Fin 2 → ℝ := ![![1, 1], ![-1, 1], ![0, -2]]

/-- The response: the first predictor. -/
def rgY : Fin 3 → ℝ := ![1, -1, 0]

lemma rg_space (v : Fin 3 → ℝ) (β : Fin 2 → ℝ) : β ∈ krylov rgX v 1 ↔ ∃ s : ℝ, ∀ j, β j = s * ∑ i, rgX i j * v i := by
  have : {u | ∃ m, m < 1 ∧ u = (crossProd rgX ^ m) *ᵥ crossVec rgX v} = {crossVec rgX v} := by
    ext u
    constructor
    · rintro ⟨m, hm, rfl⟩
      obtain rfl : m = 0 := by omega
      simp
    · rintro rfl
      exact ⟨0, by omega, by simp⟩
  unfold Spec.krylov
  rw [this, Submodule.mem_span_singleton]
  exact ⟨fun ⟨s, h⟩ => ⟨s, fun j => by rw [← h]; simp [crossVec]⟩, fun ⟨s, h⟩ => ⟨s, by funext j; rw [h]; simp [crossVec]⟩⟩

lemma rg_std (y : Fin 3 → ℝ) (hy : y 0 + y 1 + y 2 = 0) : Centre.mean.run rgX = (fun _ => 0) ∧ Centre.mean.run (asCol y) 0 = 0 ∧
    stdMat rgX (fun _ => 0) (fun _ => 1) = rgX ∧ stdVec y 0 1 = y := by
  refine ⟨?_, ?_, ?_, ?_⟩
  · funext j
    show mean _ = 0
    rw [mean_eq_sum]
    fin_cases j <;> simp [Fin.sum_univ_succ, rgX]
    norm_num
  · show mean _ = 0
    rw [mean_eq_sum]
    simp [asCol, Fin.sum_univ_three, hy]
  · funext i j; simp [stdMat, std1]
  · funext i; simp [stdVec, std1]

/-- One component of a centred response: the fit is a multiple of the predictors' covariances with the response, and the best one. -/
lemma rg_fit {y : Fin 3 → ℝ} (hy : y 0 + y 1 + y 2 = 0) (hc : ∑ i, rgX i 0 * y i ≠ 0) {f : SnFit 3 2} (h : snFit ⟨0, 1, .mean, .noneOpt⟩ rgX y = .ok f) :
    (∃ s : ℝ, ∀ i, f.fitted i = s * (rgX i 0 * (∑ k, rgX k 0 * y k) + rgX i 1 * (∑ k, rgX k 1 * y k))) ∧
      ∀ s : ℝ, ∑ i, (y i - f.fitted i) ^ 2 ≤ ∑ i, (y i - s * (rgX i 0 * (∑ k, rgX k 0 * y k) + rgX i 1 * (∑ k, rgX k 1 * y k))) ^ 2 := by
  obtain ⟨h1, h2, h3, h4⟩ := rg_std y hy
  have hfit := fun i => C46_original_scale (by norm_num) h (.inl rfl) i
  obtain ⟨-, e1, e2, e3, e4, -⟩ := snFit_inv h
  rw [h1] at e1
  rw [h2] at e3
  have e2' : f.xSca = fun _ => 1 := e2
  have e4' : f.ySca = 1 := e4
  have hlen := (C152_at_most_rank h ⟨0, by rw [e1, e2', e3, e4', h3, h4]; exact hc⟩).2
  obtain ⟨hm, hb⟩ := C160_pls h rfl
  rw [hlen, e1, e2', e3, e4', h3, h4] at hm hb
  have hfit' : f.fitted = lin rgX f.coefScaled := by
    funext i; rw [hfit, e1, e2', e3, e4', h3]; ring
  have hm' := hm
  rw [rg_space] at hm
  obtain ⟨s, hs⟩ := hm
  refine ⟨⟨s, fun i => ?_⟩, fun t => ?_⟩
  · rw [hfit']
    simp only [lin, Fin.sum_univ_two, hs]
    ring
  · have := hb (fun j => t * ∑ i, rgX i j * y i) ((rg_space y _).mpr ⟨t, fun j => rfl⟩)
    rw [hfit']
    refine this.trans (le_of_eq (Finset.sum_congr rfl fun i _ => ?_))
    simp only [lin, Fin.sum_univ_two]
    ring

/-- C172 (violated for SNIPLS with fewer components than predictors): with one component, adding the second predictor to the response does not add it to the fit. -/
theorem C172_snipls_violated : ∃ (f f' : SnFit 3 2), snFit ⟨0, 1, .mean, .noneOpt⟩ rgX rgY = .ok f ∧ snFit ⟨0, 1, .mean, .noneOpt⟩ rgX (addLinear rgX 0 ![0, 1] rgY) = .ok f' ∧
    ¬ RegressionEquivariant rgX 0 ![0, 1] f.fitted f.residuals f'.fitted f'.residuals := by
  obtain ⟨f, hf⟩ := C44_one_component_total ⟨0, 1, .mean, .noneOpt⟩ rgX rgY (le_refl _) zero_lt_one rfl (fun j => by simp [ScaleOpt.run])
  obtain ⟨f', hf'⟩ := C44_one_component_total ⟨0, 1, .mean, .noneOpt⟩ rgX (addLinear rgX 0 ![0, 1] rgY) (le_refl _) zero_lt_one rfl (fun j => by simp [ScaleOpt.run])
  refine ⟨f, f', hf, hf', fun h => ?_⟩
  obtain ⟨⟨s, hs⟩, hb⟩ := rg_fit (by simp [rgY]) (by simp [rgX, rgY, Fin.sum_univ_three]) hf
  obtain ⟨⟨t, ht⟩, -⟩ := rg_fit (by simp [rgY, rgX, addLinear]; norm_num) (by simp [rgX, rgY, Fin.sum_univ_three, addLinear]) hf'
  have hb' := hb (1 / 2)
  have k0 := h.1 0
  have k2 := h.1 2
  rw [hs, ht] at k0 k2
  simp only [hs] at hb'
  simp [rgX, rgY, Fin.sum_univ_three, addLinear] at hb' k0 k2
  nlinarith

/-- Responses that differ from `rotRmY` by a linear function of the predictors, with three of five equal. -/
def rgRmY : Fin 5 → ℝ := ![-2, 5, 2, 5, 5]

lemma rgRm_add : addLinear rotRmX 0 ![3, 1] rgRmY = rotRmY := by
  funext i
  fin_cases i <;> simp [addLinear, rotRmX, rgRmY, rotRmY, Fin.sum_univ_two] <;> norm_num

/-- C172 (violated for robust M regression): there is no model for a response of which more than half of the values are the same, and there is one after adding a linear function of the
predictors. -/
theorem C172_rm_violated : (¬ ∃ f, rmFit rmExt1 ⟨.huber, 95 / 100, 975 / 1000, 999 / 1000, .mean, .noneOpt, false, 2, 1 / 100, true⟩ rotRmX rgRmY = .ok f) ∧
    ∃ f', rmFit rmExt1 ⟨.huber, 95 / 100, 975 / 1000, 999 / 1000, .mean, .noneOpt, false, 2, 1 / 100, true⟩ rotRmX (addLinear rotRmX 0 ![3, 1] rgRmY) = .ok f' := by
  refine ⟨fun h => ?_, by rw [rgRm_add]; exact rotRm_model⟩
  have := ((C145_rm_model_iff rmExt1 rmExt1_ls _ _ _).mp h).2
  obtain ⟨-, -, h1, -⟩ := this
  rcases h1 with ⟨h1, -⟩ | h1
  · simp at h1
  · apply h1
    have hmed : med rgRmY = 5 :=
      med_pinned rgRmY 5 Finset.univ {1, 3, 4} (by decide) (by decide) (by intro i hi; fin_cases i <;> simp [rgRmY] <;> norm_num) (by intro i hi; fin_cases i <;> simp_all [rgRmY])
    rw [hmed, med_pinned _ 0 {1, 3, 4} Finset.univ (by decide) (by decide)]
    · intro i hi; fin_cases i <;> simp_all [rgRmY]
    · intro i hi; exact abs_nonneg _

/-! ### The conditions can be met -/

/-- SNIPLS of one predictor with one component: adding `7 + 2 x` to the response adds it to the fit. -/
example : ∃ f f' : SnFit 3 1, snFit ⟨0, 1, .mean, .noneOpt⟩ spXs spYs = .ok f ∧ snFit ⟨0, 1, .mean, .noneOpt⟩ spXs (addLinear spXs 7 (fun _ => 2) spYs) = .ok f' ∧
    RegressionEquivariant spXs 7 (fun _ => 2) f.fitted f.residuals f'.fitted f'.residuals := by
  obtain ⟨f, hf⟩ := C44_one_component_total ⟨0, 1, .mean, .noneOpt⟩ spXs spYs (le_refl _) zero_lt_one rfl (fun j => by simp [ScaleOpt.run])
  obtain ⟨f', hf'⟩ := C44_one_component_total ⟨0, 1, .mean, .noneOpt⟩ spXs (addLinear spXs 7 (fun _ => 2) spYs) (le_refl _) zero_lt_one rfl (fun j => by simp [ScaleOpt.run])
  exact ⟨f, f', hf, hf', C172_snipls_partial hf hf' (by norm_num) rfl (by rw [(snFit_inv hf).2.2.2.2.1]; exact one_ne_zero)
    (by rw [(snFit_inv hf').2.2.2.2.1]; exact one_ne_zero) ((Matrix.rank_le_width _).trans (le_refl 1))⟩

/-- Three cases on a line plus residuals in the usual range have no outliers, if the response has none. -/
lemma rg_clean {y : Fin 3 → ℝ} {k b : ℝ} (hy : y = fun i => k + b * spXs i 0 + ![-2 / 3, 4 / 3, -2 / 3] i * madConst) (ht : TypicalValues 2 fun i => y i - med y) :
    ∃ f, rmFit rmExt0 ⟨.huber, 95 / 100, 975 / 1000, 999 / 1000, .mean, .noneOpt, false, 2, 1 / 100, true⟩ spXs y = .ok f ∧ f.ySca ≠ 0 ∧
      RmClean rmExt0 ⟨.huber, 95 / 100, 975 / 1000, 999 / 1000, .mean, .noneOpt, false, 2, 1 / 100, true⟩ spXs y f := by
  have hm := madC_pos
  have hmx : Centre.mean.run spXs = fun _ => 0 := by
    funext j; rw [Subsingleton.elim j 0]; exact sp_mean_x
  have hmy : Centre.mean.run (asCol y) 0 = k := by
    show mean _ = k
    rw [mean_eq_sum]
    simp only [asCol, Fin.sum_univ_three, hy]
    simp [spXs]
    ring
  have hX0 : stdMat spXs (fun _ => 0) (fun _ => 1) = spXs := by
    funext i j; simp [stdMat, std1]
  have hy0 : stdVec y k 1 = fun i => b * spXs i 0 + ![-2 / 3, 4 / 3, -2 / 3] i * madConst := by
    funext i; simp only [stdVec, std1, one_ne_zero, if_false, div_one, hy]; ring
  obtain ⟨f, hf⟩ := (C145_rm_model_iff rmExt0 rmExt0_lstsq ⟨.huber, 95 / 100, 975 / 1000, 999 / 1000, .mean, .noneOpt, false, 2, 1 / 100, true⟩ spXs y).mpr
    ⟨⟨by norm_num, by norm_num, fun _ => rfl⟩, ⟨fun j => one_ne_zero, by
      have := (cl_rows (c := 1) le_rfl rfl spXs (fun i a => by rw [Subsingleton.elim a 0])).1
      simp only [hmx, sub_zero, ScaleOpt.run, div_one]
      exact this.ne', .inr ht.1.ne', by
      rintro ⟨β, hβ⟩
      simp only [hmx, hmy, Fin.sum_univ_one, sub_zero] at hβ
      have h1 := hβ 1
      simp [hy, spXs] at h1
      linarith⟩⟩
  obtain ⟨-, e1, e2, e3, e4, -⟩ := rmFit_inv hf
  have e2' : f.xSca = fun _ => 1 := e2
  have e4' : f.ySca = 1 := e4
  simp only [hmx, hmy] at e1 e3
  have hls : rmExt0.lstsq spXs (fun i => b * spXs i 0 + ![-2 / 3, 4 / 3, -2 / 3] i * madConst) 0 = b := by
    have := rmExt0_lstsq spXs (fun i => b * spXs i 0 + ![-2 / 3, 4 / 3, -2 / 3] i * madConst) 0
    generalize rmExt0.lstsq spXs (fun i => b * spXs i 0 + ![-2 / 3, 4 / 3, -2 / 3] i * madConst) = c at this ⊢
    simp [Fin.sum_univ_succ, spXs] at this
    have h2 : (madConst : ℝ) ^ 2 * (c 0 - b) = 0 := by linear_combination (-1 / 2) * this
    rcases mul_eq_zero.mp h2 with h3 | h3
    · exact absurd h3 (by positivity)
    · linarith
  have hr : (fun i => stdVec y f.yLoc f.ySca i - lin (stdMat spXs f.xLoc f.xSca) (rmExt0.lstsq (stdMat spXs f.xLoc f.xSca) (stdVec y f.yLoc f.ySca)) i) =
      fun i => ![-2 / 3, 4 / 3, -2 / 3] i * madConst := by
    rw [e1, e2', e3, e4', hX0, hy0]
    funext i
    simp only [lin, Fin.sum_univ_one, Fin.isValue, hls]
    ring
  obtain ⟨r1, r2⟩ := cl_r cl_cut.2 hr
  refine ⟨f, hf, by rw [e4']; exact one_ne_zero, ?_, ?_, r1, r2⟩
  · rw [e1, e2', hX0]
    exact cl_rows cl_cut.1.1 rfl _ (fun i a => by rw [Subsingleton.elim a 0])
  · exact ⟨ht.1, fun i => (ht.2 i).trans (mul_le_mul_of_nonneg_right cl_cut.2 (mul_nonneg (by norm_num) ht.1.le))⟩

/-- Robust M regression of three cases without outliers: adding `7 - 2 x` to the response adds it to the fit. -/
example : ∃ f f', rmFit rmExt0 ⟨.huber, 95 / 100, 975 / 1000, 999 / 1000, .mean, .noneOpt, false, 2, 1 / 100, true⟩ spXs spYs = .ok f ∧
    rmFit rmExt0 ⟨.huber, 95 / 100, 975 / 1000, 999 / 1000, .mean, .noneOpt, false, 2, 1 / 100, true⟩ spXs (addLinear spXs 7 (fun _ => -2) spYs) = .ok f' ∧
    RegressionEquivariant spXs 7 (fun _ => -2) f.fitted f.residuals f'.fitted f'.residuals := by
  have hm := madC_pos
  obtain ⟨f, hf, hs, hc⟩ := rg_clean (y := spYs) (k := -1 / 3 * madConst) (b := 1) (by funext i; fin_cases i <;> simp [spYs, spXs] <;> ring) (cl_y le_rfl)
  have hmed : med (addLinear spXs 7 (fun _ => -2) spYs) = 7 := by
    refine med3 _ _ 2 0 1 (by decide) (by decide) ?_ ?_ ?_ <;> simp [spXs, spYs, addLinear] <;> linarith
  have hv : ∀ i, addLinear spXs 7 (fun _ => -2) spYs i - 7 = ![0, 1, -2] i * madConst := by
    intro i; fin_cases i <;> simp [spXs, spYs, addLinear] <;> ring
  have habs : (med fun i => |(![0, 1, -2] : Fin 3 → ℝ) i * madConst|) = madConst := by
    refine med3 _ _ 0 1 2 (by decide) (by decide) ?_ ?_ ?_ <;> simp [abs_mul, abs_of_pos hm, hm.le] <;> linarith
  obtain ⟨f', hf', hs', hc'⟩ := rg_clean (y := addLinear spXs 7 (fun _ => -2) spYs) (k := 7 - 1 / 3 * madConst) (b := -1)
    (by funext i; fin_cases i <;> simp [spYs, spXs, addLinear] <;> ring) (by
      rw [hmed]
      simp only [hv]
      refine ⟨by rw [habs]; exact hm, fun i => ?_⟩
      rw [habs]
      fin_cases i <;> simp [abs_mul, abs_of_pos hm] <;> linarith)
  exact ⟨f, f', hf, hf', C172_rm_partial rmExt0_lstsq hf hf' (by norm_num) rfl hs hs' (by simp) cl_cut.1 cl_cut.1 hc hc'⟩

end Direpack
