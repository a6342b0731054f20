import Mathlib.Tactic.Linarith
import Mathlib.Tactic.FieldSimp
import Mathlib.Tactic.Ring
import Mathlib.Tactic.LinearCombination
import Mathlib.Tactic.FinCases
import Verif.Props.RMTotal

/-! Property C146: the influence of one case on the coefficients of robust M regression. -/

set_option linter.unusedSectionVars false

namespace Direpack

open scoped BigOperators
open Spec

variable {n p : ℕ}

/-- However one response is changed, the coefficients stay within the same bounds. -/
def Spec.BoundedInfluence (fit : (Fin n → ℝ) → Option (Fin p → ℝ)) : Prop :=
  ∀ (y : Fin n → ℝ) (k : Fin n), ∃ B, ∀ v b, fit (Function.update y k v) = some b → ∀ j, |b j| ≤ B

/-- The weights in use are between `1e-6` and 1, and the coefficients satisfy the normal equations with those of the last fit. -/
lemma rm_last_weights (ext : RmExt) (hq : IsQuantiles ext.normPpf ext.chi2Ppf)
    (hls : ∀ {n p : ℕ} (X : Fin n → Fin p → ℝ) (y : Fin n → ℝ), IsLeastSquares X y (ext.lstsq X y)) (pr : RmParams)
    (h1 : 1 / 2 < pr.probp1) (h1' : pr.probp1 < 1) (h3 : pr.fn = .hampel → pr.probp3 < 1) (X : Fin n → Fin p → ℝ) (y : Fin n → ℝ) (f : RmFit n p)
    (h : rmFit ext pr X y = .ok f) :
    ∃ w : Fin n → ℝ, (∀ i, 1 / 1000000 ≤ w i ∧ w i ≤ 1) ∧
      ∀ j, ∑ i, w i * stdMat X f.xLoc f.xSca i j * (stdVec y f.yLoc f.ySca i - lin (stdMat X f.xLoc f.xSca) f.coefScaled i) = 0 := by
  obtain ⟨⟨_, _, hp⟩, -, -, -, -, -, dx, dy, o, hdx, -⟩ := rmFit_inv h
  have hadm : pr.fn = .hampel → pr.probp1 < pr.probp2 ∧ pr.probp2 < pr.probp3 ∧ pr.probp3 < 1 := fun hf => ⟨(hp hf).1, (hp hf).2.1, h3 hf⟩
  have hcx := cutX_adm (sp := pr.specific) (rowDistances_pos hdx) hq h1 h1' hadm
  have hcy := cutY_adm hq h1 h1' hadm
  obtain ⟨wx, wy0, used, coef, wy, hrun, hfit, hb, -, ⟨d, -, hs1, hs2⟩, d0, hd0, -⟩ := C128_rm_run ext pr X y f h
  have hwx : ∀ i, 0 ≤ wx i ∧ wx i ≤ 1 := by
    intro i
    have e : wx = pr.fn.run d (cutX ext pr.specific p pr.probp1 pr.probp2 pr.probp3) := by
      cases hsp : pr.specific with
      | true => rw [hs1 hsp]; rfl
      | false => rw [hs2 hsp]; rfl
    rw [e]
    exact WFun.run_unit _ _ _ hcx.1 hcx.2 i
  have hwy0 : ∀ i, 0 ≤ wy0 i ∧ wy0 i ≤ 1 := by
    intro i; rw [hd0]; exact WFun.run_unit _ _ (cutY ext pr.probp1 pr.probp2 pr.probp3) hcy.1 hcy.2 i
  have hwy : ∀ k, k < f.fits → ∀ i, 0 ≤ wy k i ∧ wy k i ≤ 1 := by
    intro k hk i
    obtain ⟨-, m, r, -, -, -, e⟩ := hfit k hk
    rw [e]; exact WFun.run_unit _ _ (cutY ext pr.probp1 pr.probp2 pr.probp3) hcy.1 hcy.2 i
  have hraised : ∀ v : Fin n → ℝ, (∀ i, v i ≤ 1) → ∀ i, 1 / 1000000 ≤ raised v i ∧ raised v i ≤ 1 :=
    fun v hv i => ⟨le_max_right _ _, max_le (hv i) (by norm_num)⟩
  have hused : ∀ k, k < f.fits → ∀ i, 1 / 1000000 ≤ used k i ∧ used k i ≤ 1 := by
    intro k hk
    cases k with
    | zero =>
      rw [hrun.first]
      exact hraised _ fun i => mul_le_one₀ (hwx i).2 (hwy0 i).1 (hwy0 i).2
    | succ k =>
      rw [hrun.next k hk]
      exact hraised _ fun i => mul_le_one₀ (hwy k (by omega) i).2 (hwx i).1 (hwx i).2
  have hlast : f.fits - 1 < f.fits := by have := hrun.atLeastOne; omega
  refine ⟨used (f.fits - 1), hused _ hlast, fun j => ?_⟩
  have hn := hls (fun i j => stdMat X f.xLoc f.xSca i j * Real.sqrt (used (f.fits - 1) i))
    (fun i => stdVec y f.yLoc f.ySca i * Real.sqrt (used (f.fits - 1) i)) j
  rw [← (hfit _ hlast).1, ← hb] at hn
  rw [← hn]
  refine Finset.sum_congr rfl fun i _ => ?_
  have hsq : Real.sqrt (used (f.fits - 1) i) * Real.sqrt (used (f.fits - 1) i) = used (f.fits - 1) i :=
    Real.mul_self_sqrt (by have := (hused _ hlast i).1; linarith)
  have e : ∑ k, stdMat X f.xLoc f.xSca i k * Real.sqrt (used (f.fits - 1) i) * f.coefScaled k =
      Real.sqrt (used (f.fits - 1) i) * lin (stdMat X f.xLoc f.xSca) f.coefScaled i := by
    unfold lin
    rw [Finset.mul_sum]
    exact Finset.sum_congr rfl fun k _ => by ring
  dsimp only
  rw [e]
  linear_combination (-(stdMat X f.xLoc f.xSca i j * (stdVec y f.yLoc f.ySca i - lin (stdMat X f.xLoc f.xSca) f.coefScaled i))) * hsq

/-- What holds of C146 for one predictor: the influence of case `k`.  With the weights of the last fit, which are between `1e-6` and 1, the
coefficient differs from the weighted least squares coefficient of the other cases by the weight of the case, times its standardised predictor, times its residual from the fit to the
others, divided by the weighted sum of squares of the predictor.  (Missing: the claim itself, see `C146_rm_influence_violated`.) -/
theorem C146_rm_influence_partial (ext : RmExt) (hq : IsQuantiles ext.normPpf ext.chi2Ppf)
    (hls : ∀ {n p : ℕ} (X : Fin n → Fin p → ℝ) (y : Fin n → ℝ), IsLeastSquares X y (ext.lstsq X y)) (pr : RmParams)
    (h1 : 1 / 2 < pr.probp1) (h1' : pr.probp1 < 1) (h3 : pr.fn = .hampel → pr.probp3 < 1) (X : Fin n → Fin 1 → ℝ) (y : Fin n → ℝ) (f : RmFit n 1)
    (h : rmFit ext pr X y = .ok f) :
    ∃ w : Fin n → ℝ, (∀ i, 1 / 1000000 ≤ w i ∧ w i ≤ 1) ∧
      ∀ (k : Fin n) (b : ℝ), ∑ i ∈ Finset.univ.erase k, w i * stdMat X f.xLoc f.xSca i 0 * (stdVec y f.yLoc f.ySca i - stdMat X f.xLoc f.xSca i 0 * b) = 0 →
        (f.coefScaled 0 - b) * ∑ i, w i * stdMat X f.xLoc f.xSca i 0 ^ 2 =
          w k * stdMat X f.xLoc f.xSca k 0 * (stdVec y f.yLoc f.ySca k - stdMat X f.xLoc f.xSca k 0 * b) := by
  obtain ⟨w, hw, hn⟩ := rm_last_weights ext hq hls pr h1 h1' h3 X y f h
  refine ⟨w, hw, fun k b hb => ?_⟩
  have h0 := hn 0
  have e := Finset.add_sum_erase Finset.univ (fun i => w i * stdMat X f.xLoc f.xSca i 0 * (stdVec y f.yLoc f.ySca i - stdMat X f.xLoc f.xSca i 0 * b)) (Finset.mem_univ k)
  rw [hb, add_zero] at e
  rw [e, ← sub_eq_zero, ← neg_eq_zero, ← h0, Finset.mul_sum, ← Finset.sum_sub_distrib, ← Finset.sum_neg_distrib]
  refine Finset.sum_congr rfl fun i _ => ?_
  simp only [lin, Fin.sum_univ_one, Fin.isValue]
  ring

/-! ### Four cases on a line, and a fifth -/

noncomputable def inflX : Fin 5 → Fin 1 → ℝ := fun i _ => ![-2, -1, 0, 1, 2] i
noncomputable def inflY (M : ℝ) : Fin 5 → ℝ := ![-2, -1, 0, 1, M]

lemma inflY_update (M : ℝ) : Function.update (inflY 2) 4 M = inflY M := by
  funext i
  fin_cases i <;> simp [inflY, Function.update]

lemma infl_medX : med (fun i => inflX i 0) = 0 :=
  med_pinned _ 0 {0, 1, 2} {2, 3, 4} (by decide) (by decide) (by simp [inflX]) (by simp [inflX])

lemma infl_medY {M : ℝ} (hM : 1 ≤ M) : med (inflY M) = 0 :=
  med_pinned _ 0 {0, 1, 2} {2, 3, 4} (by decide) (by decide) (by simp [inflY]) (by simp [inflY]; linarith)

lemma infl_madX : Direpack.mad (fun i => inflX i 0) = 1 / madConst := by
  rw [rm_mad_eq, infl_medX, med_pinned (fun i => |inflX i 0 - 0|) 1 {1, 2, 3} {0, 1, 3} (by decide) (by decide) (by simp [inflX]) (by simp [inflX])]

lemma infl_madY {M : ℝ} (hM : 1 ≤ M) : Direpack.mad (inflY M) = 1 / madConst := by
  rw [rm_mad_eq, infl_medY hM, med_pinned (fun i => |inflY M i - 0|) 1 {1, 2, 3} {0, 1, 3} (by decide) (by decide) (by simp [inflY]) (by simp [inflY])]

/-- The data satisfy the conditions of C145 if the fifth case is not on the line. -/
lemma infl_dataOk (pr : RmParams) (hc : pr.centre = .median) (hs : pr.scale = .mad) {M : ℝ} (hM : 1 ≤ M) (hM2 : M ≠ 2) : RmDataOk pr inflX (inflY M) := by
  have hm := madC_pos
  have h1 : pr.centre.run inflX 0 = 0 := by rw [hc]; exact infl_medX
  have h2 : pr.scale.run inflX 0 = 1 / madConst := by rw [hs]; exact infl_madX
  have h3 : pr.centre.run (asCol (inflY M)) 0 = 0 := by rw [hc]; exact infl_medY hM
  refine ⟨fun j => ?_, ?_, Or.inl ⟨hc, hs⟩, ?_⟩
  · rw [Subsingleton.elim j 0, h2]; positivity
  · have e : (fun i => Real.sqrt (∑ j, ((inflX i j - pr.centre.run inflX j) / pr.scale.run inflX j) ^ 2)) = fun i => |inflX i 0| * madConst := by
      funext i
      rw [Fin.sum_univ_one, h1, h2, Real.sqrt_sq_eq_abs, sub_zero, div_div_eq_mul_div, div_one, abs_mul, abs_of_pos hm]
    rw [e, med_pinned (fun i => |inflX i 0| * madConst) madConst {1, 2, 3} {0, 1, 3} (by decide) (by decide) (by simp [inflX, hm.le]) (by simp [inflX]; linarith)]
    exact hm.ne'
  · rintro ⟨β, hβ⟩
    have e3 := hβ 3
    have e4 := hβ 4
    rw [Fin.sum_univ_one, h1, h3] at e3 e4
    simp [inflX, inflY] at e3 e4
    apply hM2
    linarith

/-- The standardised data and the coefficient of a fit to them. -/
lemma infl_std {ext : RmExt} {pr : RmParams} (hc : pr.centre = .median) (hs : pr.scale = .mad) {M : ℝ} (hM : 1 ≤ M) {f : RmFit 5 1}
    (h : rmFit ext pr inflX (inflY M) = .ok f) :
    (∀ i, stdMat inflX f.xLoc f.xSca i 0 = inflX i 0 * madConst) ∧ (∀ i, stdVec (inflY M) f.yLoc f.ySca i = inflY M i * madConst) ∧ f.coef 0 = f.coefScaled 0 := by
  have hm := madC_pos
  obtain ⟨-, e1, e2, e3, e4, -, dx, dy, o, -, -, -, hb, hco, -⟩ := rmFit_inv h
  have h1 : f.xLoc 0 = 0 := by rw [e1, hc]; exact infl_medX
  have h2 : f.xSca 0 = 1 / madConst := by rw [e2, hs]; exact infl_madX
  have h3 : f.yLoc = 0 := by rw [e3, hc]; exact infl_medY hM
  have h4 : f.ySca = 1 / madConst := by rw [e4, hs]; exact infl_madY hM
  have h0 : (1 : ℝ) / madConst ≠ 0 := by positivity
  refine ⟨fun i => ?_, fun i => ?_, ?_⟩
  · simp only [stdMat, std1, h1, h2, if_neg h0, sub_zero]; field_simp
  · simp only [stdVec, std1, h3, h4, if_neg h0, sub_zero]; field_simp
  · rw [hco 0, h2, h4, hb, div_self h0, one_mul]

/-- Centre median, scale mad, probabilities between one half and one, and a loop that is entered. -/
structure Spec.RobustSettings (pr : RmParams) : Prop where
  centre : pr.centre = .median
  scale : pr.scale = .mad
  p1 : 1 / 2 < pr.probp1 ∧ pr.probp1 < 1
  hampel : pr.fn = .hampel → pr.probp1 < pr.probp2 ∧ pr.probp2 < pr.probp3 ∧ pr.probp3 < 1
  loop : pr.tol < 1 ∧ 2 ≤ pr.maxit

/-- For the five cases there is always a model, whose coefficient grows with the response of the fifth case. -/
lemma infl_coef (ext : RmExt) (hq : IsQuantiles ext.normPpf ext.chi2Ppf)
    (hls : ∀ {n p : ℕ} (X : Fin n → Fin p → ℝ) (y : Fin n → ℝ), IsLeastSquares X y (ext.lstsq X y)) (pr : RmParams) (hpr : RobustSettings pr) {M : ℝ} (hM : 2 < M) :
    ∃ f, rmFit ext pr inflX (inflY M) = .ok f ∧ M / 5000000 ≤ f.coef 0 := by
  have hm := madC_pos
  obtain ⟨f, hf⟩ := (C145_rm_model_iff ext hls pr inflX (inflY M)).mpr
    ⟨⟨⟨by linarith [hpr.p1.1], hpr.p1.2.le, fun hh => ⟨(hpr.hampel hh).1, (hpr.hampel hh).2.1, (hpr.hampel hh).2.2.le⟩⟩, hpr.loop,
      fun hn => by rw [hpr.scale] at hn; simp at hn⟩, infl_dataOk pr hpr.centre hpr.scale (by linarith) hM.ne'⟩
  refine ⟨f, hf, ?_⟩
  obtain ⟨w, hw, hn⟩ := rm_last_weights ext hq hls pr hpr.p1.1 hpr.p1.2 (fun hh => (hpr.hampel hh).2.2) inflX (inflY M) f hf
  obtain ⟨hZ, hY, hco⟩ := infl_std hpr.centre hpr.scale (by linarith) hf
  rw [hco]
  have h0 := hn 0
  simp only [lin, Fin.sum_univ_one, Fin.isValue, hZ, hY] at h0
  rw [Fin.sum_univ_five] at h0
  simp [inflX, inflY] at h0
  set b := f.coefScaled 0
  have h5 : (4 * w 0 + w 1 + w 3 + 2 * M * w 4 - b * (4 * w 0 + w 1 + w 3 + 4 * w 4)) * madConst ^ 2 = 0 := by linear_combination h0
  have h6 : 4 * w 0 + w 1 + w 3 + 2 * M * w 4 - b * (4 * w 0 + w 1 + w 3 + 4 * w 4) = 0 := (mul_eq_zero.mp h5).resolve_right (by positivity)
  have h0 := hw 0
  have h1 := hw 1
  have h3 := hw 3
  have h4 := hw 4
  have hS : 0 < 4 * w 0 + w 1 + w 3 + 4 * w 4 := by linarith
  have hS' : 4 * w 0 + w 1 + w 3 + 4 * w 4 ≤ 10 := by linarith
  have h7 : 2 * M / 1000000 ≤ b * (4 * w 0 + w 1 + w 3 + 4 * w 4) := by nlinarith
  have hb : 0 ≤ b := by
    by_contra hb
    push Not at hb
    nlinarith
  nlinarith

/-- C146 is violated by robust M regression with robust location and scale, for every weight function, tuning and number of iterations: the coefficient is not bounded when one of five
responses varies.  (A rejected case still takes part in the weighted fits, with weight `1e-6`.) -/
theorem C146_rm_influence_violated (ext : RmExt) (hq : IsQuantiles ext.normPpf ext.chi2Ppf)
    (hls : ∀ {n p : ℕ} (X : Fin n → Fin p → ℝ) (y : Fin n → ℝ), IsLeastSquares X y (ext.lstsq X y)) (pr : RmParams) (hpr : RobustSettings pr) :
    ¬ BoundedInfluence fun y => (rmFit ext pr inflX y).toOption.map fun f => f.coef := by
  intro hb
  obtain ⟨B, hB⟩ := hb (inflY 2) 4
  have hM : 2 < 5000000 * (|B| + 1) := by have := abs_nonneg B; linarith
  obtain ⟨f, hf, hco⟩ := infl_coef ext hq hls pr hpr hM
  have := hB (5000000 * (|B| + 1)) f.coef (by simp only [inflY_update, hf]; rfl) 0
  have h2 : 5000000 * (|B| + 1) / 5000000 = |B| + 1 := by ring
  rw [h2] at hco
  have := le_abs_self (f.coef 0)
  have := le_abs_self B
  linarith

/-- The median of the absolute residuals of the five cases. -/
lemma infl_median {d r : ℝ} (hd : 0 ≤ d) (hr : d ≤ r) : med (![2 * d, d, 0, d, r] : Fin 5 → ℝ) = d :=
  med_pinned _ d {1, 2, 3} {0, 1, 3} (by decide) (by decide) (by simp [hd]) (by simp; linarith)

/-- Even with redescending weights, and although the outlying case is reported with weight zero, the coefficient depends on its response without bound: with the default kind of
settings (Hampel weights, cutoffs for the response between 1.35 and two million, for the predictor above 2), the four cases on the line have weight 1, the fifth weight 0, and
the coefficient is `(6 + 2e-6 M)/(6 + 4e-6)` for every response `M` of the fifth case that is rejected at the start. -/
theorem C146_rm_rejected_violated (ext : RmExt)
    (hls : ∀ {n p : ℕ} (X : Fin n → Fin p → ℝ) (y : Fin n → ℝ), IsLeastSquares X y (ext.lstsq X y)) (pr : RmParams) (hc : pr.centre = .median) (hs : pr.scale = .mad)
    (hfn : pr.fn = .hampel) (hp : 0 < pr.probp1 ∧ pr.probp1 < pr.probp2 ∧ pr.probp2 < pr.probp3 ∧ pr.probp3 ≤ 1) (hl : pr.tol < 1 ∧ 2 ≤ pr.maxit) (hsp : pr.specific = true)
    (hcut : 135 / 100 ≤ ext.normPpf pr.probp1 ∧ ext.normPpf pr.probp1 < ext.normPpf pr.probp2 ∧ ext.normPpf pr.probp2 < ext.normPpf pr.probp3 ∧ ext.normPpf pr.probp3 ≤ 2000000)
    (hcutx : 2 ≤ ext.chi2Ppf pr.probp1 1 ∧ ext.chi2Ppf pr.probp1 1 < ext.chi2Ppf pr.probp2 1 ∧ ext.chi2Ppf pr.probp2 1 < ext.chi2Ppf pr.probp3 1) {M : ℝ} (hM : 2 < M)
    (hM3 : ext.normPpf pr.probp3 < M * madConst) :
    ∃ f, rmFit ext pr inflX (inflY M) = .ok f ∧ f.coef 0 = (6 + 2 * M / 1000000) / (6 + 4 / 1000000) ∧ f.caseweights = ![1, 1, 1, 1, 0] := by
  have hm := madC_pos
  obtain ⟨f, hf⟩ := (C145_rm_model_iff ext hls pr inflX (inflY M)).mpr
    ⟨⟨⟨hp.1, by linarith, fun _ => hp.2⟩, hl, fun hn => by rw [hs] at hn; simp at hn⟩, infl_dataOk pr hc hs (by linarith) hM.ne'⟩
  refine ⟨f, hf, ?_⟩
  obtain ⟨hZ, hY, hco⟩ := infl_std hc hs (by linarith) hf
  obtain ⟨wx, wy0, used, coef, wy, hrun, hfit, hb, hcw, ⟨d, hd, hs1, -⟩, d0, hd0, hd0m, -⟩ := C128_rm_run ext pr inflX (inflY M) f hf
  set c1 := ext.normPpf pr.probp1
  set c2 := ext.normPpf pr.probp2
  set c3 := ext.normPpf pr.probp3
  have hamp : ∀ x : Fin 5 → ℝ, hampel x c1 c2 c3 = fun i => hampelWeight c1 c2 c3 (x i) := fun x =>
    C03_hampel_correct_partial x _ _ _ (by linarith [hcut.1]) hcut.2.1.le hcut.2.2.1
  -- predictor weights
  have hwx : wx = fun _ => 1 := by
    rw [hs1 hsp, hfn]
    show hampel d _ _ _ = _
    rw [C03_hampel_correct_partial d _ _ _ (by linarith [hcutx.1]) hcutx.2.1.le hcutx.2.2]
    have e : (fun i => Real.sqrt (∑ j, stdMat inflX f.xLoc f.xSca i j ^ 2)) = fun i => |inflX i 0| * madConst := by
      funext i
      rw [Fin.sum_univ_one, hZ, Real.sqrt_sq_eq_abs, abs_mul, abs_of_pos hm]
    rw [e, med_pinned (fun i => |inflX i 0| * madConst) madConst {1, 2, 3} {0, 1, 3} (by decide) (by decide) (by simp [inflX, hm.le]) (by simp [inflX]; linarith)] at hd
    funext i
    have hdi : d i = |inflX i 0| := mul_right_cancel₀ hm.ne' (hd.2 i)
    have : d i ≤ 2 := by rw [hdi]; fin_cases i <;> simp [inflX]
    unfold hampelWeight
    rw [if_pos (by linarith [hcutx.1])]
  -- starting weights
  have hmd : (madConst : ℝ) ≤ 27 / 40 := by unfold madConst; norm_num
  have hw0 : wy0 = ![1, 1, 1, 1, 0] := by
    rw [hd0, hfn]
    show hampel d0 _ _ _ = _
    rw [hamp, hd0m hc hs]
    funext i
    dsimp only
    rw [hY]
    have hle : ∀ a : ℝ, |a| ≤ 2 → hampelWeight c1 c2 c3 |a * madConst| = 1 := by
      intro a ha
      unfold hampelWeight
      rw [if_pos]
      rw [abs_mul, abs_of_pos hm]
      nlinarith [abs_nonneg a, hcut.1]
    fin_cases i
    · exact hle (-2) (by norm_num)
    · exact hle (-1) (by norm_num)
    · exact hle 0 (by norm_num)
    · exact hle 1 (by norm_num)
    · show hampelWeight c1 c2 c3 |M * madConst| = 0
      have hpos : 0 < M * madConst := by positivity
      rw [abs_of_pos hpos]
      unfold hampelWeight
      rw [if_neg (by linarith [hcut.2.1, hcut.2.2.1]), if_neg (by linarith [hcut.2.2.1]), if_neg (by linarith)]
  -- one pass
  have hpass : ∀ k, k < f.fits → used k = ![1, 1, 1, 1, 1 / 1000000] → coef k 0 = (6 + 2 * M / 1000000) / (6 + 4 / 1000000) ∧ wy k = ![1, 1, 1, 1, 0] := by
    intro k hk hu
    obtain ⟨hck, m, r, hr, hmr, -, hwy⟩ := hfit k hk
    have hn := hls (fun i j => stdMat inflX f.xLoc f.xSca i j * Real.sqrt (used k i)) (fun i => stdVec (inflY M) f.yLoc f.ySca i * Real.sqrt (used k i)) 0
    rw [← hck] at hn
    have hsq : ∀ i, Real.sqrt (used k i) * Real.sqrt (used k i) = used k i := fun i => Real.mul_self_sqrt (by rw [hu]; fin_cases i <;> simp)
    have hn' : ∑ i, used k i * inflX i 0 * (inflY M i - inflX i 0 * coef k 0) = 0 := by
      have e : ∑ i, used k i * inflX i 0 * (inflY M i - inflX i 0 * coef k 0) * madConst ^ 2 = 0 := by
        rw [← hn]
        refine Finset.sum_congr rfl fun i _ => ?_
        rw [Fin.sum_univ_one]
        dsimp only
        rw [hZ, hY]
        linear_combination (-(inflX i 0 * (inflY M i - inflX i 0 * coef k 0) * madConst ^ 2)) * hsq i
      rw [← Finset.sum_mul] at e
      exact (mul_eq_zero.mp e).resolve_right (by positivity)
    rw [Fin.sum_univ_five, hu] at hn'
    simp [inflX, inflY] at hn'
    have hcoef : coef k 0 = (6 + 2 * M / 1000000) / (6 + 4 / 1000000) := by
      rw [eq_div_iff (by norm_num)]
      linarith
    refine ⟨hcoef, ?_⟩
    set g := (2 * M - 4) / 6000004 with hg
    have hgpos : 0 < g := by rw [hg]; apply div_pos <;> linarith
    have hc1 : coef k 0 = 1 + g := by rw [hcoef, hg]; ring
    have hMr : M - 2 * coef k 0 = 3000000 * g := by rw [hc1, hg]; ring
    have hres : (fun i => |stdVec (inflY M) f.yLoc f.ySca i - lin (stdMat inflX f.xLoc f.xSca) (coef k) i|) =
        ![2 * (g * madConst), g * madConst, 0, g * madConst, 3000000 * (g * madConst)] := by
      have e : ∀ i, |stdVec (inflY M) f.yLoc f.ySca i - lin (stdMat inflX f.xLoc f.xSca) (coef k) i| = |inflY M i - inflX i 0 * coef k 0| * madConst := by
        intro i
        unfold lin
        rw [Fin.sum_univ_one, hZ, hY, ← abs_of_pos hm, ← abs_mul, abs_of_pos hm]
        congr 1; ring
      funext i
      rw [e]
      fin_cases i
      · show |(-2 : ℝ) - -2 * coef k 0| * madConst = 2 * (g * madConst)
        rw [hc1, show (-2 : ℝ) - -2 * (1 + g) = 2 * g by ring, abs_of_pos (by linarith)]; ring
      · show |(-1 : ℝ) - -1 * coef k 0| * madConst = g * madConst
        rw [hc1, show (-1 : ℝ) - -1 * (1 + g) = g by ring, abs_of_pos hgpos]
      · show |(0 : ℝ) - 0 * coef k 0| * madConst = 0
        simp
      · show |(1 : ℝ) - 1 * coef k 0| * madConst = g * madConst
        rw [hc1, show (1 : ℝ) - 1 * (1 + g) = -g by ring, abs_neg, abs_of_pos hgpos]
      · show |M - 2 * coef k 0| * madConst = 3000000 * (g * madConst)
        rw [hMr, abs_of_pos (by linarith)]; ring
    have hgm : 0 < g * madConst := by positivity
    have hmm : m = g * madConst := by
      have hcard : 2 * Fintype.card {i // stdVec (inflY M) f.yLoc f.ySca i - lin (stdMat inflX f.xLoc f.xSca) (coef k) i = 0} < 5 := by
        have : Fintype.card {i // stdVec (inflY M) f.yLoc f.ySca i - lin (stdMat inflX f.xLoc f.xSca) (coef k) i = 0} ≤ Fintype.card {i : Fin 5 // i = 2} := by
          refine Fintype.card_le_of_injective (fun i => ⟨i.1, ?_⟩) fun a b hab => Subtype.ext (by simpa using hab)
          obtain ⟨i, hi⟩ := i
          have h0 := congrFun hres i
          rw [hi, abs_zero] at h0
          fin_cases i
          · exfalso; simp at h0; rcases h0 with h0 | h0 <;> linarith
          · exfalso; simp at h0; rcases h0 with h0 | h0 <;> linarith
          · rfl
          · exfalso; simp at h0; rcases h0 with h0 | h0 <;> linarith
          · exfalso; simp at h0; rcases h0 with h0 | h0 <;> linarith
        have h1 : Fintype.card {i : Fin 5 // i = 2} = 1 := by decide
        omega
      rw [hmr hcard, hres]
      exact infl_median hgm.le (by linarith)
    rw [hwy, hfn]
    show hampel r c1 c2 c3 = _
    rw [hamp]
    have hrv : ∀ i, r i = (![2, 1, 0, 1, 3000000] : Fin 5 → ℝ) i / (14826 / 10000) := by
      intro i
      rw [hr i, congrFun hres i, hmm]
      fin_cases i <;> (simp; try field_simp)
    funext i
    rw [hrv i]
    have hle : ∀ a : ℝ, a ≤ 2 → hampelWeight c1 c2 c3 (a / (14826 / 10000)) = 1 := by
      intro a ha
      unfold hampelWeight
      rw [if_pos]
      rw [div_le_iff₀ (by norm_num)]
      linarith [hcut.1]
    fin_cases i
    · exact hle 2 le_rfl
    · exact hle 1 (by norm_num)
    · exact hle 0 (by norm_num)
    · exact hle 1 (by norm_num)
    · show hampelWeight c1 c2 c3 (3000000 / (14826 / 10000)) = 0
      have h1 : c3 < 3000000 / (14826 / 10000) := lt_of_le_of_lt hcut.2.2.2 (by norm_num)
      unfold hampelWeight
      rw [if_neg (by linarith [hcut.2.1, hcut.2.2.1]), if_neg (by linarith [hcut.2.2.1]), if_neg (by linarith)]
  have hraise : raised (![1, 1, 1, 1, 0] : Fin 5 → ℝ) = ![1, 1, 1, 1, 1 / 1000000] := by
    funext i
    unfold raised
    fin_cases i <;> norm_num
  have hused : ∀ k, k < f.fits → used k = ![1, 1, 1, 1, 1 / 1000000] := by
    intro k
    induction k with
    | zero => intro _; rw [hrun.first, hwx, hw0, ← hraise]; simp
    | succ k ih =>
      intro hk
      rw [hrun.next k hk, (hpass k (by omega) (ih (by omega))).2, hwx, ← hraise]; simp
  have hlast : f.fits - 1 < f.fits := by have := hrun.atLeastOne; omega
  obtain ⟨hA, hB⟩ := hpass _ hlast (hused _ hlast)
  refine ⟨by rw [hco, hb, hA], ?_⟩
  funext i
  rw [hcw i, hB, hwx]
  fin_cases i <;> norm_num

/-- Settings and functions to which the two theorems apply. -/
noncomputable def inflPr : RmParams :=
  { fn := .hampel, probp1 := 95 / 100, probp2 := 975 / 1000, probp3 := 999 / 1000, centre := .median, scale := .mad
    specific := true, maxit := 100, tol := 1 / 100, copy := true }

/-- The hypotheses of the partial theorem can be met. -/
example : ∃ f, rmFit rmExt0 inflPr inflX (inflY 7) = .ok f ∧ ∃ w : Fin 5 → ℝ, (∀ i, 1 / 1000000 ≤ w i ∧ w i ≤ 1) := by
  obtain ⟨f, hf, -⟩ := infl_coef rmExt0 rmExt0_quantiles rmExt0_lstsq inflPr
    ⟨rfl, rfl, by norm_num [inflPr], fun _ => by norm_num [inflPr], by norm_num [inflPr]⟩ (by norm_num : (2 : ℝ) < 7)
  obtain ⟨w, hw, -⟩ := C146_rm_influence_partial rmExt0 rmExt0_quantiles rmExt0_lstsq inflPr (by norm_num [inflPr]) (by norm_num [inflPr])
    (fun _ => by norm_num [inflPr]) inflX (inflY 7) f hf
  exact ⟨f, hf, w, hw⟩

example : ¬ BoundedInfluence fun y => (rmFit rmExt0 inflPr inflX y).toOption.map fun f => f.coef :=
  C146_rm_influence_violated rmExt0 rmExt0_quantiles rmExt0_lstsq inflPr
    ⟨rfl, rfl, by norm_num [inflPr], fun _ => by norm_num [inflPr], by norm_num [inflPr]⟩

example : ∃ f, rmFit rmExt0 inflPr inflX (inflY 1000000000000) = .ok f ∧ f.coef 0 = (6 + 2 * 1000000000000 / 1000000) / (6 + 4 / 1000000) ∧ f.caseweights = ![1, 1, 1, 1, 0] :=
  C146_rm_rejected_violated rmExt0 rmExt0_lstsq inflPr rfl rfl rfl (by norm_num [inflPr]) (by norm_num [inflPr]) rfl (by norm_num [inflPr, rmExt0]) (by norm_num [inflPr, rmExt0])
    (by norm_num) (by norm_num [inflPr, rmExt0, madConst])

end Direpack
