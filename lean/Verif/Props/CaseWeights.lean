import Mathlib.Tactic.Linarith
import Mathlib.Tactic.FieldSimp
import Mathlib.Tactic.Ring
import Verif.Props.Clean

/-! Property C161: the case weights of the robust regressions are the weight function at the residuals of the published model. -/

set_option linter.unusedSectionVars false

namespace Direpack

open scoped BigOperators

variable {n p : ℕ}

open Classical in
/-- The typical size of residuals: the median absolute value; of the nonzero ones if at least half of them are zero. -/
noncomputable def Spec.typicalAbs (r : Fin n → ℝ) : ℝ :=
  if 2 * (Finset.univ.filter fun i => r i = 0).card < n then med fun i => |r i| else medL (((List.ofFn r).filter fun v => v ≠ 0).map fun v => |v|)

/-- Residuals relative to the robust standard deviation that belongs to their typical size. -/
noncomputable def Spec.relSize (r : Fin n → ℝ) : Fin n → ℝ := fun i => |r i| / (14826 / 10000 * Spec.typicalAbs r)

/-- Published case weights `w`, with the factors `wx` for the predictors and `wy` for the response, that belong to factors `ux` and `uy`: they are these and their product, and all zero for cases whose
product is below one millionth. -/
def Spec.WeightsFrom (w wx wy ux uy : Fin n → ℝ) : Prop :=
  ∀ i, if uy i * ux i < 1 / 1000000 then w i = 0 ∧ wx i = 0 ∧ wy i = 0 else w i = uy i * ux i ∧ wx i = ux i ∧ wy i = uy i

open Spec

lemma scaleRes_inv {r d : Fin n → ℝ} (h : scaleRes r = .ok d) : d = relSize r ∧ ∃ i, r i ≠ 0 := by
  classical
  unfold scaleRes at h
  dsimp only at h
  have e : ((((Finset.univ.filter fun i => r i = 0).card : ℕ) : ℝ) < (n : ℝ) / 2) ↔ 2 * (Finset.univ.filter fun i => r i = 0).card < n := by
    rw [lt_div_iff₀ (by norm_num)]
    constructor
    · intro h
      have : (((Finset.univ.filter fun i => r i = 0).card * 2 : ℕ) : ℝ) < n := by push_cast; exact h
      have := Nat.cast_lt.mp this
      omega
    · intro h
      have : (((Finset.univ.filter fun i => r i = 0).card * 2 : ℕ) : ℝ) < n := by exact_mod_cast (by omega)
      push_cast at this
      exact this
  split at h
  · rename_i hz
    have hz' : 2 * (Finset.univ.filter fun i => r i = 0).card < n := e.mp (by convert hz)
    simp only [Except.ok.injEq] at h
    subst h
    refine ⟨?_, ?_⟩
    · funext i
      simp only [relSize, typicalAbs]
      rw [if_pos (by convert hz')]
    · by_contra hall
      push Not at hall
      rw [Finset.filter_true_of_mem (fun i _ => hall i), Finset.card_univ, Fintype.card_fin] at hz'
      omega
  · rename_i hz
    have hz' : ¬ 2 * (Finset.univ.filter fun i => r i = 0).card < n := fun hh => hz (by have := e.mpr hh; convert this)
    split at h
    · simp at h
    · rename_i hne
      simp only [Except.ok.injEq] at h
      subst h
      refine ⟨?_, ?_⟩
      · funext i
        simp only [relSize, typicalAbs]
        rw [if_neg (by convert hz')]
      · obtain ⟨v, hv⟩ := List.exists_mem_of_ne_nil _ hne
        rw [List.mem_map] at hv
        obtain ⟨u, hu, -⟩ := hv
        rw [List.mem_filter, List.mem_ofFn] at hu
        obtain ⟨⟨i, rfl⟩, hu⟩ := hu
        exact ⟨i, by simpa using hu⟩

/-- Relative sizes do not depend on the unit of measurement. -/
lemma relSize_smul {s : ℝ} (hs : s ≠ 0) {r : Fin n → ℝ} (hr : ∃ i, r i ≠ 0) : relSize (fun i => s * r i) = relSize r := by
  classical
  obtain ⟨i₀, hi₀⟩ := hr
  have hz : (Finset.univ.filter fun i => s * r i = 0) = Finset.univ.filter fun i => r i = 0 := by
    ext i; simp [hs]
  have ht : typicalAbs (fun i => s * r i) = |s| * typicalAbs r := by
    unfold typicalAbs
    by_cases h : 2 * (Finset.univ.filter fun i => r i = 0).card < n
    · rw [if_pos (by simp only [hz]; convert h), if_pos (by convert h)]
      unfold med
      have e : List.ofFn (fun i => |s * r i|) = (List.ofFn fun i => |r i|).map fun v => |s| * v + 0 := by
        rw [List.map_ofFn]; congr 1; funext i; simp [abs_mul]
      rw [e, medL_smul]
      intro h0
      have := congrArg List.length h0
      simp only [List.length_ofFn, List.length_nil] at this
      exact absurd i₀.2 (by omega)
    · rw [if_neg (by simp only [hz]; convert h), if_neg (by convert h)]
      have e : ((List.ofFn fun i => s * r i).filter fun v => v ≠ 0).map (fun v => |v|) = (((List.ofFn r).filter fun v => v ≠ 0).map fun v => |v|).map fun v => |s| * v + 0 := by
        have : (List.ofFn fun i => s * r i) = (List.ofFn r).map fun v => s * v := by rw [List.map_ofFn]; rfl
        rw [this, List.filter_map, List.map_map, List.map_map]
        have h2 : ((fun v : ℝ => decide (v ≠ 0)) ∘ fun v => s * v) = fun v => decide (v ≠ 0) := by
          funext v; simp [hs]
        rw [h2]
        refine List.map_congr_left fun v _ => ?_
        simp [abs_mul]
      rw [e, medL_smul]
      intro h0
      rw [List.map_eq_nil_iff, List.filter_eq_nil_iff] at h0
      exact absurd (h0 (r i₀) (List.mem_ofFn.mpr ⟨i₀, rfl⟩)) (by simpa using hi₀)
  funext i
  simp only [relSize]
  rw [ht, abs_mul]
  have : |s| ≠ 0 := abs_ne_zero.mpr hs
  rw [show 14826 / 10000 * (|s| * typicalAbs r) = |s| * (14826 / 10000 * typicalAbs r) by ring, mul_div_mul_left _ _ this]

lemma rmStep_inv' {ext : RmExt} {fn : WFun} {cy : ℝ × ℝ × ℝ} {Xs : Fin n → Fin p → ℝ} {ys wx we : Fin n → ℝ} {b : Fin p → ℝ} {b2 : ℝ} {wye wte : Fin n → ℝ}
    (h : rmStep ext fn cy Xs ys wx we = .ok (b, b2, wye, wte)) :
    wte = wx ∧ wye = fn.run (relSize fun i => ys i - lin Xs b i) cy ∧ ∃ i, ys i - lin Xs b i ≠ 0 := by
  unfold rmStep at h
  dsimp only at h
  split at h
  · simp at h
  · rename_i d hd
    simp only [Except.ok.injEq, Prod.mk.injEq] at h
    obtain ⟨rfl, -, rfl, rfl⟩ := h
    obtain ⟨rfl, hne⟩ := scaleRes_inv hd
    exact ⟨rfl, rfl, hne⟩

lemma rowDistances_inv' {X : Fin n → Fin p → ℝ} {d : Fin n → ℝ} (h : rowDistances X = .ok d) : d = fun i => rowLengths X i / med (rowLengths X) := by
  unfold rowDistances at h
  dsimp only at h
  split at h
  · simp at h
  · simp only [Except.ok.injEq] at h
    exact h.symm

lemma weightsFrom_pass {β : Type} {step : (Fin n → ℝ) → Except Err (β × ℝ × (Fin n → ℝ) × (Fin n → ℝ))} {o : RwOut β n} (hp : Pass step o) :
    WeightsFrom (zeroOut o.we o.w0) (zeroOut o.wte o.w0) (zeroOut o.wye o.w0) o.wte o.wye := by
  intro i
  have h0 := hp.w0 i
  have h1 := hp.we i
  change _ ↔ _ < 1 / 1000000 at h0
  split
  · rename_i h
    have := h0.mpr h
    simp [zeroOut, this]
  · rename_i h
    have hn : i ∉ o.w0 := fun hh => h (h0.mp hh)
    rw [if_neg (show ¬ _ < wMin from h)] at h1
    simp [zeroOut, hn, h1]

/-- C161 for robust M regression, in standardised units: the case weights are the weight function at the relative sizes of the differences between the standardised response and the published linear
function of the standardised predictors, and at the cases' relative distances from the centre. -/
theorem C161_rm_scaled {ext : RmExt} {pr : RmParams} {X : Fin n → Fin p → ℝ} {y : Fin n → ℝ} {f : RmFit n p} (h : rmFit ext pr X y = .ok f) (r : Fin n → ℝ)
    (hr : r = fun i => stdVec y f.yLoc f.ySca i - lin (stdMat X f.xLoc f.xSca) f.coefScaled i) (d : Fin n → ℝ) (hd : d = rowLengths (stdMat X f.xLoc f.xSca)) :
    (∃ i, r i ≠ 0) ∧ WeightsFrom f.caseweights f.xCaseweights f.yCaseweights
      (pr.fn.run (fun i => d i / med d) (cutX ext pr.specific p pr.probp1 pr.probp2 pr.probp3)) (pr.fn.run (relSize r) (cutY ext pr.probp1 pr.probp2 pr.probp3)) := by
  obtain ⟨-, e1, e2, e3, e4, -, dx, dy, o, hdx, hdy, hl, hcs, -, -, -, hw, hwx, hwy, -⟩ := rmFit_inv h
  have hp := rwLoop_pass _ _ _ _ _ _ _ _ _ _ (fun i => clip_ge _ i) (fun o h => by simp at h) hl o rfl
  obtain ⟨we, b2, -, hst⟩ := hp.last
  obtain ⟨g1, g2, g3⟩ := rmStep_inv' hst
  have hdx' := rowDistances_inv' hdx
  have hW := weightsFrom_pass hp
  rw [← hcs] at g2 g3
  rw [← hr] at g2
  refine ⟨by rw [hr]; exact g3, ?_⟩
  rw [g1] at hW
  rw [hw, hwx, hwy, hd, ← hdx', ← g2]
  exact hW

/-- With the mean as centre the residuals are the standardised ones in the unit of the response. -/
lemma rm_resid_mean {ext : RmExt} {pr : RmParams} {X : Fin n → Fin p → ℝ} {y : Fin n → ℝ} {f : RmFit n p} (h : rmFit ext pr X y = .ok f)
    (hm : pr.centre = .mean) (hsy : f.ySca ≠ 0) (i : Fin n) :
    f.residuals i = f.ySca * (stdVec y f.yLoc f.ySca i - lin (stdMat X f.xLoc f.xSca) f.coefScaled i) := by
  obtain ⟨-, e1, e2, e3, e4, hs, dx, dy, o, -, -, -, hcs, hco, hfit, -, -, -, -, -, -, hres⟩ := rmFit_inv h
  rw [← hcs] at hco
  have hmX : ∀ j, f.xLoc j = mean fun i => X i j := fun j => by rw [e1, hm]; rfl
  have hmy : f.yLoc = mean y := by rw [e3, hm]; rfl
  rw [hres, hfit i, hm]
  simp only [rmIntercept, Centre.isMean, if_true]
  rw [mean_sub' y (lin X f.coef), mean_lin, ← hmy]
  have h1 : lin X f.coef i - ∑ j, mean (fun i => X i j) * f.coef j = f.ySca * lin (stdMat X f.xLoc f.xSca) f.coefScaled i := by
    simp only [lin]
    rw [← Finset.sum_sub_distrib, Finset.mul_sum]
    refine Finset.sum_congr rfl fun j _ => ?_
    rw [hco, ← hmX]
    simp only [stdMat, std1, if_neg (hs j)]
    ring
  have h2 : f.ySca * stdVec y f.yLoc f.ySca i = y i - f.yLoc := by
    simp only [stdVec, std1, if_neg hsy]
    field_simp
  rw [mul_sub, h2, ← h1]
  ring

/-- C161 for robust M regression with the mean as centre: the case weights are the weight function at the relative sizes of `residuals_` and at the cases' relative distances from the centre. -/
theorem C161_rm_partial {ext : RmExt} {pr : RmParams} {X : Fin n → Fin p → ℝ} {y : Fin n → ℝ} {f : RmFit n p} (h : rmFit ext pr X y = .ok f) (hm : pr.centre = .mean) (hsy : f.ySca ≠ 0)
    (d : Fin n → ℝ) (hd : d = rowLengths (stdMat X f.xLoc f.xSca)) :
    WeightsFrom f.caseweights f.xCaseweights f.yCaseweights
      (pr.fn.run (fun i => d i / med d) (cutX ext pr.specific p pr.probp1 pr.probp2 pr.probp3)) (pr.fn.run (relSize f.residuals) (cutY ext pr.probp1 pr.probp2 pr.probp3)) := by
  obtain ⟨hne, hW⟩ := C161_rm_scaled h _ rfl d hd
  have e : f.residuals = fun i => f.ySca * (stdVec y f.yLoc f.ySca i - lin (stdMat X f.xLoc f.xSca) f.coefScaled i) := funext (rm_resid_mean h hm hsy)
  rw [e, relSize_smul hsy hne]
  exact hW

/-- Beyond the first cutoff the weight is below one. -/
lemma wfun_lt {fn : WFun} (hfn : fn ≠ .fair) {c : ℝ × ℝ × ℝ} (hc : UsualCutoffs c) (x : Fin n → ℝ) (i : Fin n) (hx : c.1 < x i) : fn.run x c i < 1 := by
  obtain ⟨c1, c2, c3⟩ := c
  obtain ⟨h1, h2, h3⟩ := hc
  dsimp only at h1 h2 h3 hx
  have hpos : 0 < x i := by linarith
  have hq : c1 / x i < 1 := by rw [div_lt_one hpos]; exact hx
  cases fn with
  | fair => exact absurd rfl hfn
  | huber =>
    show huber x c1 i < 1
    simp [huber, maskSet, not_le.mpr hx, hx, abs_of_pos hpos, hq]
  | hampel =>
    show hampel x c1 c2 c3 i < 1
    set t := x i with ht
    have g1 : maskSet x (fun i => x i ≤ c1) (fun _ => 1) i = t := by simp [maskSet, not_le.mpr hx, ← ht]
    unfold hampel
    set x1 := maskSet x (fun i => x i ≤ c1) (fun _ => 1) with hx1
    by_cases h4 : t ≤ c2
    · have g2 : maskSet x1 (fun i => x1 i > c1 ∧ x1 i ≤ c2) (fun i => c1 / |x1 i|) i = c1 / t := by
        simp [maskSet, g1, hx, h4, abs_of_pos hpos]
      set x2 := maskSet x1 (fun i => x1 i > c1 ∧ x1 i ≤ c2) (fun i => c1 / |x1 i|) with hx2
      have g3 : maskSet x2 (fun i => x2 i > c2 ∧ x2 i ≤ c3) (fun i => (c1 * (c3 - x2 i)) / ((c3 - c2) * |x2 i|)) i = c1 / t := by
        have : ¬ (c2 < c1 / t) := by linarith
        simp [maskSet, g2, this]
      set x3 := maskSet x2 (fun i => x2 i > c2 ∧ x2 i ≤ c3) (fun i => (c1 * (c3 - x2 i)) / ((c3 - c2) * |x2 i|)) with hx3
      have : ¬ (c3 < c1 / t) := by linarith
      simp [maskSet, g3, this, hq]
    · have g2 : maskSet x1 (fun i => x1 i > c1 ∧ x1 i ≤ c2) (fun i => c1 / |x1 i|) i = t := by
        simp [maskSet, g1, h4]
      set x2 := maskSet x1 (fun i => x1 i > c1 ∧ x1 i ≤ c2) (fun i => c1 / |x1 i|) with hx2
      push Not at h4
      by_cases h5 : t ≤ c3
      · have g3 : maskSet x2 (fun i => x2 i > c2 ∧ x2 i ≤ c3) (fun i => (c1 * (c3 - x2 i)) / ((c3 - c2) * |x2 i|)) i = (c1 * (c3 - t)) / ((c3 - c2) * t) := by
          simp [maskSet, g2, h4, h5, abs_of_pos hpos]
        set x3 := maskSet x2 (fun i => x2 i > c2 ∧ x2 i ≤ c3) (fun i => (c1 * (c3 - x2 i)) / ((c3 - c2) * |x2 i|)) with hx3
        have hd : 0 < c3 - c2 := by linarith
        have hv : (c1 * (c3 - t)) / ((c3 - c2) * t) < 1 := by
          rw [div_lt_one (by positivity)]
          nlinarith
        have : ¬ (c3 < (c1 * (c3 - t)) / ((c3 - c2) * t)) := by linarith
        simp [maskSet, g3, this, hv]
      · have g3 : maskSet x2 (fun i => x2 i > c2 ∧ x2 i ≤ c3) (fun i => (c1 * (c3 - x2 i)) / ((c3 - c2) * |x2 i|)) i = t := by
          simp [maskSet, g2, h5]
        set x3 := maskSet x2 (fun i => x2 i > c2 ∧ x2 i ≤ c3) (fun i => (c1 * (c3 - x2 i)) / ((c3 - c2) * |x2 i|)) with hx3
        push Not at h5
        simp [maskSet, g3, h5]

/-- Five cases. -/
noncomputable def cwX : Fin 5 → Fin 1 → ℝ := fun i _ => ![-1, -1, 0, 1, 1] i
noncomputable def cwY : Fin 5 → ℝ := ![-3, 0, 2, -1, 2]

lemma cw_medX : med (fun i => cwX i 0) = 0 := med_pinned _ 0 {0, 1, 2} {2, 3, 4} (by decide) (by decide) (by simp [cwX]) (by simp [cwX])
lemma cw_absX : med (fun i => |cwX i 0|) = 1 := med_pinned _ 1 {0, 1, 2} {0, 1, 3} (by decide) (by decide) (by simp [cwX]) (by simp [cwX])
lemma cw_medY : med cwY = 0 := med_pinned _ 0 {0, 1, 3} {1, 2, 4} (by decide) (by decide) (by simp [cwY]) (by simp [cwY])
lemma cw_absY : med (fun i => |cwY i|) = 2 := med_pinned _ 2 {1, 2, 3} {0, 2, 4} (by decide) (by decide) (by simp [cwY]) (by simp [cwY]; norm_num)
lemma cw_madX : mad (fun i => cwX i 0) = 1 / madConst := by
  rw [mad_med, cw_medX]; simp only [sub_zero]; rw [cw_absX]
lemma cw_madY : mad cwY = 2 / madConst := by
  rw [mad_med, cw_medY]; simp only [sub_zero]; rw [cw_absY]

/-- C161 fails for robust M regression with the default settings: the intercept is the median of the residuals, but the residuals behind the weights have none.  Of five cases, all get weight one although
the first one's residual is so large that the weight function is below one there. -/
theorem C161_rm_violated (ext : RmExt) (hq : IsQuantiles ext.normPpf ext.chi2Ppf)
    (hls : ∀ {n p : ℕ} (X : Fin n → Fin p → ℝ) (y : Fin n → ℝ), IsLeastSquares X y (ext.lstsq X y)) (hc1 : 16 / 10 ≤ ext.normPpf (95 / 100)) (hc2 : ext.normPpf (95 / 100) ≤ 17 / 10)
    (hx : 1 ≤ ext.chi2Ppf (95 / 100) 1) (copy : Bool) :
    ∃ f, rmFit ext ⟨.hampel, 95 / 100, 975 / 1000, 999 / 1000, .median, .mad, true, 100, 1 / 100, copy⟩ cwX cwY = .ok f ∧
      (∀ i, f.caseweights i = 1 ∧ f.yCaseweights i = 1) ∧ f.residuals = ![-3, 0, 1, -3, 0] ∧
      WFun.hampel.run (relSize f.residuals) (cutY ext (95 / 100) (975 / 1000) (999 / 1000)) 0 < 1 := by
  have hm := madC_pos
  have hcy : UsualCutoffs (cutY ext (95 / 100) (975 / 1000) (999 / 1000)) :=
    ⟨by show 1 ≤ ext.normPpf (95 / 100); linarith, (hq.norm_mono _ _ (by norm_num) (by norm_num) (by norm_num)).le, (hq.norm_mono _ _ (by norm_num) (by norm_num) (by norm_num)).le⟩
  have hcx : UsualCutoffs (cutX ext true 1 (95 / 100) (975 / 1000) (999 / 1000)) :=
    ⟨hx, (hq.chi_mono _ _ _ one_pos (by norm_num) (by norm_num) (by norm_num)).le, (hq.chi_mono _ _ _ one_pos (by norm_num) (by norm_num) (by norm_num)).le⟩
  have h0 : (1 : ℝ) / madConst ≠ 0 := by positivity
  have h02 : (2 : ℝ) / madConst ≠ 0 := by positivity
  obtain ⟨f, hf⟩ := (C145_rm_model_iff ext hls ⟨.hampel, 95 / 100, 975 / 1000, 999 / 1000, .median, .mad, true, 100, 1 / 100, copy⟩ cwX cwY).mpr
    ⟨⟨⟨by norm_num, by norm_num, fun _ => ⟨by norm_num, by norm_num, by norm_num⟩⟩, ⟨by norm_num, by norm_num⟩, fun h => by simp at h⟩,
     ⟨fun j => by rw [Subsingleton.elim j 0]; show mad (fun i => cwX i 0) ≠ 0; rw [cw_madX]; exact h0, by
        have e : (fun i => Real.sqrt (∑ j, ((cwX i j - Centre.median.run cwX j) / ScaleOpt.mad.run cwX j) ^ 2)) = fun i => |cwX i 0| * madConst := by
          funext i
          have h1 : Centre.median.run cwX 0 = 0 := cw_medX
          have h2 : ScaleOpt.mad.run cwX 0 = 1 / madConst := cw_madX
          rw [Fin.sum_univ_one, h1, h2, Real.sqrt_sq_eq_abs, sub_zero, div_div_eq_mul_div, div_one, abs_mul, abs_of_pos hm]
        rw [e, med_pinned (fun i => |cwX i 0| * madConst) madConst {0, 1, 2} {0, 1, 3} (by decide) (by decide) (by simp [cwX, hm.le]) (by simp [cwX])]
        exact hm.ne', .inl ⟨rfl, rfl⟩, by
        rintro ⟨β, hβ⟩
        have h1 : Centre.median.run cwX 0 = 0 := cw_medX
        have h3 : Centre.median.run (asCol cwY) 0 = 0 := cw_medY
        have e0 := hβ 2
        rw [Fin.sum_univ_one, h1, h3] at e0
        simp [cwX, cwY] at e0⟩⟩
  obtain ⟨-, e1, e2, e3, e4, -, dx, dy, o, -, -, -, hcs, hco, hfit, -, -, -, -, -, -, hres⟩ := rmFit_inv hf
  have h1 : f.xLoc 0 = 0 := by rw [e1]; exact cw_medX
  have h2 : f.xSca 0 = 1 / madConst := by rw [e2]; exact cw_madX
  have h3 : f.yLoc = 0 := by rw [e3]; exact cw_medY
  have h4 : f.ySca = 2 / madConst := by rw [e4]; exact cw_madY
  have hZ : stdMat cwX f.xLoc f.xSca = fun i _ => cwX i 0 * madConst := by
    funext i j
    rw [Subsingleton.elim j 0]
    simp only [stdMat, std1, h1, h2, if_neg h0, sub_zero]; field_simp
  have hY : stdVec cwY f.yLoc f.ySca = fun i => cwY i * madConst / 2 := by
    funext i
    simp only [stdVec, std1, h3, h4, if_neg h02, sub_zero]; field_simp
  have hb : ext.lstsq (stdMat cwX f.xLoc f.xSca) (stdVec cwY f.yLoc f.ySca) = fun _ => 1 / 2 := by
    have := hls (stdMat cwX f.xLoc f.xSca) (stdVec cwY f.yLoc f.ySca) 0
    generalize ext.lstsq (stdMat cwX f.xLoc f.xSca) (stdVec cwY f.yLoc f.ySca) = b at this ⊢
    rw [hZ, hY] at this
    simp [Fin.sum_univ_succ, cwX, cwY] at this
    funext j
    rw [Subsingleton.elim j 0]
    have h5 : (madConst : ℝ) ^ 2 * (b 0 - 1 / 2) = 0 := by linear_combination (-1 / 4) * this
    have := (mul_eq_zero.mp h5).resolve_left (by positivity)
    linarith
  have hr : (fun i => stdVec cwY f.yLoc f.ySca i - lin (stdMat cwX f.xLoc f.xSca) (fun _ => 1 / 2) i) = fun i => ![-2, 1, 2, -2, 1] i * (madConst / 2) := by
    rw [hZ, hY]
    funext i
    simp only [lin, Fin.sum_univ_one]
    fin_cases i <;> simp [cwX, cwY] <;> ring
  have hh : (0 : ℝ) < madConst / 2 := by positivity
  have hab : ∀ i : Fin 5, |(![-2, 1, 2, -2, 1] : Fin 5 → ℝ) i * (madConst / 2)| = (![2, 1, 2, 2, 1] : Fin 5 → ℝ) i * (madConst / 2) := by
    intro i
    rw [abs_mul, abs_of_pos hh]
    congr 1
    fin_cases i <;> simp
  have hmr : med (fun i => |(![-2, 1, 2, -2, 1] : Fin 5 → ℝ) i * (madConst / 2)|) = madConst := by
    simp only [hab]
    refine med_pinned _ _ {0, 1, 2} {0, 2, 3} (by decide) (by decide) ?_ ?_
    all_goals
      intro i hi
      simp only [Finset.mem_insert, Finset.mem_singleton] at hi
      rcases hi with rfl | rfl | rfl <;> simp <;> linarith
  have hrt : TypicalValues (ext.normPpf (95 / 100)) (fun i => (![-2, 1, 2, -2, 1] : Fin 5 → ℝ) i * (madConst / 2)) := by
    refine ⟨by rw [hmr]; exact hm, fun i => ?_⟩
    rw [hmr]
    have : madConst ≤ ext.normPpf (95 / 100) * (14826 / 10000 * madConst) := by nlinarith
    refine le_trans ?_ this
    rw [hab]
    fin_cases i <;> simp <;> linarith
  have hyt : TypicalValues (ext.normPpf (95 / 100)) (fun i => cwY i - med cwY) := by
    rw [cw_medY]
    simp only [sub_zero]
    refine ⟨by rw [cw_absY]; norm_num, fun i => ?_⟩
    rw [cw_absY]
    have : (3 : ℝ) ≤ ext.normPpf (95 / 100) * (14826 / 10000 * 2) := by nlinarith
    refine le_trans ?_ this
    fin_cases i <;> simp [cwY] <;> norm_num
  have hXt : TypicalSizes (cutX ext true 1 (95 / 100) (975 / 1000) (999 / 1000)).1 (rowLengths (stdMat cwX f.xLoc f.xSca)) := by
    have e : rowLengths (stdMat cwX f.xLoc f.xSca) = fun i => |cwX i 0| * madConst := by
      rw [hZ]; funext i
      simp only [rowLengths]
      rw [Fin.sum_univ_one, Real.sqrt_sq_eq_abs, abs_mul, abs_of_pos hm]
    have em : med (fun i => |cwX i 0| * madConst) = madConst :=
      med_pinned (fun i => |cwX i 0| * madConst) madConst {0, 1, 2} {0, 1, 3} (by decide) (by decide) (by simp [cwX, hm.le]) (by simp [cwX])
    rw [e]
    refine ⟨by rw [em]; exact hm, fun i => ?_⟩
    rw [em]
    have : madConst ≤ (cutX ext true 1 (95 / 100) (975 / 1000) (999 / 1000)).1 * madConst := by
      have : 1 ≤ (cutX ext true 1 (95 / 100) (975 / 1000) (999 / 1000)).1 := hx
      nlinarith
    refine le_trans ?_ this
    fin_cases i <;> simp [cwX, hm.le]
  obtain ⟨g1, g2⟩ := C151_rm hf (by norm_num) (by simp) hcy hcx hXt hyt (fun _ => 1 / 2) hb.symm _ hr.symm hrt (by
    have : (Finset.univ.filter fun i => (![-2, 1, 2, -2, 1] : Fin 5 → ℝ) i * (madConst / 2) = 0) = ∅ := by
      apply Finset.filter_eq_empty_iff.mpr
      intro i _
      fin_cases i <;> simp [hm.ne']
    rw [this]; simp)
  have hcoef : f.coef 0 = 1 := by
    rw [hco, h2, h4, ← hcs, g1]
    field_simp
  have hmed : med (fun i => cwY i - lin cwX f.coef i) = 1 := by
    have e : (fun i => cwY i - lin cwX f.coef i) = ![-2, 1, 2, -2, 1] := by
      funext i
      simp only [lin, Fin.sum_univ_one, hcoef]
      fin_cases i <;> simp [cwX, cwY] <;> norm_num
    rw [e]
    refine med_pinned _ _ {0, 1, 3} {1, 2, 4} (by decide) (by decide) ?_ ?_ <;> simp <;> norm_num
  have hresid : f.residuals = ![-3, 0, 1, -3, 0] := by
    funext i
    rw [hres, hfit]
    simp only [rmIntercept, Centre.isMean, Bool.false_eq_true, if_false, hmed]
    simp only [lin, Fin.sum_univ_one, hcoef]
    fin_cases i <;> simp [cwX, cwY] <;> norm_num
  refine ⟨f, hf, fun i => ⟨(g2 i).1, (g2 i).2.2⟩, hresid, wfun_lt (by simp) hcy _ 0 ?_⟩
  rw [hresid]
  have hta : typicalAbs (![-3, 0, 1, -3, 0] : Fin 5 → ℝ) = 1 := by
    classical
    unfold typicalAbs
    rw [if_pos (by
      have : (Finset.univ.filter fun i => (![-3, 0, 1, -3, 0] : Fin 5 → ℝ) i = 0).card = 2 := by
        have : (Finset.univ.filter fun i => (![-3, 0, 1, -3, 0] : Fin 5 → ℝ) i = 0) = {1, 4} := by
          ext i; fin_cases i <;> simp
        rw [this]; rfl
      rw [this]; norm_num)]
    exact med_pinned _ _ {1, 2, 4} {0, 2, 3} (by decide) (by decide) (by simp) (by simp)
  simp only [relSize, hta]
  show ext.normPpf (95 / 100) < _
  refine hc2.trans_lt ?_
  norm_num

/-! ### Sparse partial robust M regression -/

/-- With unit weights and the mean as centre these differences are proportional to `residuals_`. -/
lemma sprm_relSize_unweighted {ext : SprmExt} {pr : SprmParams} {X : Fin n → Fin p → ℝ} {y : Fin n → ℝ} {f : SprmFit n p} (h : (sprmFit ext pr X y).2 = .ok f)
    (hm : pr.centre = .mean) (hsy : f.ySca ≠ 0) (v l r : Fin n → ℝ) (hv : v = stdVec y f.yLoc f.ySca) (hl : l = lin (selCols (stdMat X f.xLoc f.xSca) f.keep) f.coefScaled)
    (hr : ∀ i, r i = v i - (Real.sqrt 1 * l i + mean fun k => Real.sqrt 1 * (v k - l k))) (hne : ∃ i, r i ≠ 0) : relSize f.residuals = relSize r := by
  obtain ⟨-, e1, e2, e3, e4, hk, -, rc, dx, dy, cx, o, -, -, -, -, -, hcs, hco, hfit, hint, -, -, -, -, -, -, hres, -⟩ := sprmFit_inv h
  have hmX : ∀ j, f.xLoc j = mean fun i => X i j := fun j => by rw [e1, hm]; rfl
  have hmy : f.yLoc = mean y := by rw [e3, hm]; rfl
  have hkeep : ∀ a, f.xSca (f.keep.get a) ≠ 0 := by
    intro a
    have : f.keep.get a ∈ keepVars f.xSca := by rw [← hk]; exact List.get_mem _ _
    simp only [keepVars, List.mem_filter, decide_eq_true_eq, not_lt] at this
    intro h0
    rw [h0] at this
    norm_num at this
  have hn : 0 < n := by obtain ⟨i, -⟩ := hne; exact i.pos
  have hlX : ∀ i, f.ySca * l i = lin (selCols X f.keep) f.coef i - ∑ a, f.xLoc (f.keep.get a) * f.coef a := by
    intro i
    rw [hl]
    simp only [lin]
    rw [← Finset.sum_sub_distrib, Finset.mul_sum]
    refine Finset.sum_congr rfl fun a _ => ?_
    rw [hco, hcs]
    have := hkeep a
    simp only [selCols, stdMat, std1, if_neg this]
    field_simp
  have hvy : ∀ i, f.ySca * v i = y i - f.yLoc := by
    intro i
    rw [hv]
    simp only [stdVec, std1, if_neg hsy]
    field_simp
  have e : f.residuals = fun i => f.ySca * r i := by
    funext i
    rw [hres, hfit, hint, hm, hr]
    simp only [snIntercept, Real.sqrt_one, one_mul]
    rw [mul_sub, mul_add, hvy, hlX]
    have : f.ySca * mean (fun k => v k - l k) = mean (fun k => (y k - lin (selCols X f.keep) f.coef k) - (f.yLoc - ∑ a, f.xLoc (f.keep.get a) * f.coef a)) := by
      rw [mean_eq, mean_eq, ← mul_div_assoc, Finset.mul_sum]
      congr 1
      refine Finset.sum_congr rfl fun k _ => ?_
      rw [mul_sub, hvy, hlX]; ring
    rw [this, mean_sub' (fun k => y k - lin (selCols X f.keep) f.coef k), mean_const hn]
    ring
  rw [e, relSize_smul hsy hne]

/-- C161 for sparse partial robust M regression, as far as it holds: the response weights are the weight function at the relative sizes of differences between the standardised response and the fitted
values of the *weighted* data of the last fit, which are the square roots of the weights `w` of that fit times the published linear function, plus a constant.  If these weights are one and
the centre is the mean, the differences have the same relative sizes as `residuals_`. -/
theorem C161_sprm_partial {ext : SprmExt} {pr : SprmParams} {X : Fin n → Fin p → ℝ} {y : Fin n → ℝ} {f : SprmFit n p} (h : (sprmFit ext pr X y).2 = .ok f) (v l : Fin n → ℝ)
    (hv : v = stdVec y f.yLoc f.ySca) (hl : l = lin (selCols (stdMat X f.xLoc f.xSca) f.keep) f.coefScaled) :
    ∃ w ux : Fin n → ℝ, (∀ i, 1 / 1000000 ≤ w i) ∧ ∃ r : Fin n → ℝ,
      (∀ i, r i = v i - (Real.sqrt (w i) * l i + mean fun k => Real.sqrt (w k) * (v k - l k))) ∧ (∃ i, r i ≠ 0) ∧
      (pr.centre = .mean → f.ySca ≠ 0 → (∀ i, w i = 1) → relSize r = relSize f.residuals) ∧
      WeightsFrom f.caseweights f.xCaseweights f.yCaseweights ux (pr.fn.run (relSize r) (cutY ext.toRm pr.probp1 pr.probp2 pr.probp3)) := by
  obtain ⟨-, -, -, -, -, -, -, rc, dx, dy, cx, o, -, -, -, ho, -, hcs, -, -, -, -, hw, hwx, hwy, -⟩ := sprmFit_inv h
  have hp := rwLoop_pass _ _ _ _ _ _ _ _ _ _ (fun i => clip_ge _ i) (fun o h => by simp at h) ho o rfl
  obtain ⟨we, b2, hwe, hst⟩ := hp.last
  refine ⟨we, o.wte, hwe, ?_⟩
  unfold sprmStep at hst
  split at hst
  · simp at hst
  rename_i g hg
  dsimp only at hst
  split at hst
  · simp at hst
  rename_i u hu
  split at hst
  · simp at hst
  simp only [Except.ok.injEq, Prod.mk.injEq] at hst
  obtain ⟨hgb, -, hye, -⟩ := hst
  obtain ⟨hru, hne⟩ := scaleRes_inv hu
  have hform : ∀ i, stdVec y f.yLoc f.ySca i - g.fitted i = v i - (Real.sqrt (we i) * l i + mean fun k => Real.sqrt (we k) * (v k - l k)) := by
    intro i
    obtain ⟨-, -, -, -, -, -, -, -, -, hint, hfit, -⟩ := snFit_inv hg
    have hlin : ∀ i, lin (weightRows (selCols (stdMat X f.xLoc f.xSca) f.keep) we) g.coef i = Real.sqrt (we i) * l i := by
      intro i
      rw [hl, hcs, ← hgb]
      simp only [lin, weightRows, Finset.mul_sum]
      exact Finset.sum_congr rfl fun j _ => by ring
    rw [← hv, hfit, hint, hlin]
    congr 2
    show mean _ = mean _
    congr 1
    funext k
    rw [hlin, hv]
    ring
  refine ⟨_, hform, hne, fun hm hsy h1 => ?_, ?_⟩
  · exact (sprm_relSize_unweighted h hm hsy v l _ hv hl (fun i => by rw [hform i]; simp only [h1]) hne).symm
  · rw [hw, hwx, hwy, ← hru, hye]
    exact weightsFrom_pass hp

/-- Nine cases that lie on the line `y = x`. -/
noncomputable def cwV : Fin 9 → ℝ := ![0, 1, 1, -1, -1, 3, -3, -3, 8]
noncomputable def cwPr (copy : Bool) : SprmParams :=
  { nComponents := 1, eta := 0, fn := .huber, probp1 := 95 / 100, probp2 := 975 / 1000, probp3 := 999 / 1000
    centre := .median, scale := .plain .mad, maxit := 2, tol := 1 / 100, specific := false, pcapp := false, copy := copy }

/-- The medians of multiples of the nine values. -/
lemma cw_meds {k : ℝ} (hk : 0 < k) : med (fun i => cwV i * k) = 0 ∧ med (fun i => |cwV i * k|) = k := by
  constructor
  · refine med_pinned _ _ {0, 3, 4, 6, 7} {0, 1, 2, 5, 8} (by decide) (by decide) ?_ ?_ <;> simp [cwV] <;> positivity
  · have ha : ∀ i, |cwV i * k| = |cwV i| * k := fun i => by rw [abs_mul, abs_of_pos hk]
    simp only [ha]
    refine med_pinned _ _ {0, 1, 2, 3, 4} {1, 2, 5, 6, 8} (by decide) (by decide) ?_ ?_
    · simp [cwV]; linarith
    · simp [cwV]; exact ⟨by linarith, by linarith⟩

/-- SNIPLS with one component on a centred predictor equal to the response. -/
lemma snfit_exact {m : ℕ} (u : Fin m → ℝ) (hu : mean u = 0) (hu2 : 0 < ∑ i, u i ^ 2) :
    ∃ (g : SnFit m 1) (c : SnComp m 1), snFit ⟨0, 1, .mean, .noneOpt⟩ (fun i _ => u i) u = .ok g ∧ g.comps = [c] ∧ (∀ i, c.t i = u i) ∧ (∀ i, g.fitted i = u i) ∧ g.coef = fun _ => 1 := by
  obtain ⟨g, hg⟩ := C44_one_component_total ⟨0, 1, .mean, .noneOpt⟩ (fun i (_ : Fin 1) => u i) u (le_refl _) zero_lt_one rfl (fun j => by simp [ScaleOpt.run])
  have hmx : Centre.mean.run (fun i (_ : Fin 1) => u i) = fun _ => 0 := by
    funext j; exact hu
  have hmy : Centre.mean.run (asCol u) 0 = 0 := hu
  obtain ⟨-, e1, e2, e3, e4, -, hl, -, hco, hint, hfit, -⟩ := snFit_inv hg
  simp only at e1 e2 e3 e4 hl hint
  rw [hmx] at e1
  rw [hmy] at e3
  have e2' : g.xSca = fun _ => 1 := e2
  have e4' : g.ySca = 1 := e4
  have hX0 : stdMat (fun i (_ : Fin 1) => u i) g.xLoc g.xSca = fun i _ => u i := by
    rw [e1, e2']; funext i j; simp [stdMat, std1]
  have hy0 : stdVec u g.yLoc g.ySca = u := by
    rw [e3, e4']; funext i; simp [stdVec, std1]
  rw [hX0, hy0] at hl
  have hloop : ∃ c : SnComp m 1, snLoop 0 1 (fun i (_ : Fin 1) => u i) u ∅ = .ok [c] ∧ ∀ i, c.t i = u i := by
    have hcov : ∑ i, u i * u i = ∑ i, u i ^ 2 := Finset.sum_congr rfl fun i _ => by ring
    have hw : snWeights 0 (fun i (_ : Fin 1) => u i) u = (fun _ => 1, fun _ => 1) := by
      unfold snWeights
      have hs : Real.sqrt (∑ _j : Fin 1, (∑ i, u i ^ 2) ^ 2) = ∑ i, u i ^ 2 := by
        rw [Fin.sum_univ_one, Real.sqrt_sq hu2.le]
      simp only [hcov]
      rw [hs]
      simp only [div_self hu2.ne']
      simp [npSign]
    have ht : ∀ i, ∑ j : Fin 1, u i * (if j ∈ (∅ ∪ Finset.univ.filter fun _ : Fin 1 => (0 : ℝ) < 1) then (1 : ℝ) else 0) = u i := by
      intro i; simp
    simp only [snLoop]
    rw [if_neg (by
      intro h
      have := h 0
      rw [hcov] at this
      exact hu2.ne' this)]
    simp only [hw]
    rw [if_neg (by simp)]
    simp only [ht]
    rw [if_neg hu2.ne']
    exact ⟨_, rfl, fun i => rfl⟩
  obtain ⟨c, hc, hct⟩ := hloop
  rw [hc] at hl
  simp only [Except.ok.injEq] at hl
  have hne := (C45_normal_equations hg).1
  rw [hX0, hy0] at hne
  have hT : ∀ (l : List (SnComp m 1)) (hl : [c] = l), ∃ a : Fin l.length, ∀ i, compT l i a = u i := by
    intro l hl; subst hl
    exact ⟨0, fun i => hct i⟩
  obtain ⟨a, ha⟩ := hT _ hl
  have hb := hne a
  simp only [dot, lin, ha, Fin.sum_univ_one] at hb
  have hB : g.coefScaled 0 = 1 := by
    have h2 : (∑ i, u i ^ 2) * (1 - g.coefScaled 0) = 0 := by
      rw [← hb, Finset.sum_mul]
      exact Finset.sum_congr rfl fun i _ => by ring
    have := (mul_eq_zero.mp h2).resolve_left hu2.ne'
    linarith
  have hcoef : g.coef = fun _ => 1 := by funext j; rw [Subsingleton.elim j 0, hco, e2', e4', hB]; norm_num
  have hi : g.intercept = 0 := by
    rw [hint]
    show Direpack.mean _ = _
    have : (fun i => u i - lin (fun i (_ : Fin 1) => u i) g.coef i) = fun _ => 0 := by
      funext i; simp [lin, hcoef]
    rw [this]
    simp [mean_eq]
  refine ⟨g, c, hg, hl.symm, hct, fun i => ?_, hcoef⟩
  rw [hfit, hi]
  simp [lin, hcoef]

/-- C161 fails for sparse partial robust M regression beyond the intercept: the nine cases all lie exactly on the published model, all residuals are zero, but the last case has response weight below one.
(Any quantile function with the 95% point between 1.6 and 1.7.) -/
theorem C161_sprm_violated (ext : SprmExt) (hc1 : 16 / 10 ≤ ext.normPpf (95 / 100)) (hc2 : ext.normPpf (95 / 100) ≤ 17 / 10) (copy : Bool) :
    ∃ f, (sprmFit ext (cwPr copy) (fun i (_ : Fin 1) => cwV i) cwV).2 = .ok f ∧ (∀ i, f.residuals i = 0) ∧ f.yCaseweights 8 < 1 := by
  have hm := madC_pos
  have hm1 : (madConst : ℝ) ≤ 6745 / 10000 := by unfold madConst; norm_num
  have hm2 : (6744 : ℝ) / 10000 ≤ madConst := by unfold madConst; norm_num
  set c := ext.normPpf (95 / 100) with hc
  set X : Fin 9 → Fin 1 → ℝ := fun i _ => cwV i with hX
  -- standardised data
  have hmed : med cwV = 0 := by have := (cw_meds one_pos).1; simpa using this
  have hmad : mad cwV = 1 / madConst := by
    rw [mad_med, hmed]
    have := (cw_meds one_pos).2
    simp only [mul_one] at this
    simp only [sub_zero, this]
  have h0 : (1 : ℝ) / madConst ≠ 0 := by positivity
  have hXs : scaleMat X (Centre.median.run X) (ScaleOpt.mad.run X) = fun i _ => cwV i * madConst := by
    funext i j
    show (cwV i - med cwV) / (if mad cwV = 0 then 1 else mad cwV) = _
    rw [hmed, hmad, if_neg h0, sub_zero, div_div_eq_mul_div, div_one]
  have hys : (fun i => scaleMat (asCol cwV) (Centre.median.run (asCol cwV)) (ScaleOpt.mad.run (asCol cwV)) i 0) = fun i => cwV i * madConst := by
    funext i
    show (cwV i - med cwV) / (if mad cwV = 0 then 1 else mad cwV) = _
    rw [hmed, hmad, if_neg h0, sub_zero, div_div_eq_mul_div, div_one]
  -- distances
  have hdist : ∀ {k : ℕ} (hk : k = 1) (Z : Fin 9 → Fin k → ℝ) (hZ : ∀ i a, Z i a = cwV i * madConst), rowDistances Z = .ok fun i => |cwV i| := by
    rintro k rfl Z hZ
    unfold rowDistances
    have hd : ∀ i : Fin 9, Real.sqrt (∑ a : Fin 1, Z i a ^ 2) = |cwV i * madConst| := by
      intro i
      rw [Fin.sum_univ_one, hZ, Real.sqrt_sq_eq_abs]
    simp only [hd, (cw_meds hm).2, if_neg hm.ne']
    congr 1
    funext i
    rw [abs_mul, abs_of_pos hm, mul_div_assoc, div_self hm.ne', mul_one]
  -- Huber's weights
  have hhub : ∀ (v : Fin 9 → ℝ) i, WFun.huber.run v (cutY ext.toRm (95 / 100) (975 / 1000) (999 / 1000)) i = if v i ≤ c then 1 else c / |v i| := by
    intro v i
    show huber v c i = _
    have : ¬ c < 1 := by linarith
    by_cases hv : v i ≤ c
    · simp [huber, maskSet, hv, this]
    · simp [huber, maskSet, hv, not_le.mp hv]
  -- the starting weights
  set q := c / Real.sqrt madConst with hqd
  have hsk : 0 < Real.sqrt (madConst : ℝ) := Real.sqrt_pos.mpr hm
  have hq0 : 0 < q := div_pos (by linarith) hsk
  have hq2 : q ^ 2 = c ^ 2 / madConst := by rw [hqd, div_pow, Real.sq_sqrt hm.le]
  have hq2' : q ^ 2 * madConst = c ^ 2 := by rw [hq2]; field_simp
  have hqu : q ≤ 21 / 10 := by nlinarith
  have hql : 19 / 10 ≤ q := by nlinarith
  set we : Fin 9 → ℝ := clipW fun i => WFun.huber.run (fun i => |cwV i|) (cutY ext.toRm (95 / 100) (975 / 1000) (999 / 1000)) i *
    WFun.huber.run (fun i => |cwV i * madConst|) (cutY ext.toRm (95 / 100) (975 / 1000) (999 / 1000)) i with hwe
  have hlow : ∀ i, |cwV i| = 0 ∨ |cwV i| = 1 → Real.sqrt (we i) = 1 := by
    intro i hi
    have h1 : |cwV i| ≤ c := by rcases hi with h | h <;> rw [h] <;> linarith
    have h2 : |cwV i * madConst| ≤ c := by
      rw [abs_mul, abs_of_pos hm]
      rcases hi with h | h <;> rw [h] <;> linarith
    have : we i = 1 := by
      rw [hwe]
      unfold clipW
      simp only [hhub, if_pos h1, if_pos h2]
      norm_num [wMin]
    rw [this, Real.sqrt_one]
  have hhigh : ∀ i t, 3 ≤ t → t ≤ 8 → |cwV i| = t → Real.sqrt (we i) = q / t := by
    intro i t ht1 ht2 hi
    have h1 : ¬ |cwV i| ≤ c := by rw [hi]; linarith
    have hk : |cwV i * madConst| = t * madConst := by rw [abs_mul, abs_of_pos hm, hi]
    have h2 : ¬ |cwV i * madConst| ≤ c := by rw [hk]; nlinarith
    have hw : we i = (q / t) ^ 2 := by
      rw [hwe]
      unfold clipW
      simp only [hhub, if_neg h1, if_neg h2]
      rw [hk, hi, abs_of_pos (by linarith : 0 < t), abs_of_pos (by positivity : 0 < t * madConst)]
      have e : c / t * (c / (t * madConst)) = (q / t) ^ 2 := by rw [div_pow, hq2]; field_simp
      rw [e, if_neg]
      push Not
      have : 19 / 80 ≤ q / t := by rw [le_div_iff₀ (by linarith)]; linarith
      unfold wMin
      nlinarith
    rw [hw, Real.sqrt_sq (by positivity)]
  -- the weighted data
  set z : Fin 9 → ℝ := ![0, 1, 1, -1, -1, q, -q, -q, q] with hz
  have hu : ∀ i, cwV i * madConst * Real.sqrt (we i) = z i * madConst := by
    intro i
    fin_cases i
    · have := hlow 0 (.inl (by simp [cwV])); simp only [Fin.zero_eta, this]; simp [cwV, hz]
    · have := hlow 1 (.inr (by simp [cwV])); simp only [Fin.mk_one, this]; simp [cwV, hz]
    · have := hlow 2 (.inr (by simp [cwV])); simp only [Fin.reduceFinMk, this]; simp [cwV, hz]
    · have := hlow 3 (.inr (by simp [cwV])); simp only [Fin.reduceFinMk, this]; simp [cwV, hz]
    · have := hlow 4 (.inr (by simp [cwV])); simp only [Fin.reduceFinMk, this]; simp [cwV, hz]
    · have := hhigh 5 3 (by norm_num) (by norm_num) (by simp [cwV]); simp only [Fin.reduceFinMk, this]; simp [cwV, hz]; ring
    · have := hhigh 6 3 (by norm_num) (by norm_num) (by simp [cwV]); simp only [Fin.reduceFinMk, this]; simp [cwV, hz]; ring
    · have := hhigh 7 3 (by norm_num) (by norm_num) (by simp [cwV]); simp only [Fin.reduceFinMk, this]; simp [cwV, hz]; ring
    · have := hhigh 8 8 (by norm_num) (by norm_num) (by simp [cwV]); simp only [Fin.reduceFinMk, this]; simp [cwV, hz]; ring
  have hspos : ∀ i, Real.sqrt (we i) ≠ 0 := by
    intro i
    refine (Real.sqrt_pos.mpr (lt_of_lt_of_le ?_ (clip_ge _ i))).ne'
    norm_num [wMin]
  obtain ⟨g, cc, hg, hgc, hct, hfit, hgcoef⟩ := snfit_exact (fun i => z i * madConst) (by rw [mean_eq]; simp [Fin.sum_univ_succ, hz]) (by
    have : (0 : ℝ) < (z 1 * madConst) ^ 2 := by simp [hz]; positivity
    exact lt_of_lt_of_le this (Finset.single_le_sum (f := fun i => (z i * madConst) ^ 2) (fun i _ => sq_nonneg _) (Finset.mem_univ 1)))
  -- the residuals
  have hres : ∃ d, scaleRes (fun i => cwV i * madConst - g.fitted i) = .ok d ∧ c < d 8 := by
    have hr : (fun i => cwV i * madConst - g.fitted i) = ![0, 0, 0, 0, 0, (3 - q) * madConst, -((3 - q) * madConst), -((3 - q) * madConst), (8 - q) * madConst] := by
      funext i
      rw [hfit]
      fin_cases i <;> simp [cwV, hz] <;> ring
    have hA : 0 < (3 - q) * madConst := mul_pos (by linarith) hm
    have hB : (3 - q) * madConst ≤ (8 - q) * madConst := by nlinarith
    rw [hr]
    generalize hAd : (3 - q) * madConst = A at hA hB ⊢
    generalize hBd : (8 - q) * madConst = B at hB ⊢
    have hcard : (Finset.univ.filter fun i => (![0, 0, 0, 0, 0, A, -A, -A, B] : Fin 9 → ℝ) i = 0) = {0, 1, 2, 3, 4} := by
      ext i
      fin_cases i <;> simp [hA.ne', (hA.trans_le hB).ne']
    have hlist : ((List.ofFn (![0, 0, 0, 0, 0, A, -A, -A, B] : Fin 9 → ℝ)).filter fun v => v ≠ 0).map (fun v => |v|) = [A, A, A, B] := by
      have : List.ofFn (![0, 0, 0, 0, 0, A, -A, -A, B] : Fin 9 → ℝ) = [0, 0, 0, 0, 0, A, -A, -A, B] := rfl
      rw [this]
      simp [hA.ne', (hA.trans_le hB).ne', abs_of_pos hA, abs_of_pos (hA.trans_le hB)]
    have hmed : medL [A, A, A, B] = A := by
      unfold medL
      rw [sortL_unique (List.Perm.refl [A, A, A, B]) (by simp [hB])]
      simp
    unfold scaleRes
    dsimp only
    rw [if_neg (by
      have : (Finset.univ.filter fun i => (![0, 0, 0, 0, 0, A, -A, -A, B] : Fin 9 → ℝ) i = 0).card = 5 := by rw [hcard]; rfl
      have h5 : ∀ inst, ((@Finset.filter (Fin 9) (fun i => (![0, 0, 0, 0, 0, A, -A, -A, B] : Fin 9 → ℝ) i = 0) inst Finset.univ).card) = 5 := by
        intro inst; convert this
      rw [h5]; norm_num)]
    have hl' : ∀ inst : (v : ℝ) → Decidable (v ≠ 0), ((List.ofFn (![0, 0, 0, 0, 0, A, -A, -A, B] : Fin 9 → ℝ)).filter fun v => @decide (v ≠ 0) (inst v)).map (fun v => |v|) = [A, A, A, B] := by
      intro inst; rw [← hlist]; congr!
    rw [if_neg (by rw [hl']; simp)]
    refine ⟨_, rfl, ?_⟩
    rw [hl', hmed]
    show c < |B| / (14826 / 10000 * A)
    rw [ abs_of_pos (hA.trans_le hB), lt_div_iff₀ (by positivity)]
    rw [← hAd, ← hBd]
    have : c * (14826 / 10000 * (3 - q)) < 8 - q := by nlinarith
    nlinarith
  obtain ⟨d, hd, hd8⟩ := hres
  -- the scores
  have hscore : ∀ (l : List (SnComp 9 1)), l = [cc] → ∀ T : Fin 9 → Fin l.length → ℝ, (T = fun i a => compT l i a / Real.sqrt (we i)) →
      rowDistances (scaleMat T (Centre.median.run T) (ScaleOpt.mad.run T)) = .ok fun i => |cwV i| := by
    rintro l rfl T hT
    have hT' : T = fun i (_ : Fin [cc].length) => cwV i * madConst := by
      rw [hT]
      funext i a
      have ha : a = (0 : Fin 1) := Subsingleton.elim (α := Fin 1) _ _
      rw [ha]
      show cc.t i / _ = _
      rw [hct, ← hu, mul_div_assoc, div_self (hspos i), mul_one]
    refine hdist rfl _ fun i a => ?_
    rw [hT']
    show (cwV i * madConst - med (fun i => cwV i * madConst)) / (if mad (fun i => cwV i * madConst) = 0 then 1 else mad (fun i => cwV i * madConst)) = _
    have h1 : mad (fun i => cwV i * madConst) = 1 := by
      rw [mad_med, (cw_meds hm).1]
      simp only [sub_zero]
      rw [(cw_meds hm).2, div_self hm.ne']
    rw [h1, (cw_meds hm).1]
    simp
  have hstep : ∃ b2 wte, sprmStep ext (cwPr copy) .mad (cutY ext.toRm (95 / 100) (975 / 1000) (999 / 1000)) (fun i (_ : Fin 1) => cwV i * madConst) (fun i => cwV i * madConst) we =
      .ok (g, b2, WFun.huber.run d (cutY ext.toRm (95 / 100) (975 / 1000) (999 / 1000)), wte) := by
    unfold sprmStep
    have h1 : weightRows (fun i (_ : Fin 1) => cwV i * madConst) we = fun i _ => z i * madConst := by
      funext i j; exact hu i
    have h2 : (fun i => cwV i * madConst * Real.sqrt (we i)) = fun i => z i * madConst := funext hu
    simp only [h1, h2, show (cwPr copy).eta = 0 from rfl, show (cwPr copy).nComponents.toNat = 1 from rfl, hg]
    simp only [hd, show (cwPr copy).centre = .median from rfl, show scoreScale .mad = .mad from rfl, hscore g.comps hgc _ rfl]
    exact ⟨_, _, rfl⟩
  obtain ⟨b2, wte, hstep⟩ := hstep
  have hloop : ∃ o, rwLoop (sprmStep ext (cwPr copy) .mad (cutY ext.toRm (95 / 100) (975 / 1000) (999 / 1000)) (fun i (_ : Fin 1) => cwV i * madConst) (fun i => cwV i * madConst))
      (1 / 100) 2 ((2 : ℤ).toNat + 1) 1 (1 / 100000) ((1 / 100 : ℝ) < 1) we none = some (.ok (some o)) ∧ o.b = g ∧
      o.wye = WFun.huber.run d (cutY ext.toRm (95 / 100) (975 / 1000) (999 / 1000)) := by
    rw [show ((2 : ℤ).toNat + 1) = 3 from rfl]
    rw [rwLoop, if_pos (by norm_num), hstep]
    dsimp only
    split
    · exact ⟨_, rfl, rfl, rfl⟩
    · rw [rwLoop, if_neg (by norm_num)]
      exact ⟨_, rfl, rfl, rfl⟩
  obtain ⟨o, ho, hob, howye⟩ := hloop
  have hchk : sprmCheck (cwPr copy) 9 1 = .ok () := by
    unfold sprmCheck checkProbs cwPr; norm_num
  have hsy : startY .median .mad (fun i => cwV i * madConst) cwV = .ok fun i => |cwV i * madConst| := by
    simp [startY, isMedianMad]
  have hkeep : keepVars (ScaleOpt.mad.run X) = [0] := by
    have h2 : ScaleOpt.mad.run X = fun _ => 1 / madConst := by funext j; exact hmad
    have h3 : ¬ (madConst⁻¹ < (100000 : ℝ)⁻¹) := by
      push Not
      rw [inv_le_inv₀ (by norm_num) hm]; linarith
    rw [h2]
    simp [keepVars, List.finRange_succ, h3]
  unfold sprmFit
  rw [hchk]
  dsimp only
  have hsr : ((cwPr copy).scale.resolve X).opt = .mad := rfl
  generalize ((cwPr copy).scale.resolve X).opt = sr at hsr ⊢
  subst hsr
  have hce : (cwPr copy).centre = .median := rfl
  generalize (cwPr copy).centre = ce at hce ⊢
  subst hce
  rw [hys]
  generalize hk : keepVars (ScaleOpt.mad.run X) = kp
  rw [hkeep] at hk
  subst hk
  rw [hXs]
  have hsx : sprmStartX ext (cwPr copy) .mad (selCols (fun i (_ : Fin 1) => cwV i * madConst) [0]) = .ok (none, fun i => |cwV i|) := by
    unfold sprmStartX
    simp only [show (cwPr copy).pcapp = false from rfl, Bool.false_eq_true, if_false]
    rw [hdist (k := [(0 : Fin 1)].length) rfl (selCols (fun i (_ : Fin 1) => cwV i * madConst) [0]) (fun i a => rfl)]
  have hsc : sprmStartCut ext (cwPr copy) none = .ok (cutY ext.toRm (95 / 100) (975 / 1000) (999 / 1000)) := rfl
  rw [if_neg (by simp [cwPr])]
  simp only [hsx, hsy, hsc, show (cwPr copy).fn = .huber from rfl, show (cwPr copy).probp1 = 95 / 100 from rfl,
      show (cwPr copy).probp2 = 975 / 1000 from rfl, show (cwPr copy).probp3 = 999 / 1000 from rfl,
      show (cwPr copy).maxit = 2 from rfl, show (cwPr copy).tol = 1 / 100 from rfl]
  have ho' : rwLoop (sprmStep ext (cwPr copy) .mad (cutY ext.toRm (95 / 100) (975 / 1000) (999 / 1000)) (selCols (fun i (_ : Fin 1) => cwV i * madConst) [0]) (fun i => cwV i * madConst))
      (1 / 100) 2 ((2 : ℤ).toNat + 1) 1 (1 / 100000) ((1 / 100 : ℝ) < 1) we none = some (.ok (some o)) := ho
  rw [← hwe, ho']
  refine ⟨_, rfl, fun i => ?_, ?_⟩
  · have hb : o.b.coef = fun _ => 1 := by rw [hob]; exact hgcoef
    have hyp : ∀ i, ∑ a : Fin [(0 : Fin 1)].length, selCols X [0] i a * (ScaleOpt.mad.run (asCol cwV) 0 / ScaleOpt.mad.run X ([(0 : Fin 1)].get a) * o.b.coef a) = cwV i := by
      intro i
      rw [hb]
      have h1 : ScaleOpt.mad.run (asCol cwV) 0 = 1 / madConst := hmad
      have h2 : ∀ a, ScaleOpt.mad.run X a = 1 / madConst := fun a => hmad
      simp only [h1, h2, div_self h0, mul_one]
      exact Fin.sum_univ_one _
    show cwV i - (∑ a : Fin [(0 : Fin 1)].length, selCols X [0] i a * (ScaleOpt.mad.run (asCol cwV) 0 / ScaleOpt.mad.run X ([(0 : Fin 1)].get a) * o.b.coef a) +
      snIntercept .median fun i => cwV i - ∑ a : Fin [(0 : Fin 1)].length, selCols X [0] i a * (ScaleOpt.mad.run (asCol cwV) 0 / ScaleOpt.mad.run X ([(0 : Fin 1)].get a) * o.b.coef a)) = 0
    simp only [hyp, sub_self]
    have : snIntercept .median (fun _ : Fin 9 => (0 : ℝ)) = 0 := by
      show med _ = 0
      exact med_pinned _ _ Finset.univ Finset.univ (by simp) (by simp) (by simp) (by simp)
    rw [this]; ring
  · show zeroOut o.wye o.w0 8 < 1
    unfold zeroOut
    split
    · norm_num
    · rw [howye, hhub, if_neg (not_le.mpr hd8), div_lt_one (by rw [abs_pos]; intro h; rw [h] at hd8; linarith)]
      exact lt_of_lt_of_le hd8 (le_abs_self _)

/-- Functions with the assumed properties of the third-party functions; the 95% point of the normal distribution is 1.65. -/
noncomputable def cwExt : RmExt := ⟨fun q => 11 / 3 * (q - 1 / 2), fun q _ => 10 * q, fun X y => someLstsq X y⟩

lemma cwExt_quantiles : IsQuantiles cwExt.normPpf cwExt.chi2Ppf := by
  constructor
  · intro a b _ h _; simp only [cwExt]; linarith
  · intro a h _; simp only [cwExt]; linarith
  · intro d a b _ _ h _; simp only [cwExt]; linarith
  · intro d a _ h _; simp only [cwExt]; linarith

/-- Non-vacuity: the theorems about robust M regression apply to a fit with the default settings. -/
example : ∃ f : RmFit 5 1, rmFit cwExt ⟨.hampel, 95 / 100, 975 / 1000, 999 / 1000, .median, .mad, true, 100, 1 / 100, true⟩ cwX cwY = .ok f ∧ f.residuals 0 = -3 ∧
    ∃ r : Fin 5 → ℝ, ∃ i, r i ≠ 0 := by
  obtain ⟨f, hf, -, h2, -⟩ := C161_rm_violated cwExt cwExt_quantiles (fun X y => Classical.choose_spec (exists_leastSquares X y)) (by norm_num [cwExt]) (by norm_num [cwExt]) (by norm_num [cwExt]) true
  exact ⟨f, hf, by rw [h2]; rfl, _, (C161_rm_scaled hf _ rfl _ rfl).1⟩

/-- Non-vacuity of `C161_rm_partial`: a fit with the mean as centre. -/
example : ∃ f : RmFit 3 1, rmFit rmExt0 ⟨.huber, 95 / 100, 975 / 1000, 999 / 1000, .mean, .noneOpt, false, 2, 1 / 100, true⟩ spXs spYs = .ok f ∧ f.ySca ≠ 0 := by
  have hm := madC_pos
  have hmx : Centre.mean.run spXs = fun _ => 0 := by
    funext j; rw [Subsingleton.elim j 0]; exact sp_mean_x
  have hmy : Centre.mean.run (asCol spYs) 0 = -1 / 3 * madConst := sp_mean_y
  obtain ⟨f, hf⟩ := (C145_rm_model_iff rmExt0 rmExt0_lstsq ⟨.huber, 95 / 100, 975 / 1000, 999 / 1000, .mean, .noneOpt, false, 2, 1 / 100, true⟩ spXs spYs).mpr
    ⟨⟨by norm_num, by norm_num, fun _ => rfl⟩, ⟨fun j => one_ne_zero, by
      have := (cl_rows (c := 1) le_rfl rfl spXs (fun i a => by rw [Subsingleton.elim a 0])).1
      simp only [hmx, sub_zero, ScaleOpt.run, div_one]
      exact this.ne', .inr (cl_y le_rfl).1.ne', by
      rintro ⟨β, hβ⟩
      simp only [hmx, hmy, Fin.sum_univ_one, sub_zero] at hβ
      have h1 := hβ 1
      simp [spYs, spXs] at h1
      linarith⟩⟩
  exact ⟨f, hf, by rw [(rmFit_inv hf).2.2.2.2.1]; exact one_ne_zero⟩

/-- Non-vacuity of the theorems about sparse partial robust M regression. -/
example : ∃ f : SprmFit 9 1, (sprmFit ⟨cwExt.normPpf, cwExt.chi2Ppf, fun _ => (0, 0)⟩ (cwPr true) (fun i (_ : Fin 1) => cwV i) cwV).2 = .ok f ∧ ∃ w : Fin 9 → ℝ, ∀ i, 1 / 1000000 ≤ w i := by
  obtain ⟨f, hf, -⟩ := C161_sprm_violated ⟨cwExt.normPpf, cwExt.chi2Ppf, fun _ => (0, 0)⟩ (by norm_num [cwExt]) (by norm_num [cwExt]) true
  obtain ⟨w, ux, hw, -⟩ := C161_sprm_partial hf _ _ rfl rfl
  exact ⟨f, hf, w, hw⟩

end Direpack
