import Mathlib.LinearAlgebra.Matrix.Rank
import Mathlib.Tactic.NormNum
import Mathlib.Tactic.FinCases
import Mathlib.Tactic.FieldSimp
import Verif.RMLemmas
import Verif.NumLemmas
import Verif.ScalerLemmas
import Verif.Spec.Regress
import Verif.Spec.Reweight
import Verif.Props.Snipls

/-! C48-C50 for the robust M regression estimator. -/

namespace Direpack

open scoped BigOperators
open Spec

variable {n p : ℕ}

/-! ### What a successful fit consists of -/

theorem checkProbs_ok {fn : WFun} {p1 p2 p3 : ℝ} {u : Unit} (h : checkProbs fn p1 p2 p3 = .ok u) :
    0 < p1 ∧ p1 ≤ 1 ∧ (fn = .hampel → p1 < p2 ∧ p2 < p3 ∧ p3 ≤ 1) := by
  unfold checkProbs at h
  split at h
  · simp at h
  · rename_i h1
    push Not at h1
    split at h
    · simp at h
    · rename_i h2
      refine ⟨h1.2, h1.1, fun hf => ?_⟩
      by_contra hc
      exact h2 ⟨hf, hc⟩

theorem rmFit_inv {ext : RmExt} {pr : RmParams} {X : Fin n → Fin p → ℝ} {y : Fin n → ℝ} {f : RmFit n p}
    (h : rmFit ext pr X y = .ok f) :
    (0 < pr.probp1 ∧ pr.probp1 ≤ 1 ∧
      (pr.fn = .hampel → pr.probp1 < pr.probp2 ∧ pr.probp2 < pr.probp3 ∧ pr.probp3 ≤ 1)) ∧
    f.xLoc = pr.centre.run X ∧ f.xSca = pr.scale.run X ∧
    f.yLoc = pr.centre.run (asCol y) 0 ∧ f.ySca = pr.scale.run (asCol y) 0 ∧
    (∀ j, f.xSca j ≠ 0) ∧
    ∃ dx dy o,
      rowDistances (stdMat X f.xLoc f.xSca) = .ok dx ∧
      startY pr.centre pr.scale (stdVec y f.yLoc f.ySca) y = .ok dy ∧
      rwLoop (rmStep ext pr.fn (cutY ext pr.probp1 pr.probp2 pr.probp3) (stdMat X f.xLoc f.xSca)
          (stdVec y f.yLoc f.ySca) (pr.fn.run dx (cutX ext pr.specific p pr.probp1 pr.probp2 pr.probp3)))
        pr.tol pr.maxit (pr.maxit.toNat + 1) 1 (1 / 100000) (pr.tol < 1)
        (clipW fun i => pr.fn.run dx (cutX ext pr.specific p pr.probp1 pr.probp2 pr.probp3) i *
          pr.fn.run dy (cutY ext pr.probp1 pr.probp2 pr.probp3) i) none = some (.ok (some o)) ∧
      f.coefScaled = o.b ∧ (∀ j, f.coef j = f.ySca / f.xSca j * o.b j) ∧
      (∀ i, f.fitted i = lin X f.coef i + rmIntercept pr.centre (fun i => y i - lin X f.coef i)) ∧
      rmIntercepts pr.centre pr.scale X y (stdMat X f.xLoc f.xSca) (stdVec y f.yLoc f.ySca) o.b
        (rmIntercept pr.centre (fun i => y i - lin X f.coef i)) = .ok (f.intercept, f.interceptScaled) ∧
      f.caseweights = zeroOut o.we o.w0 ∧
      f.xCaseweights = zeroOut (pr.fn.run dx (cutX ext pr.specific p pr.probp1 pr.probp2 pr.probp3)) o.w0 ∧
      f.yCaseweights = zeroOut o.wye o.w0 ∧
      f.trainCols = (if pr.copy then some p else none) ∧ f.fits = o.fits ∧
      (∀ i, f.residuals i = y i - f.fitted i) := by
  unfold rmFit at h
  split at h
  · simp at h
  · rename_i u hu
    have hy : (fun i => scaleMat (asCol y) (pr.centre.run (asCol y)) (pr.scale.run (asCol y)) i 0)
        = stdVec y (pr.centre.run (asCol y) 0) (pr.scale.run (asCol y) 0) := by
      rw [scaleMat_eq]; rfl
    simp only [hy] at h
    simp only [scaleMat_eq] at h
    split at h
    · simp at h
    · rename_i dx hdx
      split at h
      · simp at h
      · rename_i dy hdy
        split at h
        · simp at h
        · simp at h
        · rename_i o ho
          unfold rmFinish at h
          split at h
          · simp at h
          · rename_i o
            split at h
            · simp at h
            · rename_i hs
              push Not at hs
              generalize htc : (if pr.copy then some p else none) = tc at h
              dsimp only at h
              split at h
              · simp at h
              · rename_i i2 b0 hi
                simp only [Except.ok.injEq] at h
                subst h
                exact ⟨checkProbs_ok hu, rfl, rfl, rfl, rfl, hs, dx, dy, o, hdx, hdy, ho, rfl, fun _ => rfl,
                  fun _ => rfl, hi, rfl, rfl, rfl, rfl, rfl, fun _ => rfl⟩

/-! ### C48: case weights -/

lemma cutY_adm {ext : RmExt} {fn : WFun} {p1 p2 p3 : ℝ} (hq : IsQuantiles ext.normPpf ext.chi2Ppf)
    (h1 : 1 / 2 < p1) (h1' : p1 < 1) (h : fn = .hampel → p1 < p2 ∧ p2 < p3 ∧ p3 < 1) :
    0 < (cutY ext p1 p2 p3).1 ∧ (fn = .hampel → (cutY ext p1 p2 p3).1 < (cutY ext p1 p2 p3).2.1 ∧
      (cutY ext p1 p2 p3).2.1 < (cutY ext p1 p2 p3).2.2) := by
  refine ⟨hq.norm_pos _ h1 h1', fun hf => ?_⟩
  obtain ⟨a, b, c⟩ := h hf
  exact ⟨hq.norm_mono _ _ (by linarith) a (by linarith), hq.norm_mono _ _ (by linarith) b c⟩

lemma cutX_adm {ext : RmExt} {fn : WFun} {sp : Bool} {d : ℕ} {p1 p2 p3 : ℝ} (hd : 0 < d)
    (hq : IsQuantiles ext.normPpf ext.chi2Ppf)
    (h1 : 1 / 2 < p1) (h1' : p1 < 1) (h : fn = .hampel → p1 < p2 ∧ p2 < p3 ∧ p3 < 1) :
    0 < (cutX ext sp d p1 p2 p3).1 ∧ (fn = .hampel → (cutX ext sp d p1 p2 p3).1 < (cutX ext sp d p1 p2 p3).2.1 ∧
      (cutX ext sp d p1 p2 p3).2.1 < (cutX ext sp d p1 p2 p3).2.2) := by
  cases sp with
  | false => exact cutY_adm hq h1 h1' h
  | true =>
    refine ⟨hq.chi_pos _ _ hd (by linarith) h1', fun hf => ?_⟩
    obtain ⟨a, b, c⟩ := h hf
    exact ⟨hq.chi_mono _ _ _ hd (by linarith) a (by linarith), hq.chi_mono _ _ _ hd (by linarith) b c⟩

lemma weights_of_pass {β : Type} {step : (Fin n → ℝ) → Except Err (β × ℝ × (Fin n → ℝ) × (Fin n → ℝ))}
    {o : RwOut β n} (hp : Pass step o) (hy : ∀ i, 0 ≤ o.wye i ∧ o.wye i ≤ 1)
    (ht : ∀ i, 0 ≤ o.wte i ∧ o.wte i ≤ 1) (i : Fin n) :
    zeroOut o.we o.w0 i = 0 ∨ (1 / 1000000 ≤ zeroOut o.we o.w0 i ∧ zeroOut o.we o.w0 i ≤ 1) := by
  unfold zeroOut
  split
  · exact Or.inl rfl
  · rename_i hi
    rw [hp.w0] at hi
    right
    rw [hp.we, if_neg hi]
    exact ⟨not_lt.mp hi, mul_le_one₀ (hy i).2 (ht i).1 (ht i).2⟩

lemma rowDistances_pos {X : Fin n → Fin p → ℝ} {d : Fin n → ℝ} (h : rowDistances X = .ok d) : 0 < p := by
  by_contra hp
  have : p = 0 := by omega
  subst this
  unfold rowDistances at h
  have : (fun i : Fin n => Real.sqrt (∑ j : Fin 0, X i j ^ 2)) = fun _ => 0 := by funext i; simp
  simp only [this] at h
  rcases Nat.eq_zero_or_pos n with hn | hn
  · subst hn; simp [med, medL, sortL] at h
  · rw [med_const hn] at h; simp at h

lemma zeroOut_unit {w : Fin n → ℝ} {w0 : Finset (Fin n)} (h : ∀ i, 0 ≤ w i ∧ w i ≤ 1) (i : Fin n) :
    0 ≤ zeroOut w w0 i ∧ zeroOut w w0 i ≤ 1 := by
  unfold zeroOut; split
  · norm_num
  · exact h i

/-- C48 for RM.  If the quantile functions are increasing and positive, and the probabilities are in the documented
range, above one half, then every case weight of a fitted model is 0 or between `1e-6` and 1, and both factors of it
are in [0,1]. -/
theorem C48_rm_weights (ext : RmExt) (hq : IsQuantiles ext.normPpf ext.chi2Ppf) (pr : RmParams)
    (h1 : 1 / 2 < pr.probp1) (h1' : pr.probp1 < 1) (h3 : pr.fn = .hampel → pr.probp3 < 1)
    (X : Fin n → Fin p → ℝ) (y : Fin n → ℝ) (f : RmFit n p) (h : rmFit ext pr X y = .ok f) (i : Fin n) :
    (f.caseweights i = 0 ∨ (1 / 1000000 ≤ f.caseweights i ∧ f.caseweights i ≤ 1)) ∧
    (0 ≤ f.xCaseweights i ∧ f.xCaseweights i ≤ 1) ∧ (0 ≤ f.yCaseweights i ∧ f.yCaseweights i ≤ 1) := by
  obtain ⟨⟨_, _, hp⟩, -, -, -, -, -, dx, dy, o, hdx, -, hl, -, -, -, -, hw, hwx, hwy, -⟩ := rmFit_inv h
  have hadm : pr.fn = .hampel → pr.probp1 < pr.probp2 ∧ pr.probp2 < pr.probp3 ∧ pr.probp3 < 1 :=
    fun hf => ⟨(hp hf).1, (hp hf).2.1, h3 hf⟩
  have hpass := rwLoop_pass _ _ _ _ _ _ _ _ _ _ (clip_ge _) (by simp) hl o rfl
  obtain ⟨we, b2, _, hs⟩ := hpass.last
  have hcx := cutX_adm (sp := pr.specific) (rowDistances_pos hdx) hq h1 h1' hadm
  have hcy := cutY_adm hq h1 h1' hadm
  unfold rmStep at hs
  simp only at hs
  split at hs
  · simp at hs
  · rename_i r hr
    simp only [Except.ok.injEq, Prod.mk.injEq] at hs
    have hy : ∀ i, 0 ≤ o.wye i ∧ o.wye i ≤ 1 := fun i => by
      rw [← hs.2.2.1]; exact WFun.run_unit _ _ _ hcy.1 hcy.2 i
    have ht : ∀ i, 0 ≤ o.wte i ∧ o.wte i ≤ 1 := fun i => by
      rw [← hs.2.2.2]; exact WFun.run_unit _ _ _ hcx.1 hcx.2 i
    refine ⟨hw ▸ weights_of_pass hpass hy ht i, ?_, hwy ▸ zeroOut_unit hy i⟩
    rw [hwx]; exact zeroOut_unit (fun i => by rw [hs.2.2.2]; exact ht i) i

/-! ### C49: predictions -/

/-- C49 for RM: with `copy=True`, predicting the training data gives `fitted_`, and `residuals_` are the differences.
Missing: with `copy=False` the training data are not stored (see `C49_rm_copy_violated`). -/
theorem C49_rm_predict_partial (ext : RmExt) (pr : RmParams) (X : Fin n → Fin p → ℝ) (y : Fin n → ℝ)
    (f : RmFit n p) (h : rmFit ext pr X y = .ok f) (hc : pr.copy = true) :
    f.predict X = .ok f.fitted ∧ (∀ i, y i = f.fitted i + f.residuals i) ∧
    (∀ i, f.fitted i = affine f.coef f.intercept (X i)) := by
  obtain ⟨-, -, hsX, -, hsy, hs, dx, dy, o, -, -, -, hb, hcf, hfit, hi, -, -, -, htc, -, hres⟩ := rmFit_inv h
  have key : rmIntercept pr.centre (fun i => y i - lin X f.coef i) = f.intercept := by
    unfold rmIntercepts at hi
    simp only at hi
    split at hi
    · rename_i hsn
      split at hi
      · rename_i hm
        simp only [Except.ok.injEq, Prod.mk.injEq] at hi
        rw [← hi.1]
        have hone : ∀ {q : ℕ} (Z : Fin n → Fin q → ℝ) j, pr.scale.run Z j = 1 := by
          intro q Z j
          cases hsc : pr.scale <;> simp_all [ScaleOpt.isNone, ScaleOpt.run]
        have hcoef : f.coef = o.b := by
          funext j
          rw [hcf, hsX, hsy, hone, hone]; simp
        simp only [rmIntercept, hm, if_true, hcoef]
        rfl
      · simp at hi
    · simp only [Except.ok.injEq, Prod.mk.injEq] at hi
      exact hi.1
  have hfit' : ∀ i, f.fitted i = affine f.coef f.intercept (X i) := fun i => by
    rw [hfit, key]; rfl
  refine ⟨?_, fun i => by rw [hres]; ring, hfit'⟩
  unfold RmFit.predict
  rw [htc, hc]
  simp only [if_true, dif_pos]
  congr 1
  funext i
  rw [hfit']
  rfl

/-- New data with another number of columns are refused. -/
theorem C49_rm_predict_columns (ext : RmExt) (pr : RmParams) (X : Fin n → Fin p → ℝ) (y : Fin n → ℝ)
    (f : RmFit n p) (h : rmFit ext pr X y = .ok f) (hc : pr.copy = true) {m q : ℕ} (Xn : Fin m → Fin q → ℝ) :
    (q = p → ∃ v, f.predict Xn = .ok v) ∧ (q ≠ p → f.predict Xn = .error .valueError) := by
  obtain ⟨-, -, -, -, -, -, dx, dy, o, -, -, -, -, -, -, -, -, -, -, htc, -⟩ := rmFit_inv h
  unfold RmFit.predict
  rw [htc, hc]
  constructor
  · intro hq; simp [hq]
  · intro hq; simp [hq]

/-- With `copy=False` no fitted model can predict. -/
theorem C49_rm_copy_violated (ext : RmExt) (pr : RmParams) (X : Fin n → Fin p → ℝ) (y : Fin n → ℝ)
    (f : RmFit n p) (h : rmFit ext pr X y = .ok f) (hc : pr.copy = false) {m q : ℕ} (Xn : Fin m → Fin q → ℝ) :
    f.predict Xn = .error .attributeError := by
  obtain ⟨-, -, -, -, -, -, dx, dy, o, -, -, -, -, -, -, -, -, -, -, htc, -⟩ := rmFit_inv h
  unfold RmFit.predict
  rw [htc, hc]
  simp

lemma sum_map_sub_flat (u v : List ℝ) :
    (v.flatMap fun b => u.map fun a => a - b).sum = v.length * u.sum - u.length * v.sum := by
  have h1 : ∀ b, (u.map fun a => a - b).sum = u.sum - u.length * b := by
    intro b
    induction u with
    | nil => simp
    | cons x t ih => simp only [List.map_cons, List.sum_cons, ih, List.length_cons]; push_cast; ring
  induction v with
  | nil => simp
  | cons x t ih =>
    simp only [List.flatMap_cons, List.sum_append, ih, h1, List.length_cons, List.sum_cons]; push_cast; ring

lemma meanAllPairs_eq (hn : 0 < n) (u v : Fin n → ℝ) : meanAllPairs u v = mean u - mean v := by
  unfold meanAllPairs mean meanL
  rw [sum_map_sub_flat]
  have hlen : ((List.ofFn v).flatMap fun b => (List.ofFn u).map fun a => a - b).length = n * n := by
    rw [List.length_flatMap]
    simp [List.sum_ofFn]
  rw [hlen]
  simp only [List.length_ofFn]
  have : (n : ℝ) ≠ 0 := by exact_mod_cast hn.ne'
  push_cast
  field_simp

lemma mean_sub' (u v : Fin n → ℝ) : mean (fun i => u i - v i) = mean u - mean v := by
  simp only [mean_eq, Finset.sum_sub_distrib]; ring

lemma mean_lin (X : Fin n → Fin p → ℝ) (b : Fin p → ℝ) :
    mean (lin X b) = ∑ j, mean (fun i => X i j) * b j := by
  simp only [mean_eq, lin]
  rw [Finset.sum_comm, Finset.sum_div]
  refine Finset.sum_congr rfl fun j _ => ?_
  rw [← Finset.sum_mul]; ring

lemma mean_std_zero (hn : 0 < n) (x : Fin n → ℝ) (s : ℝ) : mean (fun i => std1 (x i) (mean x) s) = 0 := by
  have h0 : mean (fun i => x i - mean x) = 0 := by
    rw [mean_sub', mean_const hn]; ring
  unfold std1
  split
  · exact h0
  · have : (fun i => (x i - mean x) / s) = fun i => (1 / s) * (x i - mean x) + 0 := by funext i; ring
    rw [this, mean_affine hn, h0]; ring

/-- With mean centring and a scale estimator, the model on the original scale and the one on the scaled data describe
the same affine function: common algebra of RM and SPRM. -/
lemma mean_same_affine (hn : 0 < n) (X : Fin n → Fin p → ℝ) (y : Fin n → ℝ) (b br mX sX : Fin p → ℝ) (my sy : ℝ)
    (hmX : ∀ j, mX j = mean fun i => X i j) (hmy : my = mean y)
    (hbr : ∀ j, br j = sy / sX j * b j) (x : Fin p → ℝ) :
    affine br (mean fun i => y i - lin X br i) x =
      affineScaled b (meanAllPairs (stdVec y my sy) (lin (stdMat X mX sX) b)) mX sX my sy x := by
  have hz : meanAllPairs (stdVec y my sy) (lin (stdMat X mX sX) b) = 0 := by
    rw [meanAllPairs_eq hn, mean_lin]
    have h1 : mean (stdVec y my sy) = 0 := by
      rw [hmy]; exact mean_std_zero hn y sy
    have h2 : ∀ j, mean (fun i => stdMat X mX sX i j) = 0 := fun j => by
      simp only [stdMat, hmX]; exact mean_std_zero hn (fun i => X i j) (sX j)
    rw [h1]; simp [h2]
  rw [hz]
  unfold affine affineScaled
  rw [mean_sub' y (lin X br), mean_lin, ← hmy]
  have e : ∑ j, x j * br j - ∑ j, mean (fun i => X i j) * br j =
      sy * ∑ j, (x j - mX j) / sX j * b j := by
    rw [← Finset.sum_sub_distrib, Finset.mul_sum]
    refine Finset.sum_congr rfl fun j _ => ?_
    rw [hbr, ← hmX]; ring
  linarith

/-- C49 for RM with mean centring and a scale estimator other than `'None'`: coefficients and intercept on the original
scale describe the same affine function as the scaled ones.  Missing: the other choices of centre and scale
(see `C49_rm_scaled_violated` and `C49_rm_unscaled_median_violated`). -/
theorem C49_rm_scaled_partial (hn : 0 < n) (ext : RmExt) (pr : RmParams) (X : Fin n → Fin p → ℝ) (y : Fin n → ℝ)
    (f : RmFit n p) (h : rmFit ext pr X y = .ok f) (hm : pr.centre = .mean) (hsc : pr.scale ≠ .noneOpt)
    (x : Fin p → ℝ) :
    affine f.coef f.intercept x =
      affineScaled f.coefScaled f.interceptScaled f.xLoc f.xSca f.yLoc f.ySca x := by
  obtain ⟨-, hmX, -, hmy, -, -, dx, dy, o, -, -, -, hb, hcf, -, hi, -⟩ := rmFit_inv h
  have hns : pr.scale.isNone = false := by
    cases hh : pr.scale <;> simp_all [ScaleOpt.isNone]
  unfold rmIntercepts at hi
  simp only [hns, hm, Centre.isMean, rmIntercept, if_true, Bool.false_eq_true, if_false, Except.ok.injEq,
    Prod.mk.injEq] at hi
  rw [← hi.1, ← hi.2, hb]
  refine mean_same_affine hn X y o.b f.coef f.xLoc f.xSca f.yLoc f.ySca (fun j => ?_) ?_ hcf x
  · rw [hmX, hm]; rfl
  · rw [hmy, hm]; rfl

/-- With `scale='None'` and a centre other than the mean, `fit` fails on every data set. -/
theorem C49_rm_unscaled_median_violated (ext : RmExt) (pr : RmParams) (X : Fin n → Fin p → ℝ) (y : Fin n → ℝ)
    (hc : pr.centre = .median) (hs : pr.scale = .noneOpt) : ∃ e, rmFit ext pr X y = .error e := by
  cases h : rmFit ext pr X y with
  | error e => exact ⟨e, rfl⟩
  | ok f =>
    exfalso
    obtain ⟨-, -, -, -, -, -, dx, dy, o, -, -, -, -, -, -, hi, -⟩ := rmFit_inv h
    simp [rmIntercepts, hc, hs, ScaleOpt.isNone, Centre.isMean] at hi

/-! ### C50: the reweighting loop -/

/-- The loop ends for every step function, whatever it returns: with the fuel that `fit` gives it, it does not run out. -/
theorem C50_loop_stops {β : Type} (step : (Fin n → ℝ) → Except Err (β × ℝ × (Fin n → ℝ) × (Fin n → ℝ))) (tol : ℝ)
    (maxit : ℤ) (rold : ℝ) (go : Prop) (we : Fin n → ℝ) (out : Option (RwOut β n)) :
    rwLoop step tol maxit (maxit.toNat + 1) 1 rold go we out ≠ none :=
  rwLoop_ne_none step tol maxit rold go we out

/-- C50 for RM: a fitted model has made at least one and at most `maxit - 1` weighted fits, and its coefficients are those
of a least squares fit of the standardised data with case weights of at least `1e-6`. -/
theorem C50_rm_fits (ext : RmExt) (pr : RmParams) (X : Fin n → Fin p → ℝ) (y : Fin n → ℝ) (f : RmFit n p)
    (h : rmFit ext pr X y = .ok f) :
    1 ≤ f.fits ∧ (f.fits : ℤ) ≤ pr.maxit - 1 ∧ ∃ we : Fin n → ℝ, (∀ i, 1 / 1000000 ≤ we i) ∧
      f.coefScaled = ext.lstsq (fun i j => stdMat X f.xLoc f.xSca i j * Real.sqrt (we i))
        (fun i => stdVec y f.yLoc f.ySca i * Real.sqrt (we i)) := by
  obtain ⟨-, -, -, -, -, -, dx, dy, o, -, -, hl, hb, -, -, -, -, -, -, -, hf, -⟩ := rmFit_inv h
  have h1 := rwLoop_fits _ _ _ _ _ _ _ _ _ _ hl
  obtain ⟨we, b2, hwe, hs⟩ := (rwLoop_pass _ _ _ _ _ _ _ _ _ _ (clip_ge _) (by simp) hl o rfl).last
  have hgo : pr.tol < 1 ∧ 1 < pr.maxit := by
    by_contra hg
    rw [rwLoop, if_neg hg] at hl
    simp at hl
  have h2 := h1.2.2 hgo
  simp only [fitsOf, Option.elim] at h1 h2
  rw [hf, hb]
  refine ⟨by omega, ?_, we, hwe, ?_⟩
  · have := h1.1
    rw [max_eq_right (by linarith [hgo.2])] at this
    push_cast at this; linarith
  · unfold rmStep at hs
    simp only at hs
    split at hs
    · simp at hs
    · simp only [Except.ok.injEq, Prod.mk.injEq] at hs
      exact hs.1.symm

/-- Least squares is the minimiser of the residual sum of squares. -/
lemma isLeastSquares_min {X : Fin n → Fin p → ℝ} {y : Fin n → ℝ} {b : Fin p → ℝ} (h : IsLeastSquares X y b)
    (c : Fin p → ℝ) : ∑ i, (y i - ∑ j, X i j * b j) ^ 2 ≤ ∑ i, (y i - ∑ j, X i j * c j) ^ 2 := by
  have e : ∀ i, (y i - ∑ j, X i j * c j) ^ 2 = (y i - ∑ j, X i j * b j) ^ 2 +
      2 * ((y i - ∑ j, X i j * b j) * ∑ j, X i j * (b j - c j)) + (∑ j, X i j * (b j - c j)) ^ 2 := by
    intro i
    have : ∑ j, X i j * (b j - c j) = ∑ j, X i j * b j - ∑ j, X i j * c j := by
      rw [← Finset.sum_sub_distrib]; exact Finset.sum_congr rfl fun j _ => by ring
    rw [this]; ring
  have h0 : ∑ i, (y i - ∑ j, X i j * b j) * ∑ j, X i j * (b j - c j) = 0 := by
    simp only [Finset.mul_sum]
    rw [Finset.sum_comm]
    refine Finset.sum_eq_zero fun j _ => ?_
    have := h j
    calc _ = (∑ i, X i j * (y i - ∑ k, X i k * b k)) * (b j - c j) := by
            rw [Finset.sum_mul]; exact Finset.sum_congr rfl fun i _ => by ring
      _ = 0 := by rw [this]; ring
  simp only [e, Finset.sum_add_distrib]
  rw [← Finset.mul_sum, h0]
  have : 0 ≤ ∑ i, (∑ j, X i j * (b j - c j)) ^ 2 := Finset.sum_nonneg fun i _ => sq_nonneg _
  linarith

/-- C50 for RM: if the solver returns least squares solutions, the reported coefficients minimise a weighted sum of squared
residuals of the standardised data, with weights of at least `1e-6`. -/
theorem C50_rm_minimises (ext : RmExt)
    (hls : ∀ {n p : ℕ} (X : Fin n → Fin p → ℝ) (y : Fin n → ℝ), IsLeastSquares X y (ext.lstsq X y))
    (pr : RmParams) (X : Fin n → Fin p → ℝ) (y : Fin n → ℝ) (f : RmFit n p) (h : rmFit ext pr X y = .ok f) :
    ∃ we : Fin n → ℝ, (∀ i, 1 / 1000000 ≤ we i) ∧ ∀ c,
      wss we (stdMat X f.xLoc f.xSca) (stdVec y f.yLoc f.ySca) f.coefScaled ≤
      wss we (stdMat X f.xLoc f.xSca) (stdVec y f.yLoc f.ySca) c := by
  obtain ⟨-, -, we, hwe, hb⟩ := C50_rm_fits ext pr X y f h
  refine ⟨we, hwe, fun c => ?_⟩
  have hm := isLeastSquares_min (hls (fun i j => stdMat X f.xLoc f.xSca i j * Real.sqrt (we i))
        (fun i => stdVec y f.yLoc f.ySca i * Real.sqrt (we i))) c
  rw [← hb] at hm
  have e : ∀ (c : Fin p → ℝ) i, (stdVec y f.yLoc f.ySca i * Real.sqrt (we i) -
      ∑ j, stdMat X f.xLoc f.xSca i j * Real.sqrt (we i) * c j) ^ 2 =
      we i * (stdVec y f.yLoc f.ySca i - ∑ j, stdMat X f.xLoc f.xSca i j * c j) ^ 2 := by
    intro c i
    have h0 : 0 ≤ we i := by have := hwe i; linarith
    have h1 : ∑ j, stdMat X f.xLoc f.xSca i j * Real.sqrt (we i) * c j =
        Real.sqrt (we i) * ∑ j, stdMat X f.xLoc f.xSca i j * c j := by
      rw [Finset.mul_sum]; exact Finset.sum_congr rfl fun j _ => by ring
    rw [h1, mul_comm _ (Real.sqrt (we i)), ← mul_sub, mul_pow, Real.sq_sqrt h0]
  simp only [e] at hm
  exact hm

/-- Without an admissible iteration (`maxit ≤ 1`, or a tolerance of at least 1) there is no fitted model: `fit` fails. -/
theorem C50_rm_no_iterations (ext : RmExt) (pr : RmParams) (X : Fin n → Fin p → ℝ) (y : Fin n → ℝ)
    (h : pr.maxit ≤ 1 ∨ 1 ≤ pr.tol) : ∃ e, rmFit ext pr X y = .error e := by
  cases hf : rmFit ext pr X y with
  | error e => exact ⟨e, rfl⟩
  | ok f =>
    exfalso
    obtain ⟨-, -, -, -, -, -, dx, dy, o, -, -, hl, -⟩ := rmFit_inv hf
    rw [rwLoop, if_neg (by
      rintro ⟨h1, h2⟩
      rcases h with h | h
      · linarith
      · linarith)] at hl
    simp at hl

end Direpack
