import Mathlib.Tactic.Linarith
import Mathlib.Tactic.FieldSimp
import Mathlib.Tactic.Ring
import Verif.Props.SPRM
import Verif.Props.RMTotal
import Verif.Props.Dicomo2
import Verif.Props.SPRMExample

/-! Property C151: on data without outliers the robust regressions are the classical ones. -/

set_option linter.unusedSectionVars false

namespace Direpack

open scoped BigOperators

variable {n p : ℕ}

/-- No size is larger than `c` times the median size. -/
def Spec.TypicalSizes (c : ℝ) (d : Fin n → ℝ) : Prop := 0 < med d ∧ ∀ i, d i ≤ c * med d

/-- No value is farther from zero than `c` times 1.4826 times the median absolute value (a robust standard deviation). -/
def Spec.TypicalValues (c : ℝ) (v : Fin n → ℝ) : Prop := 0 < med (fun i => |v i|) ∧ ∀ i, |v i| ≤ c * (14826 / 10000 * med fun i => |v i|)

/-- The rows' distances from the origin. -/
noncomputable def Spec.rowLengths (X : Fin n → Fin p → ℝ) : Fin n → ℝ := fun i => Real.sqrt (∑ j, X i j ^ 2)

/-- Cutoffs are at least one and ordered. -/
def Spec.UsualCutoffs (c : ℝ × ℝ × ℝ) : Prop := 1 ≤ c.1 ∧ c.1 ≤ c.2.1 ∧ c.2.1 ≤ c.2.2

open Spec

lemma wfun_one {fn : WFun} (hfn : fn ≠ .fair) {c : ℝ × ℝ × ℝ} (hc : UsualCutoffs c) (x : Fin n → ℝ) (hx : ∀ i, x i ≤ c.1) : fn.run x c = fun _ => 1 := by
  obtain ⟨c1, c2, c3⟩ := c
  obtain ⟨h1, h2, h3⟩ := hc
  dsimp only at h1 h2 h3 hx
  funext i
  cases fn with
  | fair => exact absurd rfl hfn
  | huber =>
    show huber x c1 i = 1
    simp [huber, maskSet, hx i, not_lt.mpr h1]
  | hampel =>
    show hampel x c1 c2 c3 i = 1
    simp [hampel, maskSet, hx i, not_lt.mpr h1, not_lt.mpr (h1.trans h2), not_lt.mpr ((h1.trans h2).trans h3)]

lemma clipW_one : clipW (fun _ : Fin n => (1 : ℝ) * 1) = fun _ => 1 := by
  funext i
  show (if (1 : ℝ) * 1 < wMin then wMin else 1 * 1) = 1
  rw [if_neg (by norm_num [wMin])]
  norm_num

/-- If all weights found with equal weights are one, the loop ends with the fit for equal weights. -/
lemma rwLoop_clean {β : Type} {step : (Fin n → ℝ) → Except Err (β × ℝ × (Fin n → ℝ) × (Fin n → ℝ))} {tol : ℝ} {maxit : ℤ} (hn : 0 < n) {b : β} {s : ℝ}
    (hs : step (fun _ => 1) = .ok (b, s, fun _ => 1, fun _ => 1)) (fuel : ℕ) :
    ∀ (loops : ℤ) (rold : ℝ) (go : Prop) (out : Option (RwOut β n)) (o : RwOut β n),
      (∀ q, out = some q → q.b = b ∧ (∀ i, q.we i = 1 ∧ q.wye i = 1 ∧ q.wte i = 1) ∧ q.w0 = ∅) →
      rwLoop step tol maxit fuel loops rold go (fun _ => 1) out = some (.ok (some o)) → o.b = b ∧ (∀ i, o.we i = 1 ∧ o.wye i = 1 ∧ o.wte i = 1) ∧ o.w0 = ∅ := by
  have h1 : ¬ ((1 : ℝ) * 1 < wMin) := by norm_num [wMin]
  induction fuel with
  | zero => intro loops rold go out o _ h; simp [rwLoop] at h
  | succ fuel ih =>
    intro loops rold go out o hout h
    rw [rwLoop] at h
    split at h
    · rw [hs] at h
      dsimp only at h
      simp only [h1, if_false, Finset.filter_false, Finset.card_empty, Nat.cast_zero] at h
      rw [if_neg (by push Not; positivity)] at h
      simp only [mul_one] at h
      exact ih _ _ _ _ _ (fun q hq => by
        rw [Option.some.injEq] at hq
        subst hq
        exact ⟨rfl, fun i => ⟨rfl, rfl, rfl⟩, rfl⟩) h
    · simp only [Option.some.injEq, Except.ok.injEq] at h
      exact hout o h

lemma rwLoop_clean_total {β : Type} {step : (Fin n → ℝ) → Except Err (β × ℝ × (Fin n → ℝ) × (Fin n → ℝ))} {tol : ℝ} {maxit : ℤ} (hn : 0 < n) {b : β} {s : ℝ}
    (hs : step (fun _ => 1) = .ok (b, s, fun _ => 1, fun _ => 1)) (fuel : ℕ) :
    ∀ (loops : ℤ) (rold : ℝ) (go : Prop) (out : Option (RwOut β n)), (maxit - loops < fuel) → 0 < fuel → (out ≠ none ∨ (go ∧ loops < maxit)) →
      ∃ o, rwLoop step tol maxit fuel loops rold go (fun _ => 1) out = some (.ok (some o)) := by
  have h1 : ¬ ((1 : ℝ) * 1 < wMin) := by norm_num [wMin]
  induction fuel with
  | zero => intro loops rold go out _ h; omega
  | succ fuel ih =>
    intro loops rold go out hf _ hout
    rw [rwLoop]
    split
    · rename_i hgo
      rw [hs]
      dsimp only
      simp only [h1, if_false, Finset.filter_false, Finset.card_empty, Nat.cast_zero]
      rw [if_neg (by push Not; positivity)]
      simp only [mul_one]
      exact ih _ _ _ _ (by push_cast at hf ⊢; omega) (by have := hgo.2; push_cast at hf; omega) (.inl (by simp))
    · rename_i hgo
      rcases hout with h | h
      · cases out with
        | none => exact absurd rfl h
        | some o => exact ⟨o, rfl⟩
      · exact absurd h hgo

lemma scaleRes_typical {c : ℝ} {r : Fin n → ℝ} (hr : TypicalValues c r) (hz : 2 * (Finset.univ.filter fun i => r i = 0).card < n) :
    ∃ d, scaleRes r = .ok d ∧ ∀ i, d i ≤ c := by
  unfold scaleRes
  dsimp only
  have : (((Finset.univ.filter fun i => r i = 0).card : ℕ) : ℝ) < (n : ℝ) / 2 := by
    rw [lt_div_iff₀ (by norm_num)]
    have : (((Finset.univ.filter fun i => r i = 0).card * 2 : ℕ) : ℝ) < n := by exact_mod_cast (by omega)
    push_cast at this
    exact this
  rw [if_pos (by convert this)]
  refine ⟨_, rfl, fun i => ?_⟩
  have hp : 0 < 14826 / 10000 * med fun i => |r i| := mul_pos (by norm_num) hr.1
  rw [div_le_iff₀ hp]
  exact hr.2 i

lemma rowDistances_typical {c : ℝ} {X : Fin n → Fin p → ℝ} (hX : TypicalSizes c (rowLengths X)) : ∃ d, rowDistances X = .ok d ∧ ∀ i, d i ≤ c := by
  unfold rowDistances
  dsimp only
  have hp : 0 < med (fun i => Real.sqrt (∑ j, X i j ^ 2)) := hX.1
  rw [if_neg hp.ne']
  refine ⟨_, rfl, fun i => ?_⟩
  rw [div_le_iff₀ hp]
  exact hX.2 i

lemma mad_med (y : Fin n → ℝ) : mad y = (med fun i => |y i - med y|) / madConst := by
  unfold mad madL med
  congr 2
  rw [List.map_ofFn]
  rfl

lemma startY_typical {c : ℝ} (hc : 0 ≤ c) (ce : Centre) (s : ScaleOpt) (y : Fin n → ℝ) (hy : TypicalValues c fun i => y i - med y) {d : Fin n → ℝ}
    (h : startY ce s (stdVec y (ce.run (asCol y) 0) (s.run (asCol y) 0)) y = .ok d) : ∀ i, d i ≤ c := by
  unfold startY at h
  have hm : 0 < med (fun i => |y i - med y|) := hy.1
  split at h
  · rename_i hmm
    have hce : ce = .median ∧ s = .mad := by
      cases ce <;> cases s <;> simp [isMedianMad] at hmm <;> exact ⟨rfl, rfl⟩
    obtain ⟨rfl, rfl⟩ := hce
    simp only [Except.ok.injEq] at h
    subst h
    intro i
    have e1 : Centre.median.run (asCol y) 0 = med y := rfl
    have e2 : ScaleOpt.mad.run (asCol y) 0 = mad y := rfl
    have hmad : mad y = (med fun i => |y i - med y|) / madConst := mad_med y
    have hk : (0 : ℝ) < madConst := by norm_num [madConst]
    have hpos : 0 < mad y := by rw [hmad]; exact div_pos hm hk
    show |std1 (y i) (Centre.median.run (asCol y) 0) (ScaleOpt.mad.run (asCol y) 0)| ≤ c
    rw [e1, e2, std1, if_neg hpos.ne', abs_div, abs_of_pos hpos, div_le_iff₀ hpos]
    refine (hy.2 i).trans ?_
    refine mul_le_mul_of_nonneg_left ?_ hc
    rw [hmad, le_div_iff₀ hk]
    have : (14826 : ℝ) / 10000 * madConst ≤ 1 := by norm_num [madConst]
    nlinarith
  · dsimp only at h
    split at h
    · exact absurd h (by simp)
    · simp only [Except.ok.injEq] at h
      subst h
      intro i
      have hp : 0 < 14826 / 10000 * med fun i => |y i - med y| := mul_pos (by norm_num) hm
      rw [div_le_iff₀ hp]
      exact (le_abs_self _).trans (hy.2 i)

/-- C151 for robust M regression with Huber or Hampel weights: if no case lies beyond the cutoffs, all case weights are one and the coefficients are those of least squares on the
standardised data. -/
theorem C151_rm {ext : RmExt} {pr : RmParams} {X : Fin n → Fin p → ℝ} {y : Fin n → ℝ} {f : RmFit n p} (h : rmFit ext pr X y = .ok f) (hn : 0 < n) (hfn : pr.fn ≠ .fair)
    (hcy : UsualCutoffs (cutY ext pr.probp1 pr.probp2 pr.probp3)) (hcx : UsualCutoffs (cutX ext pr.specific p pr.probp1 pr.probp2 pr.probp3))
    (hX : TypicalSizes (cutX ext pr.specific p pr.probp1 pr.probp2 pr.probp3).1 (rowLengths (stdMat X f.xLoc f.xSca)))
    (hy : TypicalValues (ext.normPpf pr.probp1) fun i => y i - med y) (b : Fin p → ℝ) (hb : b = ext.lstsq (stdMat X f.xLoc f.xSca) (stdVec y f.yLoc f.ySca))
    (r : Fin n → ℝ) (hr : r = fun i => stdVec y f.yLoc f.ySca i - lin (stdMat X f.xLoc f.xSca) b i)
    (hr1 : TypicalValues (ext.normPpf pr.probp1) r) (hr2 : 2 * (Finset.univ.filter fun i => r i = 0).card < n) :
    f.coefScaled = b ∧ ∀ i, f.caseweights i = 1 ∧ f.xCaseweights i = 1 ∧ f.yCaseweights i = 1 := by
  obtain ⟨-, e1, e2, e3, e4, -, dx, dy, o, hdx, hdy, hl, hcs, -, -, -, hw, hwx, hwy, -⟩ := rmFit_inv h
  obtain ⟨dx', hdx', hle⟩ := rowDistances_typical hX
  rw [hdx] at hdx'
  obtain rfl := Except.ok.inj hdx'
  rw [e3, e4] at hdy
  have hle2 := startY_typical (zero_le_one.trans hcy.1) _ _ y hy hdy
  have w1 := wfun_one hfn hcx dx hle
  have w2 := wfun_one hfn hcy dy hle2
  rw [w1, w2, clipW_one] at hl
  obtain ⟨d, hd1, hd2⟩ := scaleRes_typical hr1 hr2
  have hstep : rmStep ext pr.fn (cutY ext pr.probp1 pr.probp2 pr.probp3) (stdMat X f.xLoc f.xSca) (stdVec y f.yLoc f.ySca) (fun _ => 1) (fun _ => 1) =
      .ok (b, ∑ j, b j ^ 2, fun _ => 1, fun _ => 1) := by
    have ew : weightRows (stdMat X f.xLoc f.xSca) (fun _ => 1) = stdMat X f.xLoc f.xSca := by
      funext i j; simp [weightRows]
    have ey : (fun i => stdVec y f.yLoc f.ySca i * Real.sqrt ((fun _ : Fin n => (1 : ℝ)) i)) = stdVec y f.yLoc f.ySca := by
      funext i; simp
    unfold rmStep
    rw [ew, ey]
    dsimp only
    rw [← hb]
    have er : (fun i => stdVec y f.yLoc f.ySca i - ∑ j, stdMat X f.xLoc f.xSca i j * b j) = r := hr.symm
    rw [er, hd1]
    dsimp only
    rw [wfun_one hfn hcy d hd2]
  obtain ⟨g1, g2, g3⟩ := rwLoop_clean hn hstep _ _ _ _ _ _ (fun q hq => by simp at hq) hl
  refine ⟨hcs.trans g1, fun i => ⟨?_, ?_, ?_⟩⟩
  · rw [hw, zeroOut, g3, if_neg (by simp)]; exact (g2 i).1
  · rw [hwx, w1, zeroOut, g3, if_neg (by simp)]
  · rw [hwy, zeroOut, g3, if_neg (by simp)]; exact (g2 i).2.1

/-- With the mean as centre and coefficients of least squares on the standardised data, no linear function of the predictors fits the response better. -/
lemma rm_least_squares {ext : RmExt} {pr : RmParams} {X : Fin n → Fin p → ℝ} {y : Fin n → ℝ} {f : RmFit n p} (h : rmFit ext pr X y = .ok f) (hn : 0 < n)
    (hm : pr.centre = .mean) (hsy : f.ySca ≠ 0)
    (hb : IsLeastSquares (stdMat X f.xLoc f.xSca) (stdVec y f.yLoc f.ySca) f.coefScaled) (a : ℝ) (c : Fin p → ℝ) :
    ∑ i, (y i - f.fitted i) ^ 2 ≤ ∑ i, (y i - (a + lin X c i)) ^ 2 := by
  obtain ⟨-, e1, e2, e3, e4, hs, dx, dy, o, -, -, -, hcs, hco, hfit, -⟩ := rmFit_inv h
  rw [← hcs] at hco
  have hmX : ∀ j, f.xLoc j = mean fun i => X i j := fun j => by rw [e1, hm]; rfl
  have hmy : f.yLoc = mean y := by rw [e3, hm]; rfl
  -- residuals in original units
  have hres : ∀ i, y i - f.fitted i = f.ySca * (stdVec y f.yLoc f.ySca i - lin (stdMat X f.xLoc f.xSca) f.coefScaled i) := by
    intro i
    rw [hfit i, hm]
    simp only [rmIntercept, Centre.isMean, if_true]
    rw [mean_sub' y (lin X f.coef), mean_lin, ← hmy]
    have h1 : lin X f.coef i - ∑ j, mean (fun i => X i j) * f.coef j = f.ySca * lin (stdMat X f.xLoc f.xSca) f.coefScaled i := by
      simp only [lin]
      rw [← Finset.sum_sub_distrib, Finset.mul_sum]
      refine Finset.sum_congr rfl fun j _ => ?_
      rw [hco, ← hmX]
      simp only [stdMat, std1, if_neg (hs j)]
      ring
    have h2 : f.ySca * stdVec y f.yLoc f.ySca i = y i - f.yLoc := by
      simp only [stdVec, std1, if_neg hsy]
      field_simp
    rw [mul_sub, h2, ← h1]
    ring
  have horth : ∀ j, ∑ i, X i j * (y i - f.fitted i) = 0 := by
    intro j
    have h1 := hb j
    have hsum : ∑ i, (y i - f.fitted i) = 0 := by
      have : (∑ i, (y i - f.fitted i)) / n = 0 := by
        rw [← mean_eq (fun i => y i - f.fitted i)]
        have : (fun i => y i - f.fitted i) = fun i => (y i - lin X f.coef i) - mean (fun i => y i - lin X f.coef i) := by
          funext i
          rw [hfit i, hm]
          simp only [rmIntercept, Centre.isMean, if_true]
          ring
        rw [this, mean_sub', mean_const hn, sub_self]
      rcases div_eq_zero_iff.mp this with h | h
      · exact h
      · exact absurd (by exact_mod_cast h) hn.ne'
    have h2 : ∑ i, X i j * (y i - f.fitted i) = f.ySca * f.xSca j * ∑ i, stdMat X f.xLoc f.xSca i j * (stdVec y f.yLoc f.ySca i - ∑ k, stdMat X f.xLoc f.xSca i k * f.coefScaled k) +
        f.xLoc j * ∑ i, (y i - f.fitted i) := by
      rw [Finset.mul_sum, Finset.mul_sum, ← Finset.sum_add_distrib]
      refine Finset.sum_congr rfl fun i _ => ?_
      have h3 := hres i
      simp only [lin] at h3
      have h4 : X i j = f.xSca j * stdMat X f.xLoc f.xSca i j + f.xLoc j := by
        simp only [stdMat, std1, if_neg (hs j)]
        field_simp [hs j]
        ring
      rw [h4, h3]
      ring
    rw [h2, h1, hsum]
    ring
  have hone : ∑ i, (y i - f.fitted i) = 0 := by
    have : (∑ i, (y i - f.fitted i)) / n = 0 := by
      rw [← mean_eq (fun i => y i - f.fitted i)]
      have : (fun i => y i - f.fitted i) = fun i => (y i - lin X f.coef i) - mean (fun i => y i - lin X f.coef i) := by
        funext i
        rw [hfit i, hm]
        simp only [rmIntercept, Centre.isMean, if_true]
        ring
      rw [this, mean_sub', mean_const hn, sub_self]
    rcases div_eq_zero_iff.mp this with h | h
    · exact h
    · exact absurd (by exact_mod_cast h) hn.ne'
  -- the difference of the two fits is a linear function of the predictors
  set I := rmIntercept pr.centre (fun i => y i - lin X f.coef i) with hI
  have hd : ∀ i, y i - (a + lin X c i) = (y i - f.fitted i) + ((I - a) + lin X (fun j => f.coef j - c j) i) := by
    intro i
    have : lin X (fun j => f.coef j - c j) i = lin X f.coef i - lin X c i := by
      simp only [lin, mul_sub, Finset.sum_sub_distrib]
    rw [this, hfit i]
    ring
  have hcross : ∑ i, (y i - f.fitted i) * ((I - a) + lin X (fun j => f.coef j - c j) i) = 0 := by
    simp only [mul_add, Finset.sum_add_distrib]
    rw [← Finset.sum_mul, hone, zero_mul, zero_add]
    simp only [lin, Finset.mul_sum]
    rw [Finset.sum_comm]
    refine Finset.sum_eq_zero fun j _ => ?_
    have := horth j
    calc ∑ i, (y i - f.fitted i) * (X i j * (f.coef j - c j)) = (∑ i, X i j * (y i - f.fitted i)) * (f.coef j - c j) := by
          rw [Finset.sum_mul]; exact Finset.sum_congr rfl fun i _ => by ring
      _ = 0 := by rw [this, zero_mul]
  calc ∑ i, (y i - f.fitted i) ^ 2 ≤ ∑ i, (y i - f.fitted i) ^ 2 + ∑ i, ((I - a) + lin X (fun j => f.coef j - c j) i) ^ 2 :=
        le_add_of_nonneg_right (Finset.sum_nonneg fun i _ => sq_nonneg _)
    _ = ∑ i, (y i - (a + lin X c i)) ^ 2 := by
        have : ∑ i, (y i - (a + lin X c i)) ^ 2 = ∑ i, (y i - f.fitted i) ^ 2 + ∑ i, ((I - a) + lin X (fun j => f.coef j - c j) i) ^ 2 +
            2 * ∑ i, (y i - f.fitted i) * ((I - a) + lin X (fun j => f.coef j - c j) i) := by
          rw [Finset.mul_sum, ← Finset.sum_add_distrib, ← Finset.sum_add_distrib]
          exact Finset.sum_congr rfl fun i _ => by rw [hd i]; ring
        rw [this, hcross]
        ring

/-- C151 for robust M regression in original units: with the mean as centre, no linear function of the predictors fits the response better. -/
theorem C151_rm_ols {ext : RmExt} (hls : ∀ {n p : ℕ} (X : Fin n → Fin p → ℝ) (y : Fin n → ℝ), IsLeastSquares X y (ext.lstsq X y)) {pr : RmParams} {X : Fin n → Fin p → ℝ}
    {y : Fin n → ℝ} {f : RmFit n p} (h : rmFit ext pr X y = .ok f) (hn : 0 < n) (hm : pr.centre = .mean) (hsy : f.ySca ≠ 0) (hfn : pr.fn ≠ .fair)
    (hcy : UsualCutoffs (cutY ext pr.probp1 pr.probp2 pr.probp3)) (hcx : UsualCutoffs (cutX ext pr.specific p pr.probp1 pr.probp2 pr.probp3))
    (hX : TypicalSizes (cutX ext pr.specific p pr.probp1 pr.probp2 pr.probp3).1 (rowLengths (stdMat X f.xLoc f.xSca)))
    (hy : TypicalValues (ext.normPpf pr.probp1) fun i => y i - med y)
    (r : Fin n → ℝ) (hr : r = fun i => stdVec y f.yLoc f.ySca i - lin (stdMat X f.xLoc f.xSca) (ext.lstsq (stdMat X f.xLoc f.xSca) (stdVec y f.yLoc f.ySca)) i)
    (hr1 : TypicalValues (ext.normPpf pr.probp1) r) (hr2 : 2 * (Finset.univ.filter fun i => r i = 0).card < n) (a : ℝ) (c : Fin p → ℝ) :
    ∑ i, (y i - f.fitted i) ^ 2 ≤ ∑ i, (y i - (a + lin X c i)) ^ 2 :=
  rm_least_squares h hn hm hsy (by rw [(C151_rm h hn hfn hcy hcx hX hy _ rfl r hr hr1 hr2).1]; exact hls _ _) a c

/-! ### Sparse partial robust M regression -/

/-- The distances of the scores from the origin after centring at the mean and scaling. -/
noncomputable def Spec.scoreLengths (s : ScaleOpt) (l : List (SnComp n p)) : Fin n → ℝ :=
  rowLengths (stdMat (compT l) (fun a => mean fun i => compT l i a) (s.run (compT l)))

lemma scaleRes_div {r : Fin n → ℝ} (hn : 0 < n) {s : ℝ} (hs : s ≠ 0) : scaleRes (fun i => r i / s) = scaleRes r ∨ 2 * (Finset.univ.filter fun i => r i = 0).card ≥ n := by
  by_cases hz : 2 * (Finset.univ.filter fun i => r i = 0).card ≥ n
  · exact .inr hz
  left
  have he : ∀ i, (r i / s = 0) = (r i = 0) := fun i => by simp [hs]
  have hlt : (((Finset.univ.filter fun i => r i = 0).card : ℕ) : ℝ) < (n : ℝ) / 2 := by
    rw [lt_div_iff₀ (by norm_num)]
    have : (((Finset.univ.filter fun i => r i = 0).card * 2 : ℕ) : ℝ) < n := by exact_mod_cast (by omega)
    push_cast at this
    exact this
  unfold scaleRes
  dsimp only
  simp only [he]
  rw [if_pos (by convert hlt), if_pos (by convert hlt)]
  congr 1
  funext i
  have hm : (med fun k => |r k / s|) = |s|⁻¹ * med fun k => |r k| := by
    rw [← med_smul hn]
    congr 1
    funext k
    rw [abs_div]; ring
  have hs' : |s| ≠ 0 := abs_ne_zero.mpr hs
  rw [hm, abs_div]
  by_cases h0 : (med fun k => |r k|) = 0
  · simp [h0]
  · field_simp

/-- The first pass of the loop on data without outliers: it reproduces SNIPLS and gives all cases the weight one. -/
lemma sprmStep_clean {ext : SprmExt} {pr : SprmParams} {s : ScaleOpt} (hm : pr.centre = .mean) {X : Fin n → Fin p → ℝ} {y : Fin n → ℝ} {keep : List (Fin p)} (hn : 0 < n) (hfn : pr.fn ≠ .fair)
    (hcol : ∀ a, s.run (selCols X keep) a = s.run X (keep.get a)) {g : SnFit n keep.length} (hg : snFit ⟨pr.eta, pr.nComponents.toNat, .mean, s⟩ (selCols X keep) y = .ok g)
    (hsy : g.ySca ≠ 0) {cx : ℝ × ℝ × ℝ} (hcy : UsualCutoffs (cutY ext.toRm pr.probp1 pr.probp2 pr.probp3))
    (hr1 : TypicalValues (ext.normPpf pr.probp1) g.residuals) (hr2 : 2 * (Finset.univ.filter fun i => g.residuals i = 0).card < n)
    (ct : ℝ × ℝ × ℝ) (hct : ct = if pr.fn = .hampel then cutX ext.toRm true pr.nComponents.toNat pr.probp1 pr.probp2 pr.probp3 else cx) (hct1 : UsualCutoffs ct)
    (hT : TypicalSizes ct.1 (scoreLengths (scoreScale s) g.comps)) :
    ∃ q : SnFit n keep.length, q.coef = g.coefScaled ∧
      sprmStep ext pr s cx (selCols (stdMat X (Centre.mean.run X) (s.run X)) keep) (stdVec y (Centre.mean.run (asCol y) 0) (s.run (asCol y) 0)) (fun _ => 1) =
        .ok (q, ∑ j, q.coef j ^ 2, fun _ => 1, fun _ => 1) := by
  obtain ⟨⟨heta0, heta1, hncomp⟩, g1, g2, g3, g4, gs, gl, gc, gco, gint, gfit, gres⟩ := snFit_inv hg
  -- the standardised data of the two fits
  have hXs : stdMat (selCols X keep) g.xLoc g.xSca = selCols (stdMat X (Centre.mean.run X) (s.run X)) keep := by
    funext i a
    simp only [stdMat, selCols]
    rw [g1, g2]
    simp only []
    rw [hcol]
    rfl
  have hys : stdVec y g.yLoc g.ySca = stdVec y (Centre.mean.run (asCol y) 0) (s.run (asCol y) 0) := by rw [g3, g4]
  rw [hXs, hys] at gl gc
  set Xs := selCols (stdMat X (Centre.mean.run X) (s.run X)) keep with hXsd
  set ys := stdVec y (Centre.mean.run (asCol y) 0) (s.run (asCol y) 0) with hysd
  have hmXs : ∀ a, mean (fun i => Xs i a) = 0 := by
    intro a
    rw [hXsd]
    simp only [selCols, stdMat]
    exact mean_std_zero hn (fun i => X i (keep.get a)) _
  have hmys : mean ys = 0 := mean_std_zero hn y _
  have i1 : stdMat Xs (Centre.mean.run Xs) (ScaleOpt.noneOpt.run Xs) = Xs := by
    funext i a
    simp only [stdMat, std1, Centre.run, ScaleOpt.run, hmXs a, one_ne_zero, if_false]
    ring
  have i2 : stdVec ys (Centre.mean.run (asCol ys) 0) (ScaleOpt.noneOpt.run (asCol ys) 0) = ys := by
    funext i
    have : Centre.mean.run (asCol ys) 0 = 0 := hmys
    simp only [stdVec, std1, this, ScaleOpt.run, one_ne_zero, if_false]
    ring
  obtain ⟨q, hq, hqc⟩ := snFit_of_loop ⟨pr.eta, pr.nComponents.toNat, .mean, .noneOpt⟩ Xs ys heta0 heta1 hncomp (fun j => one_ne_zero) g.comps (by rw [i1, i2]; exact gl)
  obtain ⟨-, q1, q2, q3, q4, qs, ql, qc, qco, qint, qfit, -⟩ := snFit_inv hq
  have hqX : stdMat Xs q.xLoc q.xSca = Xs := by rw [q1, q2]; exact i1
  have hqy : stdVec ys q.yLoc q.ySca = ys := by rw [q3, q4]; exact i2
  rw [hqX, hqy] at qc
  have hcs : q.coefScaled = g.coefScaled := by
    have aux : ∀ (l : List (SnComp n keep.length)) (R : Matrix (Fin keep.length) (Fin l.length) ℝ) (B : Fin keep.length → ℝ), l = g.comps →
        snCoef Xs ys l = .ok (R, B) → B = g.coefScaled := by
      intro l R B hl' h'
      subst hl'
      rw [gc] at h'
      exact (congrArg Prod.snd (Except.ok.inj h')).symm
    exact aux _ _ _ hqc qc
  have hqcoef : q.coef = g.coefScaled := by
    funext j
    rw [qco, hcs, q4, q2]
    simp [ScaleOpt.run]
  -- residuals
  have hgres : ∀ i, ys i - q.fitted i = g.residuals i / g.ySca := by
    intro i
    rw [gres, gfit, qfit, qint, gint, hqcoef]
    simp only [snIntercept]
    rw [mean_sub' ys (lin Xs g.coefScaled), mean_lin, hmys]
    simp only [hmXs, zero_mul, Finset.sum_const_zero, sub_zero, add_zero]
    rw [mean_sub' y (lin (selCols X keep) g.coef), mean_lin]
    have h1 : lin (selCols X keep) g.coef i - ∑ j, mean (fun i => selCols X keep i j) * g.coef j = g.ySca * lin Xs g.coefScaled i := by
      simp only [lin]
      rw [← Finset.sum_sub_distrib, Finset.mul_sum]
      refine Finset.sum_congr rfl fun j _ => ?_
      rw [gco, ← hXs]
      have : g.xLoc j = mean fun i => selCols X keep i j := by rw [g1]; rfl
      simp only [stdMat, std1, if_neg (gs j), this]
      ring
    have h2 : ys i = (y i - mean y) / g.ySca := by
      rw [← hys]
      have : g.yLoc = mean y := by rw [g3]; rfl
      simp only [stdVec, std1, if_neg hsy, this]
    rw [h2, eq_div_iff hsy, sub_mul, div_mul_cancel₀ _ hsy]
    linarith
  obtain ⟨d, hd1, hd2⟩ := scaleRes_typical hr1 hr2
  have hsr : scaleRes (fun i => ys i - q.fitted i) = .ok d := by
    have : (fun i => ys i - q.fitted i) = fun i => g.residuals i / g.ySca := funext hgres
    rw [this]
    rcases scaleRes_div (r := g.residuals) hn hsy with h' | h'
    · rw [h', hd1]
    · omega
  obtain ⟨dt, ht1, ht2⟩ := rowDistances_typical hT
  have hdt : rowDistances (scaleMat (fun i a => compT q.comps i a / Real.sqrt ((fun _ : Fin n => (1 : ℝ)) i))
      (pr.centre.run fun i a => compT q.comps i a / Real.sqrt ((fun _ : Fin n => (1 : ℝ)) i))
      ((scoreScale s).run fun i a => compT q.comps i a / Real.sqrt ((fun _ : Fin n => (1 : ℝ)) i))) = .ok dt := by
    have e : ∀ l : List (SnComp n keep.length), (fun i a => compT l i a / Real.sqrt ((fun _ : Fin n => (1 : ℝ)) i)) = fun i a => compT l i a := by
      intro l; funext i a; simp
    rw [e, hqc, scaleMat_eq, hm]
    exact ht1
  refine ⟨q, hqcoef, ?_⟩
  have ew : weightRows Xs (fun _ => 1) = Xs := by funext i j; simp [weightRows]
  have ey : (fun i => ys i * Real.sqrt ((fun _ : Fin n => (1 : ℝ)) i)) = ys := by funext i; simp
  unfold sprmStep
  rw [ew, ey, hq]
  dsimp only
  rw [hsr]
  dsimp only
  rw [hdt]
  dsimp only
  rw [← hct, wfun_one hfn hcy d hd2, wfun_one hfn hct1 dt ht2]

/-- C151 for sparse partial robust M regression with Huber or Hampel weights and the mean as centre: if no case lies beyond the cutoffs (starting distances `dx`, response, residuals
and scores of SNIPLS), then all case weights are one and the model is the one that SNIPLS gives for the same (not nearly constant) predictors. -/
theorem C151_sprm {ext : SprmExt} {pr : SprmParams} {s : ScaleOpt} (hsc : pr.scale = .plain s) (hm : pr.centre = .mean) {X : Fin n → Fin p → ℝ} {y : Fin n → ℝ} {f : SprmFit n p}
    (h : (sprmFit ext pr X y).2 = .ok f) (hn : 0 < n) (hfn : pr.fn ≠ .fair) (hcol : ∀ a, s.run (selCols X f.keep) a = s.run X (f.keep.get a))
    {g : SnFit n f.keep.length} (hg : snFit ⟨pr.eta, pr.nComponents.toNat, .mean, s⟩ (selCols X f.keep) y = .ok g) (hsy : g.ySca ≠ 0)
    {rc : Option ℕ} {dx : Fin n → ℝ} {cx : ℝ × ℝ × ℝ} (hdx : sprmStartX ext pr s (selCols (stdMat X f.xLoc f.xSca) f.keep) = .ok (rc, dx))
    (hcx : sprmStartCut ext pr rc = .ok cx) (hcx1 : UsualCutoffs cx) (hX : ∀ i, dx i ≤ cx.1)
    (hcy : UsualCutoffs (cutY ext.toRm pr.probp1 pr.probp2 pr.probp3)) (hy : TypicalValues (ext.normPpf pr.probp1) fun i => y i - med y)
    (hr1 : TypicalValues (ext.normPpf pr.probp1) g.residuals) (hr2 : 2 * (Finset.univ.filter fun i => g.residuals i = 0).card < n)
    (ct : ℝ × ℝ × ℝ) (hct : ct = if pr.fn = .hampel then cutX ext.toRm true pr.nComponents.toNat pr.probp1 pr.probp2 pr.probp3 else cx) (hct1 : UsualCutoffs ct)
    (hT : TypicalSizes ct.1 (scoreLengths (scoreScale s) g.comps)) :
    f.coef = g.coef ∧ f.intercept = g.intercept ∧ f.fitted = g.fitted ∧ (∀ i, f.caseweights i = 1 ∧ f.xCaseweights i = 1 ∧ f.yCaseweights i = 1) := by
  obtain ⟨⟨u, hu⟩, e1, e2, e3, e4, -, -, rc', dx', dy, cx', o, hdx', hdy, hcx', hl, -, -, hco, hfit, hint, -, hw, hwx, hwy, -⟩ := sprmFit_inv h
  have ha : (sprmAfter pr X).scale.opt = s := by simp [sprmAfter, hsc, SprmScale.resolve, SprmScale.opt]
  rw [ha] at e2 e4 hdx' hdy hl
  rw [hdx] at hdx'
  obtain ⟨rfl, rfl⟩ := Prod.mk.inj (Except.ok.inj hdx')
  rw [hcx] at hcx'
  obtain rfl := Except.ok.inj hcx'
  obtain ⟨q, hqcoef, hstep⟩ := sprmStep_clean (ext := ext) (cx := cx) hm hn hfn hcol hg hsy hcy hr1 hr2 ct hct hct1 hT
  obtain ⟨-, g1, g2, g3, g4, gs, gl, gc, gco, gint, gfit, gres⟩ := snFit_inv hg
  have hw1 := wfun_one hfn hcx1 dx hX
  rw [e3, e4] at hdy
  have hle2 := startY_typical (zero_le_one.trans hcy.1) _ _ y hy hdy
  have hw2 := wfun_one hfn hcy dy hle2
  rw [hw1, hw2, clipW_one, e1, e2, e3, e4, hm] at hl
  obtain ⟨r1, r2, r3⟩ := rwLoop_clean hn hstep _ _ _ _ _ _ (fun q hq => by simp at hq) hl
  have hcoef : f.coef = g.coef := by
    funext a
    rw [hco, r1, hqcoef, gco, e4, e2, g4, g2]
    simp only []
    rw [hcol]
  have hi : f.intercept = g.intercept := by rw [hint, gint, hcoef, hm]
  refine ⟨hcoef, hi, ?_, fun i => ⟨?_, ?_, ?_⟩⟩
  · funext i; rw [hfit, gfit, hcoef, hi]
  · rw [hw, zeroOut, r3, if_neg (by simp)]; exact (r2 i).1
  · rw [hwx, zeroOut, r3, if_neg (by simp)]; exact (r2 i).2.2
  · rw [hwy, zeroOut, r3, if_neg (by simp)]; exact (r2 i).2.1

/-- C151: under the same conditions a model is fitted (valid parameters, a start tolerance below one and at least one iteration allowed). -/
theorem C151_sprm_fits {ext : SprmExt} {pr : SprmParams} {s : ScaleOpt} (hsc : pr.scale = .plain s) (hm : pr.centre = .mean) {X : Fin n → Fin p → ℝ} {y : Fin n → ℝ}
    (hpr : sprmCheck pr n p = .ok ()) (htol : pr.tol < 1) (hmax : 1 < pr.maxit) (hn : 0 < n) (hfn : pr.fn ≠ .fair)
    (keep : List (Fin p)) (hk : keep = (List.finRange p).filter fun j => ¬ s.run X j < 1 / 100000) (hkn : pr.nComponents ≤ keep.length)
    (hcol : ∀ a, s.run (selCols X keep) a = s.run X (keep.get a))
    {g : SnFit n keep.length} (hg : snFit ⟨pr.eta, pr.nComponents.toNat, .mean, s⟩ (selCols X keep) y = .ok g) (hsy : g.ySca ≠ 0)
    {rc : Option ℕ} {dx : Fin n → ℝ} {cx : ℝ × ℝ × ℝ} (hdx : sprmStartX ext pr s (selCols (stdMat X (Centre.mean.run X) (s.run X)) keep) = .ok (rc, dx))
    (hcx : sprmStartCut ext pr rc = .ok cx) (hcx1 : UsualCutoffs cx) (hX : ∀ i, dx i ≤ cx.1)
    (hcy : UsualCutoffs (cutY ext.toRm pr.probp1 pr.probp2 pr.probp3)) (hy : TypicalValues (ext.normPpf pr.probp1) fun i => y i - med y)
    (hr1 : TypicalValues (ext.normPpf pr.probp1) g.residuals) (hr2 : 2 * (Finset.univ.filter fun i => g.residuals i = 0).card < n)
    (ct : ℝ × ℝ × ℝ) (hct : ct = if pr.fn = .hampel then cutX ext.toRm true pr.nComponents.toNat pr.probp1 pr.probp2 pr.probp3 else cx) (hct1 : UsualCutoffs ct)
    (hT : TypicalSizes ct.1 (scoreLengths (scoreScale s) g.comps)) :
    ∃ f, (sprmFit ext pr X y).2 = .ok f ∧ f.keep = keep := by
  obtain ⟨q, hqcoef, hstep⟩ := sprmStep_clean (ext := ext) (cx := cx) hm hn hfn hcol hg hsy hcy hr1 hr2 ct hct hct1 hT
  have hopt : (pr.scale.resolve X).opt = s := by simp [hsc, SprmScale.resolve, SprmScale.opt]
  obtain ⟨dy, hdy⟩ : ∃ dy, startY pr.centre s (stdVec y (Centre.mean.run (asCol y) 0) (s.run (asCol y) 0)) y = .ok dy := by
    have hmed : 0 < med (fun i => |y i - med y|) := hy.1
    unfold startY
    rw [hm]
    split
    · exact ⟨_, rfl⟩
    · dsimp only
      rw [if_neg (by positivity)]
      exact ⟨_, rfl⟩
  rw [hm] at hdy
  have hle2 := startY_typical (zero_le_one.trans hcy.1) _ _ y hy hdy
  have hw1 := wfun_one hfn hcx1 dx hX
  have hw2 := wfun_one hfn hcy dy hle2
  obtain ⟨o, ho⟩ : ∃ o, rwLoop (sprmStep ext pr s cx (selCols (stdMat X (Centre.mean.run X) (s.run X)) keep) (stdVec y (Centre.mean.run (asCol y) 0) (s.run (asCol y) 0)))
      pr.tol pr.maxit (pr.maxit.toNat + 1) 1 (1 / 100000) (pr.tol < 1) (fun _ => 1) none = some (.ok (some o)) :=
    rwLoop_clean_total hn hstep _ _ _ _ _ (by omega) (by omega) (.inr ⟨htol, hmax⟩)
  have hk' : keepVars (s.run X) = keep := hk.symm
  unfold sprmFit
  rw [hpr]
  dsimp only
  rw [hopt, hm, hk']
  simp only [scaleMat_eq]
  rw [if_neg (by push Not; exact hkn)]
  have hys : (fun i => stdMat (asCol y) (Centre.mean.run (asCol y)) (s.run (asCol y)) i 0) = stdVec y (Centre.mean.run (asCol y) 0) (s.run (asCol y) 0) := rfl
  rw [hys, hdx]
  dsimp only
  rw [hdy]
  dsimp only
  rw [hcx]
  dsimp only
  rw [hw1, hw2, clipW_one, ho]
  exact ⟨_, rfl, rfl⟩

/-! ### The conditions can be met -/

lemma cl_meds : med spYs = 0 ∧ (med fun i => |spYs i|) = madConst ∧ (med fun i => |(![-2 / 3, 4 / 3, -2 / 3] : Fin 3 → ℝ) i * madConst|) = 2 / 3 * madConst ∧
    (med fun i => |spXs i 0|) = madConst := by
  have hm := madC_pos
  refine ⟨med3 _ _ 0 2 1 (by decide) (by decide) ?_ ?_ ?_, med3 _ _ 2 1 0 (by decide) (by decide) ?_ ?_ ?_, med3 _ _ 0 2 1 (by decide) (by decide) ?_ ?_ ?_,
    med3 _ _ 1 2 0 (by decide) (by decide) ?_ ?_ ?_⟩ <;>
  simp [spXs, spYs, abs_mul, abs_div, abs_of_pos hm, hm.le] <;> linarith

lemma cl_y {c : ℝ} (hc : 2 ≤ c) : TypicalValues c fun i => spYs i - med spYs := by
  have hm := madC_pos
  obtain ⟨h1, h2, -, -⟩ := cl_meds
  rw [h1]
  simp only [sub_zero]
  refine ⟨by rw [h2]; exact hm, fun i => ?_⟩
  rw [h2]
  have : 2 * (14826 / 10000 * madConst) ≤ c * (14826 / 10000 * (madConst : ℝ)) := mul_le_mul_of_nonneg_right hc (by positivity)
  fin_cases i <;> simp [spYs, abs_mul, abs_of_pos hm] <;> linarith

lemma cl_r {c : ℝ} (hc : 2 ≤ c) {r : Fin 3 → ℝ} (hr : r = fun i => ![-2 / 3, 4 / 3, -2 / 3] i * madConst) :
    TypicalValues c r ∧ 2 * (Finset.univ.filter fun i => r i = 0).card < 3 := by
  have hm := madC_pos
  obtain ⟨-, -, h3, -⟩ := cl_meds
  subst hr
  refine ⟨⟨by rw [h3]; positivity, fun i => ?_⟩, ?_⟩
  · rw [h3]
    have : 2 * (14826 / 10000 * (2 / 3 * madConst)) ≤ c * (14826 / 10000 * (2 / 3 * (madConst : ℝ))) := mul_le_mul_of_nonneg_right hc (by positivity)
    fin_cases i <;> simp [abs_mul, abs_div, abs_of_pos hm] <;> linarith
  · have : (Finset.univ.filter fun i : Fin 3 => (![-2 / 3, 4 / 3, -2 / 3] : Fin 3 → ℝ) i * madConst = 0) = ∅ := by
      apply Finset.filter_eq_empty_iff.mpr
      intro i _
      have : (![-2 / 3, 4 / 3, -2 / 3] : Fin 3 → ℝ) i ≠ 0 := by fin_cases i <;> norm_num
      exact mul_ne_zero this hm.ne'
    rw [this]
    simp

lemma cl_cut : UsualCutoffs (cutY rmExt0 (95 / 100) (975 / 1000) (999 / 1000)) ∧ (2 : ℝ) ≤ rmExt0.normPpf (95 / 100) := by
  simp only [UsualCutoffs, cutY, rmExt0]
  norm_num

lemma cl_rows {c : ℝ} (hc : 1 ≤ c) {k : ℕ} (hk : k = 1) (Z : Fin 3 → Fin k → ℝ) (hZ : ∀ i a, Z i a = spXs i 0) : TypicalSizes c (rowLengths Z) := by
  subst hk
  have hm := madC_pos
  obtain ⟨-, -, -, h4⟩ := cl_meds
  have hd : rowLengths Z = fun i => |spXs i 0| := by
    funext i
    simp only [rowLengths, Fin.sum_univ_one, hZ, Real.sqrt_sq_eq_abs]
  rw [hd]
  refine ⟨by rw [h4]; exact hm, fun i => ?_⟩
  rw [h4]
  have : 1 * madConst ≤ c * (madConst : ℝ) := mul_le_mul_of_nonneg_right hc hm.le
  fin_cases i <;> simp [spXs, abs_mul, abs_of_pos hm] <;> linarith

/-- Robust M regression of three cases without outliers (mean, no scaling): all weights are one and the fit is least squares. -/
example : ∃ f, rmFit rmExt0 ⟨.huber, 95 / 100, 975 / 1000, 999 / 1000, .mean, .noneOpt, false, 2, 1 / 100, true⟩ spXs spYs = .ok f ∧ (∀ i, f.caseweights i = 1) ∧
    ∀ a c, ∑ i, (spYs i - f.fitted i) ^ 2 ≤ ∑ i, (spYs i - (a + lin spXs c i)) ^ 2 := by
  have hm := madC_pos
  have hmx : Centre.mean.run spXs = fun _ => 0 := by
    funext j; rw [Subsingleton.elim j 0]; exact sp_mean_x
  have hmy : Centre.mean.run (asCol spYs) 0 = -1 / 3 * madConst := sp_mean_y
  have hX0 : stdMat spXs (fun _ => 0) (fun _ => 1) = spXs := by
    funext i j; simp [stdMat, std1]
  have hy0 : stdVec spYs (-1 / 3 * madConst) 1 = fun i => spYs i + 1 / 3 * madConst := by
    funext i; simp [stdVec, std1]; ring
  obtain ⟨f, hf⟩ := (C145_rm_model_iff rmExt0 rmExt0_lstsq ⟨.huber, 95 / 100, 975 / 1000, 999 / 1000, .mean, .noneOpt, false, 2, 1 / 100, true⟩ spXs spYs).mpr
    ⟨⟨by norm_num, by norm_num, fun _ => rfl⟩, ⟨fun j => one_ne_zero, by
      have := (cl_rows (c := 1) le_rfl rfl spXs (fun i a => by rw [Subsingleton.elim a 0])).1
      simp only [hmx, sub_zero, ScaleOpt.run, div_one]
      exact this.ne', .inr (cl_y le_rfl).1.ne', by
      rintro ⟨β, hβ⟩
      simp only [hmx, hmy, Fin.sum_univ_one, sub_zero] at hβ
      have h1 := hβ 1
      simp [spYs, spXs] at h1
      linarith⟩⟩
  obtain ⟨-, e1, e2, e3, e4, -⟩ := rmFit_inv hf
  have e2' : f.xSca = fun _ => 1 := e2
  have e4' : f.ySca = 1 := e4
  simp only [hmx, hmy] at e1 e3
  have hls : rmExt0.lstsq spXs (fun i => spYs i + 1 / 3 * madConst) 0 = 1 := by
    have := rmExt0_lstsq spXs (fun i => spYs i + 1 / 3 * madConst) 0
    generalize rmExt0.lstsq spXs (fun i => spYs i + 1 / 3 * madConst) = b at this ⊢
    simp [Fin.sum_univ_succ, spXs, spYs] at this
    have h2 : (madConst : ℝ) ^ 2 * (b 0 - 1) = 0 := by linear_combination (-1 / 2) * this
    rcases mul_eq_zero.mp h2 with h3 | h3
    · exact absurd h3 (by positivity)
    · linarith
  have hr : (fun i => stdVec spYs f.yLoc f.ySca i - lin (stdMat spXs f.xLoc f.xSca) (rmExt0.lstsq (stdMat spXs f.xLoc f.xSca) (stdVec spYs f.yLoc f.ySca)) i) =
      fun i => ![-2 / 3, 4 / 3, -2 / 3] i * madConst := by
    rw [e1, e2', e3, e4', hX0, hy0]
    funext i
    simp only [lin, Fin.sum_univ_one, Fin.isValue, hls]
    fin_cases i <;> simp [spXs, spYs] <;> ring
  obtain ⟨r1, r2⟩ := cl_r cl_cut.2 hr
  have hX : TypicalSizes (cutX rmExt0 false 1 (95 / 100) (975 / 1000) (999 / 1000)).1 (rowLengths (stdMat spXs f.xLoc f.xSca)) := by
    rw [e1, e2', hX0]
    exact cl_rows cl_cut.1.1 rfl _ (fun i a => by rw [Subsingleton.elim a 0])
  exact ⟨f, hf, fun i => ((C151_rm hf (by norm_num) (by simp) cl_cut.1 cl_cut.1 hX (cl_y cl_cut.2) _ rfl _ rfl r1 r2).2 i).1,
    fun a c => C151_rm_ols rmExt0_lstsq hf (by norm_num) rfl (by rw [e4']; exact one_ne_zero) (by simp) cl_cut.1 cl_cut.1 hX (cl_y cl_cut.2) _ rfl r1 r2 a c⟩

/-- Sparse partial robust M regression of the same data is SNIPLS. -/
theorem cl_sprm_example : ∃ (f : SprmFit 3 1) (g : SnFit 3 f.keep.length), (sprmFit spExt0 ⟨1, 0, .huber, 95 / 100, 975 / 1000, 999 / 1000, .mean, .plain .noneOpt, 2, 1 / 100, false, false, true⟩ spXs spYs).2 = .ok f ∧
    snFit ⟨0, 1, .mean, .noneOpt⟩ (selCols spXs f.keep) spYs = .ok g ∧ f.coef = g.coef ∧ f.fitted = g.fitted ∧ ∀ i, f.caseweights i = 1 := by
  have hm := madC_pos
  have hmx : Centre.mean.run spXs = fun _ => 0 := by
    funext j; rw [Subsingleton.elim j 0]; exact sp_mean_x
  have hX0 : stdMat spXs (Centre.mean.run spXs) (ScaleOpt.noneOpt.run spXs) = spXs := by
    rw [hmx]; funext i j; simp [stdMat, std1, ScaleOpt.run]
  obtain ⟨g, c, hg, hgc, hct, hres⟩ := sp_snfit
  have e4 : g.ySca = 1 := (snFit_inv hg).2.2.2.2.1
  have hgr : g.residuals = fun i => ![-2 / 3, 4 / 3, -2 / 3] i * madConst := by
    funext i
    obtain ⟨-, -, -, -, -, -, -, -, -, -, -, gres⟩ := snFit_inv hg
    rw [gres, hres]
  obtain ⟨r1, r2⟩ := cl_r cl_cut.2 hgr
  have hdx : sprmStartX spExt0 ⟨1, 0, .huber, 95 / 100, 975 / 1000, 999 / 1000, .mean, .plain .noneOpt, 2, 1 / 100, false, false, true⟩ .noneOpt
      (selCols (stdMat spXs (Centre.mean.run spXs) (ScaleOpt.noneOpt.run spXs)) [0]) = .ok (none, ![1, 0, 1]) := by
    rw [hX0]
    unfold sprmStartX
    simp only [Bool.false_eq_true, if_false]
    rw [sp_dist_of _ rfl (fun i a => by
      have : a = (0 : Fin 1) := Subsingleton.elim (α := Fin 1) _ _
      rw [this]; rfl)]
  have hle : ∀ i, (![1, 0, 1] : Fin 3 → ℝ) i ≤ (cutY spExt0.toRm (95 / 100) (975 / 1000) (999 / 1000)).1 := by
    have : (2 : ℝ) ≤ (cutY spExt0.toRm (95 / 100) (975 / 1000) (999 / 1000)).1 := cl_cut.2
    intro i; fin_cases i <;> simp <;> linarith
  have hT : TypicalSizes (cutY spExt0.toRm (95 / 100) (975 / 1000) (999 / 1000)).1 (scoreLengths (scoreScale .noneOpt) g.comps) := by
    have aux : ∀ l : List (SnComp 3 1), l = [c] → TypicalSizes (cutY spExt0.toRm (95 / 100) (975 / 1000) (999 / 1000)).1 (scoreLengths (scoreScale .noneOpt) l) := by
      intro l hl
      subst hl
      have hT1 : ∀ i a, compT [c] i a = spXs i 0 := fun i a => by
        have : a = (0 : Fin 1) := Subsingleton.elim (α := Fin 1) _ _
        rw [this]; exact hct i
      have hmad : Direpack.mad (fun i => spXs i 0) = 1 := by
        have hmed : med (fun i => spXs i 0) = 0 :=
          med3 _ 0 0 1 2 (by decide) (by decide) (by simp [spXs, hm.le]) (by simp [spXs]) (by simp [spXs, hm.le])
        rw [rm_mad_eq, hmed, med3 (fun i => |spXs i 0 - 0|) madConst 1 2 0 (by decide) (by decide) (by simp [spXs, hm.le])
          (by simp [spXs, abs_of_pos hm]) (by simp [spXs, abs_of_pos hm])]
        exact div_self hm.ne'
      refine cl_rows cl_cut.1.1 rfl _ fun i a => ?_
      show std1 (compT [c] i a) (mean fun i => compT [c] i a) (Direpack.mad fun i => compT [c] i a) = _
      simp only [hT1, hmad, sp_mean_x, std1, one_ne_zero, if_false, sub_zero, div_one]
    exact aux _ hgc
  have hkeep : [0] = (List.finRange 1).filter fun j => ¬ ScaleOpt.noneOpt.run spXs j < 1 / 100000 := by
    have : ¬ (1 : ℝ) < 1 / 100000 := by norm_num
    simp only [ScaleOpt.run, this, not_false_eq_true, decide_true]
    rfl
  have hcol : ∀ k : List (Fin 1), ∀ a, ScaleOpt.noneOpt.run (selCols spXs k) a = ScaleOpt.noneOpt.run spXs (k.get a) := fun k a => rfl
  obtain ⟨f, hf, hk⟩ := C151_sprm_fits (ext := spExt0) (pr := ⟨1, 0, .huber, 95 / 100, 975 / 1000, 999 / 1000, .mean, .plain .noneOpt, 2, 1 / 100, false, false, true⟩)
    (s := .noneOpt) rfl rfl (X := spXs) (y := spYs) (by unfold sprmCheck checkProbs; norm_num) (by norm_num) (by norm_num) (by norm_num) (by simp) [0] hkeep (by simp) (hcol _)
    (g := g) hg (by rw [e4]; exact one_ne_zero) hdx (cx := cutY spExt0.toRm (95 / 100) (975 / 1000) (999 / 1000)) rfl cl_cut.1 hle cl_cut.1 (cl_y cl_cut.2) r1 r2 _ rfl cl_cut.1 hT
  obtain ⟨-, e1, e2, -⟩ := sprmFit_inv hf
  have aux : ∀ k : List (Fin 1), k = [0] → ∃ g : SnFit 3 k.length, snFit ⟨0, 1, .mean, .noneOpt⟩ (selCols spXs k) spYs = .ok g ∧ g.ySca ≠ 0 ∧
      sprmStartX spExt0 ⟨1, 0, .huber, 95 / 100, 975 / 1000, 999 / 1000, .mean, .plain .noneOpt, 2, 1 / 100, false, false, true⟩ .noneOpt
      (selCols (stdMat spXs (Centre.mean.run spXs) (ScaleOpt.noneOpt.run spXs)) k) = .ok (none, ![1, 0, 1]) ∧ TypicalValues (spExt0.normPpf (95 / 100)) g.residuals ∧
      2 * (Finset.univ.filter fun i => g.residuals i = 0).card < 3 ∧
      TypicalSizes (cutY spExt0.toRm (95 / 100) (975 / 1000) (999 / 1000)).1 (scoreLengths (scoreScale .noneOpt) g.comps) := by
    intro k hk
    subst hk
    exact ⟨g, hg, by rw [e4]; exact one_ne_zero, hdx, r1, r2, hT⟩
  obtain ⟨g', a1, a2, a3, a4, a5, a6⟩ := aux _ hk
  have h := C151_sprm (s := .noneOpt) rfl rfl hf (by norm_num) (by simp) (hcol _) a1 a2 (rc := none) (dx := ![1, 0, 1]) (by rw [e1, e2]; exact a3) rfl cl_cut.1 hle cl_cut.1
    (cl_y cl_cut.2) a4 a5 _ rfl cl_cut.1 a6
  exact ⟨f, g', hf, a1, h.1, h.2.2.1, fun i => (h.2.2.2 i).1⟩

end Direpack
