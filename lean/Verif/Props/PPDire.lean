import Mathlib.LinearAlgebra.Matrix.Block
import Mathlib.Tactic.LinearCombination
import Mathlib.Tactic.FieldSimp
import Mathlib.Tactic.Positivity
import Verif.PPDire
import Verif.Spec.PP
import Verif.Props.Grid
import Verif.Props.RM

/-!
Properties of `ppdire`: C57, C58, C83, C86, C87.
-/

namespace Direpack

open scoped BigOperators

variable {n p : ℕ}

/-! ### The component loop -/

/-- What one component satisfies, given the data `E` it was extracted from. -/
lemma ppLoop_cons {opt : PpOptimizer} {φ : (Fin n → ℝ) → ℝ} {sq : Bool} {reg : (Fin n → ℝ) → ℝ} {h : ℕ}
    {E : Fin n → Fin p → ℝ} {l : List (PpComp n p)} (hl : ppLoop opt φ sq reg (h + 1) E = .ok l) :
    ∃ c l', l = c :: l' ∧ (∃ o, ppDirection opt φ sq E = .ok (c.w, o) ∧ c.maxobj = o) ∧ c.t = projectOn E c.w ∧
      ∑ i, c.t i ^ 2 ≠ 0 ∧ (∀ k, c.load k = (∑ i, E i k * c.t i) / ∑ i, c.t i ^ 2) ∧ c.c = reg c.t ∧
      c.crit = criterion φ sq c.t ∧
      ppLoop opt φ sq reg h (fun i k => E i k - c.t i * c.load k) = .ok l' := by
  rw [ppLoop] at hl
  split at hl
  · simp at hl
  · rename_i w o hw
    dsimp only at hl
    split at hl
    · simp at hl
    · rename_i hn
      split at hl
      · simp at hl
      · rename_i l' hl'
        simp only [Except.ok.injEq] at hl
        exact ⟨_, l', hl.symm, ⟨o, hw, rfl⟩, rfl, hn, fun k => rfl, rfl, rfl, hl'⟩

lemma ppDirection_unit {opt : PpOptimizer} {φ : (Fin n → ℝ) → ℝ} {sq : Bool} {E : Fin n → Fin p → ℝ} {w : Fin p → ℝ} {o : ℝ}
    (h : ppDirection opt φ sq E = .ok (w, o)) : UnitLen w := by
  unfold ppDirection at h
  split at h
  · exact (C55_grid_unit _ _ _ _ _ _ _ h).1
  · dsimp only at h
    split at h
    · simp at h
    · rename_i hn
      simp only [Except.ok.injEq, Prod.mk.injEq] at h
      obtain ⟨rfl, -⟩ := h
      unfold UnitLen
      simp only [div_pow, ← Finset.sum_div]
      rw [Real.sq_sqrt (Finset.sum_nonneg fun k _ => sq_nonneg _)]
      apply div_self
      intro h0
      exact hn (by rw [h0, Real.sqrt_zero])

/-- The invariant of the loop. -/
structure PpInv (E : Fin n → Fin p → ℝ) (reg : (Fin n → ℝ) → ℝ) (l : List (PpComp n p)) : Prop where
  unit : ∀ c ∈ l, UnitLen c.w
  nz : ∀ c ∈ l, ∑ i, c.t i ^ 2 ≠ 0
  reg : ∀ c ∈ l, c.c = reg c.t
  diag : ∀ c ∈ l, ∑ k, c.load k * c.w k = 1
  /-- whatever is orthogonal to the variables is orthogonal to the scores -/
  left : ∀ u : Fin n → ℝ, (∀ k, ∑ i, u i * E i k = 0) → ∀ c ∈ l, ∑ i, u i * c.t i = 0
  /-- whatever the data map to zero is orthogonal to the loadings -/
  right : ∀ v : Fin p → ℝ, (∀ i, ∑ k, E i k * v k = 0) → ∀ c ∈ l, ∑ k, c.load k * v k = 0
  orth : l.Pairwise fun c d => ∑ i, c.t i * d.t i = 0
  tri : l.Pairwise fun c d => ∑ k, d.load k * c.w k = 0
  /-- the data applied to the weights -/
  recon : ∀ c ∈ l, ∀ i, ∑ k, E i k * c.w k = (l.map fun d => d.t i * ∑ k, d.load k * c.w k).sum

lemma ppLoop_inv {opt : PpOptimizer} {φ : (Fin n → ℝ) → ℝ} {sq : Bool} {reg : (Fin n → ℝ) → ℝ} :
    ∀ (h : ℕ) (E : Fin n → Fin p → ℝ) (l : List (PpComp n p)), ppLoop opt φ sq reg h E = .ok l →
      l.length = h ∧ PpInv E reg l := by
  intro h
  induction h with
  | zero =>
    intro E l hl
    simp only [ppLoop, Except.ok.injEq] at hl
    subst hl
    exact ⟨rfl, ⟨by simp, by simp, by simp, by simp, by simp, by simp, by simp, by simp, by simp⟩⟩
  | succ h ih =>
    intro E l hl
    obtain ⟨c, l', rfl, ⟨o, hdir, -⟩, ht, hnz, hload, hreg, -, hrest⟩ := ppLoop_cons hl
    obtain ⟨hlen, hI⟩ := ih _ _ hrest
    set s := ∑ i, c.t i ^ 2 with hs
    have hdiag : ∑ k, c.load k * c.w k = 1 := by
      simp only [hload, div_mul_eq_mul_div, ← Finset.sum_div, Finset.sum_mul]
      rw [Finset.sum_comm, div_eq_one_iff_eq hnz, hs]
      refine Finset.sum_congr rfl fun i _ => ?_
      have : c.t i = ∑ k, E i k * c.w k := by rw [ht]; rfl
      rw [pow_two]
      nth_rewrite 3 [this]
      rw [Finset.mul_sum]
      exact Finset.sum_congr rfl fun k _ => by ring
    -- the score is orthogonal to the deflated variables
    have hcol : ∀ k, ∑ i, c.t i * (E i k - c.t i * c.load k) = 0 := by
      intro k
      have : ∑ i, c.t i * (E i k - c.t i * c.load k) = (∑ i, E i k * c.t i) - s * c.load k := by
        rw [hs, Finset.sum_mul, ← Finset.sum_sub_distrib]
        exact Finset.sum_congr rfl fun i _ => by ring
      rw [this, hload]
      field_simp
      ring
    -- the deflated data map the weight to zero
    have hrow : ∀ i, ∑ k, (E i k - c.t i * c.load k) * c.w k = 0 := by
      intro i
      have : ∑ k, (E i k - c.t i * c.load k) * c.w k = (∑ k, E i k * c.w k) - c.t i * ∑ k, c.load k * c.w k := by
        rw [Finset.mul_sum, ← Finset.sum_sub_distrib]
        exact Finset.sum_congr rfl fun k _ => by ring
      rw [this, hdiag, ht]
      simp [projectOn]
    have hleft0 : ∀ u : Fin n → ℝ, (∀ k, ∑ i, u i * E i k = 0) → ∑ i, u i * c.t i = 0 := by
      intro u hu
      rw [ht]
      simp only [projectOn, Finset.mul_sum]
      rw [Finset.sum_comm]
      refine Finset.sum_eq_zero fun k _ => ?_
      have := hu k
      calc ∑ i, u i * (E i k * c.w k) = (∑ i, u i * E i k) * c.w k := by
            rw [Finset.sum_mul]; exact Finset.sum_congr rfl fun i _ => by ring
        _ = 0 := by rw [this, zero_mul]
    have hright0 : ∀ v : Fin p → ℝ, (∀ i, ∑ k, E i k * v k = 0) → ∑ k, c.load k * v k = 0 := by
      intro v hv
      simp only [hload, div_mul_eq_mul_div, ← Finset.sum_div, Finset.sum_mul]
      rw [Finset.sum_comm, div_eq_zero_iff]
      left
      refine Finset.sum_eq_zero fun i _ => ?_
      calc ∑ k, E i k * c.t i * v k = c.t i * ∑ k, E i k * v k := by
            rw [Finset.mul_sum]; exact Finset.sum_congr rfl fun k _ => by ring
        _ = 0 := by rw [hv, mul_zero]
    refine ⟨by simp [hlen], ⟨?_, ?_, ?_, ?_, ?_, ?_, ?_, ?_, ?_⟩⟩
    · intro d hd
      rcases List.mem_cons.mp hd with rfl | hd
      · exact ppDirection_unit hdir
      · exact hI.unit d hd
    · intro d hd
      rcases List.mem_cons.mp hd with rfl | hd
      · exact hnz
      · exact hI.nz d hd
    · intro d hd
      rcases List.mem_cons.mp hd with rfl | hd
      · exact hreg
      · exact hI.reg d hd
    · intro d hd
      rcases List.mem_cons.mp hd with rfl | hd
      · exact hdiag
      · exact hI.diag d hd
    · intro u hu d hd
      rcases List.mem_cons.mp hd with rfl | hd
      · exact hleft0 u hu
      · refine hI.left u (fun k => ?_) d hd
        have h1 : ∑ i, u i * (E i k - c.t i * c.load k) = (∑ i, u i * E i k) - (∑ i, u i * c.t i) * c.load k := by
          rw [Finset.sum_mul, ← Finset.sum_sub_distrib]
          exact Finset.sum_congr rfl fun i _ => by ring
        rw [h1, hu, hleft0 u hu, zero_mul, sub_zero]
    · intro v hv d hd
      rcases List.mem_cons.mp hd with rfl | hd
      · exact hright0 v hv
      · refine hI.right v (fun i => ?_) d hd
        have h1 : ∑ k, (E i k - c.t i * c.load k) * v k = (∑ k, E i k * v k) - c.t i * ∑ k, c.load k * v k := by
          rw [Finset.mul_sum, ← Finset.sum_sub_distrib]
          exact Finset.sum_congr rfl fun k _ => by ring
        rw [h1, hv, hright0 v hv, mul_zero, sub_zero]
    · exact List.pairwise_cons.mpr ⟨fun d hd => hI.left c.t hcol d hd, hI.orth⟩
    · exact List.pairwise_cons.mpr ⟨fun d hd => hI.right c.w hrow d hd, hI.tri⟩
    · intro d hd i
      rw [List.map_cons, List.sum_cons]
      rcases List.mem_cons.mp hd with rfl | hd
      · have h0 : (l'.map fun e => e.t i * ∑ k, e.load k * d.w k).sum = 0 := by
          apply List.sum_eq_zero
          intro x hx
          obtain ⟨e, he, rfl⟩ := List.mem_map.mp hx
          rw [hI.right d.w hrow e he, mul_zero]
        rw [h0, hdiag, add_zero, mul_one, ht]
        rfl
      · rw [← hI.recon d hd i]
        have : ∑ k, (E i k - c.t i * c.load k) * d.w k = (∑ k, E i k * d.w k) - c.t i * ∑ k, c.load k * d.w k := by
          rw [Finset.mul_sum, ← Finset.sum_sub_distrib]
          exact Finset.sum_congr rfl fun k _ => by ring
        rw [this]; ring

/-! ### The rotation matrix -/

lemma ppPW_det {E : Fin n → Fin p → ℝ} {reg : (Fin n → ℝ) → ℝ} {l : List (PpComp n p)} (hI : PpInv E reg l) :
    ((ppP l).transpose * ppW l).det = 1 := by
  have hent : ∀ a b, ((ppP l).transpose * ppW l) a b = ∑ k, (l.get a).load k * (l.get b).w k := by
    intro a b
    simp [Matrix.mul_apply, ppP, ppW]
  have htri : ((ppP l).transpose * ppW l).BlockTriangular id := by
    intro a b hab
    rw [hent]
    have := List.pairwise_iff_get.mp hI.tri b a hab
    exact this
  rw [Matrix.det_of_isUpperTriangular htri]
  refine Finset.prod_eq_one fun a _ => ?_
  rw [hent]
  exact hI.diag _ (List.get_mem _ _)

lemma pinv_of_det {pinv : Pinv} (hp : IsGenInverse pinv) {k : ℕ} {A : Matrix (Fin k) (Fin k) ℝ} (hA : A.det = 1) :
    pinv A = A⁻¹ := by
  have hu : IsUnit A.det := by rw [hA]; exact isUnit_one
  have h := hp A
  have h1 : A⁻¹ * (A * pinv A * A) * A⁻¹ = A⁻¹ * A * A⁻¹ := by rw [h]
  rw [Matrix.nonsing_inv_mul _ hu, Matrix.one_mul, ← Matrix.mul_assoc, ← Matrix.mul_assoc, Matrix.nonsing_inv_mul _ hu,
    Matrix.one_mul, Matrix.mul_assoc, Matrix.mul_nonsing_inv _ hu, Matrix.mul_one] at h1
  exact h1

lemma ppScores_eq {pinv : Pinv} (hp : IsGenInverse pinv) {E : Fin n → Fin p → ℝ} {reg : (Fin n → ℝ) → ℝ}
    {l : List (PpComp n p)} (hI : PpInv E reg l) : Matrix.of E * ppR pinv l = ppT l := by
  have hdet := ppPW_det hI
  have hu : IsUnit ((ppP l).transpose * ppW l).det := by rw [hdet]; exact isUnit_one
  have hXW : Matrix.of E * ppW l = ppT l * ((ppP l).transpose * ppW l) := by
    ext i b
    have h1 := hI.recon (l.get b) (List.get_mem _ _) i
    have h2 : (Matrix.of E * ppW l) i b = ∑ k, E i k * (l.get b).w k := by
      simp [Matrix.mul_apply, ppW]
    rw [h2, h1, Matrix.mul_apply]
    rw [← List.sum_ofFn]
    congr 1
    apply List.ext_get
    · simp
    · intro m h3 h4
      simp [Matrix.mul_apply, ppT, ppP, ppW]
  rw [ppR, pinv_of_det hp hdet, ← Matrix.mul_assoc, hXW, Matrix.mul_assoc, Matrix.mul_nonsing_inv _ hu, Matrix.mul_one]

/-! ### Taking a successful fit apart -/

lemma ppFit_inv {pr : PpParams} {pinv : Pinv} {rg : PpReg} {φ : (Fin n → ℝ) → (Fin n → ℝ) → ℝ} {X : Fin n → Fin p → ℝ}
    {y : Fin n → ℝ} {f : PpFit n p} (h : ppFit pr pinv rg φ X y = .ok f) :
    ∃ Xs ys,
      Xs = (if pr.centerData then scaleMat X f.xLoc f.xSca else X) ∧
      ys = (if pr.centerData then fun i => (y i - f.yLoc) / (if f.ySca = 0 then 1 else f.ySca) else y) ∧
      f.xLoc = (fun k => if pr.centerData then pr.centre.loc pr.trimming fun i => X i k else 0) ∧
      f.xSca = (fun k => if pr.centerData then pr.centre.sca pr.scaleData pr.trimming fun i => X i k else 1) ∧
      f.yLoc = (if pr.centerData then pr.centre.loc pr.trimming y else 0) ∧
      f.ySca = (if pr.centerData then pr.centre.sca pr.scaleData pr.trimming y else 1) ∧
      pr.nComponents ≤ min n p ∧ trimOk pr.trimming n ∧
      ppLoop pr.optimizer (φ ys) pr.squarePi (rg.run ys y) pr.nComponents Xs = .ok f.comps ∧
      (∀ k, f.xSca k ≠ 0) ∧
      f.rot = ppR pinv f.comps ∧ f.coefScaled = (f.rot).mulVec (ppC f.comps) ∧
      f.coef = (fun k => f.ySca / f.xSca k * f.coefScaled k) ∧
      f.intercept = (pr.centre.loc pr.trimming fun i => y i - ∑ k, X i k * f.coef k) ∧
      f.fitted = (fun i => (∑ k, X i k * f.coef k) + f.intercept) ∧
      f.residuals = (fun i => y i - f.fitted i) ∧
      f.locIsMatrix = (! pr.centerData) ∧
      f.scalerLoc = (if pr.centerData then [f.yLoc] else []) ∧ f.scalerSca = (if pr.centerData then [f.ySca] else []) := by
  unfold ppFit at h
  split at h
  · simp at h
  · rename_i hn
    split at h
    · simp at h
    · rename_i ht
      dsimp only at h
      split at h
      · simp at h
      · rename_i l hl
        by_cases hs : ∃ k, (if pr.centerData = true then pr.centre.sca pr.scaleData pr.trimming fun i => X i k else 1) = 0
        · rw [if_pos hs] at h
          simp at h
        · rw [if_neg hs] at h
          push Not at hs
          simp only [Except.ok.injEq] at h
          subst h
          exact ⟨_, _, rfl, rfl, rfl, rfl, rfl, rfl, not_lt.mp hn, not_not.mp ht, hl, hs, rfl, rfl, rfl, rfl, rfl, rfl, rfl, rfl, rfl⟩

/-! ### C57 -/

/-- C57: for any optimiser, any projection index and any data, the weight vectors of a fitted model have unit length and the score
vectors are nonzero and mutually orthogonal. -/
theorem C57_scores (pr : PpParams) (pinv : Pinv) (rg : PpReg) (φ : (Fin n → ℝ) → (Fin n → ℝ) → ℝ) (X : Fin n → Fin p → ℝ)
    (y : Fin n → ℝ) (f : PpFit n p) (h : ppFit pr pinv rg φ X y = .ok f) :
    f.comps.length = pr.nComponents ∧ (∀ a, UnitLen fun k => ppW f.comps k a) ∧
    PairwiseOrthogonal (fun i a => ppT f.comps i a) ∧ ∀ a, ∑ i, ppT f.comps i a ^ 2 ≠ 0 := by
  obtain ⟨Xs, ys, -, -, -, -, -, -, -, -, hl, -⟩ := ppFit_inv h
  obtain ⟨hlen, hI⟩ := ppLoop_inv _ _ _ hl
  refine ⟨hlen, fun a => hI.unit _ (List.get_mem _ _), ?_, fun a => hI.nz _ (List.get_mem _ _)⟩
  intro a b hab
  rcases lt_or_gt_of_ne hab with hlt | hgt
  · exact List.pairwise_iff_get.mp hI.orth a b hlt
  · have := List.pairwise_iff_get.mp hI.orth b a hgt
    rw [← this]
    exact Finset.sum_congr rfl fun i _ => mul_comm _ _

/-- C57 (partial: `center_data=True`): transforming the training data gives the scores; scores of new data are a fixed linear
function of the standardised variables, case by case. -/
theorem C57_transform_partial (pr : PpParams) (pinv : Pinv) (hp : IsGenInverse pinv) (rg : PpReg)
    (φ : (Fin n → ℝ) → (Fin n → ℝ) → ℝ) (X : Fin n → Fin p → ℝ)
    (y : Fin n → ℝ) (f : PpFit n p) (h : ppFit pr pinv rg φ X y = .ok f) (hc : pr.centerData = true) :
    f.transform X = .ok (.mat (ppT f.comps)) ∧
    ∀ {m : ℕ} (Xn : Fin m → Fin p → ℝ), ∃ T : Matrix (Fin m) (Fin f.comps.length) ℝ, f.transform Xn = .ok (.mat T) ∧
      ∀ i a, T i a = ∑ k, (Xn i k - f.xLoc k) / f.xSca k * f.rot k a := by
  obtain ⟨Xs, ys, hXs, -, -, -, -, -, -, -, hl, hs, hrot, -, -, -, -, -, hlm, -⟩ := ppFit_inv h
  obtain ⟨hlen, hI⟩ := ppLoop_inv _ _ _ hl
  rw [hc] at hlm hXs
  simp only [Bool.not_true, if_true] at hlm hXs
  refine ⟨?_, ?_⟩
  · unfold PpFit.transform
    rw [dif_pos rfl, hlm]
    simp only [Bool.false_eq_true, false_and, if_false]
    have := ppScores_eq hp hI
    rw [hXs, ← hrot] at this
    rw [← this]
    rfl
  · intro m Xn
    unfold PpFit.transform
    rw [dif_pos rfl, hlm]
    simp only [Bool.false_eq_true, false_and, if_false]
    refine ⟨_, rfl, fun i a => ?_⟩
    rw [Matrix.mul_apply]
    refine Finset.sum_congr rfl fun k _ => ?_
    simp [scaleMat, hs k]

/-- C57 is violated for `center_data=False` and at least two variables: `transform` returns a three-dimensional array, never the
score matrix. -/
theorem C57_transform_violated (pr : PpParams) (pinv : Pinv) (rg : PpReg)
    (φ : (Fin n → ℝ) → (Fin n → ℝ) → ℝ) (X : Fin n → Fin p → ℝ)
    (y : Fin n → ℝ) (f : PpFit n p) (h : ppFit pr pinv rg φ X y = .ok f) (hc : pr.centerData = false) (hp1 : p ≠ 1)
    (T : Matrix (Fin n) (Fin f.comps.length) ℝ) : f.transform X ≠ .ok (.mat T) := by
  obtain ⟨Xs, ys, hXs, -, -, -, -, -, -, -, hl, hs, hrot, -, -, -, -, -, hlm, -⟩ := ppFit_inv h
  unfold PpFit.transform
  rw [dif_pos rfl, hlm, hc]
  simp [hp1]

/-! ### C58 -/

/-- C58: predictions for the training data are the fitted values, and the residuals are the response minus the fitted values; predictions
for new data are the affine function with the reported coefficients. -/
theorem C58_predict (pr : PpParams) (pinv : Pinv) (rg : PpReg) (φ : (Fin n → ℝ) → (Fin n → ℝ) → ℝ)
    (X : Fin n → Fin p → ℝ) (y : Fin n → ℝ) (f : PpFit n p) (h : ppFit pr pinv rg φ X y = .ok f) :
    f.predict X = .ok f.fitted ∧ (∀ i, f.residuals i = y i - f.fitted i) ∧
    ∀ {m : ℕ} (Xn : Fin m → Fin p → ℝ), f.predict Xn = .ok fun i => Spec.affine f.coef f.intercept (Xn i) := by
  obtain ⟨Xs, ys, -, -, -, -, -, -, -, -, -, -, -, -, -, -, hfit, hres, -⟩ := ppFit_inv h
  refine ⟨?_, fun i => by rw [hres], fun Xn => ?_⟩
  · unfold PpFit.predict
    rw [dif_pos rfl, hfit]
    rfl
  · unfold PpFit.predict
    rw [dif_pos rfl]
    congr 1

/-! ### C83: the fit is the least squares fit on the scores -/

lemma ppMean_zero (x : Fin n → ℝ) : ppMean 0 x = mean x := by
  simp [ppMean, meanT, mean]

lemma pp_sum_center (x : Fin n → ℝ) : ∑ i, (x i - mean x) = 0 := by
  rcases Nat.eq_zero_or_pos n with rfl | hn
  · simp
  · rw [Finset.sum_sub_distrib, mean_eq]
    have : (n : ℝ) ≠ 0 := by exact_mod_cast hn.ne'
    simp
    field_simp
    ring

/-- C83: with `center='mean'`, no trimming and OLS, the fitted values are the least squares fit of the response by an affine function of
the scores: no intercept and score coefficients give a smaller residual sum of squares.  This holds for every optimiser and every
projection index, with or without scaling. -/
theorem C83_least_squares (pr : PpParams) (pinv : Pinv) (hp : IsGenInverse pinv) (φ : (Fin n → ℝ) → (Fin n → ℝ) → ℝ)
    (X : Fin n → Fin p → ℝ) (y : Fin n → ℝ) (f : PpFit n p) (h : ppFit pr pinv .ols φ X y = .ok f)
    (hm : pr.centre = .mean) (ht : pr.trimming = 0) (hc : pr.centerData = true) :
    (∑ i, f.residuals i = 0) ∧ (∀ a, ∑ i, f.residuals i * ppT f.comps i a = 0) ∧
    (∃ (b0 : ℝ) (b : Fin f.comps.length → ℝ), ∀ i, f.fitted i = Spec.affine b b0 (ppT f.comps i)) ∧
    ∀ (b0 : ℝ) (b : Fin f.comps.length → ℝ),
      ∑ i, (y i - f.fitted i) ^ 2 ≤ ∑ i, (y i - Spec.affine b b0 (ppT f.comps i)) ^ 2 := by
  obtain ⟨-, -, horth, -⟩ := C57_scores pr pinv .ols φ X y f h
  obtain ⟨Xs, ys, hXs, hys, hmX, hsX, hmy, hsy, -, -, hl, hs, hrot, hbs, hb, hb0, hfit, hres, -⟩ := ppFit_inv h
  obtain ⟨hlen, hI⟩ := ppLoop_inv _ _ _ hl
  have hsc := ppScores_eq hp hI
  rw [← hrot] at hsc
  simp only [hc, if_true, hm, ht, PpCentre.loc, ppMean_zero] at hXs hys hmX hmy hb0
  have hn : ∀ i : Fin n, 0 < n := fun i => lt_of_le_of_lt (Nat.zero_le _) i.2
  -- the scores sum to zero
  have hone : ∀ c ∈ f.comps, ∑ i, c.t i = 0 := by
    intro c hcm
    have := hI.left (fun _ => 1) (fun k => ?_) c hcm
    · simpa using this
    · simp only [one_mul, hXs, scaleMat, hs k, if_false, ← Finset.sum_div, hmX]
      rw [pp_sum_center, zero_div]
  -- the part of the fitted values that the scores give
  set g : Fin n → ℝ := fun i => ∑ a, ppT f.comps i a * ppC f.comps a with hg
  have hgsum : ∑ i, g i = 0 := by
    rw [hg, Finset.sum_comm]
    refine Finset.sum_eq_zero fun a _ => ?_
    rw [← Finset.sum_mul]
    have := hone (f.comps.get a) (List.get_mem _ _)
    have h2 : ∑ i, ppT f.comps i a = ∑ i, (f.comps.get a).t i := rfl
    rw [h2, this, zero_mul]
  have hXb : ∀ i, ∑ k, X i k * f.coef k = f.ySca * g i + ∑ k, f.xLoc k * f.coef k := by
    intro i
    have h1 : g i = ∑ k, Xs i k * f.coefScaled k := by
      have : (ppT f.comps).mulVec (ppC f.comps) i = (Matrix.of Xs).mulVec f.coefScaled i := by
        rw [hbs, Matrix.mulVec_mulVec, hsc]
      exact this
    rw [h1, Finset.mul_sum, ← Finset.sum_add_distrib]
    refine Finset.sum_congr rfl fun k _ => ?_
    have hk := hs k
    simp only [hXs, scaleMat, hk, if_false, hb]
    field_simp
    ring
  set κ := ∑ k, f.xLoc k * f.coef k with hκ
  have hfitted : ∀ i, f.fitted i = mean y + f.ySca * g i := by
    intro i
    have hb0' : f.intercept = mean y - κ := by
      rw [hb0, mean_eq, mean_eq]
      simp only [hXb]
      have hn' : (n : ℝ) ≠ 0 := by exact_mod_cast (hn i).ne'
      rw [Finset.sum_sub_distrib, Finset.sum_add_distrib, ← Finset.mul_sum, hgsum]
      simp
      field_simp
    rw [hfit]
    simp only
    rw [hXb, hb0']
    ring
  have hri : ∀ i, f.residuals i = y i - mean y - f.ySca * g i := by
    intro i; rw [hres]; simp only; rw [hfitted]; ring
  have hsum : ∑ i, f.residuals i = 0 := by
    simp only [hri, Finset.sum_sub_distrib, ← Finset.mul_sum, hgsum]
    have := pp_sum_center y
    rw [Finset.sum_sub_distrib] at this
    linarith
  have horth' : ∀ a, ∑ i, f.residuals i * ppT f.comps i a = 0 := by
    intro a
    have hnz := hI.nz (f.comps.get a) (List.get_mem _ _)
    have hc' := hI.reg (f.comps.get a) (List.get_mem _ _)
    -- the regression of one score
    have hgt : ∑ i, g i * ppT f.comps i a = ∑ i, ppT f.comps i a * ys i := by
      have e1 : ∑ i, g i * ppT f.comps i a = ∑ b, (∑ i, ppT f.comps i b * ppT f.comps i a) * ppC f.comps b := by
        simp only [hg, Finset.sum_mul]
        rw [Finset.sum_comm]
        exact Finset.sum_congr rfl fun b _ => Finset.sum_congr rfl fun i _ => by ring
      rw [e1, Finset.sum_eq_single a]
      · have e2 : ∑ i, ppT f.comps i a * ppT f.comps i a = ∑ i, (f.comps.get a).t i ^ 2 :=
          Finset.sum_congr rfl fun i _ => (pow_two _).symm
        have e3 : ppC f.comps a = (f.comps.get a).c := rfl
        rw [e2, e3, hc', PpReg.run]
        field_simp
        rfl
      · intro b _ hba
        rw [horth b a hba, zero_mul]
      · simp
    have hy : ∀ i, y i - mean y = f.ySca * ys i ∨ f.ySca = 0 := by
      intro i
      by_cases h0 : f.ySca = 0
      · exact Or.inr h0
      · left
        rw [hys]
        simp only [h0, if_false, hmy]
        field_simp
    by_cases h0 : f.ySca = 0
    · -- a constant response
      have hconst : ∀ i, y i - mean y = 0 := by
        rw [hsy] at h0
        simp only [hc, if_true, hm, ht, PpCentre.sca] at h0
        split at h0
        · have hv : ppStd 0 y = Real.sqrt (var y) := by
            simp [ppStd, stdT, var]
          rw [hv, Real.sqrt_eq_zero'] at h0
          have hvar : var y = (∑ i, (y i - mean y) ^ 2) / n := by rw [var_eq, mean_eq]
          intro i
          have hn' : (0 : ℝ) < n := by exact_mod_cast hn i
          rw [hvar, div_le_iff₀ hn', zero_mul] at h0
          have hz := (Finset.sum_eq_zero_iff_of_nonneg fun j _ => sq_nonneg (y j - mean y)).mp
            (le_antisymm h0 (Finset.sum_nonneg fun j _ => sq_nonneg _)) i (Finset.mem_univ _)
          exact pow_eq_zero_iff (two_ne_zero) |>.mp hz
        · exact absurd h0 one_ne_zero
      simp only [hri, hconst, h0]
      simp
    · have e : ∀ i, f.residuals i * ppT f.comps i a = f.ySca * (ppT f.comps i a * ys i) - f.ySca * (g i * ppT f.comps i a) := by
        intro i
        rw [hri]
        rcases hy i with h1 | h1
        · rw [h1]; ring
        · exact absurd h1 h0
      simp only [e, Finset.sum_sub_distrib, ← Finset.mul_sum, hgt, sub_self]
  have haff : ∀ i, f.fitted i = Spec.affine (fun a => f.ySca * ppC f.comps a) (mean y) (ppT f.comps i) := by
    intro i
    rw [hfitted, Spec.affine, hg, add_comm, Finset.mul_sum]
    congr 1
    exact Finset.sum_congr rfl fun a _ => by ring
  refine ⟨hsum, horth', ⟨_, _, haff⟩, ?_⟩
  intro b0 b
  set d : Fin n → ℝ := fun i => f.fitted i - Spec.affine b b0 (ppT f.comps i) with hd
  have hdr : ∑ i, f.residuals i * d i = 0 := by
    have e : ∀ i, f.residuals i * d i = f.residuals i * (mean y - b0) +
        ∑ a, (f.residuals i * ppT f.comps i a) * (f.ySca * ppC f.comps a - b a) := by
      intro i
      have : d i = (mean y - b0) + ∑ a, ppT f.comps i a * (f.ySca * ppC f.comps a - b a) := by
        simp only [hd, haff, Spec.affine, mul_sub, Finset.sum_sub_distrib]
        ring
      rw [this, mul_add, Finset.mul_sum]
      congr 1
      exact Finset.sum_congr rfl fun a _ => by ring
    simp only [e, Finset.sum_add_distrib]
    rw [← Finset.sum_mul, hsum, Finset.sum_comm]
    simp only [← Finset.sum_mul, horth']
    simp
  have e2 : ∀ i, (y i - Spec.affine b b0 (ppT f.comps i)) ^ 2 = (y i - f.fitted i) ^ 2 + 2 * (f.residuals i * d i) + d i ^ 2 := by
    intro i
    rw [hres]
    simp only [hd]
    ring
  simp only [e2, Finset.sum_add_distrib, ← Finset.mul_sum, hdr]
  have := Finset.sum_nonneg fun i (_ : i ∈ Finset.univ) => sq_nonneg (d i)
  linarith

/-! ### C86 and C87: the published scaler, positional responses -/

/-- C86 is violated: with a response, the published scaling object holds the location and scale of the response, one number each, so for two or more
variables it cannot be the scaling of the data. -/
theorem C86_scaling_object_violated (pr : PpParams) (pinv : Pinv) (rg : PpReg) (φ : (Fin n → ℝ) → (Fin n → ℝ) → ℝ)
    (X : Fin n → Fin p → ℝ) (y : Fin n → ℝ) (f : PpFit n p) (h : ppFit pr pinv rg φ X y = .ok f) (hp2 : 2 ≤ p)
    (hc : pr.centerData = true) : f.scalerLoc = [f.yLoc] ∧ f.scalerLoc ≠ List.ofFn f.xLoc := by
  obtain ⟨Xs, ys, -, -, -, -, -, -, -, -, -, -, -, -, -, -, -, -, -, h1, h2⟩ := ppFit_inv h
  simp only [hc, if_true] at h1
  refine ⟨h1, fun h3 => ?_⟩
  have := congrArg List.length h3
  rw [h1] at this
  simp at this
  omega

/-- C87: which regressions find the variables they need, by how the response is passed. -/
theorem C87_keyword_partial (r : PpRegName) : ppRegVars r true = .ok () := by cases r <;> rfl

theorem C87_ols_positional_partial (k : Bool) : ppRegVars .ols k = .ok () := rfl

/-- C87 is violated: a positional response with robust or quantile regression fails. -/
theorem C87_positional_violated (r : PpRegName) (hr : r ≠ .ols) : ppRegVars r false = .error .unboundLocal := by
  cases r
  · exact absurd rfl hr
  · rfl
  · rfl

end Direpack
