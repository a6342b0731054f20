import Verif.PPFull
import Verif.Spec.PPFull
import Verif.Props.PPDireExample

/-! C84, C85 and parts of C58, C86 and C137: whitening and compression in `ppdire`. -/

namespace Direpack

open scoped BigOperators

variable {n p : ℕ}

/-! ### Taking a compressed fit apart -/

lemma ppCompressed_inv {pr : PpParams} {svd : PpSvd} {pinv : Pinv} {rg : PpReg} {φ : (Fin n → ℝ) → (Fin n → ℝ) → ℝ} {X : Fin n → Fin p → ℝ}
    {y : Fin n → ℝ} {f : PpCompFit n p} (h : ppCompressed pr svd pinv rg φ X y = .ok f) :
    (∀ k, mad (fun i => ppCompressedX svd X i k) ≠ 0) ∧ ∃ g : PpFit n n, ppFit pr pinv rg φ (ppCompressedX svd X) y = .ok g ∧ pr.nComponents ≠ 0 ∧
      ∃ ic : PpIntercept n, ∃ fit : Fin n → ℝ,
      (pr.centre = .mean → ic = .vec fun c => ppMean pr.trimming fun r => y r - ∑ k, X c k * (svd.flat X).1.mulVec g.coef k) ∧
      (pr.centre = .median → ic = .num (medL (ppAllDiffs y fun c => ∑ k, X c k * (svd.flat X).1.mulVec g.coef k))) ∧
      (∀ v, ic = .num v → fit = fun c => (∑ k, X c k * (svd.flat X).1.mulVec g.coef k) + v) ∧
      (∀ v, ic = .vec v → fit = fun c => (∑ k, X c k * (svd.flat X).1.mulVec g.coef k) + v c) ∧
      f = { comps := g.comps, weights := (svd.flat X).1 * ppW g.comps, loads := (svd.flat X).1 * ppP g.comps, rot := (svd.flat X).1 * g.rot
            coefScaled := (svd.flat X).1.mulVec g.coefScaled, coef := (svd.flat X).1.mulVec g.coef, intercept := ic
            fitted := fit, residuals := fun r c => y r - fit c
            loc := if pr.centerData then
                some (fun k => pr.centre.loc pr.trimming fun i => X i k, fun k => pr.centre.sca pr.scaleData pr.trimming fun i => X i k)
              else none
            yLoc := g.yLoc, ySca := g.ySca
            scalerLoc := if pr.centerData then List.ofFn fun k => pr.centre.loc pr.trimming fun i => X i k else []
            scalerSca := if pr.centerData then List.ofFn fun k => pr.centre.sca pr.scaleData pr.trimming fun i => X i k else [] } := by
  unfold ppCompressed at h
  dsimp only at h
  by_cases hm : ∃ k, mad (fun i => ppCompressedX svd X i k) = 0
  · rw [if_pos hm] at h
    simp at h
  rw [if_neg hm] at h
  push Not at hm
  refine ⟨hm, ?_⟩
  cases hg : ppFit pr pinv rg φ (ppCompressedX svd X) y with
  | error e => rw [hg] at h; simp at h
  | ok g =>
    rw [hg] at h
    dsimp only at h
    by_cases h0 : pr.nComponents = 0
    · rw [if_pos h0] at h
      simp at h
    rw [if_neg h0] at h
    refine ⟨g, rfl, h0, ?_⟩
    cases hc : pr.centre with
    | mean =>
      rw [hc] at h
      simp only [Except.ok.injEq] at h
      refine ⟨_, _, fun _ => rfl, fun h => by simp at h, fun v hv => by simp at hv, fun v hv => ?_, h.symm⟩
      simp only [PpIntercept.vec.injEq] at hv
      rw [← hv]
    | median =>
      rw [hc] at h
      simp only [Except.ok.injEq] at h
      refine ⟨_, _, fun h => by simp at h, fun _ => rfl, fun v hv => ?_, fun v hv => by simp at hv, h.symm⟩
      simp only [PpIntercept.num.injEq] at hv
      rw [← hv]

/-- What a successful fit of a flat table with compression went through. -/
lemma PpConf.fit_compressed {cf : PpConf} {h : Option ℕ} {svd : PpSvd} {pinv : Pinv} {rg : PpReg} {φ : (Fin n → ℝ) → (Fin n → ℝ) → ℝ}
    {X : Fin n → Fin p → ℝ} {y : Fin n → ℝ} {f : PpCompFit n p} (hf : (cf.fit h svd pinv rg φ X y).2 = .ok (.compressed f)) :
    n < p ∧ cf.compression = true ∧ cf.whiten = false ∧ ppCompressed (cf.withComponents h).base svd pinv rg φ X y = .ok f := by
  have hwc : (cf.withComponents h).compression = cf.compression ∧ (cf.withComponents h).whiten = cf.whiten := by
    unfold PpConf.withComponents; split <;> exact ⟨rfl, rfl⟩
  unfold PpConf.fit at hf
  dsimp only at hf
  split at hf
  · simp at hf
  · dsimp only at hf
    have hww : (cf.withComponents h).whitened.whiten = cf.whiten := by
      rw [← hwc.2]; unfold PpConf.whitened; split <;> rfl
    rw [hww] at hf
    by_cases hw : cf.whiten = true
    · rw [if_pos hw] at hf
      cases hq : ppWhitened (cf.withComponents h).whitened.base svd pinv rg φ X y <;> rw [hq] at hf <;> simp [Except.map] at hf
    · rw [if_neg hw] at hf
      have he : (cf.withComponents h).whitened = cf.withComponents h := by
        unfold PpConf.whitened; rw [hwc.2, if_neg hw]
      rw [he] at hf
      split at hf
      · rename_i hc
        refine ⟨hc.1, hwc.1 ▸ hc.2, by simpa using hw, ?_⟩
        cases hq : ppCompressed (cf.withComponents h).base svd pinv rg φ X y with
        | error e => rw [hq] at hf; simp [Except.map] at hf
        | ok g => rw [hq] at hf; simp [Except.map] at hf; rw [hf]
      · cases hq : ppFit (cf.withComponents h).base pinv rg φ X y <;> rw [hq] at hf <;> simp [Except.map] at hf

/-! ### C84 -/

/-- C84 is violated: with `whiten_data=True`, at least one component and at least two variables, `fit` raises, whatever the data, the projection index, the optimiser
and the other parameters are. -/
theorem C84_whitening_violated (cf : PpConf) (h : Option ℕ) (svd : PpSvd) (pinv : Pinv) (rg : PpReg) (φ : (Fin n → ℝ) → (Fin n → ℝ) → ℝ)
    (X : Fin n → Fin p → ℝ) (y : Fin n → ℝ) (hw : cf.whiten = true) (hp : 2 ≤ p) (hc : (cf.withComponents h).base.nComponents ≠ 0) :
    ∃ e, (cf.fit h svd pinv rg φ X y).2 = .error e := by
  have hwc : (cf.withComponents h).whiten = true := by
    rw [← hw]; unfold PpConf.withComponents; split <;> rfl
  unfold PpConf.fit
  dsimp only
  split
  · exact ⟨_, rfl⟩
  · have hww : (cf.withComponents h).whitened.whiten = true := by
      unfold PpConf.whitened; rw [if_pos hwc]; exact hwc
    have hnc : (cf.withComponents h).whitened.base.nComponents ≠ 0 := by
      unfold PpConf.whitened; rw [if_pos hwc]; exact hc
    simp only [hww, if_true]
    generalize (cf.withComponents h).whitened.base = pr at hnc
    suffices hs : ∃ e, ppWhitened pr svd pinv rg φ X y = .error e by
      obtain ⟨e, he⟩ := hs
      exact ⟨e, by rw [he]; rfl⟩
    unfold ppWhitened
    split
    · exact ⟨_, rfl⟩
    · dsimp only
      split
      · exact ⟨_, rfl⟩
      · split
        · exact ⟨_, rfl⟩
        · split
          · exact ⟨_, rfl⟩
          · rename_i l hl
            have hlen := (ppLoop_inv _ _ _ hl).1
            rw [if_pos]
            · exact ⟨_, rfl⟩
            · refine ⟨?_, by omega⟩
              rintro rfl
              exact hnc (by simpa using hlen.symm)

/-! ### C58 after compression -/

/-- C58 after compression: predictions for the training data are the fitted values. -/
theorem C58_compressed (cf : PpConf) (h : Option ℕ) (svd : PpSvd) (pinv : Pinv) (rg : PpReg) (φ : (Fin n → ℝ) → (Fin n → ℝ) → ℝ)
    (X : Fin n → Fin p → ℝ) (y : Fin n → ℝ) (f : PpCompFit n p) (hf : (cf.fit h svd pinv rg φ X y).2 = .ok (.compressed f)) :
    f.predict X = .ok (List.ofFn f.fitted) := by
  obtain ⟨-, -, -, hq⟩ := PpConf.fit_compressed hf
  obtain ⟨-, g, -, -, ic, fit, -, -, h1, h2, rfl⟩ := ppCompressed_inv hq
  unfold PpCompFit.predict
  cases hi : ic with
  | num v => rw [h1 v hi]
  | vec v => rw [h2 v hi]; simp

/-- C58 is violated after compression: the residuals are a matrix, with the response of case `r` minus the fitted value of case `c` in row `r` and column `c`; so the
entries in the column of a case are the residuals of that case only if all responses are equal. -/
theorem C58_compressed_violated (cf : PpConf) (h : Option ℕ) (svd : PpSvd) (pinv : Pinv) (rg : PpReg) (φ : (Fin n → ℝ) → (Fin n → ℝ) → ℝ)
    (X : Fin n → Fin p → ℝ) (y : Fin n → ℝ) (f : PpCompFit n p) (hf : (cf.fit h svd pinv rg φ X y).2 = .ok (.compressed f)) :
    (∀ r c, f.residuals r c = y r - f.fitted c) ∧ ((∀ r c, f.residuals r c = y c - f.fitted c) ↔ ∀ r c, y r = y c) := by
  obtain ⟨-, -, -, hq⟩ := PpConf.fit_compressed hf
  obtain ⟨-, g, -, -, ic, fit, -, -, h1, h2, rfl⟩ := ppCompressed_inv hq
  refine ⟨fun r c => rfl, fun hr r c => ?_, fun hy r c => ?_⟩
  · have := hr r c
    simp only at this
    linarith
  · simp only
    rw [hy r c]

/-! ### C85 -/

/-- C85 is violated: with `center='mean'` and no trimming, the fitted values after compression are the mean of the response for every case; and for any trimming,
prediction for a number of new cases other than one or the number of training cases raises. -/
theorem C85_compression_violated (cf : PpConf) (h : Option ℕ) (svd : PpSvd) (pinv : Pinv) (rg : PpReg) (φ : (Fin n → ℝ) → (Fin n → ℝ) → ℝ)
    (X : Fin n → Fin p → ℝ) (y : Fin n → ℝ) (f : PpCompFit n p) (hf : (cf.fit h svd pinv rg φ X y).2 = .ok (.compressed f))
    (hc : cf.base.centre = .mean) :
    (cf.base.trimming = 0 → ∀ i, f.fitted i = (∑ j, y j) / n) ∧
    ∀ {m : ℕ} (Xn : Fin m → Fin p → ℝ), m ≠ n → m ≠ 1 → n ≠ 1 → f.predict Xn = .error .valueError := by
  obtain ⟨-, -, -, hq⟩ := PpConf.fit_compressed hf
  obtain ⟨-, g, -, -, ic, fit, hic, -, h1, h2, rfl⟩ := ppCompressed_inv hq
  have hc' : (cf.withComponents h).base.centre = .mean := by
    rw [← hc]; unfold PpConf.withComponents; split <;> rfl
  have ht : (cf.withComponents h).base.trimming = cf.base.trimming := by
    unfold PpConf.withComponents; split <;> rfl
  have hi := hic hc'
  constructor
  · intro h0 i
    have := h2 _ hi
    simp only
    rw [this]
    simp only
    have hn : 0 < n := lt_of_le_of_lt (Nat.zero_le _) i.2
    have hn' : (n : ℝ) ≠ 0 := by exact_mod_cast hn.ne'
    rw [ht, h0, ppMean_zero, mean_eq, Finset.sum_sub_distrib]
    simp
    field_simp
    ring
  · intro m Xn e1 e2 e3
    unfold PpCompFit.predict
    rw [hi]
    simp [e1, e2, e3]

/-- C85 (partial: `center='median'`): predictions for any number of new cases are one affine function of the variables, with the reported coefficients. -/
theorem C85_median_partial (cf : PpConf) (h : Option ℕ) (svd : PpSvd) (pinv : Pinv) (rg : PpReg) (φ : (Fin n → ℝ) → (Fin n → ℝ) → ℝ)
    (X : Fin n → Fin p → ℝ) (y : Fin n → ℝ) (f : PpCompFit n p) (hf : (cf.fit h svd pinv rg φ X y).2 = .ok (.compressed f))
    (hc : cf.base.centre = .median) :
    ∃ b0, ∀ {m : ℕ} (Xn : Fin m → Fin p → ℝ), f.predict Xn = .ok (List.ofFn fun i => Spec.affine f.coef b0 (Xn i)) := by
  obtain ⟨-, -, -, hq⟩ := PpConf.fit_compressed hf
  obtain ⟨-, g, -, -, ic, fit, -, hic, h1, h2, rfl⟩ := ppCompressed_inv hq
  have hc' : (cf.withComponents h).base.centre = .median := by
    rw [← hc]; unfold PpConf.withComponents; split <;> rfl
  have hi := hic hc'
  refine ⟨medL (ppAllDiffs y fun c => ∑ k, X c k * (svd.flat X).1.mulVec g.coef k), fun Xn => ?_⟩
  unfold PpCompFit.predict
  rw [hi]
  rfl

/-- C85 is violated: if a column of the compressed table has a zero median absolute deviation, the announced continuation without compression raises, whatever the
data are. -/
theorem C85_fallback_violated (cf : PpConf) (h : Option ℕ) (svd : PpSvd) (pinv : Pinv) (rg : PpReg) (φ : (Fin n → ℝ) → (Fin n → ℝ) → ℝ)
    (X : Fin n → Fin p → ℝ) (y : Fin n → ℝ) (hw : cf.whiten = false) (hcmp : cf.compression = true) (hnp : n < p)
    (k : Fin n) (hk : mad (fun i => (svd.flat X).2.2 k i * (svd.flat X).2.1 k) = 0) : ∃ e, (cf.fit h svd pinv rg φ X y).2 = .error e := by
  have hwc : (cf.withComponents h).compression = true ∧ (cf.withComponents h).whiten = false := by
    unfold PpConf.withComponents; split <;> exact ⟨hcmp, hw⟩
  have he : (cf.withComponents h).whitened = cf.withComponents h := by
    unfold PpConf.whitened; rw [hwc.2]; simp
  unfold PpConf.fit
  dsimp only
  split
  · exact ⟨_, rfl⟩
  · rw [he]
    simp only [hwc, Bool.false_eq_true, if_false, hnp, and_self, if_true]
    unfold ppCompressed
    dsimp only
    rw [if_pos ⟨k, hk⟩]
    exact ⟨_, rfl⟩

lemma ppCompressedX_eq {svd : PpSvd} {X : Fin n → Fin p → ℝ} (hs : Spec.IsThinSvd X (svd.flat X)) :
    Matrix.of X * (svd.flat X).1 = Matrix.of (ppCompressedX svd X) := by
  have hX : Matrix.of X = Matrix.of (ppCompressedX svd X) * (svd.flat X).1.transpose := by
    ext i k
    rw [Matrix.mul_apply]
    show X i k = _
    rw [hs.prod]
    refine Finset.sum_congr rfl fun l _ => ?_
    simp only [Matrix.of_apply, ppCompressedX, Matrix.transpose_apply]
    ring
  rw [hX, Matrix.mul_assoc, hs.left, Matrix.mul_one]

/-- C85 (partial: what the coefficients are): the reported coefficients, applied to the variables, give what the model fitted to the compressed table gives; and
that table has the same inner products between cases as the data. -/
theorem C85_coef_partial (cf : PpConf) (h : Option ℕ) (svd : PpSvd) (pinv : Pinv) (rg : PpReg) (φ : (Fin n → ℝ) → (Fin n → ℝ) → ℝ)
    (X : Fin n → Fin p → ℝ) (y : Fin n → ℝ) (f : PpCompFit n p) (hf : (cf.fit h svd pinv rg φ X y).2 = .ok (.compressed f))
    (hs : Spec.IsThinSvd X (svd.flat X)) :
    ∃ (Z : Fin n → Fin n → ℝ) (g : PpFit n n), (∀ i j, ∑ k, Z i k * Z j k = ∑ k, X i k * X j k) ∧
      ppFit (cf.withComponents h).base pinv rg φ Z y = .ok g ∧ (∀ i, ∑ k, X i k * f.coef k = ∑ k, Z i k * g.coef k) ∧ f.comps = g.comps := by
  obtain ⟨-, -, -, hq⟩ := PpConf.fit_compressed hf
  obtain ⟨-, g, hg, -, ic, fit, -, -, h1, h2, rfl⟩ := ppCompressed_inv hq
  have hXV := ppCompressedX_eq hs
  refine ⟨ppCompressedX svd X, g, ?_, hg, ?_, rfl⟩
  · intro i j
    have hX : Matrix.of X = Matrix.of (ppCompressedX svd X) * (svd.flat X).1.transpose := by
      ext i k
      rw [Matrix.mul_apply]
      show X i k = _
      rw [hs.prod]
      refine Finset.sum_congr rfl fun l _ => ?_
      simp only [Matrix.of_apply, ppCompressedX, Matrix.transpose_apply]
      ring
    have hG : Matrix.of X * (Matrix.of X).transpose = Matrix.of (ppCompressedX svd X) * (Matrix.of (ppCompressedX svd X)).transpose := by
      rw [hX, Matrix.transpose_mul, Matrix.transpose_transpose, Matrix.mul_assoc, ← Matrix.mul_assoc _ (svd.flat X).1, hs.left, Matrix.one_mul]
    have := congrFun (congrFun hG i) j
    simp only [Matrix.mul_apply, Matrix.transpose_apply, Matrix.of_apply] at this
    exact this.symm
  · intro i
    have : (Matrix.of X).mulVec ((svd.flat X).1.mulVec g.coef) i = (Matrix.of (ppCompressedX svd X)).mulVec g.coef i := by
      rw [Matrix.mulVec_mulVec, hXV]
    exact this

/-- C85 (partial: scores and weights): after compression the score vectors are nonzero and mutually orthogonal and the weight vectors have unit length. -/
theorem C85_orthogonal_partial (cf : PpConf) (h : Option ℕ) (svd : PpSvd) (pinv : Pinv) (rg : PpReg) (φ : (Fin n → ℝ) → (Fin n → ℝ) → ℝ)
    (X : Fin n → Fin p → ℝ) (y : Fin n → ℝ) (f : PpCompFit n p) (hf : (cf.fit h svd pinv rg φ X y).2 = .ok (.compressed f))
    (hs : Spec.IsThinSvd X (svd.flat X)) :
    f.comps.length = (h.getD cf.base.nComponents) ∧ (∀ a, UnitLen fun k => f.weights k a) ∧
    PairwiseOrthogonal (fun i a => ppT f.comps i a) ∧ ∀ a, ∑ i, ppT f.comps i a ^ 2 ≠ 0 := by
  obtain ⟨-, -, -, hq⟩ := PpConf.fit_compressed hf
  obtain ⟨-, g, hg, -, ic, fit, -, -, h1, h2, rfl⟩ := ppCompressed_inv hq
  obtain ⟨e1, e2, e3, e4⟩ := C57_scores _ pinv rg φ _ y g hg
  refine ⟨?_, fun a => ?_, e3, e4⟩
  · show g.comps.length = _
    rw [e1]
    unfold PpConf.withComponents
    cases h <;> rfl
  · have hWW : ((svd.flat X).1 * ppW g.comps).transpose * ((svd.flat X).1 * ppW g.comps) = (ppW g.comps).transpose * ppW g.comps := by
      rw [Matrix.transpose_mul, Matrix.mul_assoc, ← Matrix.mul_assoc _ (svd.flat X).1, hs.left, Matrix.one_mul]
    have h3 := congrFun (congrFun hWW a) a
    simp only [Matrix.mul_apply (M := Matrix.transpose _), Matrix.transpose_apply] at h3
    have h4 := e2 a
    unfold UnitLen at h4 ⊢
    simp only [pow_two] at h4 ⊢
    rw [← h4]
    exact h3

/-- C85 (partial: no scaling, `center='mean'`, no trimming): transforming the training data after compression gives the scores. -/
theorem C85_scores_partial (cf : PpConf) (h : Option ℕ) (svd : PpSvd) (pinv : Pinv) (hp : IsGenInverse pinv) (rg : PpReg)
    (φ : (Fin n → ℝ) → (Fin n → ℝ) → ℝ)
    (X : Fin n → Fin p → ℝ) (y : Fin n → ℝ) (f : PpCompFit n p) (hf : (cf.fit h svd pinv rg φ X y).2 = .ok (.compressed f))
    (hs : Spec.IsThinSvd X (svd.flat X)) (hc : cf.base.centre = .mean) (ht : cf.base.trimming = 0) (hd : cf.base.centerData = true)
    (hsc : cf.base.scaleData = false) : f.transform X = .ok (.mat (ppT f.comps)) := by
  obtain ⟨-, -, -, hq⟩ := PpConf.fit_compressed hf
  have hb : (cf.withComponents h).base.centre = .mean ∧ (cf.withComponents h).base.trimming = 0 ∧ (cf.withComponents h).base.centerData = true ∧
      (cf.withComponents h).base.scaleData = false := by
    unfold PpConf.withComponents; split <;> exact ⟨hc, ht, hd, hsc⟩
  obtain ⟨-, g, hg, -, ic, fit, -, -, h1, h2, rfl⟩ := ppCompressed_inv hq
  obtain ⟨Xs, ys, hXs, -, hmX, hsX, -, -, -, -, hl, hsne, hrot, -⟩ := ppFit_inv hg
  obtain ⟨-, hI⟩ := ppLoop_inv _ _ _ hl
  have hT := ppScores_eq hp hI
  unfold PpCompFit.transform
  simp only [hb, if_true, PpCentre.loc, PpCentre.sca, Bool.false_eq_true, if_false, ppMean_zero]
  simp only [hb, if_true, PpCentre.loc, PpCentre.sca, Bool.false_eq_true, if_false, ppMean_zero] at hXs hmX hsX
  congr 2
  rw [← hT, ← hrot, ← Matrix.mul_assoc]
  congr 1
  have hXV := ppCompressedX_eq hs
  ext i l
  rw [Matrix.mul_apply, hXs]
  simp only [Matrix.of_apply, scaleMat, hmX, hsX, one_ne_zero, if_false, div_one, sub_mul, Finset.sum_sub_distrib]
  have e : ∀ j, ∑ k, X j k * (svd.flat X).1 k l = ppCompressedX svd X j l := by
    intro j
    have := congrFun (congrFun hXV j) l
    rwa [Matrix.mul_apply] at this
  rw [e, mean_eq]
  congr 1
  simp only [mean_eq, div_mul_eq_mul_div, Finset.sum_mul, ← Finset.sum_div]
  rw [Finset.sum_comm]
  simp only [e]

/-- C86 after compression: the published scaling object holds the location and scale of the variables of the data. -/
theorem C86_compressed_partial (cf : PpConf) (h : Option ℕ) (svd : PpSvd) (pinv : Pinv) (rg : PpReg) (φ : (Fin n → ℝ) → (Fin n → ℝ) → ℝ)
    (X : Fin n → Fin p → ℝ) (y : Fin n → ℝ) (f : PpCompFit n p) (hf : (cf.fit h svd pinv rg φ X y).2 = .ok (.compressed f))
    (hc : cf.base.centre = .mean) (ht : cf.base.trimming = 0) (hd : cf.base.centerData = true) (hsc : cf.base.scaleData = true) :
    f.scalerLoc = (List.ofFn fun k => (∑ i, X i k) / n) ∧
      f.scalerSca = List.ofFn fun k => Real.sqrt ((∑ i, (X i k - (∑ j, X j k) / n) ^ 2) / n) := by
  obtain ⟨-, -, -, hq⟩ := PpConf.fit_compressed hf
  have hb : (cf.withComponents h).base.centre = .mean ∧ (cf.withComponents h).base.trimming = 0 ∧ (cf.withComponents h).base.centerData = true ∧
      (cf.withComponents h).base.scaleData = true := by
    unfold PpConf.withComponents; split <;> exact ⟨hc, ht, hd, hsc⟩
  obtain ⟨-, g, hg, -, ic, fit, -, -, h1, h2, rfl⟩ := ppCompressed_inv hq
  have hv : ∀ x : Fin n → ℝ, ppStd 0 x = Real.sqrt (var x) := fun x => by simp [ppStd, stdT, var]
  simp only [hb, if_true, PpCentre.loc, PpCentre.sca, ppMean_zero, hv]
  constructor
  · simp only [mean_eq]
  · simp only [var_eq, mean_eq]

/-! ### C137 -/

/-- C137 (partial: `ppdire` without `whiten_data` and without the argument `h`): `fit` leaves the parameters as they are, also when it raises. -/
theorem C137_ppdire_partial (cf : PpConf) (svd : PpSvd) (pinv : Pinv) (rg : PpReg) (φ : (Fin n → ℝ) → (Fin n → ℝ) → ℝ)
    (X : Fin n → Fin p → ℝ) (y : Fin n → ℝ) (hw : cf.whiten = false) : (cf.fit none svd pinv rg φ X y).1 = cf := by
  unfold PpConf.fit PpConf.withComponents PpConf.whitened
  dsimp only
  split
  · rfl
  · rw [hw]; simp

/-- C137 is violated: the argument `h` of `fit` replaces the number of components for good, also when `fit` raises because there are too many. -/
theorem C137_ppdire_h_violated (cf : PpConf) (k : ℕ) (svd : PpSvd) (pinv : Pinv) (rg : PpReg) (φ : (Fin n → ℝ) → (Fin n → ℝ) → ℝ)
    (X : Fin n → Fin p → ℝ) (y : Fin n → ℝ) : (cf.fit (some k) svd pinv rg φ X y).1.base.nComponents = k := by
  unfold PpConf.fit PpConf.withComponents PpConf.whitened
  dsimp only
  split
  · rfl
  · dsimp only
    split <;> rfl

/-- C137 is violated: `whiten_data=True` overwrites three parameters, so that the fit (which raises, see C84) leaves `scale_data`, `center_data` and `compression`
changed for the next one. -/
theorem C137_ppdire_whiten_violated (cf : PpConf) (svd : PpSvd) (pinv : Pinv) (rg : PpReg) (φ : (Fin n → ℝ) → (Fin n → ℝ) → ℝ)
    (X : Fin n → Fin p → ℝ) (y : Fin n → ℝ) (hw : cf.whiten = true) (hk : cf.base.nComponents ≤ min n p) :
    (cf.fit none svd pinv rg φ X y).1.base.centerData = true ∧ (cf.fit none svd pinv rg φ X y).1.base.scaleData = false ∧
      (cf.fit none svd pinv rg φ X y).1.compression = false := by
  unfold PpConf.fit PpConf.withComponents PpConf.whitened
  dsimp only
  rw [if_neg (not_lt.mpr hk), hw]
  exact ⟨rfl, rfl, rfl⟩

end Direpack
