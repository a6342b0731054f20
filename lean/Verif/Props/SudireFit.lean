import Mathlib.LinearAlgebra.Dimension.Constructions
import Verif.Props.SudireHist

/-! Properties C92 to C96: scores, predictions and applicability of `sudire`. -/

namespace Direpack

open scoped BigOperators
open Spec

variable {n p : ℕ}

/-! ### Scores -/

lemma sdDirections_x0 {ext : SdExt} {pr : SdParams} {st st' : SdState} {q : SdPre n p} {y : Fin n → ℝ} {L : SdLoad p}
    (h : sdDirections ext pr st q y = .ok (L, st')) : st'.x0 = st.x0 := by
  by_cases hm : pr.meth.direct
  · rw [sdDirections_direct hm] at h
    cases hd : sdDirections ext pr .init q y with
    | error e => rw [hd] at h; exact absurd h (by simp [Except.map])
    | ok r =>
      rw [hd] at h
      simp only [Except.map, Except.ok.injEq, Prod.mk.injEq] at h
      rw [← h.2]
  · have hopt : ∃ s, sdOptimise ext pr st q y s = .ok (L, st') := by
      unfold sdDirections at h
      cases hmeth : pr.meth with
      | slice m => rw [hmeth] at hm; exact absurd trivial hm
      | phd => rw [hmeth] at hm; exact absurd trivial hm
      | iht => rw [hmeth] at hm; exact absurd trivial hm
      | dcov => rw [hmeth] at h; exact ⟨_, h⟩
      | opt o => rw [hmeth] at h; exact ⟨_, h⟩
    obtain ⟨s, h⟩ := hopt
    unfold sdOptimise at h
    split at h
    · exact absurd h (by simp)
    · dsimp only at h
      split at h
      · exact absurd h (by simp)
      · split at h
        · simp only [Except.ok.injEq, Prod.mk.injEq] at h
          rw [← h.2]
        · split at h
          · exact absurd h (by simp)
          · simp only [Except.ok.injEq, Prod.mk.injEq] at h
            rw [← h.2]

lemma sdScores_self {L : SdLoad p} (X : Fin n → Fin p → ℝ) : sdScores (some ⟨n, p, X⟩) n L = .ok (matX X L.P) := by
  unfold sdScores
  simp only [Fin.cast_refl, id_eq, dite_true]
  rfl

lemma fit_scores {ext : SdExt} {o o' : SdObj} (hc : o.params.copy = true) {X : Fin n → Fin p → ℝ} {y : Fin n → ℝ} {f : SdFit n p}
    (h : o.fit ext X y = .ok (o', f)) : f.T = matX X f.P := by
  obtain ⟨q, L, st', pm, T, hq, hd, hp, hT, -, rfl⟩ := SdObj.fit_ok h
  rw [sdDirections_x0 hd, whitened_copy, hc] at hT
  have : (o.state.setX0 true X).x0 = some ⟨n, p, X⟩ := rfl
  rw [this, sdScores_self] at hT
  exact (Except.ok.inj hT).symm

/-- C92 (partial: `copy=True`): `transform` of the training data gives the scores of the fit. -/
theorem C92_training_partial {ext : SdExt} {o o' : SdObj} (hc : o.params.copy = true) {X : Fin n → Fin p → ℝ} {y : Fin n → ℝ} {f : SdFit n p}
    (h : o.fit ext X y = .ok (o', f)) : f.transform X = .ok f.T := by
  rw [fit_scores hc h]
  unfold SdFit.transform
  simp

/-- C92: the scores of a new case are linear combinations of its variables with the loadings as coefficients, whatever the other cases are. -/
theorem C92_cases (f : SdFit n p) {m : ℕ} (Xn : Fin m → Fin p → ℝ) :
    ∃ T, f.transform Xn = .ok T ∧ ∀ c j, T c j = ∑ k, Xn c k * f.P k j := by
  unfold SdFit.transform
  simp only [Fin.cast_refl, id_eq, dite_true]
  exact ⟨_, rfl, fun c j => rfl⟩

/-- C92: data with another number of variables are rejected. -/
theorem C92_columns (f : SdFit n p) {m q : ℕ} (Xn : Fin m → Fin q → ℝ) (hq : q ≠ p) : f.transform Xn = .error .valueError := by
  unfold SdFit.transform
  rw [dif_neg hq]

/-- C92 is violated with `copy=False`: no data can be fitted. -/
theorem C92_no_copy_violated (ext : SdExt) (pr : SdParams) (hc : pr.copy = false) (X : Fin n → Fin p → ℝ) (y : Fin n → ℝ) :
    ∃ e, (SdObj.new pr).fit ext X y = .error e := by
  cases h : (SdObj.new pr).fit ext X y with
  | error e => exact ⟨e, rfl⟩
  | ok r =>
    obtain ⟨o', f⟩ := r
    obtain ⟨q, L, st', pm, T, hq, hd, hp, hT, -, -⟩ := SdObj.fit_ok h
    rw [sdDirections_x0 hd, whitened_copy] at hT
    simp only [SdObj.new, hc] at hT
    have : (SdState.init.setX0 false X).x0 = none := rfl
    rw [this] at hT
    exact absurd hT (by simp [sdScores])

/-! ### Predictions -/

/-- C93: the predictions for the training data are the fitted values of a least squares regression on the scores: the residuals are orthogonal to all
columns of the regression. -/
theorem C93_training {ext : SdExt} (hols : ∀ {n k : ℕ} (A : Fin n → Fin k → ℝ) (y : Fin n → ℝ), IsLeastSquares A y (ext.ols A y))
    {o o' : SdObj} (hc : o.params.copy = true) {X : Fin n → Fin p → ℝ} {y : Fin n → ℝ} {f : SdFit n p} (h : o.fit ext X y = .ok (o', f)) :
    ∃ yh, f.predict X = .ok yh ∧ (∀ j, ∑ c, f.T c j * (y c - yh c) = 0) ∧ ((¬ ∃ j, IsConstCol f.T j) → ∑ c, (y c - yh c) = 0) := by
  have htr := C92_training_partial hc h
  obtain ⟨q, L, st', pm, T, -, -, -, -, -, rfl⟩ := SdObj.fit_ok h
  unfold SdFit.predict
  rw [htr]
  dsimp only
  rw [dif_pos rfl]
  have hls := hols (addConstant T).2 y
  refine ⟨_, rfl, ?_, ?_⟩
  · intro j
    simp only [Fin.cast_refl, id_eq]
    unfold IsLeastSquares at hls
    by_cases hcst : ∃ j, IsConstCol T j
    · have e : addConstant T = ⟨L.h, T⟩ := by unfold addConstant; rw [if_pos hcst]
      rw [e] at hls ⊢
      exact hls j
    · have e : addConstant T = ⟨L.h + 1, fun c => Fin.cons 1 (T c)⟩ := by unfold addConstant; rw [if_neg hcst]
      rw [e] at hls ⊢
      have := hls (Fin.succ j)
      simpa using this
  · intro hcst
    simp only [Fin.cast_refl, id_eq]
    unfold IsLeastSquares at hls
    have e : addConstant T = ⟨L.h + 1, fun c => Fin.cons 1 (T c)⟩ := by unfold addConstant; rw [if_neg hcst]
    rw [e] at hls ⊢
    have := hls 0
    simpa using this

/-- C93 (partial: new data none of whose score columns is constant, and a model with a constant term): the prediction for a case is one affine function of its
scores. -/
theorem C93_predict_partial (f : SdFit n p) (hk : f.k = f.h + 1) : ∃ (b0 : ℝ) (b : Fin f.h → ℝ), ∀ {m : ℕ} (Xn : Fin m → Fin p → ℝ),
    (¬ ∃ j, IsConstCol (matX Xn f.P) j) → f.predict Xn = .ok fun c => b0 + ∑ j, (∑ k, Xn c k * f.P k j) * b j := by
  obtain ⟨h, P, proj, T, k, coef, loc, sca⟩ := f
  dsimp only at hk ⊢
  subst hk
  refine ⟨coef 0, fun j => coef j.succ, ?_⟩
  intro m Xn hcst
  unfold SdFit.predict SdFit.transform
  simp only [Fin.cast_refl, id_eq, dite_true]
  have e : addConstant (matX Xn P) = ⟨h + 1, fun c => Fin.cons 1 (matX Xn P c)⟩ := by unfold addConstant; rw [if_neg hcst]
  rw [e]
  simp only [dite_true, Except.ok.injEq]
  funext c
  rw [Fin.sum_univ_succ]
  simp [matX]

/-- C93 is violated: a single new case with a score that is not zero cannot be predicted by a model with a constant term. -/
theorem C93_single_violated (f : SdFit n p) (hk : f.k = f.h + 1) (Xn : Fin 1 → Fin p → ℝ) (j : Fin f.h) (hj : ∑ k, Xn 0 k * f.P k j ≠ 0) :
    f.predict Xn = .error .valueError := by
  unfold SdFit.predict SdFit.transform
  simp only [Fin.cast_refl, id_eq, dite_true]
  have hcst : ∃ j, IsConstCol (matX Xn f.P) j := by
    refine ⟨j, fun c c' => by rw [Subsingleton.elim c c'], fun c => ?_⟩
    rw [Subsingleton.elim c 0]
    exact hj
  have e : addConstant (matX Xn f.P) = ⟨f.h, matX Xn f.P⟩ := by unfold addConstant; rw [if_pos hcst]
  rw [e]
  dsimp only
  rw [dif_neg (by omega)]

/-! ### Covariance of the scores -/

lemma mean_affine_row (hn : 0 < n) {h : ℕ} (X : Fin n → Fin p → ℝ) (m : Fin p → ℝ) (A : Matrix (Fin p) (Fin h) ℝ) (j : Fin h) :
    (mean fun c => matX (fun c k => X c k - m k) A c j) = ∑ k, ((mean fun c => X c k) - m k) * A k j := by
  have hn' : (n : ℝ) ≠ 0 := by exact_mod_cast hn.ne'
  simp only [mean_eq, matX]
  rw [Finset.sum_comm, Finset.sum_div]
  refine Finset.sum_congr rfl fun k _ => ?_
  rw [← Finset.sum_mul, Finset.sum_sub_distrib]
  simp
  field_simp

/-- Covariance of linear combinations. -/
lemma covMat_affine (hn : 0 < n) {h : ℕ} (X : Fin n → Fin p → ℝ) (m : Fin p → ℝ) (A : Matrix (Fin p) (Fin h) ℝ) :
    covMat (matX (fun c k => X c k - m k) A) = A.transpose * covMat X * A := by
  ext j l
  have hdev : ∀ c j, matX (fun c k => X c k - m k) A c j - (mean fun i => matX (fun c k => X c k - m k) A i j) =
      ∑ k, (X c k - mean fun i => X i k) * A k j := by
    intro c j
    rw [mean_affine_row hn]
    unfold matX
    rw [← Finset.sum_sub_distrib]
    exact Finset.sum_congr rfl fun k _ => by ring
  simp only [covMat, Matrix.of_apply, hdev]
  rw [Matrix.mul_apply]
  simp only [Matrix.mul_apply, Matrix.transpose_apply, Matrix.of_apply]
  simp only [Finset.sum_mul, Finset.mul_sum, Finset.sum_div]
  rw [Finset.sum_comm]
  refine Finset.sum_congr rfl fun k' _ => ?_
  rw [Finset.sum_comm]
  refine Finset.sum_congr rfl fun k _ => Finset.sum_congr rfl fun c _ => ?_
  ring

lemma covMat_lin (hn : 0 < n) {h : ℕ} (X : Fin n → Fin p → ℝ) (A : Matrix (Fin p) (Fin h) ℝ) :
    covMat (matX X A) = A.transpose * covMat X * A := by
  have := covMat_affine hn X 0 A
  simpa using this

lemma sdPre_ok {ext : SdExt} {pr : SdParams} {X : Fin n → Fin p → ℝ} {q : SdPre n p} (h : sdPre ext pr X = .ok q) :
    ∃ N2, ext.rootInv (covMat X) = .ok N2 ∧ 2 ≤ n ∧ 2 ≤ p ∧ pr.nComp ≤ min n p ∧ q = sdWhitenStep ext pr (sdScaleStep pr X (sdCentreStep pr X N2)) := by
  rw [sdPre] at h
  by_cases h1 : min n p < pr.nComp
  · rw [if_pos h1] at h; exact absurd h (by simp)
  · rw [if_neg h1] at h
    by_cases h2 : n < 2 ∨ p < 2
    · rw [if_pos h2] at h; exact absurd h (by simp)
    · rw [if_neg h2] at h
      cases hr : ext.rootInv (covMat X) with
      | error e => rw [hr] at h; exact absurd h (by simp)
      | ok N2 =>
        rw [hr] at h
        dsimp only at h
        split at h
        · exact absurd h (by simp)
        · exact ⟨N2, rfl, by omega, by omega, by omega, (Except.ok.inj h).symm⟩

/-- The directions of the methods that are not based on optimisation are orthonormal in the metric of the data they are given. -/
lemma direct_orth {ext : SdExt} (he : IsEigh ext.eigh) {pr : SdParams} (hm : pr.meth.direct) {st st' : SdState} {q : SdPre n p} {y : Fin n → ℝ}
    {L : SdLoad p} (h : sdDirections ext pr st q y = .ok (L, st')) :
    ∃ (d : ℕ) (B : Matrix (Fin p) (Fin d) ℝ), L = ⟨d, sdMapBack pr.scaleData q.N2 B⟩ ∧ OrthonormalIn (if pr.scaleData then covMat q.Xs else 1) B := by
  unfold sdDirections at h
  cases hmeth : pr.meth with
  | slice m =>
    rw [hmeth] at h
    dsimp only at h
    split at h
    · exact absurd h (by simp)
    · rename_i B hB
      simp only [Except.ok.injEq, Prod.mk.injEq] at h
      exact ⟨_, B, h.1.symm, C89_slicing he _ _ _ _ _ _ _ _ _ hB⟩
  | phd =>
    rw [hmeth] at h
    dsimp only at h
    split at h
    · exact absurd h (by simp)
    · rename_i B hB
      simp only [Except.ok.injEq, Prod.mk.injEq] at h
      exact ⟨_, B, h.1.symm, C89_phd he _ _ _ _ _ _ hB⟩
  | iht =>
    rw [hmeth] at h
    dsimp only at h
    split at h
    · exact absurd h (by simp)
    · rename_i B hB
      simp only [Except.ok.injEq, Prod.mk.injEq] at h
      exact ⟨_, B, h.1.symm, C89_iht he _ _ _ _ _ _ hB⟩
  | dcov => rw [hmeth] at hm; exact hm.elim
  | opt o => rw [hmeth] at hm; exact hm.elim

/-- Mean centring and scaling give data with the identity as covariance matrix. -/
lemma sdPre_cov {ext : SdExt} (hr : IsRootInv ext.rootInv) {pr : SdParams} (hs : pr.scaleData = true) (hw : pr.whiten = false) (hc : pr.center = .mean)
    {X : Fin n → Fin p → ℝ} {q : SdPre n p} (h : sdPre ext pr X = .ok q) :
    covMat q.Xs = 1 ∧ q.N2.transpose = q.N2 ∧ q.N2 * covMat X * q.N2 = 1 := by
  obtain ⟨N2, hN, hn, -, -, rfl⟩ := sdPre_ok h
  obtain ⟨h1, h2⟩ := hr _ _ (covMat_symm X) hN
  have hX : ∃ m : Fin p → ℝ, (sdWhitenStep ext pr (sdScaleStep pr X (sdCentreStep pr X N2))) =
      { sdCentreStep pr X N2 with Xs := matX (fun c k => X c k - m k) N2 } := by
    unfold sdWhitenStep sdScaleStep sdCentreStep
    rw [hw, hs, hc]
    simp only [if_true, Bool.false_eq_true, if_false]
    by_cases hcd : pr.centerData
    · simp only [hcd, if_true]
      exact ⟨_, rfl⟩
    · simp only [hcd]
      exact ⟨0, by simp⟩
  have hN2 : (sdCentreStep pr X N2).N2 = N2 := by
    unfold sdCentreStep
    split
    · split <;> rfl
    · rfl
  obtain ⟨m, hm⟩ := hX
  rw [hm]
  dsimp only
  rw [hN2, covMat_affine (by omega), h1]
  exact ⟨h2, rfl, h2⟩

/-- C94 (partial: `center='mean'`, `scale_data=True`, no whitening, methods that are not based on optimisation): the scores are uncorrelated with unit variance. -/
theorem C94_unit_covariance_partial {ext : SdExt} (he : IsEigh ext.eigh) (hr : IsRootInv ext.rootInv) {o o' : SdObj} (hs : o.params.scaleData = true)
    (hw : o.params.whiten = false) (hc : o.params.center = .mean) (hcp : o.params.copy = true) (hm : o.params.meth.direct) {X : Fin n → Fin p → ℝ}
    {y : Fin n → ℝ} {f : SdFit n p} (h : o.fit ext X y = .ok (o', f)) : covMat f.T = 1 ∧ OrthonormalIn (covMat X) f.P := by
  have hT := fit_scores hcp h
  obtain ⟨q, L, st', pm, T, hq, hd, -, -, -, rfl⟩ := SdObj.fit_ok h
  have hwp : o.params.whitened = o.params := by unfold SdParams.whitened; simp [hw]
  rw [hwp] at hq hd
  obtain ⟨-, -, hn, -, -, -⟩ := sdPre_ok hq
  obtain ⟨h1, h2, h3⟩ := sdPre_cov hr hs hw hc hq
  obtain ⟨d, B, rfl, hB⟩ := direct_orth he hm hd
  have horth : OrthonormalIn (covMat X) (sdMapBack o.params.scaleData q.N2 B) := by
    rw [hs] at hB ⊢
    simp only [if_true] at hB
    unfold OrthonormalIn at hB ⊢
    rw [h1, Matrix.mul_one] at hB
    simp only [sdMapBack, if_true]
    rw [Matrix.transpose_mul, h2]
    calc B.transpose * q.N2 * covMat X * (q.N2 * B) = B.transpose * (q.N2 * covMat X * q.N2) * B := by simp only [Matrix.mul_assoc]
      _ = 1 := by rw [h3, Matrix.mul_one, hB]
  refine ⟨?_, horth⟩
  dsimp only at hT ⊢
  rw [hT, covMat_lin (by omega)]
  exact horth

/-- C94 (partial) without scaling: the loadings are orthonormal. -/
theorem C94_orthonormal_partial {ext : SdExt} (he : IsEigh ext.eigh) {o o' : SdObj} (hs : o.params.whitened.scaleData = false)
    (hm : o.params.meth.direct) {X : Fin n → Fin p → ℝ} {y : Fin n → ℝ} {f : SdFit n p} (h : o.fit ext X y = .ok (o', f)) :
    f.P.transpose * f.P = 1 := by
  obtain ⟨q, L, st', pm, T, hq, hd, -, -, -, rfl⟩ := SdObj.fit_ok h
  obtain ⟨d, B, rfl, hB⟩ := direct_orth he (by rw [whitened_meth]; exact hm) hd
  rw [hs] at hB ⊢
  simp only [Bool.false_eq_true, if_false] at hB
  unfold OrthonormalIn at hB
  rw [Matrix.mul_one] at hB
  simpa [sdMapBack] using hB

/-- C94 (partial: methods based on optimisation, when the solver gives a point that satisfies the constraints): the loadings are orthonormal in the metric of
the covariance of the data. -/
theorem C94_optimised_partial {ext : SdExt} (hr : IsRootInv ext.rootInv) {pr : SdParams} (hh : 0 < pr.nComp) (hs : pr.scaleData = true)
    (hw : pr.whiten = false) (hc : pr.center = .mean) {X : Fin n → Fin p → ℝ} {q : SdPre n p} (hq : sdPre ext pr X = .ok q)
    (obj : SdObjective) (start : List ℝ) (args : SdArgs) (x : List ℝ) (hx : ext.solve obj start args (sdCons pr q) = .ok x)
    (hfeas : ∀ c ∈ sdCons pr q, c.eval x = .ok 0) (B : Matrix (Fin p) (Fin pr.nComp) ℝ)
    (hB : sdRun ext pr q obj start args (sdCons pr q) = .ok B) : OrthonormalIn (covMat X) B := by
  obtain ⟨-, h2, h3⟩ := sdPre_cov hr hs hw hc hq
  rw [sdRun, hx] at hB
  dsimp only at hB
  cases hres : reshapeF p pr.nComp x with
  | error e => rw [hres] at hB; exact absurd hB (by simp)
  | ok B0 =>
    rw [hres] at hB
    dsimp only at hB
    have hv := C66_round_trip_vec x B0 hres
    rw [← hv] at hfeas
    have h4 := (C66_constraints pr q B0 hh).mp hfeas
    rw [hs] at h4
    simp only [if_true] at h4
    unfold OrthonormalIn at h4
    rw [Matrix.mul_one] at h4
    cases hB
    rw [hs]
    simp only [sdMapBack, if_true]
    unfold OrthonormalIn
    rw [Matrix.transpose_mul, h2]
    calc B0.transpose * q.N2 * covMat X * (q.N2 * B0) = B0.transpose * (q.N2 * covMat X * q.N2) * B0 := by simp only [Matrix.mul_assoc]
      _ = 1 := by rw [h3, Matrix.mul_one, h4]

/-! ### Flat tables -/

/-- The covariance matrix of a table with at least as many variables as cases is singular. -/
lemma covMat_singular (hpn : n ≤ p) (hp0 : 0 < p) (X : Fin n → Fin p → ℝ) (N : Matrix (Fin p) (Fin p) ℝ) : N * covMat X * N ≠ 1 := by
  intro h
  have hinj : Function.Injective (covMat X * N).mulVec := by
    intro u v huv
    have := congrArg N.mulVec huv
    rwa [Matrix.mulVec_mulVec, Matrix.mulVec_mulVec, ← Matrix.mul_assoc, h, Matrix.one_mulVec, Matrix.one_mulVec] at this
  set Xc : Matrix (Fin n) (Fin p) ℝ := Matrix.of fun c j => X c j - mean fun i => X i j with hXc
  have hcov : covMat X = ((n : ℝ) - 1)⁻¹ • (Xc.transpose * Xc) := by
    ext j k
    simp only [covMat, Matrix.of_apply, Matrix.smul_apply, smul_eq_mul, Matrix.mul_apply, Matrix.transpose_apply, hXc]
    rw [div_eq_inv_mul]
  have hinj2 : Function.Injective (Xc * N).mulVec := by
    intro u v huv
    apply hinj
    have := congrArg (((n : ℝ) - 1)⁻¹ • Xc.transpose).mulVec huv
    rw [Matrix.mulVec_mulVec, Matrix.mulVec_mulVec, ← Matrix.mul_assoc, Matrix.smul_mul, ← hcov] at this
    exact this
  have hle := LinearMap.finrank_le_finrank_of_injective (f := (Xc * N).mulVecLin) hinj2
  simp at hle
  have hnp : n = p := by omega
  subst hnp
  obtain ⟨u, hu⟩ := LinearMap.surjective_of_injective (f := (Xc * N).mulVecLin) hinj2 (Pi.single ⟨0, hp0⟩ 1)
  have hs : ∀ v : Fin n → ℝ, ∑ c, Xc.mulVec v c = 0 := by
    intro v
    simp only [Matrix.mulVec, dotProduct, hXc, Matrix.of_apply]
    rw [Finset.sum_comm]
    refine Finset.sum_eq_zero fun j _ => ?_
    rw [← Finset.sum_mul, Finset.sum_sub_distrib, Finset.sum_const, Finset.card_univ, Fintype.card_fin, mean_eq, nsmul_eq_mul,
      mul_div_cancel₀ _ (Nat.cast_ne_zero.mpr hp0.ne'), sub_self, zero_mul]
  have h1 := hs (N.mulVec u)
  rw [Matrix.mulVec_mulVec] at h1
  rw [Matrix.mulVecLin_apply] at hu
  rw [hu] at h1
  simp at h1

/-- C95 is violated: no table with at least as many variables as cases can be fitted, with or without compression: the inverse root of its covariance matrix, which
is singular, is computed before. -/
theorem C95_flat_violated {ext : SdExt} (hr : IsRootInv ext.rootInv) (o : SdObj) (hpn : n ≤ p) (X : Fin n → Fin p → ℝ) (y : Fin n → ℝ) :
    ∃ e, o.fit ext X y = .error e := by
  cases h : o.fit ext X y with
  | error e => exact ⟨e, rfl⟩
  | ok r =>
    obtain ⟨o', f⟩ := r
    obtain ⟨q, L, st', pm, T, hq, -⟩ := SdObj.fit_ok h
    obtain ⟨N2, hN, -, hp2, -⟩ := sdPre_ok hq
    exact absurd (hr _ _ (covMat_symm X) hN).2 (covMat_singular hpn (by omega) X N2)

/-! ### Few labels -/

/-- C96 is violated: without a start value given, the methods based on optimisation fail for every response with fewer than six different values. -/
theorem C96_few_labels_violated (ext : SdExt) (pr : SdParams) (hm : ¬ pr.meth.direct) (X : Fin n → Fin p → ℝ) (y : Fin n → ℝ) (hy : numLabels y < 6) :
    ∃ e, (SdObj.new pr).fit ext X y = .error e := by
  cases h : (SdObj.new pr).fit ext X y with
  | error e => exact ⟨e, rfl⟩
  | ok r =>
    obtain ⟨o', f⟩ := r
    obtain ⟨q, L, st', pm, T, hq, hd, -⟩ := SdObj.fit_ok h
    exfalso
    obtain ⟨-, -, hn, -⟩ := sdPre_ok hq
    have hstart : ∃ e, sdStart ext (SdObj.new pr).params.whitened q y = .error e := by
      unfold sdStart
      split
      · exact ⟨_, rfl⟩
      · have hsir : ∃ e, sdStartMat ext (SdObj.new pr).params.whitened .sir 6 q y = .error e := by
          unfold sdStartMat
          split
          · exact ⟨_, rfl⟩
          · rename_i B hB
            obtain ⟨S, yd, lab, -, hyd, hlab, -⟩ := sliceMethod_ok hB
            simp only [sliceResponse, Bool.false_eq_true, if_false, Except.ok.injEq] at hyd
            subst hyd
            rw [C63_too_few_labels y (by omega) 6 hy] at hlab
            exact absurd hlab (by simp)
        obtain ⟨e, he⟩ := hsir
        rw [he]
        exact ⟨e, rfl⟩
    obtain ⟨e, hstart⟩ := hstart
    have hinit : ∀ (s : Option SdObjective), sdOptimise ext (SdObj.new pr).params.whitened ((SdObj.new pr).state.setX0 (SdObj.new pr).params.whitened.copy X) q y s = .error e := by
      intro s
      have h0 : ((SdObj.new pr).state.setX0 (SdObj.new pr).params.whitened.copy X).start = none := by
        unfold SdState.setX0
        split <;> rfl
      unfold sdOptimise
      rw [h0]
      dsimp only
      rw [hstart]
    unfold sdDirections at hd
    have hmeth : (SdObj.new pr).params.whitened.meth = pr.meth := whitened_meth pr
    rw [hmeth] at hd
    cases hmm : pr.meth with
    | slice m => rw [hmm] at hm; exact hm trivial
    | phd => rw [hmm] at hm; exact hm trivial
    | iht => rw [hmm] at hm; exact hm trivial
    | dcov =>
      rw [hmm] at hd
      dsimp only at hd
      rw [hinit] at hd
      exact absurd hd (by simp)
    | opt o =>
      rw [hmm] at hd
      dsimp only at hd
      rw [hinit] at hd
      exact absurd hd (by simp)

end Direpack
