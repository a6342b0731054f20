import Verif.SPRM
import Verif.Props.RM

/-! C48-C51 and C79-C81 for the sparse partial robust M regression estimator. -/

namespace Direpack

open scoped BigOperators
open Spec

variable {n p : ℕ}

/-! ### What a successful fit consists of -/

/-- The parameters of the estimator after `fit`. -/
noncomputable def sprmAfter (pr : SprmParams) (X : Fin n → Fin p → ℝ) : SprmParams :=
  { pr with scale := pr.scale.resolve X }

theorem sprmCheck_ok {pr : SprmParams} {n p : ℕ} {u : Unit} (h : sprmCheck pr n p = .ok u) :
    (pr.nComponents ≤ n ∧ pr.nComponents ≤ p ∧ 0 < pr.nComponents) ∧ (0 ≤ pr.eta ∧ pr.eta < 1) ∧
    0 < pr.probp1 ∧ pr.probp1 ≤ 1 ∧
      (pr.fn = .hampel → pr.probp1 < pr.probp2 ∧ pr.probp2 < pr.probp3 ∧ pr.probp3 ≤ 1) := by
  unfold sprmCheck at h
  split at h
  · simp at h
  · rename_i h1
    split at h
    · simp at h
    · rename_i h2
      split at h
      · simp at h
      · rename_i h3
        push Not at h1 h2 h3
        exact ⟨⟨h1.1, h1.2, h2⟩, h3, checkProbs_ok h⟩

theorem sprmFit_inv {ext : SprmExt} {pr : SprmParams} {X : Fin n → Fin p → ℝ} {y : Fin n → ℝ} {f : SprmFit n p}
    (h : (sprmFit ext pr X y).2 = .ok f) :
    (∃ u, sprmCheck pr n p = .ok u) ∧
    f.xLoc = pr.centre.run X ∧ f.xSca = (sprmAfter pr X).scale.opt.run X ∧
    f.yLoc = pr.centre.run (asCol y) 0 ∧ f.ySca = (sprmAfter pr X).scale.opt.run (asCol y) 0 ∧
    f.keep = keepVars f.xSca ∧ pr.nComponents ≤ f.keep.length ∧
    ∃ rc dx dy cx o,
      sprmStartX ext pr (sprmAfter pr X).scale.opt (selCols (stdMat X f.xLoc f.xSca) f.keep) = .ok (rc, dx) ∧
      startY pr.centre (sprmAfter pr X).scale.opt (stdVec y f.yLoc f.ySca) y = .ok dy ∧
      sprmStartCut ext pr rc = .ok cx ∧
      rwLoop (sprmStep ext pr (sprmAfter pr X).scale.opt cx (selCols (stdMat X f.xLoc f.xSca) f.keep)
          (stdVec y f.yLoc f.ySca))
        pr.tol pr.maxit (pr.maxit.toNat + 1) 1 (1 / 100000) (pr.tol < 1)
        (clipW fun i => pr.fn.run dx cx i *
          pr.fn.run dy (cutY ext.toRm pr.probp1 pr.probp2 pr.probp3) i) none = some (.ok (some o)) ∧
      f.inner = o.b ∧
      f.coefScaled = o.b.coef ∧ (∀ a, f.coef a = f.ySca / f.xSca (f.keep.get a) * o.b.coef a) ∧
      (∀ i, f.fitted i = lin (selCols X f.keep) f.coef i + f.intercept) ∧
      f.intercept = snIntercept pr.centre (fun i => y i - lin (selCols X f.keep) f.coef i) ∧
      f.interceptScaled = sprmB0 pr.centre (sprmAfter pr X).scale.opt (selCols X f.keep) y
        (selCols (stdMat X f.xLoc f.xSca) f.keep) (stdVec y f.yLoc f.ySca) o.b.coef ∧
      f.caseweights = zeroOut o.we o.w0 ∧
      f.xCaseweights = zeroOut o.wte o.w0 ∧
      f.yCaseweights = zeroOut o.wye o.w0 ∧
      f.trainCols = (if pr.copy then some p else none) ∧ f.fits = o.fits ∧
      (∀ i, f.residuals i = y i - f.fitted i) ∧
      f.scores = Matrix.of (selCols (stdMat X f.xLoc f.xSca) f.keep) * f.inner.R := by
  unfold sprmFit at h
  split at h
  · simp at h
  · rename_i u hu
    have hy : (fun i => scaleMat (asCol y) (pr.centre.run (asCol y)) ((sprmAfter pr X).scale.opt.run (asCol y)) i 0)
        = stdVec y (pr.centre.run (asCol y) 0) ((sprmAfter pr X).scale.opt.run (asCol y) 0) := by
      rw [scaleMat_eq]; rfl
    rw [show ({ pr with scale := pr.scale.resolve X } : SprmParams) = sprmAfter pr X from rfl] at h
    simp only [hy] at h
    simp only [scaleMat_eq] at h
    split at h
    · simp at h
    · rename_i hk
      split at h
      · simp at h
      · rename_i rc dx hdx
        split at h
        · simp at h
        · rename_i dy hdy
          split at h
          · simp at h
          · rename_i cx hcx
            split at h
            · simp at h
            · simp at h
            · rename_i o ho
              unfold sprmFinish at h
              split at h
              · simp at h
              · rename_i o
                simp only [Except.ok.injEq] at h
                subst h
                exact ⟨⟨u, hu⟩, rfl, rfl, rfl, rfl, rfl, not_lt.mp hk, rc, dx, dy, cx, o, hdx, hdy, hcx, ho, rfl, rfl,
                  fun _ => rfl, fun _ => rfl, rfl, rfl, rfl, rfl, rfl, rfl, rfl, fun _ => rfl, rfl⟩

theorem sprmStep_inv {ext : SprmExt} {pr : SprmParams} {sc : ScaleOpt} {cx : ℝ × ℝ × ℝ} {Xs : Fin n → Fin p → ℝ}
    {ys we : Fin n → ℝ} {f : SnFit n p} {b2 : ℝ} {wye wte : Fin n → ℝ}
    (h : sprmStep ext pr sc cx Xs ys we = .ok (f, b2, wye, wte)) :
    snFit ⟨pr.eta, pr.nComponents.toNat, .mean, .noneOpt⟩ (weightRows Xs we) (fun i => ys i * Real.sqrt (we i)) = .ok f ∧
    (∃ r, wye = pr.fn.run r (cutY ext.toRm pr.probp1 pr.probp2 pr.probp3)) ∧
    (∃ d, wte = pr.fn.run d (if pr.fn = .hampel then
            cutX ext.toRm true pr.nComponents.toNat pr.probp1 pr.probp2 pr.probp3 else cx)) := by
  unfold sprmStep at h
  split at h
  · simp at h
  · rename_i g hg
    simp only at h
    split at h
    · simp at h
    · rename_i r hr
      split at h
      · simp at h
      · rename_i d hd
        simp only [Except.ok.injEq, Prod.mk.injEq] at h
        obtain ⟨rfl, rfl, rfl, rfl⟩ := h
        exact ⟨hg, ⟨r, rfl⟩, ⟨d, rfl⟩⟩

/-! ### C48: case weights -/

lemma relcomp_pos {k rc : ℕ} {s : Fin k → ℝ} (h : relcomp s = .ok rc) : 0 < rc := by
  unfold relcomp at h
  split at h
  · simp at h
  · simp only [Except.ok.injEq] at h
    omega

lemma sprmStartCut_adm {ext : SprmExt} {pr : SprmParams} {sc : ScaleOpt} {Xs : Fin n → Fin p → ℝ} {rc : Option ℕ}
    {dx : Fin n → ℝ} {cx : ℝ × ℝ × ℝ} (hq : IsQuantiles ext.normPpf ext.chi2Ppf)
    (h1 : 1 / 2 < pr.probp1) (h1' : pr.probp1 < 1)
    (h : pr.fn = .hampel → pr.probp1 < pr.probp2 ∧ pr.probp2 < pr.probp3 ∧ pr.probp3 < 1)
    (hs : sprmStartX ext pr sc Xs = .ok (rc, dx)) (hc : sprmStartCut ext pr rc = .ok cx) :
    0 < cx.1 ∧ (pr.fn = .hampel → cx.1 < cx.2.1 ∧ cx.2.1 < cx.2.2) := by
  have hrc : ∀ r, rc = some r → 0 < r := by
    intro r hr
    unfold sprmStartX at hs
    simp only at hs
    split at hs
    · split at hs
      · simp at hs
      · split at hs
        · simp at hs
        · rename_i r' hr'
          split at hs
          · simp at hs
          · simp only [Except.ok.injEq, Prod.mk.injEq] at hs
            rw [hr] at hs
            have := Option.some.inj hs.1
            subst this
            exact relcomp_pos hr'
    · split at hs
      · simp at hs
      · simp only [Except.ok.injEq, Prod.mk.injEq] at hs
        rw [hr] at hs; simp at hs
  have hq' : IsQuantiles ext.toRm.normPpf ext.toRm.chi2Ppf := hq
  unfold sprmStartCut at hc
  split at hc
  · split at hc
    · simp at hc
    · simp only [Except.ok.injEq] at hc
      subst hc
      exact cutX_adm (hrc _ rfl) hq' h1 h1' h
  · simp only [Except.ok.injEq] at hc
    subst hc
    exact cutY_adm hq' h1 h1' h

/-- C48 for SPRM: same statement as for RM. -/
theorem C48_sprm_weights (ext : SprmExt) (hq : IsQuantiles ext.normPpf ext.chi2Ppf) (pr : SprmParams)
    (h1 : 1 / 2 < pr.probp1) (h1' : pr.probp1 < 1) (h3 : pr.fn = .hampel → pr.probp3 < 1)
    (X : Fin n → Fin p → ℝ) (y : Fin n → ℝ) (f : SprmFit n p) (h : (sprmFit ext pr X y).2 = .ok f) (i : Fin n) :
    (f.caseweights i = 0 ∨ (1 / 1000000 ≤ f.caseweights i ∧ f.caseweights i ≤ 1)) ∧
    (0 ≤ f.xCaseweights i ∧ f.xCaseweights i ≤ 1) ∧ (0 ≤ f.yCaseweights i ∧ f.yCaseweights i ≤ 1) := by
  obtain ⟨⟨u, hu⟩, -, -, -, -, -, -, rc, dx, dy, cx, o, hsx, -, hcx, hl, -, -, -, -, -, -, hw, hwx, hwy, -⟩ := sprmFit_inv h
  obtain ⟨⟨_, _, hnc⟩, _, _, _, hp⟩ := sprmCheck_ok hu
  have hadm : pr.fn = .hampel → pr.probp1 < pr.probp2 ∧ pr.probp2 < pr.probp3 ∧ pr.probp3 < 1 :=
    fun hf => ⟨(hp hf).1, (hp hf).2.1, h3 hf⟩
  have hq' : IsQuantiles ext.toRm.normPpf ext.toRm.chi2Ppf := hq
  have hpass := rwLoop_pass _ _ _ _ _ _ _ _ _ _ (clip_ge _) (by simp) hl o rfl
  obtain ⟨we, b2, _, hs⟩ := hpass.last
  obtain ⟨-, ⟨r, hr⟩, ⟨d, hd⟩⟩ := sprmStep_inv hs
  have hcy := cutY_adm hq' h1 h1' hadm
  have hcs := sprmStartCut_adm hq h1 h1' hadm hsx hcx
  have hy : ∀ i, 0 ≤ o.wye i ∧ o.wye i ≤ 1 := fun i => by
    rw [hr]; exact WFun.run_unit _ _ _ hcy.1 hcy.2 i
  have ht : ∀ i, 0 ≤ o.wte i ∧ o.wte i ≤ 1 := fun i => by
    rw [hd]
    split
    · have hcx' := cutX_adm (sp := true) (d := pr.nComponents.toNat) (by omega) hq' h1 h1' hadm
      exact WFun.run_unit _ _ _ hcx'.1 hcx'.2 i
    · exact WFun.run_unit _ _ _ hcs.1 hcs.2 i
  exact ⟨hw ▸ weights_of_pass hpass hy ht i, hwx ▸ zeroOut_unit ht i, hwy ▸ zeroOut_unit hy i⟩

/-! ### C49: predictions -/

/-- C49 for SPRM: with `copy=True`, predicting the training data gives `fitted_`; the prediction is an affine function of
the variables that are kept. -/
theorem C49_sprm_predict_partial (ext : SprmExt) (pr : SprmParams) (X : Fin n → Fin p → ℝ) (y : Fin n → ℝ)
    (f : SprmFit n p) (h : (sprmFit ext pr X y).2 = .ok f) (hc : pr.copy = true) :
    f.predict X = .ok f.fitted ∧ (∀ i, y i = f.fitted i + f.residuals i) ∧
    ∀ {m : ℕ} (Xn : Fin m → Fin p → ℝ),
      f.predict Xn = .ok fun i => affine f.coef f.intercept (fun a => Xn i (f.keep.get a)) := by
  obtain ⟨-, -, -, -, -, -, -, rc, dx, dy, cx, o, -, -, -, -, -, -, -, hfit, -, -, -, -, -, htc, -, hres, -⟩ := sprmFit_inv h
  have hp : ∀ {m : ℕ} (Xn : Fin m → Fin p → ℝ),
      f.predict Xn = .ok fun i => affine f.coef f.intercept (fun a => Xn i (f.keep.get a)) := by
    intro m Xn
    unfold SprmFit.predict
    rw [htc, hc]
    simp only [if_true, dif_pos]
    rfl
  refine ⟨?_, fun i => by rw [hres]; ring, hp⟩
  rw [hp]
  congr 1
  funext i
  rw [hfit]
  rfl

/-- New data with another number of columns are refused by `predict` and by `transform`. -/
theorem C49_sprm_columns (ext : SprmExt) (pr : SprmParams) (X : Fin n → Fin p → ℝ) (y : Fin n → ℝ)
    (f : SprmFit n p) (h : (sprmFit ext pr X y).2 = .ok f) (hc : pr.copy = true) {m q : ℕ} (Xn : Fin m → Fin q → ℝ)
    (hq : q ≠ p) : f.predict Xn = .error .valueError ∧ f.transform Xn = .error .valueError := by
  obtain ⟨-, -, -, -, -, -, -, rc, dx, dy, cx, o, -, -, -, -, -, -, -, -, -, -, -, -, -, htc, -⟩ := sprmFit_inv h
  unfold SprmFit.predict SprmFit.transform
  rw [htc, hc]
  simp [hq]

/-- With `copy=False` no fitted model can predict or transform. -/
theorem C49_sprm_copy_violated (ext : SprmExt) (pr : SprmParams) (X : Fin n → Fin p → ℝ) (y : Fin n → ℝ)
    (f : SprmFit n p) (h : (sprmFit ext pr X y).2 = .ok f) (hc : pr.copy = false) {m q : ℕ} (Xn : Fin m → Fin q → ℝ) :
    f.predict Xn = .error .attributeError ∧ f.transform Xn = .error .attributeError := by
  obtain ⟨-, -, -, -, -, -, -, rc, dx, dy, cx, o, -, -, -, -, -, -, -, -, -, -, -, -, -, htc, -⟩ := sprmFit_inv h
  unfold SprmFit.predict SprmFit.transform
  rw [htc, hc]
  simp

lemma tau2_resolve (g : {n p : ℕ} → (Fin n → Fin p → ℝ) → (Fin p → ℝ)) (X : Fin n → Fin p → ℝ) :
    (SprmScale.tau2 g).resolve X = .plain .mad ∨ (SprmScale.tau2 g).resolve X = .tau2 g := by
  unfold SprmScale.resolve
  simp only
  split
  · exact Or.inl rfl
  · exact Or.inr rfl

/-- C49 for SPRM with mean centring and a scale estimator other than `'None'`: the original and the scaled model describe
the same affine function. -/
theorem C49_sprm_scaled_partial (hn : 0 < n) (ext : SprmExt) (pr : SprmParams) (X : Fin n → Fin p → ℝ) (y : Fin n → ℝ)
    (f : SprmFit n p) (h : (sprmFit ext pr X y).2 = .ok f) (hm : pr.centre = .mean)
    (hsc : pr.scale ≠ .plain .noneOpt) (x : Fin p → ℝ) :
    affine f.coef f.intercept (fun a => x (f.keep.get a)) =
      affineScaled f.coefScaled f.interceptScaled (fun a => f.xLoc (f.keep.get a)) (fun a => f.xSca (f.keep.get a))
        f.yLoc f.ySca (fun a => x (f.keep.get a)) := by
  obtain ⟨-, hmX, -, hmy, -, -, -, rc, dx, dy, cx, o, -, -, -, -, -, hb, hcf, -, hi, hb0, -⟩ := sprmFit_inv h
  have hns : (sprmAfter pr X).scale.opt.isNone = false := by
    show (pr.scale.resolve X).opt.isNone = false
    cases hh : pr.scale with
    | tau2 g => rcases tau2_resolve @g X with e | e <;> rw [e] <;> rfl
    | plain s =>
      show s.isNone = false
      cases s <;> simp_all [ScaleOpt.isNone]
  have hi' : f.intercept = mean fun i => y i - lin (selCols X f.keep) f.coef i := by rw [hi, hm]; rfl
  have hb0' : f.interceptScaled = meanAllPairs (stdVec y f.yLoc f.ySca)
      (lin (stdMat (selCols X f.keep) (fun a => f.xLoc (f.keep.get a)) (fun a => f.xSca (f.keep.get a))) o.b.coef) := by
    rw [hb0, hm]
    unfold sprmB0
    rw [hns]
    rfl
  rw [hi', hb0', hb]
  refine mean_same_affine hn (selCols X f.keep) y o.b.coef f.coef _ _ f.yLoc f.ySca (fun a => ?_) ?_ hcf _
  · rw [hmX, hm]; rfl
  · rw [hmy, hm]; rfl

/-! ### C50: the reweighting loop -/

/-- C50 for SPRM: a fitted model has made at least one and at most `maxit - 1` weighted SNIPLS fits, and its coefficients are
those of a SNIPLS fit of the standardised data with case weights of at least `1e-6`. -/
theorem C50_sprm_fits (ext : SprmExt) (pr : SprmParams) (X : Fin n → Fin p → ℝ) (y : Fin n → ℝ) (f : SprmFit n p)
    (h : (sprmFit ext pr X y).2 = .ok f) :
    1 ≤ f.fits ∧ (f.fits : ℤ) ≤ pr.maxit - 1 ∧ f.coefScaled = f.inner.coef ∧
    ∃ we : Fin n → ℝ, (∀ i, 1 / 1000000 ≤ we i) ∧
      snFit ⟨pr.eta, pr.nComponents.toNat, .mean, .noneOpt⟩
        (fun i a => stdMat X f.xLoc f.xSca i (f.keep.get a) * Real.sqrt (we i))
        (fun i => stdVec y f.yLoc f.ySca i * Real.sqrt (we i)) = .ok f.inner := by
  obtain ⟨-, -, -, -, -, -, -, rc, dx, dy, cx, o, -, -, -, hl, hin, hb, -, -, -, -, -, -, -, -, hf, -⟩ := sprmFit_inv h
  have h1 := rwLoop_fits _ _ _ _ _ _ _ _ _ _ hl
  obtain ⟨we, b2, hwe, hs⟩ := (rwLoop_pass _ _ _ _ _ _ _ _ _ _ (clip_ge _) (by simp) hl o rfl).last
  have hgo : pr.tol < 1 ∧ 1 < pr.maxit := by
    by_contra hg
    rw [rwLoop, if_neg hg] at hl
    simp at hl
  have h2 := h1.2.2 hgo
  simp only [fitsOf, Option.elim] at h1 h2
  rw [hf, hb, hin]
  refine ⟨by omega, ?_, rfl, we, hwe, (sprmStep_inv hs).1⟩
  have := h1.1
  rw [max_eq_right (by linarith [hgo.2])] at this
  push_cast at this; linarith

/-- Without an admissible iteration SPRM's `fit` fails. -/
theorem C50_sprm_no_iterations (ext : SprmExt) (pr : SprmParams) (X : Fin n → Fin p → ℝ) (y : Fin n → ℝ)
    (h : pr.maxit ≤ 1 ∨ 1 ≤ pr.tol) : ∃ e, (sprmFit ext pr X y).2 = .error e := by
  cases hf : (sprmFit ext pr X y).2 with
  | error e => exact ⟨e, rfl⟩
  | ok f =>
    exfalso
    obtain ⟨-, -, -, -, -, -, -, rc, dx, dy, cx, o, -, -, -, hl, -⟩ := sprmFit_inv hf
    rw [rwLoop, if_neg (by
      rintro ⟨h1, h2⟩
      rcases h with h | h
      · linarith
      · linarith)] at hl
    simp at hl

/-! ### C51: parameters of the estimator -/

/-- C51 for SPRM, part that holds: `fit` leaves the numerical parameters unchanged, except for `scale='scaleTau2'` when a
predictor has a zero MAD.  Missing: that case (`C51_scale_violated`), and `columns` (`C51_columns_violated`). -/
theorem C51_params_partial (ext : SprmExt) (pr : SprmParams) (X : Fin n → Fin p → ℝ) (y : Fin n → ℝ)
    (h : (∀ g, pr.scale ≠ .tau2 g) ∨ ∀ j, Direpack.mad (fun i => X i j) ≠ 0) : (sprmFit ext pr X y).1 = pr := by
  unfold sprmFit
  split
  · rfl
  · show ({ pr with scale := pr.scale.resolve X } : SprmParams) = pr
    have : pr.scale.resolve X = pr.scale := by
      cases hs : pr.scale with
      | plain s => rfl
      | tau2 g =>
        unfold SprmScale.resolve
        simp only
        rw [if_neg]
        rintro ⟨j, hj⟩
        rcases h with h | h
        · exact h g hs
        · exact h j hj
    rw [this]

/-- After any sequence of fits for which the above holds, the estimator behaves like a fresh one. -/
theorem C51_sequence_partial (ext : SprmExt) (pr : SprmParams)
    (data : List (Σ n p : ℕ, (Fin n → Fin p → ℝ) × (Fin n → ℝ)))
    (h : (∀ g, pr.scale ≠ .tau2 g) ∨ ∀ d ∈ data, ∀ j, Direpack.mad (fun i => d.2.2.1 i j) ≠ 0) :
    data.foldl (fun q d => (sprmFit ext q d.2.2.1 d.2.2.2).1) pr = pr := by
  induction data with
  | nil => rfl
  | cons d t ih =>
    rw [List.foldl_cons, C51_params_partial ext pr d.2.2.1 d.2.2.2 ?_]
    · apply ih
      rcases h with h | h
      · exact Or.inl h
      · exact Or.inr fun d hd => h d (List.mem_cons_of_mem _ hd)
    · rcases h with h | h
      · exact Or.inl h
      · exact Or.inr (h d List.mem_cons_self)

/-- With `scale='scaleTau2'`, one predictor with a zero MAD makes `fit` change the parameter to `'mad'` for good: every later
fit uses the MAD, also on data without such a predictor. -/
theorem C51_scale_violated (ext : SprmExt) (pr : SprmParams) (X : Fin n → Fin p → ℝ) (y : Fin n → ℝ)
    (g : {n p : ℕ} → (Fin n → Fin p → ℝ) → (Fin p → ℝ)) (hs : pr.scale = .tau2 g) (u : Unit)
    (hc : sprmCheck pr n p = .ok u) (j : Fin p) (hj : Direpack.mad (fun i => X i j) = 0) :
    (sprmFit ext pr X y).1.scale = .plain .mad ∧
    ∀ {m q : ℕ} (X' : Fin m → Fin q → ℝ) (y' : Fin m → ℝ) (f : SprmFit m q),
      (sprmFit ext (sprmFit ext pr X y).1 X' y').2 = .ok f → f.xSca = ScaleOpt.mad.run X' := by
  have h1 : (sprmFit ext pr X y).1.scale = .plain .mad := by
    unfold sprmFit
    rw [hc]
    show pr.scale.resolve X = _
    rw [hs]
    unfold SprmScale.resolve
    simp only
    rw [if_pos ⟨j, hj⟩]
  refine ⟨h1, fun X' y' f hf => ?_⟩
  obtain ⟨-, -, hsca, -⟩ := sprmFit_inv hf
  rw [hsca]
  show ((sprmFit ext pr X y).1.scale.resolve X').opt.run X' = _
  rw [h1]
  rfl

lemma takeNames_length {l r : List String} {idx : List (Fin p)} (h : takeNames l idx = .ok r) :
    r.length = idx.length := by
  unfold takeNames at h
  split at h
  · rename_i r' hr
    simp only [Except.ok.injEq] at h
    subst h
    induction idx generalizing r' with
    | nil => simp at hr; subst hr; rfl
    | cons a t ih =>
      simp only [List.mapM_cons, Option.pure_def, Option.bind_eq_bind] at hr
      cases ha : l[a.1]? with
      | none => rw [ha] at hr; simp at hr
      | some v =>
        rw [ha] at hr
        cases ht : t.mapM fun j => l[j.1]? with
        | none => rw [ht] at hr; simp at hr
        | some w =>
          rw [ht] at hr
          simp at hr
          subst hr
          simp [ih w ht]
  · simp at h

lemma takeNames_out {l : List String} {idx : List (Fin p)} {j : Fin p} (hj : j ∈ idx) (hl : l.length ≤ j) :
    takeNames l idx = .error .indexError := by
  have : (idx.mapM fun j => l[j.1]?) = none := by
    induction idx with
    | nil => simp at hj
    | cons a t ih =>
      simp only [List.mapM_cons, Option.pure_def, Option.bind_eq_bind]
      rcases List.mem_cons.mp hj with rfl | hj
      · rw [List.getElem?_eq_none hl]; rfl
      · rw [ih hj]; cases l[a.1]? <;> rfl
  unfold takeNames
  rw [this]

/-- `columns` is unchanged when no variable is dropped and it is not the flag `True`. -/
theorem C51_columns_partial (c : SprmCols) (hc : c ≠ .flag true) (frame : Option (List String)) (keep : List (Fin p))
    (hk : ∀ j, j ∈ keep) : sprmColumns c frame keep = .ok c := by
  have hz : ((List.finRange p).filter fun j => j ∉ keep) = [] := by
    rw [List.filter_eq_nil_iff]; intro j _; simp [hk j]
  unfold sprmColumns
  rw [hz]
  match c, frame, hc with
  | .flag false, _, _ => rfl
  | .names l, none, _ => rfl
  | .names l, some _, _ => rfl

/-- When a variable is dropped, `fit` shortens the array of names, so the second fit on the same data fails if a dropped
variable comes after the names that are left. -/
theorem C51_columns_violated (l : List String) (hl : l.length = p) (frame : Option (List String)) (keep : List (Fin p))
    (j : Fin p) (hj : j ∉ keep) (hlast : keep.length ≤ j) (c' : SprmCols)
    (h : sprmColumns (.names l) frame keep = .ok c') :
    c' ≠ .names l ∧ sprmColumns c' frame keep = .error .indexError := by
  have hmem : j ∈ (List.finRange p).filter fun j => j ∉ keep := by simp [hj]
  have hz : ((List.finRange p).filter fun j => j ∉ keep) ≠ [] := List.ne_nil_of_mem hmem
  have hred : ∀ l : List String, sprmColumns (.names l) frame keep =
      (do let _ ← takeNames l ((List.finRange p).filter fun j => j ∉ keep); SprmCols.names <$> takeNames l keep) := by
    intro l
    unfold sprmColumns
    cases frame <;> exact if_neg hz
  rw [hred] at h
  cases h1 : takeNames l ((List.finRange p).filter fun j => j ∉ keep) with
  | error e => rw [h1] at h; exact absurd h (by intro hh; cases hh)
  | ok r1 =>
    rw [h1] at h
    cases h2 : takeNames l keep with
    | error e => rw [h2] at h; exact absurd h (by intro hh; cases hh)
    | ok r =>
      rw [h2] at h
      have hr : c' = .names r := by cases h; rfl
      subst hr
      have hlen := takeNames_length h2
      refine ⟨?_, ?_⟩
      · intro he
        cases he
        have := j.2
        omega
      · rw [hred, takeNames_out hmem (by omega)]
        rfl

example : sprmColumns (p := 3) (.names ["a", "b", "c"]) none [0, 1] = .ok (.names ["a", "b"]) ∧
    sprmColumns (p := 3) (.names ["a", "b"]) none [0, 1] = .error .indexError := by decide

/-! ### C79: scores -/

lemma sprm_keep (ext : SprmExt) (pr : SprmParams) (X : Fin n → Fin p → ℝ) (y : Fin n → ℝ)
    (f : SprmFit n p) (h : (sprmFit ext pr X y).2 = .ok f) (j : Fin p) : j ∈ f.keep ↔ 1 / 100000 ≤ f.xSca j := by
  obtain ⟨-, -, -, -, -, hkeep, -⟩ := sprmFit_inv h
  rw [hkeep]
  simp [keepVars]

/-- C79: with `copy=True`, transforming the training data gives `x_scores_`. -/
theorem C79_transform_train (ext : SprmExt) (pr : SprmParams) (X : Fin n → Fin p → ℝ) (y : Fin n → ℝ)
    (f : SprmFit n p) (h : (sprmFit ext pr X y).2 = .ok f) (hc : pr.copy = true) : f.transform X = .ok f.scores := by
  obtain ⟨-, -, -, -, -, -, -, rc, dx, dy, cx, o, -, -, -, -, -, -, -, -, -, -, -, -, -, htc, -, -, hsc⟩ := sprmFit_inv h
  unfold SprmFit.transform
  rw [htc, hc, hsc]
  simp only [if_true, dif_pos, scaleMat_eq]
  rfl

/-- C79: scores of new data are a fixed linear function of the standardised variables that were kept, row by row. -/
theorem C79_transform_rowwise (ext : SprmExt) (pr : SprmParams) (X : Fin n → Fin p → ℝ) (y : Fin n → ℝ)
    (f : SprmFit n p) (h : (sprmFit ext pr X y).2 = .ok f) (hc : pr.copy = true) {m : ℕ} (Xn : Fin m → Fin p → ℝ) :
    ∃ T, f.transform Xn = .ok T ∧ ∀ i a,
      T i a = ∑ k : Fin f.keep.length,
        (Xn i (f.keep.get k) - f.xLoc (f.keep.get k)) / f.xSca (f.keep.get k) * f.inner.R k a := by
  obtain ⟨-, -, -, -, -, -, -, rc, dx, dy, cx, o, -, -, -, -, -, -, -, -, -, -, -, -, -, htc, -, -, -⟩ := sprmFit_inv h
  have hnz : ∀ k : Fin f.keep.length, f.xSca (f.keep.get k) ≠ 0 := by
    intro k h0
    have := (sprm_keep ext pr X y f h (f.keep.get k)).mp (List.get_mem _ _)
    rw [h0] at this
    norm_num at this
  unfold SprmFit.transform
  rw [htc, hc]
  simp only [if_true, dif_pos]
  refine ⟨_, rfl, fun i a => ?_⟩
  rw [Matrix.mul_apply]
  refine Finset.sum_congr rfl fun k _ => ?_
  simp only [Matrix.of_apply, scaleMat, selCols, if_neg (hnz k)]
  rfl

/-! ### C80: weights of new cases -/

/-- C80, part that holds: weights of new cases are in [0,1].  Missing: see `C80_single_case_violated`. -/
theorem C80_weightnewx_range_partial (ext : SprmExt) (hq : IsQuantiles ext.normPpf ext.chi2Ppf) (pr : SprmParams)
    (h1 : 1 / 2 < pr.probp1) (h1' : pr.probp1 < 1) (h3 : pr.fn = .hampel → pr.probp3 < 1)
    (X : Fin n → Fin p → ℝ) (y : Fin n → ℝ) (f : SprmFit n p) (h : (sprmFit ext pr X y).2 = .ok f)
    (cx : ℝ × ℝ × ℝ) (hcx : 0 < cx.1) {m q : ℕ} (Xn : Fin m → Fin q → ℝ) (w : Fin m → ℝ)
    (hw : f.weightnewx ext pr cx Xn = .ok w) (i : Fin m) : 0 ≤ w i ∧ w i ≤ 1 := by
  obtain ⟨⟨u, hu⟩, -⟩ := sprmFit_inv h
  obtain ⟨⟨_, _, hnc⟩, _, _, _, hp⟩ := sprmCheck_ok hu
  have hadm : pr.fn = .hampel → pr.probp1 < pr.probp2 ∧ pr.probp2 < pr.probp3 ∧ pr.probp3 < 1 :=
    fun hf => ⟨(hp hf).1, (hp hf).2.1, h3 hf⟩
  have hq' : IsQuantiles ext.toRm.normPpf ext.toRm.chi2Ppf := hq
  unfold SprmFit.weightnewx at hw
  split at hw
  · simp at hw
  · split at hw
    · simp at hw
    · simp only [Except.ok.injEq] at hw
      subst hw
      by_cases hf : pr.fn = .hampel
      · rw [if_pos hf]
        have hcx' := cutX_adm (sp := true) (d := pr.nComponents.toNat) (by omega) hq' h1 h1' hadm
        exact WFun.run_unit _ _ _ hcx'.1 hcx'.2 i
      · rw [if_neg hf]
        exact WFun.run_unit _ _ _ hcx (fun h => absurd h hf) i

/-- A single new case never gets a weight: with mean or median centring its score is centred by itself, and the distance is
divided by a median of zero.  So the weight of a case depends on the other new cases. -/
theorem C80_single_case_violated (ext : SprmExt) (pr : SprmParams) (hc : pr.centre = .mean ∨ pr.centre = .median)
    (cx : ℝ × ℝ × ℝ) (f : SprmFit n p) {q : ℕ} (Xn : Fin 1 → Fin q → ℝ) : ∃ e, f.weightnewx ext pr cx Xn = .error e := by
  unfold SprmFit.weightnewx
  split
  · exact ⟨_, rfl⟩
  · rename_i T _
    have h0 : scaleMat T (pr.centre.run T) ((scoreScale pr.scale.opt).run T) = fun _ _ => 0 := by
      funext i j
      have hi : ∀ i : Fin 1, i = 0 := fun i => Subsingleton.elim _ _
      have hT : (fun i => T i j) = fun _ => T 0 j := by funext i; rw [hi i]
      have hloc : pr.centre.run T j = T 0 j := by
        rcases hc with hc | hc <;> rw [hc]
        · show mean (fun i => T i j) = _
          rw [hT, mean_const (by norm_num)]
        · show med (fun i => T i j) = _
          rw [hT, med_const (by norm_num)]
      unfold scaleMat
      rw [hloc, hi i]; simp
    have : rowDistances (scaleMat T (pr.centre.run T) ((scoreScale pr.scale.opt).run T)) = .error .other := by
      rw [h0]
      unfold rowDistances
      simp [med_const]
    rw [this]
    exact ⟨_, rfl⟩

/-! ### C81: dropped and eliminated variables -/

/-- C81: the variables that are kept stay in their order. -/
theorem C81_order (ext : SprmExt) (pr : SprmParams) (X : Fin n → Fin p → ℝ) (y : Fin n → ℝ) (f : SprmFit n p) (h : (sprmFit ext pr X y).2 = .ok f) :
    f.keep.Pairwise (· < ·) := by
  obtain ⟨-, -, -, -, -, hkeep, -⟩ := sprmFit_inv h
  rw [hkeep]
  exact (List.pairwise_lt_finRange p).filter _

/-- C81: exactly the variables with a scale below `1e-5` are dropped; predictions do not depend on dropped variables nor on
variables that the sparse fit does not list as retained. -/
theorem C81_irrelevant_variables (ext : SprmExt) (pr : SprmParams) (X : Fin n → Fin p → ℝ) (y : Fin n → ℝ)
    (f : SprmFit n p) (h : (sprmFit ext pr X y).2 = .ok f) (hc : pr.copy = true) :
    (∀ j, j ∈ f.keep ↔ 1 / 100000 ≤ f.xSca j) ∧
    ∀ {m : ℕ} (Xn Xn' : Fin m → Fin p → ℝ),
      (∀ a : Fin f.keep.length, (∃ s, colret f.inner.comps = some s ∧ a ∈ s) →
        ∀ i, Xn i (f.keep.get a) = Xn' i (f.keep.get a)) →
      f.predict Xn = f.predict Xn' := by
  refine ⟨sprm_keep ext pr X y f h, fun Xn Xn' heq => ?_⟩
  rw [(C49_sprm_predict_partial ext pr X y f h hc).2.2 Xn, (C49_sprm_predict_partial ext pr X y f h hc).2.2 Xn']
  congr 1
  funext i
  unfold affine
  congr 1
  refine Finset.sum_congr rfl fun a _ => ?_
  by_cases ha : ∃ s, colret f.inner.comps = some s ∧ a ∈ s
  · simp only [heq a ha]
  · push Not at ha
    obtain ⟨-, -, hcs, we, -, hsn⟩ := C50_sprm_fits ext pr X y f h
    have h0 := (C43_zero_outside_retained hsn a ha).1
    obtain ⟨-, -, -, -, -, -, -, rc, dx, dy, cx, o, -, -, -, -, hin, -, hcf, -⟩ := sprmFit_inv h
    rw [hcf, ← hin, h0]; ring

end Direpack
