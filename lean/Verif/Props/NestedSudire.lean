import Mathlib.LinearAlgebra.Matrix.ToLinearEquiv
import Verif.Props.Nested
import Verif.Props.SudireFit
import Verif.Props.RMExample

/-! Properties C140 and C141 for the methods of `sudire` that need no optimiser. -/

namespace Direpack

open scoped BigOperators
open Spec

variable {n p : ℕ}

lemma leading_first (eigh : Eigh) (M : Matrix (Fin p) (Fin p) ℝ) {k d : ℕ} (hk : k ≤ d) : FirstColumns (leading eigh M k) (leading eigh M d) :=
  ⟨by omega, fun _ _ => rfl⟩

lemma sdrBack_first (b : Bool) (S : Matrix (Fin p) (Fin p) ℝ) {k d : ℕ} {A : Matrix (Fin p) (Fin k) ℝ} {B : Matrix (Fin p) (Fin d) ℝ} (H : FirstColumns A B) :
    FirstColumns (sdrBack b S A) (sdrBack b S B) := by
  unfold sdrBack
  split
  · exact firstColumns_mul H S
  · exact H

lemma sdMapBack_first (b : Bool) (S : Matrix (Fin p) (Fin p) ℝ) {k d : ℕ} {A : Matrix (Fin p) (Fin k) ℝ} {B : Matrix (Fin p) (Fin d) ℝ} (H : FirstColumns A B) :
    FirstColumns (sdMapBack b S A) (sdMapBack b S B) := by
  unfold sdMapBack
  split
  · exact firstColumns_mul H S
  · exact H

lemma sliceMethod_first {m : SdrMethod} {eigh : Eigh} {X : Fin n → Fin p → ℝ} {y : Fin n → ℝ} {s d k : ℕ} {c ce sc : Bool} {B : Matrix (Fin p) (Fin (min d p)) ℝ}
    (hk : k ≤ d) (h : sliceMethod m eigh X y s d c ce sc = .ok B) : ∃ A, sliceMethod m eigh X y s k c ce sc = .ok A ∧ FirstColumns A B := by
  unfold sliceMethod at h ⊢
  split at h
  · simp at h
  · rename_i h0
    rw [if_neg h0]
    split at h
    · simp at h
    · dsimp only at h ⊢
      split at h
      · simp at h
      · rename_i yd hyd
        split at h
        · simp at h
        · rename_i lab hlab
          split at h
          · simp at h
          · rename_i hs
            rw [if_neg hs]
            simp only [Except.ok.injEq] at h
            subst h
            exact ⟨_, rfl, sdrBack_first _ _ (leading_first _ _ hk)⟩

lemma phd_first {eigh : Eigh} {X : Fin n → Fin p → ℝ} {y : Fin n → ℝ} {d k : ℕ} {ce sc : Bool} {B : Matrix (Fin p) (Fin (min d p)) ℝ}
    (hk : k ≤ d) (h : phd eigh X y d ce sc = .ok B) : ∃ A, phd eigh X y k ce sc = .ok A ∧ FirstColumns A B := by
  unfold phd at h ⊢
  split at h
  · simp at h
  · rename_i h0
    rw [if_neg h0]
    split at h
    · simp at h
    · dsimp only at h ⊢
      simp only [Except.ok.injEq] at h
      subst h
      exact ⟨_, rfl, sdrBack_first _ _ (leading_first _ _ hk)⟩

lemma iht_first {eigh : Eigh} {X : Fin n → Fin p → ℝ} {y : Fin n → ℝ} {d k : ℕ} {ce sc : Bool} {B : Matrix (Fin p) (Fin (min d p)) ℝ}
    (hk : k ≤ d) (h : iht eigh X y d ce sc = .ok B) : ∃ A, iht eigh X y k ce sc = .ok A ∧ FirstColumns A B := by
  unfold iht at h ⊢
  split at h
  · simp at h
  · rename_i h0
    rw [if_neg h0]
    split at h
    · simp at h
    · dsimp only at h ⊢
      simp only [Except.ok.injEq] at h
      subst h
      exact ⟨_, rfl, sdrBack_first _ _ (leading_first _ _ hk)⟩

lemma sdDirections_first {ext : SdExt} {pr : SdParams} (hm : pr.meth.direct) {st st' : SdState} {q : SdPre n p} {y : Fin n → ℝ} {L : SdLoad p} {k : ℕ}
    (hk : k ≤ pr.nComp) (h : sdDirections ext pr st q y = .ok (L, st')) :
    ∃ L', sdDirections ext { pr with nComp := k } st q y = .ok (L', st') ∧ FirstColumns L'.P L.P := by
  unfold sdDirections at h ⊢
  cases hmeth : pr.meth with
  | slice m =>
    rw [hmeth] at h
    dsimp only at h ⊢
    split at h
    · simp at h
    · rename_i B hB
      obtain ⟨A, hA, hf⟩ := sliceMethod_first hk hB
      rw [hA]
      simp only [Except.ok.injEq, Prod.mk.injEq] at h
      obtain ⟨rfl, rfl⟩ := h
      exact ⟨_, rfl, sdMapBack_first _ _ hf⟩
  | phd =>
    rw [hmeth] at h
    dsimp only at h ⊢
    split at h
    · simp at h
    · rename_i B hB
      obtain ⟨A, hA, hf⟩ := phd_first hk hB
      rw [hA]
      simp only [Except.ok.injEq, Prod.mk.injEq] at h
      obtain ⟨rfl, rfl⟩ := h
      exact ⟨_, rfl, sdMapBack_first _ _ hf⟩
  | iht =>
    rw [hmeth] at h
    dsimp only at h ⊢
    split at h
    · simp at h
    · rename_i B hB
      obtain ⟨A, hA, hf⟩ := iht_first hk hB
      rw [hA]
      simp only [Except.ok.injEq, Prod.mk.injEq] at h
      obtain ⟨rfl, rfl⟩ := h
      exact ⟨_, rfl, sdMapBack_first _ _ hf⟩
  | dcov => rw [hmeth] at hm; exact absurd hm (by simp [SdMeth.direct])
  | opt o => rw [hmeth] at hm; exact absurd hm (by simp [SdMeth.direct])

/-- The first of a number of linearly independent columns are linearly independent. -/
lemma projMat_first {k h : ℕ} {A : Matrix (Fin p) (Fin k) ℝ} {B : Matrix (Fin p) (Fin h) ℝ} (H : FirstColumns A B) {pm : Matrix (Fin p) (Fin p) ℝ}
    (hB : projMat B = .ok pm) : ∃ pm', projMat A = .ok pm' := by
  obtain ⟨hu, -⟩ := projMat_ok hB
  obtain ⟨hk, e⟩ := H
  obtain ⟨m, rfl⟩ := Nat.exists_eq_add_of_le hk
  have hA : IsUnit (A.transpose * A).det := by
    rw [isUnit_iff_ne_zero]
    intro h0
    obtain ⟨v, hv, hz⟩ := Matrix.exists_mulVec_eq_zero_iff.mpr h0
    have h1 : A.mulVec v = 0 := by
      rw [← Matrix.mulVec_mulVec] at hz
      have h2 : A.mulVec v ⬝ᵥ A.mulVec v = 0 := by
        rw [Matrix.dotProduct_mulVec, ← Matrix.mulVec_transpose, hz, zero_dotProduct]
      exact dotProduct_self_eq_zero.mp h2
    have h3 : B.mulVec (Fin.append v fun _ => 0) = 0 := by
      rw [← h1]
      funext i
      simp only [Matrix.mulVec, dotProduct]
      rw [Fin.sum_univ_add]
      simp only [Fin.append_left, Fin.append_right, mul_zero, Finset.sum_const_zero, add_zero]
      exact Finset.sum_congr rfl fun a _ => by rw [e]; rfl
    rw [isUnit_iff_ne_zero] at hu
    refine hu (Matrix.exists_mulVec_eq_zero_iff.mp ⟨Fin.append v fun _ => 0, ?_, ?_⟩)
    · intro h4
      apply hv
      funext a
      have := congrFun h4 (Fin.castAdd m a)
      simpa using this
    · rw [← Matrix.mulVec_mulVec, h3, Matrix.mulVec_zero]
  exact ⟨_, by unfold projMat; rw [if_pos hA]⟩

lemma whitened_nComp (pr : SdParams) (k : ℕ) : ({ pr with nComp := k } : SdParams).whitened = { pr.whitened with nComp := k } := by
  unfold SdParams.whitened
  dsimp only
  split <;> rfl

lemma whitened_nComp_eq (pr : SdParams) : pr.whitened.nComp = pr.nComp := by unfold SdParams.whitened; split <;> rfl

/-- C140 (sudire with SIR, SAVE, DR, PHD or IHT): a model with fewer components exists whenever the larger one does, its loadings and scores are the first columns
of those of the larger model, and so are the scores it gives to any data. -/
theorem C140_sudire {ext : SdExt} {o o' : SdObj} (hm : o.params.meth.direct) {X : Fin n → Fin p → ℝ} {y : Fin n → ℝ} {f : SdFit n p}
    (h : o.fit ext X y = .ok (o', f)) (k : ℕ) (hk : k ≤ o.params.nComp) :
    ∃ o1 g, SdObj.fit ext { o with params := { o.params with nComp := k } } X y = .ok (o1, g) ∧ FirstColumns g.P f.P ∧ FirstColumns g.T f.T ∧
      ∀ {m : ℕ} (Xn : Fin m → Fin p → ℝ), ∃ Tg Tf, g.transform Xn = .ok Tg ∧ f.transform Xn = .ok Tf ∧ FirstColumns Tg Tf := by
  have h' := h
  obtain ⟨q, L, st', pm, T, hq, hd, hp, hT, -, rfl⟩ := SdObj.fit_ok h
  have hq' : sdPre ext { o.params.whitened with nComp := k } X = .ok q := by
    unfold sdPre at hq ⊢
    dsimp only at hq ⊢
    split at hq
    · simp at hq
    · rename_i h0
      rw [whitened_nComp_eq] at h0
      rw [if_neg (by omega)]
      exact hq
  obtain ⟨L', hd', hf⟩ := sdDirections_first (pr := o.params.whitened) (k := k) (by rw [whitened_meth]; exact hm) (by rw [whitened_nComp_eq]; exact hk) hd
  obtain ⟨pm', hp'⟩ := projMat_first hf hp
  have hT' : ∃ T', sdScores st'.x0 n L' = .ok T' ∧ FirstColumns T' T := by
    unfold sdScores at hT ⊢
    split at hT
    · simp at hT
    · split at hT
      · rename_i D h1
        split at hT
        · rename_i h2
          simp only [Except.ok.injEq] at hT
          subst hT
          rw [dif_pos h1, dif_pos h2]
          obtain ⟨hle, e⟩ := hf
          exact ⟨_, rfl, hle, fun c j => Finset.sum_congr rfl fun a _ => by rw [e]⟩
        · simp at hT
      · simp at hT
  obtain ⟨T', hT', hTf⟩ := hT'
  have hcheck : ¬ (o.params.whitened.returnScaling = true ∧ o.params.whitened.center.isMean = false ∧ q.centring = false) := by
    intro hbad
    rw [SdObj.fit] at h'
    dsimp only at h'
    rw [hq] at h'
    dsimp only at h'
    rw [hd] at h'
    dsimp only at h'
    rw [hp] at h'
    dsimp only at h'
    rw [hT] at h'
    dsimp only at h'
    rw [if_pos hbad] at h'
    simp at h'
  have hg : ∃ o1 g, SdObj.fit ext { o with params := { o.params with nComp := k } } X y = .ok (o1, g) ∧ g = ⟨L'.h, L'.P, pm', T', (addConstant T').1,
      ext.ols (addConstant T').2 y, q.loc, q.sca⟩ := by
    rw [SdObj.fit]
    dsimp only
    rw [whitened_nComp, hq']
    dsimp only
    rw [hd']
    dsimp only
    rw [hp']
    dsimp only
    rw [hT']
    dsimp only
    rw [if_neg hcheck]
    exact ⟨_, _, rfl, rfl⟩
  obtain ⟨o1, g, hg, rfl⟩ := hg
  refine ⟨o1, _, hg, hf, hTf, fun {m} Xn => ?_⟩
  unfold SdFit.transform
  simp only [Fin.cast_refl, id_eq, dite_true]
  refine ⟨_, _, rfl, rfl, ?_⟩
  obtain ⟨hle, e⟩ := hf
  exact ⟨hle, fun c j => Finset.sum_congr rfl fun a _ => by rw [e]⟩

/-- The predictions for the training data are an affine function of the scores. -/
lemma fit_predict_affine {ext : SdExt} {o o' : SdObj} (hc : o.params.copy = true) {X : Fin n → Fin p → ℝ} {y : Fin n → ℝ} {f : SdFit n p}
    (h : o.fit ext X y = .ok (o', f)) : ∃ (yh : Fin n → ℝ) (b0 : ℝ) (b : Fin f.h → ℝ), f.predict X = .ok yh ∧ ∀ c, yh c = b0 + ∑ j, f.T c j * b j := by
  have htr := C92_training_partial hc h
  obtain ⟨q, L, st', pm, T, -, -, -, -, -, rfl⟩ := SdObj.fit_ok h
  unfold SdFit.predict
  rw [htr]
  dsimp only
  rw [dif_pos rfl]
  simp only [Fin.cast_refl, id_eq]
  by_cases hcst : ∃ j, IsConstCol T j
  · have e : addConstant T = ⟨L.h, T⟩ := by unfold addConstant; rw [if_pos hcst]
    rw [e]
    exact ⟨_, 0, ext.ols T y, rfl, fun c => by simp⟩
  · have e : addConstant T = ⟨L.h + 1, fun c => Fin.cons 1 (T c)⟩ := by unfold addConstant; rw [if_neg hcst]
    rw [e]
    refine ⟨_, ext.ols (fun c => (Fin.cons 1 (T c) : Fin (L.h + 1) → ℝ)) y 0, fun j => ext.ols (fun c => (Fin.cons 1 (T c) : Fin (L.h + 1) → ℝ)) y j.succ, rfl, fun c => ?_⟩
    rw [Fin.sum_univ_succ]
    simp only [Fin.cons_zero, Fin.cons_succ, one_mul]

/-- C141 (sudire with SIR, SAVE, DR, PHD or IHT): if the least squares routine solves the normal equations, the residual sum of squares of the predictions for the
training data does not increase with the number of components. -/
theorem C141_sudire {ext : SdExt} (hols : ∀ {n k : ℕ} (A : Fin n → Fin k → ℝ) (y : Fin n → ℝ), IsLeastSquares A y (ext.ols A y)) {o o' : SdObj}
    (hm : o.params.meth.direct) (hc : o.params.copy = true) {X : Fin n → Fin p → ℝ} {y : Fin n → ℝ} {f : SdFit n p} (h : o.fit ext X y = .ok (o', f)) (k : ℕ)
    (hk : k ≤ o.params.nComp) :
    ∃ o1 g yf yg, SdObj.fit ext { o with params := { o.params with nComp := k } } X y = .ok (o1, g) ∧ f.predict X = .ok yf ∧ g.predict X = .ok yg ∧
      sumSquares (fun c => y c - yf c) ≤ sumSquares fun c => y c - yg c := by
  obtain ⟨o1, g, hg, -, hT, -⟩ := C140_sudire hm h k hk
  obtain ⟨yf, hyf, horth, hone⟩ := C93_training hols hc h
  obtain ⟨yf', b0, b, hyf', hbf⟩ := fit_predict_affine hc h
  have : yf' = yf := by rw [hyf] at hyf'; exact (Except.ok.inj hyf').symm
  subst this
  obtain ⟨yg, c0, cg, hyg, hbg⟩ := fit_predict_affine (o := { o with params := { o.params with nComp := k } }) hc hg
  refine ⟨o1, g, yf', yg, hg, hyf, hyg, ?_⟩
  have hsum : ∑ c, (y c - yf' c) = 0 := by
    by_cases hcst : ∃ j, IsConstCol f.T j
    · obtain ⟨j, h1, h2⟩ := hcst
      rcases Nat.eq_zero_or_pos n with rfl | hn
      · simp
      · have h3 := horth j
        have h4 : ∀ c, f.T c j = f.T ⟨0, hn⟩ j := fun c => h1 c _
        simp only [h4, ← Finset.mul_sum] at h3
        exact (mul_eq_zero.mp h3).resolve_left (h2 _)
    · exact hone hcst
  obtain ⟨c', hc'⟩ := firstColumns_combination hT cg
  have hd : (fun c => y c - yg c) = fun c => (y c - yf' c) + ∑ a, (Fin.cons 1 (f.T c) : Fin (f.h + 1) → ℝ) a * (Fin.cons (b0 - c0) (fun j => b j - c' j) : Fin (f.h + 1) → ℝ) a := by
    funext c
    rw [Fin.sum_univ_succ]
    simp only [Fin.cons_zero, Fin.cons_succ, one_mul]
    rw [hbf, hbg, hc']
    have : ∑ i, f.T c i * (b i - c' i) = ∑ i, f.T c i * b i - ∑ i, f.T c i * c' i := by
      rw [← Finset.sum_sub_distrib]
      exact Finset.sum_congr rfl fun i _ => by ring
    rw [this]
    ring
  rw [hd]
  refine rss_le_of_orth (fun c => (Fin.cons 1 (f.T c) : Fin (f.h + 1) → ℝ)) _ _ _ (fun a => ?_) fun c => rfl
  refine Fin.cases ?_ (fun j => ?_) a
  · simpa using hsum
  · have := horth j
    rw [← this]
    exact Finset.sum_congr rfl fun c _ => by simp only [Fin.cons_succ]; ring

/-- Iterative Hessian transformations with two components, without centring and scaling. -/
def iht2Params : SdParams where
  meth := .iht
  nComp := 2
  trimming := 0
  centerData := false
  center := .mean
  scaleData := false
  whiten := false
  nSlices := 2
  copy := true
  continuous := true
  returnScaling := false

/-- A fit with two components, for any response, that meets the hypotheses of C140 and C141. -/
lemma iht2_fits (y : Fin 6 → ℝ) : ∃ (ext : SdExt) (o : SdObj) (f : SdFit 6 2), (∀ {n k : ℕ} (A : Fin n → Fin k → ℝ) (y : Fin n → ℝ), IsLeastSquares A y (ext.ols A y)) ∧
    iht2Params.meth.direct ∧ iht2Params.copy = true ∧ 1 ≤ iht2Params.nComp ∧ (SdObj.new iht2Params).fit ext (sixX 1) y = .ok (o, f) ∧ f.h = 2 := by
  obtain ⟨eigh, he⟩ := exists_eigh
  let ext : SdExt := { exExt eigh with ols := fun A y => Classical.choose (exists_leastSquares A y) }
  have hq : ∃ q, sdPre ext iht2Params (sixX 1) = .ok q ∧ q.centring = false := by
    have hroot : ext.rootInv (covMat (sixX 1)) = .ok ((1 / Real.sqrt (2 * 1 ^ 2 / 5)) • 1) := by
      rw [sixX_cov]
      exact invSqrt_const he (by norm_num)
    rw [sdPre, if_neg (by decide), if_neg (by norm_num), hroot]
    dsimp only
    rw [if_neg]
    · exact ⟨_, rfl, rfl⟩
    · rw [not_not]
      refine ⟨le_rfl, ?_, Or.inl rfl⟩
      simp only [iht2Params]
      norm_num
  obtain ⟨q, hq, -⟩ := hq
  set M := ihtCols eigh q.Xs y * (ihtCols eigh q.Xs y).transpose with hM
  have key : sdDirections ext iht2Params ((SdObj.new iht2Params).state.setX0 true (sixX 1)) q y =
      .ok (⟨2, leading eigh M 2⟩, (SdObj.new iht2Params).state.setX0 true (sixX 1)) := by
    unfold sdDirections
    simp only [iht2Params]
    unfold iht
    rw [if_neg (by norm_num)]
    simp only [sdrRoot, sdrBack, sdMapBack, sdrScale, sdrCentre]
    rfl
  have hpm : ∃ pm, projMat (leading eigh M 2) = .ok pm := by
    unfold projMat
    have : IsUnit ((leading eigh M 2).transpose * leading eigh M 2).det := by
      rw [leading_orth he (by rw [hM, Matrix.transpose_mul, Matrix.transpose_transpose]) 2, Matrix.det_one]
      exact isUnit_one
    rw [if_pos this]
    exact ⟨_, rfl⟩
  obtain ⟨pm, hpm⟩ := hpm
  have hfit : ∃ o f, (SdObj.new iht2Params).fit ext (sixX 1) y = .ok (o, f) ∧ f.h = 2 := by
    unfold SdObj.fit
    have hwp : (SdObj.new iht2Params).params.whitened = iht2Params := rfl
    have hcp : iht2Params.copy = true := rfl
    dsimp only
    rw [hwp, hq, hcp]
    dsimp only
    rw [key]
    dsimp only
    erw [hpm]
    dsimp only
    have e2 : ((SdObj.new iht2Params).state.setX0 true (sixX 1)).x0 = some ⟨6, 2, sixX 1⟩ := rfl
    rw [e2, sdScores_self]
    dsimp only
    rw [if_neg (by simp [iht2Params])]
    exact ⟨_, _, rfl, rfl⟩
  obtain ⟨o, f, hf, hh⟩ := hfit
  exact ⟨ext, o, f, fun A y => Classical.choose_spec (exists_leastSquares A y), trivial, rfl, by simp [iht2Params], hf, hh⟩

/-- A fit with two components that meets the hypotheses of C140 and C141. -/
example : ∃ (ext : SdExt) (o : SdObj) (f : SdFit 6 2), (∀ {n k : ℕ} (A : Fin n → Fin k → ℝ) (y : Fin n → ℝ), IsLeastSquares A y (ext.ols A y)) ∧
    iht2Params.meth.direct ∧ iht2Params.copy = true ∧ 1 ≤ iht2Params.nComp ∧ (SdObj.new iht2Params).fit ext (sixX 1) sixY = .ok (o, f) ∧ f.h = 2 :=
  iht2_fits sixY

end Direpack
