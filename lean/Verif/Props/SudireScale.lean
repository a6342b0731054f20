import Verif.Props.SudireFit

/-! Property C94 with median centring, and data that meet the hypotheses of C92 to C95. -/

namespace Direpack

open scoped BigOperators
open Spec

variable {n p : ℕ}

/-- PHD with one component on scaled data. -/
def phdParams (c : PpCentre) : SdParams where
  meth := .phd
  nComp := 1
  trimming := 0
  centerData := true
  center := c
  scaleData := true
  whiten := false
  nSlices := 6
  copy := true
  continuous := true
  returnScaling := true

/-- The cross data times a factor. -/
def crossB (b : ℝ) : Fin 4 → Fin 2 → ℝ := fun c j => b * crossX c j

lemma crossB_mean (b : ℝ) (j : Fin 2) : (mean fun c => crossB b c j) = 0 := by
  rw [mean_eq]
  fin_cases j <;> simp [Fin.sum_univ_four, crossB, crossX]

lemma crossB_cov (b : ℝ) : covMat (crossB b) = (2 * b ^ 2 / 3 : ℝ) • 1 := by
  ext j k
  simp only [covMat, Matrix.of_apply, crossB_mean]
  fin_cases j <;> fin_cases k <;> simp [Fin.sum_univ_four, crossB, crossX] <;> ring

lemma crossB_phd {eigh : Eigh} (he : IsEigh eigh) {b : ℝ} (hb : b ≠ 0) (y : Fin 4 → ℝ) (center : Bool) :
    ∃ B, phd eigh (crossB b) y 1 center true = .ok B := by
  have hpos : 0 < 2 * b ^ 2 / 3 := by positivity
  rw [phd, if_neg (by norm_num)]
  have : sdrRoot eigh true (crossB b) = .ok ((1 / Real.sqrt (2 * b ^ 2 / 3)) • 1) := by
    simp only [sdrRoot, if_true]
    rw [crossB_cov]
    exact invSqrt_const he hpos
  rw [this]
  exact ⟨_, rfl⟩

/-- A fit with PHD on the cross data. -/
lemma phdFit {ext : SdExt} (he : IsEigh ext.eigh) (c : PpCentre) (y : Fin 4 → ℝ) {q : SdPre 4 2} {b t : ℝ} (hb : b ≠ 0) (ht : t ≠ 0)
    (hq : sdPre ext (phdParams c) crossX = .ok q) (hX : q.Xs = crossB b) (hN : q.N2 = t • 1) (hc : c.isMean = true ∨ q.centring = true) :
    ∃ o f, (SdObj.new (phdParams c)).fit ext crossX y = .ok (o, f) ∧ f.h = 1 ∧ f.k = f.h + 1 ∧
      f.P.transpose * f.P = (t ^ 2 * (3 / (2 * b ^ 2))) • 1 := by
  have hpos : 0 < 2 * b ^ 2 / 3 := by positivity
  obtain ⟨B, hB⟩ := crossB_phd he hb y true
  have horth := C89_phd he _ _ _ _ _ _ hB
  simp only [if_true] at horth
  rw [crossB_cov] at horth
  unfold OrthonormalIn at horth
  have hBB : B.transpose * B = (3 / (2 * b ^ 2) : ℝ) • 1 := by
    rw [Matrix.mul_smul, Matrix.mul_one, Matrix.smul_mul] at horth
    rw [← horth, smul_smul, show 3 / (2 * b ^ 2) * (2 * b ^ 2 / 3) = (1 : ℝ) by field_simp, one_smul]
  have hPP : (q.N2 * B).transpose * (q.N2 * B) = (t ^ 2 * (3 / (2 * b ^ 2))) • 1 := by
    rw [hN, Matrix.smul_mul, Matrix.one_mul, Matrix.transpose_smul, Matrix.smul_mul, Matrix.mul_smul, smul_smul, hBB, smul_smul]
    congr 1
    ring
  have hdir : sdDirections ext (phdParams c) (SdState.init.setX0 (phdParams c).copy crossX) q y =
      .ok (⟨_, q.N2 * B⟩, SdState.init.setX0 (phdParams c).copy crossX) := by
    rw [sdDirections]
    have hB' : phd ext.eigh q.Xs y (phdParams c).nComp (phdParams c).centerData (phdParams c).scaleData = .ok B := by rw [hX]; exact hB
    have : (phdParams c).meth = .phd := rfl
    rw [this]
    dsimp only
    rw [hB']
    rfl
  have hw : (phdParams c).whitened = phdParams c := rfl
  have hdet : IsUnit ((q.N2 * B).transpose * (q.N2 * B)).det := by
    rw [hPP, Matrix.det_smul, Matrix.det_one, mul_one]
    apply IsUnit.pow
    rw [isUnit_iff_ne_zero]
    positivity
  have hpm : projMat (q.N2 * B) = .ok ((q.N2 * B) * ((q.N2 * B).transpose * (q.N2 * B))⁻¹ * (q.N2 * B).transpose) := by
    unfold projMat
    rw [if_pos hdet]
  have hsc : sdScores (some ⟨4, 2, crossX⟩) 4 (⟨_, q.N2 * B⟩ : SdLoad 2) = .ok (matX crossX (q.N2 * B)) := sdScores_self crossX
  have hcst : ¬ ∃ j, IsConstCol (matX crossX (q.N2 * B)) j := by
    rintro ⟨j, h1, h2⟩
    have h3 := h1 0 1
    have h4 := h2 0
    simp [matX, crossX, Fin.sum_univ_two] at h3 h4
    apply h4
    linarith
  have hadd : addConstant (matX crossX (q.N2 * B)) = ⟨_, fun c => Fin.cons 1 (matX crossX (q.N2 * B) c)⟩ := by
    unfold addConstant
    rw [if_neg hcst]
  rw [SdObj.fit]
  simp only [SdObj.new, hw]
  rw [hq]
  dsimp only
  rw [hdir]
  dsimp only
  rw [hpm]
  dsimp only
  have hsc' : sdScores (SdState.init.setX0 (phdParams c).copy crossX).x0 4 (⟨_, q.N2 * B⟩ : SdLoad 2) = .ok (matX crossX (q.N2 * B)) := hsc
  rw [hsc']
  dsimp only
  rw [if_neg]
  · refine ⟨_, _, rfl, rfl, ?_, hPP⟩
    rw [hadd]
  · rintro ⟨-, h1, h2⟩
    have h1' : c.isMean = false := h1
    rcases hc with h | h
    · rw [h] at h1'; exact absurd h1' (by simp)
    · rw [h] at h2; exact absurd h2 (by simp)

lemma crossX_med (j : Fin 2) : (med fun c => crossX c j) = 0 := by
  fin_cases j <;> norm_num [med, medL, sortL, crossX, List.ofFn_succ, List.insertionSort, List.orderedInsert]

/-- Every column has median absolute deviation 1/2, divided by the consistency constant. -/
lemma crossX_mad (j : Fin 2) : (mad fun c => crossX c j) = 1 / 2 / madConst := by
  have h := crossX_med j
  unfold med at h
  unfold mad madL
  rw [h]
  congr 1
  fin_cases j <;> norm_num [medL, sortL, crossX, List.ofFn_succ, List.insertionSort, List.orderedInsert]

lemma sdMadConst_pos : (0 : ℝ) < madConst := by unfold madConst; norm_num

/-- C94 is violated with `center='median'`: there are data on which the scores of scaled data do not have unit variance. -/
theorem C94_median_violated {ext : SdExt} (he : IsEigh ext.eigh)
    (hr : ∀ {p : ℕ} (a : ℝ), 0 < a → ext.rootInv (a • (1 : Matrix (Fin p) (Fin p) ℝ)) = .ok ((1 / Real.sqrt a) • 1)) :
    ∃ (pr : SdParams) (X : Fin 4 → Fin 2 → ℝ) (y : Fin 4 → ℝ) (o : SdObj) (f : SdFit 4 2), pr.scaleData = true ∧ pr.center = .median ∧
      (SdObj.new pr).fit ext X y = .ok (o, f) ∧ covMat f.T ≠ 1 := by
  have hroot : ext.rootInv (covMat crossX) = .ok ((1 / Real.sqrt (2 / 3)) • 1) := by rw [crossX_cov]; exact hr _ (by norm_num)
  set s : ℝ := 1 / 2 / madConst with hs
  have hspos : 0 < s := by rw [hs]; have := sdMadConst_pos; positivity
  set q : SdPre 4 2 := sdWhitenStep ext (phdParams .median) (sdScaleStep (phdParams .median) crossX (sdCentreStep (phdParams .median) crossX ((1 / Real.sqrt (2 / 3)) • 1))) with hqd
  have hq : sdPre ext (phdParams .median) crossX = .ok q := by
    rw [sdPre, if_neg (by decide), if_neg (by norm_num), hroot]
    dsimp only
    rw [if_neg]
    rw [not_not]
    refine ⟨le_rfl, ?_, Or.inl rfl⟩
    simp only [phdParams]
    norm_num
  have hX : q.Xs = crossB s⁻¹ := by
    rw [hqd]
    simp only [sdWhitenStep, sdScaleStep, sdCentreStep, phdParams, if_true, Bool.false_eq_true, if_false]
    funext c j
    simp only [stdMat, std1, crossX_mad, crossX_med, ← hs, if_neg hspos.ne', crossB]
    rw [sub_zero, div_eq_inv_mul]
  have hN : q.N2 = (1 / Real.sqrt (2 / 3)) • 1 := rfl
  have hC : q.centring = true := rfl
  have hsq : Real.sqrt (2 / 3) ≠ 0 := by positivity
  obtain ⟨o, f, hf, -, -, hP⟩ := phdFit he .median crossY (inv_ne_zero hspos.ne') (one_div_ne_zero hsq) hq hX hN (Or.inr hC)
  refine ⟨phdParams .median, crossX, crossY, o, f, rfl, rfl, hf, ?_⟩
  rw [fit_scores (o := SdObj.new (phdParams .median)) rfl hf, covMat_lin (by norm_num), crossX_cov, Matrix.mul_smul, Matrix.mul_one, Matrix.smul_mul, hP, smul_smul]
  intro h
  obtain ⟨_, _, hfh, hk, _⟩ := phdFit he .median crossY (inv_ne_zero hspos.ne') (one_div_ne_zero hsq) hq hX hN (Or.inr hC)
  rw [hf] at hfh
  cases hfh
  have j : Fin f.h := ⟨0, by omega⟩
  have e := congrFun (congrFun h j) j
  rw [Matrix.smul_apply, Matrix.one_apply_eq, smul_eq_mul, mul_one, div_pow, Real.sq_sqrt (by norm_num)] at e
  have e2 : s ^ 2 * (3 / 2) = 1 := by
    field_simp at e
    linarith
  rw [hs] at e2
  unfold madConst at e2
  norm_num at e2

/-- The hypotheses of C92, C93 and C94 can be met, with median and with mean centring. -/
example : ∃ (ext : SdExt) (o : SdObj) (f : SdFit 4 2), IsEigh ext.eigh ∧ IsRootInv ext.rootInv ∧
    (SdObj.new (phdParams .mean)).fit ext crossX crossY = .ok (o, f) ∧ f.k = f.h + 1 ∧ 0 < f.h := by
  obtain ⟨eigh, he⟩ := exists_eigh
  have hroot : (exExt eigh).rootInv (covMat crossX) = .ok ((1 / Real.sqrt (2 / 3)) • 1) := by
    rw [crossX_cov]
    exact invSqrt_const he (by norm_num)
  set q : SdPre 4 2 := sdWhitenStep (exExt eigh) (phdParams .mean) (sdScaleStep (phdParams .mean) crossX (sdCentreStep (phdParams .mean) crossX ((1 / Real.sqrt (2 / 3)) • 1))) with hqd
  have hq : sdPre (exExt eigh) (phdParams .mean) crossX = .ok q := by
    rw [sdPre, if_neg (by decide), if_neg (by norm_num), hroot]
    dsimp only
    rw [if_neg]
    rw [not_not]
    refine ⟨le_rfl, ?_, Or.inl rfl⟩
    simp only [phdParams]
    norm_num
  have hm : ∀ j, ppMean 0 (fun i => crossX i j) = 0 := by
    intro j
    have h := crossX_mean j
    unfold mean at h
    unfold ppMean meanT
    simp only [if_true, h]
  have hX : q.Xs = crossB (1 / Real.sqrt (2 / 3)) := by
    rw [hqd]
    simp only [sdWhitenStep, sdScaleStep, sdCentreStep, phdParams, if_true, Bool.false_eq_true, if_false, hm, sub_zero]
    funext c j
    rw [matX, Fin.sum_univ_two]
    fin_cases j <;> simp [crossB, mul_comm]
  have hN : q.N2 = (1 / Real.sqrt (2 / 3)) • 1 := rfl
  have hsq : Real.sqrt (2 / 3) ≠ 0 := by positivity
  obtain ⟨o, f, hf, h1, h2, -⟩ := phdFit (ext := exExt eigh) he .mean crossY (one_div_ne_zero hsq) (one_div_ne_zero hsq) hq hX hN (Or.inl rfl)
  refine ⟨exExt eigh, o, f, he, ?_, hf, h2, by omega⟩
  intro p A N hA hN
  obtain ⟨h1, h2⟩ := invSqrt_spec he hA hN
  exact ⟨h1, h2⟩

end Direpack
