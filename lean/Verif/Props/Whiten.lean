import Mathlib.Tactic.Linarith
import Mathlib.Tactic.FieldSimp
import Mathlib.Tactic.Ring
import Verif.Spec.PPFull
import Verif.Props.SudireData

/-! Property C153: whitened data have uncorrelated columns with unit variance. -/

set_option linter.unusedSectionVars false

namespace Direpack

open scoped BigOperators

variable {n p : ℕ}

/-- `K` comes from a singular value decomposition of `Z`: its columns are the right singular vectors divided by the singular values (`K = V / S`). -/
def Spec.IsWhitener (Z : Fin n → Fin p → ℝ) (K : Matrix (Fin p) (Fin p) ℝ) : Prop :=
  ∃ s : Matrix (Fin p) (Fin p) ℝ × (Fin p → ℝ) × Matrix (Fin p) (Fin n) ℝ, IsThinSvd Z s ∧ ∀ k j, K k j = s.1 k j / s.2.1 j

open Spec

/-- Multiplication by `K` gives orthonormal columns, if the columns of the data are independent. -/
lemma whitener_gram {Z : Fin n → Fin p → ℝ} {K : Matrix (Fin p) (Fin p) ℝ} (hK : IsWhitener Z K) (hind : ∀ v : Fin p → ℝ, (∀ c, ∑ k, Z c k * v k = 0) → v = 0) (j l : Fin p) :
    ∑ c, matX Z K c j * matX Z K c l = if j = l then 1 else 0 := by
  obtain ⟨⟨V, S, U⟩, ⟨hV, hU, -, hZ⟩, hKs⟩ := hK
  dsimp only at hV hU hZ hKs
  have hVV : ∀ a b, ∑ k, V k a * V k b = if a = b then 1 else 0 := by
    intro a b
    have := congrFun (congrFun hV a) b
    rw [Matrix.mul_apply, Matrix.one_apply] at this
    exact this
  have hproj : ∀ c a, ∑ k, Z c k * V k a = S a * U a c := by
    intro c a
    simp only [hZ, Finset.sum_mul]
    rw [Finset.sum_comm]
    rw [Finset.sum_congr rfl fun l _ => show ∑ k, V k l * S l * U l c * V k a = S l * U l c * ∑ k, V k l * V k a by
      rw [Finset.mul_sum]; exact Finset.sum_congr rfl fun k _ => by ring]
    simp [hVV]
  have hS : ∀ a, S a ≠ 0 := by
    intro a h0
    have hv := hind (fun k => V k a) fun c => by rw [hproj, h0, zero_mul]
    have h1 := hVV a a
    have h2 : ∀ k, V k a = 0 := fun k => congrFun hv k
    simp [h2] at h1
  have hX : ∀ c a, matX Z K c a = U a c := by
    intro c a
    simp only [matX, hKs]
    rw [Finset.sum_congr rfl fun k _ => show Z c k * (V k a / S a) = Z c k * V k a / S a by ring, ← Finset.sum_div, hproj,
      mul_div_cancel_left₀ _ (hS a)]
  simp only [hX]
  have := congrFun (congrFun hU j) l
  rw [Matrix.mul_apply, Matrix.one_apply] at this
  exact this

/-- If the covariance matrix is invertible, no linear function of the predictors is constant. -/
lemma indep_of_root {rootInv : {p : ℕ} → Matrix (Fin p) (Fin p) ℝ → Except Err (Matrix (Fin p) (Fin p) ℝ)} (hr : IsRootInv rootInv) {X : Fin n → Fin p → ℝ}
    {N : Matrix (Fin p) (Fin p) ℝ} (hN : rootInv (covMat X) = .ok N) (hn : 0 < n) (m : Fin p → ℝ) (v : Fin p → ℝ) (hv : ∀ c, ∑ k, (X c k - m k) * v k = 0) : v = 0 := by
  have hsym : (covMat X).transpose = covMat X := by
    ext j k
    simp only [Matrix.transpose_apply, covMat, Matrix.of_apply]
    congr 1
    exact Finset.sum_congr rfl fun c _ => by ring
  obtain ⟨hNs, hNN⟩ := hr _ _ hsym hN
  have hmean : ∀ c, ∑ k, (X c k - mean fun i => X i k) * v k = 0 := by
    have h1 : ∀ c, ∑ k, X c k * v k = ∑ k, m k * v k := by
      intro c
      have := hv c
      simp only [sub_mul, Finset.sum_sub_distrib] at this
      linarith
    have h2 : ∑ k, (mean fun i => X i k) * v k = ∑ k, m k * v k := by
      have : ∑ k, (mean fun i => X i k) * v k = mean fun i => ∑ k, X i k * v k := by
        simp only [mean_eq]
        rw [Finset.sum_comm, Finset.sum_div]
        exact Finset.sum_congr rfl fun k _ => by rw [div_mul_eq_mul_div, Finset.sum_mul]
      rw [this]
      simp only [h1]
      exact mean_const hn _
    intro c
    simp only [sub_mul, Finset.sum_sub_distrib]
    rw [h1, h2, sub_self]
  have hC : (covMat X).mulVec v = 0 := by
    funext j
    simp only [Matrix.mulVec, dotProduct, covMat, Matrix.of_apply, Pi.zero_apply]
    rw [Finset.sum_congr rfl fun k _ => show (∑ c, (X c j - mean fun i => X i j) * (X c k - mean fun i => X i k)) / ((n : ℝ) - 1) * v k =
      (∑ c, (X c j - mean fun i => X i j) * ((X c k - mean fun i => X i k) * v k)) / ((n : ℝ) - 1) by
        rw [div_mul_eq_mul_div, Finset.sum_mul]; congr 1; exact Finset.sum_congr rfl fun c _ => by ring]
    rw [← Finset.sum_div, Finset.sum_comm]
    simp only [← Finset.mul_sum, hmean, mul_zero, Finset.sum_const_zero, zero_div]
  -- `N C N = 1` makes `C` injective
  have hdet : IsUnit (covMat X).det := by
    have := congrArg Matrix.det hNN
    rw [Matrix.det_mul, Matrix.det_mul, Matrix.det_one] at this
    refine isUnit_iff_ne_zero.2 fun h0 => ?_
    rw [h0] at this
    simp at this
  calc v = ((covMat X)⁻¹ * covMat X).mulVec v := by rw [Matrix.nonsing_inv_mul _ hdet, Matrix.one_mulVec]
    _ = 0 := by rw [← Matrix.mulVec_mulVec, hC, Matrix.mulVec_zero]

/-- The data that a fit with whitening hands to the optimiser. -/
lemma whitened_data {ext : SdExt} (hr : IsRootInv ext.rootInv) {pr : SdParams} (hm : pr.meth = .dcov) (hw : pr.whiten = true) {X : Fin n → Fin p → ℝ} {y : Fin n → ℝ}
    {o : SdObj} {f : SdFit n p} (h : (SdObj.new pr).fit ext X y = .ok (o, f)) (hK : IsWhitener (fun c k => X c k - f.loc k) (ext.whitenK fun c k => X c k - f.loc k)) :
    2 ≤ n ∧ ∃ D : Fin n → Fin p → ℝ, (∃ a, o.state.args = some a ∧ a.data = ⟨n, p, D⟩) ∧ (∀ j l, ∑ c, D c j * D c l = if j = l then (p : ℝ) else 0) ∧
      ∃ M : Matrix (Fin p) (Fin p) ℝ, ∀ c j, D c j = ∑ k, (X c k - f.loc k) * M k j := by
  obtain ⟨q, N2, -, hn, hN, rfl, hl, hs, ha⟩ := sdArgs_new hm h
  have hwp : pr.whitened = { pr with centerData := true, scaleData := false } := by unfold SdParams.whitened; simp [hw]
  refine ⟨hn, _, ⟨_, ha, rfl⟩, ?_⟩
  rw [hl] at hK ⊢
  set Z := (sdCentreStep pr.whitened X N2).Xs with hZ
  have hXs : (sdWhitenStep ext pr.whitened (sdScaleStep pr.whitened X (sdCentreStep pr.whitened X N2))).Xs = fun c j => matX Z (ext.whitenK Z) c j * Real.sqrt p := by
    rw [hZ, hwp]
    simp [sdWhitenStep, sdScaleStep, hw]
  have hloc : (sdWhitenStep ext pr.whitened (sdScaleStep pr.whitened X (sdCentreStep pr.whitened X N2))).loc = (sdCentreStep pr.whitened X N2).loc := by
    rw [hwp]
    simp [sdWhitenStep, sdScaleStep, hw]
  have hZe : ∀ c k, Z c k = X c k - (sdCentreStep pr.whitened X N2).loc k := by
    intro c k
    rw [hZ, hwp]
    cases hce : pr.center <;> simp [sdCentreStep, hce]
  have hKZ : IsWhitener Z (ext.whitenK Z) := by
    rw [hloc] at hK
    have e : Z = fun c k => X c k - (sdCentreStep pr.whitened X N2).loc k := by funext c k; exact hZe c k
    rw [e]; exact hK
  have hgram := whitener_gram hKZ fun v hv => indep_of_root hr hN (by omega) (sdCentreStep pr.whitened X N2).loc v fun c => by
    have := hv c
    simp only [hZe] at this
    exact this
  constructor
  · intro j l
    rw [hXs]
    have hp : Real.sqrt p * Real.sqrt p = p := Real.mul_self_sqrt (Nat.cast_nonneg p)
    rw [Finset.sum_congr rfl fun c _ => show matX Z (ext.whitenK Z) c j * Real.sqrt p * (matX Z (ext.whitenK Z) c l * Real.sqrt p) =
      (Real.sqrt p * Real.sqrt p) * (matX Z (ext.whitenK Z) c j * matX Z (ext.whitenK Z) c l) by ring, ← Finset.mul_sum, hgram, hp]
    split <;> simp
  · refine ⟨Real.sqrt p • ext.whitenK Z, fun c j => ?_⟩
    rw [hXs, hloc]
    simp only [matX, hZe, Matrix.smul_apply, smul_eq_mul, Finset.sum_mul]
    exact Finset.sum_congr rfl fun k _ => by ring

/-- C153 for centring at the mean without trimming: the whitened data have uncorrelated columns, all with the variance `p / (n - 1)`.  Missing: unit variance
(`C153_unit_variance_violated`). -/
theorem C153_white_partial {ext : SdExt} (hr : IsRootInv ext.rootInv) {pr : SdParams} (hm : pr.meth = .dcov) (hw : pr.whiten = true) (hc : pr.center = .mean) (ht : pr.trimming = 0)
    {X : Fin n → Fin p → ℝ} {y : Fin n → ℝ} {o : SdObj} {f : SdFit n p} (h : (SdObj.new pr).fit ext X y = .ok (o, f))
    (hK : IsWhitener (fun c k => X c k - f.loc k) (ext.whitenK fun c k => X c k - f.loc k)) :
    ∃ D : Fin n → Fin p → ℝ, (∃ a, o.state.args = some a ∧ a.data = ⟨n, p, D⟩) ∧ covMat D = ((p : ℝ) / ((n : ℝ) - 1)) • (1 : Matrix (Fin p) (Fin p) ℝ) := by
  obtain ⟨hn, D, hD, hg, M, hM⟩ := whitened_data hr hm hw h hK
  have hwp : pr.whitened = { pr with centerData := true, scaleData := false } := by unfold SdParams.whitened; simp [hw]
  have hloc : ∀ k, f.loc k = mean fun i => X i k := by
    obtain ⟨q, N2, -, -, -, rfl, hl, -, -⟩ := sdArgs_new hm h
    intro k
    rw [hl, hwp]
    simp [sdWhitenStep, sdScaleStep, hw, sdCentreStep, hc, ht, ppMean_zero]
  have hmean : ∀ j, (mean fun c => D c j) = 0 := by
    intro j
    simp only [hM]
    rw [mean_eq, Finset.sum_comm]
    simp only [← Finset.sum_mul]
    have : ∀ k, ∑ c, (X c k - f.loc k) = 0 := by
      intro k
      rw [hloc, Finset.sum_sub_distrib, mean_eq, Finset.sum_const, Finset.card_univ, Fintype.card_fin, nsmul_eq_mul]
      have : (n : ℝ) ≠ 0 := by exact_mod_cast (by omega : n ≠ 0)
      field_simp
      ring
    simp [this]
  refine ⟨D, hD, ?_⟩
  ext j l
  simp only [covMat, Matrix.of_apply, hmean, sub_zero, hg, Matrix.smul_apply, Matrix.one_apply, smul_eq_mul]
  split <;> simp

/-- C153 is violated: unless there is one case more than there are predictors, no column of the whitened data has unit variance (the data are multiplied by the square root of the
number of predictors, not of cases). -/
theorem C153_unit_variance_violated {ext : SdExt} (hr : IsRootInv ext.rootInv) {pr : SdParams} (hm : pr.meth = .dcov) (hw : pr.whiten = true) (hc : pr.center = .mean)
    (ht : pr.trimming = 0) {X : Fin n → Fin p → ℝ} {y : Fin n → ℝ} {o : SdObj} {f : SdFit n p} (h : (SdObj.new pr).fit ext X y = .ok (o, f))
    (hK : IsWhitener (fun c k => X c k - f.loc k) (ext.whitenK fun c k => X c k - f.loc k)) (hnp : n ≠ p + 1) :
    ∃ D : Fin n → Fin p → ℝ, (∃ a, o.state.args = some a ∧ a.data = ⟨n, p, D⟩) ∧ ∀ j, covMat D j j ≠ 1 := by
  obtain ⟨D, hD, hcov⟩ := C153_white_partial hr hm hw hc ht h hK
  obtain ⟨hn, -⟩ := whitened_data hr hm hw h hK
  refine ⟨D, hD, fun j => ?_⟩
  rw [hcov]
  simp only [Matrix.smul_apply, Matrix.one_apply_eq, smul_eq_mul, mul_one]
  intro he
  have h1 : (n : ℝ) - 1 ≠ 0 := by
    have : (2 : ℝ) ≤ n := by exact_mod_cast hn
    linarith
  rw [div_eq_one_iff_eq h1] at he
  exact hnp (by
    have : (n : ℝ) = (p : ℝ) + 1 := by linarith
    exact_mod_cast this)

/-! ### An example -/

/-- Options with whitening. -/
noncomputable def exWhite : SdParams := { exParams with whiten := true }

/-- The external routines of the example, with the whitening matrix of the example data. -/
noncomputable def exWhiteExt (eigh : Eigh) : SdExt := { exExt eigh with whitenK := fun _ => (1 / Real.sqrt 2) • 1 }

lemma exWhite_data : (fun c j => matX (sixX 1) ((1 / Real.sqrt 2) • 1) c j * Real.sqrt (2 : ℕ)) = sixX 1 := by
  funext c j
  have h2 : Real.sqrt 2 ≠ 0 := by positivity
  simp only [matX, Matrix.smul_apply, Matrix.one_apply, smul_eq_mul]
  have : ∑ k, sixX 1 c k * (1 / Real.sqrt 2 * if k = j then 1 else 0) = sixX 1 c j * (1 / Real.sqrt 2) := by simp
  rw [this]
  push_cast
  field_simp

lemma exWhite_start {eigh : Eigh} (he : IsEigh eigh) {q : SdPre 6 2} (hX : q.Xs = sixX 1) : ∃ l, sdStart (exWhiteExt eigh) exWhite.whitened q sixY = .ok l := by
  have hst : ∀ m s, s ≤ 6 → 0 < s → ∃ B, sdStartMat (exWhiteExt eigh) exWhite.whitened m s q sixY = .ok B := by
    intro m s hs hs0
    obtain ⟨B, hB⟩ := six_slice he m one_ne_zero hs hs0 1 false
    rw [sdStartMat]
    have hB' : sliceMethod m (exWhiteExt eigh).eigh q.Xs sixY s exWhite.whitened.nComp false exWhite.whitened.scaleData true = .ok B := by rw [hX]; exact hB
    rw [hB']
    exact ⟨_, rfl⟩
  obtain ⟨b1, h1⟩ := hst .save 3 (by norm_num) (by norm_num)
  obtain ⟨b2, h2⟩ := hst .sir 6 (by norm_num) (by norm_num)
  obtain ⟨b3, h3⟩ := hst .dr 6 (by norm_num) (by norm_num)
  rw [sdStart, h1, h2, h3]
  exact ⟨_, rfl⟩

/-- A fit with whitening. -/
lemma exWhite_fit {eigh : Eigh} (he : IsEigh eigh) : ∃ o f, (SdObj.new exWhite).fit (exWhiteExt eigh) (sixX 1) sixY = .ok (o, f) ∧ ∀ k, f.loc k = 0 := by
  have hpos : (0 : ℝ) < 2 * 1 ^ 2 / 5 := by norm_num
  set pw := exWhite.whitened with hpw
  set q : SdPre 6 2 := ⟨sixX 1, (1 / Real.sqrt (2 * 1 ^ 2 / 5)) • 1, fun _ => 0, fun j => Real.sqrt (covMat (sixX 1) j j), false⟩ with hqdef
  have hq : sdPre (exWhiteExt eigh) pw (sixX 1) = .ok q := by
    rw [sdPre, if_neg (by decide), if_neg (by norm_num)]
    have : (exWhiteExt eigh).rootInv (covMat (sixX 1)) = .ok ((1 / Real.sqrt (2 * 1 ^ 2 / 5)) • 1) := by
      rw [sixX_cov]
      exact invSqrt_const he hpos
    rw [this]
    dsimp only
    rw [if_neg]
    · have hm : ∀ j : Fin 2, (ppMean 0 fun i => sixX 1 i j) = 0 := fun j => by rw [ppMean_zero, sixX_mean]
      have hce : sdCentreStep pw (sixX 1) ((1 / Real.sqrt (2 * 1 ^ 2 / 5)) • 1) = q := by
        have e1 : pw.centerData = true := rfl
        have e2 : pw.center = .mean := rfl
        have e3 : pw.trimming = 0 := rfl
        rw [sdCentreStep, if_pos e1, e2, e3, hqdef]
        simp only [hm, sub_zero]
      have hsc : sdScaleStep pw (sixX 1) q = q := rfl
      have hwt : pw.whiten = true := rfl
      rw [hce, hsc, sdWhitenStep, if_pos hwt, hqdef]
      have := exWhite_data
      simp only [exWhiteExt]
      rw [this]
    · rw [not_not]
      refine ⟨le_rfl, ?_, Or.inl rfl⟩
      simp only [hpw, exWhite, exParams, SdParams.whitened]
      norm_num
  obtain ⟨start, hstart⟩ := exWhite_start he (q := q) rfl
  set v : List ℝ := if ∃ c k, sixX 1 c k = 2 then [0, 1] else [1, 0] with hv
  set B : Matrix (Fin 2) (Fin 1) ℝ := Matrix.of fun k j => v.getD (j.1 * 2 + k.1) 0 with hB
  have hrun : sdRun (exWhiteExt eigh) pw q .dcov start (sdArgs pw q sixY) (sdCons pw q) = .ok B := by
    have hsol : (exWhiteExt eigh).solve .dcov start (sdArgs pw q sixY) (sdCons pw q) = .ok v := by
      simp only [exWhiteExt, exExt, sdArgs, hv, hqdef]
      split <;> rfl
    rw [sdRun, hsol]
    dsimp only
    have hlen : v.length = 2 := by rw [hv]; split <;> rfl
    have hres : reshapeF 2 pw.nComp v = .ok B := by
      rw [reshapeF, if_pos ⟨by decide, by rw [hlen]; rfl⟩]
      rfl
    rw [hres]
    rfl
  have hBB : B.transpose * B = 1 := by
    ext i j
    fin_cases i
    fin_cases j
    rw [Matrix.mul_apply, Fin.sum_univ_two]
    simp only [Matrix.transpose_apply, hB, Matrix.of_apply, hv]
    split <;> simp
  have hpm : projMat B = .ok (B * B.transpose) := by
    unfold projMat
    rw [if_pos (by rw [hBB]; simp), hBB, inv_one, Matrix.mul_one]
  have hdir : sdDirections (exWhiteExt eigh) pw (SdState.init.setX0 pw.copy (sixX 1)) q sixY =
      .ok (⟨pw.nComp, B⟩, ⟨some start, some (sdCons pw q), some (sdArgs pw q sixY), some ⟨6, 2, sixX 1⟩⟩) := by
    rw [sdDirections]
    change sdOptimise (exWhiteExt eigh) pw ⟨none, none, none, some ⟨6, 2, sixX 1⟩⟩ q sixY none = _
    unfold sdOptimise
    dsimp only [Option.getD_none]
    rw [hstart]
    dsimp only
    rw [hrun]
  have hsc : ∃ T, sdScores (some ⟨6, 2, sixX 1⟩) 6 (⟨pw.nComp, B⟩ : SdLoad 2) = .ok T := by
    unfold sdScores
    simp
  obtain ⟨T, hT⟩ := hsc
  rw [SdObj.fit]
  have hnw : (SdObj.new exWhite).params.whitened = pw := rfl
  have hns : (SdObj.new exWhite).state = SdState.init := rfl
  simp only [hnw, hns]
  rw [hq]
  dsimp only
  rw [hdir]
  dsimp only
  have hpm' : @projMat 2 pw.nComp B = .ok (B * B.transpose) := hpm
  rw [hpm']
  dsimp only
  rw [hT]
  dsimp only
  rw [if_neg (by simp [hpw, exWhite, SdParams.whitened, exParams, PpCentre.isMean])]
  exact ⟨_, _, rfl, fun _ => rfl⟩

/-- The hypotheses can be met, and here the whitened data do not have unit variance. -/
example : ∃ (ext : SdExt) (o : SdObj) (f : SdFit 6 2), IsRootInv ext.rootInv ∧ (SdObj.new exWhite).fit ext (sixX 1) sixY = .ok (o, f) ∧
    IsWhitener (fun c k => sixX 1 c k - f.loc k) (ext.whitenK fun c k => sixX 1 c k - f.loc k) := by
  obtain ⟨eigh, he⟩ := exists_eigh
  obtain ⟨o, f, hf, hl⟩ := exWhite_fit he
  have h2 : Real.sqrt 2 * Real.sqrt 2 = 2 := Real.mul_self_sqrt (by norm_num)
  have h0 : Real.sqrt 2 ≠ 0 := by positivity
  refine ⟨exWhiteExt eigh, o, f, ?_, hf, ?_⟩
  · intro k A N hA hN
    exact invSqrt_spec he hA hN
  · simp only [hl, sub_zero]
    refine ⟨(1, fun _ => Real.sqrt 2, Matrix.of fun j c => sixX 1 c j / Real.sqrt 2), ⟨by simp, ?_, fun _ => Real.sqrt_nonneg _, ?_⟩, ?_⟩
    · ext j l
      rw [Matrix.mul_apply, Fin.sum_univ_six]
      simp only [Matrix.transpose_apply, Matrix.of_apply]
      fin_cases j <;> fin_cases l <;> simp [sixX] <;> field_simp <;> nlinarith
    · intro i k
      dsimp only
      simp only [Matrix.of_apply, Matrix.one_apply, ite_mul, one_mul, zero_mul, Finset.sum_ite_eq, Finset.mem_univ, if_true]
      field_simp
    · intro k j
      simp only [exWhiteExt, Matrix.smul_apply, smul_eq_mul]
      ring

end Direpack
