import Verif.Props.PPDirePLS
import Verif.Props.Nested

/-! Property C185: projection pursuit regression with the correlation as index and an optimiser that finds the best direction is ordinary least squares regression. -/

namespace Direpack

open scoped BigOperators
open Spec

variable {n p : ℕ}

/-- The correlation of two variables with mean zero. -/
lemma dicomoIndex2_corr (hn : 2 ≤ n) {d : Dicomo} (he : d.est = .arithmetic) (hm : d.mode = .corr) (hc : d.center = .mean) {a : FitArgs}
    (ht : a.trimming = 0) (ho : a.order = 2) {ys t : Fin n → ℝ} (hy : ∑ i, ys i = 0) (h0 : ∑ i, t i = 0) :
    dicomoIndex2 d a ys t = (∑ i, t i * ys i) / (Real.sqrt (∑ i, t i ^ 2) * Real.sqrt (∑ i, ys i ^ 2)) := by
  have hn' : (0 : ℝ) < n := by exact_mod_cast (by omega : 0 < n)
  have h2 := corr_value (n := n) hn a ht ho t ys
  have h3 : ((Dicomo.mk d.est d.mode d.center none).fit { a with y := some (colMat ys) } (colMat t)).2 =
      run .arithmetic .corr .mean a (colMat t) (colMat ys) := by
    rw [he, hm, hc]
    rfl
  unfold dicomoIndex2 dicomoIndex
  have e1 : (⟨n, 1, fun i _ => t i⟩ : DMat) = colMat t := rfl
  have e2 : (⟨n, 1, fun i _ => ys i⟩ : DMat) = colMat ys := rfl
  rw [e1, e2, fit_history (h3.trans h2)]
  dsimp only
  have hcm : ∀ u v : Fin n → ℝ, ∑ i, u i = 0 → ∑ i, v i = 0 → cmom u v 1 1 = (∑ i, u i * v i) / n := by
    intro u v hu hv
    unfold cmom
    simp only [pow_one, avg_of_sum_zero hu, avg_of_sum_zero hv, sub_zero]
    rfl
  rw [hcm t ys h0 hy, hcm t t h0 h0, hcm ys ys hy hy]
  simp only [← pow_two]
  rw [Real.sqrt_div' _ hn'.le, Real.sqrt_div' _ hn'.le]
  rw [div_mul_div_comm, Real.mul_self_sqrt hn'.le, div_div_div_cancel_right₀ hn'.ne']

/-- The best multiple of a variable, and what all multiples leave over. -/
lemma rss_multiple (q u : Fin n → ℝ) (c : ℝ) : (∑ i, u i ^ 2) * ∑ i, q i ^ 2 - (∑ i, u i * q i) ^ 2 ≤ (∑ i, u i ^ 2) * ∑ i, (q i - c * u i) ^ 2 := by
  have h : ∑ i, (q i - c * u i) ^ 2 = ∑ i, q i ^ 2 - 2 * c * ∑ i, u i * q i + c ^ 2 * ∑ i, u i ^ 2 := by
    rw [Finset.mul_sum, Finset.mul_sum, ← Finset.sum_sub_distrib, ← Finset.sum_add_distrib]
    exact Finset.sum_congr rfl fun i _ => by ring
  rw [h]
  nlinarith [sq_nonneg (c * ∑ i, u i ^ 2 - ∑ i, u i * q i)]

/-- A direction with the largest correlation, compared with all others. -/
lemma best_corr {E : Fin n → Fin p → ℝ} {q : Fin n → ℝ} {w : Fin p → ℝ}
    (hmax : ∀ v, UnitLen v → (∑ i, projE E v i * q i) / (Real.sqrt (∑ i, projE E v i ^ 2) * Real.sqrt (∑ i, q i ^ 2)) ≤
      (∑ i, projE E w i * q i) / (Real.sqrt (∑ i, projE E w i ^ 2) * Real.sqrt (∑ i, q i ^ 2))) (ht : 0 < ∑ i, projE E w i ^ 2) (b : Fin p → ℝ) :
    (∑ i, projE E b i * q i) ^ 2 * ∑ i, projE E w i ^ 2 ≤ (∑ i, projE E w i * q i) ^ 2 * ∑ i, projE E b i ^ 2 := by
  set T := ∑ i, projE E w i ^ 2 with hT
  set U := ∑ i, projE E b i ^ 2 with hU
  set Q := ∑ i, q i ^ 2 with hQ
  have hU0 : 0 ≤ U := Finset.sum_nonneg fun i _ => sq_nonneg _
  have hQ0 : 0 ≤ Q := Finset.sum_nonneg fun i _ => sq_nonneg _
  have hcs : ∀ v : Fin p → ℝ, (∑ i, projE E v i * q i) ^ 2 ≤ (∑ i, projE E v i ^ 2) * Q := fun v => Finset.sum_mul_sq_le_sq_mul_sq ..
  rcases hU0.eq_or_lt with h0 | hUp
  · have := hcs b
    rw [← hU, ← h0, zero_mul] at this
    rw [← h0, mul_zero]
    nlinarith
  rcases hQ0.eq_or_lt with h0 | hQp
  · have := hcs b
    rw [← h0, mul_zero] at this
    have h2 : (∑ i, projE E b i * q i) ^ 2 * T ≤ 0 := by nlinarith
    exact h2.trans (by positivity)
  -- the length of `b`
  have hb : 0 < ∑ k, b k ^ 2 := by
    rcases (Finset.sum_nonneg fun k _ => sq_nonneg (b k) : 0 ≤ ∑ k, b k ^ 2).eq_or_lt with h | h
    · exfalso
      have hz : ∀ k, b k = 0 := fun k => pow_eq_zero_iff two_ne_zero |>.mp ((Finset.sum_eq_zero_iff_of_nonneg fun k _ => sq_nonneg _).mp h.symm k (Finset.mem_univ k))
      have : U = 0 := Finset.sum_eq_zero fun i _ => by simp [projE, hz]
      exact hUp.ne' this
    · exact h
  set N := Real.sqrt (∑ k, b k ^ 2) with hN
  have hN0 : 0 < N := Real.sqrt_pos.mpr hb
  have hN2 : N ^ 2 = ∑ k, b k ^ 2 := Real.sq_sqrt hb.le
  have hproj : ∀ r : ℝ, (projE E fun k => r * b k) = fun i => r * projE E b i := by
    intro r
    funext i
    unfold projE
    rw [Finset.mul_sum]
    exact Finset.sum_congr rfl fun k _ => by ring
  have hval : ∀ r : ℝ, r ^ 2 * N ^ 2 = 1 → r * (∑ i, projE E b i * q i) / (Real.sqrt (r ^ 2 * U) * Real.sqrt Q) ≤ (∑ i, projE E w i * q i) / (Real.sqrt T * Real.sqrt Q) := by
    intro r hr
    have h1 := hmax (fun k => r * b k) (by
      unfold UnitLen
      simp only [mul_pow, ← Finset.mul_sum]
      rw [← hN2, hr])
    rw [hproj] at h1
    simp only [mul_pow, mul_assoc, ← Finset.mul_sum] at h1
    exact h1
  have hsT := Real.sqrt_pos.mpr ht
  have hsQ := Real.sqrt_pos.mpr hQp
  have hsU := Real.sqrt_pos.mpr hUp
  have habs : |∑ i, projE E b i * q i| / (Real.sqrt U * Real.sqrt Q) ≤ (∑ i, projE E w i * q i) / (Real.sqrt T * Real.sqrt Q) := by
    have e : ∀ r : ℝ, (r = 1 / N ∨ r = -(1 / N)) → r * (∑ i, projE E b i * q i) / (Real.sqrt (r ^ 2 * U) * Real.sqrt Q) = r * N * (∑ i, projE E b i * q i) / (Real.sqrt U * Real.sqrt Q) := by
      intro r hr
      have h2 : Real.sqrt (r ^ 2 * U) = 1 / N * Real.sqrt U := by
        rw [Real.sqrt_mul (sq_nonneg r), Real.sqrt_sq_eq_abs]
        congr 1
        rcases hr with rfl | rfl
        · rw [abs_of_pos (by positivity)]
        · rw [abs_neg, abs_of_pos (by positivity)]
      rw [h2]
      field_simp
    have p1 := hval (1 / N) (by field_simp)
    have p2 := hval (-(1 / N)) (by field_simp)
    rw [e _ (.inl rfl)] at p1
    rw [e _ (.inr rfl)] at p2
    rw [one_div_mul_cancel hN0.ne', one_mul] at p1
    rw [neg_mul, one_div_mul_cancel hN0.ne', neg_one_mul] at p2
    rcases abs_cases (∑ i, projE E b i * q i) with ⟨h, -⟩ | ⟨h, -⟩ <;> rw [h]
    · exact p1
    · exact p2
  have hle : |∑ i, projE E b i * q i| * Real.sqrt T ≤ (∑ i, projE E w i * q i) * Real.sqrt U := by
    rw [div_le_div_iff₀ (by positivity) (by positivity)] at habs
    have : |∑ i, projE E b i * q i| * Real.sqrt T * Real.sqrt Q ≤ (∑ i, projE E w i * q i) * Real.sqrt U * Real.sqrt Q := by linarith
    exact le_of_mul_le_mul_right this hsQ
  have hsq := mul_self_le_mul_self (by positivity) hle
  have eT : Real.sqrt T * Real.sqrt T = T := Real.mul_self_sqrt ht.le
  have eU : Real.sqrt U * Real.sqrt U = U := Real.mul_self_sqrt hU0
  have ea := abs_mul_abs_self (∑ i, projE E b i * q i)
  calc (∑ i, projE E b i * q i) ^ 2 * T = |∑ i, projE E b i * q i| * |∑ i, projE E b i * q i| * (Real.sqrt T * Real.sqrt T) := by rw [ea, eT]; ring
    _ ≤ (∑ i, projE E w i * q i) * (∑ i, projE E w i * q i) * (Real.sqrt U * Real.sqrt U) := by linarith
    _ = (∑ i, projE E w i * q i) ^ 2 * U := by rw [eU]; ring

/-- **C185.** Projection pursuit with the correlation as index, least squares, `center='mean'` without trimming, and an optimiser that finds the direction of the largest correlation for the standardised data:
with one component or more, no linear function of the predictors fits the response better than the fitted values, so the model is the ordinary least squares model. -/
theorem C185_ols (hn : 2 ≤ n) (pr : PpParams) (hcen : pr.centre = .mean) (htr : pr.trimming = 0) (hcd : pr.centerData = true) (hh : 0 < pr.nComponents)
    (find : {n p : ℕ} → (Fin n → Fin p → ℝ) → (Fin p → ℝ)) (hopt : pr.optimizer = .ext find) (pinv : Pinv) (hp : IsGenInverse pinv)
    (d : Dicomo) (he : d.est = .arithmetic) (hm : d.mode = .corr) (hc : d.center = .mean) (a : FitArgs) (ht : a.trimming = 0) (ho : a.order = 2)
    (X : Fin n → Fin p → ℝ) (y : Fin n → ℝ) (f : PpFit n p) (h : ppFit pr pinv .ols (dicomoIndex2 d a) X y = .ok f)
    (hf : SolvesOnSphere (ppObjective (dicomoIndex2 d a (stdVec y f.yLoc f.ySca)) (stdMat X f.xLoc f.xSca)) (find (stdMat X f.xLoc f.xSca)))
    (b0 : ℝ) (b : Fin p → ℝ) : ∑ i, (y i - f.fitted i) ^ 2 ≤ ∑ i, (y i - (b0 + ∑ k, X i k * b k)) ^ 2 := by
  have hn' : (0 : ℝ) < n := by exact_mod_cast (by omega : 0 < n)
  obtain ⟨-, -, -, hmin⟩ := C83_least_squares pr pinv hp _ X y f h hcen htr hcd
  obtain ⟨Xs, ys, hXs, hys, hmX, hsX, hmy, hsy, -, -, hl, hs, -⟩ := ppFit_inv h
  simp only [hcd, if_true, hcen, htr, PpCentre.loc, ppMean_zero] at hXs hys hmX hmy hsX hsy
  set Z := stdMat X f.xLoc f.xSca with hZ
  have hZ0 : ∀ k, ∑ i, Z i k = 0 := by
    intro k
    rw [hZ]
    unfold stdMat std1
    simp only [hs k, if_false, ← Finset.sum_div]
    rw [hmX]
    simp only [pp_sum_center, zero_div]
  have e5 : ys = stdVec y f.yLoc f.ySca := by
    rw [hys]
    funext i
    unfold stdVec std1
    split <;> simp
  rw [scaleMat_eq] at hXs
  rw [hXs, e5, hopt] at hl
  set q := stdVec y f.yLoc f.ySca with hq
  set sy : ℝ := if f.ySca = 0 then 1 else f.ySca with hsyd
  have hsy0 : sy ≠ 0 := by rw [hsyd]; split_ifs with h0; exacts [one_ne_zero, h0]
  have hqy : ∀ i, y i - f.yLoc = sy * q i := by
    intro i
    have : q i = (y i - f.yLoc) / sy := by rw [← e5, hys]
    rw [this]
    field_simp
  have hq0 : ∑ i, q i = 0 := by
    have h1 : ∑ i, (y i - f.yLoc) = 0 := by rw [hmy]; exact pp_sum_center y
    simp only [hqy, ← Finset.mul_sum] at h1
    exact (mul_eq_zero.mp h1).resolve_left hsy0
  -- the first component
  obtain ⟨m, hm'⟩ : ∃ m, pr.nComponents = m + 1 := ⟨pr.nComponents - 1, by omega⟩
  rw [hm', ppLoop] at hl
  obtain ⟨o, ho'⟩ : ∃ o, ppDirection (.ext find) (dicomoIndex2 d a q) pr.squarePi Z = .ok (find Z, o) := by
    unfold ppDirection
    dsimp only
    have h1 : Real.sqrt (∑ k, find Z k ^ 2) = 1 := by rw [show ∑ k, find Z k ^ 2 = 1 from hf.1, Real.sqrt_one]
    rw [h1, if_neg one_ne_zero]
    simp only [div_one]
    exact ⟨_, rfl⟩
  rw [ho'] at hl
  dsimp only at hl
  set w := find Z with hw
  by_cases hT : ∑ i, projE Z w i ^ 2 = 0
  · rw [if_pos hT] at hl
    exact absurd hl (by simp)
  rw [if_neg hT] at hl
  have hTp : 0 < ∑ i, projE Z w i ^ 2 := lt_of_le_of_ne (Finset.sum_nonneg fun i _ => sq_nonneg _) (Ne.symm hT)
  obtain ⟨c0, l', hcomps, hc0⟩ : ∃ (c0 : PpComp n p) (l' : List (PpComp n p)), f.comps = c0 :: l' ∧ c0.t = projE Z w := by
    split at hl
    · exact absurd hl (by simp)
    · rename_i l' _
      exact ⟨_, l', (Except.ok.inj hl).symm, rfl⟩
  have hlen : 0 < f.comps.length := by rw [hcomps]; simp
  have hT0 : ∀ i, ppT f.comps i ⟨0, hlen⟩ = projE Z w i := by
    intro i
    have : f.comps.get ⟨0, hlen⟩ = c0 := by simp [hcomps]
    change (f.comps.get ⟨0, hlen⟩).t i = _
    rw [this, hc0]
  -- the correlations
  have hbest : ∀ u : Fin p → ℝ, (∑ i, projE Z u i * q i) ^ 2 * ∑ i, projE Z w i ^ 2 ≤ (∑ i, projE Z w i * q i) ^ 2 * ∑ i, projE Z u i ^ 2 := by
    refine best_corr (fun v hv => ?_) hTp
    have h2 := hf.2 v hv
    unfold ppObjective at h2
    rw [dicomoIndex2_corr hn he hm hc ht ho hq0 (sum_proj_zero hZ0 _), dicomoIndex2_corr hn he hm hc ht ho hq0 (sum_proj_zero hZ0 _)] at h2
    exact neg_le_neg_iff.mp h2
  -- the fit by the first component alone
  set r := (∑ i, projE Z w i * q i) / ∑ i, projE Z w i ^ 2 with hr
  have h1 := hmin f.yLoc (fun k => if k = ⟨0, hlen⟩ then sy * r else 0)
  have h2 : ∀ i, y i - Spec.affine (fun k => if k = ⟨0, hlen⟩ then sy * r else 0) f.yLoc (ppT f.comps i) = sy * (q i - r * projE Z w i) := by
    intro i
    unfold Spec.affine
    simp only [mul_ite, mul_zero, Finset.sum_ite_eq', Finset.mem_univ, if_true]
    rw [hT0]
    linear_combination hqy i
  simp only [h2, mul_pow, ← Finset.mul_sum] at h1
  refine h1.trans ?_
  -- the competitor in terms of the standardised data
  set bz : Fin p → ℝ := fun k => f.xSca k * b k / sy with hbz
  set g : ℝ := (f.yLoc - b0 - ∑ k, f.xLoc k * b k) / sy with hg
  have h3 : ∀ i, y i - (b0 + ∑ k, X i k * b k) = sy * (q i - projE Z bz i + g) := by
    intro i
    have hXk : ∀ k, X i k * b k = sy * (Z i k * bz k) + f.xLoc k * b k := by
      intro k
      have : Z i k = (X i k - f.xLoc k) / f.xSca k := by rw [hZ]; unfold stdMat std1; rw [if_neg (hs k)]
      rw [this, hbz]
      have := hs k
      field_simp
      ring
    have hp' : projE Z bz i = ∑ k, Z i k * bz k := rfl
    rw [hp', hg]
    simp only [hXk, Finset.sum_add_distrib, ← Finset.mul_sum]
    have := hqy i
    field_simp
    linear_combination this
  simp only [h3, mul_pow, ← Finset.mul_sum]
  refine mul_le_mul_of_nonneg_left ?_ (sq_nonneg sy)
  -- without the constant
  have h4 : ∑ i, (q i - projE Z bz i) ^ 2 ≤ ∑ i, (q i - projE Z bz i + g) ^ 2 := by
    have hz : ∑ i, (q i - projE Z bz i) = 0 := by rw [Finset.sum_sub_distrib, hq0, sum_proj_zero hZ0, sub_zero]
    have : ∑ i, (q i - projE Z bz i + g) ^ 2 = ∑ i, (q i - projE Z bz i) ^ 2 + 2 * g * ∑ i, (q i - projE Z bz i) + n * g ^ 2 := by
      rw [Finset.mul_sum, ← Finset.sum_add_distrib]
      have hc : (n : ℝ) * g ^ 2 = ∑ _i : Fin n, g ^ 2 := by simp
      rw [hc, ← Finset.sum_add_distrib]
      exact Finset.sum_congr rfl fun i _ => by ring
    rw [this, hz]
    nlinarith [mul_nonneg hn'.le (sq_nonneg g)]
  refine le_trans ?_ h4
  -- residual sums of squares
  set T := ∑ i, projE Z w i ^ 2 with hTd
  set Q := ∑ i, q i ^ 2 with hQd
  have e1 : ∑ i, (q i - r * projE Z w i) ^ 2 = Q - (∑ i, projE Z w i * q i) ^ 2 / T := by
    have : ∑ i, (q i - r * projE Z w i) ^ 2 = Q - 2 * r * (∑ i, projE Z w i * q i) + r ^ 2 * T := by
      rw [hQd, hTd, Finset.mul_sum, Finset.mul_sum, ← Finset.sum_sub_distrib, ← Finset.sum_add_distrib]
      exact Finset.sum_congr rfl fun i _ => by ring
    rw [this, hr]
    field_simp
    ring
  rw [e1]
  have h5 := rss_multiple q (projE Z bz) 1
  simp only [one_mul] at h5
  have h6 := hbest bz
  set U := ∑ i, projE Z bz i ^ 2 with hUd
  have hU0 : 0 ≤ U := Finset.sum_nonneg fun i _ => sq_nonneg _
  rcases hU0.eq_or_lt with h0 | hUp
  · have hz : ∀ i, projE Z bz i = 0 := fun i =>
      pow_eq_zero_iff two_ne_zero |>.mp ((Finset.sum_eq_zero_iff_of_nonneg fun i _ => sq_nonneg _).mp h0.symm i (Finset.mem_univ i))
    have : ∑ i, (q i - projE Z bz i) ^ 2 = Q := by rw [hQd]; exact Finset.sum_congr rfl fun i _ => by rw [hz, sub_zero]
    rw [this]
    have : 0 ≤ (∑ i, projE Z w i * q i) ^ 2 / T := by positivity
    linarith
  · have h7 : (∑ i, projE Z bz i * q i) ^ 2 / U ≤ (∑ i, projE Z w i * q i) ^ 2 / T := by
      rw [div_le_div_iff₀ hUp hTp]
      exact h6
    have h8 : Q - (∑ i, projE Z bz i * q i) ^ 2 / U ≤ ∑ i, (q i - projE Z bz i) ^ 2 := by
      rw [sub_le_iff_le_add, ← sub_le_iff_le_add', le_div_iff₀ hUp]
      linarith
    linarith

/-! ### The hypotheses can be met -/

def corrObj : Dicomo := ⟨.arithmetic, .corr, .mean, none⟩

/-- The direction of the first variable. -/
def firstAxis {n p : ℕ} (_ : Fin n → Fin p → ℝ) : Fin p → ℝ := fun k => if k.val = 0 then 1 else 0

noncomputable def olsPr : PpParams :=
  { nComponents := 1, trimming := 0, optimizer := .ext firstAxis, centre := .mean, centerData := true, scaleData := false, squarePi := false }

lemma ppExX_sum (k : Fin 2) : ∑ i, ppExX i k = 0 := by
  fin_cases k <;> simp [ppExX, Fin.sum_univ_succ]
  norm_num

lemma firstAxis_proj : projE ppExX (firstAxis ppExX) = plsY := by
  funext i
  fin_cases i <;> simp [projE, firstAxis, ppExX, plsY]

lemma plsY_sum : ∑ i, plsY i = 0 := by simp [plsY, Fin.sum_univ_succ]

/-- The first variable has correlation one with the response, so no direction is better. -/
lemma ols_solves : SolvesOnSphere (ppObjective (dicomoIndex2 corrObj {} plsY) ppExX) (firstAxis ppExX) := by
  refine ⟨by simp [UnitLen, firstAxis], fun v _ => ?_⟩
  unfold ppObjective
  rw [dicomoIndex2_corr (by norm_num) rfl rfl rfl rfl rfl plsY_sum (sum_proj_zero ppExX_sum _),
    dicomoIndex2_corr (by norm_num) rfl rfl rfl rfl rfl plsY_sum (sum_proj_zero ppExX_sum _), firstAxis_proj]
  have h2 : ∑ i, plsY i ^ 2 = 2 := by simp [plsY, Fin.sum_univ_succ]; norm_num
  have h3 : ∑ i, plsY i * plsY i = 2 := by simp [plsY, Fin.sum_univ_succ]; norm_num
  rw [h2, h3, Real.mul_self_sqrt (by norm_num), div_self (by norm_num)]
  refine neg_le_neg (div_le_one_of_le₀ ?_ (by positivity))
  rw [← h2, ← Real.sqrt_mul (Finset.sum_nonneg fun i _ => sq_nonneg _)]
  exact Real.le_sqrt_of_sq_le (Finset.sum_mul_sq_le_sq_mul_sq ..)

theorem olsExFit (pinv : Pinv) : ∃ f, ppFit olsPr pinv .ols (dicomoIndex2 corrObj {}) ppExX plsY = .ok f := by
  have hm : ∀ k, ppMean 0 (fun i => ppExX i k) = 0 := by
    intro k
    rw [ppMean_zero, mean_eq, ppExX_sum, zero_div]
  have hmy : ppMean 0 plsY = 0 := by rw [ppMean_zero, mean_eq, plsY_sum, zero_div]
  unfold ppFit
  rw [if_neg (by simp [olsPr]), if_neg (by simp [olsPr, trimOk]; norm_num)]
  dsimp only
  have hX : (if olsPr.centerData = true then
        scaleMat ppExX (fun k => if olsPr.centerData = true then olsPr.centre.loc olsPr.trimming fun i => ppExX i k else 0) fun k =>
          if olsPr.centerData = true then olsPr.centre.sca olsPr.scaleData olsPr.trimming fun i => ppExX i k else 1
      else ppExX) = ppExX := by
    split
    · funext i k
      simp only [scaleMat]
      simp [olsPr, PpCentre.loc, PpCentre.sca, hm]
    · rfl
  have hY : (if olsPr.centerData = true then (fun i => scaleMat (asCol plsY) (fun _ => if olsPr.centerData = true then olsPr.centre.loc olsPr.trimming plsY else 0)
      (fun _ => if olsPr.centerData = true then olsPr.centre.sca olsPr.scaleData olsPr.trimming plsY else 1) i 0) else plsY) = plsY := by
    split
    · funext i
      simp only [scaleMat]
      simp [olsPr, PpCentre.loc, PpCentre.sca, hmy, asCol]
    · rfl
  rw [hX, hY]
  obtain ⟨l, hl⟩ : ∃ l, ppLoop olsPr.optimizer (dicomoIndex2 corrObj {} plsY) olsPr.squarePi (PpReg.ols.run plsY plsY) 1 ppExX = .ok l := by
    refine ppLoop_ext_ok (find := firstAxis) ols_solves.1 ?_ ⟨[], rfl⟩
    change ∑ i, projE ppExX (firstAxis ppExX) i ^ 2 ≠ 0
    rw [firstAxis_proj]
    simp [plsY, Fin.sum_univ_succ]
  have hl' : ppLoop olsPr.optimizer (dicomoIndex2 corrObj {} plsY) olsPr.squarePi (PpReg.ols.run plsY plsY) olsPr.nComponents ppExX = .ok l := hl
  rw [hl']
  dsimp only
  rw [if_neg (by simp [olsPr, PpCentre.sca])]
  exact ⟨_, rfl⟩

/-- The hypotheses of C185 can be met, with two predictors and one component. -/
example : ∃ (pinv : Pinv) (f : PpFit 3 2), IsGenInverse pinv ∧ ppFit olsPr pinv .ols (dicomoIndex2 corrObj {}) ppExX plsY = .ok f ∧
    SolvesOnSphere (ppObjective (dicomoIndex2 corrObj {} (stdVec plsY f.yLoc f.ySca)) (stdMat ppExX f.xLoc f.xSca)) (firstAxis (stdMat ppExX f.xLoc f.xSca)) := by
  obtain ⟨pinv, hp⟩ := exists_pinv
  obtain ⟨f, hf⟩ := olsExFit pinv
  obtain ⟨Xs, ys, hXs, hys, hmX, hsX, hmy, hsy, -⟩ := ppFit_inv hf
  have hy : stdVec plsY f.yLoc f.ySca = plsY := by
    have h1 : f.yLoc = 0 := by
      rw [hmy]
      simp only [olsPr, PpCentre.loc, ppMean_zero, if_true]
      rw [mean_eq, plsY_sum, zero_div]
    have h2 : f.ySca = 1 := by rw [hsy]; simp [olsPr, PpCentre.sca]
    funext i
    simp [stdVec, std1, h1, h2]
  have hx : stdMat ppExX f.xLoc f.xSca = ppExX := by
    have h1 : ∀ k, f.xLoc k = 0 := by
      intro k
      rw [hmX]
      simp only [olsPr, PpCentre.loc, ppMean_zero, if_true]
      rw [mean_eq, ppExX_sum, zero_div]
    have h2 : ∀ k, f.xSca k = 1 := by intro k; rw [hsX]; simp [olsPr, PpCentre.sca]
    funext i k
    simp [stdMat, std1, h1, h2]
  refine ⟨pinv, f, hp, hf, ?_⟩
  rw [hx, hy]
  exact ols_solves

end Direpack
