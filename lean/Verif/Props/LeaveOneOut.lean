import Verif.Spec.LeaveOneOut
import Verif.Props.Steady
import Verif.Props.SaveSir
import Verif.Props.SudireCrit

/-! Property C198: with all components no case is fitted worse than it is predicted by the model without it. -/

namespace Direpack

open scoped BigOperators
open Spec

variable {n p : ℕ}

/-- Least squares with and without a case. -/
lemma Spec.OlsFitted.leave_out {X : Fin (n + 1) → Fin p → ℝ} {y u : Fin (n + 1) → ℝ} (i : Fin (n + 1)) (h : OlsFitted X y u) {a : ℝ} {b : Fin p → ℝ}
    (h' : OlsFitted (leaveOut i X) (leaveOut i y) (fun c => a + ∑ k, leaveOut i X c k * b k)) :
    (∃ t : ℝ, 0 ≤ t ∧ t ≤ 1 ∧ u i = (1 - t) * (a + ∑ k, X i k * b k) + t * y i) ∧ (y i = a + ∑ k, X i k * b k → ∀ c, u c = a + ∑ k, X c k * b k) := by
  set w : Fin (n + 1) → ℝ := fun c => a + ∑ k, X c k * b k with hw
  have h0 : OlsFitted X (fun c => if c = i then w i else y c) w := by
    refine .of_orth ⟨a, b, fun c => rfl⟩ fun a' b' => ?_
    rw [Fin.sum_univ_succAbove _ i, if_pos rfl, sub_self, zero_mul, zero_add]
    have := h'.orth a' b'
    rw [← this]
    refine Finset.sum_congr rfl fun c _ => ?_
    rw [if_neg (Fin.succAbove_ne i c)]
    rfl
  constructor
  · obtain ⟨t, t0, t1, ht⟩ := (h0.steady h).single i fun k hk => by rw [if_neg hk]
    rw [if_pos rfl] at ht
    exact ⟨t, t0, t1, by change u i = (1 - t) * w i + t * y i; linarith⟩
  · intro hy c
    have e : (fun c => if c = i then w i else y c) = y := by
      funext c
      by_cases hc : c = i
      · rw [if_pos hc, hc]; exact hy.symm
      · rw [if_neg hc]
    rw [e] at h0
    exact congrFun (C187_unique h h0) c

/-- From case by case to all cases. -/
lemma fittedNotWorse_of_each {y u q : Fin n → ℝ} (h : ∀ i, ∃ t : ℝ, 0 ≤ t ∧ t ≤ 1 ∧ u i = (1 - t) * q i + t * y i) : FittedNotWorse y u q := by
  have hr : ∀ i, |y i - u i| ≤ |y i - q i| := by
    intro i
    obtain ⟨t, t0, t1, ht⟩ := h i
    rw [ht, show y i - ((1 - t) * q i + t * y i) = (1 - t) * (y i - q i) by ring, abs_mul, abs_of_nonneg (by linarith)]
    exact mul_le_of_le_one_left (abs_nonneg _) (by linarith)
  exact ⟨h, hr, Finset.sum_le_sum fun i _ => sq_le_sq.mpr (hr i)⟩

/-- C198 (snipls about the means, with as many components as the rank of the predictors): leave-one-out predictions against fitted values; and a case whose response is
what the model without it predicts does not change the model. -/
theorem C198_snipls {pr : SnParams} (hn : 0 < n) (hm : pr.centre = .mean) {X : Fin (n + 1) → Fin p → ℝ} {y : Fin (n + 1) → ℝ} {f : SnFit (n + 1) p}
    {g : Fin (n + 1) → SnFit n p} (h : snFit pr X y = .ok f) (hg : ∀ i, snFit pr (leaveOut i X) (leaveOut i y) = .ok (g i)) (hs : f.ySca ≠ 0)
    (hsg : ∀ i, (g i).ySca ≠ 0) (hr : (Matrix.of (stdMat X f.xLoc f.xSca)).rank ≤ pr.nComponents)
    (hrg : ∀ i, (Matrix.of (stdMat (leaveOut i X) (g i).xLoc (g i).xSca)).rank ≤ pr.nComponents) :
    ∃ q : Fin (n + 1) → ℝ, (∀ i, (g i).predict (fun _ : Fin 1 => X i) = .ok fun _ => q i) ∧ FittedNotWorse y f.fitted q ∧
      ∀ i, y i = q i → (g i).predict X = .ok f.fitted := by
  have o := C187_snipls h n.succ_pos hm hs hr
  have og : ∀ i, OlsFitted (leaveOut i X) (leaveOut i y) (fun c => (g i).intercept + ∑ k, leaveOut i X c k * (g i).coef k) := by
    intro i
    have e : (g i).fitted = fun c => (g i).intercept + ∑ k, leaveOut i X c k * (g i).coef k := by
      funext c
      obtain ⟨-, -, -, -, -, -, -, -, -, -, hfit, -⟩ := snFit_inv (hg i)
      rw [hfit]; exact add_comm _ _
    rw [← e]
    exact C187_snipls (hg i) hn hm (hsg i) (hrg i)
  have hpred : ∀ i {m : ℕ} (Z : Fin m → Fin p → ℝ), (g i).predict Z = .ok fun c => (g i).intercept + ∑ k, Z c k * (g i).coef k := by
    intro i m Z
    rw [(C46_predict_affine (g i) Z).2]
    congr 1; funext c; exact add_comm _ _
  refine ⟨fun i => (g i).intercept + ∑ k, X i k * (g i).coef k, fun i => hpred i _, fittedNotWorse_of_each fun i => (o.leave_out i (og i)).1, fun i hi => ?_⟩
  rw [hpred]
  congr 1; funext c
  exact ((o.leave_out i (og i)).2 hi c).symm

/-- C198 (ppdire with least squares about the means, with as many components as the rank of the predictors), whatever index, optimiser and directions. -/
theorem C198_ppdire {pr : PpParams} (hm : pr.centre = .mean) (ht : pr.trimming = 0) (hc : pr.centerData = true) {pinv : Pinv} (hp : IsGenInverse pinv)
    {φ : (Fin (n + 1) → ℝ) → (Fin (n + 1) → ℝ) → ℝ} {φ' : Fin (n + 1) → (Fin n → ℝ) → (Fin n → ℝ) → ℝ} {X : Fin (n + 1) → Fin p → ℝ} {y : Fin (n + 1) → ℝ}
    {f : PpFit (n + 1) p} {g : Fin (n + 1) → PpFit n p} (h : ppFit pr pinv .ols φ X y = .ok f)
    (hg : ∀ i, ppFit pr pinv .ols (φ' i) (leaveOut i X) (leaveOut i y) = .ok (g i)) (hr : pr.nComponents = (Matrix.of (stdMat X f.xLoc f.xSca)).rank)
    (hrg : ∀ i, pr.nComponents = (Matrix.of (stdMat (leaveOut i X) (g i).xLoc (g i).xSca)).rank) :
    ∃ q : Fin (n + 1) → ℝ, (∀ i, (g i).predict (fun _ : Fin 1 => X i) = .ok fun _ => q i) ∧ FittedNotWorse y f.fitted q ∧
      ∀ i, y i = q i → (g i).predict X = .ok f.fitted := by
  have o := C187_ppdire pr hm ht hc pinv hp φ X y f h hr
  have hpred : ∀ i {m : ℕ} (Z : Fin m → Fin p → ℝ), (g i).predict Z = .ok fun c => (g i).intercept + ∑ k, Z c k * (g i).coef k := by
    intro i m Z
    rw [(C58_predict pr pinv .ols (φ' i) _ _ _ (hg i)).2.2 Z]
    congr 1; funext c; exact add_comm _ _
  have og : ∀ i, OlsFitted (leaveOut i X) (leaveOut i y) (fun c => (g i).intercept + ∑ k, leaveOut i X c k * (g i).coef k) := by
    intro i
    have e : (g i).fitted = fun c => (g i).intercept + ∑ k, leaveOut i X c k * (g i).coef k := by
      have h1 := (C58_predict pr pinv .ols (φ' i) _ _ _ (hg i)).1
      rw [hpred] at h1
      exact (Except.ok.inj h1).symm
    rw [← e]
    exact C187_ppdire pr hm ht hc pinv hp (φ' i) _ _ _ (hg i) (hrg i)
  refine ⟨fun i => (g i).intercept + ∑ k, X i k * (g i).coef k, fun i => hpred i _, fittedNotWorse_of_each fun i => (o.leave_out i (og i)).1, fun i hi => ?_⟩
  rw [hpred]
  congr 1; funext c
  exact ((o.leave_out i (og i)).2 hi c).symm

/-- The regression of a model whose scores are not constant has a constant term. -/
lemma SdObj.fit_k {ext : SdExt} {o o' : SdObj} {X : Fin n → Fin p → ℝ} {y : Fin n → ℝ} {f : SdFit n p} (h : o.fit ext X y = .ok (o', f))
    (hT : ¬ ∃ j, IsConstCol f.T j) : f.k = f.h + 1 := by
  obtain ⟨q, L, st', pm, T, -, -, -, -, -, rfl⟩ := SdObj.fit_ok h
  dsimp only at hT ⊢
  unfold addConstant
  rw [if_neg hT]

/-- C198 (sudire with as many directions as predictors, partial: the left out case has to be predicted together with the other cases, and no score may be constant). For the
prediction of the case alone see `C198_sudire_violated`. -/
theorem C198_sudire_partial {ext : SdExt} (hols : ∀ {n k : ℕ} (A : Fin n → Fin k → ℝ) (y : Fin n → ℝ), IsLeastSquares A y (ext.ols A y)) {o o1 : SdObj}
    {og og1 : Fin (n + 1) → SdObj} (hc : o.params.copy = true) (hcg : ∀ i, (og i).params.copy = true) {X : Fin (n + 1) → Fin p → ℝ} {y : Fin (n + 1) → ℝ}
    {f : SdFit (n + 1) p} {g : Fin (n + 1) → SdFit n p} (h : o.fit ext X y = .ok (o1, f)) (hg : ∀ i, (og i).fit ext (leaveOut i X) (leaveOut i y) = .ok (og1 i, g i))
    (hp : f.h = p) (hpg : ∀ i, (g i).h = p) (hT : ∀ i, ¬ ∃ j, IsConstCol (g i).T j) :
    ∃ (u : Fin (n + 1) → ℝ) (q : Fin (n + 1) → Fin (n + 1) → ℝ), f.predict X = .ok u ∧ (∀ i, (g i).predict X = .ok (q i)) ∧ FittedNotWorse y u (fun i => q i i) ∧
      ∀ i, y i = q i i → q i = u := by
  obtain ⟨u, hu, ou⟩ := C187_sudire hols hc h hp
  have key : ∀ i, ∃ (a : ℝ) (b : Fin p → ℝ), (g i).predict X = .ok (fun c => a + ∑ k, X c k * b k) ∧
      OlsFitted (leaveOut i X) (leaveOut i y) (fun c => a + ∑ k, leaveOut i X c k * b k) := by
    intro i
    obtain ⟨b0, b, hb⟩ := C93_predict_partial (g i) (SdObj.fit_k (hg i) (hT i))
    have hsc := fit_scores (hcg i) (hg i)
    have h1 : ¬ ∃ j, IsConstCol (matX (leaveOut i X) (g i).P) j := by
      have e : (g i).T = matX (leaveOut i X) (g i).P := hsc
      rw [← e]; exact hT i
    have h2 : ¬ ∃ j, IsConstCol (matX X (g i).P) j := by
      rintro ⟨j, h3, h4⟩
      exact h1 ⟨j, fun c c' => h3 (i.succAbove c) (i.succAbove c'), fun c => h4 (i.succAbove c)⟩
    have e : ∀ {m : ℕ} (Z : Fin m → Fin p → ℝ) c, b0 + ∑ j, (∑ k, Z c k * (g i).P k j) * b j = b0 + ∑ k, Z c k * ∑ j, (g i).P k j * b j := by
      intro m Z c
      simp only [Finset.sum_mul, Finset.mul_sum]
      rw [Finset.sum_comm]
      congr 1
      exact Finset.sum_congr rfl fun k _ => Finset.sum_congr rfl fun j _ => by ring
    refine ⟨b0, fun k => ∑ j, (g i).P k j * b j, ?_, ?_⟩
    · rw [hb X h2]; congr 1; funext c; exact e X c
    · obtain ⟨w, hw, ow⟩ := C187_sudire hols (hcg i) (hg i) (hpg i)
      rw [hb _ h1] at hw
      have := Except.ok.inj hw
      rw [← this] at ow
      have e' : (fun c => b0 + ∑ j, (∑ k, leaveOut i X c k * (g i).P k j) * b j) = fun c => b0 + ∑ k, leaveOut i X c k * ∑ j, (g i).P k j * b j :=
        funext fun c => e (leaveOut i X) c
      rw [e'] at ow
      exact ow
  choose a b hq hols' using key
  exact ⟨u, fun i c => a i + ∑ k, X c k * b i k, hu, hq, fittedNotWorse_of_each fun i => (ou.leave_out i (hols' i)).1, fun i hi =>
    funext fun c => ((ou.leave_out i (hols' i)).2 hi c).symm⟩

/-- C198 is violated by sudire if the left out case is predicted alone: `predict` raises an exception. -/
theorem C198_sudire_violated {ext : SdExt} {o o' : SdObj} {X : Fin (n + 1) → Fin p → ℝ} {y : Fin (n + 1) → ℝ} (i : Fin (n + 1)) {g : SdFit n p}
    (h : o.fit ext (leaveOut i X) (leaveOut i y) = .ok (o', g)) (hT : ¬ ∃ j, IsConstCol g.T j) {j : Fin g.h} (hj : ∑ k, X i k * g.P k j ≠ 0) :
    g.predict (fun _ : Fin 1 => X i) = .error .valueError :=
  C93_single_violated g (SdObj.fit_k h hT) _ j hj

/-! ### Examples -/

/-- Non-vacuity for snipls: three cases, each left out in turn. -/
example : ∃ (f : SnFit 3 1) (g : Fin 3 → SnFit 2 1) (q : Fin 3 → ℝ), snFit ⟨0, 1, .mean, .noneOpt⟩ ![![-1], ![0], ![1]] ![1, 0, 5] = .ok f ∧
    (∀ i, snFit ⟨0, 1, .mean, .noneOpt⟩ (leaveOut i ![![-1], ![0], ![1]]) (leaveOut i ![1, 0, 5]) = .ok (g i)) ∧ FittedNotWorse ![1, 0, 5] f.fitted q := by
  have fit : ∀ {n : ℕ} (X : Fin n → Fin 1 → ℝ) (y : Fin n → ℝ), ∃ f, snFit ⟨0, 1, .mean, .noneOpt⟩ X y = .ok f := fun X y =>
    C44_one_component_total ⟨0, 1, .mean, .noneOpt⟩ X y (by norm_num) (by norm_num) rfl (fun j => by simp [ScaleOpt.run])
  obtain ⟨f, hf⟩ := fit (![![-1], ![0], ![1]] : Fin 3 → Fin 1 → ℝ) ![1, 0, 5]
  choose g hg using fun i : Fin 3 => fit (leaveOut i (![![-1], ![0], ![1]] : Fin 3 → Fin 1 → ℝ)) (leaveOut i ![1, 0, 5])
  have e : f.ySca = 1 := (snFit_inv hf).2.2.2.2.1
  have eg : ∀ i, (g i).ySca = 1 := fun i => (snFit_inv (hg i)).2.2.2.2.1
  obtain ⟨q, -, h, -⟩ := C198_snipls (by norm_num) rfl hf hg (by rw [e]; exact one_ne_zero) (fun i => by rw [eg]; exact one_ne_zero) (Matrix.rank_le_width _)
    (fun i => Matrix.rank_le_width _)
  exact ⟨f, g, q, hf, hg, h⟩

/-- One component about the mean, without scaling. -/
def looPr : PpParams :=
  { nComponents := 1, trimming := 0, optimizer := .ext fun _ _ => 1, centre := .mean, centerData := true, scaleData := false, squarePi := false }

lemma looPr_fits {pinv : Pinv} (hp : IsGenInverse pinv) (φ : (Fin n → ℝ) → (Fin n → ℝ) → ℝ) {X : Fin n → Fin 1 → ℝ} (y : Fin n → ℝ) (hn : 0 < n)
    (h0 : ∑ i, (X i 0 - mean fun c => X c 0) ^ 2 ≠ 0) :
    ∃ f, ppFit looPr pinv .ols φ X y = .ok f ∧ looPr.nComponents = (Matrix.of (stdMat X f.xLoc f.xSca)).rank := by
  obtain ⟨f, hf, -⟩ := ppOne_fit (pr := looPr) rfl rfl (by simp [looPr, trimOk]; norm_num) hp (rg := .ols) (φ := φ) (X := X) (y := y) hn _ _ rfl rfl
    (by intro k; simp [looPr, PpCentre.sca]) (by simpa [looPr, PpCentre.sca, PpCentre.loc, scaleMat, ppMean_zero] using h0)
  exact ⟨f, hf, le_antisymm (C186_ppdire_full _ _ _ _ _ _ _ hf).1 (Matrix.rank_le_width _)⟩

/-- Non-vacuity for ppdire. -/
example : ∃ (pinv : Pinv) (f : PpFit 3 1) (g : Fin 3 → PpFit 2 1) (q : Fin 3 → ℝ), IsGenInverse pinv ∧
    ppFit looPr pinv .ols (fun _ t => t 0) ![![0], ![1], ![3]] ![1, 0, 5] = .ok f ∧
    (∀ i, ppFit looPr pinv .ols (fun _ t => t 0) (leaveOut i ![![0], ![1], ![3]]) (leaveOut i ![1, 0, 5]) = .ok (g i)) ∧ FittedNotWorse ![1, 0, 5] f.fitted q := by
  obtain ⟨pinv, hp⟩ := exists_pinv
  obtain ⟨f, hf, hr⟩ := looPr_fits hp (fun _ t => t 0) (X := (![![0], ![1], ![3]] : Fin 3 → Fin 1 → ℝ)) ![1, 0, 5] (by norm_num)
    (by simp [mean_eq, Fin.sum_univ_succ]; norm_num)
  choose g hg hrg using fun i : Fin 3 => looPr_fits hp (fun _ t => t 0) (X := leaveOut i (![![0], ![1], ![3]] : Fin 3 → Fin 1 → ℝ)) (leaveOut i ![1, 0, 5]) (by norm_num)
    (by fin_cases i <;> simp [mean_eq, leaveOut, Fin.sum_univ_succ, Fin.succAbove] <;> norm_num)
  obtain ⟨q, -, h, -⟩ := C198_ppdire rfl rfl rfl hp hf hg hr hrg
  exact ⟨pinv, f, g, q, hp, hf, hg, h⟩

/-- The external routines of the example for sudire. -/
noncomputable def looExt (eigh : Eigh) : SdExt := { exExt eigh with ols := fun A y => Classical.choose (exists_leastSquares A y) }

/-- Two predictors that have no constant combination can be reduced to two components. -/
lemma loo_fits {eigh : Eigh} (he : IsEigh eigh) (hn : 2 ≤ n) {X : Fin n → Fin 2 → ℝ}
    (hX : ∀ v : Fin 2 → ℝ, (∀ c c', ∑ k, X c k * v k = ∑ k, X c' k * v k) → v = 0) (y : Fin n → ℝ) :
    ∃ o f, (SdObj.new iht2Params).fit (looExt eigh) X y = .ok (o, f) ∧ f.h = 2 ∧ (¬ ∃ j, IsConstCol f.T j) ∧ ∀ x : Fin 2 → ℝ, x ≠ 0 → ∃ j, ∑ k, x k * f.P k j ≠ 0 := by
  have hpd : ∀ v, v ≠ 0 → 0 < quad (covMat X) v := by
    intro v hv
    have h1 := covMat_proj hn X v
    have hn1 : (0 : ℝ) < (n : ℝ) - 1 := by
      have : (2 : ℝ) ≤ n := by exact_mod_cast hn
      linarith
    by_contra hq
    have h2 : ∑ c, (∑ j, sdrCentre true X c j * v j) ^ 2 = 0 :=
      le_antisymm (by rw [h1]; exact mul_nonpos_of_nonneg_of_nonpos hn1.le (not_lt.mp hq)) (Finset.sum_nonneg fun c _ => sq_nonneg _)
    have h3 : ∀ c, ∑ j, sdrCentre true X c j * v j = 0 := fun c =>
      pow_eq_zero_iff two_ne_zero |>.mp ((Finset.sum_eq_zero_iff_of_nonneg fun i _ => sq_nonneg _).mp h2 c (Finset.mem_univ _))
    have h4 : ∀ c, ∑ k, X c k * v k = ∑ k, (mean fun i => X i k) * v k := by
      intro c
      have := h3 c
      simp only [sdrCentre, if_true, sub_mul, Finset.sum_sub_distrib] at this
      linarith
    exact hv (hX v fun c c' => by rw [h4, h4])
  obtain ⟨S, hS⟩ := invSqrt_pd he (covMat_symm X) hpd
  have hq : ∃ q, sdPre (looExt eigh) iht2Params X = .ok q := by
    have hroot : (looExt eigh).rootInv (covMat X) = .ok S := hS
    rw [sdPre, if_neg (by simp [iht2Params]; omega), if_neg (by omega), hroot]
    dsimp only
    rw [if_neg]
    · exact ⟨_, rfl⟩
    · rw [not_not]
      refine ⟨le_rfl, ?_, Or.inl rfl⟩
      simp only [iht2Params]
      norm_num
  obtain ⟨q, hq⟩ := hq
  set M := ihtCols eigh q.Xs y * (ihtCols eigh q.Xs y).transpose with hM
  have horth := leading_orth he (M := M) (by rw [hM, Matrix.transpose_mul, Matrix.transpose_transpose]) 2
  have key : sdDirections (looExt eigh) iht2Params ((SdObj.new iht2Params).state.setX0 true X) q y =
      .ok (⟨2, leading eigh M 2⟩, (SdObj.new iht2Params).state.setX0 true X) := by
    unfold sdDirections
    simp only [iht2Params]
    unfold iht
    rw [if_neg (by omega)]
    simp only [sdrRoot, sdrBack, sdMapBack, sdrScale, sdrCentre]
    rfl
  have hpm : ∃ pm, projMat (leading eigh M 2) = .ok pm := by
    unfold projMat
    have : IsUnit ((leading eigh M 2).transpose * leading eigh M 2).det := by
      rw [horth, Matrix.det_one]
      exact isUnit_one
    rw [if_pos this]
    exact ⟨_, rfl⟩
  obtain ⟨pm, hpm⟩ := hpm
  have hT : ¬ ∃ j, IsConstCol (matX X (leading eigh M 2)) j := by
    rintro ⟨j, hj, -⟩
    have h0 := hX (fun k => leading eigh M 2 k j) hj
    have h1 := congrFun (congrFun horth j) j
    rw [Matrix.mul_apply, Matrix.one_apply_eq] at h1
    simp only [Matrix.transpose_apply] at h1
    have h2 : ∀ k, leading eigh M 2 k j = 0 := fun k => congrFun h0 k
    simp [h2] at h1
  have hP : ∀ x : Fin 2 → ℝ, x ≠ 0 → ∃ j, ∑ k, x k * leading eigh M 2 k j ≠ 0 := by
    intro x hx
    by_contra hall
    push Not at hall
    obtain ⟨P, hPdef⟩ : ∃ P : Matrix (Fin 2) (Fin 2) ℝ, P = leading eigh M 2 := ⟨_, rfl⟩
    have h1 : P.transpose * P = 1 := by rw [hPdef]; exact horth
    have h2 : Matrix.vecMul x P = 0 := by
      funext j
      rw [hPdef]
      exact hall j
    apply hx
    have h3 : Matrix.vecMul (Matrix.vecMul x P) P.transpose = x := by
      rw [Matrix.vecMul_vecMul, mul_eq_one_comm.mp h1, Matrix.vecMul_one]
    rw [← h3, h2, Matrix.zero_vecMul]
  have hfit : ∃ o f, (SdObj.new iht2Params).fit (looExt eigh) X y = .ok (o, f) ∧ f.h = 2 ∧ (¬ ∃ j, IsConstCol f.T j) ∧ ∀ x : Fin 2 → ℝ, x ≠ 0 → ∃ j, ∑ k, x k * f.P k j ≠ 0 := by
    unfold SdObj.fit
    have hwp : (SdObj.new iht2Params).params.whitened = iht2Params := rfl
    have hcp : iht2Params.copy = true := rfl
    dsimp only
    rw [hwp, hq, hcp]
    dsimp only
    rw [key]
    dsimp only
    erw [hpm]
    dsimp only
    have e2 : ((SdObj.new iht2Params).state.setX0 true X).x0 = some ⟨n, 2, X⟩ := rfl
    rw [e2, sdScores_self]
    dsimp only
    rw [if_neg (by simp [iht2Params])]
    exact ⟨_, _, rfl, rfl, hT, hP⟩
  exact hfit

/-- Non-vacuity for sudire: the corners of a square, each left out in turn. -/
example : ∃ (ext : SdExt) (f : SdFit 4 2) (g : Fin 4 → SdFit 3 2) (u : Fin 4 → ℝ) (q : Fin 4 → Fin 4 → ℝ),
    f.predict ![![0, 0], ![0, 1], ![1, 0], ![1, 1]] = .ok u ∧ (∀ i, ∃ o, (SdObj.new iht2Params).fit ext (leaveOut i ![![0, 0], ![0, 1], ![1, 0], ![1, 1]])
      (leaveOut i ![1, 0, 5, 7]) = .ok (o, g i)) ∧ FittedNotWorse ![1, 0, 5, 7] u (fun i => q i i) := by
  obtain ⟨eigh, he⟩ := exists_eigh
  obtain ⟨o, f, hf, hp, -, -⟩ := loo_fits he (X := (![![0, 0], ![0, 1], ![1, 0], ![1, 1]] : Fin 4 → Fin 2 → ℝ)) (by norm_num) (fun v hv => by
    have h1 := hv 0 1
    have h2 := hv 0 2
    simp [Fin.sum_univ_succ] at h1 h2
    funext k; fin_cases k
    · exact h2.symm
    · exact h1.symm) ![1, 0, 5, 7]
  choose og g hg hpg hT hP using fun i : Fin 4 => loo_fits he (X := leaveOut i (![![0, 0], ![0, 1], ![1, 0], ![1, 1]] : Fin 4 → Fin 2 → ℝ)) (by norm_num) (fun v hv => by
    have h1 := hv 0 1
    have h2 := hv 0 2
    fin_cases i <;> simp [Fin.sum_univ_succ, leaveOut, Fin.succAbove] at h1 h2 <;> (funext k; fin_cases k <;> simp <;> linarith)) (leaveOut i ![1, 0, 5, 7])
  obtain ⟨u, q, hu, -, h, -⟩ := C198_sudire_partial (ext := looExt eigh) (fun A y => Classical.choose_spec (exists_leastSquares A y)) rfl (fun i => rfl) hf hg hp hpg hT
  exact ⟨looExt eigh, f, g, u, q, hu, fun i => ⟨og i, hg i⟩, h⟩

/-- Non-vacuity of the violation: the last corner of the square, left out and predicted alone. -/
example : ∃ (ext : SdExt) (o : SdObj) (g : SdFit 3 2), (SdObj.new iht2Params).fit ext (leaveOut 3 ![![0, 0], ![0, 1], ![1, 0], ![1, 1]]) (leaveOut 3 ![1, 0, 5, 7]) = .ok (o, g) ∧
    g.predict (fun _ : Fin 1 => (![1, 1] : Fin 2 → ℝ)) = .error .valueError := by
  obtain ⟨eigh, he⟩ := exists_eigh
  obtain ⟨o, g, hg, -, hT, hP⟩ := loo_fits he (X := leaveOut 3 (![![0, 0], ![0, 1], ![1, 0], ![1, 1]] : Fin 4 → Fin 2 → ℝ)) (by norm_num) (fun v hv => by
    have h1 := hv 0 1
    have h2 := hv 0 2
    simp [Fin.sum_univ_succ, leaveOut, Fin.succAbove] at h1 h2
    funext k; fin_cases k <;> simp <;> linarith) (leaveOut 3 ![1, 0, 5, 7])
  obtain ⟨j, hj⟩ := hP ![1, 1] (fun h => by simpa using congrFun h 0)
  exact ⟨looExt eigh, o, g, hg, C198_sudire_violated (X := ![![0, 0], ![0, 1], ![1, 0], ![1, 1]]) 3 hg hT hj⟩

end Direpack
