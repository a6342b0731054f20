import Verif.Props.DicomoDist2

/-! C36: exactly when the two algorithms for distance statistics agree. -/

namespace Direpack

open scoped BigOperators
open Spec

namespace Spec

/-- The unbiased estimate of the squared distance covariance (Székely and Rizzo): the sum of the products of the U-centred distances divided by `n (n - 3)`. -/
noncomputable def unbiasedDcov2 {n p q : ℕ} (x : Fin n → Fin p → ℝ) (y : Fin n → Fin q → ℝ) : ℝ :=
  (∑ i, ∑ j, ucen (fun i j => rowDist (x i) (x j)) i j * ucen (fun i j => rowDist (y i) (y j)) i j) / ((n : ℝ) * ((n : ℝ) - 3))

end Spec

lemma udcovSqr_eq {n p q : ℕ} (x : Fin n → Fin p → ℝ) (y : Fin n → Fin q → ℝ) : udcovSqr x y = unbiasedDcov2 x y := rfl

lemma unbiasedDcov2_self {n p : ℕ} (hn : 4 ≤ n) (x : Fin n → Fin p → ℝ) : 0 ≤ unbiasedDcov2 x x := by
  have h : (4 : ℝ) ≤ n := by exact_mod_cast hn
  refine div_nonneg (Finset.sum_nonneg fun i _ => Finset.sum_nonneg fun j _ => mul_self_nonneg _) (mul_nonneg (by linarith) (by linarith))

lemma dmoment_true {n p q : ℕ} (hn : 4 ≤ n) (same : Bool) (n1 : ℝ) (opt : ℕ) (x : Fin n → Fin p → ℝ) (y : Fin n → Fin q → ℝ) :
    distanceMoment same .mean 0 true n1 2 opt (ucen (edist x)) (ucen (edist y)) =
      .ok (√|unbiasedDcov2 x y|, ucen (edist x), ucen (edist y)) := by
  have h : (4 : ℝ) ≤ n := by exact_mod_cast hn
  rw [distanceMoment_two]
  have : (∑ i, ∑ j, ucen (edist x) i j * ucen (edist y) i j) / (n : ℝ) ^ 2 * corr4bias n n1 0 true = unbiasedDcov2 x y := by
    unfold corr4bias unbiasedDcov2
    simp only [if_true]
    rw [div_mul_div_cancel₀ (by positivity)]
    rfl
  rw [this]

lemma dm_true {n p : ℕ} (hn : 0 < n) (x : Fin n → Fin p → ℝ) : distMatCentered .mean 0 true x = .ok (ucen (edist x), n) :=
  doubleCenter_true hn _

/-- C36 (partial, without trimming and with bias correction): on at least four cases, with `U` the unbiased squared distance covariance, the fast algorithm gives `√U`, and
NaN (modelled as a failure) if `U` is negative; the naive algorithm gives `√|U|`.  So they agree exactly if `U` is not negative. -/
theorem C36_biascorr_cov_partial {n p q : ℕ} (hn : 4 ≤ n) (a : FitArgs) (ht : a.trimming = 0) (hb : a.biascorr = true) (hy : a.y1d = false)
    (x : Fin n → Fin p → ℝ) (y : Fin n → Fin q → ℝ) :
    run .distance .cov .mean { a with fast := true } (dmat x) (dmat y) = (if unbiasedDcov2 x y < 0 then .error .other else .ok √(unbiasedDcov2 x y)) ∧
    run .distance .cov .mean { a with fast := false } (dmat x) (dmat y) = .ok √|unbiasedDcov2 x y| ∧
    (run .distance .cov .mean { a with fast := true } (dmat x) (dmat y) = run .distance .cov .mean { a with fast := false } (dmat x) (dmat y) ↔
      0 ≤ unbiasedDcov2 x y) := by
  have hn0 : 0 < n := by omega
  have h1 : run .distance .cov .mean { a with fast := true } (dmat x) (dmat y) =
      (if unbiasedDcov2 x y < 0 then .error .other else .ok √(unbiasedDcov2 x y)) := by
    refine (run_distance hn0 .cov .mean { a with fast := true } x y ⟨by simp [modeTable], by simp [modeTable]⟩ rfl).trans ?_
    simp only [modeTable]
    rw [if_pos (by simp [ht])]
    unfold fastStage finalStage
    simp only [bind, Except.bind, if_true, reduceCtorEq, if_false, getY_dmat hn0, hb, udcovSqr_eq, isCoMode, Bool.false_eq_true, false_and, or_self, decide_false]
    unfold sqrtE
    split_ifs <;> rfl
  have h2 : run .distance .cov .mean { a with fast := false } (dmat x) (dmat y) = .ok √|unbiasedDcov2 x y| := by
    refine (run_distance hn0 .cov .mean { a with fast := false } x y ⟨by simp [modeTable], by simp [modeTable]⟩ rfl).trans ?_
    simp only [modeTable]
    rw [if_neg (by simp)]
    unfold naiveStage finalStage
    simp only [bind, Except.bind, if_true, reduceCtorEq, if_false, getY_dmat hn0, ht, hb, hy, dm_true hn0, dmoment_true hn, isCoMode, or_self, decide_false,
      Bool.false_eq_true, false_and, lt_irrefl]
  refine ⟨h1, h2, ?_⟩
  rw [h1, h2]
  by_cases h : unbiasedDcov2 x y < 0
  · rw [if_pos h]
    exact ⟨fun hh => by simp at hh, fun hh => absurd h (not_lt.mpr hh)⟩
  · rw [if_neg h, abs_of_nonneg (not_lt.mp h)]
    exact ⟨fun _ => not_lt.mp h, fun _ => rfl⟩

/-- C36: with bias correction the two algorithms give the same distance variance, on at least four cases. -/
theorem C36_biascorr_var {n p q : ℕ} (hn : 4 ≤ n) (a : FitArgs) (ht : a.trimming = 0) (hb : a.biascorr = true)
    (x : Fin n → Fin p → ℝ) (y : Fin n → Fin q → ℝ) :
    run .distance .var .mean { a with fast := true } (dmat x) (dmat y) = .ok √(unbiasedDcov2 x x) ∧
    run .distance .var .mean { a with fast := false } (dmat x) (dmat y) = .ok √(unbiasedDcov2 x x) := by
  have hn0 : 0 < n := by omega
  have hU := unbiasedDcov2_self hn x
  constructor
  · refine (run_distance hn0 .var .mean { a with fast := true } x y ⟨by simp [modeTable], by simp [modeTable]⟩ rfl).trans ?_
    simp only [modeTable]
    rw [if_pos (by simp [ht])]
    unfold fastStage finalStage
    simp only [bind, Except.bind, if_true, reduceCtorEq, if_false, hb, udcovSqr_eq, isCoMode, Bool.false_eq_true, false_and, or_self, decide_false, sqrtE_nonneg hU]
  · refine (run_distance hn0 .var .mean { a with fast := false } x y ⟨by simp [modeTable], by simp [modeTable]⟩ rfl).trans ?_
    simp only [modeTable]
    rw [if_neg (by simp)]
    unfold naiveStage finalStage
    simp only [bind, Except.bind, if_true, reduceCtorEq, if_false, ht, hb, dm_true hn0, dmoment_true hn, isCoMode, isStdMode, or_self, decide_false,
      Bool.false_eq_true, false_and, lt_irrefl, abs_of_nonneg hU]

/-- C36 (partial, without trimming and with bias correction): distance correlations.  The fast algorithm fails if the unbiased squared covariance is negative, and otherwise
agrees with the naive one. -/
theorem C36_biascorr_corr_partial {n p q : ℕ} (hn : 4 ≤ n) (a : FitArgs) (ht : a.trimming = 0) (hb : a.biascorr = true) (ho : a.order = 2) (hy : a.y1d = false)
    (x : Fin n → Fin p → ℝ) (y : Fin n → Fin q → ℝ) :
    run .distance .corr .mean { a with fast := false } (dmat x) (dmat y)
      = .ok (√|unbiasedDcov2 x y| / (√√(unbiasedDcov2 x x) * √√(unbiasedDcov2 y y))) ∧
    (run .distance .corr .mean { a with fast := true } (dmat x) (dmat y) = run .distance .corr .mean { a with fast := false } (dmat x) (dmat y) ↔
      0 ≤ unbiasedDcov2 x y) := by
  have hn0 : 0 < n := by omega
  have hx := unbiasedDcov2_self hn x
  have hy' := unbiasedDcov2_self hn y
  have h2 : run .distance .corr .mean { a with fast := false } (dmat x) (dmat y)
      = .ok (√|unbiasedDcov2 x y| / (√√(unbiasedDcov2 x x) * √√(unbiasedDcov2 y y))) := by
    refine (run_distance hn0 .corr .mean { a with fast := false } x y ⟨by simp [modeTable], by simp [modeTable]⟩ rfl).trans ?_
    simp only [modeTable]
    rw [if_neg (by simp)]
    unfold naiveStage finalStage
    simp only [bind, Except.bind, if_true, reduceCtorEq, if_false, getY_dmat hn0, ht, hb, hy, ho, dm_true hn0, dmoment_true hn, isCoMode, isStdMode, or_self, or_false,
      decide_false, Bool.false_eq_true, false_and, lt_irrefl, abs_of_nonneg hx, abs_of_nonneg hy', sqrtE_nonneg (Real.sqrt_nonneg _)]
  have h1 : run .distance .corr .mean { a with fast := true } (dmat x) (dmat y) =
      (if unbiasedDcov2 x y < 0 then .error .other else .ok (√(unbiasedDcov2 x y) / (√√(unbiasedDcov2 x x) * √√(unbiasedDcov2 y y)))) := by
    refine (run_distance hn0 .corr .mean { a with fast := true } x y ⟨by simp [modeTable], by simp [modeTable]⟩ rfl).trans ?_
    simp only [modeTable]
    rw [if_pos (by simp [ht, ho])]
    unfold fastStage finalStage
    simp only [bind, Except.bind, if_true, reduceCtorEq, if_false, getY_dmat hn0, hb, udcovSqr_eq, isCoMode, Bool.false_eq_true, false_and, or_self, decide_false,
      sqrtE_nonneg hx, sqrtE_nonneg hy']
    by_cases h : unbiasedDcov2 x y < 0
    · rw [if_pos h]
      simp only [sqrtE, if_pos h]
    · rw [if_neg h, sqrtE_nonneg (not_lt.mp h)]
      simp only [sqrtE_nonneg (Real.sqrt_nonneg _)]
  refine ⟨h2, ?_⟩
  rw [h1, h2]
  by_cases h : unbiasedDcov2 x y < 0
  · rw [if_pos h]
    exact ⟨fun hh => by simp at hh, fun hh => absurd h (not_lt.mpr hh)⟩
  · rw [if_neg h, abs_of_nonneg (not_lt.mp h)]
    exact ⟨fun _ => not_lt.mp h, fun _ => rfl⟩

/-- C36: with trimming or with the median as centre, the choice of the algorithm makes no difference to any statistic. -/
theorem C36_other_settings (m : Mode) (c : Loc) (a : FitArgs) (h : a.trimming ≠ 0 ∨ (c = .median ∧ forcesMean m = false)) (x y : DMat) :
    run .distance m c { a with fast := true } x y = run .distance m c { a with fast := false } x y := by
  have key : ∀ d, d = .mean → (if forcesMean m then Loc.mean else c) = d → a.trimming ≠ 0 := by
    intro d hd hm
    rcases h with h | ⟨h, h'⟩
    · exact h
    · rw [h', h] at hm; simp at hm; rw [← hm] at hd; simp at hd
  unfold run
  have : ∀ d, (d = .mean → a.trimming ≠ 0) → Dicomo.compute .distance m d { a with fast := true, y := some y } x
      = Dicomo.compute .distance m d { a with fast := false, y := some y } x := by
    intro d hd
    unfold Dicomo.compute
    cases d with
    | mean => simp only [hd rfl, false_and, and_false, if_false]; rfl
    | median => simp only [reduceCtorEq, false_and, and_false, if_false]; rfl
  unfold Dicomo.fit
  simp only
  rw [this _ fun hd => key _ hd rfl]
  
end Direpack
