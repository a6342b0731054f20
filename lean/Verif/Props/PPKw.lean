import Verif.PPKw
import Verif.Props.Dicomo2

/-! Property C171: the arguments given to `ppdire.fit` reach the projection index. -/

namespace Direpack

open scoped BigOperators
open Spec

/-- What is asked for: the statistic of the scores and the response with all arguments given. -/
noncomputable def Spec.askedIndex (est : Est) (center : Loc) (alpha trimming : ℝ) (m : Mode) (kw : PpKw) {n : ℕ} (ys t : Fin n → ℝ) : Except Err ℝ :=
  run est m center { alpha := alpha, trimming := trimming, biascorr := kw.biascorr.getD false, option := kw.option.getD 1, order := kw.order.getD 2 } (colMat t) (colMat ys)

/-- C171: the mode, the centre, the estimator, the trimming fraction, alpha and the bias correction reach the index: if neither `option` nor `order` is given, the index is the statistic
asked for. -/
theorem C171_arguments_partial (est : Est) (center : Loc) (alpha trimming : ℝ) (m : Mode) (kw : PpKw) (h1 : kw.option = none) (h2 : kw.order = none) {n : ℕ} (ys t : Fin n → ℝ) :
    ppIndexValue est center alpha trimming (some m) kw (some ys) t = askedIndex est center alpha trimming m kw ys t := by
  unfold askedIndex
  rw [h1, h2]
  rfl

/-- C171: the same for any values of `option` and `order`, whenever they have no meaning for the mode: variance, covariance, correlation. -/
theorem C171_second_order {n : ℕ} (hn : 0 < n) (center : Loc) (alpha trimming : ℝ) {m : Mode} (hm : m = .var ∨ m = .cov) (kw : PpKw) (ys t : Fin n → ℝ) :
    ppIndexValue .arithmetic center alpha trimming (some m) kw (some ys) t = askedIndex .arithmetic center alpha trimming m kw ys t := by
  have e : ppIndexValue .arithmetic center alpha trimming (some m) kw (some ys) t =
      run .arithmetic m center { alpha := alpha, trimming := trimming, biascorr := kw.biascorr.getD false } (colMat t) (colMat ys) := rfl
  rw [e]
  unfold askedIndex
  rcases hm with rfl | rfl
  · rw [run_mom hn .var (Or.inr rfl), run_mom hn .var (Or.inr rfl)]
    rfl
  · rw [run_cov hn, run_cov hn]

/-- C171 is violated for `option`: with co-skewness as index, `fit(X, y=y, option=2)` computes CoS(x,x,y) and not CoS(x,y,y).  For the scores (-1,0,1) and the response (1,-2,1) the
index asked for is 0 and the one computed is not. -/
theorem C171_option_violated : ∃ (t ys : Fin 3 → ℝ) (kw : PpKw), kw.option = some 2 ∧ askedIndex .arithmetic .mean 1 0 .cos kw ys t = .ok 0 ∧
    ∃ v, 0 < v ∧ ppIndexValue .arithmetic .mean 1 0 (some .cos) kw (some ys) t = .ok v := by
  have hT : TrimOK 3 0 := by unfold TrimOK; norm_num
  have ax : avg (![-1, 0, 1] : Fin 3 → ℝ) = 0 := by simp [avg, Fin.sum_univ_three]
  have ay : avg (![1, -2, 1] : Fin 3 → ℝ) = 0 := by simp [avg, Fin.sum_univ_three]; norm_num
  have c1 : trimMom .mean (![-1, 0, 1] : Fin 3 → ℝ) ![1, -2, 1] 3 0 1 false = .ok (2 / 3) := by
    rw [trimMom_mean0 _ _ _ (by norm_num), momFactor_false, mul_one]
    congr 1
    simp [exps, cmom, ax, ay, avg, Fin.sum_univ_three]
    norm_num
  have c2 : trimMom .mean (![-1, 0, 1] : Fin 3 → ℝ) ![1, -2, 1] 3 0 2 false = .ok 0 := by
    rw [trimMom_mean0 _ _ _ (by norm_num), momFactor_false, mul_one]
    congr 1
    simp [exps, cmom, ax, ay, avg, Fin.sum_univ_three]
  have vx : ∀ o, trimMom .mean (![-1, 0, 1] : Fin 3 → ℝ) ![-1, 0, 1] 2 0 o false = .ok (2 / 3) := by
    intro o
    rw [trimMom_mean0 _ _ _ le_rfl, momFactor_false, mul_one]
    congr 1
    simp [exps, cmom, ax, avg, Fin.sum_univ_three]
    norm_num
  have vy : ∀ o, trimMom .mean (![1, -2, 1] : Fin 3 → ℝ) ![1, -2, 1] 2 0 o false = .ok 2 := by
    intro o
    rw [trimMom_mean0 _ _ _ le_rfl, momFactor_false, mul_one]
    congr 1
    simp [exps, cmom, ay, avg, Fin.sum_univ_three]
    norm_num
  refine ⟨![-1, 0, 1], ![1, -2, 1], { option := some 2 }, rfl, ?_, ?_⟩
  · refine (run_co (by norm_num) .cos (Or.inl rfl) .mean { option := 2 } rfl rfl _ _ 0 (2 / 3) 2 c2 (vx _) (vy _) (by norm_num) (by norm_num)).trans ?_
    simp
  · refine ⟨_, ?_, run_co (by norm_num) .cos (Or.inl rfl) .mean {} rfl rfl _ _ (2 / 3) (2 / 3) 2 c1 (vx _) (vy _) (by norm_num) (by norm_num)⟩
    rw [if_neg (by simp)]
    positivity

/-- C171 is violated for `order`: with `mode='mom'` the index is the variance, also if `order=3` is given; for the scores (0,0,6) the third central moment is 16 and
the variance 8. -/
theorem C171_order_violated : ∃ (t : Fin 3 → ℝ) (kw : PpKw), kw.order = some 3 ∧ askedIndex .arithmetic .mean 1 0 .mom kw t t = .ok 16 ∧
    ppIndexValue .arithmetic .mean 1 0 (some .mom) kw (some t) t = .ok 8 := by
  have ax : avg (![0, 0, 6] : Fin 3 → ℝ) = 2 := by simp [avg, Fin.sum_univ_three]; norm_num
  refine ⟨![0, 0, 6], { order := some 3 }, rfl, ?_, ?_⟩
  · refine (run_momk (by norm_num) .mean { order := 3 } _ _).trans ?_
    rw [trimMom_mean0 _ _ _ (by norm_num), momFactor_false, mul_one]
    congr 1
    simp [exps, cmom, ax, avg, Fin.sum_univ_three]
    norm_num
  · refine (run_momk (by norm_num) .mean {} _ _).trans ?_
    rw [trimMom_mean0 _ _ _ (by norm_num), momFactor_false, mul_one]
    congr 1
    simp [exps, cmom, ax, avg, Fin.sum_univ_three]
    norm_num

/-- C171 is violated for the metric: whatever is given, the index gets 'euclidean'. -/
theorem C171_metric_violated (alpha trimming : ℝ) (m : Mode) (ys : Option DMat) : ∃ kw : PpKw, kw.dmetric = some "cityblock" ∧
    ∃ c, ppIndexCall alpha trimming (some m) kw ys = .ok c ∧ c.dmetric ≠ "cityblock" :=
  ⟨{ dmetric := some "cityblock" }, rfl, _, rfl, by show "euclidean" ≠ "cityblock"; decide⟩

/-- C171 is violated for the default `pi_arguments={}`: a `dicomo` object made with its defaults computes the variance, `ppdire` with that index and the same defaults raises a
KeyError for all data. -/
theorem C171_default_violated {n : ℕ} (alpha trimming : ℝ) (kw : PpKw) (ys t : Fin n → ℝ) (hn : 0 < n) :
    (∃ v, run .arithmetic .mom .mean {} (colMat t) (colMat ys) = .ok v) ∧ ppIndexValue .arithmetic .mean alpha trimming none kw (some ys) t = .error .keyError := by
  refine ⟨?_, rfl⟩
  rw [run_momk hn, trimMom_mean0 _ _ _ le_rfl]
  exact ⟨_, rfl⟩

/-- A case of `C171_arguments_partial`: with bias correction the index is the sample variance. -/
example : ppIndexValue .arithmetic .mean 1 0 (some .var) { biascorr := some true } (some (![0, 0, 6] : Fin 3 → ℝ)) ![0, 0, 6] =
    run .arithmetic .var .mean { biascorr := true } (colMat (![0, 0, 6] : Fin 3 → ℝ)) (colMat ![0, 0, 6]) :=
  C171_arguments_partial .arithmetic .mean 1 0 .var { biascorr := some true } rfl rfl _ _

end Direpack
