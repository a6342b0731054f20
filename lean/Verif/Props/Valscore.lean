import Verif.Valscore
import Verif.Spec.Valscore
import Verif.Props.SPRM
import Verif.Props.SPRMExample

/-! Property C103: `sprm.valscore`. -/

namespace Direpack

open scoped BigOperators
open Spec

variable {n p : ℕ}

/-- With unit weights and a response that is not constant the score is the coefficient of determination. -/
lemma r2Score_rSquared {m : ℕ} (hm : 2 ≤ m) (y yh : Fin m → ℝ) (hy : ∃ i j, y i ≠ y j) : r2Score (fun _ => 1) y yh = .ok (rSquared (fun _ => 1) y yh) := by
  have hm0 : (m : ℝ) ≠ 0 := by
    have : 0 < m := by omega
    exact_mod_cast this.ne'
  unfold r2Score rSquared
  rw [if_neg (by omega), if_neg (by simpa using hm0)]
  dsimp only
  congr 1
  by_cases hnum : ∑ i, 1 * (y i - yh i) ^ 2 = 0
  · rw [if_pos hnum, hnum]
    simp
  · rw [if_neg hnum, if_neg]
    intro hden
    obtain ⟨i, j, hij⟩ := hy
    have h0 := (Finset.sum_eq_zero_iff_of_nonneg (fun k _ => by positivity)).mp hden
    have hi := h0 i (Finset.mem_univ _)
    have hj := h0 j (Finset.mem_univ _)
    rw [one_mul] at hi hj
    have hi' := sub_eq_zero.mp (pow_eq_zero_iff two_ne_zero |>.mp hi)
    have hj' := sub_eq_zero.mp (pow_eq_zero_iff two_ne_zero |>.mp hj)
    exact hij (hi'.trans hj'.symm)

/-- What `valscore` computes. -/
lemma valscore_eq (ext : SprmExt) (pr : SprmParams) (X : Fin n → Fin p → ℝ) (y : Fin n → ℝ) (f : SprmFit n p) (h : (sprmFit ext pr X y).2 = .ok f)
    (hc : pr.copy = true) {m : ℕ} (Xn : Fin m → Fin p → ℝ) (yn : Fin m → ℝ) :
    f.valscore Xn yn .normal = r2Score (fun _ => 1) yn (fun i => affine f.coef f.intercept (fun a => Xn i (f.keep.get a))) := by
  have hp := (C49_sprm_predict_partial ext pr X y f h hc).2.2 Xn
  obtain ⟨-, -, -, -, -, -, -, rc, dx, dy, cx, o, -, -, -, -, -, -, -, -, -, -, -, -, -, htc, -⟩ := sprmFit_inv h
  unfold SprmFit.valscore
  rw [htc, hc]
  simp only [if_true, ne_eq, not_true, if_false]
  rw [hp]

/-- C103 (partial: `scoring='normal'`): the score is the coefficient of determination of the predictions, for validation data of any size with a response that is
not constant. -/
theorem C103_normal_partial (ext : SprmExt) (pr : SprmParams) (X : Fin n → Fin p → ℝ) (y : Fin n → ℝ) (f : SprmFit n p) (h : (sprmFit ext pr X y).2 = .ok f)
    (hc : pr.copy = true) {m : ℕ} (hm : 2 ≤ m) (Xn : Fin m → Fin p → ℝ) (yn : Fin m → ℝ) (hy : ∃ i j, yn i ≠ yn j) :
    ∃ yh, f.predict Xn = .ok yh ∧ f.valscore Xn yn .normal = .ok (rSquared (fun _ => 1) yn yh) := by
  refine ⟨_, (C49_sprm_predict_partial ext pr X y f h hc).2.2 Xn, ?_⟩
  rw [valscore_eq ext pr X y f h hc, r2Score_rSquared hm _ _ hy]

/-- Bound on the score with unit weights. -/
lemma r2Score_bound {m : ℕ} (hm : 2 ≤ m) (yn yh : Fin m → ℝ) : ∃ s, r2Score (fun _ => 1) yn yh = .ok s ∧ s ≤ 1 ∧ (s = 1 ↔ ∀ i, yn i = yh i) := by
  have hnum : 0 ≤ ∑ i, 1 * (yn i - yh i) ^ 2 := Finset.sum_nonneg fun i _ => by positivity
  have hden : 0 ≤ ∑ i, 1 * (yn i - (∑ j, 1 * yn j) / ∑ _j : Fin m, (1 : ℝ)) ^ 2 := Finset.sum_nonneg fun i _ => by positivity
  have hz : ∑ i, 1 * (yn i - yh i) ^ 2 = 0 ↔ ∀ i, yn i = yh i := by
    rw [Finset.sum_eq_zero_iff_of_nonneg (fun k _ => by positivity)]
    constructor
    · intro h0 i
      have hi := h0 i (Finset.mem_univ _)
      rw [one_mul] at hi
      exact sub_eq_zero.mp (pow_eq_zero_iff two_ne_zero |>.mp hi)
    · intro h0 i _
      rw [h0 i]
      simp
  have hm0 : (m : ℝ) ≠ 0 := by
    have : 0 < m := by omega
    exact_mod_cast this.ne'
  unfold r2Score
  rw [if_neg (by omega), if_neg (by simpa using hm0)]
  dsimp only
  refine ⟨_, rfl, ?_, ?_⟩
  · split
    · exact le_rfl
    · split
      · exact zero_le_one
      · have := div_nonneg hnum hden
        linarith
  · rw [← hz]
    by_cases h0 : ∑ i, 1 * (yn i - yh i) ^ 2 = 0
    · rw [if_pos h0]
      exact ⟨fun _ => h0, fun _ => rfl⟩
    · rw [if_neg h0]
      refine ⟨fun hs => ?_, fun hs => absurd hs h0⟩
      exfalso
      by_cases hd : ∑ i, 1 * (yn i - (∑ j, 1 * yn j) / ∑ _j : Fin m, (1 : ℝ)) ^ 2 = 0
      · rw [if_pos hd] at hs
        exact absurd hs (by norm_num)
      · rw [if_neg hd] at hs
        have h1 : 0 < ∑ i, 1 * (yn i - yh i) ^ 2 := lt_of_le_of_ne hnum (Ne.symm h0)
        have h2 : 0 < ∑ i, 1 * (yn i - (∑ j, 1 * yn j) / ∑ _j : Fin m, (1 : ℝ)) ^ 2 := lt_of_le_of_ne hden (Ne.symm hd)
        have := div_pos h1 h2
        linarith

/-- C103 (partial): this score is at most one, and one exactly for perfect predictions, also when the response is constant. -/
theorem C103_bound_partial (ext : SprmExt) (pr : SprmParams) (X : Fin n → Fin p → ℝ) (y : Fin n → ℝ) (f : SprmFit n p) (h : (sprmFit ext pr X y).2 = .ok f)
    (hc : pr.copy = true) {m : ℕ} (hm : 2 ≤ m) (Xn : Fin m → Fin p → ℝ) (yn : Fin m → ℝ) :
    ∃ yh s, f.predict Xn = .ok yh ∧ f.valscore Xn yn .normal = .ok s ∧ s ≤ 1 ∧ (s = 1 ↔ ∀ i, yn i = yh i) := by
  obtain ⟨s, h1, h2, h3⟩ := r2Score_bound hm yn (fun i => affine f.coef f.intercept (fun a => Xn i (f.keep.get a)))
  exact ⟨_, s, (C49_sprm_predict_partial ext pr X y f h hc).2.2 Xn, (valscore_eq ext pr X y f h hc Xn yn).trans h1, h2, h3⟩

/-- C103: data with another number of variables and unknown values of `scoring` are refused. -/
theorem C103_refused (ext : SprmExt) (pr : SprmParams) (X : Fin n → Fin p → ℝ) (y : Fin n → ℝ) (f : SprmFit n p) (h : (sprmFit ext pr X y).2 = .ok f)
    (hc : pr.copy = true) {m q : ℕ} (Xn : Fin m → Fin q → ℝ) (yn : Fin m → ℝ) (s : Scoring) (hs : q ≠ p ∨ s = .other) :
    f.valscore Xn yn s = .error .valueError := by
  obtain ⟨-, -, -, -, -, -, -, rc, dx, dy, cx, o, -, -, -, -, -, -, -, -, -, -, -, -, -, htc, -⟩ := sprmFit_inv h
  unfold SprmFit.valscore
  rw [htc, hc]
  simp only [if_true]
  by_cases hq : q = p
  · rw [if_neg (by simpa using hq)]
    rcases hs with hs | hs
    · exact absurd hq hs
    · rw [hs]
  · rw [if_pos hq]

/-- C103 is violated by `scoring='weighted'`: validation data with another number of cases than the training data are refused. -/
theorem C103_weighted_violated (ext : SprmExt) (pr : SprmParams) (X : Fin n → Fin p → ℝ) (y : Fin n → ℝ) (f : SprmFit n p)
    (h : (sprmFit ext pr X y).2 = .ok f) (hc : pr.copy = true) {m : ℕ} (hm : m ≠ n) (Xn : Fin m → Fin p → ℝ) (yn : Fin m → ℝ) :
    f.valscore Xn yn .weighted = .error .valueError := by
  have hp := (C49_sprm_predict_partial ext pr X y f h hc).2.2 Xn
  obtain ⟨-, -, -, -, -, -, -, rc, dx, dy, cx, o, -, -, -, -, -, -, -, -, -, -, -, -, -, htc, -⟩ := sprmFit_inv h
  unfold SprmFit.valscore
  rw [htc, hc]
  simp only [if_true, ne_eq, not_true, if_false]
  rw [hp]
  dsimp only
  rw [dif_neg hm]

/-- C103 is violated by `scoring='weighted'` also with as many cases as in the training data: the weight of a validation case is that of the training case with the
same number, whatever the validation data are. -/
theorem C103_weights_violated (ext : SprmExt) (pr : SprmParams) (X : Fin n → Fin p → ℝ) (y : Fin n → ℝ) (f : SprmFit n p)
    (h : (sprmFit ext pr X y).2 = .ok f) (hc : pr.copy = true) (Xn : Fin n → Fin p → ℝ) (yn : Fin n → ℝ) :
    ∃ yh, f.predict Xn = .ok yh ∧ f.valscore Xn yn .weighted = r2Score f.caseweights yn yh := by
  have hp := (C49_sprm_predict_partial ext pr X y f h hc).2.2 Xn
  refine ⟨_, hp, ?_⟩
  obtain ⟨-, -, -, -, -, -, -, rc, dx, dy, cx, o, -, -, -, -, -, -, -, -, -, -, -, -, -, htc, -⟩ := sprmFit_inv h
  unfold SprmFit.valscore
  rw [htc, hc]
  simp only [if_true, ne_eq, not_true, if_false]
  rw [hp]
  dsimp only
  rw [dif_pos trivial]
  rfl

/-- The hypotheses can be met: the example fit, scored on two new cases. -/
example : ∃ f, (sprmFit spExt0 (spPr true) spX rmY).2 = .ok f ∧ (∃ s, f.valscore (fun i (_ : Fin 1) => ((i : Fin 2) : ℝ)) ![0, 1] .normal = .ok s ∧ s ≤ 1) ∧
    f.valscore (fun i (_ : Fin 1) => ((i : Fin 2) : ℝ)) ![0, 1] .weighted = .error .valueError := by
  obtain ⟨f, hf⟩ := spExFit spExt0 (by simp only [spExt0, rmExt0]; norm_num) true
  obtain ⟨yh, s, -, hs, hs1, -⟩ := C103_bound_partial _ _ _ _ _ hf rfl (m := 2) le_rfl (fun i (_ : Fin 1) => ((i : Fin 2) : ℝ)) ![0, 1]
  exact ⟨f, hf, ⟨s, hs, hs1⟩, C103_weighted_violated _ _ _ _ _ hf rfl (by norm_num) _ _⟩

end Direpack
