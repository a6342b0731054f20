import Mathlib.Tactic.Linarith
import Mathlib.Tactic.FieldSimp
import Mathlib.Tactic.Ring
import Mathlib.LinearAlgebra.Matrix.Rank
import Verif.Props.Snipls
import Verif.Props.SPRMExample
import Verif.Props.SniplsDirections

/-! Property C152: with as many components as the rank of the predictors, SNIPLS is least squares. -/

set_option linter.unusedSectionVars false

namespace Direpack

open scoped BigOperators
open Matrix Spec

variable {n p : ℕ}

/-- The loop extracts all components that are asked for, unless no predictor is correlated with the response. -/
lemma snLoop_length {eta : ℝ} (h0 : 0 ≤ eta) (h1 : eta < 1) : ∀ (h : ℕ) (X : Fin n → Fin p → ℝ) (y : Fin n → ℝ) (old : Finset (Fin p)) (l : List (SnComp n p)),
    snLoop eta h X y old = .ok l → l.length = h ∨ (old = ∅ ∧ l = [] ∧ ∀ j, ∑ i, X i j * y i = 0)
  | 0, X, y, old, l, hl => by
    simp only [snLoop, Except.ok.injEq] at hl
    subst hl
    exact .inl rfl
  | h + 1, X, y, old, l, hl => by
    rw [snLoop] at hl
    split at hl
    · rename_i hz
      split at hl
      · rename_i ho
        simp only [Except.ok.injEq] at hl
        exact .inr ⟨ho, hl.symm, hz⟩
      · exact absurd hl (by simp)
    · rename_i hz
      dsimp only at hl
      split at hl
      · rename_i hg
        exfalso
        have := (first_score_pos eta h0 h1 X y hz (Finset.univ.filter fun j => 0 < (snWeights eta X y).1 j) (by simp)).1
        exact this (Finset.union_eq_empty.mp hg).2
      · rename_i hg
        split at hl
        · exact absurd hl (by simp)
        · cases hrec : snLoop eta h (fun i j => X i j - (∑ j, X i j * (if j ∈ old ∪ Finset.univ.filter (fun j => 0 < (snWeights eta X y).1 j) then (snWeights eta X y).2 j else 0)) *
              ((∑ i, X i j * (∑ j, X i j * (if j ∈ old ∪ Finset.univ.filter (fun j => 0 < (snWeights eta X y).1 j) then (snWeights eta X y).2 j else 0))) /
                ∑ i, (∑ j, X i j * (if j ∈ old ∪ Finset.univ.filter (fun j => 0 < (snWeights eta X y).1 j) then (snWeights eta X y).2 j else 0)) ^ 2))
              (fun i => y i - (∑ j, X i j * (if j ∈ old ∪ Finset.univ.filter (fun j => 0 < (snWeights eta X y).1 j) then (snWeights eta X y).2 j else 0)) *
              ((∑ i, y i * (∑ j, X i j * (if j ∈ old ∪ Finset.univ.filter (fun j => 0 < (snWeights eta X y).1 j) then (snWeights eta X y).2 j else 0))) /
                ∑ i, (∑ j, X i j * (if j ∈ old ∪ Finset.univ.filter (fun j => 0 < (snWeights eta X y).1 j) then (snWeights eta X y).2 j else 0)) ^ 2))
              (old ∪ Finset.univ.filter fun j => 0 < (snWeights eta X y).1 j) with
          | error e => rw [hrec] at hl; simp at hl
          | ok l' =>
            rw [hrec] at hl
            simp only [Except.ok.injEq] at hl
            subst hl
            rcases snLoop_length h0 h1 h _ _ _ _ hrec with hlen | ⟨hgood, -⟩
            · left; simp [hlen]
            · exact absurd hgood hg

lemma SnRun.range_le {eta : ℝ} {X : Matrix (Fin n) (Fin p) ℝ} {y : Fin n → ℝ} {old : Finset (Fin p)} {l : List (SnComp n p)} (h : SnRun eta X y old l) :
    LinearMap.range (compT l).mulVecLin ≤ LinearMap.range X.mulVecLin := by
  rintro v ⟨u, rfl⟩
  refine ⟨(compW l * (snQ X l)⁻¹) *ᵥ u, ?_⟩
  simp only [mulVecLin_apply, mulVec_mulVec]
  rw [← Matrix.mul_assoc, h.mul_W, Matrix.mul_assoc, Matrix.mul_nonsing_inv _ (isUnit_iff_ne_zero.2 (by rw [h.det_Q]; exact one_ne_zero)), Matrix.mul_one]

lemma SnRun.rank_T {eta : ℝ} {X : Matrix (Fin n) (Fin p) ℝ} {y : Fin n → ℝ} {old : Finset (Fin p)} {l : List (SnComp n p)} (h : SnRun eta X y old l) :
    (compT l).rank = l.length := by
  have h1 := rank_transpose_mul_self (compT l)
  rw [← h1, rank_of_isUnit _ ((isUnit_iff_isUnit_det _).2 (isUnit_iff_ne_zero.2 h.det_gram)), Fintype.card_fin]

lemma SnRun.le_rank {eta : ℝ} {X : Matrix (Fin n) (Fin p) ℝ} {y : Fin n → ℝ} {old : Finset (Fin p)} {l : List (SnComp n p)} (h : SnRun eta X y old l) :
    l.length ≤ X.rank := by
  rw [← h.rank_T]
  unfold rank
  exact Submodule.finrank_mono h.range_le

/-- A vector orthogonal to the scores is orthogonal to the predictors, if there are as many scores as the rank. -/
lemma SnRun.orth_of_rank {eta : ℝ} {X : Matrix (Fin n) (Fin p) ℝ} {y : Fin n → ℝ} {old : Finset (Fin p)} {l : List (SnComp n p)} (h : SnRun eta X y old l)
    (hr : X.rank ≤ l.length) (r : Fin n → ℝ) (ho : ∀ a, ∑ i, r i * compT l i a = 0) (j : Fin p) : ∑ i, X i j * r i = 0 := by
  have heq : LinearMap.range (compT l).mulVecLin = LinearMap.range X.mulVecLin := by
    apply Submodule.eq_of_le_of_finrank_le h.range_le
    have h1 := h.rank_T
    unfold rank at hr h1
    rw [h1]
    exact hr
  have hmem : X *ᵥ Pi.single j 1 ∈ LinearMap.range (compT l).mulVecLin := by rw [heq]; exact ⟨_, rfl⟩
  obtain ⟨u, hu⟩ := hmem
  have hcol : ∀ i, X i j = ∑ a, compT l i a * u a := by
    intro i
    have := congrFun hu i
    rw [mulVec_single_one] at this
    simp only [mulVecLin_apply, mulVec, dotProduct] at this
    exact this.symm
  calc ∑ i, X i j * r i = ∑ i, ∑ a, u a * (r i * compT l i a) := by
        refine Finset.sum_congr rfl fun i _ => ?_
        rw [hcol, Finset.sum_mul]
        exact Finset.sum_congr rfl fun a _ => by ring
    _ = ∑ a, u a * ∑ i, r i * compT l i a := by
        rw [Finset.sum_comm]
        exact Finset.sum_congr rfl fun a _ => by rw [Finset.mul_sum]
    _ = 0 := by simp [ho]

/-- C152: with at least as many components as the rank of the standardised predictors (in particular with one component per predictor), the scaled coefficients of SNIPLS
solve the least squares problem, for every sparsity parameter. -/
theorem C152_scaled {pr : SnParams} {X : Fin n → Fin p → ℝ} {y : Fin n → ℝ} {f : SnFit n p} (h : snFit pr X y = .ok f)
    (hr : (Matrix.of (stdMat X f.xLoc f.xSca)).rank ≤ pr.nComponents) : IsLeastSquares (stdMat X f.xLoc f.xSca) (stdVec y f.yLoc f.ySca) f.coefScaled := by
  obtain ⟨⟨h0, h1, hn⟩, e1, e2, e3, e4, hs, hl, -⟩ := snFit_inv h
  have hne := (C45_normal_equations h)
  rcases snLoop_length h0 h1 _ _ _ _ _ hl with hlen | ⟨-, hnil, hz⟩
  · intro j
    exact (snFit_run h).orth_of_rank (by rw [hlen]; exact hr) _ hne.1 j
  · obtain ⟨q, hq⟩ := hne.2
    have hq0 : ∀ i, lin (stdMat X f.xLoc f.xSca) f.coefScaled i = 0 := by
      intro i
      rw [hq]
      apply Finset.sum_eq_zero
      intro a _
      have ha := a.2
      have hl0 : f.comps.length = 0 := by rw [hnil]; rfl
      omega
    intro j
    have : ∀ i, stdVec y f.yLoc f.ySca i - ∑ k, stdMat X f.xLoc f.xSca i k * f.coefScaled k = stdVec y f.yLoc f.ySca i := fun i => by
      have := hq0 i
      unfold lin at this
      rw [this, sub_zero]
    simp only [this]
    exact hz j

/-- C152 with one component per predictor. -/
theorem C152_all_components {pr : SnParams} {X : Fin n → Fin p → ℝ} {y : Fin n → ℝ} {f : SnFit n p} (h : snFit pr X y = .ok f) (hp : p ≤ pr.nComponents) :
    IsLeastSquares (stdMat X f.xLoc f.xSca) (stdVec y f.yLoc f.ySca) f.coefScaled :=
  C152_scaled h (by
    have := rank_le_width (Matrix.of (stdMat X f.xLoc f.xSca))
    omega)

/-- No more components are extracted than the rank of the standardised predictors: asking for more gives no model, unless no predictor is correlated with the response. -/
theorem C152_at_most_rank {pr : SnParams} {X : Fin n → Fin p → ℝ} {y : Fin n → ℝ} {f : SnFit n p} (h : snFit pr X y = .ok f)
    (hcov : ∃ j, ∑ i, stdMat X f.xLoc f.xSca i j * stdVec y f.yLoc f.ySca i ≠ 0) : pr.nComponents ≤ (Matrix.of (stdMat X f.xLoc f.xSca)).rank ∧ f.comps.length = pr.nComponents := by
  obtain ⟨⟨h0, h1, hn⟩, e1, e2, e3, e4, hs, hl, -⟩ := snFit_inv h
  rcases snLoop_length h0 h1 _ _ _ _ _ hl with hlen | ⟨-, -, hz⟩
  · exact ⟨hlen ▸ (snFit_run h).le_rank, hlen⟩
  · obtain ⟨j, hj⟩ := hcov
    exact absurd (hz j) hj

/-- C152 in original units: with the mean as centre, no linear function of the predictors fits the response better. -/
theorem C152_ols {pr : SnParams} {X : Fin n → Fin p → ℝ} {y : Fin n → ℝ} {f : SnFit n p} (h : snFit pr X y = .ok f) (hn : 0 < n) (hm : pr.centre = .mean) (hsy : f.ySca ≠ 0)
    (hr : (Matrix.of (stdMat X f.xLoc f.xSca)).rank ≤ pr.nComponents) (a : ℝ) (c : Fin p → ℝ) :
    ∑ i, (y i - f.fitted i) ^ 2 ≤ ∑ i, (y i - (a + lin X c i)) ^ 2 := by
  have hls := C152_scaled h hr
  have hfit := fun i => C46_original_scale hn h (.inl hm) i
  obtain ⟨-, e1, e2, e3, e4, hs, -⟩ := snFit_inv h
  set Z := stdMat X f.xLoc f.xSca with hZ
  set v := stdVec y f.yLoc f.ySca with hv
  set r : Fin n → ℝ := fun i => v i - lin Z f.coefScaled i with hrd
  have hmZ : ∀ j, ∑ i, Z i j = 0 := by
    intro j
    have : mean (fun i => Z i j) = 0 := by
      rw [hZ, e1, hm]
      exact mean_std_zero hn (fun i => X i j) _
    rw [mean_eq] at this
    rcases div_eq_zero_iff.mp this with h | h
    · exact h
    · exact absurd (by exact_mod_cast h) hn.ne'
  have hmv : ∑ i, v i = 0 := by
    have : mean v = 0 := by
      rw [hv, e3, hm]
      exact mean_std_zero hn y _
    rw [mean_eq] at this
    rcases div_eq_zero_iff.mp this with h | h
    · exact h
    · exact absurd (by exact_mod_cast h) hn.ne'
  have hsum : ∑ i, r i = 0 := by
    rw [hrd]
    simp only [lin]
    rw [Finset.sum_sub_distrib, hmv, Finset.sum_comm]
    simp [← Finset.sum_mul, hmZ]
  have hres : ∀ i, y i - f.fitted i = f.ySca * r i := by
    intro i
    rw [hfit i, hrd]
    have : f.ySca * v i = y i - f.yLoc := by
      simp only [hv, stdVec, std1, if_neg hsy]
      field_simp
    linear_combination -this
  have hX : ∀ i j, X i j = f.xSca j * Z i j + f.xLoc j := by
    intro i j
    simp only [hZ, stdMat, std1, if_neg (hs j)]
    field_simp [hs j]
    ring
  have hdiff : ∀ i, f.fitted i - (a + lin X c i) = (f.yLoc - a - ∑ j, f.xLoc j * c j) + ∑ j, Z i j * (f.ySca * f.coefScaled j - f.xSca j * c j) := by
    intro i
    rw [hfit i]
    have : lin X c i = ∑ j, Z i j * (f.xSca j * c j) + ∑ j, f.xLoc j * c j := by
      simp only [lin]
      rw [← Finset.sum_add_distrib]
      exact Finset.sum_congr rfl fun j _ => by rw [hX]; ring
    rw [this]
    have h2 : ∑ j, Z i j * (f.ySca * f.coefScaled j - f.xSca j * c j) = f.ySca * lin Z f.coefScaled i - ∑ j, Z i j * (f.xSca j * c j) := by
      simp only [lin]
      rw [Finset.mul_sum, ← Finset.sum_sub_distrib]
      exact Finset.sum_congr rfl fun j _ => by ring
    rw [h2]
    ring
  have hcross : ∑ i, (y i - f.fitted i) * (f.fitted i - (a + lin X c i)) = 0 := by
    have h1 : ∀ i, (y i - f.fitted i) * (f.fitted i - (a + lin X c i)) =
        f.ySca * (f.yLoc - a - ∑ j, f.xLoc j * c j) * r i + ∑ j, f.ySca * (f.ySca * f.coefScaled j - f.xSca j * c j) * (Z i j * r i) := by
      intro i
      rw [hres, hdiff, mul_add, Finset.mul_sum]
      congr 1
      · ring
      · exact Finset.sum_congr rfl fun j _ => by ring
    simp only [h1]
    rw [Finset.sum_add_distrib, ← Finset.mul_sum, hsum, Finset.sum_comm]
    simp only [← Finset.mul_sum]
    have h2 : ∀ j, ∑ i, Z i j * r i = 0 := fun j => hls j
    simp [h2]
  have hexp : ∑ i, (y i - (a + lin X c i)) ^ 2 = ∑ i, (y i - f.fitted i) ^ 2 + 2 * ∑ i, (y i - f.fitted i) * (f.fitted i - (a + lin X c i)) +
      ∑ i, (f.fitted i - (a + lin X c i)) ^ 2 := by
    rw [Finset.mul_sum, ← Finset.sum_add_distrib, ← Finset.sum_add_distrib]
    exact Finset.sum_congr rfl fun i _ => by ring
  rw [hexp, hcross]
  have := Finset.sum_nonneg fun i (_ : i ∈ Finset.univ) => sq_nonneg (f.fitted i - (a + lin X c i))
  linarith

/-- Two predictors and two components with a positive sparsity parameter: the coefficients are those of least squares. -/
example : ∃ f, snFit sdPr sdX sdY = .ok f ∧ IsLeastSquares sdX sdY f.coefScaled := by
  obtain ⟨f, hf, hX, hY, -⟩ := sdFit_ex
  have := C152_all_components hf (by simp [sdPr])
  rw [hX, hY] at this
  exact ⟨f, hf, this⟩

/-- One predictor and one component, mean as centre: no straight line fits better. -/
example : ∃ f, snFit ⟨0, 1, .mean, .noneOpt⟩ spXs spYs = .ok f ∧ ∀ a c, ∑ i, (spYs i - f.fitted i) ^ 2 ≤ ∑ i, (spYs i - (a + lin spXs c i)) ^ 2 := by
  obtain ⟨f, -, hf, -⟩ := sp_snfit
  obtain ⟨-, -, -, -, e4, -⟩ := snFit_inv hf
  have e4' : f.ySca = 1 := e4
  exact ⟨f, hf, fun a c => C152_ols hf (by norm_num) rfl (by rw [e4']; exact one_ne_zero) (rank_le_width _) a c⟩

end Direpack
