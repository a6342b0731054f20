import Verif.Props.RM
import Verif.Props.SPRM
import Verif.Props.SPRMExample
import Verif.Props.RMExample
import Verif.Props.PPDire
import Verif.Props.SudireFit

/-! C135: settings outside their documented range never give a fitted model. -/

namespace Direpack

open scoped BigOperators
open Spec

variable {n p : ℕ}

/-- Cutoff probabilities that make sense: the first in (0,1], and for the Hampel function increasing up to at most one. -/
def Spec.SensibleCutoffs (hampel : Prop) (p1 p2 p3 : ℝ) : Prop := 0 < p1 ∧ p1 ≤ 1 ∧ (hampel → p1 < p2 ∧ p2 < p3 ∧ p3 ≤ 1)

/-- C135 for `rm`. -/
theorem C135_rm_partial {ext : RmExt} {pr : RmParams} {X : Fin n → Fin p → ℝ} {y : Fin n → ℝ} {f : RmFit n p} (h : rmFit ext pr X y = .ok f) :
    SensibleCutoffs (pr.fn = .hampel) pr.probp1 pr.probp2 pr.probp3 := (rmFit_inv h).1

/-- C135 for `sprm`: the sparsity parameter is in [0,1), the number of components is positive and at most the number of cases and of variables that
are kept, and the cutoffs make sense. -/
theorem C135_sprm_partial {ext : SprmExt} {pr : SprmParams} {X : Fin n → Fin p → ℝ} {y : Fin n → ℝ} {f : SprmFit n p}
    (h : (sprmFit ext pr X y).2 = .ok f) :
    (0 ≤ pr.eta ∧ pr.eta < 1) ∧ (1 ≤ pr.nComponents ∧ pr.nComponents ≤ n ∧ pr.nComponents ≤ f.keep.length ∧ f.keep.length ≤ p) ∧
      SensibleCutoffs (pr.fn = .hampel) pr.probp1 pr.probp2 pr.probp3 := by
  obtain ⟨⟨u, hu⟩, -, -, -, -, hk, hl, -⟩ := sprmFit_inv h
  obtain ⟨⟨h1, h2, h3⟩, h4, h5⟩ := sprmCheck_ok hu
  refine ⟨h4, ⟨by omega, h1, hl, ?_⟩, h5⟩
  rw [hk]
  calc (keepVars f.xSca).length ≤ (List.finRange p).length := List.length_filter_le _ _
    _ = p := List.length_finRange

/-- C135 for `snipls`, settings given to the constructor. -/
theorem C135_snipls_partial {pr : SnParams} {X : Fin n → Fin p → ℝ} {y : Fin n → ℝ} {f : SnFit n p} (h : snFit pr X y = .ok f) :
    0 ≤ pr.eta ∧ pr.eta < 1 ∧ 0 < pr.nComponents := (snFit_inv h).1

/-- C135 for `ppdire` with a response. -/
theorem C135_ppdire_partial {pr : PpParams} {pinv : Pinv} {rg : PpReg} {φ : (Fin n → ℝ) → (Fin n → ℝ) → ℝ} {X : Fin n → Fin p → ℝ}
    {y : Fin n → ℝ} {f : PpFit n p} (h : ppFit pr pinv rg φ X y = .ok f) :
    pr.nComponents ≤ n ∧ pr.nComponents ≤ p ∧ 0 ≤ pr.trimming ∧ pr.trimming < 1 := by
  obtain ⟨Xs, ys, -, -, -, -, -, -, hk, ht, -⟩ := ppFit_inv h
  exact ⟨by omega, by omega, ht.1, by linarith [ht.2.1]⟩

/-- C135 for `ppdire` without a response. -/
theorem C135_ppdire_one_block_partial {pr : PpParams} {pinv : Pinv} {φ : (Fin n → ℝ) → ℝ} {X : Fin n → Fin p → ℝ} {f : PpFit1 n p}
    (h : ppFit1 pr pinv φ X = .ok f) : pr.nComponents ≤ n ∧ pr.nComponents ≤ p ∧ 0 ≤ pr.trimming ∧ pr.trimming < 1 := by
  unfold ppFit1 at h
  by_cases h1 : pr.nComponents > min n p
  · rw [if_pos h1] at h; exact absurd h (by simp)
  · rw [if_neg h1] at h
    by_cases h2 : ¬ trimOk pr.trimming n
    · rw [if_pos h2] at h; exact absurd h (by simp)
    · have ht := not_not.mp h2
      exact ⟨by omega, by omega, ht.1, by linarith [ht.2.1]⟩

/-- C135 for `sudire`. -/
theorem C135_sudire_partial {ext : SdExt} {o o' : SdObj} {X : Fin n → Fin p → ℝ} {y : Fin n → ℝ} {f : SdFit n p} (h : o.fit ext X y = .ok (o', f)) :
    o.params.nComp ≤ n ∧ o.params.nComp ≤ p ∧ 0 ≤ o.params.trimming ∧ o.params.trimming < 1 := by
  obtain ⟨q, L, st', pm, T, hq, -, -, -, -, -⟩ := SdObj.fit_ok h
  have e1 : o.params.whitened.nComp = o.params.nComp := by unfold SdParams.whitened; split <;> rfl
  have e2 : o.params.whitened.trimming = o.params.trimming := by unfold SdParams.whitened; split <;> rfl
  unfold sdPre at hq
  rw [e1, e2] at hq
  by_cases h1 : min n p < o.params.nComp
  · rw [if_pos h1] at hq; exact absurd hq (by simp)
  · rw [if_neg h1] at hq
    split at hq
    · exact absurd hq (by simp)
    · split at hq
      · exact absurd hq (by simp)
      · by_cases h2 : ¬ trimOk o.params.trimming n
        · rw [if_pos h2] at hq; exact absurd hq (by simp)
        · have ht := not_not.mp h2
          exact ⟨by omega, by omega, ht.1, by linarith [ht.2.1]⟩

lemma maxAbs_ge {v : Fin p → ℝ} (j : Fin p) : |v j| ≤ maxAbs v := by
  unfold maxAbs
  have hj : |v j| ∈ List.ofFn fun j => |v j| := by simp
  revert hj
  generalize List.ofFn (fun j => |v j|) = l
  intro hj
  induction l with
  | nil => simp at hj
  | cons a l ih =>
    rcases List.mem_cons.mp hj with h | h
    · rw [List.foldr_cons, ← h]; exact le_max_left _ _
    · rw [List.foldr_cons]; exact (ih h).trans (le_max_right _ _)

lemma snLoop_eta {eta : ℝ} (he : 1 ≤ eta) (k : ℕ) (X : Fin n → Fin p → ℝ) (y : Fin n → ℝ) : snLoop eta k X y ∅ = .ok [] := by
  cases k with
  | zero => rfl
  | succ k =>
    rw [snLoop]
    by_cases h0 : ∀ j, ∑ i, X i j * y i = 0
    · rw [if_pos h0, if_pos rfl]
    · rw [if_neg h0]
      have : (∅ ∪ Finset.univ.filter fun j => 0 < (snWeights eta X y).1 j : Finset (Fin p)) = ∅ := by
        rw [Finset.empty_union, Finset.filter_eq_empty_iff]
        intro j _
        simp only [snWeights, not_lt]
        have h1 := maxAbs_ge (v := fun j => (∑ i, X i j * y i) / Real.sqrt (∑ j, (∑ i, X i j * y i) ^ 2)) j
        have h2 := abs_nonneg ((∑ i, X i j * y i) / Real.sqrt (∑ j, (∑ i, X i j * y i) ^ 2))
        nlinarith
      dsimp only
      rw [if_pos this]

/-- C135 is violated for `snipls` after `set_params`: the range of the sparsity parameter is looked at by the constructor only.  With a value of one or more
every data set whose variables have a scale gives a model without components, which predicts a constant. -/
theorem C135_snipls_set_violated (pr : SnParams) (he : 1 ≤ pr.eta) (X : Fin n → Fin p → ℝ) (y : Fin n → ℝ) (hs : ∀ j, pr.scale.run X j ≠ 0) :
    (∀ f, snFit pr X y ≠ .ok f) ∧ ∃ f, snFitBody pr X y = .ok f ∧ f.comps = [] ∧
      ∀ {m : ℕ} (Xn : Fin m → Fin p → ℝ), f.predict Xn = .ok fun _ => f.intercept := by
  refine ⟨fun f h => ?_, ?_⟩
  · have := (C135_snipls_partial h).2.1
    linarith
  · unfold snFitBody
    dsimp only
    rw [snLoop_eta he]
    dsimp only
    rw [show ∀ (X0 : Fin n → Fin p → ℝ) (y0 : Fin n → ℝ), snCoef X0 y0 ([] : List (SnComp n p)) = .ok (0, fun _ => 0) from fun _ _ => rfl]
    dsimp only
    rw [if_neg (by push Not; exact hs)]
    refine ⟨_, rfl, rfl, fun Xn => ?_⟩
    simp [SnFit.predict]

/-- The hypotheses are met: unscaled data. -/
example (X : Fin 3 → Fin 2 → ℝ) : ∀ j, ScaleOpt.noneOpt.run X j ≠ 0 := fun _ => one_ne_zero

end Direpack
