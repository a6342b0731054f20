import Verif.Spec.Steady
import Verif.Props.FullModel

/-! Property C197: with all components the fitted values follow the responses linearly and steadily. -/

namespace Direpack

open scoped BigOperators
open Spec

variable {n p : ℕ}

/-- The residuals of least squares are orthogonal to all linear functions of the predictors. -/
lemma Spec.OlsFitted.orth {X : Fin n → Fin p → ℝ} {y u : Fin n → ℝ} (h : OlsFitted X y u) (a : ℝ) (b : Fin p → ℝ) :
    ∑ i, (y i - u i) * (a + ∑ k, X i k * b k) = 0 := by
  obtain ⟨⟨a0, b0, hu⟩, hmin⟩ := h
  set v : Fin n → ℝ := fun i => a + ∑ k, X i k * b k with hv
  set A := ∑ i, (y i - u i) * v i with hA
  set B := ∑ i, v i ^ 2 with hB
  have hB0 : 0 ≤ B := Finset.sum_nonneg fun i _ => sq_nonneg _
  have key : ∀ t : ℝ, 0 ≤ -2 * t * A + t ^ 2 * B := by
    intro t
    have h1 := hmin (a0 + t * a) fun k => b0 k + t * b k
    have h2 : ∀ i, (y i - (a0 + t * a + ∑ k, X i k * (b0 k + t * b k))) ^ 2 = (y i - u i) ^ 2 + (-2 * t * ((y i - u i) * v i) + t ^ 2 * v i ^ 2) := by
      intro i
      have : ∑ k, X i k * (b0 k + t * b k) = ∑ k, X i k * b0 k + t * ∑ k, X i k * b k := by
        rw [Finset.mul_sum, ← Finset.sum_add_distrib]
        exact Finset.sum_congr rfl fun k _ => by ring
      rw [this, hu, hv]
      ring
    simp only [h2, Finset.sum_add_distrib, ← Finset.mul_sum] at h1
    linarith
  by_contra hne
  have hk := key (A / (B + 1))
  have hB1 : 0 < B + 1 := by linarith
  have e : -2 * (A / (B + 1)) * A + (A / (B + 1)) ^ 2 * B = -(A ^ 2 * (B + 2)) / (B + 1) ^ 2 := by
    field_simp; ring
  rw [e] at hk
  have hA2 : 0 < A ^ 2 := by positivity
  have : -(A ^ 2 * (B + 2)) / (B + 1) ^ 2 < 0 := div_neg_of_neg_of_pos (by nlinarith) (by positivity)
  linarith

/-- Least squares from orthogonal residuals. -/
lemma Spec.OlsFitted.of_orth {X : Fin n → Fin p → ℝ} {y u : Fin n → ℝ} (hu : ∃ (a : ℝ) (b : Fin p → ℝ), ∀ i, u i = a + ∑ k, X i k * b k)
    (h : ∀ (a : ℝ) (b : Fin p → ℝ), ∑ i, (y i - u i) * (a + ∑ k, X i k * b k) = 0) : OlsFitted X y u := by
  refine ⟨hu, fun a b => ?_⟩
  obtain ⟨a0, b0, hu⟩ := hu
  have h1 := h (a0 - a) fun k => b0 k - b k
  have h2 : ∀ i, a0 - a + ∑ k, X i k * (b0 k - b k) = u i - (a + ∑ k, X i k * b k) := by
    intro i
    simp only [mul_sub, Finset.sum_sub_distrib, hu]; ring
  simp only [h2] at h1
  have h3 : ∑ i, (y i - (a + ∑ k, X i k * b k)) ^ 2 = ∑ i, (y i - u i) ^ 2 + (2 * ∑ i, (y i - u i) * (u i - (a + ∑ k, X i k * b k)) + ∑ i, (u i - (a + ∑ k, X i k * b k)) ^ 2) := by
    rw [Finset.mul_sum, ← Finset.sum_add_distrib, ← Finset.sum_add_distrib]
    exact Finset.sum_congr rfl fun i _ => by ring
  rw [h3, h1]
  have : 0 ≤ ∑ i, (u i - (a + ∑ k, X i k * b k)) ^ 2 := Finset.sum_nonneg fun i _ => sq_nonneg _
  linarith

/-- Least squares responds linearly. -/
lemma Spec.OlsFitted.combine {X : Fin n → Fin p → ℝ} {y u y' u' : Fin n → ℝ} (h : OlsFitted X y u) (h' : OlsFitted X y' u') (c d : ℝ) :
    OlsFitted X (fun i => c * y i + d * y' i) (fun i => c * u i + d * u' i) := by
  refine .of_orth ?_ fun a b => ?_
  · obtain ⟨⟨a, b, hu⟩, -⟩ := h
    obtain ⟨⟨a', b', hu'⟩, -⟩ := h'
    refine ⟨c * a + d * a', fun k => c * b k + d * b' k, fun i => ?_⟩
    rw [hu, hu']
    have : ∑ k, X i k * (c * b k + d * b' k) = c * ∑ k, X i k * b k + d * ∑ k, X i k * b' k := by
      rw [Finset.mul_sum, Finset.mul_sum, ← Finset.sum_add_distrib]
      exact Finset.sum_congr rfl fun k _ => by ring
    rw [this]; ring
  · have e : ∀ i, (c * y i + d * y' i - (c * u i + d * u' i)) * (a + ∑ k, X i k * b k) =
        c * ((y i - u i) * (a + ∑ k, X i k * b k)) + d * ((y' i - u' i) * (a + ∑ k, X i k * b k)) := fun i => by ring
    simp only [e, Finset.sum_add_distrib, ← Finset.mul_sum, h.orth a b, h'.orth a b, mul_zero, add_zero]

/-- Least squares responds steadily. -/
lemma Spec.OlsFitted.steady {X : Fin n → Fin p → ℝ} {y u y' u' : Fin n → ℝ} (h : OlsFitted X y u) (h' : OlsFitted X y' u') : Steady y u y' u' := by
  obtain ⟨⟨a, b, hab⟩, -⟩ := h'.combine h 1 (-1)
  have ho := (h'.combine h 1 (-1)).orth a b
  simp only [← hab, one_mul, neg_mul, ← sub_eq_add_neg] at ho
  have hsq : ∑ i, (u' i - u i) * (y' i - y i) = ∑ i, (u' i - u i) ^ 2 := by
    have : ∑ i, ((u' i - u i) * (y' i - y i) - (u' i - u i) ^ 2) = 0 := by
      rw [← ho]; exact Finset.sum_congr rfl fun i _ => by ring
    rw [Finset.sum_sub_distrib] at this
    linarith
  have ht : ∑ i, (u' i - u i) ^ 2 ≤ ∑ i, (y' i - y i) ^ 2 := by
    have h0 : 0 ≤ ∑ i, ((y' i - y i) - (u' i - u i)) ^ 2 := Finset.sum_nonneg fun i _ => sq_nonneg _
    have e : ∑ i, ((y' i - y i) - (u' i - u i)) ^ 2 = ∑ i, (y' i - y i) ^ 2 + (∑ i, (u' i - u i) ^ 2 - 2 * ∑ i, (u' i - u i) * (y' i - y i)) := by
      rw [Finset.mul_sum, ← Finset.sum_sub_distrib, ← Finset.sum_add_distrib]
      exact Finset.sum_congr rfl fun i _ => by ring
    rw [e, hsq] at h0
    linarith
  refine ⟨ht, fun i hi => ?_⟩
  have e1 : ∑ k, (u' k - u k) * (y' k - y k) = (u' i - u i) * (y' i - y i) :=
    Finset.sum_eq_single i (fun k _ hk => by rw [hi k hk, sub_self, mul_zero]) (by simp)
  have e2 : ∑ k, (y' k - y k) ^ 2 = (y' i - y i) ^ 2 :=
    Finset.sum_eq_single i (fun k _ hk => by rw [hi k hk, sub_self]; simp) (by simp)
  rw [e1] at hsq
  rw [e2] at ht
  have h0 : 0 ≤ ∑ i, (u' i - u i) ^ 2 := Finset.sum_nonneg fun i _ => sq_nonneg _
  by_cases hd : y' i - y i = 0
  · have hz : ∑ i, (u' i - u i) ^ 2 = 0 := by rw [← hsq, hd, mul_zero]
    have := (Finset.sum_eq_zero_iff_of_nonneg fun i _ => sq_nonneg _).mp hz i (Finset.mem_univ _)
    exact ⟨0, le_rfl, zero_le_one, by rw [zero_mul]; exact pow_eq_zero_iff two_ne_zero |>.mp this⟩
  · have hp : 0 < (y' i - y i) ^ 2 := by positivity
    refine ⟨(u' i - u i) / (y' i - y i), ?_, ?_, by field_simp⟩
    · rw [show (u' i - u i) / (y' i - y i) = (u' i - u i) * (y' i - y i) / (y' i - y i) ^ 2 by field_simp, hsq]
      exact div_nonneg h0 hp.le
    · rw [show (u' i - u i) / (y' i - y i) = (u' i - u i) * (y' i - y i) / (y' i - y i) ^ 2 by field_simp, hsq]
      exact (div_le_one hp).mpr ht

/-- C197 (snipls about the means, with as many components as the rank of the predictors): the fitted values of two responses of the same cases. -/
theorem C197_snipls {pr : SnParams} (hn : 0 < n) (hm : pr.centre = .mean) {X : Fin n → Fin p → ℝ} {y y' : Fin n → ℝ} {f f' : SnFit n p} (h : snFit pr X y = .ok f)
    (h' : snFit pr X y' = .ok f') (hsy : f.ySca ≠ 0) (hsy' : f'.ySca ≠ 0) (hr : (Matrix.of (stdMat X f.xLoc f.xSca)).rank ≤ pr.nComponents) :
    Steady y f.fitted y' f'.fitted ∧
    (∀ c d f'', snFit pr X (fun i => c * y i + d * y' i) = .ok f'' → f''.ySca ≠ 0 → ∀ i, f''.fitted i = c * f.fitted i + d * f'.fitted i) ∧
    ∀ f'', snFit pr X f.fitted = .ok f'' → f''.ySca ≠ 0 → f''.fitted = f.fitted := by
  have hrk : ∀ {w : Fin n → ℝ} {g : SnFit n p}, snFit pr X w = .ok g → (Matrix.of (stdMat X g.xLoc g.xSca)).rank ≤ pr.nComponents := by
    intro w g hg
    rw [(snFit_inv hg).2.1, (snFit_inv hg).2.2.1, ← (snFit_inv h).2.1, ← (snFit_inv h).2.2.1]; exact hr
  have o := C187_snipls h hn hm hsy hr
  have o' := C187_snipls h' hn hm hsy' (hrk h')
  refine ⟨o.steady o', fun c d f'' h2 hs2 i => ?_, fun f'' h2 hs2 => ?_⟩
  · exact congrFun (C187_unique (C187_snipls h2 hn hm hs2 (hrk h2)) (o.combine o' c d)) i
  · exact C187_unique (C187_snipls h2 hn hm hs2 (hrk h2)) ⟨o.1, fun a b => by
      simp only [sub_self, ne_eq, OfNat.ofNat_ne_zero, not_false_eq_true, zero_pow, Finset.sum_const_zero]
      exact Finset.sum_nonneg fun i _ => sq_nonneg _⟩

/-- C197 (ppdire with least squares about the means, with as many components as the rank of the predictors), whatever index, optimiser and directions: also if these differ
between the fits. -/
theorem C197_ppdire {pr pr' pr'' : PpParams} (hm : pr.centre = .mean ∧ pr'.centre = .mean ∧ pr''.centre = .mean) (ht : pr.trimming = 0 ∧ pr'.trimming = 0 ∧ pr''.trimming = 0)
    (hc : pr.centerData = true ∧ pr'.centerData = true ∧ pr''.centerData = true) {pinv : Pinv} (hp : IsGenInverse pinv) {φ φ' φ'' : (Fin n → ℝ) → (Fin n → ℝ) → ℝ}
    {X : Fin n → Fin p → ℝ} {y y' : Fin n → ℝ} {f f' : PpFit n p} (h : ppFit pr pinv .ols φ X y = .ok f) (h' : ppFit pr' pinv .ols φ' X y' = .ok f')
    (hr : pr.nComponents = (Matrix.of (stdMat X f.xLoc f.xSca)).rank) (hr' : pr'.nComponents = (Matrix.of (stdMat X f'.xLoc f'.xSca)).rank) :
    Steady y f.fitted y' f'.fitted ∧
    (∀ c d f'', ppFit pr'' pinv .ols φ'' X (fun i => c * y i + d * y' i) = .ok f'' → pr''.nComponents = (Matrix.of (stdMat X f''.xLoc f''.xSca)).rank →
      ∀ i, f''.fitted i = c * f.fitted i + d * f'.fitted i) ∧
    ∀ f'', ppFit pr'' pinv .ols φ'' X f.fitted = .ok f'' → pr''.nComponents = (Matrix.of (stdMat X f''.xLoc f''.xSca)).rank → f''.fitted = f.fitted := by
  have o := C187_ppdire pr hm.1 ht.1 hc.1 pinv hp φ X y f h hr
  have o' := C187_ppdire pr' hm.2.1 ht.2.1 hc.2.1 pinv hp φ' X y' f' h' hr'
  refine ⟨o.steady o', fun c d f'' h2 hr2 i => ?_, fun f'' h2 hr2 => ?_⟩
  · exact congrFun (C187_unique (C187_ppdire pr'' hm.2.2 ht.2.2 hc.2.2 pinv hp φ'' X _ f'' h2 hr2) (o.combine o' c d)) i
  · exact C187_unique (C187_ppdire pr'' hm.2.2 ht.2.2 hc.2.2 pinv hp φ'' X _ f'' h2 hr2) ⟨o.1, fun a b => by
      simp only [sub_self, ne_eq, OfNat.ofNat_ne_zero, not_false_eq_true, zero_pow, Finset.sum_const_zero]
      exact Finset.sum_nonneg fun i _ => sq_nonneg _⟩

/-- C197 (sudire with as many directions as predictors), whatever the methods. -/
theorem C197_sudire {ext : SdExt} (hols : ∀ {n k : ℕ} (A : Fin n → Fin k → ℝ) (y : Fin n → ℝ), IsLeastSquares A y (ext.ols A y)) {o o1 o' o1' o'' o1'' : SdObj}
    (hc : o.params.copy = true) (hc' : o'.params.copy = true) (hc'' : o''.params.copy = true) {X : Fin n → Fin p → ℝ} {y y' : Fin n → ℝ} {f f' : SdFit n p}
    (h : o.fit ext X y = .ok (o1, f)) (h' : o'.fit ext X y' = .ok (o1', f')) (hp : f.h = p) (hp' : f'.h = p) :
    ∃ u u', f.predict X = .ok u ∧ f'.predict X = .ok u' ∧ Steady y u y' u' ∧
      (∀ c d f'', o''.fit ext X (fun i => c * y i + d * y' i) = .ok (o1'', f'') → f''.h = p → f''.predict X = .ok fun i => c * u i + d * u' i) ∧
      ∀ f'', o''.fit ext X u = .ok (o1'', f'') → f''.h = p → f''.predict X = .ok u := by
  obtain ⟨u, hu, ou⟩ := C187_sudire hols hc h hp
  obtain ⟨u', hu', ou'⟩ := C187_sudire hols hc' h' hp'
  refine ⟨u, u', hu, hu', ou.steady ou', fun c d f'' h2 hp2 => ?_, fun f'' h2 hp2 => ?_⟩
  · obtain ⟨w, hw, ow⟩ := C187_sudire hols hc'' h2 hp2
    rw [hw, C187_unique ow (ou.combine ou' c d)]
  · obtain ⟨w, hw, ow⟩ := C187_sudire hols hc'' h2 hp2
    rw [hw, C187_unique ow ⟨ou.1, fun a b => by
      simp only [sub_self, ne_eq, OfNat.ofNat_ne_zero, not_false_eq_true, zero_pow, Finset.sum_const_zero]
      exact Finset.sum_nonneg fun i _ => sq_nonneg _⟩]

/-- Non-vacuity for snipls: two responses of the same three cases. -/
example : ∃ f f', snFit ⟨0, 1, .mean, .noneOpt⟩ (![![-1], ![0], ![1]] : Fin 3 → Fin 1 → ℝ) ![1, 0, 5] = .ok f ∧
    snFit ⟨0, 1, .mean, .noneOpt⟩ (![![-1], ![0], ![1]] : Fin 3 → Fin 1 → ℝ) ![1, 0, 8] = .ok f' ∧ Steady ![1, 0, 5] f.fitted ![1, 0, 8] f'.fitted := by
  obtain ⟨f, hf⟩ := C44_one_component_total ⟨0, 1, .mean, .noneOpt⟩ (![![-1], ![0], ![1]] : Fin 3 → Fin 1 → ℝ) ![1, 0, 5] (by norm_num) (by norm_num) rfl
    (fun j => by simp [ScaleOpt.run])
  obtain ⟨f', hf'⟩ := C44_one_component_total ⟨0, 1, .mean, .noneOpt⟩ (![![-1], ![0], ![1]] : Fin 3 → Fin 1 → ℝ) ![1, 0, 8] (by norm_num) (by norm_num) rfl
    (fun j => by simp [ScaleOpt.run])
  have e : f.ySca = 1 := (snFit_inv hf).2.2.2.2.1
  have e' : f'.ySca = 1 := (snFit_inv hf').2.2.2.2.1
  exact ⟨f, f', hf, hf', (C197_snipls (by norm_num) rfl hf hf' (by rw [e]; exact one_ne_zero) (by rw [e']; exact one_ne_zero) (Matrix.rank_le_width _)).1⟩

/-- Non-vacuity for ppdire: two components of two predictors, two different indices. -/
example : ∃ (pinv : Pinv) (f f' : PpFit 3 2), ppFit (ppExPr true) pinv .ols (fun _ t => t 0) ppExX ![1, 5, 2] = .ok f ∧
    ppFit (ppExPr true) pinv .ols (fun _ t => t 1) ppExX ![1, 7, 3] = .ok f' ∧ Steady ![1, 5, 2] f.fitted ![1, 7, 3] f'.fitted := by
  obtain ⟨pinv, hp⟩ := exists_pinv
  obtain ⟨f, hf⟩ := ppExFit true pinv .ols (fun _ t => t 0) ![1, 5, 2]
  obtain ⟨f', hf'⟩ := ppExFit true pinv .ols (fun _ t => t 1) ![1, 7, 3]
  have hr : ∀ {y : Fin 3 → ℝ} {φ : (Fin 3 → ℝ) → (Fin 3 → ℝ) → ℝ} {g : PpFit 3 2}, ppFit (ppExPr true) pinv .ols φ ppExX y = .ok g →
      (ppExPr true).nComponents = (Matrix.of (stdMat ppExX g.xLoc g.xSca)).rank := fun hg =>
    le_antisymm (C186_ppdire_full _ _ _ _ _ _ _ hg).1 (Matrix.rank_le_width _)
  exact ⟨pinv, f, f', hf, hf', (C197_ppdire (pr'' := ppExPr true) (φ'' := fun _ t => t 0) ⟨rfl, rfl, rfl⟩ ⟨rfl, rfl, rfl⟩ ⟨rfl, rfl, rfl⟩ hp hf hf' (hr hf) (hr hf')).1⟩

/-- Non-vacuity for sudire. -/
example : ∃ (ext : SdExt) (o : SdObj) (f : SdFit 6 2) (u : Fin 6 → ℝ), (SdObj.new iht2Params).fit ext (sixX 1) sixY = .ok (o, f) ∧ f.predict (sixX 1) = .ok u ∧
    Steady sixY u sixY u := by
  obtain ⟨ext, o, f, h1, -, h2, -, h3, h4⟩ := iht2_fits sixY
  obtain ⟨u, u', hu, hu', hs, -⟩ := C197_sudire (o'' := SdObj.new iht2Params) (o1'' := o) h1 h2 h2 h2 h3 h3 h4 h4
  obtain rfl : u = u' := by rw [hu] at hu'; exact Except.ok.inj hu'
  exact ⟨ext, o, f, u, h3, hu, hs⟩

end Direpack
