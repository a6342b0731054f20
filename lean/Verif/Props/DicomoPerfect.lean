import Mathlib.Tactic.Linarith
import Mathlib.Tactic.LinearCombination
import Mathlib.Tactic.FieldSimp
import Mathlib.Tactic.FinCases
import Verif.Props.DicomoDist

/-! Property C144: when distance variance is zero and when distance correlation is one. -/

namespace Direpack

open scoped BigOperators
open Spec

/-- A symmetric matrix with zero diagonal whose doubly centred matrix vanishes is zero. -/
lemma zero_of_dcen {n : ℕ} (a : Fin n → Fin n → ℝ) (hs : ∀ i j, a i j = a j i) (h0 : ∀ i, a i i = 0) (h : ∀ i j, dcen a i j = 0) (i j : Fin n) :
    a i j = 0 := by
  have hr : ∀ i, ∑ k, a k i = ∑ k, a i k := fun i => Finset.sum_congr rfl fun k _ => hs k i
  have h1 := h i i
  have h2 := h j j
  have h3 := h i j
  unfold dcen at h1 h2 h3
  rw [h0, hr] at h1
  rw [h0, hr] at h2
  rw [hr] at h3
  linarith

lemma dcen_sub_smul {n : ℕ} (c : ℝ) (a b : Fin n → Fin n → ℝ) (i j : Fin n) : dcen (fun i j => b i j - c * a i j) i j = dcen b i j - c * dcen a i j := by
  unfold dcen
  simp only [Finset.sum_sub_distrib, ← Finset.mul_sum]
  ring

lemma rowDist_symm {p : ℕ} (u v : Fin p → ℝ) : rowDist u v = rowDist v u := by
  unfold rowDist
  congr 1
  exact Finset.sum_congr rfl fun j _ => by ring

lemma rowDist_zero {p : ℕ} {u v : Fin p → ℝ} : rowDist u v = 0 ↔ u = v := by
  unfold rowDist
  rw [Real.sqrt_eq_zero (Finset.sum_nonneg fun j _ => sq_nonneg _), Finset.sum_eq_zero_iff_of_nonneg fun j _ => sq_nonneg _]
  constructor
  · intro h
    funext j
    have := h j (Finset.mem_univ j)
    exact sub_eq_zero.mp (pow_eq_zero_iff two_ne_zero |>.mp this)
  · rintro rfl j -
    simp

/-- If the centred distances of `y` are `c` times those of `x`, so are the distances. -/
lemma rowDist_of_dcen {n p q : ℕ} (c : ℝ) (x : Fin n → Fin p → ℝ) (y : Fin n → Fin q → ℝ)
    (h : ∀ i j, dcen (fun i j => rowDist (y i) (y j)) i j = c * dcen (fun i j => rowDist (x i) (x j)) i j) (i j : Fin n) :
    rowDist (y i) (y j) = c * rowDist (x i) (x j) := by
  have := zero_of_dcen (fun i j => rowDist (y i) (y j) - c * rowDist (x i) (x j)) (fun i j => by rw [rowDist_symm (y i), rowDist_symm (x i)])
    (fun i => by rw [rowDist_zero.mpr rfl, rowDist_zero.mpr rfl]; simp) (fun i j => by rw [dcen_sub_smul, h, sub_self]) i j
  linarith

lemma dcov2_self_zero {n p : ℕ} (hn : 0 < n) (x : Fin n → Fin p → ℝ) : dcov2 x x = 0 ↔ ∀ i j, x i = x j := by
  have hn' : (n : ℝ) ^ 2 ≠ 0 := pow_ne_zero 2 (by exact_mod_cast hn.ne')
  constructor
  · intro h i j
    unfold dcov2 at h
    rw [div_eq_zero_iff, or_iff_left hn'] at h
    have hz : ∀ i j, dcen (fun i j => rowDist (x i) (x j)) i j = 0 := by
      intro i j
      have h1 := (Finset.sum_eq_zero_iff_of_nonneg fun i _ => Finset.sum_nonneg fun j _ => mul_self_nonneg _).mp h i (Finset.mem_univ i)
      have h2 := (Finset.sum_eq_zero_iff_of_nonneg fun j _ => mul_self_nonneg _).mp h1 j (Finset.mem_univ j)
      exact mul_self_eq_zero.mp h2
    have := rowDist_of_dcen 0 x x (fun i j => by rw [hz, zero_mul]) i j
    rw [zero_mul] at this
    exact rowDist_zero.mp this
  · intro h
    have : ∀ i j, rowDist (x i) (x j) = 0 := fun i j => rowDist_zero.mpr (h i j)
    simp [dcov2, dcen, this]

/-- C144: the distance variance is zero exactly for data whose cases are all the same. -/
theorem C144_dvar_zero {n p q : ℕ} (hn : 0 < n) (a : FitArgs) (ht : a.trimming = 0) (hb : a.biascorr = false)
    (x : Fin n → Fin p → ℝ) (y : Fin n → Fin q → ℝ) :
    ∃ v, run .distance .var .mean a (dmat x) (dmat y) = .ok v ∧ (v = 0 ↔ ∀ i j, x i = x j) :=
  ⟨_, run_dvar hn a ht hb x y, by rw [Real.sqrt_eq_zero (dcov2_nonneg hn x x), dcov2_self_zero hn x]⟩

lemma dcov2_equality {n p q : ℕ} (hn : 0 < n) (x : Fin n → Fin p → ℝ) (y : Fin n → Fin q → ℝ) (hx : ¬ ∀ i j, x i = x j) (hy : ¬ ∀ i j, y i = y j) :
    dcov2 x y = √(dcov2 x x) * √(dcov2 y y) ↔ ∃ c, 0 < c ∧ ∀ i j, rowDist (y i) (y j) = c * rowDist (x i) (x j) := by
  have hn' : (0 : ℝ) < (n : ℝ) ^ 2 := pow_pos (by exact_mod_cast hn) 2
  have hxx : 0 < dcov2 x x := lt_of_le_of_ne (dcov2_nonneg hn x x) fun h => hx ((dcov2_self_zero hn x).mp h.symm)
  have hyy : 0 < dcov2 y y := lt_of_le_of_ne (dcov2_nonneg hn y y) fun h => hy ((dcov2_self_zero hn y).mp h.symm)
  constructor
  · intro h
    have hxy : 0 < dcov2 x y := by rw [h]; positivity
    have hsq : dcov2 x y ^ 2 = dcov2 x x * dcov2 y y := by
      rw [h, mul_pow, Real.sq_sqrt hxx.le, Real.sq_sqrt hyy.le]
    refine ⟨dcov2 x y / dcov2 x x, div_pos hxy hxx, rowDist_of_dcen _ x y ?_⟩
    set c := dcov2 x y / dcov2 x x with hc
    set A := dcen (fun i j => rowDist (x i) (x j)) with hA
    set B := dcen (fun i j => rowDist (y i) (y j)) with hB
    have e : (∑ i, ∑ j, (B i j - c * A i j) * (B i j - c * A i j)) / (n : ℝ) ^ 2 = dcov2 y y - 2 * c * dcov2 x y + c ^ 2 * dcov2 x x := by
      have e1 : ∑ i, ∑ j, (B i j - c * A i j) * (B i j - c * A i j) =
          ∑ i, ∑ j, B i j * B i j - 2 * c * ∑ i, ∑ j, A i j * B i j + c ^ 2 * ∑ i, ∑ j, A i j * A i j := by
        simp only [Finset.mul_sum, ← Finset.sum_sub_distrib, ← Finset.sum_add_distrib]
        exact Finset.sum_congr rfl fun i _ => Finset.sum_congr rfl fun j _ => by ring
      rw [e1]
      show _ = (∑ i, ∑ j, B i j * B i j) / (n : ℝ) ^ 2 - 2 * c * ((∑ i, ∑ j, A i j * B i j) / (n : ℝ) ^ 2) +
        c ^ 2 * ((∑ i, ∑ j, A i j * A i j) / (n : ℝ) ^ 2)
      ring
    have e0 : dcov2 y y - 2 * c * dcov2 x y + c ^ 2 * dcov2 x x = 0 := by
      rw [hc]
      field_simp
      linarith
    rw [e0, div_eq_zero_iff, or_iff_left hn'.ne'] at e
    intro i j
    have h1 := (Finset.sum_eq_zero_iff_of_nonneg fun i _ => Finset.sum_nonneg fun j _ => mul_self_nonneg _).mp e i (Finset.mem_univ i)
    have h2 := (Finset.sum_eq_zero_iff_of_nonneg fun j _ => mul_self_nonneg _).mp h1 j (Finset.mem_univ j)
    exact sub_eq_zero.mp (mul_self_eq_zero.mp h2)
  · rintro ⟨c, hc, h⟩
    have e1 : dcov2 x y = c * dcov2 x x := by
      unfold dcov2
      simp only [h, dcen_smul, Finset.mul_sum, mul_div_assoc']
      congr 1
      exact Finset.sum_congr rfl fun i _ => Finset.sum_congr rfl fun j _ => by ring
    have e2 : dcov2 y y = c ^ 2 * dcov2 x x := by
      unfold dcov2
      simp only [h, dcen_smul, Finset.mul_sum, mul_div_assoc']
      congr 1
      exact Finset.sum_congr rfl fun i _ => Finset.sum_congr rfl fun j _ => by ring
    rw [e1, e2, Real.sqrt_mul (sq_nonneg c), Real.sqrt_sq hc.le]
    nlinarith [Real.mul_self_sqrt hxx.le]

/-- C144: the distance correlation of two data sets, none of which consists of equal cases, is one exactly if the distances between cases of one are a
multiple of the distances between cases of the other. -/
theorem C144_dcorr_one {n p q : ℕ} (hn : 0 < n) (a : FitArgs) (ht : a.trimming = 0) (hb : a.biascorr = false)
    (ho : a.order = 2) (hy : a.fast = true ∨ a.y1d = false) (x : Fin n → Fin p → ℝ) (y : Fin n → Fin q → ℝ)
    (hx : ¬ ∀ i j, x i = x j) (hyc : ¬ ∀ i j, y i = y j) :
    run .distance .corr .mean a (dmat x) (dmat y) = .ok 1 ↔ ∃ c, 0 < c ∧ ∀ i j, rowDist (y i) (y j) = c * rowDist (x i) (x j) := by
  have hxx : 0 < dcov2 x x := lt_of_le_of_ne (dcov2_nonneg hn x x) fun h => hx ((dcov2_self_zero hn x).mp h.symm)
  have hyy : 0 < dcov2 y y := lt_of_le_of_ne (dcov2_nonneg hn y y) fun h => hyc ((dcov2_self_zero hn y).mp h.symm)
  rw [run_dcorr hn a ht hb ho hy x y, ← dcov2_equality hn x y hx hyc, Except.ok.injEq, div_eq_one_iff_eq (by positivity),
    ← Real.sqrt_mul (Real.sqrt_nonneg _), Real.sqrt_inj (dcov2_nonneg hn x y) (by positivity)]

/-- C144: for two variables this means that one is a linear function of the other. -/
theorem C144_dcorr_one_linear {n : ℕ} (hn : 0 < n) (a : FitArgs) (ht : a.trimming = 0) (hb : a.biascorr = false)
    (ho : a.order = 2) (hy : a.fast = true ∨ a.y1d = false) (x y : Fin n → ℝ)
    (hx : ¬ ∀ i j, x i = x j) (hyc : ¬ ∀ i j, y i = y j) :
    run .distance .corr .mean a (colMat x) (colMat y) = .ok 1 ↔ ∃ s t : ℝ, s ≠ 0 ∧ ∀ i, y i = s * x i + t := by
  have hd : ∀ u v : ℝ, rowDist (fun _ : Fin 1 => u) (fun _ => v) = |u - v| := fun u v => by
    simp [rowDist, Real.sqrt_sq_eq_abs]
  have h := C144_dcorr_one hn a ht hb ho hy (fun i (_ : Fin 1) => x i) (fun i (_ : Fin 1) => y i)
    (fun hcon => hx fun i j => congrFun (hcon i j) 0) (fun hcon => hyc fun i j => congrFun (hcon i j) 0)
  refine h.trans ?_
  simp only [hd]
  constructor
  · rintro ⟨c, hc, hcd⟩
    push Not at hx
    obtain ⟨i1, i0, hne⟩ := hx
    have hU : x i1 - x i0 ≠ 0 := sub_ne_zero.mpr hne
    have hV : y i1 - y i0 ≠ 0 := by
      intro h0
      have := hcd i1 i0
      rw [h0, abs_zero] at this
      rcases mul_eq_zero.mp this.symm with h | h
      · exact hc.ne' h
      · exact hU (abs_eq_zero.mp h)
    have hsq : ∀ i j, (y i - y j) ^ 2 = c ^ 2 * (x i - x j) ^ 2 := fun i j => by
      rw [← sq_abs, hcd, mul_pow, sq_abs]
    refine ⟨(y i1 - y i0) / (x i1 - x i0), y i0 - (y i1 - y i0) / (x i1 - x i0) * x i0, div_ne_zero hV hU, fun i => ?_⟩
    have h1 := hsq i i0
    have h2 := hsq i1 i0
    have h3 := hsq i i1
    have h4 : (y i - y i0) * (y i1 - y i0) = c ^ 2 * ((x i - x i0) * (x i1 - x i0)) := by linear_combination (h1 + h2 - h3) / 2
    have h5 : (y i - y i0) * (x i1 - x i0) = (x i - x i0) * (y i1 - y i0) := by
      refine mul_right_cancel₀ hV ?_
      linear_combination (x i1 - x i0) * h4 - (x i - x i0) * h2
    field_simp
    linear_combination h5
  · rintro ⟨s, t, hs, hst⟩
    refine ⟨|s|, abs_pos.mpr hs, fun i j => ?_⟩
    rw [hst, hst, ← abs_mul]
    congr 1
    ring

/-- Three cases on a line and their images under `y = 1 - 2 x`: the hypotheses hold and the correlation is one. -/
example : run .distance .corr .mean {} (colMat (![0, 1, 3] : Fin 3 → ℝ)) (colMat ![1, -1, -5]) = .ok 1 := by
  refine (C144_dcorr_one_linear (by norm_num) {} rfl rfl rfl (.inl rfl) _ _ ?_ ?_).mpr ⟨-2, 1, by norm_num, ?_⟩
  · intro h; have := h 0 1; norm_num at this
  · intro h; have := h 0 1; norm_num at this
  · intro i; fin_cases i <;> norm_num

/-- Unequal spacings: the correlation is not one. -/
example : run .distance .corr .mean {} (colMat (![0, 1, 3] : Fin 3 → ℝ)) (colMat ![0, 1, 9]) ≠ .ok 1 := by
  intro h
  obtain ⟨s, t, -, hst⟩ := (C144_dcorr_one_linear (by norm_num) {} rfl rfl rfl (.inl rfl) _ _ (fun h => by have := h 0 1; norm_num at this)
    (fun h => by have := h 0 1; norm_num at this)).mp h
  have h0 := hst 0
  have h1 := hst 1
  have h2 := hst 2
  simp at h0 h1 h2
  linarith

end Direpack
