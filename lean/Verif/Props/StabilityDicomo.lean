import Verif.Props.Dicomo2
import Verif.Props.DicomoDist
import Mathlib.Analysis.InnerProductSpace.PiL2

/-!
C195: the co-moments and the measures of dependence computed by dicomo move gradually with the data.
-/

namespace Direpack

open scoped BigOperators
open Spec

/-! ### Vectors -/

section Vec
variable {E : Type*} [NormedAddCommGroup E] [InnerProductSpace ℝ E]

lemma inner_move (a a' b b' : E) : |inner ℝ a b - inner ℝ a' b'| ≤ ‖a - a'‖ * ‖b‖ + ‖a'‖ * ‖b - b'‖ := by
  have h : inner ℝ a b - inner ℝ a' b' = inner ℝ (a - a') b + inner ℝ a' (b - b') := by
    rw [inner_sub_left, inner_sub_right]; ring
  rw [h]
  exact (abs_add_le _ _).trans (add_le_add (abs_real_inner_le_norm _ _) (abs_real_inner_le_norm _ _))

lemma unit_move {a : E} (ha : a ≠ 0) (a' : E) : ‖(‖a‖)⁻¹ • a - (‖a'‖)⁻¹ • a'‖ ≤ 2 * ‖a - a'‖ / ‖a‖ := by
  have hp : 0 < ‖a‖ := norm_pos_iff.mpr ha
  have e : (‖a‖)⁻¹ • a - (‖a'‖)⁻¹ • a' = (‖a‖)⁻¹ • (a - a') + ((‖a‖)⁻¹ - (‖a'‖)⁻¹) • a' := by
    rw [smul_sub, sub_smul]; abel
  rw [e]
  refine (norm_add_le _ _).trans ?_
  rw [norm_smul, norm_smul, norm_inv, norm_norm, Real.norm_eq_abs]
  have h2 : |(‖a‖)⁻¹ - (‖a'‖)⁻¹| * ‖a'‖ ≤ (‖a‖)⁻¹ * ‖a - a'‖ := by
    by_cases h0 : ‖a'‖ = 0
    · rw [h0, mul_zero]; positivity
    have hp' : 0 < ‖a'‖ := lt_of_le_of_ne (norm_nonneg _) (Ne.symm h0)
    have : |(‖a‖)⁻¹ - (‖a'‖)⁻¹| * ‖a'‖ = (‖a‖)⁻¹ * |‖a'‖ - ‖a‖| := by
      rw [show (‖a‖)⁻¹ - (‖a'‖)⁻¹ = (‖a‖)⁻¹ * (‖a'‖)⁻¹ * (‖a'‖ - ‖a‖) by field_simp, abs_mul,
        abs_of_pos (by positivity)]
      field_simp
    rw [this, norm_sub_rev a a']
    exact mul_le_mul_of_nonneg_left (abs_norm_sub_norm_le _ _) (by positivity)
  calc _ ≤ (‖a‖)⁻¹ * ‖a - a'‖ + (‖a‖)⁻¹ * ‖a - a'‖ := by gcongr
    _ = 2 * ‖a - a'‖ / ‖a‖ := by field_simp; ring

lemma unit_norm_le (a : E) : ‖(‖a‖)⁻¹ • a‖ ≤ 1 := by
  rw [norm_smul, norm_inv, norm_norm]
  exact inv_mul_le_one

lemma cos_move {a b : E} (ha : a ≠ 0) (hb : b ≠ 0) (a' b' : E) :
    |inner ℝ a b / (‖a‖ * ‖b‖) - inner ℝ a' b' / (‖a'‖ * ‖b'‖)| ≤ 2 * ‖a - a'‖ / ‖a‖ + 2 * ‖b - b'‖ / ‖b‖ := by
  have e : ∀ u v : E, inner ℝ u v / (‖u‖ * ‖v‖) = inner ℝ ((‖u‖)⁻¹ • u) ((‖v‖)⁻¹ • v) := fun u v => by
    rw [real_inner_smul_left, real_inner_smul_right, div_eq_mul_inv, mul_inv]; ring
  rw [e, e]
  refine (inner_move _ _ _ _).trans (add_le_add ?_ ?_)
  · calc _ ≤ 2 * ‖a - a'‖ / ‖a‖ * 1 := mul_le_mul (unit_move ha a') (unit_norm_le b) (norm_nonneg _) (by positivity)
      _ = _ := mul_one _
  · calc _ ≤ 1 * (2 * ‖b - b'‖ / ‖b‖) := mul_le_mul (unit_norm_le a') (unit_move hb b') (norm_nonneg _) (by norm_num)
      _ = _ := one_mul _

end Vec

/-- A finite family of numbers as a vector. -/
noncomputable def vec {ι : Type} [Fintype ι] (f : ι → ℝ) : EuclideanSpace ℝ ι := WithLp.toLp 2 f

lemma vec_norm {ι : Type} [Fintype ι] (f : ι → ℝ) : ‖vec f‖ = √(∑ i, f i ^ 2) := by
  rw [EuclideanSpace.norm_eq]; simp [vec]

lemma vec_inner {ι : Type} [Fintype ι] (f g : ι → ℝ) : inner ℝ (vec f) (vec g) = ∑ i, f i * g i := by
  simp [vec, PiLp.inner_apply, mul_comm]

lemma vec_sub {ι : Type} [Fintype ι] (f g : ι → ℝ) : vec f - vec g = vec fun i => f i - g i := rfl

lemma vec_norm_le {ι : Type} [Fintype ι] {f : ι → ℝ} {δ : ℝ} (hδ : 0 ≤ δ) (h : ∀ i, |f i| ≤ δ) :
    ‖vec f‖ ≤ √(Fintype.card ι) * δ := by
  rw [vec_norm]
  refine Real.sqrt_le_iff.mpr ⟨by positivity, ?_⟩
  rw [mul_pow, Real.sq_sqrt (Nat.cast_nonneg _)]
  refine (Finset.sum_le_card_nsmul _ _ (δ ^ 2) fun i _ => ?_).trans (by simp)
  rw [← sq_abs (f i)]
  exact pow_le_pow_left₀ (abs_nonneg _) (h i) 2

/-! ### Centring shortens vectors -/

lemma sum_sq_centred_le {n : ℕ} (v : Fin n → ℝ) : ∑ i, (v i - avg v) ^ 2 ≤ ∑ i, v i ^ 2 := by
  by_cases hn : n = 0
  · subst hn; simp
  have hn' : (n : ℝ) ≠ 0 := by exact_mod_cast hn
  have : ∑ i, (v i - avg v) ^ 2 = ∑ i, v i ^ 2 - n * avg v ^ 2 := by
    have e : ∀ i, (v i - avg v) ^ 2 = v i ^ 2 - 2 * avg v * v i + avg v ^ 2 := fun i => by ring
    simp only [e, Finset.sum_add_distrib, Finset.sum_sub_distrib, ← Finset.mul_sum, Finset.sum_const, Finset.card_univ, Fintype.card_fin,
      nsmul_eq_mul]
    have : ∑ i, v i = n * avg v := by unfold avg; field_simp
    rw [this]; ring
  rw [this]
  have : 0 ≤ (n : ℝ) * avg v ^ 2 := by positivity
  linarith

lemma dcen_two_steps {n : ℕ} (a : Fin n → Fin n → ℝ) (i j : Fin n) :
    dcen a i j = (fun i j => a i j - avg (a i)) i j - avg fun k => a k j - avg (a k) := by
  unfold dcen avg
  simp only [Finset.sum_sub_distrib, ← Finset.sum_div]
  by_cases hn : (n : ℝ) = 0
  · simp [hn]
  · field_simp; ring

lemma dcen_norm_le {n : ℕ} (a : Fin n → Fin n → ℝ) : ∑ i, ∑ j, dcen a i j ^ 2 ≤ ∑ i, ∑ j, a i j ^ 2 := by
  have h1 : ∑ i, ∑ j, dcen a i j ^ 2 ≤ ∑ j, ∑ i, (a i j - avg (a i)) ^ 2 := by
    rw [Finset.sum_comm]
    refine Finset.sum_le_sum fun j _ => ?_
    simp only [dcen_two_steps]
    exact sum_sq_centred_le fun i => a i j - avg (a i)
  refine h1.trans ?_
  rw [Finset.sum_comm]
  exact Finset.sum_le_sum fun i _ => sum_sq_centred_le (a i)

lemma dcen_sub {n : ℕ} (a b : Fin n → Fin n → ℝ) (i j : Fin n) :
    dcen a i j - dcen b i j = dcen (fun i j => a i j - b i j) i j := by
  unfold dcen
  simp only [Finset.sum_sub_distrib]; ring

/-- Distances move by at most twice the largest move of a case. -/
lemma rowDist_move {p : ℕ} {u v u' v' : Fin p → ℝ} {ε : ℝ} (h : rowDist u u' ≤ ε) (h' : rowDist v v' ≤ ε) :
    |rowDist u v - rowDist u' v'| ≤ 2 * ε := by
  have e : ∀ u v : Fin p → ℝ, rowDist u v = dist (vec u) (vec v) := fun u v => by
    rw [dist_eq_norm, vec_sub, vec_norm]; rfl
  rw [e] at h h'
  rw [e, e]
  have := dist_dist_dist_le (vec u) (vec v) (vec u') (vec v')
  rw [Real.dist_eq] at this
  linarith

/-! ### The arithmetic statistics -/

/-- The centred variable as a vector. -/
noncomputable def cvec {n : ℕ} (x : Fin n → ℝ) : EuclideanSpace ℝ (Fin n) := vec fun i => x i - avg x

lemma cmom_inner {n : ℕ} (x y : Fin n → ℝ) : cmom x y 1 1 = inner ℝ (cvec x) (cvec y) / n := by
  unfold cmom cvec
  rw [vec_inner]
  simp [avg]

lemma cmom_norm {n : ℕ} (x : Fin n → ℝ) : √(cmom x x 1 1) = ‖cvec x‖ / √n := by
  rw [cmom_inner, real_inner_self_eq_norm_sq, Real.sqrt_div' _ (Nat.cast_nonneg n), Real.sqrt_sq (norm_nonneg _)]

lemma cvec_move {n : ℕ} {x x' : Fin n → ℝ} {ε : ℝ} (hε : 0 ≤ ε) (h : ∀ i, |x i - x' i| ≤ ε) : ‖cvec x - cvec x'‖ ≤ √n * ε := by
  have e : cvec x - cvec x' = vec fun i => (fun i => x i - x' i) i - avg fun i => x i - x' i := by
    unfold cvec
    rw [vec_sub]
    congr 1
    funext i
    unfold avg
    simp only [Finset.sum_sub_distrib]; ring
  rw [e, vec_norm]
  refine (Real.sqrt_le_sqrt (sum_sq_centred_le _)).trans ?_
  rw [← vec_norm]
  simpa using vec_norm_le hε h

/-- C195: the standard deviation moves no faster than the data. -/
theorem C195_std {n : ℕ} (hn : 0 < n) (a : FitArgs) (ht : a.trimming = 0) (hb : a.biascorr = false) (x x' y y' : Fin n → ℝ)
    (ε : ℝ) (hε : 0 ≤ ε) (h : ∀ i, |x i - x' i| ≤ ε) :
    ∃ s s', run .arithmetic .std .mean a (colMat x) (colMat y) = .ok s ∧ run .arithmetic .std .mean a (colMat x') (colMat y') = .ok s' ∧
      |s - s'| ≤ ε := by
  have key : ∀ u w : Fin n → ℝ, run .arithmetic .std .mean a (colMat u) (colMat w) = .ok √(cmom u u 1 1) := by
    intro u w
    rw [C78_std_sqrt_var_partial hn a ht hb, run_var hn, ht, hb, trimMom_mean0 _ _ _ (le_refl 2), momFactor_two]
    simp [Except.map, exps]
  refine ⟨_, _, key x y, key x' y', ?_⟩
  have hn' : 0 < √(n : ℝ) := Real.sqrt_pos.mpr (by exact_mod_cast hn)
  rw [cmom_norm, cmom_norm, ← sub_div, abs_div, abs_of_pos hn', div_le_iff₀ hn', mul_comm ε]
  exact (abs_norm_sub_norm_le _ _).trans (cvec_move hε h)

/-- C195: if the first variable moves by at most `ε` and the second by at most `ε'`, their covariance moves by at most `ε` times the standard deviation of
the second plus `ε'` times that of the first (times the bias correction, if there is one). -/
theorem C195_cov {n : ℕ} (hn : 2 ≤ n) (a : FitArgs) (ht : a.trimming = 0) (x x' y y' : Fin n → ℝ)
    (ε ε' : ℝ) (hε : 0 ≤ ε) (hε' : 0 ≤ ε') (h : ∀ i, |x i - x' i| ≤ ε) (h' : ∀ i, |y i - y' i| ≤ ε') :
    ∃ c c', run .arithmetic .cov .mean a (colMat x) (colMat y) = .ok c ∧ run .arithmetic .cov .mean a (colMat x') (colMat y') = .ok c' ∧
      |c - c'| ≤ (ε * √(cmom y y 1 1) + ε' * √(cmom x' x' 1 1)) * (if a.biascorr then (n : ℝ) / (n - 1) else 1) := by
  have hn0 : 0 < n := by omega
  have key : ∀ u w : Fin n → ℝ, run .arithmetic .cov .mean a (colMat u) (colMat w) =
      .ok (cmom u w 1 1 * (if a.biascorr then (n : ℝ) / (n - 1) else 1)) := by
    intro u w
    rw [run_cov hn0, ht, trimMom_mean0 _ _ _ (le_refl 2), momFactor_two]; rfl
  refine ⟨_, _, key x y, key x' y', ?_⟩
  have hf : (0 : ℝ) ≤ if a.biascorr then (n : ℝ) / (n - 1) else 1 := by
    have : (2 : ℝ) ≤ n := by exact_mod_cast hn
    split_ifs
    · apply div_nonneg <;> linarith
    · norm_num
  rw [← sub_mul, abs_mul, abs_of_nonneg hf]
  refine mul_le_mul_of_nonneg_right ?_ hf
  have hn' : 0 < √(n : ℝ) := Real.sqrt_pos.mpr (by exact_mod_cast hn0)
  have hnn : (0 : ℝ) < n := by exact_mod_cast hn0
  rw [cmom_inner, cmom_inner, ← sub_div, abs_div, abs_of_pos hnn, div_le_iff₀ hnn, cmom_norm, cmom_norm]
  refine (inner_move _ _ _ _).trans ?_
  have h1 := mul_le_mul_of_nonneg_right (cvec_move hε h) (norm_nonneg (cvec y))
  have h2 := mul_le_mul_of_nonneg_left (cvec_move hε' h') (norm_nonneg (cvec x'))
  have hs : (n : ℝ) = √n * √n := (Real.mul_self_sqrt hnn.le).symm
  calc _ ≤ √n * ε * ‖cvec y‖ + ‖cvec x'‖ * (√n * ε') := add_le_add h1 h2
    _ = (ε * (‖cvec y‖ / √n) + ε' * (‖cvec x'‖ / √n)) * (√n * √n) := by field_simp
    _ = _ := by rw [← hs]

/-- C195: the correlation moves by at most twice the moves of the variables measured in their standard deviations. -/
theorem C195_corr {n : ℕ} (hn : 2 ≤ n) (a : FitArgs) (ht : a.trimming = 0) (ho : a.order = 2) (x x' y y' : Fin n → ℝ)
    (hx : ¬ ∀ i j, x i = x j) (hy : ¬ ∀ i j, y i = y j)
    (ε ε' : ℝ) (hε : 0 ≤ ε) (hε' : 0 ≤ ε') (h : ∀ i, |x i - x' i| ≤ ε) (h' : ∀ i, |y i - y' i| ≤ ε') :
    ∃ r r', run .arithmetic .corr .mean a (colMat x) (colMat y) = .ok r ∧ run .arithmetic .corr .mean a (colMat x') (colMat y') = .ok r' ∧
      |r - r'| ≤ 2 * ε / √(cmom x x 1 1) + 2 * ε' / √(cmom y y 1 1) := by
  have hn0 : 0 < n := by omega
  have hnn : (0 : ℝ) < n := by exact_mod_cast hn0
  have hn' : 0 < √(n : ℝ) := Real.sqrt_pos.mpr hnn
  have hne : ∀ u : Fin n → ℝ, (¬ ∀ i j, u i = u j) → cvec u ≠ 0 := fun u hu h0 => hu ((cmom_self_eq_zero hn0 u).mp (by
    rw [cmom_inner, h0, inner_zero_left, zero_div]))
  have hs : √(n : ℝ) * √n = n := Real.mul_self_sqrt hnn.le
  have e : ∀ u w : Fin n → ℝ, cmom u w 1 1 / (√(cmom u u 1 1) * √(cmom w w 1 1)) =
      inner ℝ (cvec u) (cvec w) / (‖cvec u‖ * ‖cvec w‖) := fun u w => by
    rw [cmom_norm, cmom_norm, cmom_inner, div_mul_div_comm, hs, div_div_div_cancel_right₀ hnn.ne']
  refine ⟨_, _, corr_value hn a ht ho x y, corr_value hn a ht ho x' y', ?_⟩
  rw [e, e, cmom_norm, cmom_norm]
  refine (cos_move (hne x hx) (hne y hy) _ _).trans ?_
  have hpx : 0 < ‖cvec x‖ := norm_pos_iff.mpr (hne x hx)
  have hpy : 0 < ‖cvec y‖ := norm_pos_iff.mpr (hne y hy)
  have h1 := cvec_move hε h
  have h2 := cvec_move hε' h'
  refine add_le_add ?_ ?_
  · rw [div_div_eq_mul_div]
    exact div_le_div_of_nonneg_right (by linarith) hpx.le
  · rw [div_div_eq_mul_div]
    exact div_le_div_of_nonneg_right (by linarith) hpy.le

/-! ### The distance statistics -/

/-- The doubly centred distances as a vector. -/
noncomputable def dvec {n p : ℕ} (x : Fin n → Fin p → ℝ) : EuclideanSpace ℝ (Fin n × Fin n) :=
  vec fun ij => dcen (fun i j => rowDist (x i) (x j)) ij.1 ij.2

lemma dcov2_inner {n p q : ℕ} (x : Fin n → Fin p → ℝ) (y : Fin n → Fin q → ℝ) :
    dcov2 x y = inner ℝ (dvec x) (dvec y) / (n : ℝ) ^ 2 := by
  unfold dcov2 dvec
  rw [vec_inner, Fintype.sum_prod_type]

lemma dcov2_norm {n p : ℕ} (x : Fin n → Fin p → ℝ) : √(dcov2 x x) = ‖dvec x‖ / n := by
  rw [dcov2_inner, real_inner_self_eq_norm_sq, ← div_pow, Real.sqrt_sq (by positivity)]

lemma dvec_move {n p : ℕ} {x x' : Fin n → Fin p → ℝ} {ε : ℝ} (hε : 0 ≤ ε) (h : ∀ i, rowDist (x i) (x' i) ≤ ε) :
    ‖dvec x - dvec x'‖ ≤ n * (2 * ε) := by
  unfold dvec
  rw [vec_sub]
  simp only [dcen_sub]
  rw [vec_norm, Fintype.sum_prod_type]
  refine (Real.sqrt_le_sqrt (dcen_norm_le _)).trans ?_
  have := vec_norm_le (ι := Fin n × Fin n) (f := fun ij => rowDist (x ij.1) (x ij.2) - rowDist (x' ij.1) (x' ij.2)) (δ := 2 * ε) (by linarith)
    fun ij => rowDist_move (h _) (h _)
  rw [vec_norm, Fintype.sum_prod_type] at this
  simpa [Real.sqrt_mul_self (Nat.cast_nonneg n)] using this

/-- C195: if every case moves by at most `ε` (Euclidean distance), the distance variance moves by at most `2ε`. -/
theorem C195_distance_variance {n p q : ℕ} (hn : 0 < n) (a : FitArgs) (ht : a.trimming = 0) (hb : a.biascorr = false)
    (x x' : Fin n → Fin p → ℝ) (y y' : Fin n → Fin q → ℝ) (ε : ℝ) (hε : 0 ≤ ε) (h : ∀ i, rowDist (x i) (x' i) ≤ ε) :
    ∃ v v', run .distance .var .mean a (dmat x) (dmat y) = .ok v ∧ run .distance .var .mean a (dmat x') (dmat y') = .ok v' ∧
      |v - v'| ≤ 2 * ε := by
  refine ⟨_, _, run_dvar hn a ht hb x y, run_dvar hn a ht hb x' y', ?_⟩
  have hnn : (0 : ℝ) < n := by exact_mod_cast hn
  rw [dcov2_norm, dcov2_norm, ← sub_div, abs_div, abs_of_pos hnn, div_le_iff₀ hnn, mul_comm (2 * ε)]
  exact (abs_norm_sub_norm_le _ _).trans (dvec_move hε h)

/-- C195: the squared distance covariance moves by at most `2ε` times the distance variance of the second data set plus `2ε'` times that of the first. -/
theorem C195_distance_covariance {n p q : ℕ} (hn : 0 < n) (a : FitArgs) (ht : a.trimming = 0) (hb : a.biascorr = false)
    (hy1 : a.fast = true ∨ a.y1d = false) (x x' : Fin n → Fin p → ℝ) (y y' : Fin n → Fin q → ℝ) (ε ε' : ℝ) (hε : 0 ≤ ε) (hε' : 0 ≤ ε')
    (h : ∀ i, rowDist (x i) (x' i) ≤ ε) (h' : ∀ i, rowDist (y i) (y' i) ≤ ε') :
    ∃ c c', run .distance .cov .mean a (dmat x) (dmat y) = .ok c ∧ run .distance .cov .mean a (dmat x') (dmat y') = .ok c' ∧
      |c ^ 2 - c' ^ 2| ≤ 2 * ε * √(dcov2 y y) + 2 * ε' * √(dcov2 x' x') := by
  refine ⟨_, _, run_dcov hn a ht hb hy1 x y, run_dcov hn a ht hb hy1 x' y', ?_⟩
  have hnn : (0 : ℝ) < n := by exact_mod_cast hn
  rw [Real.sq_sqrt (dcov2_nonneg hn x y), Real.sq_sqrt (dcov2_nonneg hn x' y'), dcov2_inner, dcov2_inner, ← sub_div, abs_div,
    abs_of_pos (pow_pos hnn 2), div_le_iff₀ (pow_pos hnn 2), dcov2_norm, dcov2_norm]
  refine (inner_move _ _ _ _).trans ?_
  have h1 := mul_le_mul_of_nonneg_right (dvec_move hε h) (norm_nonneg (dvec y))
  have h2 := mul_le_mul_of_nonneg_left (dvec_move hε' h') (norm_nonneg (dvec x'))
  calc _ ≤ n * (2 * ε) * ‖dvec y‖ + ‖dvec x'‖ * (n * (2 * ε')) := add_le_add h1 h2
    _ = _ := by field_simp

/-- C195: the squared distance correlation moves by at most four times the moves of the data measured in their distance variances. -/
theorem C195_distance_correlation {n p q : ℕ} (hn : 0 < n) (a : FitArgs) (ht : a.trimming = 0) (hb : a.biascorr = false) (ho : a.order = 2)
    (hy1 : a.fast = true ∨ a.y1d = false) (x x' : Fin n → Fin p → ℝ) (y y' : Fin n → Fin q → ℝ)
    (hx : dcov2 x x ≠ 0) (hy : dcov2 y y ≠ 0) (ε ε' : ℝ) (hε : 0 ≤ ε) (hε' : 0 ≤ ε')
    (h : ∀ i, rowDist (x i) (x' i) ≤ ε) (h' : ∀ i, rowDist (y i) (y' i) ≤ ε') :
    ∃ r r', run .distance .corr .mean a (dmat x) (dmat y) = .ok r ∧ run .distance .corr .mean a (dmat x') (dmat y') = .ok r' ∧
      |r ^ 2 - r' ^ 2| ≤ 4 * ε / √(dcov2 x x) + 4 * ε' / √(dcov2 y y) := by
  refine ⟨_, _, run_dcorr hn a ht hb ho hy1 x y, run_dcorr hn a ht hb ho hy1 x' y', ?_⟩
  have hnn : (0 : ℝ) < n := by exact_mod_cast hn
  have hne : ∀ {m : ℕ} (u : Fin n → Fin m → ℝ), dcov2 u u ≠ 0 → dvec u ≠ 0 := fun u hu h0 => hu (by
    rw [dcov2_inner, h0, inner_zero_left, zero_div])
  have e : ∀ (u : Fin n → Fin p → ℝ) (w : Fin n → Fin q → ℝ), (√(dcov2 u w) / (√√(dcov2 u u) * √√(dcov2 w w))) ^ 2 =
      inner ℝ (dvec u) (dvec w) / (‖dvec u‖ * ‖dvec w‖) := fun u w => by
    rw [div_pow, mul_pow, Real.sq_sqrt (dcov2_nonneg hn u w), Real.sq_sqrt (Real.sqrt_nonneg _), Real.sq_sqrt (Real.sqrt_nonneg _),
      dcov2_norm, dcov2_norm, dcov2_inner, div_mul_div_comm, ← sq, div_div_div_cancel_right₀ (pow_pos hnn 2).ne']
  rw [e, e, dcov2_norm, dcov2_norm]
  refine (cos_move (hne x hx) (hne y hy) _ _).trans ?_
  have hpx : 0 < ‖dvec x‖ := norm_pos_iff.mpr (hne x hx)
  have hpy : 0 < ‖dvec y‖ := norm_pos_iff.mpr (hne y hy)
  have h1 := dvec_move hε h
  have h2 := dvec_move hε' h'
  refine add_le_add ?_ ?_
  · rw [div_div_eq_mul_div]
    exact div_le_div_of_nonneg_right (by linarith) hpx.le
  · rw [div_div_eq_mul_div]
    exact div_le_div_of_nonneg_right (by linarith) hpy.le

/-! ### The martingale difference divergence -/

lemma mdd2_dcen {n p : ℕ} (hn : 0 < n) (x : Fin n → Fin p → ℝ) (y : Fin n → ℝ) :
    mdd2 x y = -(inner ℝ (vec fun ij : Fin n × Fin n => (y ij.1 - avg y) * (y ij.2 - avg y)) (dvec x)) / (n : ℝ) ^ 2 := by
  unfold mdd2 dvec
  rw [vec_inner, Fintype.sum_prod_type]
  have := dcen_quad hn (fun i j => rowDist (x i) (x j)) (fun i => y i - avg y)
  have h0 : avg (fun i => y i - avg y) = 0 := by unfold avg; rw [show ∑ i, (y i - (∑ i, y i) / n) = 0 from sum_sub_avg hn y, zero_div]
  simp only [h0, sub_zero] at this
  rw [← this]

lemma outer_norm {n : ℕ} (u w : Fin n → ℝ) : ‖vec fun ij : Fin n × Fin n => u ij.1 * w ij.2‖ = ‖vec u‖ * ‖vec w‖ := by
  rw [vec_norm, vec_norm, vec_norm, Fintype.sum_prod_type, ← Real.sqrt_mul (Finset.sum_nonneg fun _ _ => sq_nonneg _), Finset.sum_mul_sum]
  simp only [mul_pow]

lemma outer_move {n : ℕ} (u u' : Fin n → ℝ) :
    ‖(vec fun ij : Fin n × Fin n => u ij.1 * u ij.2) - vec fun ij : Fin n × Fin n => u' ij.1 * u' ij.2‖ ≤
      ‖vec u - vec u'‖ * (‖vec u‖ + ‖vec u'‖) := by
  have e : ((vec fun ij : Fin n × Fin n => u ij.1 * u ij.2) - vec fun ij : Fin n × Fin n => u' ij.1 * u' ij.2) =
      (vec fun ij : Fin n × Fin n => (fun i => u i - u' i) ij.1 * u ij.2) + vec fun ij : Fin n × Fin n => u' ij.1 * (fun i => u i - u' i) ij.2 := by
    ext ij
    change u ij.1 * u ij.2 - u' ij.1 * u' ij.2 = (u ij.1 - u' ij.1) * u ij.2 + u' ij.1 * (u ij.2 - u' ij.2)
    ring
  rw [e]
  refine (norm_add_le _ _).trans ?_
  rw [outer_norm (fun i => u i - u' i) u, outer_norm u' (fun i => u i - u' i), ← vec_sub]
  linarith [mul_comm ‖vec u'‖ ‖vec u - vec u'‖]

lemma mdd_bound {N r ε ε' B c c' : ℝ} (hr : 0 < r) (hs : r * r = N) :
    N * (2 * ε) * (c * c) + B * (r * ε' * (c + c')) = (2 * ε * (c * c / N) + ε' * (c / r + c' / r) * (B / N)) * N ^ 2 := by
  subst hs
  field_simp

/-- The response part of the divergence as a vector. -/
noncomputable def ovec {n : ℕ} (y : Fin n → ℝ) : EuclideanSpace ℝ (Fin n × Fin n) :=
  vec fun ij => (y ij.1 - avg y) * (y ij.2 - avg y)

lemma ovec_norm {n : ℕ} (y : Fin n → ℝ) : ‖ovec y‖ = ‖cvec y‖ * ‖cvec y‖ := by
  unfold ovec cvec
  exact outer_norm (fun i => y i - avg y) (fun i => y i - avg y)

lemma ovec_move {n : ℕ} {y y' : Fin n → ℝ} {ε' : ℝ} (hε' : 0 ≤ ε') (h' : ∀ i, |y i - y' i| ≤ ε') :
    ‖ovec y - ovec y'‖ ≤ √n * ε' * (‖cvec y‖ + ‖cvec y'‖) := by
  have hm : ‖ovec y - ovec y'‖ ≤ ‖cvec y - cvec y'‖ * (‖cvec y‖ + ‖cvec y'‖) := by
    unfold ovec cvec
    exact outer_move (fun i => y i - avg y) (fun i => y' i - avg y')
  exact hm.trans (mul_le_mul_of_nonneg_right (cvec_move hε' h') (by positivity))

lemma mdd2_move {n p : ℕ} (hn : 0 < n) {x x' : Fin n → Fin p → ℝ} {y y' : Fin n → ℝ} {ε ε' : ℝ} (hε : 0 ≤ ε) (hε' : 0 ≤ ε')
    (h : ∀ i, rowDist (x i) (x' i) ≤ ε) (h' : ∀ i, |y i - y' i| ≤ ε') :
    |mdd2 x y - mdd2 x' y'| ≤ 2 * ε * cmom y y 1 1 + ε' * (√(cmom y y 1 1) + √(cmom y' y' 1 1)) * √(dcov2 x' x') := by
  have hnn : (0 : ℝ) < n := by exact_mod_cast hn
  have hn' : 0 < √(n : ℝ) := Real.sqrt_pos.mpr hnn
  have hs : √(n : ℝ) * √n = n := Real.mul_self_sqrt hnn.le
  have e1 : mdd2 x y = -(inner ℝ (dvec x) (ovec y)) / (n : ℝ) ^ 2 := by rw [real_inner_comm]; exact mdd2_dcen hn x y
  have e2 : mdd2 x' y' = -(inner ℝ (dvec x') (ovec y')) / (n : ℝ) ^ 2 := by rw [real_inner_comm]; exact mdd2_dcen hn x' y'
  have hv : cmom y y 1 1 = ‖cvec y‖ * ‖cvec y‖ / n := by rw [cmom_inner, real_inner_self_eq_norm_mul_norm]
  rw [e1, e2, ← sub_div, abs_div, abs_of_pos (pow_pos hnn 2), div_le_iff₀ (pow_pos hnn 2), neg_sub_neg, abs_sub_comm]
  refine (inner_move _ _ _ _).trans ?_
  rw [ovec_norm, cmom_norm, cmom_norm, dcov2_norm, hv]
  have h1 := mul_le_mul_of_nonneg_right (dvec_move hε h) (mul_nonneg (norm_nonneg (cvec y)) (norm_nonneg (cvec y)))
  have h2 := mul_le_mul_of_nonneg_left (ovec_move hε' h') (norm_nonneg (dvec x'))
  refine (add_le_add h1 h2).trans (le_of_eq ?_)
  exact mdd_bound hn' hs

/-- C195: the squared martingale difference divergence moves by at most `2ε` times the variance of the response plus `ε'` times the distance variance of the
predictors times the sum of the two standard deviations of the response. -/
theorem C195_mdd {n p : ℕ} (hn : 0 < n) (a : FitArgs) (ht : a.trimming = 0) (hb : a.biascorr = false)
    (x x' : Fin n → Fin p → ℝ) (y y' : Fin n → ℝ) (ε ε' : ℝ) (hε : 0 ≤ ε) (hε' : 0 ≤ ε')
    (h : ∀ i, rowDist (x i) (x' i) ≤ ε) (h' : ∀ i, |y i - y' i| ≤ ε') :
    ∃ m m', run .distance .mdd .mean a (dmat x) (colMat y) = .ok m ∧ run .distance .mdd .mean a (dmat x') (colMat y') = .ok m' ∧
      |m ^ 2 - m' ^ 2| ≤ 2 * ε * cmom y y 1 1 + ε' * (√(cmom y y 1 1) + √(cmom y' y' 1 1)) * √(dcov2 x' x') := by
  refine ⟨_, _, C38_mdd_class hn a ht hb x y, C38_mdd_class hn a ht hb x' y', ?_⟩
  rw [Real.sq_sqrt (mdd2_nonneg hn x y), Real.sq_sqrt (mdd2_nonneg hn x' y')]
  exact mdd2_move hn hε hε' h h'

/-- Rounding to whole numbers moves these data by at most 1/2, and none of them is constant. -/
example : (∀ i, |(![0.25, 1.5, 3] : Fin 3 → ℝ) i - (![0, 2, 3] : Fin 3 → ℝ) i| ≤ 1 / 2) ∧
    ¬ ∀ i j, (![0.25, 1.5, 3] : Fin 3 → ℝ) i = (![0.25, 1.5, 3] : Fin 3 → ℝ) j := by
  refine ⟨fun i => ?_, fun h => by have := h 0 1; norm_num at this⟩
  fin_cases i <;> norm_num [abs_le]

end Direpack
