import Mathlib.Tactic.Linarith
import Mathlib.Tactic.FieldSimp
import Mathlib.Tactic.Ring
import Verif.Props.Dicomo2
import Verif.Props.DicomoOrder

/-! Property C154: skewness, kurtosis and the odd moments obey the laws of moments. -/

namespace Direpack

open scoped BigOperators

variable {n : ℕ}

/-- The data are symmetric: with every case there is one that lies opposite, as seen from the point `(m, m')`. -/
def Spec.SymmetricPairs (x y : Fin n → ℝ) (m m' : ℝ) : Prop := ∃ σ : Equiv.Perm (Fin n), ∀ i, x (σ i) = 2 * m - x i ∧ y (σ i) = 2 * m' - y i

/-- The values are symmetric about `m`. -/
def Spec.SymmetricAbout (x : Fin n → ℝ) (m : ℝ) : Prop := ∃ σ : Equiv.Perm (Fin n), ∀ i, x (σ i) = 2 * m - x i

open Spec

lemma SymmetricAbout.pairs {x : Fin n → ℝ} {m : ℝ} (h : SymmetricAbout x m) : SymmetricPairs x x m m := by
  obtain ⟨σ, hσ⟩ := h
  exact ⟨σ, fun i => ⟨hσ i, hσ i⟩⟩

/-- A co-moment of odd order of symmetric data vanishes. -/
lemma trimMom_symmetric (hn : 0 < n) {x y : Fin n → ℝ} {m m' : ℝ} (h : SymmetricPairs x y m m') {order : ℕ} (ho : Odd order) (ho2 : 2 ≤ order) {t : ℝ} {opt : ℕ}
    (hopt : opt ≤ order) {b : Bool} {v : ℝ} (hv : trimMom .mean x y order t opt b = .ok v) : v = 0 := by
  obtain ⟨σ, hσ⟩ := h
  have h3 : 2 < order := by
    rcases ho with ⟨k, rfl⟩
    omega
  have h1 := trimMom_mean_affine hn x y order ho2 t opt b (-1) (2 * m) (-1) (2 * m')
  have h2 := trimMom_perm .mean σ x y order t opt b
  have ex : (fun i => -1 * x i + 2 * m) = fun i => x (σ i) := by funext i; rw [(hσ i).1]; ring
  have ey : (fun i => -1 * y i + 2 * m') = fun i => y (σ i) := by funext i; rw [(hσ i).2]; ring
  rw [ex, ey, h2, hv] at h1
  simp only [Except.map, Except.ok.injEq, exps, if_pos h3] at h1
  rw [← pow_add, Nat.sub_add_cancel hopt, ho.neg_one_pow] at h1
  linarith

/-- C154: central moments of odd order of symmetric data are zero, for all trimming fractions and with and without correction. -/
theorem C154_symmetric_mom (hn : 0 < n) {x : Fin n → ℝ} {m : ℝ} (h : SymmetricAbout x m) (a : FitArgs) (ho : Odd a.order) (ho2 : 2 ≤ a.order) (hopt : a.option ≤ a.order)
    (hT : TrimOK n a.trimming) (y : Fin n → ℝ) : run .arithmetic .mom .mean a (colMat x) (colMat y) = .ok 0 := by
  rw [run_momk hn]
  obtain ⟨v, hv⟩ := trimMom_ok hn hT x x a.order ho2 (if 2 < a.order then a.option else 0) a.biascorr
  rw [hv, trimMom_symmetric hn (SymmetricAbout.pairs h) ho ho2 (by split <;> omega) hv]

/-- C154: the skewness of symmetric data is zero, for all trimming fractions and with and without correction. -/
theorem C154_symmetric_skew (hn : 0 < n) {x : Fin n → ℝ} {m : ℝ} (h : SymmetricAbout x m) (c : Loc) (a : FitArgs) (hopt : a.option ≤ 3) (hT : TrimOK n a.trimming)
    (y : Fin n → ℝ) : run .arithmetic .skew c a (colMat x) (colMat y) = .ok 0 := by
  obtain ⟨v, hv⟩ := trimMom_ok hn hT x x 3 (by norm_num) a.option a.biascorr
  obtain ⟨w, hw, -⟩ := trimMom_var_ok hn hT x
  have hv0 := trimMom_symmetric hn (SymmetricAbout.pairs h) (by decide) (by norm_num) hopt hv
  rw [run_std hn .skew (Or.inr (Or.inl rfl)) c a x y v w hv (hw _), hv0]
  unfold standardizeMom
  simp

/-- C154: co-moments of odd order of symmetric data are zero. -/
theorem C154_symmetric_com (hn : 0 < n) {x y : Fin n → ℝ} {m m' : ℝ} (h : SymmetricPairs x y m m') (a : FitArgs) (ho : Odd a.order) (ho2 : 2 ≤ a.order)
    (hopt : a.option ≤ a.order) (hT : TrimOK n a.trimming) : run .arithmetic .com .mean a (colMat x) (colMat y) = .ok 0 := by
  rw [run_comk hn]
  obtain ⟨v, hv⟩ := trimMom_ok hn hT x y a.order ho2 (if 2 < a.order then a.option else 0) a.biascorr
  rw [hv, trimMom_symmetric hn h ho ho2 (by split <;> omega) hv]
  simp [Except.map]

/-- C154: the co-skewness of symmetric data is zero. -/
theorem C154_symmetric_cos (hn : 0 < n) {x y : Fin n → ℝ} {m m' : ℝ} (h : SymmetricPairs x y m m') (c : Loc) (a : FitArgs) (hb : a.biascorr = false)
    (hs : a.standardized = true) (hopt : a.option ≤ 3) (hT : TrimOK n a.trimming) : run .arithmetic .cos c a (colMat x) (colMat y) = .ok 0 := by
  obtain ⟨v, hv⟩ := trimMom_ok hn hT x y 3 (by norm_num) a.option false
  obtain ⟨w, hw, hw0⟩ := trimMom_var_ok hn hT x
  obtain ⟨u, hu, hu0⟩ := trimMom_var_ok hn hT y
  have hv0 := trimMom_symmetric hn h (by decide) (by norm_num) hopt hv
  rw [run_co hn .cos (Or.inl rfl) c a hb hs x y v w u hv (hw _) (hu _) hw0 hu0, if_neg (by simp), hv0]
  simp

lemma avg_dev (hn : 0 < n) (x : Fin n → ℝ) : avg (fun i => x i - avg x) = 0 := by
  have hn' : (n : ℝ) ≠ 0 := by exact_mod_cast hn.ne'
  simp only [avg, Finset.sum_sub_distrib, Finset.sum_const, Finset.card_univ, Fintype.card_fin, nsmul_eq_mul]
  field_simp
  ring

lemma avg_lin (u v : Fin n → ℝ) (a b : ℝ) : avg (fun i => a * u i + b * v i) = a * avg u + b * avg v := by
  simp only [avg, Finset.sum_add_distrib, ← Finset.mul_sum]
  ring

lemma avg_const_fn (hn : 0 < n) (a : ℝ) : avg (fun _ : Fin n => a) = a := by
  have hn' : (n : ℝ) ≠ 0 := by exact_mod_cast hn.ne'
  simp only [avg, Finset.sum_const, Finset.card_univ, Fintype.card_fin, nsmul_eq_mul]
  field_simp

/-- The second, third and fourth central moment of any data. -/
lemma pearson_ineq (hn : 0 < n) (d : Fin n → ℝ) (h0 : avg d = 0) (h2 : 0 < avg fun i => d i ^ 2) :
    (avg fun i => d i ^ 3) ^ 2 + (avg fun i => d i ^ 2) ^ 3 ≤ (avg fun i => d i ^ 4) * avg fun i => d i ^ 2 := by
  set m2 := avg fun i => d i ^ 2 with hm2
  set m3 := avg fun i => d i ^ 3 with hm3
  set m4 := avg fun i => d i ^ 4 with hm4
  have hn' : (0 : ℝ) < n := by exact_mod_cast hn
  have hsq : 0 ≤ avg fun i => (m2 * d i ^ 2 - m2 ^ 2 - m3 * d i) ^ 2 := div_nonneg (Finset.sum_nonneg fun i _ => sq_nonneg _) hn'.le
  have hex : (avg fun i => (m2 * d i ^ 2 - m2 ^ 2 - m3 * d i) ^ 2) = m2 ^ 2 * m4 - m2 ^ 4 - m3 ^ 2 * m2 := by
    have e : (fun i => (m2 * d i ^ 2 - m2 ^ 2 - m3 * d i) ^ 2) = fun i =>
        1 * (m2 ^ 2 * d i ^ 4 + (-2 * m2 * m3) * d i ^ 3) + 1 * ((m3 ^ 2 - 2 * m2 ^ 3) * d i ^ 2 + 1 * ((2 * m2 ^ 2 * m3) * d i + m2 ^ 4 * 1)) := by
      funext i; ring
    rw [e, avg_lin (fun i => m2 ^ 2 * d i ^ 4 + (-2 * m2 * m3) * d i ^ 3), avg_lin, avg_lin (fun i => d i ^ 2), avg_lin d (fun _ => 1), avg_const_fn hn, h0, ← hm2, ← hm3, ← hm4]
    ring
  rw [hex] at hsq
  have : 0 ≤ m2 * (m4 * m2 - (m3 ^ 2 + m2 ^ 3)) := by nlinarith
  have := nonneg_of_mul_nonneg_right this h2
  linarith

/-- C154: without trimming and correction the kurtosis of data that are not constant is at least one plus the squared skewness, and at most the number of cases. -/
theorem C154_kurt_skew (hn : 0 < n) (c : Loc) (a : FitArgs) (ht : a.trimming = 0) (hb : a.biascorr = false) (hopt : a.option ≤ 3) (x y : Fin n → ℝ)
    (hx : ∃ i k, x i ≠ x k) : ∃ s k, run .arithmetic .skew c a (colMat x) (colMat y) = .ok s ∧ run .arithmetic .kurt c a (colMat x) (colMat y) = .ok k ∧
      1 + s ^ 2 ≤ k ∧ k ≤ n := by
  have hn' : (0 : ℝ) < n := by exact_mod_cast hn
  refine ⟨_, _, skew_value hn c a ht hopt x y, kurt_value hn c a ht (by omega) x y, ?_⟩
  simp only [hb, momFactor_false, mul_one, standardizeMom, Bool.false_eq_true, if_false, numPower]
  set d : Fin n → ℝ := fun i => x i - avg x with hd
  have hd0 : avg d = 0 := avg_dev hn x
  have h2 : 0 < avg fun i => d i ^ 2 := by
    refine div_pos (lt_of_le_of_ne (Finset.sum_nonneg fun i _ => sq_nonneg _) fun h => ?_) hn'
    have hz := (Finset.sum_eq_zero_iff_of_nonneg fun i _ => sq_nonneg (d i)).1 h.symm
    obtain ⟨i, k, hik⟩ := hx
    have hi := hz i (Finset.mem_univ i)
    have hk := hz k (Finset.mem_univ k)
    rw [sq_eq_zero_iff] at hi hk
    simp only [hd] at hi hk
    exact hik (by linarith)
  have hP := pearson_ineq hn d hd0 h2
  have hU : (avg fun i => d i ^ 4) ≤ n * (avg fun i => d i ^ 2) ^ 2 := by
    simp only [avg]
    have h1 : ∑ i, d i ^ 4 ≤ (∑ i, d i ^ 2) ^ 2 := by
      have := Finset.sum_sq_le_sq_sum_of_nonneg (s := Finset.univ) (f := fun i => d i ^ 2) fun i _ => sq_nonneg _
      refine le_trans (le_of_eq (Finset.sum_congr rfl fun i _ => by ring)) this
    rw [div_pow, ← mul_div_assoc, div_le_div_iff₀ hn' (by positivity)]
    nlinarith [sq_nonneg (n : ℝ)]
  change 1 + ((avg fun i => d i ^ 3) / (avg fun i => d i ^ 2) ^ (3 / 2 : ℝ)) ^ 2 ≤ (avg fun i => d i ^ 4) / (avg fun i => d i ^ 2) ^ (2 : ℝ) ∧
    (avg fun i => d i ^ 4) / (avg fun i => d i ^ 2) ^ (2 : ℝ) ≤ n
  generalize (avg fun i => d i ^ 2) = m2 at *
  generalize (avg fun i => d i ^ 3) = m3 at *
  generalize (avg fun i => d i ^ 4) = m4 at *
  have e2 : m2 ^ (2 : ℝ) = m2 ^ 2 := Real.rpow_natCast _ 2
  have e3 : (m2 ^ (3 / 2 : ℝ)) ^ 2 = m2 ^ 3 := by
    rw [← Real.rpow_natCast (m2 ^ (3 / 2 : ℝ)) 2, ← Real.rpow_mul h2.le, ← Real.rpow_natCast m2 3]
    norm_num
  rw [e2, div_pow, e3]
  constructor
  · rw [le_div_iff₀ (by positivity)]
    have : (1 + m3 ^ 2 / m2 ^ 3) * m2 ^ 2 = (m3 ^ 2 + m2 ^ 3) / m2 := by field_simp; ring
    rw [this, div_le_iff₀ h2]
    exact hP
  · rw [div_le_iff₀ (by positivity)]
    exact hU

/-- C154 is violated for centring at the median: the third moment of symmetric data is then not zero. -/
theorem C154_median_violated : ∃ x : Fin 3 → ℝ, SymmetricAbout x 0 ∧ run .arithmetic .mom .median { order := 3 } (colMat x) (colMat x) = .ok 1 := by
  refine ⟨![-1, 0, 1], ?_, ?_⟩
  · refine ⟨Equiv.swap 0 2, fun i => ?_⟩
    fin_cases i <;> simp [Equiv.swap_apply_def]
  · have hx : med (![-1, 0, 1] : Fin 3 → ℝ) = 0 := med_triple _ (a := -1) (c := 1) (by simp) (by norm_num) (by norm_num)
    rw [run_momk (by norm_num)]
    simp only [trimMom, momMedian, hx]
    norm_num
    refine med_triple _ (a := 0) (c := 1) ?_ (by norm_num) (by norm_num)
    simp only [Matrix.cons_val_zero, Matrix.cons_val_one, Matrix.cons_val]
    norm_num
    exact List.Perm.swap 1 0 [1]

/-- The hypotheses can be met: symmetric data that are not constant. -/
example : ∃ (x : Fin 3 → ℝ), SymmetricAbout x 0 ∧ ∃ i k, x i ≠ x k := by
  refine ⟨![-1, 0, 1], ⟨Equiv.swap 0 2, fun i => ?_⟩, 0, 1, by simp⟩
  fin_cases i <;> simp [Equiv.swap_apply_def]

end Direpack
