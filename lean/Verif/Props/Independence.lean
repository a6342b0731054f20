import Mathlib.Analysis.InnerProductSpace.PiL2
import Mathlib.Analysis.Matrix.Order
import Mathlib.LinearAlgebra.Matrix.PosDef
import Mathlib.Tactic.Linarith
import Mathlib.Tactic.LinearCombination
import Mathlib.Tactic.FieldSimp
import Mathlib.Tactic.FinCases
import Verif.Props.DicomoPerfect
import Verif.Props.Dicomo2

/-! C163, C164: distance covariance is zero exactly for independent data, the martingale difference divergence exactly when the mean of the response is the same at every value
of the predictors. -/

namespace Direpack

open scoped BigOperators
open Spec

/-! ### Specification -/

/-- The values of `x` and of `y` are independent in the data: every pair of values occurs as often as the frequencies of its two members say. -/
def Spec.IndependentData {n : ℕ} {α β : Type} (x : Fin n → α) (y : Fin n → β) : Prop :=
  ∀ a b, n * Nat.card {k : Fin n // x k = a ∧ y k = b} = Nat.card {k : Fin n // x k = a} * Nat.card {k : Fin n // y k = b}

open Classical in
/-- The mean of `y` over the cases with any value `a` of `x` that occurs is the mean of `y` over all cases. -/
def Spec.SameMean {n : ℕ} {α : Type} (x : Fin n → α) (y : Fin n → ℝ) : Prop :=
  ∀ a, (∃ k, x k = a) → (∑ k ∈ Finset.univ.filter (fun k => x k = a), y k) / (Finset.univ.filter fun k => x k = a).card = (∑ k, y k) / n

/-! ### The Euclidean distance is strictly conditionally negative definite -/

variable {n p q : ℕ}

lemma rowDist_norm (u v : Fin p → ℝ) : rowDist u v = ‖(WithLp.toLp 2 (u - v) : EuclideanSpace ℝ (Fin p))‖ := by
  rw [EuclideanSpace.norm_eq]
  simp [rowDist]

/-- The weighted sum of distances to a point is the same for all points if the quadratic form vanishes. -/
lemma potential_const (x : Fin n → Fin p → ℝ) (c : Fin n → ℝ) (hc : ∑ i, c i = 0) (h : ∑ i, ∑ j, c i * c j * rowDist (x i) (x j) = 0) (z z' : Fin p → ℝ) :
    ∑ i, c i * rowDist z (x i) = ∑ i, c i * rowDist z' (x i) := by
  set A := ∑ i, c i * rowDist z (x i) with hA
  set B := ∑ i, c i * rowDist z' (x i) with hB
  have key : ∀ e : ℝ, 2 * e * (A - B) - 2 * e ^ 2 * rowDist z z' ≤ 0 := by
    intro e
    have h0 := edist_cond_neg (Fin.cons z (Fin.cons z' x) : Fin (n + 2) → Fin p → ℝ) (Fin.cons e (Fin.cons (-e) c))
      (by rw [Fin.sum_univ_succ, Fin.sum_univ_succ]; simp [hc])
    rw [edist_rowDist] at h0
    simp only [Fin.sum_univ_succ (n := n + 1), Fin.sum_univ_succ (n := n), Fin.cons_zero, Fin.cons_succ, Finset.sum_add_distrib] at h0
    have e1 : ∑ i, e * c i * rowDist z (x i) = e * A := by
      rw [hA, Finset.mul_sum]; exact Finset.sum_congr rfl fun i _ => by ring
    have e2 : ∑ i, -e * c i * rowDist z' (x i) = -e * B := by
      rw [hB, Finset.mul_sum]; exact Finset.sum_congr rfl fun i _ => by ring
    have e3 : ∑ i, c i * e * rowDist (x i) z = e * A := by
      rw [hA, Finset.mul_sum]; exact Finset.sum_congr rfl fun i _ => by rw [rowDist_symm]; ring
    have e4 : ∑ i, c i * -e * rowDist (x i) z' = -e * B := by
      rw [hB, Finset.mul_sum]; exact Finset.sum_congr rfl fun i _ => by rw [rowDist_symm]; ring
    rw [e1, e2, e3, e4, h, rowDist_zero.mpr rfl, rowDist_zero.mpr rfl, rowDist_symm z' z] at h0
    linarith
  have hd : 0 ≤ rowDist z z' := Real.sqrt_nonneg _
  by_contra hne
  have hne' : A - B ≠ 0 := sub_ne_zero.mpr hne
  have h1 := key ((A - B) / (2 * (rowDist z z' + 1)))
  have h2 : 0 < (A - B) ^ 2 := by positivity
  have h3 : 2 * ((A - B) / (2 * (rowDist z z' + 1))) * (A - B) - 2 * ((A - B) / (2 * (rowDist z z' + 1))) ^ 2 * rowDist z z' =
      (A - B) ^ 2 * (rowDist z z' + 2) / (2 * (rowDist z z' + 1) ^ 2) := by
    field_simp
    ring
  rw [h3] at h1
  have : 0 < (A - B) ^ 2 * (rowDist z z' + 2) / (2 * (rowDist z z' + 1) ^ 2) := by positivity
  linarith

/-- Second difference of the norm away from zero. -/
lemma norm_second_diff {E : Type} [NormedAddCommGroup E] [InnerProductSpace ℝ E] (a v : E) (ha : a ≠ 0) :
    0 ≤ ‖a + v‖ + ‖a - v‖ - 2 * ‖a‖ ∧ ‖a + v‖ + ‖a - v‖ - 2 * ‖a‖ ≤ ‖v‖ ^ 2 / ‖a‖ := by
  have hp : 0 < ‖a‖ := norm_pos_iff.mpr ha
  constructor
  · have := norm_add_le (a + v) (a - v)
    rw [add_add_sub_cancel, ← two_smul ℝ a, norm_smul] at this
    simp at this
    linarith
  · have h1 := parallelogram_law_with_norm ℝ a v
    rw [le_div_iff₀ hp]
    nlinarith [sq_nonneg (‖a + v‖ - ‖a‖), sq_nonneg (‖a - v‖ - ‖a‖)]

open Classical in
/-- If the quadratic form of the distances vanishes for weights that sum to zero, the weights of the cases at any point sum to zero. -/
lemma dist_strict (x : Fin n → Fin p → ℝ) (c : Fin n → ℝ) (hc : ∑ i, c i = 0) (h : ∑ i, ∑ j, c i * c j * rowDist (x i) (x j) = 0) (a : Fin p → ℝ) :
    ∑ k ∈ Finset.univ.filter (fun k => x k = a), c k = 0 := by
  rcases Nat.eq_zero_or_pos p with hp | hp
  · subst hp
    rw [Finset.filter_true_of_mem fun k _ => Subsingleton.elim _ _]
    exact hc
  set v : Fin p → ℝ := Pi.single ⟨0, hp⟩ 1 with hv
  set K : ℝ := ∑ i ∈ Finset.univ.filter (fun k => ¬ x k = a), |c i| / rowDist (x i) a with hK
  have hK0 : 0 ≤ K := Finset.sum_nonneg fun i _ => div_nonneg (abs_nonneg _) (Real.sqrt_nonneg _)
  set C := ∑ k ∈ Finset.univ.filter (fun k => x k = a), c k with hC
  have hvn : ‖(WithLp.toLp 2 v : EuclideanSpace ℝ (Fin p))‖ = 1 := by
    rw [hv]
    simp
  have key : ∀ s : ℝ, 0 < s → 2 * |C| ≤ s * K := by
    intro s hs
    have h1 := potential_const x c hc h (a + s • v) a
    have h2 := potential_const x c hc h (a - s • v) a
    have h3 : ∑ i, c i * (rowDist (a + s • v) (x i) + rowDist (a - s • v) (x i) - 2 * rowDist a (x i)) = 0 := by
      simp only [mul_sub, mul_add, Finset.sum_sub_distrib, Finset.sum_add_distrib, h1, h2]
      have : ∑ i, c i * (2 * rowDist a (x i)) = 2 * ∑ i, c i * rowDist a (x i) := by
        rw [Finset.mul_sum]; exact Finset.sum_congr rfl fun i _ => by ring
      rw [this]
      ring
    rw [← Finset.sum_filter_add_sum_filter_not Finset.univ (fun k => x k = a)] at h3
    have h4 : ∑ i ∈ Finset.univ.filter (fun k => x k = a), c i * (rowDist (a + s • v) (x i) + rowDist (a - s • v) (x i) - 2 * rowDist a (x i)) = C * (2 * s) := by
      rw [hC, Finset.sum_mul]
      refine Finset.sum_congr rfl fun i hi => ?_
      rw [(Finset.mem_filter.mp hi).2, rowDist_norm, rowDist_norm, rowDist_norm, add_sub_cancel_left, sub_sub_cancel_left, sub_self, WithLp.toLp_neg, WithLp.toLp_smul,
        norm_neg, norm_smul, hvn]
      simp [abs_of_pos hs]
      left; ring
    have h5 : |∑ i ∈ Finset.univ.filter (fun k => ¬ x k = a), c i * (rowDist (a + s • v) (x i) + rowDist (a - s • v) (x i) - 2 * rowDist a (x i))| ≤ s ^ 2 * K := by
      rw [hK, Finset.mul_sum]
      refine (Finset.abs_sum_le_sum_abs _ _).trans (Finset.sum_le_sum fun i hi => ?_)
      have hne : a - x i ≠ 0 := sub_ne_zero.mpr fun e => (Finset.mem_filter.mp hi).2 e.symm
      have hne' : (WithLp.toLp 2 (a - x i) : EuclideanSpace ℝ (Fin p)) ≠ 0 := fun e => hne (congrArg WithLp.ofLp e)
      obtain ⟨k1, k2⟩ := norm_second_diff (WithLp.toLp 2 (a - x i) : EuclideanSpace ℝ (Fin p)) (WithLp.toLp 2 (s • v)) hne'
      rw [WithLp.toLp_smul, norm_smul, hvn, ← WithLp.toLp_smul, ← WithLp.toLp_add, ← WithLp.toLp_sub] at k2
      rw [← WithLp.toLp_add, ← WithLp.toLp_sub] at k1
      have e1 : a - x i + s • v = a + s • v - x i := by abel
      have e2 : a - x i - s • v = a - s • v - x i := by abel
      rw [e1, e2, ← rowDist_norm, ← rowDist_norm, ← rowDist_norm] at k1 k2
      rw [abs_mul, abs_of_nonneg k1, rowDist_symm (x i) a]
      have hd : 0 < rowDist a (x i) := lt_of_le_of_ne (Real.sqrt_nonneg _) fun e => hne (sub_eq_zero.mpr (rowDist_zero.mp e.symm))
      calc |c i| * _ ≤ |c i| * ((‖s‖ * 1) ^ 2 / rowDist a (x i)) := mul_le_mul_of_nonneg_left k2 (abs_nonneg _)
        _ = s ^ 2 * (|c i| / rowDist a (x i)) := by rw [mul_one, Real.norm_eq_abs, sq_abs]; ring
    rw [h4] at h3
    have h6 : C * (2 * s) = -∑ i ∈ Finset.univ.filter (fun k => ¬ x k = a), c i * (rowDist (a + s • v) (x i) + rowDist (a - s • v) (x i) - 2 * rowDist a (x i)) := by
      linarith
    have h7 : |C| * (2 * s) ≤ s ^ 2 * K := by
      rw [← abs_of_pos (show 0 < 2 * s by linarith), ← abs_mul, h6, abs_neg]
      exact h5
    nlinarith
  by_contra hne
  have hpos : 0 < |C| := abs_pos.mpr hne
  have := key (|C| / (K + 1)) (by positivity)
  have h8 : |C| / (K + 1) * K ≤ |C| := by
    rw [div_mul_eq_mul_div, div_le_iff₀ (by linarith)]
    nlinarith
  linarith

/-! ### Independent data -/

lemma psd_mul_zero {M N : Matrix (Fin n) (Fin n) ℝ} (hM : M.PosSemidef) (hN : N.PosSemidef) (h : ∑ i, ∑ j, M i j * N i j = 0) : M * N = 0 := by
  open scoped MatrixOrder in
  obtain ⟨P, rfl⟩ := CStarAlgebra.nonneg_iff_eq_star_mul_self.mp (Matrix.nonneg_iff_posSemidef.mpr hM)
  open scoped MatrixOrder in
  obtain ⟨Q, rfl⟩ := CStarAlgebra.nonneg_iff_eq_star_mul_self.mp (Matrix.nonneg_iff_posSemidef.mpr hN)
  rw [Matrix.star_eq_conjTranspose, Matrix.star_eq_conjTranspose] at *
  have ht : ((P * Q.conjTranspose).conjTranspose * (P * Q.conjTranspose)).trace = 0 := by
    have e : ((P * Q.conjTranspose).conjTranspose * (P * Q.conjTranspose)).trace = ((P.conjTranspose * P) * (Q.conjTranspose * Q)).trace := by
      rw [Matrix.conjTranspose_mul, Matrix.conjTranspose_conjTranspose, Matrix.mul_assoc, Matrix.trace_mul_comm]
      simp only [Matrix.mul_assoc]
    rw [e, ← h, Matrix.trace]
    refine Finset.sum_congr rfl fun i _ => ?_
    rw [Matrix.diag_apply, Matrix.mul_apply]
    refine Finset.sum_congr rfl fun j _ => ?_
    rw [← hN.1.apply i j]
    rfl
  have h0 := Matrix.trace_conjTranspose_mul_self_eq_zero_iff.mp ht
  calc P.conjTranspose * P * (Q.conjTranspose * Q) = P.conjTranspose * (P * Q.conjTranspose) * Q := by simp only [Matrix.mul_assoc]
    _ = 0 := by rw [h0]; simp

open Classical in
/-- Sums over independent data factor. -/
lemma sum_independent {α β : Type} {x : Fin n → α} {y : Fin n → β} (h : IndependentData x y) (F : α → β → ℝ) :
    (n : ℝ) * ∑ k, F (x k) (y k) = ∑ i, ∑ j, F (x i) (y j) := by
  have hcard : ∀ i j : Fin n, (n : ℝ) * ((Finset.univ.filter fun k => x k = x i ∧ y k = y j).card : ℝ) =
      ((Finset.univ.filter fun k => x k = x i).card : ℝ) * ((Finset.univ.filter fun k => y k = y j).card : ℝ) := by
    intro i j
    have := h (x i) (y j)
    simp only [Nat.card_eq_fintype_card, Fintype.card_subtype] at this
    exact_mod_cast this
  have hpos : ∀ i j : Fin n, ((Finset.univ.filter fun k => x k = x i ∧ y k = y j).card : ℝ) ≠ 0 := by
    intro i j h0
    have h1 := hcard i j
    rw [h0, mul_zero] at h1
    have h2 : 0 < (Finset.univ.filter fun k => x k = x i).card := Finset.card_pos.mpr ⟨i, by simp⟩
    have h3 : 0 < (Finset.univ.filter fun k => y k = y j).card := Finset.card_pos.mpr ⟨j, by simp⟩
    have : (0 : ℝ) < ((Finset.univ.filter fun k => x k = x i).card : ℝ) * ((Finset.univ.filter fun k => y k = y j).card : ℝ) := by positivity
    linarith
  have e1 : ∀ i j, F (x i) (y j) = ∑ k, if x k = x i ∧ y k = y j then F (x k) (y k) / ((Finset.univ.filter fun l => x l = x k ∧ y l = y k).card : ℝ) else 0 := by
    intro i j
    rw [← Finset.sum_filter]
    rw [Finset.sum_congr rfl (g := fun _ => F (x i) (y j) / ((Finset.univ.filter fun l => x l = x i ∧ y l = y j).card : ℝ))]
    · rw [Finset.sum_const, nsmul_eq_mul, mul_div_cancel₀ _ (hpos i j)]
    · intro k hk
      obtain ⟨h1, h2⟩ := (Finset.mem_filter.mp hk).2
      rw [h1, h2]
  rw [Finset.sum_congr rfl fun i _ => (Finset.sum_congr rfl fun j _ => e1 i j).trans Finset.sum_comm, Finset.sum_comm, Finset.mul_sum]
  refine Finset.sum_congr rfl fun k _ => ?_
  have e2 : ∀ i j, (if x k = x i ∧ y k = y j then F (x k) (y k) / ((Finset.univ.filter fun l => x l = x k ∧ y l = y k).card : ℝ) else 0) =
      (if x i = x k then 1 else 0) * ((if y j = y k then 1 else 0) * (F (x k) (y k) / ((Finset.univ.filter fun l => x l = x k ∧ y l = y k).card : ℝ))) := by
    intro i j
    rw [eq_comm (a := x k), eq_comm (a := y k)]
    by_cases h1 : x i = x k <;> by_cases h2 : y j = y k <;> simp [h1, h2]
  simp only [e2]
  rw [← Finset.sum_mul_sum, ← Finset.sum_mul, Finset.sum_boole, Finset.sum_boole, ← mul_assoc, ← hcard k k]
  have := hpos k k
  field_simp

/-- The squared distance covariance is zero exactly for independent data. -/
lemma dcov2_zero_iff (hn : 0 < n) (x : Fin n → Fin p → ℝ) (y : Fin n → Fin q → ℝ) : dcov2 x y = 0 ↔ IndependentData x y := by
  classical
  have hn' : (n : ℝ) ≠ 0 := by exact_mod_cast hn.ne'
  constructor
  · intro h a b
    unfold dcov2 at h
    rw [div_eq_zero_iff, or_iff_left (pow_ne_zero 2 hn')] at h
    have hAB := psd_mul_zero (dcen_neg_posSemidef hn x) (dcen_neg_posSemidef hn y) (by simpa [edist_rowDist] using h)
    have hmul : ∀ i j, ∑ k, dcen (edist x) i k * dcen (edist y) k j = 0 := by
      intro i j
      have := congrFun (congrFun hAB i) j
      rw [Matrix.mul_apply] at this
      simpa using this
    -- each column of the centred distances of `y` sums to zero over the cases with the same `x`
    have hcol : ∀ j, ∑ k ∈ Finset.univ.filter (fun k => x k = a), dcen (edist y) k j = 0 := by
      intro j
      have hs : ∑ k, dcen (edist y) k j = 0 := by
        rw [← dcen_row hn (edist y) j]
        exact Finset.sum_congr rfl fun k _ => dcen_symm _ (edist_symm y) k j
      refine dist_strict x (fun k => dcen (edist y) k j) hs ?_ a
      have h1 := dcen_quad hn (edist x) (fun k => dcen (edist y) k j)
      have h2 : avg (fun k => dcen (edist y) k j) = 0 := by
        unfold avg
        rw [hs, zero_div]
      simp only [h2, sub_zero] at h1
      rw [edist_rowDist x] at h1
      rw [← h1]
      rw [← edist_rowDist x]
      refine Finset.sum_eq_zero fun i _ => ?_
      have := hmul i j
      calc _ = dcen (edist y) i j * ∑ k, dcen (edist x) i k * dcen (edist y) k j := by
            rw [Finset.mul_sum]; exact Finset.sum_congr rfl fun k _ => by ring
        _ = 0 := by rw [this, mul_zero]
    set u : Fin n → ℝ := fun k => if x k = a then 1 else 0 with hu
    have hzero : ∑ k ∈ Finset.univ.filter (fun k => y k = b), (u k - avg u) = 0 := by
      refine dist_strict y (fun k => u k - avg u) (sum_sub_avg hn u) ?_ b
      have h1 := dcen_quad hn (edist y) u
      rw [edist_rowDist y] at h1
      rw [← h1, ← edist_rowDist y, Finset.sum_comm]
      refine Finset.sum_eq_zero fun j _ => ?_
      have := hcol j
      rw [Finset.sum_filter] at this
      calc _ = u j * ∑ k, (if x k = a then dcen (edist y) k j else 0) := by
            rw [Finset.mul_sum]
            refine Finset.sum_congr rfl fun k _ => ?_
            simp only [hu]
            split <;> ring
        _ = 0 := by rw [this, mul_zero]
    rw [Finset.sum_sub_distrib, Finset.sum_const, nsmul_eq_mul] at hzero
    have e1 : ∑ k ∈ Finset.univ.filter (fun k => y k = b), u k = ((Finset.univ.filter fun k => x k = a ∧ y k = b).card : ℝ) := by
      simp only [hu]
      rw [Finset.sum_boole, Finset.filter_filter]
      congr 2
      ext k
      simp [and_comm]
    have e2 : avg u = ((Finset.univ.filter fun k => x k = a).card : ℝ) / n := by
      unfold avg
      simp only [hu]
      rw [Finset.sum_boole]
    rw [e1, e2] at hzero
    simp only [Nat.card_eq_fintype_card, Fintype.card_subtype]
    have : (n : ℝ) * ((Finset.univ.filter fun k => x k = a ∧ y k = b).card : ℝ) =
        ((Finset.univ.filter fun k => x k = a).card : ℝ) * ((Finset.univ.filter fun k => y k = b).card : ℝ) := by
      field_simp at hzero
      linarith
    exact_mod_cast this
  · intro h
    set f : (Fin p → ℝ) → (Fin p → ℝ) → ℝ := fun u v => rowDist u v - (∑ k, rowDist u (x k)) / n - (∑ k, rowDist (x k) v) / n +
      (∑ k, ∑ l, rowDist (x k) (x l)) / (n : ℝ) ^ 2 with hf
    set g : (Fin q → ℝ) → (Fin q → ℝ) → ℝ := fun u v => rowDist u v - (∑ k, rowDist u (y k)) / n - (∑ k, rowDist (y k) v) / n +
      (∑ k, ∑ l, rowDist (y k) (y l)) / (n : ℝ) ^ 2 with hg
    have h1 : dcov2 x y = (∑ i, ∑ j, f (x i) (x j) * g (y i) (y j)) / (n : ℝ) ^ 2 := rfl
    have hrow : ∀ j, ∑ i, f (x i) (x j) = 0 := by
      intro j
      have : ∑ i, f (x i) (x j) = ∑ i, dcen (edist x) j i := Finset.sum_congr rfl fun i _ => by
        rw [dcen_symm _ (edist_symm x) j i]; rfl
      rw [this, dcen_row hn]
    rw [h1, Finset.sum_comm, Finset.sum_eq_zero, zero_div]
    intro j _
    have h2 := sum_independent h (fun u v => f u (x j) * g v (y j))
    have h3 : ∑ i, ∑ j', f (x i) (x j) * g (y j') (y j) = 0 := by
      rw [← Finset.sum_mul_sum, hrow, zero_mul]
    rw [h3] at h2
    exact (mul_eq_zero.mp h2).resolve_left hn'

/-- C163: the distance covariance of two data sets is zero exactly if their values are independent. -/
theorem C163_dcov_zero (hn : 0 < n) (a : FitArgs) (ht : a.trimming = 0) (hb : a.biascorr = false)
    (hy : a.fast = true ∨ a.y1d = false) (x : Fin n → Fin p → ℝ) (y : Fin n → Fin q → ℝ) :
    run .distance .cov .mean a (dmat x) (dmat y) = .ok 0 ↔ IndependentData x y := by
  rw [run_dcov hn a ht hb hy, Except.ok.injEq, Real.sqrt_eq_zero (dcov2_nonneg hn x y), dcov2_zero_iff hn]

/-- C163: so is the distance correlation of two data sets none of which is constant. -/
theorem C163_dcorr_zero (hn : 0 < n) (a : FitArgs) (ht : a.trimming = 0) (hb : a.biascorr = false) (ho : a.order = 2)
    (hy : a.fast = true ∨ a.y1d = false) (x : Fin n → Fin p → ℝ) (y : Fin n → Fin q → ℝ) (hx : ¬ ∀ i j, x i = x j) (hyc : ¬ ∀ i j, y i = y j) :
    run .distance .corr .mean a (dmat x) (dmat y) = .ok 0 ↔ IndependentData x y := by
  have hxx : 0 < dcov2 x x := lt_of_le_of_ne (dcov2_nonneg hn x x) fun h => hx ((dcov2_self_zero hn x).mp h.symm)
  have hyy : 0 < dcov2 y y := lt_of_le_of_ne (dcov2_nonneg hn y y) fun h => hyc ((dcov2_self_zero hn y).mp h.symm)
  have hd : √√(dcov2 x x) * √√(dcov2 y y) ≠ 0 := by positivity
  rw [run_dcorr hn a ht hb ho hy, Except.ok.injEq, div_eq_zero_iff, or_iff_left hd, Real.sqrt_eq_zero (dcov2_nonneg hn x y), dcov2_zero_iff hn]

/-- C163: the covariance of two independent variables is zero, and so is the correlation if none of them is constant (the converse is false, `C163_arithmetic_converse`). -/
theorem C163_arithmetic (hn : 2 ≤ n) (a : FitArgs) (ht : a.trimming = 0) (x y : Fin n → ℝ) (h : IndependentData x y) :
    run .arithmetic .cov .mean a (colMat x) (colMat y) = .ok 0 ∧
      (a.order = 2 → (¬ ∀ i j, x i = x j) → (¬ ∀ i j, y i = y j) → run .arithmetic .corr .mean a (colMat x) (colMat y) = .ok 0) := by
  have hn0 : 0 < n := by omega
  have hn' : (n : ℝ) ≠ 0 := by exact_mod_cast hn0.ne'
  have hc : cmom x y 1 1 = 0 := by
    unfold cmom
    have h2 := sum_independent h (fun u v => (u - avg x) ^ 1 * (v - avg y) ^ 1)
    have h3 : ∑ i, ∑ j, (x i - avg x) ^ 1 * (y j - avg y) ^ 1 = 0 := by
      rw [← Finset.sum_mul_sum]
      simp only [pow_one]
      rw [sum_sub_avg hn0, zero_mul]
    rw [h3] at h2
    have h4 := (mul_eq_zero.mp h2).resolve_left hn'
    simp only [avg] at h4 ⊢
    rw [h4, zero_div]
  have hco : trimMom .mean x y 2 a.trimming 0 a.biascorr = .ok 0 := by
    rw [ht, trimMom_mean0 _ _ _ (le_refl 2)]
    show Except.ok (cmom x y 1 1 * _) = _
    rw [hc, zero_mul]
  have hf : 0 ≤ momFactor n 0 2 a.biascorr := by
    rw [momFactor_two]
    have : (2 : ℝ) ≤ n := by exact_mod_cast hn
    split
    · exact div_nonneg (by linarith) (by linarith)
    · norm_num
  refine ⟨(run_cov hn0 _ a x y).trans hco, fun ho _ _ => ?_⟩
  have hv : ∀ z : Fin n → ℝ, trimMom .mean z z 2 a.trimming 0 a.biascorr = .ok (cmom z z 1 1 * momFactor n 0 2 a.biascorr) := by
    intro z
    rw [ht, trimMom_mean0 _ _ _ (le_refl 2)]
    rfl
  rw [run_corr hn0 _ a ho x y _ _ _ (hv x) hco (hv y) (mul_nonneg (cmom_self_nonneg x) hf) (mul_nonneg (cmom_self_nonneg y) hf), zero_div]

/-- Data in which every pair of a value of one variable and a value of the other occurs once are independent. -/
lemma independent_product {a b : ℕ} (e : Fin n ≃ Fin a × Fin b) {α β : Type} (u : Fin a → α) (v : Fin b → β) :
    IndependentData (fun k => u (e k).1) (fun k => v (e k).2) := by
  intro s t
  have hcard : ∀ (P : Fin a → Prop) (R : Fin b → Prop), Nat.card {k : Fin n // P (e k).1 ∧ R (e k).2} = Nat.card {i // P i} * Nat.card {j // R j} := by
    intro P R
    rw [← Nat.card_prod]
    exact Nat.card_congr ((e.subtypeEquiv (q := fun w => P w.1 ∧ R w.2) fun k => Iff.rfl).trans Equiv.subtypeProdEquivProd)
  have hn : n = a * b := by
    have := Nat.card_congr e
    simpa using this
  have h1 := hcard (fun i => u i = s) (fun _ => True)
  have h2 := hcard (fun _ => True) (fun j => v j = t)
  have h3 := hcard (fun i => u i = s) (fun j => v j = t)
  simp only [and_true, true_and] at h1 h2
  have ha : Nat.card {_i : Fin a // True} = a := by simp
  have hb : Nat.card {_j : Fin b // True} = b := by simp
  rw [hb] at h1
  rw [ha] at h2
  rw [h1, h2, h3, hn]
  ring

/-- C163: a full factorial design has distance covariance zero. -/
theorem C163_factorial {a b : ℕ} (hn : 0 < n) (e : Fin n ≃ Fin a × Fin b) (u : Fin a → Fin p → ℝ) (v : Fin b → Fin q → ℝ) (r : FitArgs) (ht : r.trimming = 0)
    (hb : r.biascorr = false) (hy : r.fast = true ∨ r.y1d = false) :
    run .distance .cov .mean r (dmat fun k => u (e k).1) (dmat fun k => v (e k).2) = .ok 0 :=
  (C163_dcov_zero hn r ht hb hy _ _).mpr (independent_product e u v)

/-- Points of a parabola are not independent. -/
lemma parabola_dependent : ¬ IndependentData (![-1, 0, 1] : Fin 3 → ℝ) (![1, 0, 1] : Fin 3 → ℝ) := by
  classical
  intro h
  have := h 0 0
  have e1 : Nat.card {k : Fin 3 // (![-1, 0, 1] : Fin 3 → ℝ) k = 0 ∧ (![1, 0, 1] : Fin 3 → ℝ) k = 0} = 1 := by
    rw [Nat.card_eq_fintype_card, Fintype.card_subtype]
    have : (Finset.univ.filter fun k : Fin 3 => (![-1, 0, 1] : Fin 3 → ℝ) k = 0 ∧ (![1, 0, 1] : Fin 3 → ℝ) k = 0) = {1} := by
      ext k; fin_cases k <;> simp
    rw [this]; rfl
  have e2 : Nat.card {k : Fin 3 // (![-1, 0, 1] : Fin 3 → ℝ) k = 0} = 1 := by
    rw [Nat.card_eq_fintype_card, Fintype.card_subtype]
    have : (Finset.univ.filter fun k : Fin 3 => (![-1, 0, 1] : Fin 3 → ℝ) k = 0) = {1} := by
      ext k; fin_cases k <;> simp
    rw [this]; rfl
  have e3 : Nat.card {k : Fin 3 // (![1, 0, 1] : Fin 3 → ℝ) k = 0} = 1 := by
    rw [Nat.card_eq_fintype_card, Fintype.card_subtype]
    have : (Finset.univ.filter fun k : Fin 3 => (![1, 0, 1] : Fin 3 → ℝ) k = 0) = {1} := by
      ext k; fin_cases k <;> simp
    rw [this]; rfl
  rw [e1, e2, e3] at this
  omega

lemma independent_col (x y : Fin n → ℝ) : IndependentData (fun i (_ : Fin 1) => x i) (fun i (_ : Fin 1) => y i) ↔ IndependentData x y := by
  have e : ∀ (z : Fin n → ℝ) (s : Fin 1 → ℝ) (k : Fin n), ((fun _ : Fin 1 => z k) = s) ↔ z k = s 0 := by
    intro z s k
    constructor
    · intro h; rw [← h]
    · intro h; funext j; rw [Subsingleton.elim j 0]; exact h
  constructor
  · intro h s t
    have := h (fun _ => s) (fun _ => t)
    simpa only [e] using this
  · intro h s t
    have := h (s 0) (t 0)
    simpa only [e] using this

/-- C163: points of a parabola have covariance zero, but their distance covariance is not zero. -/
theorem C163_arithmetic_converse (a : FitArgs) (ht : a.trimming = 0) (hb : a.biascorr = false) (hy : a.fast = true ∨ a.y1d = false) :
    run .arithmetic .cov .mean a (colMat ![-1, 0, 1]) (colMat ![1, 0, 1]) = .ok 0 ∧
      ∃ v, run .distance .cov .mean a (colMat ![-1, 0, 1]) (colMat ![1, 0, 1]) = .ok v ∧ 0 < v := by
  constructor
  · rw [(C31_var_cov_uncorrected (by norm_num) a ht hb _ _).2]
    congr 1
    simp [avg, Fin.sum_univ_three]
  · have hd := run_dcov (n := 3) (by norm_num) a ht hb hy (fun i (_ : Fin 1) => (![-1, 0, 1] : Fin 3 → ℝ) i) (fun i (_ : Fin 1) => (![1, 0, 1] : Fin 3 → ℝ) i)
    refine ⟨_, hd, Real.sqrt_pos.mpr (lt_of_le_of_ne (dcov2_nonneg (by norm_num) _ _) fun h => ?_)⟩
    exact parabola_dependent ((independent_col _ _).mp ((dcov2_zero_iff (by norm_num) _ _).mp h.symm))

/-! ### Martingale difference divergence -/

open Classical in
lemma sameMean_iff (hn : 0 < n) {α : Type} (x : Fin n → α) (y : Fin n → ℝ) :
    SameMean x y ↔ ∀ a, ∑ k ∈ Finset.univ.filter (fun k => x k = a), (y k - avg y) = 0 := by
  have hn' : (n : ℝ) ≠ 0 := by exact_mod_cast hn.ne'
  have key : ∀ a, (∃ k, x k = a) → ((∑ k ∈ Finset.univ.filter (fun k => x k = a), y k) / ((Finset.univ.filter fun k => x k = a).card : ℝ) = (∑ k, y k) / n ↔
      ∑ k ∈ Finset.univ.filter (fun k => x k = a), (y k - avg y) = 0) := by
    rintro a ⟨k, hk⟩
    have hpos : ((Finset.univ.filter fun k => x k = a).card : ℝ) ≠ 0 := by
      have : 0 < (Finset.univ.filter fun k => x k = a).card := Finset.card_pos.mpr ⟨k, by simp [hk]⟩
      exact_mod_cast this.ne'
    rw [Finset.sum_sub_distrib, Finset.sum_const, nsmul_eq_mul, sub_eq_zero, div_eq_iff hpos]
    unfold avg
    rw [mul_comm]
  constructor
  · intro h a
    by_cases ha : ∃ k, x k = a
    · exact (key a ha).mp (h a ha)
    · rw [Finset.filter_false_of_mem fun k _ hk => ha ⟨k, hk⟩, Finset.sum_empty]
  · intro h a ha
    exact (key a ha).mpr (h a)

open Classical in
/-- Sums of functions of `x` weighted with numbers that sum to zero at every value of `x` vanish. -/
lemma sum_classes_zero {α : Type} (x : Fin n → α) (c : Fin n → ℝ) (F : α → ℝ)
    (h : ∀ a, ∑ k ∈ Finset.univ.filter (fun k => x k = a), c k = 0) : ∑ k, c k * F (x k) = 0 := by
  rw [← Finset.sum_fiberwise_of_maps_to (s := Finset.univ) (t := Finset.univ.image x) (g := x) fun k _ => Finset.mem_image_of_mem x (Finset.mem_univ k)]
  refine Finset.sum_eq_zero fun a _ => ?_
  calc _ = ∑ k ∈ Finset.univ.filter (fun k => x k = a), c k * F a := Finset.sum_congr rfl fun k hk => by rw [(Finset.mem_filter.mp hk).2]
    _ = 0 := by rw [← Finset.sum_mul, h a, zero_mul]

lemma mdd2_zero_iff (hn : 0 < n) (x : Fin n → Fin p → ℝ) (y : Fin n → ℝ) : mdd2 x y = 0 ↔ SameMean x y := by
  classical
  have hn' : (n : ℝ) ≠ 0 := by exact_mod_cast hn.ne'
  rw [sameMean_iff hn]
  unfold mdd2
  rw [div_eq_zero_iff, or_iff_left (pow_ne_zero 2 hn'), neg_eq_zero]
  constructor
  · intro h a
    convert dist_strict x (fun i => y i - avg y) (sum_sub_avg hn y) h a
  · intro h
    refine Finset.sum_eq_zero fun i _ => ?_
    have h1 := sum_classes_zero x (fun k => y k - avg y) (fun v => (y i - avg y) * rowDist (x i) v) (fun a => by convert h a)
    rw [← h1]
    exact Finset.sum_congr rfl fun j _ => by ring

lemma independent_sameMean (hn : 0 < n) {α : Type} {x : Fin n → α} {y : Fin n → ℝ} (h : IndependentData x y) : SameMean x y := by
  classical
  have hn' : (n : ℝ) ≠ 0 := by exact_mod_cast hn.ne'
  refine (sameMean_iff hn x y).mpr fun s => ?_
  have h2 := sum_independent h (fun u v => (if u = s then 1 else 0) * (v - avg y))
  rw [← Finset.sum_mul_sum, sum_sub_avg hn, mul_zero] at h2
  have h3 := (mul_eq_zero.mp h2).resolve_left hn'
  rw [Finset.sum_filter]
  refine Eq.trans ?_ h3
  refine Finset.sum_congr rfl fun k _ => ?_
  by_cases hk : x k = s <;> simp [hk]

lemma function_sameMean {α : Type} {x : Fin n → α} {y : Fin n → ℝ} (h : ∀ i j, x i = x j → y i = y j) : SameMean x y ↔ ∀ i j, y i = y j := by
  classical
  have hgrp : ∀ i, (∑ k ∈ Finset.univ.filter (fun k => x k = x i), y k) / ((Finset.univ.filter fun k => x k = x i).card : ℝ) = y i := by
    intro i
    have hpos : ((Finset.univ.filter fun k => x k = x i).card : ℝ) ≠ 0 := by
      have : 0 < (Finset.univ.filter fun k => x k = x i).card := Finset.card_pos.mpr ⟨i, by simp⟩
      exact_mod_cast this.ne'
    rw [Finset.sum_congr rfl (g := fun _ => y i) fun k hk => h k i (Finset.mem_filter.mp hk).2, Finset.sum_const, nsmul_eq_mul, mul_div_cancel_left₀ _ hpos]
  constructor
  · intro hs i j
    have h1 := hs (x i) ⟨i, rfl⟩
    have h2 := hs (x j) ⟨j, rfl⟩
    rw [← hgrp i, ← hgrp j]
    convert h1.trans h2.symm
  · rintro hc a ⟨i, rfl⟩
    have hn' : (n : ℝ) ≠ 0 := by
      have := Fin.pos i
      exact_mod_cast this.ne'
    have h1 := hgrp i
    have h2 : (∑ k, y k) / n = y i := by
      rw [Finset.sum_congr rfl (g := fun _ => y i) fun k _ => hc k i, Finset.sum_const, nsmul_eq_mul, Finset.card_univ, Fintype.card_fin, mul_div_cancel_left₀ _ hn']
    rw [h2]
    convert h1

/-- C164: the martingale difference divergence of a response is zero exactly if its mean is the same at every value of the predictors. -/
theorem C164_mdd_zero (hn : 0 < n) (a : FitArgs) (ht : a.trimming = 0) (hb : a.biascorr = false) (x : Fin n → Fin p → ℝ) (y : Fin n → ℝ) :
    (differenceDivergence .mean 0 false x y = .ok 0 ↔ SameMean x y) ∧ (run .distance .mdd .mean a (dmat x) (colMat y) = .ok 0 ↔ SameMean x y) := by
  rw [(C38_mdd_value hn x y).1, C38_mdd_class hn a ht hb, Except.ok.injEq, Except.ok.injEq, Real.sqrt_eq_zero (mdd2_nonneg hn x y), ← mdd2_zero_iff hn]
  exact ⟨Iff.rfl, Iff.rfl⟩

/-- C39 (partial: at least two predictors): a combination of the responses has the same mean at every value of the predictors exactly if it is in the null space of
the quadratic form of the divergence matrix. -/
theorem C39_mddm_null_partial (hn : 0 < n) (hp : p ≠ 1 ∨ n = 1) (x : Fin n → Fin p → ℝ) (y : Fin n → Fin q → ℝ) :
    ∃ M, mddm x y = .ok M ∧ ∀ b : Fin q → ℝ, ∑ k, ∑ l, b k * b l * M k l = 0 ↔ SameMean x (fun i => ∑ k, y i k * b k) := by
  obtain ⟨M, h1, -, -, h2⟩ := C39_mddm_partial hn hp x y
  refine ⟨M, h1, fun b => ?_⟩
  rw [(h2 b).1, mdd2_zero_iff hn]

/-- C164: with independent data the divergence is zero; with a response that is a function of the predictors it is zero only if the response is constant. -/
theorem C164_extremes (hn : 0 < n) (a : FitArgs) (ht : a.trimming = 0) (hb : a.biascorr = false) (x : Fin n → Fin p → ℝ) (y : Fin n → ℝ) :
    (IndependentData x y → run .distance .mdd .mean a (dmat x) (colMat y) = .ok 0) ∧
      ((∀ i j, x i = x j → y i = y j) → (run .distance .mdd .mean a (dmat x) (colMat y) = .ok 0 ↔ ∀ i j, y i = y j)) := by
  refine ⟨fun h => (C164_mdd_zero hn a ht hb x y).2.mpr (independent_sameMean hn h), fun h => ?_⟩
  rw [(C164_mdd_zero hn a ht hb x y).2, function_sameMean h]

/-- A response that depends on the predictor, but not in the mean: distance covariance is positive and the divergence is zero. -/
example (a : FitArgs) (ht : a.trimming = 0) (hb : a.biascorr = false) (hf : a.fast = true) :
    run .distance .mdd .mean a (dmat fun i (_ : Fin 1) => (![1, 0, 1] : Fin 3 → ℝ) i) (colMat ![-1, 0, 1]) = .ok 0 ∧
      run .distance .cov .mean a (dmat fun i (_ : Fin 1) => (![1, 0, 1] : Fin 3 → ℝ) i) (dmat fun i (_ : Fin 1) => (![-1, 0, 1] : Fin 3 → ℝ) i) ≠ .ok 0 := by
  classical
  constructor
  · rw [(C164_mdd_zero (by norm_num) a ht hb _ _).2]
    rw [sameMean_iff (by norm_num)]
    intro s
    rw [Finset.sum_filter, Fin.sum_univ_three]
    have h0 : avg (![-1, 0, 1] : Fin 3 → ℝ) = 0 := by simp [avg, Fin.sum_univ_three]
    rw [h0]
    have h1 : ((fun _ : Fin 1 => (![1, 0, 1] : Fin 3 → ℝ) 0) = s) ↔ ((fun _ : Fin 1 => (![1, 0, 1] : Fin 3 → ℝ) 2) = s) := by simp
    by_cases h2 : (fun _ : Fin 1 => (![1, 0, 1] : Fin 3 → ℝ) 2) = s
    · rw [if_pos (h1.mpr h2), if_pos h2]; simp
    · rw [if_neg (fun h => h2 (h1.mp h)), if_neg h2]; simp
  · rw [Ne, C163_dcov_zero (by norm_num) a ht hb (Or.inl hf), independent_col]
    intro h
    refine parabola_dependent fun s t => ?_
    have := h t s
    simp only [and_comm (a := (![1, 0, 1] : Fin 3 → ℝ) _ = t)] at this
    rw [mul_comm (Nat.card _)] at this
    exact this

/-- Non-vacuity of C163: a two by two design, and its values. -/
example (a : FitArgs) (ht : a.trimming = 0) (hb : a.biascorr = false) (hf : a.fast = true) :
    run .distance .cov .mean a (dmat fun k (_ : Fin 1) => (![0, 1] : Fin 2 → ℝ) (finProdFinEquiv.symm k : Fin 2 × Fin 2).1)
      (dmat fun k (_ : Fin 1) => (![0, 5] : Fin 2 → ℝ) (finProdFinEquiv.symm k : Fin 2 × Fin 2).2) = .ok 0 :=
  C163_factorial (n := 2 * 2) (by norm_num) finProdFinEquiv.symm (fun i (_ : Fin 1) => (![0, 1] : Fin 2 → ℝ) i) (fun i (_ : Fin 1) => (![0, 5] : Fin 2 → ℝ) i) a ht hb (Or.inl hf)

end Direpack
