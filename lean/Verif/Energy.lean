import Mathlib.Analysis.Matrix.Order
import Mathlib.Analysis.Real.Sqrt
import Mathlib.Topology.Order.MonotoneConvergence
import Mathlib.Topology.Algebra.Order.Field
import Mathlib.Topology.Algebra.Monoid
import Mathlib.Algebra.BigOperators.Fin
import Mathlib.Tactic.Linarith
import Mathlib.Tactic.FieldSimp
import Mathlib.Tactic.Positivity
import Verif.Dicomo

/-!
Conditional negative definiteness of the Euclidean distance: for weights that sum to zero,
`∑ᵢ ∑ⱼ cᵢ cⱼ |xᵢ - xⱼ| ≤ 0`.

Proof: for points on a sphere of radius `R`, the matrix `V = 1 - |zᵢ - zⱼ|²/(4R²)` is positive semidefinite with entries in
`[0,1]`; the iteration `q ↦ (V + q∘q)/2` keeps semidefiniteness (Schur product) and converges entrywise to
`1 - √(1-V) = 1 - |zᵢ - zⱼ|/(2R)`.  Arbitrary points are lifted to a sphere and `R` tends to infinity.
-/

namespace Direpack

open scoped BigOperators
open Filter Topology Matrix

/-- The iteration whose limit is `1 - √(1 - v)`. -/
noncomputable def qIter (v : ℝ) : ℕ → ℝ
  | 0 => 0
  | k + 1 => (v + qIter v k * qIter v k) / 2

lemma qIter_bounds {v : ℝ} (h0 : 0 ≤ v) (h1 : v ≤ 1) (k : ℕ) :
    0 ≤ qIter v k ∧ qIter v k ≤ 1 - √(1 - v) := by
  have hs := Real.sqrt_nonneg (1 - v)
  have hsq := Real.sq_sqrt (show 0 ≤ 1 - v by linarith)
  have hs1 : √(1 - v) ≤ 1 := by
    rw [Real.sqrt_le_left (by norm_num : (0 : ℝ) ≤ 1)]; linarith
  induction k with
  | zero => exact ⟨le_refl _, by simp only [qIter]; linarith⟩
  | succ k ih =>
    obtain ⟨a, b⟩ := ih
    simp only [qIter]
    constructor
    · have := mul_nonneg a a; linarith
    · nlinarith

lemma qIter_mono {v : ℝ} (h0 : 0 ≤ v) (h1 : v ≤ 1) : Monotone (qIter v) := by
  refine monotone_nat_of_le_succ fun k => ?_
  obtain ⟨a, b⟩ := qIter_bounds h0 h1 k
  have hs := Real.sqrt_nonneg (1 - v)
  have hsq := Real.sq_sqrt (show 0 ≤ 1 - v by linarith)
  simp only [qIter]
  nlinarith

lemma qIter_tendsto {v : ℝ} (h0 : 0 ≤ v) (h1 : v ≤ 1) :
    Tendsto (qIter v) atTop (𝓝 (1 - √(1 - v))) := by
  have hb : BddAbove (Set.range (qIter v)) :=
    ⟨1 - √(1 - v), by rintro _ ⟨k, rfl⟩; exact (qIter_bounds h0 h1 k).2⟩
  have ht := tendsto_atTop_ciSup (qIter_mono h0 h1) hb
  set l := ⨆ i, qIter v i
  have hle : l ≤ 1 - √(1 - v) := ciSup_le fun k => (qIter_bounds h0 h1 k).2
  have ht2 : Tendsto (fun k => qIter v (k + 1)) atTop (𝓝 ((v + l * l) / 2)) := by
    simp only [qIter]
    exact (tendsto_const_nhds.add (ht.mul ht)).div_const 2
  have he := tendsto_nhds_unique ((tendsto_add_atTop_iff_nat 1).mpr ht) ht2
  have hs := Real.sqrt_nonneg (1 - v)
  have : √(1 - v) = 1 - l := by
    rw [Real.sqrt_eq_iff_mul_self_eq (by linarith) (by linarith)]
    nlinarith
  rw [this]
  simpa using ht

lemma quad_eq {n : ℕ} (M : Matrix (Fin n) (Fin n) ℝ) (c : Fin n → ℝ) :
    star c ⬝ᵥ (M *ᵥ c) = ∑ i, ∑ j, c i * c j * M i j := by
  simp only [dotProduct, mulVec, star_trivial, Finset.mul_sum]
  refine Finset.sum_congr rfl fun i _ => Finset.sum_congr rfl fun j _ => by ring

lemma qIter_posSemidef {n : ℕ} {V : Matrix (Fin n) (Fin n) ℝ} (hV : V.PosSemidef) (k : ℕ) :
    (Matrix.of fun i j => qIter (V i j) k).PosSemidef := by
  induction k with
  | zero =>
    have : (Matrix.of fun i j => qIter (V i j) 0) = (0 : Matrix (Fin n) (Fin n) ℝ) := by
      ext i j; simp [qIter]
    rw [this]; exact Matrix.PosSemidef.zero
  | succ k ih =>
    have : (Matrix.of fun i j => qIter (V i j) (k + 1)) =
        (1 / 2 : ℝ) • (V + (Matrix.of fun i j => qIter (V i j) k) ⊙ (Matrix.of fun i j => qIter (V i j) k)) := by
      ext i j
      simp [qIter, Matrix.hadamard_apply]
      ring
    rw [this]
    exact (hV.add (ih.hadamard ih)).smul (by norm_num)

/-- Points on a sphere. -/
lemma sphere_neg {n m : ℕ} (z : Fin n → Fin m → ℝ) (R : ℝ) (hR : 0 < R)
    (hz : ∀ i, ∑ j, z i j ^ 2 = R ^ 2) (c : Fin n → ℝ) (hc : ∑ i, c i = 0) :
    ∑ i, ∑ k, c i * c k * edist z i k ≤ 0 := by
  set V : Matrix (Fin n) (Fin n) ℝ :=
    Matrix.of fun i k => 1 / 2 + (∑ j, z i j * z k j) / (2 * R ^ 2) with hVdef
  have hR2 : 0 < R ^ 2 := by positivity
  have hsub : ∀ i k, ∑ j, (z i j - z k j) ^ 2 = 2 * R ^ 2 - 2 * ∑ j, z i j * z k j := by
    intro i k
    have : ∑ j, (z i j - z k j) ^ 2 = ∑ j, z i j ^ 2 + ∑ j, z k j ^ 2 - 2 * ∑ j, z i j * z k j := by
      rw [Finset.mul_sum, ← Finset.sum_add_distrib, ← Finset.sum_sub_distrib]
      exact Finset.sum_congr rfl fun j _ => by ring
    rw [this, hz, hz]; ring
  have hadd : ∀ i k, ∑ j, (z i j + z k j) ^ 2 = 2 * R ^ 2 + 2 * ∑ j, z i j * z k j := by
    intro i k
    have : ∑ j, (z i j + z k j) ^ 2 = ∑ j, z i j ^ 2 + ∑ j, z k j ^ 2 + 2 * ∑ j, z i j * z k j := by
      rw [Finset.mul_sum, ← Finset.sum_add_distrib, ← Finset.sum_add_distrib]
      exact Finset.sum_congr rfl fun j _ => by ring
    rw [this, hz, hz]; ring
  have hV : V.PosSemidef := by
    refine Matrix.PosSemidef.of_dotProduct_mulVec_nonneg ?_ fun d => ?_
    · ext i k
      simp only [hVdef, Matrix.conjTranspose_apply, Matrix.of_apply, star_trivial]
      congr 2
      exact Finset.sum_congr rfl fun j _ => mul_comm _ _
    · rw [quad_eq]
      have : ∑ i, ∑ k, d i * d k * V i k =
          1 / 2 * (∑ i, d i) ^ 2 + 1 / (2 * R ^ 2) * ∑ j, (∑ i, d i * z i j) ^ 2 := by
        have e1 : (∑ i, d i) ^ 2 = ∑ i, ∑ k, d i * d k := by rw [sq, Finset.sum_mul_sum]
        have e2 : ∑ j, (∑ i, d i * z i j) ^ 2 = ∑ i, ∑ k, d i * d k * ∑ j, z i j * z k j := by
          have : ∀ j, (∑ i, d i * z i j) ^ 2 = ∑ i, ∑ k, d i * d k * (z i j * z k j) := by
            intro j
            rw [sq, Finset.sum_mul_sum]
            exact Finset.sum_congr rfl fun i _ => Finset.sum_congr rfl fun k _ => by ring
          simp only [this, Finset.mul_sum]
          rw [Finset.sum_comm]
          refine Finset.sum_congr rfl fun i _ => ?_
          rw [Finset.sum_comm]
        rw [e1, e2, Finset.mul_sum, Finset.mul_sum, ← Finset.sum_add_distrib]
        refine Finset.sum_congr rfl fun i _ => ?_
        rw [Finset.mul_sum, Finset.mul_sum, ← Finset.sum_add_distrib]
        refine Finset.sum_congr rfl fun k _ => ?_
        simp only [hVdef, Matrix.of_apply]
        ring
      rw [this]
      have h2 : 0 ≤ ∑ j, (∑ i, d i * z i j) ^ 2 := Finset.sum_nonneg fun j _ => sq_nonneg _
      positivity
  have hV0 : ∀ i k, 0 ≤ V i k := by
    intro i k
    have h := hadd i k
    have : 0 ≤ ∑ j, (z i j + z k j) ^ 2 := Finset.sum_nonneg fun j _ => sq_nonneg _
    simp only [hVdef, Matrix.of_apply]
    rw [show (1 : ℝ) / 2 + (∑ j, z i j * z k j) / (2 * R ^ 2) =
      (2 * R ^ 2 + 2 * ∑ j, z i j * z k j) / (4 * R ^ 2) by field_simp; ring, ← h]
    positivity
  have h1V : ∀ i k, 1 - V i k = (∑ j, (z i j - z k j) ^ 2) / (2 * R) ^ 2 := by
    intro i k
    rw [hsub]
    simp only [hVdef, Matrix.of_apply]
    field_simp
    ring
  have hV1 : ∀ i k, V i k ≤ 1 := by
    intro i k
    have h := h1V i k
    have : 0 ≤ (∑ j, (z i j - z k j) ^ 2) / (2 * R) ^ 2 :=
      div_nonneg (Finset.sum_nonneg fun j _ => sq_nonneg _) (sq_nonneg _)
    linarith
  have hs : ∀ i k, √(1 - V i k) = edist z i k / (2 * R) := by
    intro i k
    rw [h1V, Real.sqrt_div' _ (sq_nonneg _), Real.sqrt_sq (by positivity)]
    rfl
  have hlim : Tendsto (fun k => ∑ i, ∑ j, c i * c j * qIter (V i j) k) atTop
      (𝓝 (∑ i, ∑ j, c i * c j * (1 - √(1 - V i j)))) :=
    tendsto_finsetSum _ fun i _ => tendsto_finsetSum _ fun j _ =>
      (qIter_tendsto (hV0 i j) (hV1 i j)).const_mul _
  have hnn : 0 ≤ ∑ i, ∑ j, c i * c j * (1 - √(1 - V i j)) := by
    refine ge_of_tendsto' hlim fun k => ?_
    have := (qIter_posSemidef hV k).dotProduct_mulVec_nonneg c
    rw [quad_eq] at this
    exact this
  have hexp : ∑ i, ∑ j, c i * c j * (1 - √(1 - V i j)) =
      (∑ i, c i) ^ 2 - (1 / (2 * R)) * ∑ i, ∑ j, c i * c j * edist z i j := by
    rw [sq, Finset.sum_mul_sum, Finset.mul_sum, ← Finset.sum_sub_distrib]
    refine Finset.sum_congr rfl fun i _ => ?_
    rw [Finset.mul_sum, ← Finset.sum_sub_distrib]
    refine Finset.sum_congr rfl fun j _ => ?_
    rw [hs]; ring
  rw [hexp, hc] at hnn
  have hpos : 0 < 1 / (2 * R) := by positivity
  by_contra hcon
  push Not at hcon
  have := mul_pos hpos hcon
  nlinarith

lemma lift_tendsto (a : ℝ) (ha : 0 ≤ a) :
    Tendsto (fun R : ℝ => R - √(R ^ 2 - a)) atTop (𝓝 0) := by
  have hub : Tendsto (fun R : ℝ => a / R) atTop (𝓝 0) := tendsto_const_nhds.div_atTop tendsto_id
  refine squeeze_zero' ?_ ?_ hub
  · filter_upwards [eventually_ge_atTop (0 : ℝ)] with R hR
    have : √(R ^ 2 - a) ≤ √(R ^ 2) := Real.sqrt_le_sqrt (by linarith)
    rw [Real.sqrt_sq hR] at this
    linarith
  · filter_upwards [eventually_ge_atTop (a + 1)] with R hR
    have hR0 : 0 < R := by linarith
    have hRa : a ≤ R ^ 2 := by nlinarith
    have h1 : 0 ≤ R - a / R := by
      rw [sub_nonneg, div_le_iff₀ hR0]; nlinarith
    have : R - a / R ≤ √(R ^ 2 - a) := by
      refine Real.le_sqrt_of_sq_le ?_
      have e : (R - a / R) ^ 2 = R ^ 2 - 2 * a + a * (a / R ^ 2) := by field_simp; ring
      rw [e]
      have : a / R ^ 2 ≤ 1 := by rw [div_le_one (by positivity)]; exact hRa
      nlinarith
    linarith

/-- The Euclidean distance is conditionally negative definite. -/
theorem edist_cond_neg {n p : ℕ} (x : Fin n → Fin p → ℝ) (c : Fin n → ℝ) (hc : ∑ i, c i = 0) :
    ∑ i, ∑ k, c i * c k * edist x i k ≤ 0 := by
  set a : Fin n → ℝ := fun i => ∑ j, x i j ^ 2 with ha
  have ha0 : ∀ i, 0 ≤ a i := fun i => Finset.sum_nonneg fun j _ => sq_nonneg _
  set h : ℝ → Fin n → ℝ := fun R i => √(R ^ 2 - a i) with hh
  set z : ℝ → Fin n → Fin (p + 1) → ℝ := fun R i => Fin.cons (h R i) (x i) with hz
  have hd : ∀ R i k, edist (z R) i k = √((h R i - h R k) ^ 2 + ∑ j, (x i j - x k j) ^ 2) := by
    intro R i k
    unfold edist
    rw [Fin.sum_univ_succ]
    simp [hz]
  have hev : ∀ᶠ R in atTop, ∑ i, ∑ k, c i * c k * edist (z R) i k ≤ 0 := by
    filter_upwards [eventually_ge_atTop (1 + ∑ i, a i)] with R hR
    have hS : 0 ≤ ∑ i, a i := Finset.sum_nonneg fun i _ => ha0 i
    refine sphere_neg (z R) R (by linarith) (fun i => ?_) c hc
    have hi : a i ≤ ∑ i, a i := Finset.single_le_sum (fun i _ => ha0 i) (Finset.mem_univ i)
    rw [Fin.sum_univ_succ]
    simp only [hz, Fin.cons_zero, Fin.cons_succ]
    rw [show ∑ j, x i j ^ 2 = a i from rfl]
    simp only [hh]
    rw [Real.sq_sqrt (by nlinarith)]
    ring
  have hlim : Tendsto (fun R => ∑ i, ∑ k, c i * c k * edist (z R) i k) atTop
      (𝓝 (∑ i, ∑ k, c i * c k * edist x i k)) := by
    refine tendsto_finsetSum _ fun i _ => tendsto_finsetSum _ fun k _ => Tendsto.const_mul _ ?_
    simp only [hd]
    have hdiff : Tendsto (fun R => h R i - h R k) atTop (𝓝 0) := by
      have := (lift_tendsto (a k) (ha0 k)).sub (lift_tendsto (a i) (ha0 i))
      simp only [sub_zero] at this
      refine this.congr fun R => ?_
      simp only [hh]; ring
    have h2 : Tendsto (fun R => (h R i - h R k) ^ 2 + ∑ j, (x i j - x k j) ^ 2) atTop
        (𝓝 (0 ^ 2 + ∑ j, (x i j - x k j) ^ 2)) := (hdiff.pow 2).add tendsto_const_nhds
    have h3 := (Real.continuous_sqrt.tendsto _).comp h2
    simp only [ne_eq, OfNat.ofNat_ne_zero, not_false_eq_true, zero_pow, zero_add] at h3
    exact h3
  exact le_of_tendsto hlim hev

end Direpack
