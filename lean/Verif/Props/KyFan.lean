import Mathlib.LinearAlgebra.Matrix.DotProduct
import Mathlib.Data.Real.Basic
import Mathlib.Tactic.Linarith
import Mathlib.Tactic.Ring

/-! The eigenvectors of the largest eigenvalues are the orthonormal system with the largest sum of values of the quadratic form. -/

namespace Direpack

open scoped BigOperators

variable {p h d : ℕ}

/-- An orthonormal system of vectors. -/
def OrthoSys (V : Fin d → Fin p → ℝ) : Prop := ∀ a b, V a ⬝ᵥ V b = if a = b then 1 else 0

lemma dot_comb (x : Fin p → ℝ) (c : Fin d → ℝ) (V : Fin d → Fin p → ℝ) : x ⬝ᵥ (∑ b, c b • V b) = ∑ b, c b * (x ⬝ᵥ V b) := by
  rw [dotProduct_sum]
  exact Finset.sum_congr rfl fun b _ => by rw [dotProduct_smul, smul_eq_mul]

lemma OrthoSys.dot {V : Fin d → Fin p → ℝ} (hV : OrthoSys V) (c : Fin d → ℝ) (a : Fin d) : V a ⬝ᵥ (∑ b, c b • V b) = c a := by
  rw [dot_comb, Finset.sum_eq_single a]
  · rw [hV, if_pos rfl, mul_one]
  · intro b _ hb
    rw [hV, if_neg (Ne.symm hb), mul_zero]
  · intro ha
    exact absurd (Finset.mem_univ a) ha

lemma OrthoSys.comb_sq {V : Fin d → Fin p → ℝ} (hV : OrthoSys V) (c : Fin d → ℝ) : (∑ b, c b • V b) ⬝ᵥ (∑ b, c b • V b) = ∑ b, c b ^ 2 := by
  rw [dot_comb]
  exact Finset.sum_congr rfl fun b _ => by rw [dotProduct_comm, hV.dot, sq]

/-- The squared distance to a point of the span. -/
lemma OrthoSys.dist {V : Fin d → Fin p → ℝ} (hV : OrthoSys V) (x : Fin p → ℝ) (c : Fin d → ℝ) :
    (x - ∑ b, c b • V b) ⬝ᵥ (x - ∑ b, c b • V b) = x ⬝ᵥ x - ∑ b, (x ⬝ᵥ V b) ^ 2 + ∑ b, (x ⬝ᵥ V b - c b) ^ 2 := by
  rw [sub_dotProduct, dotProduct_sub, dotProduct_sub, hV.comb_sq, dotProduct_comm (∑ b, c b • V b) x, dot_comb]
  have : ∑ b, (x ⬝ᵥ V b - c b) ^ 2 = ∑ b, (x ⬝ᵥ V b) ^ 2 - 2 * ∑ b, c b * (x ⬝ᵥ V b) + ∑ b, c b ^ 2 := by
    rw [Finset.mul_sum, ← Finset.sum_sub_distrib, ← Finset.sum_add_distrib]
    exact Finset.sum_congr rfl fun b _ => by ring
  rw [this]
  ring

lemma dot_self_nonneg (x : Fin p → ℝ) : 0 ≤ x ⬝ᵥ x := Finset.sum_nonneg fun k _ => mul_self_nonneg (x k)

lemma OrthoSys.bessel {V : Fin d → Fin p → ℝ} (hV : OrthoSys V) (x : Fin p → ℝ) : ∑ b, (x ⬝ᵥ V b) ^ 2 ≤ x ⬝ᵥ x := by
  have h1 := hV.dist x fun b => x ⬝ᵥ V b
  have h2 := dot_self_nonneg (x - ∑ b, (x ⬝ᵥ V b) • V b)
  simp only [sub_self, ne_eq, OfNat.ofNat_ne_zero, not_false_eq_true, zero_pow, Finset.sum_const_zero, add_zero] at h1
  linarith

/-- The value of the quadratic form, split into the part in the span of eigenvectors and the rest. -/
lemma quad_split {M : Matrix (Fin p) (Fin p) ℝ} (hM : M.transpose = M) {W : Fin h → Fin p → ℝ} {lam : Fin h → ℝ} (hW : OrthoSys W)
    (heig : ∀ a, M.mulVec (W a) = lam a • W a) (v : Fin p → ℝ) :
    ∃ r, (∀ a, W a ⬝ᵥ r = 0) ∧ r ⬝ᵥ r = v ⬝ᵥ v - ∑ a, (v ⬝ᵥ W a) ^ 2 ∧
      v ⬝ᵥ M.mulVec v = ∑ a, lam a * (v ⬝ᵥ W a) ^ 2 + r ⬝ᵥ M.mulVec r := by
  set c : Fin h → ℝ := fun a => v ⬝ᵥ W a with hc
  set s := ∑ a, c a • W a with hs
  have hr : ∀ a, W a ⬝ᵥ (v - s) = 0 := by
    intro a
    rw [dotProduct_sub, hs, hW.dot, dotProduct_comm]
    exact sub_self _
  refine ⟨v - s, hr, ?_, ?_⟩
  · have := hW.dist v c
    rw [← hs] at this
    rw [this]
    simp [hc]
  · have hMs : M.mulVec s = ∑ a, (c a * lam a) • W a := by
      rw [hs, Matrix.mulVec_sum]
      exact Finset.sum_congr rfl fun a _ => by rw [Matrix.mulVec_smul, heig, smul_smul]
    have h1 : s ⬝ᵥ M.mulVec s = ∑ a, lam a * c a ^ 2 := by
      rw [hMs, dot_comb]
      exact Finset.sum_congr rfl fun a _ => by rw [dotProduct_comm, hs, hW.dot]; ring
    have h2 : (v - s) ⬝ᵥ M.mulVec s = 0 := by
      rw [hMs, dot_comb]
      exact Finset.sum_eq_zero fun a _ => by rw [dotProduct_comm, hr, mul_zero]
    have h3 : s ⬝ᵥ M.mulVec (v - s) = 0 := by
      rw [Matrix.dotProduct_mulVec, ← Matrix.mulVec_transpose, hM, dotProduct_comm]
      exact h2
    have e : v = s + (v - s) := (add_sub_cancel s v).symm
    calc v ⬝ᵥ M.mulVec v = (s + (v - s)) ⬝ᵥ M.mulVec (s + (v - s)) := by rw [← e]
      _ = _ := by
        rw [Matrix.mulVec_add, add_dotProduct, dotProduct_add, dotProduct_add, h1, h2, h3]
        ring

/-- No orthonormal system (of at most as many vectors, if the bound `mu` is not negative) has a larger sum of values than the eigenvectors, if all values orthogonal to these
are at most `mu` and the eigenvalues at least `mu`. -/
lemma ky_fan {M : Matrix (Fin p) (Fin p) ℝ} (hM : M.transpose = M) {W : Fin h → Fin p → ℝ} {lam : Fin h → ℝ} (hW : OrthoSys W)
    (heig : ∀ a, M.mulVec (W a) = lam a • W a) {mu : ℝ} (hmu : ∀ a, mu ≤ lam a) (hres : ∀ r, (∀ a, W a ⬝ᵥ r = 0) → r ⬝ᵥ M.mulVec r ≤ mu * (r ⬝ᵥ r))
    {V : Fin d → Fin p → ℝ} (hV : OrthoSys V) (hd : (d : ℝ) * mu ≤ h * mu) : ∑ b, V b ⬝ᵥ M.mulVec (V b) ≤ ∑ a, lam a := by
  have h1 : ∀ b, V b ⬝ᵥ M.mulVec (V b) ≤ mu + ∑ a, (lam a - mu) * (W a ⬝ᵥ V b) ^ 2 := by
    intro b
    obtain ⟨r, hr, hrr, hq⟩ := quad_split hM hW heig (V b)
    have h2 := hres r hr
    rw [hrr, hV, if_pos rfl] at h2
    have h3 : ∑ a, (lam a - mu) * (W a ⬝ᵥ V b) ^ 2 = ∑ a, lam a * (V b ⬝ᵥ W a) ^ 2 - mu * ∑ a, (V b ⬝ᵥ W a) ^ 2 := by
      rw [Finset.mul_sum, ← Finset.sum_sub_distrib]
      exact Finset.sum_congr rfl fun a _ => by rw [dotProduct_comm]; ring
    rw [hq, h3]
    linarith
  calc ∑ b, V b ⬝ᵥ M.mulVec (V b) ≤ ∑ b, (mu + ∑ a, (lam a - mu) * (W a ⬝ᵥ V b) ^ 2) := Finset.sum_le_sum fun b _ => h1 b
    _ = d * mu + ∑ a, (lam a - mu) * ∑ b, (W a ⬝ᵥ V b) ^ 2 := by
      rw [Finset.sum_add_distrib, Finset.sum_const, Finset.card_univ, Fintype.card_fin, nsmul_eq_mul, Finset.sum_comm]
      simp only [Finset.mul_sum]
    _ ≤ h * mu + ∑ a, (lam a - mu) * 1 := by
      refine add_le_add hd (Finset.sum_le_sum fun a _ => mul_le_mul_of_nonneg_left ?_ (sub_nonneg.mpr (hmu a)))
      exact (hV.bessel (W a)).trans_eq (by rw [hW, if_pos rfl])
    _ = ∑ a, lam a := by
      simp only [mul_one, Finset.sum_sub_distrib, Finset.sum_const, Finset.card_univ, Fintype.card_fin, nsmul_eq_mul]
      ring

end Direpack
