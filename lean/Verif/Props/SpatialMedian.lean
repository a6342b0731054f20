import Mathlib.Analysis.InnerProductSpace.PiL2
import Mathlib.Analysis.InnerProductSpace.Projection.Minimal
import Mathlib.Analysis.InnerProductSpace.Convex
import Mathlib.Analysis.Convex.StrictConvexSpace
import Mathlib.Analysis.Convex.Topology
import Mathlib.Tactic.Linarith
import Mathlib.Tactic.Positivity
import Verif.Props.Breakdown
import Verif.Props.Rotate4

/-! Property C167: the spatial median exists, is unique unless the cases lie on one line, lies among the cases and follows shifts, changes of unit, rotations and
reorderings. -/

set_option linter.unusedSectionVars false

namespace Direpack

open scoped BigOperators RealInnerProductSpace
open Spec (sumDist)

/-! ### Sums of distances in a Euclidean space -/

section space

variable {E : Type*} [NormedAddCommGroup E] [InnerProductSpace ℝ E] {n : ℕ}

lemma sumNorm_exists [FiniteDimensional ℝ E] (x : Fin n → E) : ∃ a, ∀ b, ∑ i, ‖x i - a‖ ≤ ∑ i, ‖x i - b‖ := by
  rcases Nat.eq_zero_or_pos n with rfl | hn
  · exact ⟨0, fun b => by simp⟩
  · have hprop : ProperSpace E := FiniteDimensional.proper ℝ E
    have hcont : Continuous fun a => ∑ i, ‖x i - a‖ := by fun_prop
    refine hcont.exists_forall_le ?_
    refine Filter.tendsto_atTop_mono (f := fun a => ‖a‖ - ‖x ⟨0, hn⟩‖) (fun a => ?_)
      (Filter.tendsto_atTop_add_const_right _ _ (tendsto_norm_cocompact_atTop (E := E)))
    refine le_trans ?_ (Finset.single_le_sum (f := fun i => ‖x i - a‖) (fun i _ => norm_nonneg _) (Finset.mem_univ ⟨0, hn⟩))
    have := norm_sub_norm_le a (x ⟨0, hn⟩)
    rwa [norm_sub_rev] at this

/-- Two different minimisers: all points lie on the line through them. -/
lemma sumNorm_line {x : Fin n → E} {a b : E} (ha : ∀ c, ∑ i, ‖x i - a‖ ≤ ∑ i, ‖x i - c‖) (hb : ∀ c, ∑ i, ‖x i - b‖ ≤ ∑ i, ‖x i - c‖) (hab : a ≠ b) (i : Fin n) :
    ∃ t : ℝ, x i = a + t • (b - a) := by
  have hm : ∀ i, ‖x i - (2 : ℝ)⁻¹ • (a + b)‖ = 2⁻¹ * ‖(x i - a) + (x i - b)‖ := by
    intro i
    rw [← norm_smul_of_nonneg (by norm_num : (0 : ℝ) ≤ 2⁻¹)]
    congr 1
    rw [smul_add, smul_add, smul_sub, smul_sub]
    have : x i = (2 : ℝ)⁻¹ • x i + (2 : ℝ)⁻¹ • x i := by rw [← add_smul]; norm_num
    conv_lhs => rw [this]
    abel
  have hle : ∀ i ∈ Finset.univ, ‖x i - (2 : ℝ)⁻¹ • (a + b)‖ ≤ 2⁻¹ * (‖x i - a‖ + ‖x i - b‖) := fun i _ => by
    rw [hm]; exact mul_le_mul_of_nonneg_left (norm_add_le _ _) (by norm_num)
  have hsum : ∑ i, ‖x i - (2 : ℝ)⁻¹ • (a + b)‖ = ∑ i, 2⁻¹ * (‖x i - a‖ + ‖x i - b‖) := by
    apply le_antisymm (Finset.sum_le_sum hle)
    rw [← Finset.mul_sum, Finset.sum_add_distrib]
    have h1 := ha ((2 : ℝ)⁻¹ • (a + b))
    have h2 := hb ((2 : ℝ)⁻¹ • (a + b))
    linarith
  have heq := (Finset.sum_eq_sum_iff_of_le hle).mp hsum i (Finset.mem_univ i)
  rw [hm] at heq
  have hray : SameRay ℝ (x i - a) (x i - b) := sameRay_iff_norm_add.mpr (by linarith)
  rcases hray with h | h | ⟨r, s, hr, hs, h⟩
  · exact ⟨0, by rw [zero_smul, add_zero]; exact sub_eq_zero.mp h⟩
  · exact ⟨1, by rw [one_smul, add_sub_cancel]; exact sub_eq_zero.mp h⟩
  · have hrs : s - r ≠ 0 := by
      intro h0
      have : s = r := by linarith
      subst this
      have := smul_right_injective E hs.ne' h
      exact hab (by simpa using this)
    refine ⟨s / (s - r), ?_⟩
    have h1 : (s - r) • (x i - a) = s • (b - a) := by
      have : s • (b - a) = s • (x i - a) - s • (x i - b) := by rw [← smul_sub]; congr 1; abel
      rw [this, ← h, sub_smul]
    have h2 : x i - a = (s / (s - r)) • (b - a) := by
      rw [div_eq_inv_mul, mul_smul, ← h1, smul_smul, inv_mul_cancel₀ hrs, one_smul]
    rw [← h2]; abel

/-- A minimiser lies in the convex hull. -/
lemma sumNorm_hull [FiniteDimensional ℝ E] (hn : 0 < n) {x : Fin n → E} {a : E} (ha : ∀ c, ∑ i, ‖x i - a‖ ≤ ∑ i, ‖x i - c‖) : a ∈ convexHull ℝ (Set.range x) := by
  have hprop : ProperSpace E := FiniteDimensional.proper ℝ E
  have hne : (convexHull ℝ (Set.range x)).Nonempty := ⟨x ⟨0, hn⟩, subset_convexHull ℝ _ ⟨_, rfl⟩⟩
  have hcomp : IsCompact (convexHull ℝ (Set.range x)) := (Set.finite_range x).isCompact_convexHull ℝ
  obtain ⟨v, hv, hmin⟩ := exists_norm_eq_iInf_of_complete_convex hne hcomp.isComplete (convex_convexHull ℝ _) a
  have hin := (norm_eq_iInf_iff_real_inner_le_zero (convex_convexHull ℝ _) hv).mp hmin
  by_cases hav : a = v
  · rw [hav]; exact hv
  · exfalso
    have hlt : ∀ i, ‖x i - v‖ < ‖x i - a‖ := by
      intro i
      have h1 := hin (x i) (subset_convexHull ℝ _ ⟨i, rfl⟩)
      have h2 : ‖x i - a‖ ^ 2 = ‖x i - v‖ ^ 2 - 2 * ⟪x i - v, a - v⟫ + ‖a - v‖ ^ 2 := by
        rw [← norm_sub_sq_real]; congr 2; abel
      have h3 : 0 < ‖a - v‖ := norm_pos_iff.mpr (sub_ne_zero.mpr hav)
      rw [real_inner_comm] at h1
      refine lt_of_pow_lt_pow_left₀ 2 (norm_nonneg _) ?_
      nlinarith
    exact absurd (ha v) (not_le.mpr (Finset.sum_lt_sum_of_nonempty ⟨⟨0, hn⟩, Finset.mem_univ _⟩ fun i _ => hlt i))

lemma hull_weights (x : Fin n → E) {a : E} (h : a ∈ convexHull ℝ (Set.range x)) : ∃ w : Fin n → ℝ, (∀ i, 0 ≤ w i) ∧ ∑ i, w i = 1 ∧ a = ∑ i, w i • x i := by
  refine (convexHull_min (t := {v | ∃ w : Fin n → ℝ, (∀ i, 0 ≤ w i) ∧ ∑ i, w i = 1 ∧ v = ∑ i, w i • x i}) ?_ ?_) h
  · rintro _ ⟨i, rfl⟩
    exact ⟨fun k => if k = i then 1 else 0, fun k => by dsimp only; split <;> norm_num, by simp, by simp⟩
  · rintro _ ⟨w, w1, w2, rfl⟩ _ ⟨v, v1, v2, rfl⟩ s t hs ht hst
    refine ⟨fun i => s * w i + t * v i, fun i => add_nonneg (mul_nonneg hs (w1 i)) (mul_nonneg ht (v1 i)), ?_, ?_⟩
    · rw [Finset.sum_add_distrib, ← Finset.mul_sum, ← Finset.mul_sum, w2, v2, mul_one, mul_one, hst]
    · rw [Finset.smul_sum, Finset.smul_sum, ← Finset.sum_add_distrib]
      exact Finset.sum_congr rfl fun i _ => by rw [add_smul, smul_smul, smul_smul]

open Classical in
/-- First-order condition: the resultant of the unit vectors towards the points is at most as long as the number of points at `a`. -/
lemma sumNorm_iff (x : Fin n → E) (a : E) :
    (∀ b, ∑ i, ‖x i - a‖ ≤ ∑ i, ‖x i - b‖) ↔
      ‖∑ i, (‖x i - a‖)⁻¹ • (x i - a)‖ ≤ ((Finset.univ.filter fun i => x i = a).card : ℝ) := by
  set g := ∑ i, (‖x i - a‖)⁻¹ • (x i - a) with hg
  set k : ℝ := ((Finset.univ.filter fun i => x i = a).card : ℝ) with hk
  have hkn : 0 ≤ k := Nat.cast_nonneg _
  have hks : ∀ c : ℝ, ∑ i, (if x i = a then c else 0) = k * c := by
    intro c; rw [← Finset.sum_filter, Finset.sum_const, nsmul_eq_mul]
  have hgi : ∀ w : E, ⟪g, w⟫ = ∑ i, (‖x i - a‖)⁻¹ * ⟪x i - a, w⟫ := by
    intro w; rw [hg, sum_inner]; exact Finset.sum_congr rfl fun i _ => by rw [real_inner_smul_left]
  constructor
  · intro h
    set C := ∑ i, (‖x i - a‖)⁻¹ * ‖g‖ ^ 2 / 2 with hC
    have hCn : 0 ≤ C := Finset.sum_nonneg fun i _ => by positivity
    have key : ∀ t : ℝ, 0 < t → 0 ≤ t * (k * ‖g‖ - ‖g‖ ^ 2) + t ^ 2 * C := by
      intro t ht
      have hi : ∀ i, ‖x i - (a + t • g)‖ ≤ ‖x i - a‖ + ((if x i = a then t * ‖g‖ else 0) - t * ((‖x i - a‖)⁻¹ * ⟪x i - a, g⟫) + t ^ 2 * ((‖x i - a‖)⁻¹ * ‖g‖ ^ 2 / 2)) := by
        intro i
        have e : x i - (a + t • g) = (x i - a) - t • g := by abel
        rw [e]
        by_cases hi : x i = a
        · simp [hi, norm_smul, abs_of_pos ht]
        · rw [if_neg hi]
          have hd : 0 < ‖x i - a‖ := norm_pos_iff.mpr (sub_ne_zero.mpr hi)
          have hsq : ‖(x i - a) - t • g‖ ^ 2 = ‖x i - a‖ ^ 2 - 2 * (t * ⟪x i - a, g⟫) + t ^ 2 * ‖g‖ ^ 2 := by
            rw [norm_sub_sq_real, real_inner_smul_right, norm_smul, mul_pow, Real.norm_eq_abs, sq_abs]
          set d := ‖x i - a‖
          set N := ‖(x i - a) - t • g‖
          set s := ⟪x i - a, g⟫
          have h2 : 2 * N * d ≤ N ^ 2 + d ^ 2 := two_mul_le_add_sq N d
          have h3 : d + (0 - t * (d⁻¹ * s) + t ^ 2 * (d⁻¹ * ‖g‖ ^ 2 / 2)) = (N ^ 2 + d ^ 2) / (2 * d) := by
            rw [hsq]; field_simp; ring
          rw [h3, le_div_iff₀ (by positivity)]
          linarith
      have hs := (h (a + t • g)).trans (Finset.sum_le_sum fun i _ => hi i)
      rw [Finset.sum_add_distrib, Finset.sum_add_distrib, Finset.sum_sub_distrib, hks, ← Finset.mul_sum, ← Finset.mul_sum, ← hgi, real_inner_self_eq_norm_sq] at hs
      nlinarith
    by_contra hlt
    push Not at hlt
    have hgp : 0 < ‖g‖ := hkn.trans_lt hlt
    have hδ : 0 < ‖g‖ ^ 2 - k * ‖g‖ := by nlinarith
    have := key ((‖g‖ ^ 2 - k * ‖g‖) / (C + 1)) (by positivity)
    have hne : C + 1 ≠ 0 := by positivity
    have h4 : (‖g‖ ^ 2 - k * ‖g‖) / (C + 1) * (k * ‖g‖ - ‖g‖ ^ 2) + ((‖g‖ ^ 2 - k * ‖g‖) / (C + 1)) ^ 2 * C = -((‖g‖ ^ 2 - k * ‖g‖) / (C + 1)) ^ 2 := by
      field_simp; ring
    rw [h4] at this
    have : 0 < ((‖g‖ ^ 2 - k * ‖g‖) / (C + 1)) ^ 2 := by positivity
    linarith
  · intro h b
    have hi : ∀ i, ‖x i - a‖ + ((if x i = a then ‖b - a‖ else 0) - (‖x i - a‖)⁻¹ * ⟪x i - a, b - a⟫) ≤ ‖x i - b‖ := by
      intro i
      by_cases hi : x i = a
      · simp [hi, norm_sub_rev]
      · rw [if_neg hi]
        have hd : 0 < ‖x i - a‖ := norm_pos_iff.mpr (sub_ne_zero.mpr hi)
        have h1 : ⟪x i - a, x i - b⟫ ≤ ‖x i - a‖ * ‖x i - b‖ := real_inner_le_norm _ _
        have h2 : ⟪x i - a, x i - b⟫ = ‖x i - a‖ ^ 2 - ⟪x i - a, b - a⟫ := by
          have : x i - b = (x i - a) - (b - a) := by abel
          rw [this, inner_sub_right, real_inner_self_eq_norm_sq]
        rw [h2] at h1
        set d := ‖x i - a‖
        set s := ⟪x i - a, b - a⟫
        have h3 : d + (0 - d⁻¹ * s) = (d ^ 2 - s) / d := by field_simp; ring
        rw [h3, div_le_iff₀ hd]
        linarith
    have hs := Finset.sum_le_sum fun i (_ : i ∈ Finset.univ) => hi i
    rw [Finset.sum_add_distrib, Finset.sum_sub_distrib, hks, ← hgi] at hs
    have h1 : ⟪g, b - a⟫ ≤ ‖g‖ * ‖b - a‖ := real_inner_le_norm _ _
    have h2 : ‖g‖ * ‖b - a‖ ≤ k * ‖b - a‖ := mul_le_mul_of_nonneg_right h (norm_nonneg _)
    linarith

end space

/-! ### Statements -/

variable {n p : ℕ}

/-- `a` is a spatial median of the cases: the sum of the distances to the cases is smallest at `a`. -/
def Spec.IsSpatialMedian (X : Fin n → Fin p → ℝ) (a : Fin p → ℝ) : Prop := ∀ b, sumDist X a ≤ sumDist X b

/-- All cases lie on one line (or coincide). -/
def Spec.OnOneLine (X : Fin n → Fin p → ℝ) : Prop := ∃ a d : Fin p → ℝ, ∀ i, ∃ t : ℝ, ∀ j, X i j = a j + t * d j

/-- `a` is a mixture of the cases: a weighted mean with weights that are not negative. -/
def Spec.IsMixture (X : Fin n → Fin p → ℝ) (a : Fin p → ℝ) : Prop := ∃ w : Fin n → ℝ, (∀ i, 0 ≤ w i) ∧ ∑ i, w i = 1 ∧ ∀ j, a j = ∑ i, w i * X i j

/-- The cases in another order, in rotated axes, in another unit and with another origin. -/
def Spec.similar (s : ℝ) (Q : Fin p → Fin p → ℝ) (b : Fin p → ℝ) (σ : Equiv.Perm (Fin n)) (X : Fin n → Fin p → ℝ) : Fin n → Fin p → ℝ :=
  fun i l => s * Spec.rotVec Q (X (σ i)) l + b l

/-- The same change of coordinates for a single point. -/
def Spec.similarPt (s : ℝ) (Q : Fin p → Fin p → ℝ) (b : Fin p → ℝ) (a : Fin p → ℝ) : Fin p → ℝ := fun l => s * Spec.rotVec Q a l + b l

open Spec

lemma sumDist_norm (X : Fin n → Fin p → ℝ) (a : Fin p → ℝ) :
    sumDist X a = ∑ i, ‖(WithLp.toLp 2 (X i) : EuclideanSpace ℝ (Fin p)) - WithLp.toLp 2 a‖ := by
  unfold sumDist
  refine Finset.sum_congr rfl fun i _ => ?_
  rw [← WithLp.toLp_sub, ← euclidnorm_eq]
  rfl

lemma isSpatialMedian_iff (X : Fin n → Fin p → ℝ) (a : Fin p → ℝ) :
    IsSpatialMedian X a ↔ ∀ b : EuclideanSpace ℝ (Fin p), ∑ i, ‖(WithLp.toLp 2 (X i) : EuclideanSpace ℝ (Fin p)) - WithLp.toLp 2 a‖ ≤
      ∑ i, ‖(WithLp.toLp 2 (X i) : EuclideanSpace ℝ (Fin p)) - b‖ := by
  constructor
  · intro h b
    have := h (WithLp.ofLp b)
    rwa [sumDist_norm, sumDist_norm, WithLp.toLp_ofLp] at this
  · intro h b
    rw [sumDist_norm, sumDist_norm]
    exact h _

/-- C167: every data set has a spatial median. -/
theorem C167_exists (X : Fin n → Fin p → ℝ) : ∃ a, IsSpatialMedian X a := by
  obtain ⟨a, ha⟩ := sumNorm_exists fun i => (WithLp.toLp 2 (X i) : EuclideanSpace ℝ (Fin p))
  refine ⟨WithLp.ofLp a, (isSpatialMedian_iff _ _).mpr fun b => ?_⟩
  rw [WithLp.toLp_ofLp]
  exact ha b

/-- C167: the function handed to the optimiser has a smallest value, and it is reached at the spatial medians and nowhere else. -/
theorem C167_objective (X : Fin n → Fin p → ℝ) : (∃ a, ∀ b, l1mObjective a X ≤ l1mObjective b X) ∧ ∀ a, (∀ b, l1mObjective a X ≤ l1mObjective b X) ↔ IsSpatialMedian X a := by
  have h : ∀ a, (∀ b, l1mObjective a X ≤ l1mObjective b X) ↔ IsSpatialMedian X a := fun a => by
    simp only [C13_l1median_objective, IsSpatialMedian]
  obtain ⟨a, ha⟩ := C167_exists X
  exact ⟨⟨a, (h a).mpr ha⟩, h⟩

/-- C167: unless the cases lie on one line, there is only one. -/
theorem C167_unique {X : Fin n → Fin p → ℝ} (hX : ¬ OnOneLine X) {a b : Fin p → ℝ} (ha : IsSpatialMedian X a) (hb : IsSpatialMedian X b) : a = b := by
  by_contra hab
  refine hX ⟨a, fun j => b j - a j, fun i => ?_⟩
  obtain ⟨t, ht⟩ := sumNorm_line ((isSpatialMedian_iff _ _).mp ha) ((isSpatialMedian_iff _ _).mp hb) (fun h => hab ((WithLp.toLp_injective 2) h)) i
  refine ⟨t, fun j => ?_⟩
  have := congrArg (fun v : EuclideanSpace ℝ (Fin p) => v j) ht
  simpa using this

/-- C167: a spatial median is a mixture of the cases. -/
theorem C167_mixture (hn : 0 < n) {X : Fin n → Fin p → ℝ} {a : Fin p → ℝ} (ha : IsSpatialMedian X a) : IsMixture X a := by
  have h := sumNorm_hull hn ((isSpatialMedian_iff _ _).mp ha)
  obtain ⟨w, h1, h2, h3⟩ := hull_weights _ h
  refine ⟨w, h1, h2, fun j => ?_⟩
  have := congrArg (fun v : EuclideanSpace ℝ (Fin p) => v j) h3
  simpa using this

open Classical in
/-- C167: a point is a spatial median exactly if the gradient that is handed to the optimiser is at most as long as the number of cases at this point.  So at a spatial median that is
not one of the cases the gradient is zero, and at one that is it need not be. -/
theorem C167_optimal_iff (X : Fin n → Fin p → ℝ) (a : Fin p → ℝ) :
    IsSpatialMedian X a ↔ Real.sqrt (∑ j, l1mJacobian a X j ^ 2) ≤ ((Finset.univ.filter fun i => X i = a).card : ℝ) := by
  rw [isSpatialMedian_iff, sumNorm_iff]
  have h2 : ∑ i, (‖(WithLp.toLp 2 (X i) : EuclideanSpace ℝ (Fin p)) - WithLp.toLp 2 a‖)⁻¹ • ((WithLp.toLp 2 (X i) : EuclideanSpace ℝ (Fin p)) - WithLp.toLp 2 a) =
      WithLp.toLp 2 (fun j => -l1mJacobian a X j) := by
    ext j
    simp only [l1mJacobian, neg_neg, WithLp.ofLp_sum, Finset.sum_apply]
    refine Finset.sum_congr rfl fun i _ => ?_
    rw [← WithLp.toLp_sub, ← euclidnorm_eq]
    show (euclidnorm (diffmat a X i))⁻¹ * diffmat a X i j = _
    by_cases h0 : euclidnorm (diffmat a X i) = 0
    · rw [if_pos h0, h0, inv_zero, zero_mul, div_one]
      rw [euclidnorm_eq, norm_eq_zero] at h0
      have := congrArg (fun v : EuclideanSpace ℝ (Fin p) => v j) h0
      exact this.symm
    · rw [if_neg h0]; ring
  rw [h2, ← euclidnorm_eq]
  unfold euclidnorm
  simp only [neg_sq, (WithLp.toLp_injective 2).eq_iff]

/-- C167: at a spatial median that is none of the cases the gradient is zero (the converse of C13). -/
theorem C167_gradient {X : Fin n → Fin p → ℝ} {a : Fin p → ℝ} (ha : IsSpatialMedian X a) (h : ∀ i, X i ≠ a) (j : Fin p) : l1mJacobian a X j = 0 := by
  classical
  have h1 := (C167_optimal_iff X a).mp ha
  rw [Finset.filter_false_of_mem (fun i _ => h i), Finset.card_empty, Nat.cast_zero] at h1
  have h2 := (Real.sqrt_eq_zero (Finset.sum_nonneg fun j _ => sq_nonneg (l1mJacobian a X j))).mp (le_antisymm h1 (Real.sqrt_nonneg _))
  exact pow_eq_zero_iff two_ne_zero |>.mp ((Finset.sum_eq_zero_iff_of_nonneg fun j _ => sq_nonneg _).mp h2 j (Finset.mem_univ j))

lemma sumDist_similar {Q : Fin p → Fin p → ℝ} (h : Orthogonal Q) (s : ℝ) (b : Fin p → ℝ) (σ : Equiv.Perm (Fin n)) (X : Fin n → Fin p → ℝ) (a : Fin p → ℝ) :
    sumDist (similar s Q b σ X) (similarPt s Q b a) = |s| * sumDist X a := by
  unfold sumDist
  rw [Finset.mul_sum, ← Equiv.sum_comp σ fun i => |s| * Real.sqrt (∑ j, (X i j - a j) ^ 2)]
  refine Finset.sum_congr rfl fun i _ => ?_
  rw [← Real.sqrt_sq_eq_abs, ← Real.sqrt_mul (sq_nonneg s)]
  congr 1
  have := h.sq fun j => X (σ i) j - a j
  rw [← this, Finset.mul_sum, rotVec_sub]
  refine Finset.sum_congr rfl fun l _ => ?_
  simp only [similar, similarPt]
  ring

/-- C167: the spatial median follows every change of origin, unit, axes and order. -/
theorem C167_follows {Q : Fin p → Fin p → ℝ} (h : Orthogonal Q) {s : ℝ} (hs : s ≠ 0) (b : Fin p → ℝ) (σ : Equiv.Perm (Fin n)) (X : Fin n → Fin p → ℝ) (a : Fin p → ℝ) :
    IsSpatialMedian (similar s Q b σ X) (similarPt s Q b a) ↔ IsSpatialMedian X a := by
  have hsp : 0 < |s| := abs_pos.mpr hs
  have hsurj : ∀ c, ∃ c', c = similarPt s Q b c' := by
    intro c
    obtain ⟨v, hv⟩ := h.surj fun l => (c l - b l) / s
    refine ⟨v, ?_⟩
    funext l
    have := congrFun hv l
    simp only [similarPt]
    rw [show rotVec Q v l = (c l - b l) / s from this]
    field_simp
    ring
  constructor
  · intro e c
    have := e (similarPt s Q b c)
    rw [sumDist_similar h, sumDist_similar h] at this
    exact le_of_mul_le_mul_left this hsp
  · intro e c
    obtain ⟨c, rfl⟩ := hsurj c
    rw [sumDist_similar h, sumDist_similar h]
    exact mul_le_mul_of_nonneg_left (e c) hsp.le

lemma onOneLine_of_lt (hp : p < 2) (X : Fin n → Fin p → ℝ) : OnOneLine X := by
  interval_cases p
  · exact ⟨fun _ => 0, fun _ => 0, fun i => ⟨0, fun j => j.elim0⟩⟩
  · exact ⟨fun _ => 0, fun _ => 1, fun i => ⟨X i 0, fun j => by rw [Subsingleton.elim j 0]; ring⟩⟩

lemma onOneLine_similar {Q : Fin p → Fin p → ℝ} (h : Orthogonal Q) {s : ℝ} (hs : s ≠ 0) (b : Fin p → ℝ) (σ : Equiv.Perm (Fin n)) {X : Fin n → Fin p → ℝ}
    (hX : OnOneLine (similar s Q b σ X)) : OnOneLine X := by
  obtain ⟨a, d, hl⟩ := hX
  obtain ⟨a', ha⟩ := h.surj fun l => (a l - b l) / s
  obtain ⟨d', hd⟩ := h.surj fun l => d l / s
  refine ⟨a', d', fun i => ?_⟩
  obtain ⟨t, ht⟩ := hl (σ.symm i)
  refine ⟨t, ?_⟩
  have key : rotVec Q (X i) = rotVec Q fun j => a' j + t * d' j := by
    funext l
    have e1 : rotVec Q a' l = (a l - b l) / s := congrFun ha l
    have e2 : rotVec Q d' l = d l / s := congrFun hd l
    have e3 := ht l
    simp only [similar, Equiv.apply_symm_apply] at e3
    have e4 : rotVec Q (fun j => a' j + t * d' j) l = rotVec Q a' l + t * rotVec Q d' l := by
      unfold rotVec; rw [Finset.mul_sum, ← Finset.sum_add_distrib]; exact Finset.sum_congr rfl fun j _ => by ring
    rw [e4, e1, e2]
    field_simp
    linarith
  have := h.rotVec_inj.mp key
  exact fun j => congrFun this j

/-- C167: with an optimiser that finds the minimum, `l1median` follows every change of origin, unit, axes and order of the cases, unless these lie on one line. -/
theorem C167_l1median {opt : (Fin n → Fin p → ℝ) → (Fin p → ℝ) → (Fin p → ℝ)} (hopt : ∀ X x0, IsSpatialMedian X (opt X x0)) {Q : Fin p → Fin p → ℝ} (h : Orthogonal Q)
    {s : ℝ} (hs : s ≠ 0) (b : Fin p → ℝ) (σ : Equiv.Perm (Fin n)) {X : Fin n → Fin p → ℝ} (hX : ¬ OnOneLine X) :
    l1median opt (similar s Q b σ X) = similarPt s Q b (l1median opt X) := by
  have hp : ¬ p < 2 := fun hp => hX (onOneLine_of_lt hp X)
  simp only [l1median, if_neg hp]
  exact C167_unique (mt (onOneLine_similar h hs b σ) hX) (hopt _ _) ((C167_follows h hs b σ X _).mpr (hopt _ _))

/-! ### The k-step LTS estimator and the spatial signs -/

lemma ltsDists_similar {Q : Fin p → Fin p → ℝ} (h : Orthogonal Q) (s : ℝ) (b : Fin p → ℝ) (σ : Equiv.Perm (Fin n)) (X : Fin n → Fin p → ℝ) (m : Fin p → ℝ) (i : Fin n) :
    ltsDists (similar s Q b σ X) (similarPt s Q b m) i = s ^ 2 * ltsDists X m (σ i) := by
  unfold ltsDists
  rw [← h.sq fun j => X (σ i) j - m j, Finset.mul_sum, rotVec_sub]
  refine Finset.sum_congr rfl fun l _ => ?_
  simp only [similar, similarPt]
  ring

lemma ltsSubset_similar {Q : Fin p → Fin p → ℝ} (h : Orthogonal Q) {s : ℝ} (hs : s ≠ 0) (b : Fin p → ℝ) (σ : Equiv.Perm (Fin n)) (X : Fin n → Fin p → ℝ) (m : Fin p → ℝ) (i : Fin n) :
    i ∈ ltsSubset (similar s Q b σ X) (similarPt s Q b m) ↔ σ i ∈ ltsSubset X m := by
  have hs2 : 0 < s ^ 2 := by positivity
  have hl : sortL (List.ofFn (ltsDists (similar s Q b σ X) (similarPt s Q b m))) = (sortL (List.ofFn (ltsDists X m))).map fun d => s ^ 2 * d := by
    rw [← sortL_map_mono (fun a b hab => mul_le_mul_of_nonneg_left hab hs2.le), List.map_ofFn]
    refine sortL_congr ?_
    have : ltsDists (similar s Q b σ X) (similarPt s Q b m) = ((fun d => s ^ 2 * d) ∘ ltsDists X m) ∘ σ := by
      funext i; exact ltsDists_similar h s b σ X m i
    rw [this]
    exact Equiv.Perm.ofFn_comp_perm σ _
  have hg : ∀ (l : List ℝ) (k : ℕ), (l.map fun d => s ^ 2 * d).getD k 0 = s ^ 2 * l.getD k 0 := by
    intro l k
    simp only [List.getD_eq_getElem?_getD, List.getElem?_map]
    cases l[k]? <;> simp
  simp only [ltsSubset, Finset.mem_filter, Finset.mem_univ, true_and, hl, hg, ltsDists_similar h]
  exact mul_le_mul_iff_right₀ hs2

lemma ltsStep_similar {Q : Fin p → Fin p → ℝ} (h : Orthogonal Q) {s : ℝ} (hs : s ≠ 0) (b : Fin p → ℝ) (σ : Equiv.Perm (Fin n)) (X : Fin n → Fin p → ℝ) (m : Fin p → ℝ) (hn : 0 < n) :
    ltsStep (similar s Q b σ X) (similarPt s Q b m) = similarPt s Q b (ltsStep X m) := by
  have hS : ltsSubset (similar s Q b σ X) (similarPt s Q b m) = (ltsSubset X m).map σ.symm.toEmbedding := by
    ext i
    rw [ltsSubset_similar h hs, Finset.mem_map_equiv]
    rfl
  have hc : ((ltsSubset X m).card : ℝ) ≠ 0 := by
    have := ltsSubset_card hn X m
    have h2 : (ltsSubset X m).card ≠ 0 := by omega
    exact_mod_cast h2
  funext l
  unfold ltsStep
  rw [hS, Finset.card_map, Finset.sum_map]
  have h1 : ∀ i, similar s Q b σ X (σ.symm.toEmbedding i) l = s * rotVec Q (X i) l + b l := by
    intro i; simp [similar]
  simp only [h1]
  rw [Finset.sum_add_distrib, Finset.sum_const, nsmul_eq_mul, ← Finset.mul_sum, add_div, mul_div_cancel_left₀ _ hc, mul_div_assoc]
  simp only [similarPt]
  congr 2
  unfold rotVec
  rw [Finset.sum_comm, Finset.sum_div]
  refine Finset.sum_congr rfl fun j _ => ?_
  rw [← Finset.sum_mul]
  ring

/-- C167: the k-step LTS estimator, which starts at the spatial median, follows every change of origin, unit and order of the cases if the tolerance is expressed in the same
unit (for rotations of the axes see C166). -/
theorem C167_kstepLTS {opt : (Fin n → Fin p → ℝ) → (Fin p → ℝ) → (Fin p → ℝ)} (hopt : ∀ X x0, IsSpatialMedian X (opt X x0)) {s : ℝ} (hs : s ≠ 0) (b : Fin p → ℝ)
    (σ : Equiv.Perm (Fin n)) {X : Fin n → Fin p → ℝ} (hX : ¬ OnOneLine X) (maxit : ℕ) (tol : ℝ) :
    kstepLTS (fun i j => s * X (σ i) j + b j) (l1median opt fun i j => s * X (σ i) j + b j) maxit (|s| * tol) =
      fun j => s * kstepLTS X (l1median opt X) maxit tol j + b j := by
  have hI : Orthogonal (fun j l : Fin p => if j = l then (1 : ℝ) else 0) := by
    intro j k; simp
  have hrot : ∀ v : Fin p → ℝ, rotVec (fun j l : Fin p => if j = l then (1 : ℝ) else 0) v = v := by
    intro v; funext l; simp [rotVec]
  have hn : 0 < n := by
    rcases Nat.eq_zero_or_pos n with rfl | h
    · exact absurd ⟨fun _ => 0, fun _ => 0, fun i => i.elim0⟩ hX
    · exact h
  have hsim : (fun i j => s * X (σ i) j + b j) = similar s (fun j l : Fin p => if j = l then (1 : ℝ) else 0) b σ X := by
    funext i j; simp only [similar, hrot]
  have hpt : ∀ a : Fin p → ℝ, (fun j => s * a j + b j) = similarPt s (fun j l : Fin p => if j = l then (1 : ℝ) else 0) b a := by
    intro a; funext j; simp only [similarPt, hrot]
  rw [hsim, hpt, C167_l1median hopt hI hs b σ hX]
  have hsp : 0 < |s| := abs_pos.mpr hs
  have key : ∀ (k : ℕ) (m : Fin p → ℝ), ltsTrace (similar s (fun j l : Fin p => if j = l then (1 : ℝ) else 0) b σ X) (|s| * tol) k
      (similarPt s (fun j l : Fin p => if j = l then (1 : ℝ) else 0) b m) = (ltsTrace X tol k m).map (similarPt s (fun j l : Fin p => if j = l then (1 : ℝ) else 0) b) := by
    intro k
    induction k with
    | zero => intro m; rfl
    | succ k ih =>
      intro m
      have hiff : ∀ m' : Fin p → ℝ, (∃ j, |s| * tol < |similarPt s (fun j l : Fin p => if j = l then (1 : ℝ) else 0) b m j -
          similarPt s (fun j l : Fin p => if j = l then (1 : ℝ) else 0) b m' j|) ↔ ∃ j, tol < |m j - m' j| := by
        intro m'
        refine exists_congr fun j => ?_
        simp only [similarPt, hrot]
        rw [add_sub_add_right_eq_sub, ← mul_sub, abs_mul]
        exact mul_lt_mul_iff_right₀ hsp
      simp only [ltsTrace]
      rw [ltsStep_similar hI hs b σ X m hn]
      by_cases hj : ∃ j, tol < |m j - ltsStep X m j|
      · rw [if_pos ((hiff _).mpr hj), if_pos hj, ih]; rfl
      · rw [if_neg (mt (hiff _).mp hj), if_neg hj]; rfl
  unfold kstepLTS
  rw [key]
  rw [List.getLastD_eq_getLast?, List.getLastD_eq_getLast?, List.getLast?_map]
  cases (ltsTrace X tol maxit (l1median opt X)).getLast? <;> rfl

/-- C167 with C166: the generalised spatial signs about the spatial median follow every rotation of the axes. -/
theorem C167_signs {opt : (Fin n → Fin p → ℝ) → (Fin p → ℝ) → (Fin p → ℝ)} (hopt : ∀ X x0, IsSpatialMedian X (opt X x0)) {Q : Fin p → Fin p → ℝ} (h : Orthogonal Q)
    {X : Fin n → Fin p → ℝ} (hX : ¬ OnOneLine X) (f : Radial) :
    gssFitTransform (l1median opt) f (rotMat Q X) = (gssFitTransform (l1median opt) f X).map (rotMat Q) := by
  refine (C166_signs h _ f X ?_).1
  have h1 : similar 1 Q (fun _ => 0) (Equiv.refl _) X = rotMat Q X := by
    funext i l; simp [similar, rotMat]
  have h2 : similarPt 1 Q (fun _ => 0) (l1median opt X) = rotVec Q (l1median opt X) := by
    funext l; simp [similarPt]
  rw [← h1, ← h2]
  exact C167_l1median hopt h one_ne_zero _ _ hX

/-! ### The start of the search -/

/-- C167: without the keyword `x0` and with an optimiser that finds the minimum, `l1median` returns a spatial median of two or more columns.  Missing: the same with a start chosen by
the caller. -/
theorem C167_start_partial {opt : (Fin n → Fin p → ℝ) → (Fin p → ℝ) → (Fin p → ℝ)} (hopt : ∀ X x0, IsSpatialMedian X (opt X x0)) (hp : 2 ≤ p) (X : Fin n → Fin p → ℝ) :
    ∃ a, l1medianFrom opt none X = .ok a ∧ IsSpatialMedian X a := by
  refine ⟨_, rfl, ?_⟩
  simp only [l1median, if_neg (not_lt.mpr hp)]
  exact hopt _ _

/-- C167 (violated for a start chosen by the caller): with the keyword `x0` no data set of two or more columns has a spatial median, whatever the start. -/
theorem C167_start_violated (opt : (Fin n → Fin p → ℝ) → (Fin p → ℝ) → (Fin p → ℝ)) (hp : 2 ≤ p) (x0 : Fin p → ℝ) (X : Fin n → Fin p → ℝ) :
    l1medianFrom opt (some x0) X = .error .unboundLocal := by
  simp [l1medianFrom, not_lt.mpr hp]

/-! ### Data that meet the hypotheses -/

/-- Three cases that do not lie on one line. -/
lemma corner_not_line : ¬ OnOneLine (![![0, 0], ![1, 0], ![0, 1]] : Fin 3 → Fin 2 → ℝ) := by
  rintro ⟨a, d, h⟩
  obtain ⟨t0, h0⟩ := h 0
  obtain ⟨t1, h1⟩ := h 1
  obtain ⟨t2, h2⟩ := h 2
  have a1 := h0 0; have a2 := h0 1; have b1 := h1 0; have b2 := h1 1; have c1 := h2 0; have c2 := h2 1
  simp at a1 a2 b1 b2 c1 c2
  have e1 : (t1 - t0) * d 0 = 1 := by linarith
  have e2 : (t1 - t0) * d 1 = 0 := by linarith
  have e3 : (t2 - t0) * d 1 = 1 := by linarith
  rcases mul_eq_zero.mp e2 with h | h
  · rw [h] at e1; simp at e1
  · rw [h] at e3; simp at e3

/-- Non-vacuity: there are optimisers that find the minimum, and the corner has exactly one spatial median, which turns with the axes. -/
example : ∃ opt : (Fin 3 → Fin 2 → ℝ) → (Fin 2 → ℝ) → (Fin 2 → ℝ), (∀ X x0, IsSpatialMedian X (opt X x0)) ∧
    l1median opt (similar (-2) rotQ (fun _ => 7) Fin.revPerm ![![0, 0], ![1, 0], ![0, 1]]) = similarPt (-2) rotQ (fun _ => 7) (l1median opt ![![0, 0], ![1, 0], ![0, 1]]) :=
  ⟨fun X _ => (C167_exists X).choose, fun X _ => (C167_exists X).choose_spec,
    C167_l1median (fun X _ => (C167_exists X).choose_spec) rotQ_orthogonal (by norm_num) _ _ corner_not_line⟩

/-- Two cases: they lie on a line, and both of them are spatial medians. -/
example : IsSpatialMedian (![![0, 0], ![1, 0]] : Fin 2 → Fin 2 → ℝ) ![0, 0] ∧ IsSpatialMedian (![![0, 0], ![1, 0]] : Fin 2 → Fin 2 → ℝ) ![1, 0] := by
  classical
  constructor <;> refine (C167_optimal_iff _ _).mpr ?_
  · have h : ∀ j, l1mJacobian (![0, 0] : Fin 2 → ℝ) (![![0, 0], ![1, 0]] : Fin 2 → Fin 2 → ℝ) j = ![-1, 0] j := by
      intro j; fin_cases j <;> simp [l1mJacobian, diffmat, euclidnorm, Fin.sum_univ_two]
    have hc : (1 : ℝ) ≤ ((Finset.univ.filter fun i => (![![0, 0], ![1, 0]] : Fin 2 → Fin 2 → ℝ) i = ![0, 0]).card : ℝ) := by
      exact_mod_cast Finset.card_pos.mpr ⟨0, by simp⟩
    simp only [h]
    rw [Fin.sum_univ_two]
    simpa using hc
  · have h : ∀ j, l1mJacobian (![1, 0] : Fin 2 → ℝ) (![![0, 0], ![1, 0]] : Fin 2 → Fin 2 → ℝ) j = ![1, 0] j := by
      intro j; fin_cases j <;> simp [l1mJacobian, diffmat, euclidnorm, Fin.sum_univ_two]
    have hc : (1 : ℝ) ≤ ((Finset.univ.filter fun i => (![![0, 0], ![1, 0]] : Fin 2 → Fin 2 → ℝ) i = ![1, 0]).card : ℝ) := by
      exact_mod_cast Finset.card_pos.mpr ⟨1, by simp⟩
    simp only [h]
    rw [Fin.sum_univ_two]
    simpa using hc

end Direpack
