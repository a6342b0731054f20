import Mathlib.Tactic.Linarith
import Mathlib.Tactic.FieldSimp
import Mathlib.Tactic.Ring
import Verif.Props.Krylov
import Verif.Props.GSSPP
import Verif.Robust

/-! Property C166: methods that should not depend on the choice of the axes.  Here the generalised spatial signs, the locations and SNIPLS without sparsity. -/

set_option linter.unusedSectionVars false

namespace Direpack

open scoped BigOperators
open Matrix Spec

variable {n p : ℕ}

/-- The rows of `Q` are orthonormal: `Q` describes a rotation or reflection of the axes. -/
def Spec.Orthogonal (Q : Fin p → Fin p → ℝ) : Prop := ∀ j k, ∑ l, Q j l * Q k l = if j = k then 1 else 0

/-- A point in the new coordinates. -/
def Spec.rotVec (Q : Fin p → Fin p → ℝ) (b : Fin p → ℝ) : Fin p → ℝ := fun l => ∑ j, b j * Q j l

/-- A data set in the new coordinates. -/
def Spec.rotMat (Q : Fin p → Fin p → ℝ) (X : Fin n → Fin p → ℝ) : Fin n → Fin p → ℝ := fun i => rotVec Q (X i)

/-! ### Algebra -/

section algebra

variable {Q : Fin p → Fin p → ℝ}

lemma rotVec_eq (b : Fin p → ℝ) : rotVec Q b = b ᵥ* Matrix.of Q := rfl

lemma rotMat_eq (X : Fin n → Fin p → ℝ) : Matrix.of (rotMat Q X) = Matrix.of X * Matrix.of Q := rfl

lemma Spec.Orthogonal.mul_transpose (h : Orthogonal Q) : Matrix.of Q * (Matrix.of Q).transpose = 1 := by
  ext j k
  rw [Matrix.mul_apply, Matrix.one_apply]
  exact h j k

lemma Spec.Orthogonal.transpose_mul (h : Orthogonal Q) : (Matrix.of Q).transpose * Matrix.of Q = 1 :=
  mul_eq_one_comm.mp h.mul_transpose

lemma Spec.Orthogonal.dot (h : Orthogonal Q) (a b : Fin p → ℝ) : ∑ l, rotVec Q a l * rotVec Q b l = ∑ j, a j * b j := by
  have : (a ᵥ* Matrix.of Q) ⬝ᵥ (b ᵥ* Matrix.of Q) = a ⬝ᵥ b := by
    rw [← Matrix.mulVec_transpose (Matrix.of Q) b, Matrix.dotProduct_mulVec, Matrix.vecMul_vecMul, h.mul_transpose, Matrix.vecMul_one]
  exact this

lemma Spec.Orthogonal.sq (h : Orthogonal Q) (a : Fin p → ℝ) : ∑ l, rotVec Q a l ^ 2 = ∑ j, a j ^ 2 := by
  have := h.dot a a
  simpa only [← pow_two] using this

lemma rotVec_sub (a b : Fin p → ℝ) : rotVec Q (fun j => a j - b j) = fun l => rotVec Q a l - rotVec Q b l := by
  funext l
  simp only [rotVec, sub_mul, Finset.sum_sub_distrib]

lemma rotVec_mul (c : ℝ) (b : Fin p → ℝ) : rotVec Q (fun j => b j * c) = fun l => rotVec Q b l * c := by
  funext l
  simp only [rotVec, Finset.sum_mul]
  exact Finset.sum_congr rfl fun j _ => by ring

lemma rotVec_mul_left (c : ℝ) (b : Fin p → ℝ) : rotVec Q (fun j => c * b j) = fun l => c * rotVec Q b l := by
  simpa only [mul_comm c] using rotVec_mul (Q := Q) c b

lemma rotVec_sum {ι : Type} (s : Finset ι) (b : ι → Fin p → ℝ) : rotVec Q (fun j => ∑ i ∈ s, b i j) = fun l => ∑ i ∈ s, rotVec Q (b i) l := by
  funext l
  simp only [rotVec, Finset.sum_mul]
  exact Finset.sum_comm

lemma rotVec_zero : rotVec Q (fun _ : Fin p => (0 : ℝ)) = fun _ => 0 := by
  funext l; simp [rotVec]

lemma Spec.Orthogonal.eq_zero (h : Orthogonal Q) {b : Fin p → ℝ} : (∀ l, rotVec Q b l = 0) ↔ ∀ j, b j = 0 := by
  constructor
  · intro e
    have h1 := h.sq b
    simp only [e, ne_eq, OfNat.ofNat_ne_zero, not_false_eq_true, zero_pow, Finset.sum_const_zero] at h1
    have h2 := (Finset.sum_eq_zero_iff_of_nonneg fun j _ => sq_nonneg (b j)).mp h1.symm
    exact fun j => by simpa using h2 j (Finset.mem_univ j)
  · intro e l
    simp [rotVec, e]

lemma Spec.Orthogonal.rotVec_inj (h : Orthogonal Q) {a b : Fin p → ℝ} : rotVec Q a = rotVec Q b ↔ a = b := by
  constructor
  · intro e
    have := (h.eq_zero (b := fun j => a j - b j)).mp (by rw [rotVec_sub]; intro l; rw [e]; ring)
    funext j
    linarith [this j]
  · rintro rfl; rfl

/-- Every point has coordinates in the old axes. -/
lemma Spec.Orthogonal.surj (h : Orthogonal Q) (a : Fin p → ℝ) : ∃ b, rotVec Q b = a := by
  refine ⟨a ᵥ* (Matrix.of Q).transpose, ?_⟩
  rw [rotVec_eq, Matrix.vecMul_vecMul, h.transpose_mul, Matrix.vecMul_one]

lemma Spec.Orthogonal.lin (h : Orthogonal Q) (X : Fin n → Fin p → ℝ) (b : Fin p → ℝ) (i : Fin n) :
    ∑ l, rotMat Q X i l * rotVec Q b l = ∑ j, X i j * b j := h.dot _ _

lemma crossVec_rot (X : Fin n → Fin p → ℝ) (v : Fin n → ℝ) : crossVec (rotMat Q X) v = rotVec Q (crossVec X v) := by
  have h1 : crossVec X v = fun j => ∑ i, (fun (i : Fin n) (j : Fin p) => X i j * v i) i j := rfl
  rw [h1, rotVec_sum]
  funext l
  refine Finset.sum_congr rfl fun i _ => ?_
  rw [rotVec_mul]
  rfl

end algebra

/-! ### Generalised spatial signs and locations -/

section signs

variable {Q : Fin p → Fin p → ℝ}

lemma Spec.Orthogonal.rowNorms (h : Orthogonal Q) (X : Fin n → Fin p → ℝ) : Direpack.rowNorms (rotMat Q X) = Direpack.rowNorms X := by
  funext i
  unfold Direpack.rowNorms
  rw [show (fun j => rotMat Q X i j ^ 2) = fun j => rotVec Q (X i) j ^ 2 from rfl, h.sq]

lemma centreBy_rot {center : (Fin n → Fin p → ℝ) → Fin p → ℝ} {X : Fin n → Fin p → ℝ} (hc : center (rotMat Q X) = rotVec Q (center X)) :
    centreBy center (rotMat Q X) = rotMat Q (centreBy center X) := by
  funext i l
  show rotMat Q X i l - center (rotMat Q X) l = rotVec Q (fun j => X i j - center X j) l
  rw [rotVec_sub, hc]
  rfl

/-- C166: with a location that follows rotations of the axes, the generalised spatial signs of rotated data are the rotated generalised spatial signs, for every radial
function; and one fails exactly when the other does. -/
theorem C166_signs (h : Orthogonal Q) (center : (Fin n → Fin p → ℝ) → Fin p → ℝ) (f : Radial) (X : Fin n → Fin p → ℝ)
    (hc : center (rotMat Q X) = rotVec Q (center X)) :
    gssFitTransform center f (rotMat Q X) = (gssFitTransform center f X).map (rotMat Q) ∧
    genSsPp (.estimator center) f (rotMat Q X) = (genSsPp (.estimator center) f X).map (rotMat Q) := by
  have hm : ∀ (xi : Fin n → ℝ), (fun i j => rotMat Q (centreBy center X) i j * xi i) = rotMat Q fun i j => centreBy center X i j * xi i := by
    intro xi
    funext i l
    show rotVec Q (centreBy center X i) l * xi i = rotVec Q (fun j => centreBy center X i j * xi i) l
    rw [rotVec_mul]
  constructor
  · unfold gssFitTransform GSSState.fit
    simp only [centreBy_rot hc, h.rowNorms, bind, Except.bind]
    cases f.apply (rowNorms (centreBy center X)) p with
    | error e => rfl
    | ok xi => exact congrArg Except.ok (hm xi)
  · unfold genSsPp gsspp
    simp only [centreBy_rot hc, h.rowNorms, bind, Except.bind]
    cases f.apply (rowNorms (centreBy center X)) p with
    | error e => rfl
    | ok xi => simp only [Except.map]; rw [hm]

lemma mean_eq_sum {n : ℕ} (v : Fin n → ℝ) : mean v = (∑ i, v i) * (n : ℝ)⁻¹ := by
  unfold mean meanL; rw [List.sum_ofFn, List.length_ofFn]; exact div_eq_mul_inv _ _

/-- C166: the mean follows every rotation of the axes. -/
theorem C166_mean (Q : Fin p → Fin p → ℝ) (X : Fin n → Fin p → ℝ) : Centre.mean.run (rotMat Q X) = rotVec Q (Centre.mean.run X) := by
  have h1 : Centre.mean.run X = fun j => (∑ i, X i j) * (n : ℝ)⁻¹ := by funext j; exact mean_eq_sum _
  rw [h1, rotVec_mul, rotVec_sum]
  funext l
  exact mean_eq_sum _

lemma Spec.Orthogonal.l1mObjective (h : Orthogonal Q) (X : Fin n → Fin p → ℝ) (a : Fin p → ℝ) :
    Direpack.l1mObjective (rotVec Q a) (rotMat Q X) = Direpack.l1mObjective a X := by
  unfold Direpack.l1mObjective
  refine Finset.sum_congr rfl fun i _ => ?_
  unfold euclidnorm
  rw [← h.sq (diffmat a X i)]
  unfold diffmat
  rw [rotVec_sub]
  rfl

/-- C166: the spatial median follows every rotation: a point minimises the sum of the distances to the rotated cases exactly when it is the rotated position of a point
that minimises the sum of the distances to the cases.  (For two columns or more `l1median` returns what the optimiser finds as minimiser of this sum.) -/
theorem C166_l1median (h : Orthogonal Q) (X : Fin n → Fin p → ℝ) (a : Fin p → ℝ) :
    (∀ b, l1mObjective (rotVec Q a) (rotMat Q X) ≤ l1mObjective b (rotMat Q X)) ↔ ∀ b, l1mObjective a X ≤ l1mObjective b X := by
  constructor
  · intro e b
    have := e (rotVec Q b)
    rwa [h.l1mObjective, h.l1mObjective] at this
  · intro e b
    obtain ⟨b, rfl⟩ := h.surj b
    rw [h.l1mObjective, h.l1mObjective]
    exact e b

lemma Spec.Orthogonal.ltsDists (h : Orthogonal Q) (X : Fin n → Fin p → ℝ) (m : Fin p → ℝ) :
    Direpack.ltsDists (rotMat Q X) (rotVec Q m) = Direpack.ltsDists X m := by
  funext i
  unfold Direpack.ltsDists
  rw [← h.sq fun j => X i j - m j, rotVec_sub]
  rfl

/-- C166: one concentration step of the least trimmed squares location follows every rotation. -/
theorem C166_ltsStep (h : Orthogonal Q) (X : Fin n → Fin p → ℝ) (m : Fin p → ℝ) : ltsStep (rotMat Q X) (rotVec Q m) = rotVec Q (ltsStep X m) := by
  have hs : ltsSubset (rotMat Q X) (rotVec Q m) = ltsSubset X m := by unfold ltsSubset; rw [h.ltsDists]
  have h1 : ltsStep X m = fun j => (∑ i ∈ ltsSubset X m, X i j) * ((ltsSubset X m).card : ℝ)⁻¹ := by
    funext j; exact div_eq_mul_inv _ _
  rw [h1, rotVec_mul, rotVec_sum]
  unfold ltsStep
  rw [hs]
  funext l
  exact div_eq_mul_inv _ _

/-- C166: the least trimmed squares location started at corresponding points follows every rotation when the tolerance is zero or negative.  Missing: a positive tolerance is compared
with the largest change of a single coordinate, which depends on the axes, so that the number of steps can differ. -/
theorem C166_kstepLTS_partial (h : Orthogonal Q) (X : Fin n → Fin p → ℝ) (m : Fin p → ℝ) (maxit : ℕ) (tol : ℝ) (ht : tol ≤ 0) :
    kstepLTS (rotMat Q X) (rotVec Q m) maxit tol = rotVec Q (kstepLTS X m maxit tol) := by
  have key : ∀ (k : ℕ) (m : Fin p → ℝ), ltsTrace (rotMat Q X) tol k (rotVec Q m) = (ltsTrace X tol k m).map (rotVec Q) := by
    intro k
    induction k with
    | zero => intro m; rfl
    | succ k ih =>
      intro m
      have hiff : (∃ j, tol < |rotVec Q m j - rotVec Q (ltsStep X m) j|) ↔ ∃ j, tol < |m j - ltsStep X m j| := by
        rcases ht.lt_or_eq with ht | rfl
        · constructor
          · rintro ⟨j, _⟩; exact ⟨j, ht.trans_le (abs_nonneg _)⟩
          · rintro ⟨j, _⟩; exact ⟨j, ht.trans_le (abs_nonneg _)⟩
        · simp only [abs_pos, ne_eq]
          have := h.eq_zero (b := fun j => m j - ltsStep X m j)
          rw [rotVec_sub] at this
          rw [← not_iff_not]
          push Not
          exact this
      simp only [ltsTrace]
      rw [C166_ltsStep h]
      by_cases hj : ∃ j, tol < |m j - ltsStep X m j|
      · rw [if_pos (hiff.mpr hj), if_pos hj, ih]; rfl
      · rw [if_neg (mt hiff.mp hj), if_neg hj]; rfl
  unfold kstepLTS
  rw [key]
  rw [List.getLastD_eq_getLast?, List.getLastD_eq_getLast?, List.getLast?_map]
  cases (ltsTrace X tol maxit m).getLast? <;> rfl

/-- Seven cases on a line through the origin, which is their spatial median. -/
def rotLtsX : Fin 7 → Fin 2 → ℚ := ![![-420, -560], ![-360, -480], ![-63, -84], ![0, 0], ![60, 80], ![66, 88], ![72, 96]]

/-- A rotation that takes the line to the first axis. -/
def rotLtsQ : Fin 2 → Fin 2 → ℚ := ![![3 / 5, 4 / 5], ![4 / 5, -(3 / 5)]]

/-- C166 (violated for the least trimmed squares location with a positive tolerance): started at the spatial median of the cases, the iteration stops after one step in the original
axes and takes a further step in the rotated axes, so that the location is not the rotated location.  (Exact computation with rational numbers.) -/
theorem C166_kstepLTS_violated :
    (∀ j k, ∑ l, rotLtsQ j l * rotLtsQ k l = if j = k then 1 else 0) ∧
    kstepLTS (fun i l => ∑ j, rotLtsX i j * rotLtsQ j l) (fun _ => 0) 10 25 ≠
      fun l => ∑ j, kstepLTS rotLtsX (fun _ => 0) 10 25 j * rotLtsQ j l := by
  constructor
  · decide +kernel
  · intro h
    have := congrFun h 0
    revert this
    decide +kernel

end signs

end Direpack
