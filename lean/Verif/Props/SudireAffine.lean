import Verif.Props.SudireOrder
import Verif.Props.SudireObj
import Mathlib.LinearAlgebra.Matrix.Determinant.Basic
import Mathlib.LinearAlgebra.Matrix.NonsingularInverse
import Mathlib.LinearAlgebra.Matrix.Trace

/-! Property C124: affine equivariance of `sudire`. -/

namespace Direpack.Spec

/-- The eigenvalues number `d` and `d + 1` of a symmetric matrix, in descending order, differ: the space of the `d` leading eigenvectors is determined. -/
def EigenGap {p : ℕ} (M : Matrix (Fin p) (Fin p) ℝ) (d : ℕ) : Prop :=
  ∀ (ev : Fin p → ℝ) (V : Matrix (Fin p) (Fin p) ℝ), V.transpose * V = 1 → M * V = V * Matrix.diagonal ev → Antitone ev →
    ∀ i j : Fin p, i.1 < d → d ≤ j.1 → ev j < ev i

end Direpack.Spec

namespace Direpack

open scoped BigOperators
open Spec

variable {n p : ℕ}

/-! ### Eigenvectors of similar matrices -/

lemma conj_symm {K Q : Matrix (Fin p) (Fin p) ℝ} (hK : K.transpose = K) : (Q.transpose * K * Q).transpose = Q.transpose * K * Q := by
  rw [Matrix.transpose_mul, Matrix.transpose_mul, Matrix.transpose_transpose, hK, Matrix.mul_assoc]

lemma sim_mul {K Q V V' : Matrix (Fin p) (Fin p) ℝ} {l l' : Fin p → ℝ} (hK : K.transpose = K) (hQ : Q.transpose * Q = 1)
    (h1 : K * V = V * Matrix.diagonal l) (h3 : V * V.transpose = 1) (h4 : Q.transpose * K * Q * V' = V' * Matrix.diagonal l')
    (h5 : V'.transpose * V' = 1) :
    (∀ i j, (V.transpose * Q * V') i j * l' j = l i * (V.transpose * Q * V') i j) ∧
      (V.transpose * Q * V').transpose * (V.transpose * Q * V') = 1 ∧ Q * V' = V * (V.transpose * Q * V') := by
  have hQ' : Q * Q.transpose = 1 := mul_eq_one_comm.mp hQ
  have hVK : V.transpose * K = Matrix.diagonal l * V.transpose := by
    have := congrArg Matrix.transpose h1
    rw [Matrix.transpose_mul, Matrix.transpose_mul, hK, Matrix.diagonal_transpose] at this
    exact this
  have hmul : V.transpose * Q * V' * Matrix.diagonal l' = Matrix.diagonal l * (V.transpose * Q * V') := by
    calc V.transpose * Q * V' * Matrix.diagonal l' = V.transpose * Q * (V' * Matrix.diagonal l') := by simp only [Matrix.mul_assoc]
      _ = V.transpose * Q * (Q.transpose * K * Q * V') := by rw [h4]
      _ = V.transpose * (Q * Q.transpose) * K * Q * V' := by simp only [Matrix.mul_assoc]
      _ = (V.transpose * K) * Q * V' := by rw [hQ', Matrix.mul_one]
      _ = Matrix.diagonal l * (V.transpose * Q * V') := by rw [hVK]; simp only [Matrix.mul_assoc]
  refine ⟨?_, ?_, ?_⟩
  · intro i j
    have := congrFun (congrFun hmul i) j
    rwa [Matrix.mul_diagonal, Matrix.diagonal_mul] at this
  · calc (V.transpose * Q * V').transpose * (V.transpose * Q * V') = V'.transpose * Q.transpose * (V * V.transpose) * Q * V' := by
          simp only [Matrix.transpose_mul, Matrix.transpose_transpose, Matrix.mul_assoc]
      _ = V'.transpose * (Q.transpose * Q) * V' := by rw [h3, Matrix.mul_one]; simp only [Matrix.mul_assoc]
      _ = 1 := by rw [hQ, Matrix.mul_one, h5]
  · simp only [← Matrix.mul_assoc]
    rw [h3, Matrix.one_mul]

/-- The change of coordinates between the eigenvectors of similar matrices commutes with the eigenvalues. -/
lemma eigh_sim_mul {eigh : Eigh} (he : IsEigh eigh) {K Q : Matrix (Fin p) (Fin p) ℝ} (hK : K.transpose = K) (hQ : Q.transpose * Q = 1) :
    ∃ U : Matrix (Fin p) (Fin p) ℝ, (∀ i j, U i j * (eigh (Q.transpose * K * Q)).1 j = (eigh K).1 i * U i j) ∧ U.transpose * U = 1 ∧
      Q * (eigh (Q.transpose * K * Q)).2 = (eigh K).2 * U := by
  have hK' := conj_symm (Q := Q) hK
  exact ⟨_, sim_mul hK hQ (he.decomp K hK) (he.orth' K hK) (he.decomp _ hK') (he.orth _ hK')⟩

/-- Similar matrices have the same eigenvalues. -/
lemma eigh_sim_val {eigh : Eigh} (he : IsEigh eigh) {K Q : Matrix (Fin p) (Fin p) ℝ} (hK : K.transpose = K) (hQ : Q.transpose * Q = 1) :
    (eigh (Q.transpose * K * Q)).1 = (eigh K).1 := by
  obtain ⟨U, h1, h2, -⟩ := eigh_sim_mul he hK hQ
  have hdet : U.det ≠ 0 := by
    intro h0
    have := congrArg Matrix.det h2
    rw [Matrix.det_mul, h0, mul_zero, Matrix.det_one] at this
    exact zero_ne_one this
  rw [Matrix.det_apply] at hdet
  obtain ⟨σ, -, hσ⟩ := Finset.exists_ne_zero_of_sum_ne_zero hdet
  have hne : ∀ i, U (σ i) i ≠ 0 := by
    intro i h0
    apply hσ
    rw [Finset.prod_eq_zero (f := fun i => U (σ i) i) (Finset.mem_univ i) h0, smul_zero]
  have hval : (eigh (Q.transpose * K * Q)).1 = (eigh K).1 ∘ σ := by
    funext i
    have := h1 (σ i) i
    rw [mul_comm ((eigh K).1 _)] at this
    exact mul_left_cancel₀ (hne i) this
  have hm1 := he.asc K hK
  have hm2 := he.asc _ (conj_symm (Q := Q) hK)
  rw [hval] at hm2 ⊢
  exact Tuple.unique_monotone (σ := σ) (τ := 1) hm2 hm1

lemma eigenGap_desc {eigh : Eigh} (he : IsEigh eigh) {K : Matrix (Fin p) (Fin p) ℝ} (hK : K.transpose = K) {d : ℕ} (hg : EigenGap K d) (i j : Fin p)
    (hi : i.1 < d) (hj : d ≤ j.1) : (eigh K).1 (descIdx (eigh K).1 j) < (eigh K).1 (descIdx (eigh K).1 i) := by
  refine hg ((eigh K).1 ∘ descIdx (eigh K).1) (Matrix.of fun k l => (eigh K).2 k (descIdx (eigh K).1 l)) ?_ ?_ (descIdx_anti _) i j hi hj
  · ext k l
    have h := congrFun (congrFun (he.orth K hK) (descIdx (eigh K).1 k)) (descIdx (eigh K).1 l)
    rw [Matrix.mul_apply] at h ⊢
    simp only [Matrix.transpose_apply] at h
    simp only [Matrix.transpose_apply, Matrix.of_apply]
    rw [h, Matrix.one_apply, Matrix.one_apply]
    simp only [(descIdx_injective (eigh K).1).eq_iff]
  · ext k l
    have h := congrFun (congrFun (he.decomp K hK) k) (descIdx (eigh K).1 l)
    rw [Matrix.mul_diagonal, Matrix.mul_apply] at h
    rw [Matrix.mul_diagonal, Matrix.mul_apply]
    simpa only [Matrix.of_apply, Function.comp] using h

/-- The leading eigenvectors of `Qᵀ K Q` are those of `K`, rotated by `Q`, up to a rotation among themselves. -/
lemma leading_sim {eigh : Eigh} (he : IsEigh eigh) {K Q : Matrix (Fin p) (Fin p) ℝ} (hK : K.transpose = K) (hQ : Q.transpose * Q = 1) {d : ℕ}
    (hg : EigenGap K d) : ∃ R : Matrix (Fin (min d p)) (Fin (min d p)) ℝ, R.transpose * R = 1 ∧ R * R.transpose = 1 ∧
      Q * leading eigh (Q.transpose * K * Q) d = leading eigh K d * R := by
  obtain ⟨U, h1, h2, h3⟩ := eigh_sim_mul he hK hQ
  have hval := eigh_sim_val he hK hQ
  have hK' := conj_symm (Q := Q) hK
  set lam := (eigh K).1 with hlam
  let ix : Fin (min d p) → Fin p := fun k => descIdx lam (Fin.castLE (min_le_right d p) k)
  have hzero : ∀ (i : Fin p) (l : Fin (min d p)), d ≤ i.1 → U (descIdx lam i) (ix l) = 0 := by
    intro i l hi
    have hlt := eigenGap_desc he hK hg (Fin.castLE (min_le_right d p) l) i (lt_of_lt_of_le l.2 (min_le_left _ _)) hi
    rw [← hlam] at hlt
    have h := h1 (descIdx lam i) (ix l)
    rw [hval] at h
    have : U (descIdx lam i) (ix l) * (lam (ix l) - lam (descIdx lam i)) = 0 := by rw [mul_sub, h]; ring
    rcases mul_eq_zero.mp this with h0 | h0
    · exact h0
    · exact absurd h0 (sub_pos.mpr hlt).ne'
  let R : Matrix (Fin (min d p)) (Fin (min d p)) ℝ := Matrix.of fun k l => U (ix k) (ix l)
  have hmain : Q * leading eigh (Q.transpose * K * Q) d = leading eigh K d * R := by
    ext k l
    have hL : (Q * leading eigh (Q.transpose * K * Q) d) k l = (Q * (eigh (Q.transpose * K * Q)).2) k (ix l) := by
      rw [Matrix.mul_apply, Matrix.mul_apply]
      simp only [leading, Matrix.of_apply, hval, ix]
    rw [hL, h3, Matrix.mul_apply, Matrix.mul_apply]
    let e : Fin p ≃ Fin p := Equiv.ofBijective (descIdx lam) ⟨descIdx_injective lam, descIdx_surjective lam⟩
    rw [← Equiv.sum_comp e]
    have he' : ∀ i, e i = descIdx lam i := fun i => rfl
    simp only [he']
    have hinj : Function.Injective (Fin.castLE (min_le_right d p)) := Fin.castLE_injective _
    have := Finset.sum_subset (Finset.subset_univ (Finset.univ.map ⟨Fin.castLE (min_le_right d p), hinj⟩))
      (f := fun i => (eigh K).2 k (descIdx lam i) * U (descIdx lam i) (ix l)) (by
        intro i _ hi
        have : d ≤ i.1 := by
          by_contra hlt
          apply hi
          rw [Finset.mem_map]
          exact ⟨⟨i.1, lt_min (by omega) i.2⟩, Finset.mem_univ _, rfl⟩
        exact mul_eq_zero_of_right _ (hzero i l this))
    rw [← this, Finset.sum_map]
    rfl
  have hRR : R.transpose * R = 1 := by
    have hB := leading_orth he hK d
    have hB' := leading_orth he hK' d
    calc R.transpose * R = R.transpose * (leading eigh K d).transpose * (leading eigh K d) * R := by
          rw [Matrix.mul_assoc R.transpose, hB, Matrix.mul_one]
      _ = (leading eigh K d * R).transpose * (leading eigh K d * R) := by rw [Matrix.transpose_mul]; simp only [Matrix.mul_assoc]
      _ = (leading eigh (Q.transpose * K * Q) d).transpose * (Q.transpose * Q) * leading eigh (Q.transpose * K * Q) d := by
          rw [← hmain, Matrix.transpose_mul]; simp only [Matrix.mul_assoc]
      _ = 1 := by rw [hQ, Matrix.mul_one, hB']
  exact ⟨R, hRR, mul_eq_one_comm.mp hRR, hmain⟩

/-! ### Kernels of rotated data -/

lemma sliceMean_rot (Z : Fin n → Fin p → ℝ) (Q : Matrix (Fin p) (Fin p) ℝ) (y : Fin n → ℝ) (a : ℝ) (j : Fin p) :
    sliceMean (matX Z Q) y a j = ∑ k, sliceMean Z y a k * Q k j := by
  rw [sliceMean_lin Z y a fun k => Q k j]
  rfl

lemma outer_rot (v : Fin p → ℝ) (Q : Matrix (Fin p) (Fin p) ℝ) : outer (fun j => ∑ k, v k * Q k j) = Q.transpose * outer v * Q := by
  ext j l
  rw [Matrix.mul_apply]
  simp only [outer, Matrix.of_apply, Matrix.mul_apply, Matrix.transpose_apply]
  rw [Finset.sum_mul_sum, Finset.sum_comm]
  refine Finset.sum_congr rfl fun k _ => ?_
  rw [Finset.sum_mul]
  exact Finset.sum_congr rfl fun i _ => by ring

lemma sum_outer_rot {ι : Type} (s : Finset ι) (w : ι → ℝ) (v : ι → Fin p → ℝ) (Q : Matrix (Fin p) (Fin p) ℝ) :
    ∑ c ∈ s, w c • outer (fun j => ∑ k, v c k * Q k j) = Q.transpose * (∑ c ∈ s, w c • outer (v c)) * Q := by
  rw [Finset.mul_sum, Finset.sum_mul]
  refine Finset.sum_congr rfl fun c _ => ?_
  rw [outer_rot, Matrix.mul_smul, Matrix.smul_mul]

lemma sliceCov_outer {Z : Fin n → Fin p → ℝ} {y : Fin n → ℝ} {a : ℝ} (h : 1 < (inSlice y a).card) :
    sliceCov Z y a = ∑ c ∈ inSlice y a, (1 / ((inSlice y a).card - 1 : ℝ)) • outer (fun j => Z c j - sliceMean Z y a j) := by
  unfold sliceCov
  rw [if_pos h]
  ext j k
  rw [Matrix.sum_apply]
  simp only [Matrix.of_apply, Matrix.smul_apply, outer, smul_eq_mul]
  rw [Finset.sum_div]
  exact Finset.sum_congr rfl fun c _ => by ring

lemma sliceCov_rot (Z : Fin n → Fin p → ℝ) {Q : Matrix (Fin p) (Fin p) ℝ} (hQ : Q.transpose * Q = 1) (y : Fin n → ℝ) (a : ℝ) :
    sliceCov (matX Z Q) y a = Q.transpose * sliceCov Z y a * Q := by
  by_cases h : 1 < (inSlice y a).card
  · rw [sliceCov_outer h, sliceCov_outer h, ← sum_outer_rot]
    refine Finset.sum_congr rfl fun c _ => ?_
    congr 2
    funext j
    rw [sliceMean_rot]
    unfold matX
    rw [← Finset.sum_sub_distrib]
    exact Finset.sum_congr rfl fun k _ => by ring
  · unfold sliceCov
    rw [if_neg h, if_neg h, Matrix.mul_one, hQ]

lemma conj_mul {Q : Matrix (Fin p) (Fin p) ℝ} (hQ : Q.transpose * Q = 1) (M N : Matrix (Fin p) (Fin p) ℝ) :
    (Q.transpose * M * Q) * (Q.transpose * N * Q) = Q.transpose * (M * N) * Q := by
  have hQ' : Q * Q.transpose = 1 := mul_eq_one_comm.mp hQ
  calc (Q.transpose * M * Q) * (Q.transpose * N * Q) = Q.transpose * M * (Q * Q.transpose) * N * Q := by simp only [Matrix.mul_assoc]
    _ = Q.transpose * (M * N) * Q := by rw [hQ', Matrix.mul_one]; simp only [Matrix.mul_assoc]

lemma kernel_rot (m : SdrMethod) {s : ℕ} (Z : Fin n → Fin p → ℝ) {Q : Matrix (Fin p) (Fin p) ℝ} (hQ : Q.transpose * Q = 1) (y : Fin n → ℝ)
    (lab : Fin s → ℝ) : m.kernel (matX Z Q) y lab = Q.transpose * m.kernel Z y lab * Q := by
  have hQ' : Q * Q.transpose = 1 := mul_eq_one_comm.mp hQ
  have hmean : ∀ a, sliceMean (matX Z Q) y a = fun j => ∑ k, sliceMean Z y a k * Q k j := fun a => funext fun j => sliceMean_rot Z Q y a j
  cases m with
  | sir =>
    simp only [SdrMethod.kernel]
    rw [sirMat_sum, sirMat_sum]
    simp only [hmean]
    exact sum_outer_rot Finset.univ _ _ Q
  | save =>
    simp only [SdrMethod.kernel, saveMat]
    rw [Finset.mul_sum, Finset.sum_mul]
    refine Finset.sum_congr rfl fun i _ => ?_
    have h1 : sliceCov (matX Z Q) y (lab i) - 1 = Q.transpose * (sliceCov Z y (lab i) - 1) * Q := by
      rw [sliceCov_rot Z hQ, Matrix.mul_sub, Matrix.sub_mul, Matrix.mul_one, hQ]
    rw [h1, conj_mul hQ, Matrix.mul_smul, Matrix.smul_mul]
  | dr =>
    simp only [SdrMethod.kernel, drMat]
    have h2 : ∑ i, sliceProb y (lab i) • outer (sliceMean (matX Z Q) y (lab i)) =
        Q.transpose * (∑ i, sliceProb y (lab i) • outer (sliceMean Z y (lab i))) * Q := by
      simp only [hmean]
      exact sum_outer_rot Finset.univ _ _ Q
    have h1 : ∑ i, sliceProb y (lab i) • ((sliceCov (matX Z Q) y (lab i) + outer (sliceMean (matX Z Q) y (lab i))) *
          (sliceCov (matX Z Q) y (lab i) + outer (sliceMean (matX Z Q) y (lab i)))) =
        Q.transpose * (∑ i, sliceProb y (lab i) • ((sliceCov Z y (lab i) + outer (sliceMean Z y (lab i))) *
          (sliceCov Z y (lab i) + outer (sliceMean Z y (lab i))))) * Q := by
      rw [Finset.mul_sum, Finset.sum_mul]
      refine Finset.sum_congr rfl fun i _ => ?_
      have hb : sliceCov (matX Z Q) y (lab i) + outer (sliceMean (matX Z Q) y (lab i)) =
          Q.transpose * (sliceCov Z y (lab i) + outer (sliceMean Z y (lab i))) * Q := by
        rw [sliceCov_rot Z hQ, hmean, outer_rot, Matrix.mul_add, Matrix.add_mul]
      rw [hb, conj_mul hQ, Matrix.mul_smul, Matrix.smul_mul]
    rw [h1, h2, conj_mul hQ]
    have htr : (Q.transpose * (∑ i, sliceProb y (lab i) • outer (sliceMean Z y (lab i))) * Q).trace =
        (∑ i, sliceProb y (lab i) • outer (sliceMean Z y (lab i))).trace := by
      rw [Matrix.mul_assoc, Matrix.trace_mul_comm, Matrix.mul_assoc, hQ', Matrix.mul_one]
    rw [htr]
    simp only [Matrix.mul_add, Matrix.add_mul, Matrix.mul_sub, Matrix.sub_mul, Matrix.mul_smul, Matrix.smul_mul, Matrix.mul_one, hQ]

lemma phdMat_outer (Z : Fin n → Fin p → ℝ) (y : Fin n → ℝ) : phdMat Z y = ∑ c, ((y c - mean y) / n) • outer (Z c) := by
  ext j k
  rw [Matrix.sum_apply]
  simp only [phdMat, Matrix.of_apply, Matrix.smul_apply, outer, smul_eq_mul]
  rw [Finset.sum_div]
  exact Finset.sum_congr rfl fun c _ => by ring

lemma phdMat_rot (Z : Fin n → Fin p → ℝ) (Q : Matrix (Fin p) (Fin p) ℝ) (y : Fin n → ℝ) :
    phdMat (matX Z Q) y = Q.transpose * phdMat Z y * Q := by
  rw [phdMat_outer, phdMat_outer, ← sum_outer_rot]
  rfl

lemma covXY_rot (hn : 0 < n) (Z : Fin n → Fin p → ℝ) (Q : Matrix (Fin p) (Fin p) ℝ) (y : Fin n → ℝ) :
    covXY (matX Z Q) y = fun j => ∑ k, covXY Z y k * Q k j := by
  funext j
  have hdev : ∀ c, matX Z Q c j - (mean fun i => matX Z Q i j) = ∑ k, (Z c k - mean fun i => Z i k) * Q k j := by
    intro c
    have := mean_affine_row hn Z 0 Q j
    simp only [Pi.zero_apply, sub_zero] at this
    rw [this]
    unfold matX
    rw [← Finset.sum_sub_distrib]
    exact Finset.sum_congr rfl fun k _ => by ring
  simp only [covXY, hdev]
  simp only [Finset.mul_sum, Finset.sum_div, Finset.sum_mul]
  rw [Finset.sum_comm]
  exact Finset.sum_congr rfl fun k _ => Finset.sum_congr rfl fun c _ => by ring

/-- The eigenvalues of the identity. -/
lemma eigh_one {eigh : Eigh} (he : IsEigh eigh) : (eigh (1 : Matrix (Fin p) (Fin p) ℝ)).1 = fun _ => 1 := by
  have h1 := he.decomp (1 : Matrix (Fin p) (Fin p) ℝ) Matrix.transpose_one
  have h2 := he.orth (1 : Matrix (Fin p) (Fin p) ℝ) Matrix.transpose_one
  rw [Matrix.one_mul] at h1
  have h3 := congrArg ((eigh (1 : Matrix (Fin p) (Fin p) ℝ)).2.transpose * ·) h1
  simp only [← Matrix.mul_assoc] at h3
  rw [h2, Matrix.one_mul] at h3
  funext j
  have := congrFun (congrFun h3 j) j
  simpa using this.symm

lemma half_one : (1 / 2 : ℝ) • ((1 : Matrix (Fin p) (Fin p) ℝ) + (1 : Matrix (Fin p) (Fin p) ℝ).transpose) = 1 := by
  rw [Matrix.transpose_one, ← two_smul ℝ, smul_smul]
  norm_num

lemma invSqrt_one {eigh : Eigh} (he : IsEigh eigh) : invSqrt eigh (1 : Matrix (Fin p) (Fin p) ℝ) = .ok 1 := by
  unfold invSqrt
  rw [half_one]
  dsimp only
  rw [eigh_one he]
  rw [if_pos fun _ => one_pos]
  congr 1
  simp only [Real.sqrt_one, div_one]
  rw [Matrix.diagonal_one, Matrix.mul_one, he.orth' _ Matrix.transpose_one]

lemma matPow_one {eigh : Eigh} (he : IsEigh eigh) (i : ℕ) : matPow eigh (1 : Matrix (Fin p) (Fin p) ℝ) i = 1 := by
  unfold matPow
  rw [half_one]
  dsimp only
  rw [eigh_one he]
  simp only [one_pow]
  rw [Matrix.diagonal_one, Matrix.mul_one, he.orth' _ Matrix.transpose_one]

lemma ihtMat_one {eigh : Eigh} (he : IsEigh eigh) {Z : Fin n → Fin p → ℝ} (hZ : covMat Z = 1) (y : Fin n → ℝ) :
    ihtCols eigh Z y * (ihtCols eigh Z y).transpose = (p : ℝ) • outer (covXY Z y) := by
  have h : ∀ k i, ihtCols eigh Z y k i = covXY Z y k := by
    intro k i
    simp only [ihtCols, Matrix.of_apply, hZ, matPow_one he, Matrix.one_mulVec, ite_self]
  ext j l
  rw [Matrix.mul_apply]
  simp only [Matrix.transpose_apply, h, Finset.sum_const, Finset.card_univ, Fintype.card_fin, nsmul_eq_mul, Matrix.smul_apply, outer, Matrix.of_apply,
    smul_eq_mul]

/-! ### The fit -/

/-- The matrix whose leading eigenvectors a method looks for, for standardised data `Z`. -/
noncomputable def sdKernel (pr : SdParams) (Z : Fin n → Fin p → ℝ) (y : Fin n → ℝ) : Except Err (Matrix (Fin p) (Fin p) ℝ) :=
  match pr.meth with
  | .slice m =>
    match sliceResponse pr.continuous y pr.nSlices with
    | .error e => .error e
    | .ok yd =>
      match sliceLabels yd pr.nSlices with
      | .error e => .error e
      | .ok lab => if pr.nSlices = 0 ∧ m ≠ .save then .error .valueError else .ok (m.kernel Z yd lab)
  | .phd => .ok (phdMat Z y)
  | .iht => .ok ((p : ℝ) • outer (covXY Z y))
  | _ => .error .other

lemma covMat_centre (hn : 0 < n) (center : Bool) (X : Fin n → Fin p → ℝ) : covMat (sdrCentre center X) = covMat X := by
  cases center with
  | false => rfl
  | true =>
    have h := covMat_affine hn X (fun k => mean fun i => X i k) (1 : Matrix (Fin p) (Fin p) ℝ)
    rw [Matrix.transpose_one, Matrix.one_mul, Matrix.mul_one] at h
    rw [← h]
    congr 1
    funext c j
    simp [sdrCentre, matX, Matrix.one_apply]

lemma sdrScale_one (scale : Bool) (X : Fin n → Fin p → ℝ) : sdrScale scale X 1 = X := by
  funext c j
  cases scale <;> simp [sdrScale, Matrix.one_apply]

lemma sdDirections_std {ext : SdExt} (he : IsEigh ext.eigh) {pr : SdParams} (hm : pr.meth.direct) (hs : pr.scaleData = true) (st : SdState)
    {q : SdPre n p} (hq : covMat q.Xs = 1) (hn : 2 ≤ n) (hp : 2 ≤ p) (y : Fin n → ℝ) :
    sdDirections ext pr st q y =
      (sdKernel pr (sdrCentre pr.centerData q.Xs) y).map fun K => (⟨min pr.nComp p, q.N2 * leading ext.eigh K pr.nComp⟩, st) := by
  have hnp : ¬ (n < 2 ∨ p < 2) := by omega
  have hroot : sdrRoot ext.eigh true q.Xs = .ok 1 := by
    unfold sdrRoot
    rw [if_pos rfl, hq, invSqrt_one he]
  unfold sdDirections sdKernel
  cases hmeth : pr.meth with
  | slice m =>
    dsimp only
    unfold sliceMethod
    rw [hs, if_neg hnp, hroot]
    dsimp only
    rw [sdrScale_one]
    cases sliceResponse pr.continuous y pr.nSlices with
    | error e => rfl
    | ok yd =>
      dsimp only
      cases sliceLabels yd pr.nSlices with
      | error e => rfl
      | ok lab =>
        dsimp only
        by_cases h0 : pr.nSlices = 0 ∧ m ≠ .save
        · rw [if_pos h0, if_pos h0]; rfl
        · rw [if_neg h0, if_neg h0]
          simp [Except.map, sdrBack, sdMapBack]
  | phd =>
    dsimp only
    unfold phd
    rw [hs, if_neg hnp, hroot]
    dsimp only
    rw [sdrScale_one]
    simp [Except.map, sdrBack, sdMapBack]
  | iht =>
    dsimp only
    unfold iht
    rw [hs, if_neg hnp, hroot]
    dsimp only
    rw [sdrScale_one, ihtMat_one he (by rw [covMat_centre (by omega), hq])]
    simp [Except.map, sdrBack, sdMapBack]
  | dcov => rw [hmeth] at hm; exact hm.elim
  | opt o => rw [hmeth] at hm; exact hm.elim

/-- The standardised data. -/
noncomputable def stdData (center : Bool) (X : Fin n → Fin p → ℝ) (N : Matrix (Fin p) (Fin p) ℝ) : Fin n → Fin p → ℝ := matX (sdrCentre center X) N

lemma sdPre_std {ext : SdExt} {pr : SdParams} (hs : pr.scaleData = true) (hw : pr.whiten = false) (hc : pr.center = .mean)
    {X : Fin n → Fin p → ℝ} {q : SdPre n p} (h : sdPre ext pr X = .ok q) :
    sdrCentre pr.centerData q.Xs = stdData pr.centerData X q.N2 := by
  obtain ⟨N2, hN, hn, -, -, rfl⟩ := sdPre_ok h
  unfold sdWhitenStep sdScaleStep sdCentreStep stdData
  rw [hw, hs, hc]
  cases hcd : pr.centerData with
  | false => simp [sdrCentre]
  | true =>
    simp only [if_true, Bool.false_eq_true, if_false]
    funext c j
    simp only [sdrCentre, if_true]
    rw [mean_affine_row (by omega)]
    unfold matX
    rw [← Finset.sum_sub_distrib]
    exact Finset.sum_congr rfl fun k _ => by ring

/-- Data in other coordinates: every case `x` becomes `x A + b`. -/
def _root_.Direpack.Spec.affineData {m : ℕ} (X : Fin m → Fin p → ℝ) (A : Matrix (Fin p) (Fin p) ℝ) (b : Fin p → ℝ) : Fin m → Fin p → ℝ :=
  fun c j => ∑ k, X c k * A k j + b j

lemma mean_affineData (hn : 0 < n) (X : Fin n → Fin p → ℝ) (A : Matrix (Fin p) (Fin p) ℝ) (b : Fin p → ℝ) (j : Fin p) :
    (mean fun c => affineData X A b c j) = ∑ k, (mean fun c => X c k) * A k j + b j := by
  have hn' : (n : ℝ) ≠ 0 := by exact_mod_cast hn.ne'
  have h := mean_affine_row hn X 0 A j
  simp only [Pi.zero_apply, sub_zero] at h
  rw [← h]
  simp only [mean_eq, affineData, matX]
  rw [Finset.sum_add_distrib, add_div]
  simp
  field_simp

lemma covMat_affineData (hn : 0 < n) (X : Fin n → Fin p → ℝ) (A : Matrix (Fin p) (Fin p) ℝ) (b : Fin p → ℝ) :
    covMat (affineData X A b) = A.transpose * covMat X * A := by
  rw [← covMat_lin hn]
  have h : ∀ c j, affineData X A b c j - (mean fun i => affineData X A b i j) = matX X A c j - mean fun i => matX X A i j := by
    intro c j
    rw [mean_affineData hn]
    have h := mean_affine_row hn X 0 A j
    simp only [Pi.zero_apply, sub_zero] at h
    rw [h]
    unfold affineData matX
    ring
  simp only [covMat, h]

lemma centre_affineData (hn : 0 < n) {center : Bool} (X : Fin n → Fin p → ℝ) (A : Matrix (Fin p) (Fin p) ℝ) {b : Fin p → ℝ}
    (hb : center = true ∨ b = 0) : sdrCentre center (affineData X A b) = matX (sdrCentre center X) A := by
  funext c j
  cases center with
  | true =>
    simp only [sdrCentre, if_true]
    rw [mean_affineData hn]
    unfold affineData matX
    rw [add_sub_add_right_eq_sub, ← Finset.sum_sub_distrib]
    exact Finset.sum_congr rfl fun k _ => by ring
  | false =>
    have hb0 : b = 0 := by simpa using hb
    simp [sdrCentre, hb0, affineData, matX]

/-- The rotation between the standardised data. -/
lemma std_rotation {S N N' A : Matrix (Fin p) (Fin p) ℝ} (hN : N.transpose = N) (h : N * S * N = 1) (hN' : N'.transpose = N')
    (h' : N' * (A.transpose * S * A) * N' = 1) : ∃ Q : Matrix (Fin p) (Fin p) ℝ, Q.transpose * Q = 1 ∧ A * N' = N * Q := by
  have hu : N * (S * N) = 1 := by rw [← Matrix.mul_assoc]; exact h
  have hSN : (S * N).transpose * N = 1 := by
    have := congrArg Matrix.transpose hu
    rw [Matrix.transpose_mul, hN, Matrix.transpose_one] at this
    exact this
  refine ⟨S * N * (A * N'), ?_, ?_⟩
  · have hS : (S * N).transpose * (S * N) = S := by
      have h1 : (S * N) * N = 1 := mul_eq_one_comm.mp hu
      have h2 : (S * N).transpose = S * N := by
        have e1 : (S * N).transpose * N = (S * N) * N := by rw [hSN, h1]
        have := congrArg (· * (S * N)) e1
        simp only [Matrix.mul_assoc] at this
        rw [hu, Matrix.mul_one, Matrix.mul_one] at this
        exact this
      rw [h2, Matrix.mul_assoc, hu, Matrix.mul_one]
    rw [Matrix.transpose_mul, Matrix.transpose_mul A N', hN']
    calc N' * A.transpose * (S * N).transpose * (S * N * (A * N')) = N' * (A.transpose * ((S * N).transpose * (S * N)) * A) * N' := by
          simp only [Matrix.mul_assoc]
      _ = 1 := by rw [hS, h']
  · rw [← Matrix.mul_assoc N, hu, Matrix.one_mul]

lemma sdKernel_symm {pr : SdParams} {Z : Fin n → Fin p → ℝ} {y : Fin n → ℝ} {K : Matrix (Fin p) (Fin p) ℝ} (h : sdKernel pr Z y = .ok K) :
    K.transpose = K := by
  unfold sdKernel at h
  cases hmeth : pr.meth with
  | slice m =>
    rw [hmeth] at h
    dsimp only at h
    split at h
    · exact absurd h (by simp)
    · split at h
      · exact absurd h (by simp)
      · split_ifs at h
        cases h
        exact kernel_symm ..
  | phd => rw [hmeth] at h; cases h; exact phdMat_symm ..
  | iht => rw [hmeth] at h; cases h; rw [Matrix.transpose_smul, outer_symm]
  | dcov => rw [hmeth] at h; exact absurd h (by simp)
  | opt o => rw [hmeth] at h; exact absurd h (by simp)

lemma sdKernel_rot (hn : 0 < n) (pr : SdParams) (Z : Fin n → Fin p → ℝ) {Q : Matrix (Fin p) (Fin p) ℝ} (hQ : Q.transpose * Q = 1) (y : Fin n → ℝ) :
    sdKernel pr (matX Z Q) y = (sdKernel pr Z y).map fun K => Q.transpose * K * Q := by
  unfold sdKernel
  cases hmeth : pr.meth with
  | slice m =>
    dsimp only
    cases sliceResponse pr.continuous y pr.nSlices with
    | error e => rfl
    | ok yd =>
      dsimp only
      cases sliceLabels yd pr.nSlices with
      | error e => rfl
      | ok lab =>
        dsimp only
        by_cases h0 : pr.nSlices = 0 ∧ m ≠ .save
        · rw [if_pos h0, if_pos h0]; rfl
        · rw [if_neg h0, if_neg h0, kernel_rot m Z hQ]; rfl
  | phd => simp only [Except.map]; rw [phdMat_rot]
  | iht =>
    simp only [Except.map]
    rw [covXY_rot hn, outer_rot, Matrix.mul_smul, Matrix.smul_mul]
  | dcov => rfl
  | opt o => rfl

/-- The space of leading eigenvectors is determined: the eigenvalues number `n_components` and `n_components + 1` of the matrix of the method, for the
data standardised with a symmetric root of the inverse covariance matrix, differ. -/
def SubspaceDetermined (pr : SdParams) (X : Fin n → Fin p → ℝ) (y : Fin n → ℝ) : Prop :=
  ∃ N K, N.transpose = N ∧ N * covMat X * N = 1 ∧ sdKernel pr (stdData pr.centerData X N) y = .ok K ∧ EigenGap K pr.nComp

lemma eigenGap_conj {K Q : Matrix (Fin p) (Fin p) ℝ} {d : ℕ} (h : EigenGap K d) (hQ : Q.transpose * Q = 1) : EigenGap (Q.transpose * K * Q) d := by
  intro ev V hV hK
  have hQ' : Q * Q.transpose = 1 := mul_eq_one_comm.mp hQ
  refine h ev (Q * V) ?_ ?_
  · rw [Matrix.transpose_mul, Matrix.mul_assoc, ← Matrix.mul_assoc Q.transpose, hQ, Matrix.one_mul, hV]
  · calc K * (Q * V) = (Q * Q.transpose) * K * (Q * V) := by rw [hQ', Matrix.one_mul]
      _ = Q * (Q.transpose * K * Q * V) := by simp only [Matrix.mul_assoc]
      _ = Q * V * Matrix.diagonal ev := by rw [hK, Matrix.mul_assoc]

/-- The choice of the root does not matter. -/
lemma SubspaceDetermined.gap (hn : 0 < n) {pr : SdParams} {X : Fin n → Fin p → ℝ} {y : Fin n → ℝ} (h : SubspaceDetermined pr X y)
    {N K : Matrix (Fin p) (Fin p) ℝ} (hN : N.transpose = N) (hN1 : N * covMat X * N = 1) (hK : sdKernel pr (stdData pr.centerData X N) y = .ok K) :
    EigenGap K pr.nComp := by
  obtain ⟨N0, K0, h1, h2, h3, h4⟩ := h
  obtain ⟨Q, hQ, hNQ⟩ := std_rotation (A := 1) h1 h2 hN (by rw [Matrix.transpose_one, Matrix.one_mul, Matrix.mul_one]; exact hN1)
  rw [Matrix.one_mul] at hNQ
  have hZ : stdData pr.centerData X N = matX (stdData pr.centerData X N0) Q := by
    unfold stdData
    rw [← matX_mul, hNQ]
  rw [hZ, sdKernel_rot hn _ _ hQ, h3] at hK
  cases hK
  exact eigenGap_conj h4 hQ

/-- C124: the loadings in other coordinates. -/
lemma affine_loadings {ext : SdExt} (he : IsEigh ext.eigh) (hr : IsRootInv ext.rootInv) {o o1 o2 : SdObj} (hs : o.params.scaleData = true)
    (hw : o.params.whiten = false) (hc : o.params.center = .mean) (hm : o.params.meth.direct) {X : Fin n → Fin p → ℝ} {y : Fin n → ℝ}
    {A : Matrix (Fin p) (Fin p) ℝ} {b : Fin p → ℝ} (hb : o.params.centerData = true ∨ b = 0)
    (hgap : SubspaceDetermined o.params X y)
    {f f' : SdFit n p} (h : o.fit ext X y = .ok (o1, f)) (h' : o.fit ext (affineData X A b) y = .ok (o2, f')) :
    ∃ R : Matrix (Fin f.h) (Fin f'.h) ℝ, R.transpose * R = 1 ∧ R * R.transpose = 1 ∧ A * f'.P = f.P * R := by
  obtain ⟨q, L, st, pm, T, hq, hd, -, -, -, rfl⟩ := SdObj.fit_ok h
  obtain ⟨q', L', st', pm', T', hq', hd', -, -, -, rfl⟩ := SdObj.fit_ok h'
  have hwp : o.params.whitened = o.params := by unfold SdParams.whitened; simp [hw]
  rw [hwp] at hq hd hq' hd'
  obtain ⟨-, -, hn, hp, -, -⟩ := sdPre_ok hq
  obtain ⟨h1, h2, h3⟩ := sdPre_cov hr hs hw hc hq
  obtain ⟨h1', h2', h3'⟩ := sdPre_cov hr hs hw hc hq'
  rw [covMat_affineData (by omega)] at h3'
  obtain ⟨Q, hQ, hAN⟩ := std_rotation h2 h3 h2' h3'
  rw [sdDirections_std he hm hs _ h1 hn hp, sdPre_std hs hw hc hq] at hd
  rw [sdDirections_std he hm hs _ h1' hn hp, sdPre_std hs hw hc hq'] at hd'
  have hZ : stdData o.params.centerData (affineData X A b) q'.N2 = matX (stdData o.params.centerData X q.N2) Q := by
    unfold stdData
    rw [centre_affineData (by omega) X A hb, ← matX_mul, ← matX_mul, hAN]
  rw [hZ, sdKernel_rot (by omega) _ _ hQ] at hd'
  cases hK : sdKernel o.params (stdData o.params.centerData X q.N2) y with
  | error e => rw [hK] at hd; exact absurd hd (by simp [Except.map])
  | ok K =>
    rw [hK] at hd hd'
    simp only [Except.map, Except.ok.injEq, Prod.mk.injEq] at hd hd'
    obtain ⟨rfl, -⟩ := hd
    obtain ⟨rfl, -⟩ := hd'
    obtain ⟨R, hR1, hR2, hR3⟩ := leading_sim he (sdKernel_symm hK) hQ (hgap.gap (by omega) h2 h3 hK)
    refine ⟨R, hR1, hR2, ?_⟩
    dsimp only
    rw [← Matrix.mul_assoc, hAN, Matrix.mul_assoc, hR3, Matrix.mul_assoc]

/-- C124 (methods that are not based on optimisation; `center='mean'`, `scale_data=True`, no whitening): when the predictors are measured in other coordinates
(`x` becomes `x A + b`) the scores of all cases, old and new, are rotated and shifted, so that the subspace found is the same. -/
theorem C124_scores {ext : SdExt} (he : IsEigh ext.eigh) (hr : IsRootInv ext.rootInv) {o o1 o2 : SdObj} (hs : o.params.scaleData = true)
    (hw : o.params.whiten = false) (hc : o.params.center = .mean) (hm : o.params.meth.direct) {X : Fin n → Fin p → ℝ} {y : Fin n → ℝ}
    {A : Matrix (Fin p) (Fin p) ℝ} {b : Fin p → ℝ} (hb : o.params.centerData = true ∨ b = 0)
    (hgap : SubspaceDetermined o.params X y)
    {f f' : SdFit n p} (h : o.fit ext X y = .ok (o1, f)) (h' : o.fit ext (affineData X A b) y = .ok (o2, f')) :
    ∃ (R : Matrix (Fin f.h) (Fin f'.h) ℝ) (t : Fin f'.h → ℝ), R.transpose * R = 1 ∧ R * R.transpose = 1 ∧
      ∀ {m : ℕ} (Xn : Fin m → Fin p → ℝ), ∃ Tn Tn', f.transform Xn = .ok Tn ∧ f'.transform (affineData Xn A b) = .ok Tn' ∧
        ∀ c j, Tn' c j = ∑ l, Tn c l * R l j + t j := by
  obtain ⟨R, h1, h2, h3⟩ := affine_loadings he hr hs hw hc hm hb hgap h h'
  refine ⟨R, fun j => ∑ k, b k * f'.P k j, h1, h2, fun {m} Xn => ⟨matX Xn f.P, matX (affineData Xn A b) f'.P, ?_, ?_, ?_⟩⟩
  · unfold SdFit.transform; rw [dif_pos rfl]; rfl
  · unfold SdFit.transform; rw [dif_pos rfl]; rfl
  · intro c j
    have e : ∑ l, matX Xn f.P c l * R l j = matX (matX Xn A) f'.P c j := by
      change matX (matX Xn f.P) R c j = _
      rw [← matX_mul, ← matX_mul, h3]
    rw [e]
    unfold matX affineData
    rw [← Finset.sum_add_distrib]
    exact Finset.sum_congr rfl fun k _ => by ring

/-! ### Predictions -/

/-- The regression of a fit whose score columns are not constant. -/
lemma fit_regression {ext : SdExt} (hols : ∀ {n k : ℕ} (A : Fin n → Fin k → ℝ) (y : Fin n → ℝ), IsLeastSquares A y (ext.ols A y)) {o o' : SdObj}
    {X : Fin n → Fin p → ℝ} {y : Fin n → ℝ} {f : SdFit n p} (h : o.fit ext X y = .ok (o', f)) (hcst : ¬ ∃ j, IsConstCol f.T j) :
    ∃ (b0 : ℝ) (b : Fin f.h → ℝ), ∑ c, (y c - (b0 + ∑ l, f.T c l * b l)) = 0 ∧ (∀ j, ∑ c, f.T c j * (y c - (b0 + ∑ l, f.T c l * b l)) = 0) ∧
      ∀ {m : ℕ} (Xn : Fin m → Fin p → ℝ) (u : Fin m → ℝ), f.predict Xn = .ok u → ∀ c, u c = b0 + ∑ l, matX Xn f.P c l * b l := by
  obtain ⟨q, L, st', pm, T, -, -, -, -, -, rfl⟩ := SdObj.fit_ok h
  dsimp only at hcst ⊢
  have e : addConstant T = ⟨L.h + 1, fun c => Fin.cons 1 (T c)⟩ := by unfold addConstant; rw [if_neg hcst]
  have hls := hols (addConstant T).2 y
  rw [e] at hls ⊢
  dsimp only at hls ⊢
  set β := ext.ols (fun c => (Fin.cons 1 (T c) : Fin (L.h + 1) → ℝ)) y with hβ
  refine ⟨β 0, fun l => β l.succ, ?_, ?_, ?_⟩
  · have := hls 0
    simpa [Fin.sum_univ_succ] using this
  · intro j
    have := hls j.succ
    simpa [Fin.sum_univ_succ] using this
  · intro m Xn u hu c
    unfold SdFit.predict SdFit.transform at hu
    rw [dif_pos rfl] at hu
    dsimp only at hu
    have hX : matX (fun (c : Fin m) (k : Fin p) => Xn c (Fin.cast rfl k)) L.P = matX Xn L.P := rfl
    rw [hX] at hu
    by_cases hc2 : ∃ j, IsConstCol (matX Xn L.P) j
    · have e2 : addConstant (matX Xn L.P) = ⟨L.h, matX Xn L.P⟩ := by unfold addConstant; rw [if_pos hc2]
      rw [e2] at hu
      dsimp only at hu
      rw [dif_neg (by omega)] at hu
      exact absurd hu (by simp)
    · have e2 : addConstant (matX Xn L.P) = ⟨L.h + 1, fun c => Fin.cons 1 (matX Xn L.P c)⟩ := by unfold addConstant; rw [if_neg hc2]
      rw [e2] at hu
      dsimp only at hu
      rw [dif_pos rfl] at hu
      cases hu
      simp [Fin.sum_univ_succ]

lemma cov_one_not_const (hn : 0 < n) {h : ℕ} {T : Fin n → Fin h → ℝ} (hT : covMat T = 1) : ¬ ∃ j, IsConstCol T j := by
  rintro ⟨j, hj, -⟩
  have h1 := congrFun (congrFun hT j) j
  have hm : ∀ c, T c j - (mean fun i => T i j) = 0 := by
    intro c
    have : (fun i => T i j) = fun _ => T c j := funext fun i => hj i c
    rw [this, mean_eq]
    have hn' : (n : ℝ) ≠ 0 := by exact_mod_cast hn.ne'
    simp
    field_simp
    simp
  simp [covMat, hm] at h1

/-- Uncorrelated scores of unit variance and a constant are linearly independent. -/
lemma cov_one_indep (hn : 0 < n) {h : ℕ} {T : Fin n → Fin h → ℝ} (hT : covMat T = 1) {d0 : ℝ} {d : Fin h → ℝ} (h0 : ∀ c, d0 + ∑ l, T c l * d l = 0) :
    d0 = 0 ∧ ∀ l, d l = 0 := by
  have hn' : (n : ℝ) ≠ 0 := by exact_mod_cast hn.ne'
  have hcol : covMat (matX T (Matrix.of fun l (_ : Fin 1) => d l)) = 0 := by
    have hc : ∀ c, matX T (Matrix.of fun l (_ : Fin 1) => d l) c 0 = -d0 := by
      intro c
      have := h0 c
      unfold matX
      simp only [Matrix.of_apply]
      linarith
    have hm : ∀ j, (mean fun c => matX T (Matrix.of fun l (_ : Fin 1) => d l) c j) = -d0 := by
      intro j
      rw [Subsingleton.elim j 0]
      simp only [hc]
      rw [mean_eq]
      simp
      field_simp
    ext i j
    rw [Subsingleton.elim i 0, Subsingleton.elim j 0]
    simp only [covMat, Matrix.of_apply, hm, hc]
    simp
  rw [covMat_lin hn, hT, Matrix.mul_one] at hcol
  have h1 := congrFun (congrFun hcol 0) 0
  rw [Matrix.mul_apply] at h1
  simp only [Matrix.transpose_apply, Matrix.of_apply, Matrix.zero_apply] at h1
  have hd : ∀ l, d l = 0 := fun l =>
    mul_self_eq_zero.mp ((Finset.sum_eq_zero_iff_of_nonneg fun k _ => mul_self_nonneg (d k)).mp h1 l (Finset.mem_univ _))
  have := h0 ⟨0, hn⟩
  simp only [hd, mul_zero, Finset.sum_const_zero, add_zero] at this
  exact ⟨this, hd⟩

/-- C124 for predictions: two fits to the same cases in different coordinates predict the same for every new case. -/
theorem C124_predict {ext : SdExt} (he : IsEigh ext.eigh) (hr : IsRootInv ext.rootInv)
    (hols : ∀ {n k : ℕ} (A : Fin n → Fin k → ℝ) (y : Fin n → ℝ), IsLeastSquares A y (ext.ols A y)) {o o1 o2 : SdObj} (hs : o.params.scaleData = true)
    (hw : o.params.whiten = false) (hc : o.params.center = .mean) (hcp : o.params.copy = true) (hm : o.params.meth.direct) {X : Fin n → Fin p → ℝ}
    {y : Fin n → ℝ} {A : Matrix (Fin p) (Fin p) ℝ} {b : Fin p → ℝ} (hb : o.params.centerData = true ∨ b = 0) (hgap : SubspaceDetermined o.params X y)
    {f f' : SdFit n p} (h : o.fit ext X y = .ok (o1, f)) (h' : o.fit ext (affineData X A b) y = .ok (o2, f')) {m : ℕ} (Xn : Fin m → Fin p → ℝ)
    {u u' : Fin m → ℝ} (hu : f.predict Xn = .ok u) (hu' : f'.predict (affineData Xn A b) = .ok u') : u' = u := by
  obtain ⟨R, h1, h2, h3⟩ := affine_loadings he hr hs hw hc hm hb hgap h h'
  have hn : 0 < n := by
    obtain ⟨q, -, -, -, -, hq, -⟩ := SdObj.fit_ok h
    obtain ⟨-, -, hn, -⟩ := sdPre_ok hq
    omega
  have hT := (C94_unit_covariance_partial he hr hs hw hc hcp hm h).1
  have hT' := (C94_unit_covariance_partial he hr hs hw hc hcp hm h').1
  obtain ⟨b0, b1, e1, e2, e3⟩ := fit_regression hols h (cov_one_not_const hn hT)
  obtain ⟨b0', b1', e1', e2', e3'⟩ := fit_regression hols h' (cov_one_not_const hn hT')
  have hsc := fit_scores hcp h
  have hsc' := fit_scores hcp h'
  set t : Fin f'.h → ℝ := fun j => ∑ k, b k * f'.P k j with ht
  have hrot : ∀ {m : ℕ} (Xn : Fin m → Fin p → ℝ) c j, matX (affineData Xn A b) f'.P c j = ∑ l, matX Xn f.P c l * R l j + t j := by
    intro m Xn c j
    have e : ∑ l, matX Xn f.P c l * R l j = matX (matX Xn A) f'.P c j := by
      change matX (matX Xn f.P) R c j = _
      rw [← matX_mul, ← matX_mul, h3]
    rw [e, ht]
    unfold matX affineData
    rw [← Finset.sum_add_distrib]
    exact Finset.sum_congr rfl fun k _ => by ring
  -- the second regression in the first coordinates
  set g0 : ℝ := b0' + ∑ j, t j * b1' j with hg0
  set g : Fin f.h → ℝ := fun l => ∑ j, R l j * b1' j with hg
  have hlin : ∀ {m : ℕ} (Xn : Fin m → Fin p → ℝ) c, b0' + ∑ j, matX (affineData Xn A b) f'.P c j * b1' j = g0 + ∑ l, matX Xn f.P c l * g l := by
    intro m Xn c
    simp only [hrot, add_mul, Finset.sum_add_distrib, hg0, hg]
    have : ∑ j, (∑ l, matX Xn f.P c l * R l j) * b1' j = ∑ l, matX Xn f.P c l * ∑ j, R l j * b1' j := by
      simp only [Finset.sum_mul, Finset.mul_sum]
      rw [Finset.sum_comm]
      exact Finset.sum_congr rfl fun l _ => Finset.sum_congr rfl fun j _ => by ring
    rw [this]
    ring
  rw [hsc] at e1 e2 hT
  rw [hsc'] at e1' e2'
  simp only [hlin] at e1' e2'
  have hTR : ∀ c l, matX X f.P c l = ∑ j, (matX (affineData X A b) f'.P c j - t j) * R l j := by
    intro c l
    simp only [hrot, add_sub_cancel_right]
    change _ = matX (matX X f.P) R c ⬝ᵥ _
    have : (matX (matX X f.P) R c ⬝ᵥ fun j => R l j) = matX (matX (matX X f.P) R) R.transpose c l := rfl
    rw [this, ← matX_mul, ← matX_mul, h2, Matrix.mul_one]
  have e2'' : ∀ l, ∑ c, matX X f.P c l * (y c - (g0 + ∑ l, matX X f.P c l * g l)) = 0 := by
    intro l
    have : ∀ c, matX X f.P c l * (y c - (g0 + ∑ l, matX X f.P c l * g l)) =
        ∑ j, (matX (affineData X A b) f'.P c j * (y c - (g0 + ∑ l, matX X f.P c l * g l)) * R l j -
          t j * R l j * (y c - (g0 + ∑ l, matX X f.P c l * g l))) := by
      intro c
      conv_lhs => rw [hTR c l]
      rw [Finset.sum_mul]
      exact Finset.sum_congr rfl fun j _ => by ring
    simp only [this]
    rw [Finset.sum_comm]
    refine Finset.sum_eq_zero fun j _ => ?_
    rw [Finset.sum_sub_distrib, ← Finset.sum_mul, e2' j, ← Finset.mul_sum, e1']
    ring
  have hdiff : ∀ c, (g0 - b0) + ∑ l, matX X f.P c l * (g l - b1 l) = 0 := by
    set r : Fin n → ℝ := fun c => (g0 - b0) + ∑ l, matX X f.P c l * (g l - b1 l) with hrdef
    have hr' : ∀ c, r c = (y c - (b0 + ∑ l, matX X f.P c l * b1 l)) - (y c - (g0 + ∑ l, matX X f.P c l * g l)) := by
      intro c
      simp only [hrdef, mul_sub, Finset.sum_sub_distrib]
      ring
    have hr0 : ∑ c, r c = 0 := by
      simp only [hr']
      rw [Finset.sum_sub_distrib, e1, e1', sub_zero]
    have hrl : ∀ l, ∑ c, matX X f.P c l * r c = 0 := by
      intro l
      simp only [hr', mul_sub (matX X f.P _ l) (y _ - _)]
      rw [Finset.sum_sub_distrib, e2, e2'', sub_zero]
    have hsq : ∑ c, r c * r c = 0 := by
      have : ∀ c, r c * r c = (g0 - b0) * r c + ∑ l, (g l - b1 l) * (matX X f.P c l * r c) := by
        intro c
        conv_lhs => rw [show r c * r c = ((g0 - b0) + ∑ l, matX X f.P c l * (g l - b1 l)) * r c from rfl]
        rw [add_mul, Finset.sum_mul]
        congr 1
        exact Finset.sum_congr rfl fun l _ => by ring
      simp only [this]
      rw [Finset.sum_add_distrib, ← Finset.mul_sum, hr0, Finset.sum_comm]
      simp only [← Finset.mul_sum, hrl, mul_zero, Finset.sum_const_zero, add_zero]
    intro c
    exact mul_self_eq_zero.mp ((Finset.sum_eq_zero_iff_of_nonneg fun k _ => mul_self_nonneg (r k)).mp hsq c (Finset.mem_univ _))
  obtain ⟨hd0, hd⟩ := cov_one_indep hn hT hdiff
  funext c
  rw [e3 Xn u hu c, e3' _ u' hu' c, hlin]
  have : ∀ l, g l = b1 l := fun l => by linarith [hd l]
  simp only [this]
  linarith

/-! ### Methods based on optimisation -/

lemma edist_affineData {h : ℕ} (X : Fin n → Fin p → ℝ) (A : Matrix (Fin p) (Fin p) ℝ) (b : Fin p → ℝ) (B : Matrix (Fin p) (Fin h) ℝ) :
    edist (matX (affineData X A b) B) = edist (matX X (A * B)) := by
  rw [matX_mul, ← edist_shift (matX X A) (fun k => -b k) B]
  congr 2
  funext c k
  simp [affineData, matX]

lemma maximises_affine (hn : 0 < n) {h : ℕ} {X : Fin n → Fin p → ℝ} {A : Matrix (Fin p) (Fin p) ℝ} (hA : IsUnit A.det) {b : Fin p → ℝ}
    {crit : (Fin n → Fin h → ℝ) → ℝ} (hcrit : ∀ z z', edist z = edist z' → crit z = crit z') {P : Matrix (Fin p) (Fin h) ℝ}
    (hP : MaximisesOver (covMat (affineData X A b)) (affineData X A b) crit P) : MaximisesOver (covMat X) X crit (A * P) := by
  obtain ⟨h1, h2⟩ := hP
  rw [covMat_affineData hn] at h1 h2
  have hcr : ∀ B : Matrix (Fin p) (Fin h) ℝ, crit (matX (affineData X A b) B) = crit (matX X (A * B)) := fun B => hcrit _ _ (edist_affineData X A b B)
  refine ⟨?_, ?_⟩
  · unfold OrthonormalIn at h1 ⊢
    rw [Matrix.transpose_mul, ← h1]
    simp only [Matrix.mul_assoc]
  · intro P' hP'
    have hAP : A * (A⁻¹ * P') = P' := by rw [← Matrix.mul_assoc, Matrix.mul_nonsing_inv A hA, Matrix.one_mul]
    have h3 := h2 (A⁻¹ * P') (by
      unfold OrthonormalIn at hP' ⊢
      rw [← hP']
      conv_rhs => rw [← hAP]
      rw [Matrix.transpose_mul A]
      simp only [Matrix.mul_assoc])
    change crit (matX (affineData X A b) (A⁻¹ * P')) ≤ crit (matX (affineData X A b) P) at h3
    rw [hcr, hcr, hAP] at h3
    exact h3

/-- C124 for dcov-sdr and mdd-sdr: when the solver finds global minimisers, the directions found in other coordinates are optimal directions of the
original problem. -/
theorem C124_optimal {ext : SdExt} (hr : IsRootInv ext.rootInv) {pr : SdParams} (hh : 0 < pr.nComp) (hw : pr.whiten = false)
    (hc : pr.center = .mean ∨ pr.scaleData = false) (ht : pr.trimming = 0) {X : Fin n → Fin p → ℝ} {y : Fin n → ℝ} {A : Matrix (Fin p) (Fin p) ℝ} (hA : IsUnit A.det)
    {b : Fin p → ℝ} {o : SdObj} {f : SdFit n p} (h : (SdObj.new pr).fit ext (affineData X A b) y = .ok (o, f)) :
    (pr.meth = .dcov →
      (∀ start args cons x, ext.solve .dcov start args cons = .ok x → IsMinimiser (dcovObjective .mean false args) cons SdCons.eval x) →
      MaximisesOver (covMat X) X (fun T => dcov2 T (fun i (_ : Fin 1) => y i)) (A * f.P)) ∧
    (pr.meth = .opt .mdd →
      (∀ start args cons x, ext.solve .mdd start args cons = .ok x → IsMinimiser (mddObjective .mean false args) cons SdCons.eval x) →
      MaximisesOver (covMat X) X (fun T => mdd2 T y) (A * f.P)) := by
  have hn : 0 < n := by
    obtain ⟨q, -, -, -, -, hq, -⟩ := SdObj.fit_ok h
    obtain ⟨-, -, hn, -⟩ := sdPre_ok hq
    omega
  constructor
  · intro hm hopt
    exact maximises_affine hn hA (fun z z' e => dcov2_edist z z' _ e) (C102_dcov_optimal hr hm hh hw hc ht hopt h)
  · intro hm hopt
    exact maximises_affine hn hA (fun z z' e => mdd2_edist z z' _ e) (C102_mdd_optimal hr hm hh hw hc ht hopt h)

/-! ### C122 for the methods based on optimisation -/

lemma mdd2_perm {h : ℕ} (σ : Equiv.Perm (Fin n)) (x : Fin n → Fin h → ℝ) (y : Fin n → ℝ) :
    mdd2 (fun i => x (σ i)) (fun i => y (σ i)) = mdd2 x y := by
  unfold mdd2
  have ha : avg (fun i => y (σ i)) = avg y := by
    unfold avg
    rw [Equiv.sum_comp σ y]
  rw [ha, Equiv.sum_comp σ (fun i => ∑ j, (y i - avg y) * (y (σ j) - avg y) * rowDist (x i) (x (σ j)))]
  congr 2
  exact Finset.sum_congr rfl fun i _ => Equiv.sum_comp σ (fun j => (y i - avg y) * (y j - avg y) * rowDist (x i) (x j))

/-- C122 for dcov-sdr and mdd-sdr: when the solver finds global minimisers, the directions found for the cases in another order are optimal directions of
the original problem. -/
theorem C122_optimal {ext : SdExt} (hr : IsRootInv ext.rootInv) {pr : SdParams} (hh : 0 < pr.nComp) (hw : pr.whiten = false)
    (hc : pr.center = .mean ∨ pr.scaleData = false) (ht : pr.trimming = 0) {X : Fin n → Fin p → ℝ} {y : Fin n → ℝ} (σ : Equiv.Perm (Fin n)) {o : SdObj} {f : SdFit n p}
    (h : (SdObj.new pr).fit ext (fun c => X (σ c)) (fun c => y (σ c)) = .ok (o, f)) :
    (pr.meth = .dcov →
      (∀ start args cons x, ext.solve .dcov start args cons = .ok x → IsMinimiser (dcovObjective .mean false args) cons SdCons.eval x) →
      MaximisesOver (covMat X) X (fun T => dcov2 T (fun i (_ : Fin 1) => y i)) f.P) ∧
    (pr.meth = .opt .mdd →
      (∀ start args cons x, ext.solve .mdd start args cons = .ok x → IsMinimiser (mddObjective .mean false args) cons SdCons.eval x) →
      MaximisesOver (covMat X) X (fun T => mdd2 T y) f.P) := by
  constructor
  · intro hm hopt
    obtain ⟨h1, h2⟩ := C102_dcov_optimal hr hm hh hw hc ht hopt h
    rw [covMat_perm] at h1 h2
    refine ⟨h1, fun P' hP' => ?_⟩
    have h3 := h2 P' hP'
    have e : ∀ B : Matrix (Fin p) (Fin f.h) ℝ, dcov2 (fun c j => ∑ k, X (σ c) k * B k j) (fun i (_ : Fin 1) => y (σ i)) =
        dcov2 (fun c j => ∑ k, X c k * B k j) (fun i (_ : Fin 1) => y i) := fun B =>
      dcov2_perm σ (fun c j => ∑ k, X c k * B k j) (fun i (_ : Fin 1) => y i)
    simpa only [e] using h3
  · intro hm hopt
    obtain ⟨h1, h2⟩ := C102_mdd_optimal hr hm hh hw hc ht hopt h
    rw [covMat_perm] at h1 h2
    refine ⟨h1, fun P' hP' => ?_⟩
    have h3 := h2 P' hP'
    have e : ∀ B : Matrix (Fin p) (Fin f.h) ℝ, mdd2 (fun c j => ∑ k, X (σ c) k * B k j) (fun c => y (σ c)) = mdd2 (fun c j => ∑ k, X c k * B k j) y := fun B =>
      mdd2_perm σ (fun c j => ∑ k, X c k * B k j) y
    simpa only [e] using h3

/-! ### A case that meets the hypotheses -/

lemma eigenGap_diag {a c : ℝ} (hac : c < a) : EigenGap (Matrix.diagonal ![a, c]) 1 := by
  intro ev V hV hM hanti i j hi hj
  have hi0 : i = 0 := by apply Fin.ext; simp only [Fin.val_zero]; omega
  have hj1 : j = 1 := by apply Fin.ext; have := j.2; simp only [Fin.val_one]; omega
  subst hi0 hj1
  refine lt_of_le_of_ne (hanti (by decide)) ?_
  intro he
  have hd : Matrix.diagonal ev = ev 0 • (1 : Matrix (Fin 2) (Fin 2) ℝ) := by
    ext k l
    fin_cases k <;> fin_cases l <;> simp [he]
  have hV' : V * V.transpose = 1 := mul_eq_one_comm.mp hV
  have : Matrix.diagonal ![a, c] = ev 0 • (1 : Matrix (Fin 2) (Fin 2) ℝ) := by
    calc Matrix.diagonal ![a, c] = Matrix.diagonal ![a, c] * V * V.transpose := by rw [Matrix.mul_assoc, hV', Matrix.mul_one]
      _ = ev 0 • (1 : Matrix (Fin 2) (Fin 2) ℝ) := by rw [hM, hd, Matrix.mul_smul, Matrix.mul_one, Matrix.smul_mul, hV']
  have h0 := congrFun (congrFun this 0) 0
  have h1 := congrFun (congrFun this 1) 1
  simp at h0 h1
  linarith

/-- Iterative Hessian transformations with one component, standardised data. -/
def ihtParams : SdParams where
  meth := .iht
  nComp := 1
  trimming := 0
  centerData := true
  center := .mean
  scaleData := true
  whiten := false
  nSlices := 2
  copy := true
  continuous := true
  returnScaling := false

/-- A response that depends on the first predictor. -/
def sixFirst : Fin 6 → ℝ := ![1, -1, 0, 0, 0, 0]

lemma sixFirst_mean : mean sixFirst = 0 := by
  rw [mean_eq]
  simp [Fin.sum_univ_six, sixFirst]

lemma six_std (a : ℝ) (k : ℝ) : stdData true (sixX a) (k • 1) = sixX (a * k) := by
  unfold stdData
  rw [sixX_centre]
  funext c j
  simp only [matX, Matrix.smul_apply, Matrix.one_apply, smul_eq_mul]
  fin_cases c <;> fin_cases j <;> simp [sixX]

lemma six_covXY (a : ℝ) : covXY (sixX a) sixFirst = ![2 * a / 5, 0] := by
  funext j
  simp only [covXY, sixX_mean, sixFirst_mean, sub_zero]
  fin_cases j <;> simp [Fin.sum_univ_six, sixX, sixFirst] <;> ring

lemma six_determined {a : ℝ} (ha : a ≠ 0) : SubspaceDetermined ihtParams (sixX a) sixFirst := by
  have hpos : 0 < 2 * a ^ 2 / 5 := by positivity
  refine ⟨(1 / Real.sqrt (2 * a ^ 2 / 5)) • 1, _, ?_, ?_, rfl, ?_⟩
  · rw [Matrix.transpose_smul, Matrix.transpose_one]
  · rw [sixX_cov, Matrix.smul_mul, Matrix.one_mul, Matrix.smul_mul, Matrix.mul_smul, Matrix.mul_one, smul_smul, smul_smul]
    have hs := Real.sqrt_pos.mpr hpos
    have hm := Real.mul_self_sqrt hpos.le
    have : 1 / Real.sqrt (2 * a ^ 2 / 5) * (1 / Real.sqrt (2 * a ^ 2 / 5)) * (2 * a ^ 2 / 5) = 1 := by
      field_simp
      nlinarith [hm]
    rw [this, one_smul]
  · simp only [ihtParams]
    rw [six_std, six_covXY]
    set v := 2 * (a * (1 / Real.sqrt (2 * a ^ 2 / 5))) / 5 with hv
    have hv0 : v ≠ 0 := by
      have hs := (Real.sqrt_pos.mpr hpos).ne'
      rw [hv]
      positivity
    have : (((2 : ℕ) : ℝ) • outer ![v, 0] : Matrix (Fin 2) (Fin 2) ℝ) = Matrix.diagonal ![2 * (v * v), 0] := by
      ext j k
      fin_cases j <;> fin_cases k <;> simp [outer]
    rw [this]
    exact eigenGap_diag (by have := mul_self_pos.mpr hv0; linarith)

lemma six_iht_fit {eigh : Eigh} (he : IsEigh eigh) {a : ℝ} (ha : a ≠ 0) (X : Fin 6 → Fin 2 → ℝ) (hX : covMat X = (2 * a ^ 2 / 5 : ℝ) • 1) (y : Fin 6 → ℝ) :
    ∃ o f, (SdObj.new ihtParams).fit (exExt eigh) X y = .ok (o, f) := by
  have hpos : 0 < 2 * a ^ 2 / 5 := by positivity
  have hroot : (exExt eigh).rootInv (covMat X) = .ok ((1 / Real.sqrt (2 * a ^ 2 / 5)) • 1) := by
    rw [hX]
    exact invSqrt_const he hpos
  have hri : IsRootInv (exExt eigh).rootInv := fun A N hA h => invSqrt_spec he hA h
  have hq : ∃ q, sdPre (exExt eigh) ihtParams X = .ok q ∧ q.N2 = (1 / Real.sqrt (2 * a ^ 2 / 5)) • 1 := by
    rw [sdPre, if_neg (by decide), if_neg (by norm_num), hroot]
    dsimp only
    rw [if_neg]
    · exact ⟨_, rfl, rfl⟩
    · rw [not_not]
      refine ⟨le_rfl, ?_, Or.inl rfl⟩
      simp only [ihtParams]
      norm_num
  obtain ⟨q, hq, hN2⟩ := hq
  have h1 := (sdPre_cov hri (pr := ihtParams) rfl rfl rfl hq).1
  obtain ⟨B, hBB, key⟩ : ∃ B : Matrix (Fin 2) (Fin 1) ℝ, B.transpose * B = 1 ∧
      sdDirections (exExt eigh) ihtParams ((SdObj.new ihtParams).state.setX0 ihtParams.copy X) q y =
        .ok (⟨1, q.N2 * B⟩, (SdObj.new ihtParams).state.setX0 ihtParams.copy X) := by
    refine ⟨leading eigh ((((2 : ℕ) : ℝ)) • outer (covXY (sdrCentre true q.Xs) y)) 1, leading_orth he (by rw [Matrix.transpose_smul, outer_symm]) 1, ?_⟩
    rw [sdDirections_std (pr := ihtParams) he trivial rfl _ h1 (by norm_num) (by norm_num)]
    rfl
  have hs := (Real.sqrt_pos.mpr hpos).ne'
  have hdet : IsUnit ((q.N2 * B).transpose * (q.N2 * B)).det := by
    rw [hN2, Matrix.smul_mul, Matrix.one_mul, Matrix.transpose_smul, Matrix.smul_mul, Matrix.mul_smul, hBB, smul_smul, Matrix.det_smul, Matrix.det_one,
      mul_one]
    exact (isUnit_iff_ne_zero.mpr (by positivity))
  have hpm : projMat (q.N2 * B) = .ok ((q.N2 * B) * ((q.N2 * B).transpose * (q.N2 * B))⁻¹ * (q.N2 * B).transpose) := by
    unfold projMat
    rw [if_pos hdet]
  unfold SdObj.fit
  have hwp : (SdObj.new ihtParams).params.whitened = ihtParams := rfl
  dsimp only
  rw [hwp, hq]
  dsimp only
  rw [key]
  dsimp only
  rw [hpm]
  dsimp only
  have e2 : ((SdObj.new ihtParams).state.setX0 ihtParams.copy X).x0 = some ⟨6, 2, X⟩ := rfl
  rw [e2, sdScores_self]
  dsimp only
  rw [if_neg (by simp [ihtParams])]
  exact ⟨_, _, rfl⟩

/-- Two sets of coordinates that meet the hypotheses of C124: the axes are exchanged, stretched and shifted. -/
example : ∃ (ext : SdExt) (A : Matrix (Fin 2) (Fin 2) ℝ) (b : Fin 2 → ℝ), IsEigh ext.eigh ∧ IsRootInv ext.rootInv ∧ A ≠ 1 ∧ b ≠ 0 ∧
    ihtParams.meth.direct ∧ SubspaceDetermined ihtParams (sixX 1) sixFirst ∧
    (∃ o f, (SdObj.new ihtParams).fit ext (sixX 1) sixFirst = .ok (o, f)) ∧
    ∃ o f, (SdObj.new ihtParams).fit ext (affineData (sixX 1) A b) sixFirst = .ok (o, f) := by
  obtain ⟨eigh, he⟩ := exists_eigh
  refine ⟨exExt eigh, !![0, 2; 2, 0], ![1, 3], he, fun A N hA h => invSqrt_spec he hA h, ?_, ?_, trivial, six_determined one_ne_zero,
    six_iht_fit he one_ne_zero _ (sixX_cov 1) _, six_iht_fit he two_ne_zero _ ?_ _⟩
  · intro h
    have := congrFun (congrFun h 0) 0
    simp at this
  · intro h
    have := congrFun h 0
    simp at this
  · rw [covMat_affineData (by norm_num), sixX_cov]
    ext j k
    fin_cases j <;> fin_cases k <;> simp [Matrix.mul_apply, Fin.sum_univ_two] <;> norm_num

end Direpack
