import Mathlib.Analysis.Matrix.Spectrum
import Verif.Props.Slicing

/-! Properties C89 to C91: the directions found by the slicing and moment methods. -/

namespace Direpack

open scoped BigOperators
open Spec

variable {n p : ℕ}

/-! ### The eigenvalue routine -/

/-- The assumption on the eigenvalue routine can be met. -/
theorem exists_eigh : ∃ eigh : Eigh, IsEigh eigh := by
  have key : ∀ {p : ℕ} (A : Matrix (Fin p) (Fin p) ℝ), A.transpose = A →
      ∃ ev : (Fin p → ℝ) × Matrix (Fin p) (Fin p) ℝ, A * ev.2 = ev.2 * Matrix.diagonal ev.1 ∧ ev.2.transpose * ev.2 = 1 ∧ Monotone ev.1 := by
    intro p A hA
    have hH : A.IsHermitian := by
      unfold Matrix.IsHermitian
      rw [Matrix.conjTranspose_eq_transpose_of_trivial]; exact hA
    set σ := Tuple.sort hH.eigenvalues with hσ
    refine ⟨(hH.eigenvalues ∘ σ, Matrix.of fun k j => hH.eigenvectorBasis (σ j) k), ?_, ?_, Tuple.monotone_sort hH.eigenvalues⟩
    · ext k j
      have h := congrFun (hH.mulVec_eigenvectorBasis (σ j)) k
      rw [Matrix.mul_diagonal]
      simp only [Matrix.of_apply, Function.comp]
      rw [Matrix.mul_apply]
      simp only [Matrix.mulVec, dotProduct, Pi.smul_apply, smul_eq_mul] at h
      simp only [Matrix.of_apply]
      rw [mul_comm]
      exact h
    · ext j k
      rw [Matrix.mul_apply]
      have h := orthonormal_iff_ite.mp hH.eigenvectorBasis.orthonormal (σ k) (σ j)
      simp only [Matrix.transpose_apply, Matrix.of_apply]
      rw [PiLp.inner_apply] at h
      simp only [RCLike.inner_apply, conj_trivial] at h
      rw [h, Matrix.one_apply]
      simp [eq_comm]
  classical
  refine ⟨fun {p} A => if hA : A.transpose = A then (key A hA).choose else (0, 0), ?_, ?_, ?_⟩
  · intro p A hA
    simp only [dif_pos hA]
    exact (key A hA).choose_spec.1
  · intro p A hA
    simp only [dif_pos hA]
    exact (key A hA).choose_spec.2.1
  · intro p A hA
    simp only [dif_pos hA]
    exact (key A hA).choose_spec.2.2

lemma _root_.Direpack.Spec.IsEigh.orth' {eigh : Eigh} (he : IsEigh eigh) (A : Matrix (Fin p) (Fin p) ℝ) (hA : A.transpose = A) :
    (eigh A).2 * (eigh A).2.transpose = 1 := mul_eq_one_comm.mp (he.orth A hA)

/-- `A = V diag λ Vᵀ`. -/
lemma _root_.Direpack.Spec.IsEigh.eq {eigh : Eigh} (he : IsEigh eigh) (A : Matrix (Fin p) (Fin p) ℝ) (hA : A.transpose = A) :
    A = (eigh A).2 * Matrix.diagonal (eigh A).1 * (eigh A).2.transpose := by
  rw [← he.decomp A hA, Matrix.mul_assoc, he.orth' A hA, Matrix.mul_one]

lemma covMat_symm (X : Fin n → Fin p → ℝ) : (covMat X).transpose = covMat X := by
  ext j k
  simp only [covMat, Matrix.transpose_apply, Matrix.of_apply]
  congr 1
  exact Finset.sum_congr rfl fun c _ => mul_comm _ _

/-- `matpower(A, -0.5)` is a symmetric matrix `S` with `S A S = 1`. -/
lemma invSqrt_spec {eigh : Eigh} (he : IsEigh eigh) {A S : Matrix (Fin p) (Fin p) ℝ} (hA : A.transpose = A) (h : invSqrt eigh A = .ok S) :
    S.transpose = S ∧ S * A * S = 1 := by
  have hA2 : (1 / 2 : ℝ) • (A + A.transpose) = A := by
    rw [hA, ← two_smul ℝ A, smul_smul]; norm_num
  unfold invSqrt at h
  rw [hA2] at h
  dsimp only at h
  split at h
  · rename_i hpos
    cases h
    set V := (eigh A).2 with hV
    set D := Matrix.diagonal (fun j => 1 / Real.sqrt ((eigh A).1 j)) with hD
    constructor
    · rw [Matrix.transpose_mul, Matrix.transpose_mul, Matrix.transpose_transpose, hD, Matrix.diagonal_transpose, Matrix.mul_assoc]
    · have h1 := he.decomp A hA
      have h2 := he.orth A hA
      have h3 := he.orth' A hA
      rw [← hV] at h1 h2 h3
      have hDD : D * (Matrix.diagonal (eigh A).1 * D) = 1 := by
        rw [hD, Matrix.diagonal_mul_diagonal, Matrix.diagonal_mul_diagonal, ← Matrix.diagonal_one]
        congr 1
        funext j
        have hs := Real.sqrt_pos.mpr (hpos j)
        have hm := Real.mul_self_sqrt (hpos j).le
        field_simp
        linarith [hm, pow_two (Real.sqrt ((eigh A).1 j))]
      calc V * D * V.transpose * A * (V * D * V.transpose)
          = V * D * V.transpose * (A * V) * D * V.transpose := by simp only [Matrix.mul_assoc]
        _ = V * D * (V.transpose * V) * (Matrix.diagonal (eigh A).1 * D) * V.transpose := by rw [h1]; simp only [Matrix.mul_assoc]
        _ = V * (D * (Matrix.diagonal (eigh A).1 * D)) * V.transpose := by rw [h2, Matrix.mul_one]; simp only [Matrix.mul_assoc]
        _ = 1 := by rw [hDD, Matrix.mul_one, h3]
  · exact absurd h (by simp)

/-! ### Leading eigenvectors -/

lemma descIdx_injective (v : Fin p → ℝ) : Function.Injective (descIdx v) := by
  intro i j h
  unfold descIdx at h
  exact Fin.rev_injective ((Tuple.sort v).injective h)

lemma descIdx_surjective (v : Fin p → ℝ) : Function.Surjective (descIdx v) := Finite.surjective_of_injective (descIdx_injective v)

/-- Later positions have smaller values. -/
lemma descIdx_anti (v : Fin p → ℝ) : Antitone (v ∘ descIdx v) := by
  intro i j h
  have := Tuple.monotone_sort v (Fin.rev_le_rev.mpr h)
  exact this

lemma leading_orth {eigh : Eigh} (he : IsEigh eigh) {M : Matrix (Fin p) (Fin p) ℝ} (hM : M.transpose = M) (d : ℕ) :
    (leading eigh M d).transpose * leading eigh M d = 1 := by
  ext j k
  have h := congrFun (congrFun (he.orth M hM) (descIdx (eigh M).1 (Fin.castLE (min_le_right d p) j)))
    (descIdx (eigh M).1 (Fin.castLE (min_le_right d p) k))
  rw [Matrix.mul_apply] at h ⊢
  simp only [Matrix.transpose_apply] at h
  simp only [leading, Matrix.transpose_apply, Matrix.of_apply]
  rw [h, Matrix.one_apply, Matrix.one_apply]
  have : descIdx (eigh M).1 (Fin.castLE (min_le_right d p) j) = descIdx (eigh M).1 (Fin.castLE (min_le_right d p) k) ↔ j = k := by
    constructor
    · intro h
      have := descIdx_injective _ h
      simpa [Fin.ext_iff] using this
    · rintro rfl; rfl
  simp only [this]

/-- The quadratic form in the coordinates of the eigenvectors. -/
lemma quad_eig {eigh : Eigh} (he : IsEigh eigh) {M : Matrix (Fin p) (Fin p) ℝ} (hM : M.transpose = M) (c : Fin p → ℝ) :
    quad M c = ∑ j, (eigh M).1 j * ((eigh M).2.transpose.mulVec c j) ^ 2 := by
  have h := quad_diag_gram (eigh M).2.transpose (eigh M).1 c
  rw [Matrix.transpose_transpose, ← he.eq M hM] at h
  exact h

lemma sumsq_eig {eigh : Eigh} (he : IsEigh eigh) {M : Matrix (Fin p) (Fin p) ℝ} (hM : M.transpose = M) (c : Fin p → ℝ) :
    ∑ j, ((eigh M).2.transpose.mulVec c j) ^ 2 = ∑ j, c j ^ 2 := by
  rw [← quad_gram, Matrix.transpose_transpose, he.orth' M hM]
  unfold quad
  refine Finset.sum_congr rfl fun j _ => ?_
  rw [Finset.sum_eq_single j]
  · simp [pow_two]
  · intro k _ hk; simp [hk.symm]
  · simp

/-- The coordinates of an eigenvector. -/
lemma leading_coord {eigh : Eigh} (he : IsEigh eigh) {M : Matrix (Fin p) (Fin p) ℝ} (hM : M.transpose = M) {d : ℕ} (k : Fin (min d p)) (j : Fin p) :
    (eigh M).2.transpose.mulVec (fun i => leading eigh M d i k) j =
      if j = descIdx (eigh M).1 (Fin.castLE (min_le_right d p) k) then 1 else 0 := by
  have h := congrFun (congrFun (he.orth M hM) j) (descIdx (eigh M).1 (Fin.castLE (min_le_right d p) k))
  rw [Matrix.mul_apply, Matrix.one_apply] at h
  rw [← h]
  rfl

/-- Column `k` maximises the quadratic form among unit vectors orthogonal to the earlier columns. -/
lemma leading_max {eigh : Eigh} (he : IsEigh eigh) {M : Matrix (Fin p) (Fin p) ℝ} (hM : M.transpose = M) {d : ℕ} (k : Fin (min d p))
    (c : Fin p → ℝ) (hc : ∑ j, c j ^ 2 = 1) (ho : ∀ l, l < k → ∑ j, leading eigh M d j l * c j = 0) :
    quad M c ≤ quad M (fun i => leading eigh M d i k) := by
  set q := descIdx (eigh M).1 (Fin.castLE (min_le_right d p) k) with hq
  have h1 : quad M (fun i => leading eigh M d i k) = (eigh M).1 q := by
    rw [quad_eig he hM, Finset.sum_eq_single q]
    · rw [leading_coord he hM, if_pos hq]; simp
    · intro j _ hj
      rw [leading_coord he hM, if_neg hj]; simp
    · simp
  rw [h1, quad_eig he hM]
  have h2 : ∀ j, (eigh M).1 j * ((eigh M).2.transpose.mulVec c j) ^ 2 ≤ (eigh M).1 q * ((eigh M).2.transpose.mulVec c j) ^ 2 := by
    intro j
    obtain ⟨m, rfl⟩ := descIdx_surjective (eigh M).1 j
    rcases lt_or_ge m (Fin.castLE (min_le_right d p) k) with hm | hm
    · have hm' : m.1 < min d p := lt_trans hm k.2
      have h0 := ho ⟨m.1, hm'⟩ hm
      have : (eigh M).2.transpose.mulVec c (descIdx (eigh M).1 m) = 0 := by
        rw [← h0]; rfl
      rw [this]; simp
    · exact mul_le_mul_of_nonneg_right (descIdx_anti _ hm) (sq_nonneg _)
  calc ∑ j, (eigh M).1 j * ((eigh M).2.transpose.mulVec c j) ^ 2
      ≤ ∑ j, (eigh M).1 q * ((eigh M).2.transpose.mulVec c j) ^ 2 := Finset.sum_le_sum fun j _ => h2 j
    _ = (eigh M).1 q := by rw [← Finset.mul_sum, sumsq_eig he hM, hc, mul_one]

/-! ### Directions -/

/-- The metric in which the directions are orthonormal. -/
noncomputable def sdrMetric (scale : Bool) (X : Fin n → Fin p → ℝ) : Matrix (Fin p) (Fin p) ℝ := if scale then covMat X else 1

lemma sdrRoot_spec {eigh : Eigh} (he : IsEigh eigh) {scale : Bool} {X : Fin n → Fin p → ℝ} {S : Matrix (Fin p) (Fin p) ℝ}
    (h : sdrRoot eigh scale X = .ok S) :
    S.transpose = S ∧ S * sdrMetric scale X * S = 1 ∧ (∀ {d : ℕ} (B : Matrix (Fin p) (Fin d) ℝ), sdrBack scale S B = S * B) ∧
      ∀ Y : Fin n → Fin p → ℝ, sdrScale scale Y S = fun c j => ∑ k, Y c k * S k j := by
  cases scale with
  | false =>
    simp only [sdrRoot, Bool.false_eq_true, if_false, Except.ok.injEq] at h
    subst h
    refine ⟨Matrix.transpose_one, ?_, ?_, ?_⟩
    · simp [sdrMetric]
    · intro d B; simp [sdrBack]
    · intro Y
      funext c j
      simp [sdrScale, Matrix.one_apply]
  | true =>
    simp only [sdrRoot, if_true] at h
    obtain ⟨h1, h2⟩ := invSqrt_spec he (covMat_symm X) h
    exact ⟨h1, h2, fun B => rfl, fun Y => rfl⟩

lemma back_orth {A S : Matrix (Fin p) (Fin p) ℝ} {d : ℕ} {B : Matrix (Fin p) (Fin d) ℝ} (hS : S.transpose = S) (hA : S * A * S = 1)
    (hB : B.transpose * B = 1) : OrthonormalIn A (S * B) := by
  unfold OrthonormalIn
  rw [Matrix.transpose_mul, hS]
  calc B.transpose * S * A * (S * B) = B.transpose * (S * A * S) * B := by simp only [Matrix.mul_assoc]
    _ = 1 := by rw [hA, Matrix.mul_one, hB]

lemma sliceMethod_ok {m : SdrMethod} {eigh : Eigh} {X : Fin n → Fin p → ℝ} {y : Fin n → ℝ} {s d : ℕ} {cont center scale : Bool}
    {B : Matrix (Fin p) (Fin (min d p)) ℝ} (h : sliceMethod m eigh X y s d cont center scale = .ok B) :
    ∃ S yd lab, sdrRoot eigh scale X = .ok S ∧ sliceResponse cont y s = .ok yd ∧ sliceLabels yd s = .ok lab ∧
      B = sdrBack scale S (leading eigh (m.kernel (sdrScale scale (sdrCentre center X) S) yd lab) d) := by
  rw [sliceMethod] at h
  by_cases h1 : n < 2 ∨ p < 2
  · rw [if_pos h1] at h; exact absurd h (by simp)
  · rw [if_neg h1] at h
    cases hS : sdrRoot eigh scale X with
    | error e => rw [hS] at h; exact absurd h (by simp)
    | ok S =>
      rw [hS] at h
      dsimp only at h
      cases hy : sliceResponse cont y s with
      | error e => rw [hy] at h; exact absurd h (by simp)
      | ok yd =>
        rw [hy] at h
        dsimp only at h
        cases hl : sliceLabels yd s with
        | error e => rw [hl] at h; exact absurd h (by simp)
        | ok lab =>
          rw [hl] at h
          dsimp only at h
          by_cases hs : s = 0 ∧ m ≠ .save
          · rw [if_pos hs] at h; exact absurd h (by simp)
          · rw [if_neg hs] at h
            exact ⟨S, yd, lab, rfl, rfl, hl, (Except.ok.inj h).symm⟩

/-- C89: the directions of SIR, SAVE and DR are orthonormal, in the metric of the covariance matrix of the data when the data are scaled. -/
theorem C89_slicing {eigh : Eigh} (he : IsEigh eigh) (m : SdrMethod) (X : Fin n → Fin p → ℝ) (y : Fin n → ℝ) (s d : ℕ) (cont center scale : Bool)
    (B : Matrix (Fin p) (Fin (min d p)) ℝ) (h : sliceMethod m eigh X y s d cont center scale = .ok B) :
    OrthonormalIn (if scale then covMat X else 1) B := by
  obtain ⟨S, yd, lab, hS, -, -, rfl⟩ := sliceMethod_ok h
  obtain ⟨h1, h2, h3, -⟩ := sdrRoot_spec he hS
  rw [h3]
  exact back_orth h1 h2 (leading_orth he (kernel_symm ..) d)

lemma phdMat_symm (X : Fin n → Fin p → ℝ) (y : Fin n → ℝ) : (phdMat X y).transpose = phdMat X y := by
  ext j k
  simp only [phdMat, Matrix.transpose_apply, Matrix.of_apply]
  congr 1
  exact Finset.sum_congr rfl fun c _ => by ring

/-- C89 for principal Hessian directions. -/
theorem C89_phd {eigh : Eigh} (he : IsEigh eigh) (X : Fin n → Fin p → ℝ) (y : Fin n → ℝ) (d : ℕ) (center scale : Bool)
    (B : Matrix (Fin p) (Fin (min d p)) ℝ) (h : phd eigh X y d center scale = .ok B) : OrthonormalIn (if scale then covMat X else 1) B := by
  rw [phd] at h
  by_cases h1 : n < 2 ∨ p < 2
  · rw [if_pos h1] at h; exact absurd h (by simp)
  · rw [if_neg h1] at h
    cases hS : sdrRoot eigh scale X with
    | error e => rw [hS] at h; exact absurd h (by simp)
    | ok S =>
      rw [hS] at h
      cases h
      obtain ⟨h1, h2, h3, -⟩ := sdrRoot_spec he hS
      rw [h3]
      exact back_orth h1 h2 (leading_orth he (phdMat_symm ..) d)

/-- C89 for iterative Hessian transformations. -/
theorem C89_iht {eigh : Eigh} (he : IsEigh eigh) (X : Fin n → Fin p → ℝ) (y : Fin n → ℝ) (d : ℕ) (center scale : Bool)
    (B : Matrix (Fin p) (Fin (min d p)) ℝ) (h : iht eigh X y d center scale = .ok B) : OrthonormalIn (if scale then covMat X else 1) B := by
  rw [iht] at h
  by_cases h1 : n < 2 ∨ p < 2
  · rw [if_pos h1] at h; exact absurd h (by simp)
  · rw [if_neg h1] at h
    cases hS : sdrRoot eigh scale X with
    | error e => rw [hS] at h; exact absurd h (by simp)
    | ok S =>
      rw [hS] at h
      cases h
      obtain ⟨h1, h2, h3, -⟩ := sdrRoot_spec he hS
      rw [h3]
      refine back_orth h1 h2 (leading_orth he ?_ d)
      rw [Matrix.transpose_mul, Matrix.transpose_transpose]

/-! ### Optimality of SIR -/

lemma sliceMean_lin (X : Fin n → Fin p → ℝ) (y : Fin n → ℝ) (a : ℝ) (v : Fin p → ℝ) :
    ∑ j, sliceMean X y a j * v j = (∑ c ∈ inSlice y a, ∑ j, X c j * v j) / (inSlice y a).card := by
  unfold sliceMean
  rw [Finset.sum_comm, Finset.sum_div]
  refine Finset.sum_congr rfl fun j _ => ?_
  rw [div_mul_eq_mul_div, Finset.sum_mul]

lemma quad_sir {s : ℕ} (X : Fin n → Fin p → ℝ) (y : Fin n → ℝ) (lab : Fin s → ℝ) (v : Fin p → ℝ) :
    quad (sirMat X y lab) v = betweenSlices X y lab v := by
  rw [C62_sir_between]
  unfold betweenSlices
  refine Finset.sum_congr rfl fun i _ => ?_
  rw [sliceMean_lin]
  rfl

lemma between_scale {s : ℕ} (X : Fin n → Fin p → ℝ) (S : Matrix (Fin p) (Fin p) ℝ) (y : Fin n → ℝ) (lab : Fin s → ℝ) (v : Fin p → ℝ) :
    betweenSlices (fun c j => ∑ k, X c k * S k j) y lab v = betweenSlices X y lab (S.mulVec v) := by
  unfold betweenSlices
  refine Finset.sum_congr rfl fun i _ => ?_
  congr 3
  refine Finset.sum_congr rfl fun c _ => ?_
  unfold Matrix.mulVec dotProduct
  simp only [Finset.mul_sum, Finset.sum_mul]
  rw [Finset.sum_comm]
  exact Finset.sum_congr rfl fun j _ => Finset.sum_congr rfl fun k _ => by ring

lemma bilin_eq (A : Matrix (Fin p) (Fin p) ℝ) (u v : Fin p → ℝ) : bilin A u v = u ⬝ᵥ A.mulVec v := by
  unfold bilin dotProduct Matrix.mulVec dotProduct
  refine Finset.sum_congr rfl fun j _ => ?_
  rw [Finset.mul_sum]
  exact Finset.sum_congr rfl fun k _ => by ring

lemma sdrCentre_eq (center : Bool) (X : Fin n → Fin p → ℝ) : sdrCentre center X = centredData center X := by
  funext c j
  cases center <;> simp [sdrCentre, centredData, mean, meanL, List.sum_ofFn]

/-- C90: the directions of SIR maximise, one after another, the variation between the slices: column `k` does so among all directions of unit
length in the metric (the covariance matrix of the data when they are scaled) that are orthogonal in that metric to the columns before. -/
theorem C90_sir_optimal {eigh : Eigh} (he : IsEigh eigh) (X : Fin n → Fin p → ℝ) (y : Fin n → ℝ) (s d : ℕ) (cont center scale : Bool)
    (B : Matrix (Fin p) (Fin (min d p)) ℝ) (h : sliceMethod .sir eigh X y s d cont center scale = .ok B) :
    ∃ yd lab, sliceResponse cont y s = .ok yd ∧ sliceLabels yd s = .ok lab ∧
      ∀ (k : Fin (min d p)) (b : Fin p → ℝ), quad (if scale then covMat X else 1) b = 1 →
        (∀ l, l < k → bilin (if scale then covMat X else 1) (fun i => B i l) b = 0) →
        betweenSlices (centredData center X) yd lab b ≤ betweenSlices (centredData center X) yd lab (fun i => B i k) := by
  simp only [← sdrCentre_eq]
  obtain ⟨S, yd, lab, hS, hy, hl, rfl⟩ := sliceMethod_ok h
  refine ⟨yd, lab, hy, hl, ?_⟩
  obtain ⟨h1, h2, h3, h4⟩ := sdrRoot_spec he hS
  intro k b hb ho
  rw [h3] at ho ⊢
  rw [h4] at ho ⊢
  change quad (sdrMetric scale X) b = 1 at hb
  change ∀ l, l < k → bilin (sdrMetric scale X) _ b = 0 at ho
  set A := sdrMetric scale X with hAdef
  set M := SdrMethod.sir.kernel (fun c j => ∑ k, sdrCentre center X c k * S k j) yd lab with hM
  set c := (A * S).mulVec b with hc
  have hSA : S * (A * S) = 1 := by rw [← Matrix.mul_assoc]; exact h2
  have hbS : b = S.mulVec c := by rw [hc, Matrix.mulVec_mulVec, hSA, Matrix.one_mulVec]
  have hMs : M.transpose = M := kernel_symm ..
  have hq : ∀ v, quad M v = betweenSlices (sdrCentre center X) yd lab (S.mulVec v) := by
    intro v
    rw [← between_scale, ← quad_sir]
    rfl
  have hcol : (fun i => (S * leading eigh M d) i k) = S.mulVec (fun i => leading eigh M d i k) := by
    funext i; rfl
  rw [hcol, ← hq]
  conv_lhs => rw [hbS, ← hq]
  have hSASv : ∀ v, A.mulVec (S.mulVec v) = (A * S).mulVec v := fun v => Matrix.mulVec_mulVec ..
  have hmove : ∀ u v, bilin A (S.mulVec u) (S.mulVec v) = u ⬝ᵥ v := by
    intro u v
    have e : S.mulVec u = Matrix.vecMul u S := by rw [← Matrix.vecMul_transpose, h1]
    rw [bilin_eq, e, ← Matrix.dotProduct_mulVec, Matrix.mulVec_mulVec, Matrix.mulVec_mulVec, h2, Matrix.one_mulVec]
  refine leading_max he hMs k c ?_ ?_
  · have := hmove c c
    rw [← hbS] at this
    have e : quad A b = bilin A b b := rfl
    rw [e, this] at hb
    rw [← hb]
    exact Finset.sum_congr rfl fun j _ => pow_two _
  · intro l hlk
    have h5 := ho l hlk
    have e : (fun i => (S * leading eigh M d) i l) = S.mulVec (fun i => leading eigh M d i l) := by funext i; rfl
    rw [e, hbS, hmove] at h5
    exact h5

end Direpack
