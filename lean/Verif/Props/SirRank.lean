import Mathlib.LinearAlgebra.Matrix.Rank
import Verif.Props.Lda

/-! Property C184: sliced inverse regression with `s` slices has at most `s - 1` informative directions; they contain all the information in the slice means and nothing else. -/

namespace Direpack

open scoped BigOperators
open Matrix Spec

variable {n p s : ℕ}

/-- A matrix with a nonzero vector in its kernel does not have full rank. -/
lemma rank_lt_of_kernel (A : Matrix (Fin p) (Fin s) ℝ) (v : Fin s → ℝ) (hv : v ≠ 0) (h : A *ᵥ v = 0) : A.rank < s := by
  have h1 := LinearMap.finrank_range_add_finrank_ker A.mulVecLin
  rw [Module.finrank_fin_fun] at h1
  have h2 : 0 < Module.finrank ℝ (LinearMap.ker A.mulVecLin) := by
    rw [Module.finrank_pos_iff]
    exact ⟨⟨⟨v, by simpa using h⟩, 0, fun h0 => hv (congrArg Subtype.val h0)⟩⟩
  unfold Matrix.rank
  omega

/-- The eigenvalues beyond the rank vanish. -/
lemma eig_zero_of_rank {eigh : Eigh} (he : IsEigh eigh) {M : Matrix (Fin p) (Fin p) ℝ} (hM : M.transpose = M) (hpsd : ∀ v, 0 ≤ quad M v) {r : ℕ} (hr : M.rank ≤ r)
    (j : Fin p) (hj : r ≤ j.1) : (eigh M).1 (descIdx (eigh M).1 j) = 0 := by
  by_contra hne
  have hnn : ∀ i, 0 ≤ (eigh M).1 i := by
    intro i
    have h1 := hpsd (fun k => (eigh M).2 k i)
    rw [quad_eig he hM] at h1
    have h2 : ∀ l, (eigh M).2.transpose.mulVec (fun k => (eigh M).2 k i) l = if l = i then 1 else 0 := by
      intro l
      have h := congrFun (congrFun (he.orth M hM) l) i
      rw [Matrix.mul_apply, Matrix.one_apply] at h
      rw [← h]
      rfl
    simp only [h2, ite_pow, one_pow, ne_eq, OfNat.ofNat_ne_zero, not_false_eq_true, zero_pow, mul_ite, mul_one, mul_zero, Finset.sum_ite_eq', Finset.mem_univ, if_true] at h1
    exact h1
  have hpos : ∀ i : Fin p, i ≤ j → (eigh M).1 (descIdx (eigh M).1 i) ≠ 0 := by
    intro i hi
    have h1 : (eigh M).1 (descIdx (eigh M).1 j) ≤ (eigh M).1 (descIdx (eigh M).1 i) := descIdx_anti (eigh M).1 hi
    have h2 := lt_of_le_of_ne (hnn (descIdx (eigh M).1 j)) (Ne.symm hne)
    exact (h2.trans_le h1).ne'
  have hdet : (eigh M).2.det ≠ 0 := by
    intro h0
    have := congrArg Matrix.det (he.orth M hM)
    rw [Matrix.det_mul, h0, mul_zero, Matrix.det_one] at this
    exact zero_ne_one this
  have hrank : M.rank = Fintype.card {i // (eigh M).1 i ≠ 0} := by
    classical
    conv_lhs => rw [he.eq M hM]
    rw [Matrix.rank_mul_eq_left_of_det_ne_zero _ _ (by rw [Matrix.det_transpose]; exact hdet), Matrix.rank_mul_eq_right_of_det_ne_zero _ _ hdet, Matrix.rank_diagonal]
  have hcard : j.1 + 1 ≤ Fintype.card {i // (eigh M).1 i ≠ 0} := by
    have := Fintype.card_le_of_injective (fun i : Fin (j.1 + 1) => (⟨descIdx (eigh M).1 ⟨i.1, by omega⟩, hpos _ (Fin.mk_le_of_le_val (by omega))⟩ : {i // (eigh M).1 i ≠ 0})) (by
      intro a b hab
      have h1 := congrArg Subtype.val hab
      have h2 := congrArg Fin.val (descIdx_injective _ h1)
      exact Fin.ext h2)
    rwa [Fintype.card_fin] at this
  omega

/-- The weighted slice means of centred data add up to zero. -/
lemma slice_means_zero {Z : Fin n → Fin p → ℝ} (hn : 0 < n) (hZ : ∀ j, ∑ c, Z c j = 0) {y : Fin n → ℝ} {lab : Fin s → ℝ} (hinj : Function.Injective lab)
    (hcov : ∀ c, ∃ i, y c = lab i) (hne : ∀ i, 0 < (casesWith y (lab i)).card) :
    (Matrix.of fun i => sliceMean Z y (lab i) : Matrix (Fin s) (Fin p) ℝ).transpose *ᵥ (fun i => sliceProb y (lab i)) = 0 := by
  funext j
  have hn' : (n : ℝ) ≠ 0 := by exact_mod_cast hn.ne'
  have h1 : ∀ i, sliceMean Z y (lab i) j * sliceProb y (lab i) = (∑ c ∈ casesWith y (lab i), Z c j) / n := by
    intro i
    have h0 : ((casesWith y (lab i)).card : ℝ) ≠ 0 := by exact_mod_cast (hne i).ne'
    change (∑ c ∈ casesWith y (lab i), Z c j) / (casesWith y (lab i)).card * ((casesWith y (lab i)).card / n) = _
    field_simp
  simp only [mulVec, dotProduct, transpose_apply, Matrix.of_apply, h1, Pi.zero_apply]
  rw [← Finset.sum_div, ← sum_slices (fun c => Z c j) hinj hcov, hZ, zero_div]

lemma sirMat_rank {Z : Fin n → Fin p → ℝ} (hn : 0 < n) (hZ : ∀ j, ∑ c, Z c j = 0) {y : Fin n → ℝ} {lab : Fin s → ℝ} (hinj : Function.Injective lab)
    (hcov : ∀ c, ∃ i, y c = lab i) (hne : ∀ i, 0 < (casesWith y (lab i)).card) : (sirMat Z y lab).rank ≤ s - 1 := by
  have hs : 0 < s := by
    obtain ⟨i, -⟩ := hcov ⟨0, hn⟩
    exact i.pos
  have h1 := rank_lt_of_kernel _ _ (by
    intro h0
    have h2 := congrFun h0 ⟨0, hs⟩
    have h3 : (0 : ℝ) < sliceProb y (lab ⟨0, hs⟩) := div_pos (by exact_mod_cast hne _) (by exact_mod_cast hn)
    exact h3.ne' h2) (slice_means_zero (p := p) hn hZ hinj hcov hne)
  have h2 : (sirMat Z y lab).rank ≤ (Matrix.of fun i => sliceMean Z y (lab i) : Matrix (Fin s) (Fin p) ℝ).transpose.rank := by
    have e : sirMat Z y lab = (Matrix.of fun i => sliceMean Z y (lab i) : Matrix (Fin s) (Fin p) ℝ).transpose *
        (Matrix.diagonal (fun i => sliceProb y (lab i)) * Matrix.of fun i => sliceMean Z y (lab i)) := Matrix.mul_assoc _ _ _
    rw [e]
    exact Matrix.rank_mul_le_left _ _
  have := h2.trans_lt h1
  omega

lemma centred_scaled_sum (X : Fin n → Fin p → ℝ) (hn : 0 < n) (S : Matrix (Fin p) (Fin p) ℝ) (j : Fin p) : ∑ c, ∑ k, centredData true X c k * S k j = 0 := by
  have hn' : (n : ℝ) ≠ 0 := by exact_mod_cast hn.ne'
  rw [Finset.sum_comm]
  refine Finset.sum_eq_zero fun k _ => ?_
  rw [← Finset.sum_mul]
  have : ∑ c, centredData true X c k = 0 := by
    simp only [centredData, if_true, Finset.sum_sub_distrib, Finset.sum_const, Finset.card_univ, Fintype.card_fin, nsmul_eq_mul]
    field_simp
    ring
  rw [this, zero_mul]

/-- What a run of SIR on centred data computes. -/
lemma sir_eig {eigh : Eigh} (he : IsEigh eigh) {X : Fin n → Fin p → ℝ} {y : Fin n → ℝ} {d : ℕ} {cont scale : Bool} (hs : SlicesCover cont y s)
    {B : Matrix (Fin p) (Fin (min d p)) ℝ} (h : sliceMethod .sir eigh X y s d cont true scale = .ok B) :
    ∃ (S : Matrix (Fin p) (Fin p) ℝ) (yd : Fin n → ℝ) (lab : Fin s → ℝ) (M : Matrix (Fin p) (Fin p) ℝ), S.transpose = S ∧ S * (if scale then covMat X else 1) * S = 1 ∧
      sliceResponse cont y s = .ok yd ∧ sliceLabels yd s = .ok lab ∧ M = sirMat (fun c j => ∑ k, centredData true X c k * S k j) yd lab ∧ M.transpose = M ∧
      (∀ v, betweenSS (scoresOf X (S *ᵥ v)) yd = n * quad M v) ∧ (∀ v, 0 ≤ quad M v) ∧ M.rank ≤ s - 1 ∧ B = S * leading eigh M d := by
  have hsz := (sliceMethod_size h).1
  have hn : 0 < n := by omega
  have hn' : (0 : ℝ) < n := by exact_mod_cast hn
  obtain ⟨S, yd, lab, hS, hy, hl, rfl⟩ := sliceMethod_ok h
  obtain ⟨h1, h2, h3, h4⟩ := sdrRoot_spec he hS
  obtain ⟨hinj, hcov, hne⟩ := cover_labels hn hs hy hl
  have hq : ∀ v, betweenSS (scoresOf X (S *ᵥ v)) yd = n * quad (sirMat (fun c j => ∑ k, centredData true X c k * S k j) yd lab) v := by
    intro v
    rw [quad_sir, between_scale, (lda_anova hsz hs hy hl X _).1]
  refine ⟨S, yd, lab, _, h1, h2, hy, hl, rfl, ?_, hq, ?_, ?_, ?_⟩
  · exact kernel_symm (m := .sir) ..
  · intro v
    have h5 := betweenSS_nonneg (scoresOf X (S *ᵥ v)) yd
    rw [hq] at h5
    exact nonneg_of_mul_nonneg_right h5 hn'
  · exact sirMat_rank hn (centred_scaled_sum X hn S) hinj hcov hne
  · rw [h3, h4, sdrCentre_eq]
    rfl

/-- The quadratic form at an eigenvector. -/
lemma quad_leading {eigh : Eigh} (he : IsEigh eigh) {M : Matrix (Fin p) (Fin p) ℝ} (hM : M.transpose = M) {d : ℕ} (k : Fin (min d p)) :
    quad M (fun i => leading eigh M d i k) = (eigh M).1 (descIdx (eigh M).1 (Fin.castLE (min_le_right d p) k)) := by
  set q := descIdx (eigh M).1 (Fin.castLE (min_le_right d p) k) with hq
  rw [quad_eig he hM, Finset.sum_eq_single q]
  · rw [leading_coord he hM, if_pos hq]; simp
  · intro j _ hj
    rw [leading_coord he hM, if_neg hj]; simp
  · simp

/-- **C184.** For centred data and slices that cover all cases, SIR with `s` slices has at most `s - 1` informative directions: the scores of all further ones have the same mean in all slices. -/
theorem C184_count {eigh : Eigh} (he : IsEigh eigh) (X : Fin n → Fin p → ℝ) (y : Fin n → ℝ) (s d : ℕ) (cont scale : Bool) (hs : SlicesCover cont y s)
    (B : Matrix (Fin p) (Fin (min d p)) ℝ) (h : sliceMethod .sir eigh X y s d cont true scale = .ok B) :
    ∃ yd, sliceResponse cont y s = .ok yd ∧ ∀ k : Fin (min d p), s ≤ k.1 + 1 → ∀ c, groupMean (scoresOf X fun i => B i k) yd c = average (scoresOf X fun i => B i k) := by
  obtain ⟨S, yd, lab, M, h1, h2, hy, hl, -, hM, hq, hpsd, hr, rfl⟩ := sir_eig he hs h
  refine ⟨yd, hy, fun k hk c => ?_⟩
  have hz := hq (fun i => leading eigh M d i k)
  rw [quad_leading he hM, eig_zero_of_rank he hM hpsd hr _ (by simp only [Fin.val_castLE]; omega), mul_zero] at hz
  have hc := (Finset.sum_eq_zero_iff_of_nonneg fun c _ => sq_nonneg _).mp hz c (Finset.mem_univ c)
  exact sub_eq_zero.mp (sq_eq_zero_iff.mp hc)

/-- **C184.** These directions contain all the information: if at least `s - 1` directions are asked for, then the scores in every direction orthogonal to them (uncorrelated, if the data are scaled) have the
same mean in all slices. -/
theorem C184_complete {eigh : Eigh} (he : IsEigh eigh) (X : Fin n → Fin p → ℝ) (y : Fin n → ℝ) (s d : ℕ) (cont scale : Bool) (hs : SlicesCover cont y s) (hd : s ≤ d + 1)
    (B : Matrix (Fin p) (Fin (min d p)) ℝ) (h : sliceMethod .sir eigh X y s d cont true scale = .ok B) :
    ∃ yd, sliceResponse cont y s = .ok yd ∧ ∀ b : Fin p → ℝ, (∀ k, bilin (if scale then covMat X else 1) (fun i => B i k) b = 0) →
      ∀ c, groupMean (scoresOf X b) yd c = average (scoresOf X b) := by
  obtain ⟨S, yd, lab, M, h1, h2, hy, hl, -, hM, hq, hpsd, hr, rfl⟩ := sir_eig he hs h
  refine ⟨yd, hy, fun b hb c => ?_⟩
  set A : Matrix (Fin p) (Fin p) ℝ := if scale then covMat X else 1 with hA
  have hSA : S * (A * S) = 1 := by rw [← Matrix.mul_assoc]; exact h2
  set v := (A * S) *ᵥ b with hv
  have hbS : b = S *ᵥ v := by rw [hv, Matrix.mulVec_mulVec, hSA, Matrix.one_mulVec]
  have hmove : ∀ u v, bilin A (S *ᵥ u) (S *ᵥ v) = u ⬝ᵥ v := by
    intro u v
    have e : S *ᵥ u = Matrix.vecMul u S := by rw [← Matrix.vecMul_transpose, h1]
    rw [bilin_eq, e, ← Matrix.dotProduct_mulVec, Matrix.mulVec_mulVec, Matrix.mulVec_mulVec, h2, Matrix.one_mulVec]
  have horth : ∀ k, (fun i => leading eigh M d i k) ⬝ᵥ v = 0 := by
    intro k
    have h5 := hb k
    rw [hbS] at h5
    rw [← hmove, ← h5]
    rfl
  have hz : quad M v = 0 := by
    rw [quad_eig he hM]
    refine Finset.sum_eq_zero fun j _ => ?_
    obtain ⟨i, rfl⟩ := descIdx_surjective (eigh M).1 j
    by_cases hi : i.1 < min d p
    · have h6 : (eigh M).2.transpose.mulVec v (descIdx (eigh M).1 i) = 0 := horth ⟨i.1, hi⟩
      rw [h6]
      simp
    · have hip := i.2
      rw [eig_zero_of_rank he hM hpsd hr i (by omega), zero_mul]
  have hB := hq v
  rw [hz, mul_zero, ← hbS] at hB
  have hc := (Finset.sum_eq_zero_iff_of_nonneg fun c _ => sq_nonneg _).mp hB c (Finset.mem_univ c)
  exact sub_eq_zero.mp (sq_eq_zero_iff.mp hc)

/-- **C184.** ... and nothing else: a direction whose scores do not have the same mean in all slices is, multiplied with the covariance matrix if the data are scaled, a combination of the deviations of the
slice means from the overall mean. -/
theorem C184_space {eigh : Eigh} (he : IsEigh eigh) (X : Fin n → Fin p → ℝ) (y : Fin n → ℝ) (s d : ℕ) (cont scale : Bool) (hs : SlicesCover cont y s)
    (B : Matrix (Fin p) (Fin (min d p)) ℝ) (h : sliceMethod .sir eigh X y s d cont true scale = .ok B) :
    ∃ yd, sliceResponse cont y s = .ok yd ∧ ∀ k : Fin (min d p), (∃ c, groupMean (scoresOf X fun i => B i k) yd c ≠ average (scoresOf X fun i => B i k)) →
      (if scale then covMat X else 1) *ᵥ (fun i => B i k) ∈ Submodule.span ℝ (Set.range (groupDeviation X yd)) := by
  have hsz := (sliceMethod_size h).1
  obtain ⟨S, yd, lab, M, h1, h2, hy, hl, hMd, hM, hq, hpsd, hr, rfl⟩ := sir_eig he hs h
  obtain ⟨hinj, hcov, hne⟩ := cover_labels (by omega) hs hy hl
  refine ⟨yd, hy, fun k ⟨c, hc⟩ => ?_⟩
  set A : Matrix (Fin p) (Fin p) ℝ := if scale then covMat X else 1 with hA
  have hSA : S * (A * S) = 1 := by rw [← Matrix.mul_assoc]; exact h2
  have hAS : A * S * S = 1 := mul_eq_one_comm.mp hSA
  set u : Fin p → ℝ := fun i => leading eigh M d i k with hu
  set lam := (eigh M).1 (descIdx (eigh M).1 (Fin.castLE (min_le_right d p) k)) with hlam
  have hl0 : lam ≠ 0 := by
    intro h0
    have hz := hq u
    rw [hu, quad_leading he hM, ← hlam, h0, mul_zero] at hz
    have h5 := (Finset.sum_eq_zero_iff_of_nonneg fun c _ => sq_nonneg _).mp hz c (Finset.mem_univ c)
    exact hc (sub_eq_zero.mp (sq_eq_zero_iff.mp h5))
  have heig : M *ᵥ u = lam • u := by
    funext i
    have h5 := congrFun (congrFun (he.decomp M hM) i) (descIdx (eigh M).1 (Fin.castLE (min_le_right d p) k))
    rw [Matrix.mul_diagonal, Matrix.mul_apply] at h5
    simp only [Pi.smul_apply, smul_eq_mul]
    rw [mul_comm]
    exact h5
  -- the kernel maps into the span of the slice means
  set Z : Fin n → Fin p → ℝ := fun c j => ∑ k, centredData true X c k * S k j with hZ
  set E : Matrix (Fin s) (Fin p) ℝ := Matrix.of fun i => sliceMean Z yd (lab i) with hE
  set a : Fin s → ℝ := Matrix.diagonal (fun i => sliceProb yd (lab i)) *ᵥ (E *ᵥ u) with ha
  have hMu : M *ᵥ u = E.transpose *ᵥ a := by
    rw [hMd, ha, Matrix.mulVec_mulVec, Matrix.mulVec_mulVec]
    rfl
  have hmean : ∀ i, ∃ c, E i = S *ᵥ groupDeviation X yd c := by
    intro i
    obtain ⟨c, hc⟩ := Finset.card_pos.mp (hne i)
    have hcy : yd c = lab i := by simpa [casesWith] using hc
    refine ⟨c, ?_⟩
    have h0 : ((casesWith yd (lab i)).card : ℝ) ≠ 0 := by exact_mod_cast (hne i).ne'
    funext j
    change (∑ c ∈ casesWith yd (lab i), ∑ k, centredData true X c k * S k j) / (casesWith yd (lab i)).card = ∑ k, S j k * groupDeviation X yd c k
    rw [Finset.sum_comm, Finset.sum_div]
    refine Finset.sum_congr rfl fun k _ => ?_
    have hSs : S j k = S k j := congrFun (congrFun h1 k) j
    rw [← Finset.sum_mul, hSs]
    simp only [centredData, if_true, groupDeviation, groupMean, hcy, average, Finset.sum_sub_distrib, Finset.sum_const, nsmul_eq_mul]
    field_simp
  have hAB : A *ᵥ (fun i => (S * leading eigh M d) i k) = ∑ i, (lam⁻¹ * a i) • ((A * S) *ᵥ E i) := by
    have h5 : (fun i => (S * leading eigh M d) i k) = S *ᵥ u := rfl
    have h6 : u = lam⁻¹ • (E.transpose *ᵥ a) := by rw [← hMu, heig, smul_smul, inv_mul_cancel₀ hl0, one_smul]
    rw [h5, Matrix.mulVec_mulVec]
    conv_lhs => rw [h6]
    rw [Matrix.mulVec_smul]
    have h7 : E.transpose *ᵥ a = ∑ i, a i • E i := by
      funext j
      simp only [mulVec, dotProduct, transpose_apply, Finset.sum_apply, Pi.smul_apply, smul_eq_mul]
      exact Finset.sum_congr rfl fun i _ => mul_comm _ _
    rw [h7, Matrix.mulVec_sum, Finset.smul_sum]
    exact Finset.sum_congr rfl fun i _ => by rw [Matrix.mulVec_smul, smul_smul]
  rw [hAB]
  refine Submodule.sum_mem _ fun i _ => Submodule.smul_mem _ _ ?_
  obtain ⟨c, hc⟩ := hmean i
  rw [hc, Matrix.mulVec_mulVec, hAS, Matrix.one_mulVec]
  exact Submodule.subset_span ⟨c, rfl⟩

/-- With two groups all deviations are multiples of the difference of the two means. -/
lemma two_group_deviations (X : Fin n → Fin p → ℝ) {yd : Fin n → ℝ} {lab : Fin 2 → ℝ} (hinj : Function.Injective lab) (hcov : ∀ c, ∃ i, yd c = lab i)
    (hne : ∀ i, 0 < (casesWith yd (lab i)).card) (c₁ c₂ : Fin n) (hc : yd c₁ ≠ yd c₂) (c : Fin n) :
    ∃ t : ℝ, groupDeviation X yd c = t • (groupDeviation X yd c₁ - groupDeviation X yd c₂) := by
  have hn : 0 < n := c.pos
  have hn' : (n : ℝ) ≠ 0 := by exact_mod_cast hn.ne'
  -- the labels of the two cases
  have hcase : ∀ c, yd c = yd c₁ ∨ yd c = yd c₂ := by
    intro c
    obtain ⟨i, hi⟩ := hcov c
    obtain ⟨i₁, h1⟩ := hcov c₁
    obtain ⟨i₂, h2⟩ := hcov c₂
    have h12 : i₁ ≠ i₂ := fun h => hc (by rw [h1, h2, h])
    have : i = i₁ ∨ i = i₂ := by
      fin_cases i <;> fin_cases i₁ <;> fin_cases i₂ <;> simp_all
    rcases this with h | h
    · left; rw [hi, h1, h]
    · right; rw [hi, h2, h]
  have hcongr : ∀ a b, yd a = yd b → groupDeviation X yd a = groupDeviation X yd b := by
    intro a b hab
    funext j
    simp only [groupDeviation, groupMean, hab]
  have hsum : ∀ j, ∑ c, groupDeviation X yd c j = 0 := by
    intro j
    simp only [groupDeviation, Finset.sum_sub_distrib, Finset.sum_const, Finset.card_univ, Fintype.card_fin, nsmul_eq_mul]
    have h1 : ∑ c, groupMean (fun i => X i j) yd c = ∑ c, X c j := by
      rw [sum_slices _ hinj hcov, sum_slices (fun c => X c j) hinj hcov]
      refine Finset.sum_congr rfl fun i _ => ?_
      have h0 : ((casesWith yd (lab i)).card : ℝ) ≠ 0 := by exact_mod_cast (hne i).ne'
      rw [Finset.sum_congr rfl fun c hc => by
        have hcy : yd c = lab i := by simpa [casesWith] using hc
        rw [groupMean, hcy], Finset.sum_const, nsmul_eq_mul]
      field_simp
    rw [h1, average]
    field_simp
    ring
  set a : ℝ := ((Finset.univ.filter fun c => yd c = yd c₁).card : ℝ) with ha
  set b : ℝ := ((Finset.univ.filter fun c => ¬ yd c = yd c₁).card : ℝ) with hb
  have hab : a + b = n := by
    rw [ha, hb]
    have := Finset.card_filter_add_card_filter_not (s := (Finset.univ : Finset (Fin n))) fun c => yd c = yd c₁
    rw [Finset.card_univ, Fintype.card_fin] at this
    exact_mod_cast this
  have hrel : ∀ j, a * groupDeviation X yd c₁ j + b * groupDeviation X yd c₂ j = 0 := by
    intro j
    rw [← hsum j, ← Finset.sum_filter_add_sum_filter_not Finset.univ fun c => yd c = yd c₁]
    congr 1
    · rw [Finset.sum_congr rfl fun c hc => congrFun (hcongr c c₁ (by simpa using hc)) j, Finset.sum_const, nsmul_eq_mul]
    · rw [Finset.sum_congr rfl fun c hc => congrFun (hcongr c c₂ ((hcase c).resolve_left (by simpa using hc))) j, Finset.sum_const, nsmul_eq_mul]
  rcases hcase c with h | h
  · refine ⟨b / n, ?_⟩
    rw [hcongr c c₁ h]
    funext j
    simp only [Pi.smul_apply, Pi.sub_apply, smul_eq_mul]
    field_simp
    rw [← hab]
    linear_combination hrel j
  · refine ⟨-(a / n), ?_⟩
    rw [hcongr c c₂ h]
    funext j
    simp only [Pi.smul_apply, Pi.sub_apply, smul_eq_mul]
    field_simp
    rw [← hab]
    linear_combination hrel j

/-- **C184** for two groups: the informative direction of SIR for scaled data is the classical discriminant direction, the inverse of the covariance matrix times the difference of the two group means, up
to a factor. -/
theorem C184_two_groups {eigh : Eigh} (he : IsEigh eigh) (X : Fin n → Fin p → ℝ) (y : Fin n → ℝ) (d : ℕ) (cont : Bool) (hs : SlicesCover cont y 2)
    (B : Matrix (Fin p) (Fin (min d p)) ℝ) (h : sliceMethod .sir eigh X y 2 d cont true true = .ok B) :
    ∃ yd, sliceResponse cont y 2 = .ok yd ∧ ∀ k : Fin (min d p), (∃ c, groupMean (scoresOf X fun i => B i k) yd c ≠ average (scoresOf X fun i => B i k)) →
      ∀ c₁ c₂, yd c₁ ≠ yd c₂ → ∃ t : ℝ, t ≠ 0 ∧ (fun i => B i k) = t • (covMat X)⁻¹ *ᵥ (fun j => groupMean (fun i => X i j) yd c₁ - groupMean (fun i => X i j) yd c₂) := by
  have hsz := (sliceMethod_size h).1
  obtain ⟨yd, hy, hsp⟩ := C184_space he X y 2 d cont true hs B h
  obtain ⟨S, yd', lab, M, h1, h2, hy', hl, -⟩ := sir_eig he hs h
  rw [hy] at hy'
  cases hy'
  obtain ⟨hinj, hcov, hne⟩ := cover_labels (by omega) hs hy hl
  simp only [if_true] at hsp h2
  refine ⟨yd, hy, fun k hk c₁ c₂ hc => ?_⟩
  have hmem := hsp k hk
  have hdiff : groupDeviation X yd c₁ - groupDeviation X yd c₂ = fun j => groupMean (fun i => X i j) yd c₁ - groupMean (fun i => X i j) yd c₂ := by
    funext j
    simp only [groupDeviation, Pi.sub_apply]
    ring
  obtain ⟨t, ht⟩ : ∃ t : ℝ, covMat X *ᵥ (fun i => B i k) = t • (groupDeviation X yd c₁ - groupDeviation X yd c₂) := by
    generalize covMat X *ᵥ (fun i => B i k) = u at hmem
    induction hmem using Submodule.span_induction with
    | mem u hu => obtain ⟨c, rfl⟩ := hu; exact two_group_deviations X hinj hcov hne c₁ c₂ hc c
    | zero => exact ⟨0, by simp⟩
    | add u v _ _ hu hv =>
      obtain ⟨a, ha⟩ := hu
      obtain ⟨b, hb⟩ := hv
      exact ⟨a + b, by rw [ha, hb, add_smul]⟩
    | smul r u _ hu =>
      obtain ⟨a, ha⟩ := hu
      exact ⟨r * a, by rw [ha, mul_smul]⟩
  have hSA : S * (covMat X * S) = 1 := by rw [← Matrix.mul_assoc]; exact h2
  have hdet : IsUnit (covMat X).det := by
    have := congrArg Matrix.det h2
    rw [Matrix.det_mul, Matrix.det_mul, Matrix.det_one] at this
    exact isUnit_iff_ne_zero.mpr fun h0 => by rw [h0] at this; simp at this
  have hBk : (fun i => B i k) = t • (covMat X)⁻¹ *ᵥ (groupDeviation X yd c₁ - groupDeviation X yd c₂) := by
    rw [← Matrix.mulVec_smul, ← ht, Matrix.mulVec_mulVec, Matrix.nonsing_inv_mul _ hdet, Matrix.one_mulVec]
  refine ⟨t, ?_, by rw [hBk, hdiff]⟩
  rintro rfl
  obtain ⟨c, hc⟩ := hk
  apply hc
  have hz : ∀ i, B i k = 0 := fun i => by
    have := congrFun hBk i
    simpa using this
  simp [scoresOf, hz, groupMean, average]

/-- The hypotheses are met, with an informative direction: the eight cases of C174 in two groups have different means. -/
example {eigh : Eigh} (he : IsEigh eigh) : ∃ B, sliceMethod .sir eigh eightX eightY 2 2 false true true = .ok B ∧ SlicesCover false eightY 2 ∧
    ∃ k : Fin (min 2 2), ∃ c, groupMean (scoresOf eightX fun i => B i k) eightY c ≠ average (scoresOf eightX fun i => B i k) := by
  obtain ⟨lab, hlab, h⟩ := two_labels (y := eightY) (a := 1) (b := 0) (by norm_num) (by norm_num) eightY_image
  have hpd : ∀ v, v ≠ 0 → 0 < quad (covMat eightX) v := by
    intro v hv
    rw [eightX_cov, quad_two]
    rcases eq_or_ne (v 0) 0 with h0 | h0
    · have h1 : v 1 ≠ 0 := fun h1 => hv (by funext i; fin_cases i <;> simp [h0, h1])
      have := pow_pos (abs_pos.mpr h1) 2
      rw [sq_abs] at this
      nlinarith [sq_nonneg (v 0)]
    · have := pow_pos (abs_pos.mpr h0) 2
      rw [sq_abs] at this
      nlinarith [sq_nonneg (v 1)]
  obtain ⟨S, hS⟩ := invSqrt_pd he (covMat_symm eightX) hpd
  obtain ⟨B, hB⟩ : ∃ B, sliceMethod .sir eigh eightX eightY 2 2 false true true = .ok B := by
    rw [sliceMethod, if_neg (by norm_num)]
    simp only [sdrRoot, sliceResponse, Bool.false_eq_true, if_false, if_true]
    rw [hS, hlab]
    dsimp only
    rw [if_neg (by norm_num)]
    exact ⟨_, rfl⟩
  have hcover : SlicesCover false eightY 2 := Or.inr (by rw [eightY_image, Finset.card_pair (by norm_num)])
  refine ⟨B, hB, hcover, ?_⟩
  by_contra hno
  push Not at hno
  obtain ⟨yd, hyd, hF⟩ := C182_fisher he eightX eightY 2 2 false hcover B hB
  have hyd' : eightY = yd := by simpa [sliceResponse] using hyd
  subst hyd'
  have hk : (0 : ℕ) < min 2 2 := by norm_num
  have h1 := hF ⟨0, hk⟩ ![1, 0] (fun l hl => absurd hl (by simp [Fin.lt_def]))
  have hB0 : betweenSS (scoresOf eightX fun i => B i ⟨0, hk⟩) eightY = 0 :=
    Finset.sum_eq_zero fun c _ => by rw [hno ⟨0, hk⟩ c]; simp
  have hsl : sliceResponse false eightY 2 = .ok eightY := by simp [sliceResponse]
  have hW := (lda_anova (by norm_num) hcover hsl hlab eightX fun i => B i ⟨0, hk⟩).2
  have hq : quad (covMat eightX) (fun i => B i ⟨0, hk⟩) = 1 := by
    have := congrFun (congrFun (C89_slicing he .sir eightX eightY 2 2 false true true B hB) ⟨0, hk⟩) ⟨0, hk⟩
    rw [Matrix.one_apply_eq] at this
    rw [← this, quad]
    simp only [if_true, Matrix.mul_apply, Matrix.transpose_apply, Finset.sum_mul]
    rw [Finset.sum_comm]
  rw [hB0, hq] at hW
  rw [hB0, zero_mul] at h1
  have hg : groupMean (scoresOf eightX ![1, 0]) eightY 0 - average (scoresOf eightX ![1, 0]) = 1 := by
    have hc : casesWith eightY (eightY 0) = {0, 1, 2, 3} := eight_one
    have hs : scoresOf eightX ![1, 0] = ![5, -1, -1, 1, 3, -3, -3, -1] := by
      funext c
      fin_cases c <;> simp [scoresOf, eightX, Fin.sum_univ_two]
    rw [groupMean, hc, hs, average, Finset.sum_insert (by decide), Finset.sum_insert (by decide), Finset.sum_pair (by decide)]
    rw [show ({0, 1, 2, 3} : Finset (Fin 8)).card = 4 from rfl, Fin.sum_univ_eight]
    simp
    norm_num
  have hpos : 1 ≤ betweenSS (scoresOf eightX ![1, 0]) eightY := by
    have := Finset.single_le_sum (f := fun c => (groupMean (scoresOf eightX ![1, 0]) eightY c - average (scoresOf eightX ![1, 0])) ^ 2) (fun c _ => sq_nonneg _) (Finset.mem_univ 0)
    simp only [hg, one_pow] at this
    exact this
  have hW' : withinSS (scoresOf eightX fun i => B i ⟨0, hk⟩) eightY = 7 := by
    have h8 : ((8 : ℕ) : ℝ) = 8 := by norm_num
    rw [h8] at hW
    linarith
  rw [hW'] at h1
  linarith

end Direpack
