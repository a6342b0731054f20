import Verif.DicomoLemmas

/-! Helper lemmas about distance statistics. -/

namespace Direpack

open scoped BigOperators
open Spec

lemma flat_sum {n : ℕ} (a : Fin n → Fin n → ℝ) : (flat a).sum = ∑ i, ∑ j, a i j := by
  unfold flat
  have h : ∀ l : List (Fin n), (l.flatMap fun i => (List.finRange n).map fun j => a i j).sum = (l.map fun i => ∑ j, a i j).sum := by
    intro l
    induction l with
    | nil => rfl
    | cons i l ih =>
      rw [List.flatMap_cons, List.sum_append, ih, List.map_cons, List.sum_cons, ← List.ofFn_eq_map, List.sum_ofFn]
  rw [h, ← List.ofFn_eq_map, List.sum_ofFn]

lemma flat_length {n : ℕ} (a : Fin n → Fin n → ℝ) : (flat a).length = n ^ 2 := by
  unfold flat
  simp [List.length_flatMap, sq]

lemma meanT0_flat {n : ℕ} (a : Fin n → Fin n → ℝ) :
    meanT 0 (flat a) = .ok ((∑ i, ∑ j, a i j) / (n : ℝ) ^ 2) := by
  simp only [meanT, if_true, meanL, flat_sum, flat_length]
  push_cast
  rfl

lemma mapE_oks {α β : Type} (f : α → β) (l : List α) : mapE (fun a => (.ok (f a) : Except Err β)) l = .ok (l.map f) := by
  induction l with
  | nil => rfl
  | cons a l ih => simp only [mapE, ih, List.map_cons]

lemma seqE_ok {n : ℕ} (f : Fin n → ℝ) : seqE (fun i => .ok (f i)) = .ok f := by
  unfold seqE
  rw [mapE_oks]
  simp only [Except.ok.injEq]
  funext i
  simp

lemma doubleCenter_false {n : ℕ} (a : Fin n → Fin n → ℝ) :
    doubleCenter .mean 0 false a = .ok (dcen a, n) := by
  unfold doubleCenter
  simp only [meanT0_flat, meanT0, seqE_ok, bind, Except.bind, Bool.false_eq_true, if_false, false_and]
  rfl

lemma doubleCenter_true {n : ℕ} (hn : 0 < n) (a : Fin n → Fin n → ℝ) :
    doubleCenter .mean 0 true a = .ok (ucen a, n) := by
  have hn' : (n : ℝ) ≠ 0 := by exact_mod_cast hn.ne'
  unfold doubleCenter
  simp only [meanT0_flat, meanT0, seqE_ok, bind, Except.bind, if_true, true_and, pyRound_nat0, Int.cast_natCast]
  congr 2
  funext i j
  unfold ucen avg
  congr 1
  have e : ∀ S : ℝ, S / n * (n / (n - 2)) = S / ((n : ℝ) - 2) := by
    intro S
    by_cases h : (n : ℝ) - 2 = 0
    · simp [h]
    · field_simp
  have e2 : ∀ S : ℝ, S / (n : ℝ) ^ 2 * ((n : ℝ) ^ 2 / ((n - 1) * (n - 2))) = S / (((n : ℝ) - 1) * (n - 2)) := by
    intro S
    by_cases h : ((n : ℝ) - 1) * (n - 2) = 0
    · simp [h]
    · field_simp
  rw [e, e, e2]

lemma edist_symm {n p : ℕ} (x : Fin n → Fin p → ℝ) (i k : Fin n) : edist x i k = edist x k i := by
  unfold edist
  congr 1
  exact Finset.sum_congr rfl fun j _ => by ring

lemma edist_self {n p : ℕ} (x : Fin n → Fin p → ℝ) (i : Fin n) : edist x i i = 0 := by simp [edist]

lemma edist_rowDist {n p : ℕ} (x : Fin n → Fin p → ℝ) : edist x = fun i k => rowDist (x i) (x k) := rfl

/-! ### Centred matrices -/

lemma dcen_row {n : ℕ} (hn : 0 < n) (a : Fin n → Fin n → ℝ) (i : Fin n) : ∑ j, dcen a i j = 0 := by
  have hn' : (n : ℝ) ≠ 0 := by exact_mod_cast hn.ne'
  unfold dcen
  simp only [Finset.sum_add_distrib, Finset.sum_sub_distrib, ← Finset.sum_div, Finset.sum_const, Finset.card_univ,
    Fintype.card_fin, nsmul_eq_mul]
  rw [Finset.sum_comm (f := fun j k => a k j)]
  field_simp
  ring

lemma dcen_symm {n : ℕ} (a : Fin n → Fin n → ℝ) (ha : ∀ i j, a i j = a j i) (i j : Fin n) : dcen a i j = dcen a j i := by
  unfold dcen
  rw [ha i j, Finset.sum_congr rfl fun k _ => ha i k, Finset.sum_congr rfl fun k _ => ha k j]
  ring

lemma ucen_symm {n : ℕ} (a : Fin n → Fin n → ℝ) (ha : ∀ i j, a i j = a j i) (i j : Fin n) : ucen a i j = ucen a j i := by
  unfold ucen
  by_cases h : i = j
  · subst h; rfl
  · rw [if_neg h, if_neg (Ne.symm h), ha i j, Finset.sum_congr rfl fun k _ => ha i k, Finset.sum_congr rfl fun k _ => ha k j]
    ring

lemma ucen_row {n : ℕ} (hn : 3 ≤ n) (a : Fin n → Fin n → ℝ) (ha : ∀ i j, a i j = a j i) (h0 : ∀ i, a i i = 0) (i : Fin n) :
    ∑ j, ucen a i j = 0 := by
  have hnr : (3 : ℝ) ≤ n := by exact_mod_cast hn
  have h1 : (n : ℝ) - 1 ≠ 0 := by linarith
  have h2 : (n : ℝ) - 2 ≠ 0 := by linarith
  set f : Fin n → ℝ := fun j => a i j - (∑ k, a i k) / ((n : ℝ) - 2) - (∑ k, a k j) / ((n : ℝ) - 2) +
    (∑ k, ∑ l, a k l) / (((n : ℝ) - 1) * ((n : ℝ) - 2)) with hf
  have e : ∀ j, ucen a i j = f j - if i = j then f i else 0 := by
    intro j
    unfold ucen
    by_cases h : i = j
    · subst h; simp
    · simp [h, hf]
  simp only [e, Finset.sum_sub_distrib, Finset.sum_ite_eq, Finset.mem_univ, if_true]
  simp only [hf, h0 i, Finset.sum_add_distrib, Finset.sum_sub_distrib, ← Finset.sum_div, Finset.sum_const,
    Finset.card_univ, Fintype.card_fin, nsmul_eq_mul]
  rw [Finset.sum_comm (f := fun j k => a k j), Finset.sum_congr rfl fun k _ => ha k i]
  field_simp
  ring

/-- Quadratic forms of a doubly centred matrix only see centred weights. -/
lemma dcen_quad {n : ℕ} (hn : 0 < n) (a : Fin n → Fin n → ℝ) (c : Fin n → ℝ) :
    ∑ i, ∑ j, c i * c j * dcen a i j = ∑ i, ∑ j, (c i - avg c) * (c j - avg c) * a i j := by
  have hn' : (n : ℝ) ≠ 0 := by exact_mod_cast hn.ne'
  have hA : ∑ i, ∑ j, c i * c j * dcen a i j =
      ∑ i, ∑ j, c i * c j * a i j - avg c * (∑ i, c i * ∑ k, a i k) - avg c * (∑ j, c j * ∑ k, a k j) +
        avg c ^ 2 * ∑ k, ∑ l, a k l := by
    have h1 : ∀ i, ∑ j, c i * c j * dcen a i j = ∑ j, c i * c j * a i j - (∑ j, c j) / n * (c i * ∑ k, a i k) -
        c i / n * (∑ j, c j * ∑ k, a k j) + c i * (∑ j, c j) * ((∑ k, ∑ l, a k l) / (n : ℝ) ^ 2) := by
      intro i
      have : ∀ j, c i * c j * dcen a i j = c i * c j * a i j - c j * (c i * (∑ k, a i k) / n) -
          c i / n * (c j * ∑ k, a k j) + c j * (c i * ((∑ k, ∑ l, a k l) / (n : ℝ) ^ 2)) := by
        intro j; unfold dcen; ring
      simp only [this, Finset.sum_add_distrib, Finset.sum_sub_distrib]
      rw [← Finset.sum_mul, ← Finset.mul_sum, ← Finset.sum_mul]
      ring
    simp only [h1, Finset.sum_add_distrib, Finset.sum_sub_distrib, ← Finset.mul_sum, ← Finset.sum_mul, ← Finset.sum_div]
    unfold avg
    field_simp
  rw [hA]
  have h2 : ∀ i, ∑ j, (c i - avg c) * (c j - avg c) * a i j = ∑ j, c i * c j * a i j - avg c * (c i * ∑ k, a i k) -
      avg c * (∑ j, c j * a i j) + avg c ^ 2 * ∑ l, a i l := by
    intro i
    simp only [Finset.mul_sum, ← Finset.sum_sub_distrib, ← Finset.sum_add_distrib]
    exact Finset.sum_congr rfl fun j _ => by ring
  simp only [h2, Finset.sum_add_distrib, Finset.sum_sub_distrib, ← Finset.mul_sum]
  rw [Finset.sum_comm (f := fun i j => c j * a i j)]
  simp only [← Finset.mul_sum]

lemma sum_sub_avg {n : ℕ} (hn : 0 < n) (c : Fin n → ℝ) : ∑ i, (c i - avg c) = 0 := by
  have hn' : (n : ℝ) ≠ 0 := by exact_mod_cast hn.ne'
  rw [Finset.sum_sub_distrib]
  simp only [Finset.sum_const, Finset.card_univ, Fintype.card_fin, nsmul_eq_mul, avg]
  field_simp
  ring

lemma dcen_neg_posSemidef {n p : ℕ} (hn : 0 < n) (x : Fin n → Fin p → ℝ) :
    (Matrix.of fun i j => -dcen (edist x) i j).PosSemidef := by
  refine Matrix.PosSemidef.of_dotProduct_mulVec_nonneg ?_ fun c => ?_
  · ext i j
    simp only [Matrix.conjTranspose_apply, Matrix.of_apply, star_trivial]
    rw [dcen_symm _ (edist_symm x)]
  · rw [quad_eq]
    have := edist_cond_neg x (fun i => c i - avg c) (sum_sub_avg hn c)
    rw [← dcen_quad hn] at this
    simp only [Matrix.of_apply, mul_neg, Finset.sum_neg_distrib]
    linarith

/-- Squared distance covariance is nonnegative. -/
lemma dcov2_nonneg {n p q : ℕ} (hn : 0 < n) (x : Fin n → Fin p → ℝ) (y : Fin n → Fin q → ℝ) : 0 ≤ dcov2 x y := by
  have h := ((dcen_neg_posSemidef hn x).hadamard (dcen_neg_posSemidef hn y)).dotProduct_mulVec_nonneg (fun _ => 1)
  rw [quad_eq] at h
  simp only [Matrix.hadamard_apply, Matrix.of_apply, one_mul, neg_mul_neg] at h
  exact div_nonneg h (sq_nonneg _)

lemma dcov2_cauchy {n p q : ℕ} (x : Fin n → Fin p → ℝ) (y : Fin n → Fin q → ℝ) :
    dcov2 x y ≤ √(dcov2 x x) * √(dcov2 y y) := by
  unfold dcov2
  rw [Real.sqrt_div' _ (sq_nonneg _), Real.sqrt_div' _ (sq_nonneg _), Real.sqrt_sq (Nat.cast_nonneg n), div_mul_div_comm,
    ← sq]
  refine div_le_div_of_nonneg_right ?_ (sq_nonneg _)
  have := Real.sum_mul_le_sqrt_mul_sqrt (Finset.univ : Finset (Fin n × Fin n))
    (fun ij => dcen (fun i j => rowDist (x i) (x j)) ij.1 ij.2) (fun ij => dcen (fun i j => rowDist (y i) (y j)) ij.1 ij.2)
  simp only [Fintype.sum_prod_type, sq] at this
  exact this

lemma dcovSqr_eq {n p q : ℕ} (x : Fin n → Fin p → ℝ) (y : Fin n → Fin q → ℝ) : dcovSqr x y = dcov2 x y := rfl

/-! ### The class -/

lemma sqrtE_nonneg {v : ℝ} (h : 0 ≤ v) : sqrtE v = .ok √v := by simp [sqrtE, not_lt.mpr h]

lemma compute_distance {n p q : ℕ} (hn : 0 < n) (m : Mode) (c : Loc) (a : FitArgs) (x : Fin n → Fin p → ℝ) (y : Fin n → Fin q → ℝ)
    (hm : (modeTable m a.order).1 ≠ .mdd ∧ (modeTable m a.order).1 ≠ .ballcov) :
    Dicomo.compute .distance m c { a with y := some (dmat y) } (dmat x) =
      match (if a.fast ∧ c = .mean ∧ a.trimming = 0 ∧ (modeTable m a.order).2 = 2 then
          fastStage (modeTable m a.order).1 { a with y := some (dmat y) } x
        else naiveStage m (modeTable m a.order).1 c (modeTable m a.order).2 { a with y := some (dmat y) } x) with
      | .error e => .error e
      | .ok pre => finalStage m (modeTable m a.order).1 (modeTable m a.order).2 { a with y := some (dmat y) } pre := by
  unfold Dicomo.compute
  have hn' : (dmat x).n ≠ 0 := hn.ne'
  have : ¬ ((modeTable m a.order).1 = .mdd ∨ (modeTable m a.order).1 = .ballcov) := by tauto
  simp only [hn', if_false, this]
  rfl

lemma pow_half (m : ℝ) : (-1 : ℝ) ^ 2 * |m| ^ ((1 : ℝ) / (2 : ℕ)) = √|m| := by
  rw [Nat.cast_ofNat, ← Real.sqrt_eq_rpow]; norm_num

/-- Distance moment of order 2 without trimming. -/
lemma distanceMoment_two {n : ℕ} (same b : Bool) (n1 : ℝ) (opt : ℕ) (A B : Fin n → Fin n → ℝ) :
    distanceMoment same .mean 0 b n1 2 opt A B =
      .ok (√|(∑ i, ∑ j, A i j * B i j) / (n : ℝ) ^ 2 * corr4bias n n1 0 b|, A, B) := by
  unfold distanceMoment
  simp only [dmSquared, lt_irrefl, if_false, meanT0_flat, bind, Except.bind, OfNat.ofNat_ne_zero, pow_half]

lemma corr4bias_false (n : ℕ) (n1 t : ℝ) : corr4bias n n1 t false = 1 := by simp [corr4bias]

lemma dm_false {n p : ℕ} (x : Fin n → Fin p → ℝ) : distMatCentered .mean 0 false x = .ok (dcen (edist x), n) :=
  doubleCenter_false _

/-- Distance moments of order 2 by the naive algorithm, no trimming. -/
lemma dmoment_false {n p q : ℕ} (hn : 0 < n) (same : Bool) (n1 : ℝ) (opt : ℕ) (x : Fin n → Fin p → ℝ) (y : Fin n → Fin q → ℝ) :
    distanceMoment same .mean 0 false n1 2 opt (dcen (edist x)) (dcen (edist y)) =
      .ok (√(dcov2 x y), dcen (edist x), dcen (edist y)) := by
  rw [distanceMoment_two, corr4bias_false, mul_one]
  change Except.ok (√|dcov2 x y|, _, _) = _
  rw [abs_of_nonneg (dcov2_nonneg hn x y)]

/-- Distance variance: both algorithms. -/
lemma run_dvar {n p : ℕ} (hn : 0 < n) (a : FitArgs) (ht : a.trimming = 0) (hb : a.biascorr = false) (x : Fin n → Fin p → ℝ)
    {q : ℕ} (y : Fin n → Fin q → ℝ) :
    run .distance .var .mean a (dmat x) (dmat y) = .ok √(dcov2 x x) := by
  rw [run_eq]
  simp only [forcesMean, Bool.false_eq_true, if_false]
  rw [compute_distance hn _ _ _ _ _ ⟨by simp [modeTable], by simp [modeTable]⟩]
  simp only [modeTable]
  by_cases hf : a.fast = true
  · rw [if_pos (by simp [hf, ht])]
    unfold fastStage finalStage
    simp only [bind, Except.bind, reduceCtorEq, if_false, if_true, isCoMode, or_self, decide_false, Bool.false_eq_true, false_and, hb,
      dcovSqr_eq, sqrtE_nonneg (dcov2_nonneg hn x x)]
  · rw [if_neg (fun h => hf h.1)]
    unfold naiveStage finalStage
    simp only [bind, Except.bind, reduceCtorEq, if_false, if_true, isCoMode, isStdMode, or_self, decide_false, Bool.false_eq_true, false_and, hb,
      ht, dm_false, dmoment_false hn, lt_irrefl]

/-- Distance covariance: both algorithms. -/
lemma run_dcov {n p q : ℕ} (hn : 0 < n) (a : FitArgs) (ht : a.trimming = 0) (hb : a.biascorr = false)
    (hy : a.fast = true ∨ a.y1d = false) (x : Fin n → Fin p → ℝ) (y : Fin n → Fin q → ℝ) :
    run .distance .cov .mean a (dmat x) (dmat y) = .ok √(dcov2 x y) := by
  rw [run_eq]
  simp only [forcesMean, Bool.false_eq_true, if_false]
  rw [compute_distance hn _ _ _ _ _ ⟨by simp [modeTable], by simp [modeTable]⟩]
  simp only [modeTable]
  by_cases hf : a.fast = true
  · rw [if_pos (by simp [hf, ht])]
    unfold fastStage finalStage
    simp only [bind, Except.bind, reduceCtorEq, if_false, if_true, isCoMode, or_self, decide_false, Bool.false_eq_true, false_and, hb,
      dcovSqr_eq, getY_dmat hn, sqrtE_nonneg (dcov2_nonneg hn x y)]
  · rw [if_neg (fun h => hf h.1)]
    have hy' := hy.resolve_left hf
    unfold naiveStage finalStage
    simp only [bind, Except.bind, reduceCtorEq, if_false, if_true, isCoMode, or_self, decide_false, Bool.false_eq_true, false_and, hb,
      ht, hy', dm_false, getY_dmat hn, dmoment_false hn, lt_irrefl]

/-- Distance correlation: both algorithms. -/
lemma run_dcorr {n p q : ℕ} (hn : 0 < n) (a : FitArgs) (ht : a.trimming = 0) (hb : a.biascorr = false) (ho : a.order = 2)
    (hy : a.fast = true ∨ a.y1d = false) (x : Fin n → Fin p → ℝ) (y : Fin n → Fin q → ℝ) :
    run .distance .corr .mean a (dmat x) (dmat y) = .ok (√(dcov2 x y) / (√√(dcov2 x x) * √√(dcov2 y y))) := by
  rw [run_eq]
  simp only [forcesMean, Bool.false_eq_true, if_false]
  rw [compute_distance hn _ _ _ _ _ ⟨by simp [modeTable], by simp [modeTable]⟩]
  simp only [modeTable]
  by_cases hf : a.fast = true
  · rw [if_pos (by simp [hf, ht, ho])]
    unfold fastStage finalStage
    simp only [bind, Except.bind, reduceCtorEq, if_false, isCoMode, or_self, decide_false, Bool.false_eq_true, false_and, hb,
      dcovSqr_eq, getY_dmat hn, sqrtE_nonneg (dcov2_nonneg hn _ _), sqrtE_nonneg (Real.sqrt_nonneg _)]
  · rw [if_neg (fun h => hf h.1)]
    have hy' := hy.resolve_left hf
    unfold naiveStage finalStage
    simp only [bind, Except.bind, reduceCtorEq, if_false, if_true, isCoMode, isStdMode, or_self, or_false, decide_false, Bool.false_eq_true, false_and, hb,
      ht, ho, hy', dm_false, getY_dmat hn, dmoment_false hn, lt_irrefl, sqrtE_nonneg (Real.sqrt_nonneg _)]

end Direpack
