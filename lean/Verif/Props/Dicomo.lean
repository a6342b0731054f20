import Verif.DicomoLemmas

/-!
Properties of the product-moment statistics of `dicomo` (`est='arithmetic'`).  `run est mode center a X Y` is what
`dicomo(est, mode, center).fit(X, y=Y, **a)` returns; `colMat x` is the column `x`.
-/

namespace Direpack

open scoped BigOperators
open Spec

/-- Median of three numbers. -/
lemma medL_triple {l : List ℝ} {a b c : ℝ} (hp : [a, b, c].Perm l) (hab : a ≤ b) (hbc : b ≤ c) : medL l = b := by
  rw [← medL_congr hp]
  unfold medL
  rw [sortL_unique (List.Perm.refl [a, b, c]) (by simp [hab, hbc, le_trans hab hbc])]
  simp
  try ring

lemma med_triple (x : Fin 3 → ℝ) {a b c : ℝ} (hp : [a, b, c].Perm [x 0, x 1, x 2]) (hab : a ≤ b) (hbc : b ≤ c) :
    med x = b := by
  have : List.ofFn x = [x 0, x 1, x 2] := by simp [List.ofFn_succ]
  unfold med
  rw [this]
  exact medL_triple hp hab hbc

/-! ### C26 -/

/-- C26 (partial): every arithmetic statistic of order at least 2, of any mode, with any trimming, bias
correction and options, is unchanged when constants are added to the variables.  With median centring this is proved
under the condition that the shift does not turn two different columns into equal ones or conversely. -/
theorem C26_shift_partial {n : ℕ} (hn : 0 < n) (m : Mode) (c : Loc) (a : FitArgs) (ho : 2 ≤ a.order)
    (x y : Fin n → ℝ) (s s' : ℝ)
    (hc : c = .mean ∨ ((∀ i, x i + s = y i + s') ↔ ∀ i, x i = y i)) :
    run .arithmetic m c a (colMat fun i => x i + s) (colMat fun i => y i + s') =
      run .arithmetic m c a (colMat x) (colMat y) := by
  rw [run_eq, run_eq]
  set c' := if forcesMean m then Loc.mean else c with hc'
  have hcc : c' = .mean ∨ (c' = .median ∧ ((∀ i, x i + s = y i + s') ↔ ∀ i, x i = y i)) := by
    rcases hc with h | h
    · left; rw [hc', h]; simp
    · cases hcv : c' with
      | mean => left; rfl
      | median => right; exact ⟨rfl, h⟩
  rw [compute_arith hn, compute_arith hn]
  have hom := modeTable_ge2 m a.order ho
  rw [arithCol_congr (x := fun i => x i + s) (y := fun i => y i + s') (x' := x) (y' := y) m _ c' _ hom a]
  · intro k o b hk
    rcases hcc with h | ⟨h, _⟩ <;> rw [h]
    · exact trimMom_mean_shift hn _ _ _ hk _ _ _ _ _
    · exact trimMom_median_shift hn _ _ _ hk _ _ _ _ _ (by simp)
  · intro k o b hk
    rcases hcc with h | ⟨h, h'⟩ <;> rw [h]
    · exact trimMom_mean_shift hn _ _ _ hk _ _ _ _ _
    · exact trimMom_median_shift hn _ _ _ hk _ _ _ _ _ h'
  · intro k o b hk
    rcases hcc with h | ⟨h, _⟩ <;> rw [h]
    · exact trimMom_mean_shift hn _ _ _ hk _ _ _ _ _
    · exact trimMom_median_shift hn _ _ _ hk _ _ _ _ _ (by simp)

/-- C26 (partial): with mean centring, moments of order `k ≥ 2` are homogeneous of degree `k` (the variance of degree 2);
any trimming, bias correction and admissible option. -/
theorem C26_scale_mom_partial {n : ℕ} (hn : 0 < n) (a : FitArgs) (ho : 2 ≤ a.order) (hopt : a.option ≤ a.order)
    (x y : Fin n → ℝ) (r : ℝ) :
    run .arithmetic .mom .mean a (colMat fun i => r * x i) (colMat y) =
        (run .arithmetic .mom .mean a (colMat x) (colMat y)).map (fun v => r ^ a.order * v) ∧
    run .arithmetic .var .mean a (colMat fun i => r * x i) (colMat y) =
        (run .arithmetic .var .mean a (colMat x) (colMat y)).map (fun v => r ^ 2 * v) := by
  constructor
  · rw [run_momk hn, run_momk hn]
    have := trimMom_mean_affine hn x x a.order ho a.trimming (if 2 < a.order then a.option else 0) a.biascorr r 0 r 0
    simp only [add_zero] at this
    rw [this]
    congr 1
    funext v
    rw [← pow_add]
    congr 2
    unfold exps
    split_ifs <;> simp <;> omega
  · rw [run_var hn, run_var hn]
    have := trimMom_mean_affine hn x x 2 (le_refl 2) a.trimming 0 a.biascorr r 0 r 0
    simp only [add_zero] at this
    rw [this]
    congr 1
    funext v
    rw [← pow_add]
    rfl

/-- C26 (partial): with mean centring, the co-moment of order `k` in which `y` enters with power `option` and `x` with power
`k - option` (both with power 1 for the covariance) scales accordingly. -/
theorem C26_scale_com_partial {n : ℕ} (hn : 0 < n) (a : FitArgs) (ho : 2 < a.order)
    (x y : Fin n → ℝ) (r r' : ℝ) :
    run .arithmetic .com .mean a (colMat fun i => r * x i) (colMat fun i => r' * y i) =
        (run .arithmetic .com .mean a (colMat x) (colMat y)).map
          (fun v => r ^ (a.order - a.option) * r' ^ a.option * v) ∧
    run .arithmetic .cov .mean a (colMat fun i => r * x i) (colMat fun i => r' * y i) =
        (run .arithmetic .cov .mean a (colMat x) (colMat y)).map (fun v => r * r' * v) := by
  constructor
  · rw [run_comk hn, run_comk hn]
    have := trimMom_mean_affine hn x y a.order (by omega) a.trimming (if 2 < a.order then a.option else 0) a.biascorr
      r 0 r' 0
    simp only [add_zero] at this
    rw [this]
    simp only [exps, ho, if_true]
    cases trimMom .mean x y a.order a.trimming a.option a.biascorr with
    | error e => rfl
    | ok v =>
      simp only [Except.map, Except.ok.injEq]
      split_ifs
      · ring
      · rfl
  · rw [run_cov hn, run_cov hn]
    have := trimMom_mean_affine hn x y 2 (le_refl 2) a.trimming 0 a.biascorr
      r 0 r' 0
    simp only [add_zero] at this
    rw [this]
    simp only [exps, lt_irrefl, if_false, pow_one]

/-- C26 fails with median centring: the "variance" of `2x` is twice that of `x` (it is a MAD, not a variance), and shifting
`y` so that it coincides with `x` changes their covariance from 1 to 1.4826. -/
theorem C26_median_violated :
    (∃ x : Fin 3 → ℝ, run .arithmetic .var .median {} (colMat x) (colMat x) = .ok (14826 / 10000) ∧
      run .arithmetic .var .median {} (colMat fun i => 2 * x i) (colMat x) = .ok (2 * (14826 / 10000))) ∧
    (∃ x y : Fin 3 → ℝ, run .arithmetic .cov .median {} (colMat x) (colMat y) = .ok 1 ∧
      run .arithmetic .cov .median {} (colMat x) (colMat fun i => y i + (-1)) = .ok (14826 / 10000)) := by
  have hx : med (![0, 1, 3] : Fin 3 → ℝ) = 1 := med_triple _ (a := 0) (c := 3) (by simp) (by norm_num) (by norm_num)
  have hx2 : med (fun i => 2 * (![0, 1, 3] : Fin 3 → ℝ) i) = 2 := by
    refine med_triple _ (a := 0) (c := 6) ?_ (by norm_num) (by norm_num)
    simp; norm_num
  have hy : med (![1, 2, 4] : Fin 3 → ℝ) = 2 := med_triple _ (a := 1) (c := 4) (by simp) (by norm_num) (by norm_num)
  have key : momMedian (![0, 1, 3] : Fin 3 → ℝ) ![0, 1, 3] 1 1 2 = 14826 / 10000 := by
    unfold momMedian
    rw [if_pos (fun _ => rfl), hx]
    have : (fun i : Fin 3 => (|(![0, 1, 3] : Fin 3 → ℝ) i - 1| ^ 1 * |(![0, 1, 3] : Fin 3 → ℝ) i - 1| ^ 1) ^
        ((1 : ℝ) / (2 : ℕ))) = fun i => |(![0, 1, 3] : Fin 3 → ℝ) i - 1| := by
      funext i
      rw [pow_one, ← sq, Nat.cast_ofNat, ← Real.sqrt_eq_rpow, Real.sqrt_sq (abs_nonneg _)]
    rw [this, med_triple _ (a := 0) (b := 1) (c := 2) _ (by norm_num) (by norm_num)]
    · norm_num
    · simp; norm_num
      exact List.Perm.swap _ _ _
  refine ⟨⟨![0, 1, 3], ?_, ?_⟩, ⟨![0, 1, 3], ![1, 2, 4], ?_, ?_⟩⟩
  · rw [run_var (by norm_num)]
    rw [trimMom_ge2 _ _ _ _ (le_refl 2)]
    simp only [exps, lt_irrefl, if_false, key]
  · rw [run_var (by norm_num)]
    rw [trimMom_ge2 _ _ _ _ (le_refl 2)]
    simp only [exps, lt_irrefl, if_false]
    congr 1
    unfold momMedian
    rw [if_pos (fun _ => rfl), hx2]
    have : (fun i : Fin 3 => (|2 * (![0, 1, 3] : Fin 3 → ℝ) i - 2| ^ 1 * |2 * (![0, 1, 3] : Fin 3 → ℝ) i - 2| ^ 1) ^
        ((1 : ℝ) / (2 : ℕ))) = fun i => |2 * (![0, 1, 3] : Fin 3 → ℝ) i - 2| := by
      funext i
      rw [pow_one, ← sq, Nat.cast_ofNat, ← Real.sqrt_eq_rpow, Real.sqrt_sq (abs_nonneg _)]
    rw [this, med_triple _ (a := 0) (b := 2) (c := 4) _ (by norm_num) (by norm_num)]
    · norm_num
    · simp; norm_num
      exact List.Perm.swap _ _ _
  · rw [run_cov (by norm_num)]
    rw [trimMom_ge2 _ _ _ _ (le_refl 2)]
    simp only [exps, lt_irrefl, if_false, and_false, Except.map]
    congr 1
    unfold momMedian
    rw [if_neg (by intro h; have := h 0; norm_num at this), hx, hy]
    refine med_triple _ (a := 0) (c := 4) ?_ (by norm_num) (by norm_num)
    simp; norm_num
    exact List.Perm.swap _ _ _
  · have e : (fun i => (![1, 2, 4] : Fin 3 → ℝ) i + (-1)) = ![0, 1, 3] := by
      funext i; fin_cases i <;> norm_num
    rw [e, run_cov (by norm_num)]
    rw [trimMom_ge2 _ _ _ _ (le_refl 2)]
    simp only [exps, lt_irrefl, if_false, and_false, Except.map, key]

/-- The hypotheses of the C26 theorems are met by a third order co-moment of two columns with trimming and bias correction. -/
example : ∃ a : FitArgs, 2 < a.order ∧ a.option ≤ a.order ∧ a.trimming ≠ 0 ∧ a.biascorr = true :=
  ⟨{ trimming := 1 / 10, biascorr := true, order := 3, option := 1 }, by norm_num⟩

example : ¬ ((∀ i, (![0, 1, 3] : Fin 3 → ℝ) i + 5 = (![1, 2, 5] : Fin 3 → ℝ) i + 7) ∨
    ∀ i, (![0, 1, 3] : Fin 3 → ℝ) i = (![1, 2, 5] : Fin 3 → ℝ) i) := by
  rintro (h | h) <;> · have := h 0; norm_num at this

/-! ### C27 -/

lemma meanT_error_length {t : ℝ} {l l' : List ℝ} (hl : l.length = l'.length) {e : Err}
    (h : meanT t l = .error e) : meanT t l' = .error e := by
  unfold meanT at h ⊢
  split_ifs at h ⊢ with h0
  rw [trimMeanL_eq, keptL_length] at h ⊢
  rw [hl] at h
  split_ifs at h ⊢ with h1 h2
  · exact h
  · exact h
  · exact absurd h (by simp [ofNaN])

lemma momMean_symm {n : ℕ} (x y : Fin n → ℝ) (s order : ℕ) (t : ℝ) (b : Bool) :
    momMean x y s s order t b = momMean y x s s order t b := by
  unfold momMean
  have hl : (List.ofFn x).length = (List.ofFn y).length := by simp
  cases hx : meanT t (List.ofFn x) with
  | error e => rw [meanT_error_length hl hx]; rfl
  | ok mx =>
    cases hy : meanT t (List.ofFn y) with
    | error e => rw [meanT_error_length hl.symm hy] at hx; cases hx
    | ok my =>
      simp only [bind, Except.bind]
      have : (fun i => (x i - mx) ^ s * (y i - my) ^ s) = fun i => (y i - my) ^ s * (x i - mx) ^ s := by
        funext i; ring
      rw [this]

/-- C27: the covariance of a column with itself is its variance, for every centring, trimming fraction and bias
correction. -/
theorem C27_cov_self {n : ℕ} (hn : 0 < n) (c : Loc) (a : FitArgs) (x : Fin n → ℝ) :
    run .arithmetic .cov c a (colMat x) (colMat x) = run .arithmetic .var c a (colMat x) (colMat x) := by
  rw [run_cov hn, run_var hn]

/-- C27: with mean centring and without trimming the variance is nonnegative, and zero exactly for constant columns; with or
without bias correction. -/
theorem C27_var_nonneg {n : ℕ} (hn : 2 ≤ n) (a : FitArgs) (ht : a.trimming = 0) (x y : Fin n → ℝ) :
    ∃ v, run .arithmetic .var .mean a (colMat x) (colMat y) = .ok v ∧ 0 ≤ v ∧ (v = 0 ↔ ∀ i j, x i = x j) := by
  have hf : 0 < momFactor n 0 2 a.biascorr := by
    rw [momFactor_two]
    have : (2 : ℝ) ≤ n := by exact_mod_cast hn
    split_ifs
    · apply div_pos <;> linarith
    · norm_num
  refine ⟨cmom x x 1 1 * momFactor n 0 2 a.biascorr, ?_, ?_, ?_⟩
  · rw [run_var (by omega), ht, trimMom_mean0 _ _ _ (le_refl 2)]; rfl
  · exact mul_nonneg (cmom_self_nonneg x) hf.le
  · rw [mul_eq_zero, or_iff_left hf.ne', cmom_self_eq_zero (by omega)]

/-- C27: the covariance is symmetric, for every centring, trimming fraction and bias correction. -/
theorem C27_cov_symm {n : ℕ} (hn : 0 < n) (c : Loc) (a : FitArgs) (x y : Fin n → ℝ) :
    run .arithmetic .cov c a (colMat x) (colMat y) = run .arithmetic .cov c a (colMat y) (colMat x) := by
  rw [run_cov hn, run_cov hn, trimMom_ge2 _ _ _ _ (le_refl 2), trimMom_ge2 _ _ _ _ (le_refl 2)]
  cases c with
  | mean => exact momMean_symm x y _ _ _ _
  | median =>
    simp only [exps, lt_irrefl, if_false]
    congr 1
    unfold momMedian
    by_cases h : ∀ i, x i = y i
    · have : x = y := funext h
      subst this; rfl
    · rw [if_neg h, if_neg (fun h' => h fun i => (h' i).symm)]
      congr 1; funext i; ring

lemma avg_add {n : ℕ} (u v : Fin n → ℝ) : avg (fun i => u i + v i) = avg u + avg v := by
  unfold avg; rw [Finset.sum_add_distrib, add_div]

lemma avg_smul {n : ℕ} (r : ℝ) (u : Fin n → ℝ) : avg (fun i => r * u i) = r * avg u := by
  unfold avg; rw [← Finset.mul_sum, mul_div_assoc]

lemma cmom11_add {n : ℕ} (x x' y : Fin n → ℝ) :
    cmom (fun i => x i + x' i) y 1 1 = cmom x y 1 1 + cmom x' y 1 1 := by
  unfold cmom
  rw [← avg_add, avg_add]
  congr 1; funext i; ring

/-- C27: with mean centring and without trimming the covariance is additive in each argument (homogeneity is
`C26_scale_com_partial`). -/
theorem C27_cov_additive {n : ℕ} (hn : 0 < n) (a : FitArgs) (ht : a.trimming = 0) (x x' y : Fin n → ℝ) :
    ∃ v v', run .arithmetic .cov .mean a (colMat x) (colMat y) = .ok v ∧
      run .arithmetic .cov .mean a (colMat x') (colMat y) = .ok v' ∧
      run .arithmetic .cov .mean a (colMat fun i => x i + x' i) (colMat y) = .ok (v + v') ∧
      run .arithmetic .cov .mean a (colMat y) (colMat fun i => x i + x' i) = .ok (v + v') := by
  have key : ∀ u w : Fin n → ℝ, run .arithmetic .cov .mean a (colMat u) (colMat w) =
      .ok (cmom u w 1 1 * momFactor n 0 2 a.biascorr) := by
    intro u w
    rw [run_cov hn, ht, trimMom_mean0 _ _ _ (le_refl 2)]; rfl
  refine ⟨_, _, key x y, key x' y, ?_, ?_⟩
  · rw [key, cmom11_add, add_mul]
  · rw [C27_cov_symm hn, key, cmom11_add, add_mul]

example : ∃ x : Fin 3 → ℝ, ¬ ∀ i j, x i = x j := ⟨![0, 1, 3], fun h => by have := h 0 1; norm_num at this⟩

/-! ### C28 -/

lemma cmom11_sq_le {n : ℕ} (x y : Fin n → ℝ) : cmom x y 1 1 ^ 2 ≤ cmom x x 1 1 * cmom y y 1 1 := by
  unfold cmom avg
  simp only [pow_one]
  rw [div_pow, div_mul_div_comm, ← sq]
  refine div_le_div_of_nonneg_right ?_ (sq_nonneg _)
  have := Finset.sum_mul_sq_le_sq_mul_sq Finset.univ (fun i => x i - avg x) (fun i => y i - avg y)
  simp only [avg] at this
  refine this.trans (le_of_eq ?_)
  simp only [sq]

/-- Expansion of the variance of `y - s x`. -/
lemma cmom11_resid {n : ℕ} (x y : Fin n → ℝ) (s : ℝ) :
    cmom (fun i => y i - s * x i) (fun i => y i - s * x i) 1 1 =
      cmom y y 1 1 - 2 * s * cmom x y 1 1 + s ^ 2 * cmom x x 1 1 := by
  have e : avg (fun i => y i - s * x i) = avg y - s * avg x := by
    have := avg_add y (fun i => (-s) * x i)
    rw [avg_smul] at this
    simp only [neg_mul, ← sub_eq_add_neg] at this
    exact this
  unfold cmom
  rw [e]
  have h1 := avg_smul (2 * s) (fun i => (x i - avg x) ^ 1 * (y i - avg y) ^ 1)
  have h2 := avg_smul (s ^ 2) (fun i => (x i - avg x) ^ 1 * (x i - avg x) ^ 1)
  rw [← h1, ← h2]
  generalize avg x = mx
  generalize avg y = my
  unfold avg
  rw [← sub_div, ← add_div, ← Finset.sum_sub_distrib, ← Finset.sum_add_distrib]
  congr 1
  exact Finset.sum_congr rfl fun i _ => by ring

lemma cmom11_affine {n : ℕ} (hn : 0 < n) (x y : Fin n → ℝ) (a b c d : ℝ) :
    cmom (fun i => a * x i + b) (fun i => c * y i + d) 1 1 = a * c * cmom x y 1 1 := by
  have hn' : (n : ℝ) ≠ 0 := by exact_mod_cast hn.ne'
  have e : ∀ (u : Fin n → ℝ) (r s : ℝ), avg (fun i => r * u i + s) = r * avg u + s := by
    intro u r s
    rw [avg_add, avg_smul]
    unfold avg
    simp only [Finset.sum_const, Finset.card_univ, Fintype.card_fin, nsmul_eq_mul]
    field_simp
  unfold cmom
  rw [e, e]
  have h := avg_smul (a * c) (fun i => (x i - avg x) ^ 1 * (y i - avg y) ^ 1)
  rw [← h]
  congr 1; funext i; ring

/-- The correlation without trimming, with or without bias correction, is the textbook one. -/
lemma corr_value {n : ℕ} (hn : 2 ≤ n) (a : FitArgs) (ht : a.trimming = 0) (ho : a.order = 2) (x y : Fin n → ℝ) :
    run .arithmetic .corr .mean a (colMat x) (colMat y) =
      .ok (cmom x y 1 1 / (√(cmom x x 1 1) * √(cmom y y 1 1))) := by
  have hf : 0 < momFactor n 0 2 a.biascorr := by
    rw [momFactor_two]
    have : (2 : ℝ) ≤ n := by exact_mod_cast hn
    split_ifs
    · apply div_pos <;> linarith
    · norm_num
  have key : ∀ u w : Fin n → ℝ, trimMom .mean u w 2 a.trimming 0 a.biascorr =
      .ok (momFactor n 0 2 a.biascorr * cmom u w 1 1) := by
    intro u w
    rw [ht, trimMom_mean0 _ _ _ (le_refl 2), mul_comm]; rfl
  rw [run_corr (by omega) .mean a ho x y _ _ _ (key x x) (key x y) (key y y)
    (mul_nonneg hf.le (cmom_self_nonneg x)) (mul_nonneg hf.le (cmom_self_nonneg y))]
  rw [Real.sqrt_mul hf.le, Real.sqrt_mul hf.le]
  congr 1
  rw [show √(momFactor n 0 2 a.biascorr) * √(cmom x x 1 1) * (√(momFactor n 0 2 a.biascorr) * √(cmom y y 1 1)) =
    (√(momFactor n 0 2 a.biascorr) * √(momFactor n 0 2 a.biascorr)) * (√(cmom x x 1 1) * √(cmom y y 1 1)) by ring,
    Real.mul_self_sqrt hf.le, mul_div_mul_left _ _ hf.ne']

lemma corr_eq_iff {n : ℕ} (hn : 0 < n) (x y : Fin n → ℝ) (hx : 0 < cmom x x 1 1) (hy : 0 < cmom y y 1 1) :
    (cmom x y 1 1 / (√(cmom x x 1 1) * √(cmom y y 1 1)) = 1 ↔ ∃ s t : ℝ, 0 < s ∧ ∀ i, y i = s * x i + t) := by
  have hsx := Real.sqrt_pos.mpr hx
  have hsy := Real.sqrt_pos.mpr hy
  have hxx := Real.mul_self_sqrt hx.le
  have hyy := Real.mul_self_sqrt hy.le
  constructor
  · intro h
    rw [div_eq_one_iff_eq (by positivity)] at h
    set u := √(cmom x x 1 1)
    set v := √(cmom y y 1 1)
    have h0 : cmom (fun i => y i - v / u * x i) (fun i => y i - v / u * x i) 1 1 = 0 := by
      rw [cmom11_resid, h, ← hxx, ← hyy]
      field_simp
      ring
    rw [cmom_self_eq_zero hn] at h0
    refine ⟨v / u, y ⟨0, hn⟩ - v / u * x ⟨0, hn⟩, by positivity, fun i => ?_⟩
    have := h0 i ⟨0, hn⟩
    linarith
  · rintro ⟨s, t, hs, h⟩
    have hy' : y = fun i => s * x i + t := funext h
    have e1 : cmom x y 1 1 = s * cmom x x 1 1 := by
      have := cmom11_affine hn x x 1 0 s t
      simp only [one_mul, add_zero] at this
      rw [hy', this]
    have e2 : cmom y y 1 1 = s * s * cmom x x 1 1 := by
      rw [hy', cmom11_affine hn x x s t s t]
    rw [e1, e2, Real.sqrt_mul (by positivity), Real.sqrt_mul_self hs.le,
      show √(cmom x x 1 1) * (s * √(cmom x x 1 1)) = s * (√(cmom x x 1 1) * √(cmom x x 1 1)) by ring, hxx]
    exact div_self (by positivity)

/-- C28: with mean centring and without trimming, with or without bias correction, the correlation of two nonconstant columns
is a number in [-1,1]; it is 1 exactly for increasing and -1 exactly for decreasing affine relations. -/
theorem C28_corr_range {n : ℕ} (hn : 2 ≤ n) (a : FitArgs) (ht : a.trimming = 0) (ho : a.order = 2) (x y : Fin n → ℝ)
    (hx : ¬ ∀ i j, x i = x j) (hy : ¬ ∀ i j, y i = y j) :
    ∃ r, run .arithmetic .corr .mean a (colMat x) (colMat y) = .ok r ∧ -1 ≤ r ∧ r ≤ 1 ∧
      (r = 1 ↔ ∃ s t : ℝ, 0 < s ∧ ∀ i, y i = s * x i + t) ∧
      (r = -1 ↔ ∃ s t : ℝ, s < 0 ∧ ∀ i, y i = s * x i + t) := by
  have hn0 : 0 < n := by omega
  have hx0 : 0 < cmom x x 1 1 :=
    lt_of_le_of_ne (cmom_self_nonneg x) fun h => hx ((cmom_self_eq_zero hn0 x).mp h.symm)
  have hy0 : 0 < cmom y y 1 1 :=
    lt_of_le_of_ne (cmom_self_nonneg y) fun h => hy ((cmom_self_eq_zero hn0 y).mp h.symm)
  have hsx := Real.sqrt_pos.mpr hx0
  have hsy := Real.sqrt_pos.mpr hy0
  have hsq := cmom11_sq_le x y
  have habs : |cmom x y 1 1| ≤ √(cmom x x 1 1) * √(cmom y y 1 1) := by
    rw [← Real.sqrt_mul hx0.le, ← Real.sqrt_sq_eq_abs]
    exact Real.sqrt_le_sqrt hsq
  have hneg : cmom x (fun i => (-1) * y i + 0) 1 1 = - cmom x y 1 1 := by
    have := cmom11_affine hn0 x y 1 0 (-1) 0
    simp only [one_mul, add_zero] at this ⊢
    rw [this]; ring
  have hnegy : cmom (fun i => (-1) * y i + 0) (fun i => (-1) * y i + 0) 1 1 = cmom y y 1 1 := by
    rw [cmom11_affine hn0]; ring
  refine ⟨_, corr_value hn a ht ho x y, ?_, ?_, corr_eq_iff hn0 x y hx0 hy0, ?_⟩
  · rw [le_div_iff₀ (by positivity)]
    have := neg_le_of_abs_le habs
    linarith
  · rw [div_le_one (by positivity)]
    exact le_of_abs_le habs
  · have h := corr_eq_iff hn0 x (fun i => (-1) * y i + 0) hx0 (by rw [hnegy]; exact hy0)
    rw [hneg, hnegy, neg_div, neg_eq_iff_eq_neg] at h
    rw [h]
    constructor
    · rintro ⟨s, t, hs, h⟩
      exact ⟨-s, -t, by linarith, fun i => by have := h i; linarith⟩
    · rintro ⟨s, t, hs, h⟩
      exact ⟨-s, -t, by linarith, fun i => by rw [h i]; ring⟩

/-- C28: multiplying the variables by nonzero constants and shifting them changes at most the sign of the correlation. -/
theorem C28_corr_scale {n : ℕ} (hn : 2 ≤ n) (a : FitArgs) (ht : a.trimming = 0) (ho : a.order = 2) (x y : Fin n → ℝ)
    (r s r' s' : ℝ) (hr : r ≠ 0) (hr' : r' ≠ 0) :
    run .arithmetic .corr .mean a (colMat fun i => r * x i + s) (colMat fun i => r' * y i + s') =
      (run .arithmetic .corr .mean a (colMat x) (colMat y)).map
        (fun v => if 0 < r * r' then v else -v) := by
  have hn0 : 0 < n := by omega
  rw [corr_value hn a ht ho, corr_value hn a ht ho, cmom11_affine hn0, cmom11_affine hn0, cmom11_affine hn0]
  simp only [Except.map]
  congr 1
  rw [Real.sqrt_mul (mul_self_nonneg r), Real.sqrt_mul (mul_self_nonneg r'), Real.sqrt_mul_self_eq_abs,
    Real.sqrt_mul_self_eq_abs]
  rw [show |r| * √(cmom x x 1 1) * (|r'| * √(cmom y y 1 1)) = |r * r'| * (√(cmom x x 1 1) * √(cmom y y 1 1)) by
    rw [abs_mul]; ring]
  have hrr : r * r' ≠ 0 := mul_ne_zero hr hr'
  rw [mul_div_mul_comm]
  split_ifs with h
  · rw [abs_of_pos h, div_self hrr, one_mul]
  · have : r * r' < 0 := lt_of_le_of_ne (not_lt.mp h) hrr
    rw [abs_of_neg this, div_neg, div_self hrr]; ring

/-- Two columns that are not affinely related, with bias correction. -/
example : ∃ r, run .arithmetic .corr .mean { biascorr := true } (colMat (![0, 1, 3] : Fin 3 → ℝ)) (colMat ![1, 0, 0]) =
    .ok r ∧ r ≠ 1 := by
  obtain ⟨r, h, _, _, h1, _⟩ := C28_corr_range (n := 3) (by norm_num) { biascorr := true } rfl rfl ![0, 1, 3] ![1, 0, 0]
    (fun h => by have := h 0 1; norm_num at this) (fun h => by have := h 0 1; norm_num at this)
  refine ⟨r, h, fun hr => ?_⟩
  obtain ⟨s, t, hs, h⟩ := h1.mp hr
  have h1 := h 1
  have h2 := h 2
  simp at h1 h2
  linarith

end Direpack
