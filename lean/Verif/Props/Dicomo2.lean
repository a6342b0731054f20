import Verif.Props.Dicomo

/-!
Further properties of the product-moment statistics: standardised moments, small sample corrections, continuum
association, median correlation.
-/

namespace Direpack

open scoped BigOperators
open Spec

/-! ### C29 -/

/-- The median based "variance" is 1.4826 times the median absolute deviation. -/
lemma momMedian_self {n : ℕ} (x : Fin n → ℝ) :
    momMedian x x 1 1 2 = 14826 / 10000 * med fun i => |x i - med x| := by
  unfold momMedian
  rw [if_pos (fun _ => rfl)]
  have : (fun i => (|x i - med x| ^ 1 * |x i - med x| ^ 1) ^ ((1 : ℝ) / (2 : ℕ))) = fun i => |x i - med x| := by
    funext i
    rw [pow_one, ← sq, Nat.cast_ofNat, ← Real.sqrt_eq_rpow, Real.sqrt_sq (abs_nonneg _)]
  rw [this, if_pos rfl, mul_comm]

lemma med_abs_nonneg {n : ℕ} (hn : 0 < n) (x : Fin n → ℝ) : 0 ≤ med fun i => |x i - med x| := by
  refine le_medL_of_forall (ofFn_ne_nil hn _) fun v hv => ?_
  obtain ⟨i, rfl⟩ := (List.mem_ofFn' _ _).mp hv
  exact abs_nonneg _

lemma med_smul {n : ℕ} (hn : 0 < n) (r : ℝ) (x : Fin n → ℝ) : med (fun i => r * x i) = r * med x := by
  have := med_affine hn r 0 x
  simpa using this

lemma momMedian_self_nonneg {n : ℕ} (hn : 0 < n) (x : Fin n → ℝ) : 0 ≤ momMedian x x 1 1 2 := by
  rw [momMedian_self]
  have := med_abs_nonneg hn x
  positivity

lemma momMedian_self_smul {n : ℕ} (hn : 0 < n) (r : ℝ) (hr : 0 < r) (x : Fin n → ℝ) :
    momMedian (fun i => r * x i) (fun i => r * x i) 1 1 2 = r * momMedian x x 1 1 2 := by
  rw [momMedian_self, momMedian_self, med_smul hn]
  have : (fun i => |r * x i - r * med x|) = fun i => r * |x i - med x| := by
    funext i; rw [← mul_sub, abs_mul, abs_of_pos hr]
  rw [this, med_smul hn]; ring

lemma corr_median_value {n : ℕ} (hn : 0 < n) (a : FitArgs) (ho : a.order = 2) (x y : Fin n → ℝ) :
    run .arithmetic .corr .median a (colMat x) (colMat y) =
      .ok (momMedian x y 1 1 2 / (√(momMedian x x 1 1 2) * √(momMedian y y 1 1 2))) := by
  have key : ∀ u w : Fin n → ℝ, trimMom .median u w 2 a.trimming 0 a.biascorr = .ok (momMedian u w 1 1 2) := by
    intro u w
    rw [trimMom_ge2 _ _ _ _ (le_refl 2)]
    rfl
  exact run_corr hn .median a ho x y _ _ _ (key x x) (key x y) (key y y) (momMedian_self_nonneg hn x)
    (momMedian_self_nonneg hn y)

/-- C29 (partial): what is true of the median correlation: rescaling by positive constants `r`, `r'` multiplies it by
`√(r r')`; it is unchanged only if `r r' = 1`.  (Columns that do not coincide before or after the rescaling.) -/
theorem C29_median_corr_scale_partial {n : ℕ} (hn : 0 < n) (a : FitArgs) (ho : a.order = 2) (x y : Fin n → ℝ) (r r' : ℝ)
    (hr : 0 < r) (hr' : 0 < r') (hxy : ¬ ∀ i, x i = y i) (hxy' : ¬ ∀ i, r * x i = r' * y i) :
    run .arithmetic .corr .median a (colMat fun i => r * x i) (colMat fun i => r' * y i) =
      (run .arithmetic .corr .median a (colMat x) (colMat y)).map (fun v => √(r * r') * v) := by
  rw [corr_median_value hn a ho, corr_median_value hn a ho, momMedian_self_smul hn r hr, momMedian_self_smul hn r' hr']
  have hco : momMedian (fun i => r * x i) (fun i => r' * y i) 1 1 2 = r * r' * momMedian x y 1 1 2 := by
    unfold momMedian
    rw [if_neg hxy, if_neg hxy', med_smul hn r x, med_smul hn r' y]
    have e := med_smul hn (r * r') fun i => (x i - med x) ^ 1 * (y i - med y) ^ 1
    rw [← e]
    congr 1; funext i; ring
  simp only [Except.map]
  congr 1
  rw [hco, Real.sqrt_mul hr.le, Real.sqrt_mul hr'.le, Real.sqrt_mul hr.le]
  have h1 := Real.mul_self_sqrt hr.le
  have h2 := Real.mul_self_sqrt hr'.le
  have p1 := Real.sqrt_pos.mpr hr
  have p2 := Real.sqrt_pos.mpr hr'
  set u := √r
  set v := √r'
  rw [← h1, ← h2, show u * √(momMedian x x 1 1 2) * (v * √(momMedian y y 1 1 2)) =
    (u * v) * (√(momMedian x x 1 1 2) * √(momMedian y y 1 1 2)) by ring,
    show u * u * (v * v) * momMedian x y 1 1 2 = (u * v) * (u * v * momMedian x y 1 1 2) by ring,
    mul_div_mul_left _ _ (by positivity), mul_div_assoc]

/-- C29 fails: multiplying `x` by 4 doubles the median correlation of these two columns, from 1/1.4826 to 2/1.4826,
which is not even in [-1,1]. -/
theorem C29_median_corr_violated :
    ∃ x y : Fin 3 → ℝ, run .arithmetic .corr .median {} (colMat x) (colMat y) = .ok (10000 / 14826) ∧
      run .arithmetic .corr .median {} (colMat fun i => 4 * x i) (colMat y) = .ok (2 * (10000 / 14826)) := by
  have hx : med (![0, 1, 2] : Fin 3 → ℝ) = 1 := med_triple _ (a := 0) (c := 2) (by simp) (by norm_num) (by norm_num)
  have hy : med (![0, 1, 3] : Fin 3 → ℝ) = 1 := med_triple _ (a := 0) (c := 3) (by simp) (by norm_num) (by norm_num)
  have sx : momMedian (![0, 1, 2] : Fin 3 → ℝ) ![0, 1, 2] 1 1 2 = 14826 / 10000 := by
    rw [momMedian_self, hx, med_triple _ (a := 0) (b := 1) (c := 1) _ (by norm_num) (by norm_num)]
    · norm_num
    · simp; norm_num
      exact List.Perm.swap _ _ _
  have sy : momMedian (![0, 1, 3] : Fin 3 → ℝ) ![0, 1, 3] 1 1 2 = 14826 / 10000 := by
    rw [momMedian_self, hy, med_triple _ (a := 0) (b := 1) (c := 2) _ (by norm_num) (by norm_num)]
    · norm_num
    · simp; norm_num
      exact List.Perm.swap _ _ _
  have sxy : momMedian (![0, 1, 2] : Fin 3 → ℝ) ![0, 1, 3] 1 1 2 = 1 := by
    unfold momMedian
    rw [if_neg (by intro h; have := h 2; simp at this), hx, hy]
    refine med_triple _ (a := 0) (c := 2) ?_ (by norm_num) (by norm_num)
    simp; norm_num
    exact List.Perm.swap _ _ _
  have h1 : run .arithmetic .corr .median {} (colMat (![0, 1, 2] : Fin 3 → ℝ)) (colMat ![0, 1, 3]) =
      .ok (10000 / 14826) := by
    rw [corr_median_value (by norm_num) _ rfl, sx, sy, sxy, Real.mul_self_sqrt (by norm_num)]
    norm_num
  refine ⟨![0, 1, 2], ![0, 1, 3], h1, ?_⟩
  have := C29_median_corr_scale_partial (n := 3) (by norm_num) {} rfl ![0, 1, 2] ![0, 1, 3] 4 1 (by norm_num) (by norm_num)
    (by intro h; have := h 2; simp at this) (by intro h; have := h 1; norm_num at this)
  rw [h1] at this
  simp only [one_mul] at this
  rw [this]
  simp only [Except.map, mul_one]
  rw [show (4 : ℝ) = 2 ^ 2 by norm_num, Real.sqrt_sq (by norm_num)]

/-! ### C30 -/

/-- Trimming fractions that leave something. -/
def TrimOK (n : ℕ) (t : ℝ) : Prop := t = 0 ∨ 2 * ⌊t * n⌋₊ < n

lemma meanT_ok {n : ℕ} (hn : 0 < n) {t : ℝ} (hT : TrimOK n t) (v : Fin n → ℝ) :
    ∃ m, meanT t (List.ofFn v) = .ok m ∧ ((∀ i, 0 ≤ v i) → 0 ≤ m) := by
  by_cases h0 : t = 0
  · subst h0
    exact ⟨_, meanT0 v, fun h => div_nonneg (Finset.sum_nonneg fun i _ => h i) (Nat.cast_nonneg n)⟩
  · have h2 := hT.resolve_left h0
    obtain ⟨m, hm⟩ := (C11_trim_defined_iff (List.ofFn v) t h0).mpr (by simpa using h2)
    refine ⟨m, hm, fun h => ?_⟩
    obtain ⟨lo, ke, hi, hp, _, _, _, hne, hme, _⟩ := C11_trim_value _ _ _ h0 hm
    rw [hme]
    refine div_nonneg (List.sum_nonneg fun w hw => ?_) (Nat.cast_nonneg _)
    have : w ∈ List.ofFn v := hp.subset (by simp [hw])
    obtain ⟨i, rfl⟩ := (List.mem_ofFn' _ _).mp this
    exact h i

lemma trimMom_ok {n : ℕ} (hn : 0 < n) {t : ℝ} (hT : TrimOK n t) (x y : Fin n → ℝ) (order : ℕ) (ho : 2 ≤ order) (opt : ℕ)
    (b : Bool) : ∃ v, trimMom .mean x y order t opt b = .ok v := by
  rw [trimMom_ge2 _ _ _ _ ho]
  simp only
  obtain ⟨mx, hx, _⟩ := meanT_ok hn hT x
  obtain ⟨my, hy, _⟩ := meanT_ok hn hT y
  obtain ⟨m, hm, _⟩ := meanT_ok hn hT (fun i => (x i - mx) ^ (exps order opt).1 * (y i - my) ^ (exps order opt).2)
  unfold momMean
  simp only [hx, hy, hm, bind, Except.bind]
  exact ⟨_, rfl⟩

lemma trimMom_var_ok {n : ℕ} (hn : 0 < n) {t : ℝ} (hT : TrimOK n t) (x : Fin n → ℝ) :
    ∃ v, (∀ opt, trimMom .mean x x 2 t opt false = .ok v) ∧ 0 ≤ v := by
  obtain ⟨mx, hx, _⟩ := meanT_ok hn hT x
  obtain ⟨m, hm, hm0⟩ := meanT_ok hn hT (fun i => (x i - mx) ^ 1 * (x i - mx) ^ 1)
  refine ⟨m, fun opt => ?_, hm0 fun i => by rw [pow_one]; exact mul_self_nonneg _⟩
  rw [trimMom_ge2 _ _ _ _ (le_refl 2)]
  simp only [exps, lt_irrefl, if_false]
  unfold momMean
  simp only [hx, hm, bind, Except.bind, momFactor_false, mul_one]

lemma sqrt_pow_rpow {v : ℝ} (hv : 0 ≤ v) (k : ℕ) : √v ^ k = v ^ ((k : ℝ) / 2) := by
  rw [Real.sqrt_eq_rpow, ← Real.rpow_natCast, ← Real.rpow_mul hv]
  congr 1; ring

/-- C30: the co-skewness of a column with itself is its skewness: every option 0..3, every admissible trimming, every
constructor centre; no bias correction. -/
theorem C30_cos_self {n : ℕ} (hn : 0 < n) (c : Loc) (a : FitArgs) (hT : TrimOK n a.trimming) (hb : a.biascorr = false)
    (hs : a.standardized = true) (hopt : a.option ≤ 3) (x : Fin n → ℝ) :
    run .arithmetic .cos c a (colMat x) (colMat x) = run .arithmetic .skew c a (colMat x) (colMat x) := by
  obtain ⟨co, hco⟩ := trimMom_ok hn hT x x 3 (by norm_num) a.option false
  obtain ⟨v, hv, hv0⟩ := trimMom_var_ok hn hT x
  rw [run_co hn .cos (Or.inl rfl) c a hb hs x x co v v hco (hv _) (hv _) hv0 hv0,
    run_std hn .skew (Or.inr (Or.inl rfl)) c a x x co v (by rw [hb]; exact hco) (hv _)]
  congr 1
  rw [if_neg (by simp)]
  unfold standardizeMom
  rw [hb]
  simp only [Bool.false_eq_true, if_false, numPower, modeTable]
  rw [div_div, ← pow_add, Nat.sub_add_cancel hopt, sqrt_pow_rpow hv0]
  norm_num

/-- C30 (partial): the co-kurtosis of a column with itself is its kurtosis, for the default `Fisher=True`: every option
0..4, every admissible trimming; no bias correction. -/
theorem C30_cok_self_partial {n : ℕ} (hn : 0 < n) (c : Loc) (a : FitArgs) (hT : TrimOK n a.trimming)
    (hb : a.biascorr = false) (hs : a.standardized = true) (hF : a.fisher = true) (hopt : a.option ≤ 4) (x : Fin n → ℝ) :
    run .arithmetic .cok c a (colMat x) (colMat x) = run .arithmetic .kurt c a (colMat x) (colMat x) := by
  obtain ⟨co, hco⟩ := trimMom_ok hn hT x x 4 (by norm_num) a.option false
  obtain ⟨v, hv, hv0⟩ := trimMom_var_ok hn hT x
  rw [run_co hn .cok (Or.inr rfl) c a hb hs x x co v v hco (hv _) (hv _) hv0 hv0,
    run_std hn .kurt (Or.inr (Or.inr rfl)) c a x x co v (by rw [hb]; exact hco) (hv _)]
  congr 1
  rw [if_neg (by simp [hF])]
  unfold standardizeMom
  rw [hb]
  simp only [Bool.false_eq_true, if_false, numPower, modeTable]
  rw [div_div, ← pow_add, Nat.sub_add_cancel hopt, sqrt_pow_rpow hv0]
  norm_num

/-- C30 fails with `Fisher=False` (no bias correction): for every column the co-kurtosis with itself is then 3 more than the
kurtosis, which ignores the flag. -/
theorem C30_cok_fisher_violated {n : ℕ} (hn : 0 < n) (c : Loc) (a : FitArgs) (hT : TrimOK n a.trimming)
    (hb : a.biascorr = false) (hs : a.standardized = true) (hF : a.fisher = false) (hopt : a.option ≤ 4) (x : Fin n → ℝ) :
    ∃ k, run .arithmetic .kurt c a (colMat x) (colMat x) = .ok k ∧
      run .arithmetic .cok c a (colMat x) (colMat x) = .ok (k + 3) := by
  obtain ⟨co, hco⟩ := trimMom_ok hn hT x x 4 (by norm_num) a.option false
  obtain ⟨v, hv, hv0⟩ := trimMom_var_ok hn hT x
  refine ⟨_, run_std hn .kurt (Or.inr (Or.inr rfl)) c a x x co v (by rw [hb]; exact hco) (hv _), ?_⟩
  rw [run_co hn .cok (Or.inr rfl) c a hb hs x x co v v hco (hv _) (hv _) hv0 hv0]
  congr 1
  rw [if_pos ⟨rfl, hF⟩]
  unfold standardizeMom
  rw [hb]
  simp only [Bool.false_eq_true, if_false, numPower, modeTable]
  rw [div_div, ← pow_add, Nat.sub_add_cancel hopt, sqrt_pow_rpow hv0]
  norm_num

/-- C30: skewness and kurtosis are unchanged by positive rescaling and by shifts, for every admissible trimming and with or
without bias correction. -/
theorem C30_skew_kurt_invariant {n : ℕ} (hn : 0 < n) (m : Mode) (hm : m = .skew ∨ m = .kurt) (c : Loc) (a : FitArgs)
    (hT : TrimOK n a.trimming) (hopt : a.option ≤ 3) (x y : Fin n → ℝ) (r s : ℝ) (hr : 0 < r) :
    run .arithmetic m c a (colMat fun i => r * x i + s) (colMat y) = run .arithmetic m c a (colMat x) (colMat y) := by
  have hm' : m = .std ∨ m = .skew ∨ m = .kurt := Or.inr hm
  set k := (modeTable m a.order).2 with hk
  have hk2 : 2 < k := by rcases hm with h | h <;> subst h <;> simp [hk, modeTable]
  obtain ⟨co, hco⟩ := trimMom_ok hn hT x x k hk2.le a.option a.biascorr
  obtain ⟨v, hv, hv0⟩ := trimMom_var_ok hn hT x
  have hco' := trimMom_mean_affine hn x x k hk2.le a.trimming a.option a.biascorr r s r s
  rw [hco] at hco'
  have hv' := trimMom_mean_affine hn x x 2 (le_refl 2) a.trimming a.option false r s r s
  rw [hv] at hv'
  simp only [Except.map] at hco' hv'
  rw [run_std hn m hm' c a _ y _ _ (by rw [← hk, if_pos hk2]; exact hco') (by rw [← hk, if_pos hk2]; exact hv'),
    run_std hn m hm' c a _ y _ _ (by rw [← hk, if_pos hk2]; exact hco) (by rw [← hk, if_pos hk2]; exact hv _)]
  have e1 : r ^ (exps k a.option).1 * r ^ (exps k a.option).2 = r ^ k := by
    rw [← pow_add]; congr 1
    unfold exps
    simp only [hk2, if_true]
    have : a.option ≤ k := by omega
    omega
  have e2 : r ^ (exps 2 a.option).1 * r ^ (exps 2 a.option).2 = r ^ 2 := by
    rw [← pow_add]; rfl
  have hq : r ^ k * co / (r ^ 2 * v) ^ numPower m = co / v ^ numPower m := by
    have : (r ^ 2 * v) ^ numPower m = r ^ k * v ^ numPower m := by
      rw [Real.mul_rpow (by positivity) hv0]
      congr 1
      rw [← Real.rpow_natCast, ← Real.rpow_mul hr.le, ← Real.rpow_natCast]
      congr 1
      rcases hm with h | h <;> subst h <;> simp [hk, modeTable, numPower] <;> norm_num
    rw [this, mul_div_mul_left _ _ (by positivity)]
  unfold standardizeMom
  rw [e1, e2, hq]

/-- C30: co-skewness and co-kurtosis are unchanged by positive rescaling and by shifts of either variable, for every
admissible trimming; no bias correction. -/
theorem C30_cos_cok_invariant {n : ℕ} (hn : 0 < n) (m : Mode) (hm : m = .cos ∨ m = .cok) (c : Loc) (a : FitArgs)
    (hT : TrimOK n a.trimming) (hb : a.biascorr = false) (hs : a.standardized = true)
    (x y : Fin n → ℝ) (r s r' s' : ℝ) (hr : 0 < r) (hr' : 0 < r') :
    run .arithmetic m c a (colMat fun i => r * x i + s) (colMat fun i => r' * y i + s') =
      run .arithmetic m c a (colMat x) (colMat y) := by
  set k := (modeTable m a.order).2 with hk
  have hk2 : 2 < k := by rcases hm with h | h <;> subst h <;> simp [hk, modeTable]
  obtain ⟨co, hco⟩ := trimMom_ok hn hT x y k hk2.le a.option false
  obtain ⟨v, hv, hv0⟩ := trimMom_var_ok hn hT x
  obtain ⟨w, hw, hw0⟩ := trimMom_var_ok hn hT y
  have hco' := trimMom_mean_affine hn x y k hk2.le a.trimming a.option false r s r' s'
  have hv' := trimMom_mean_affine hn x x 2 (le_refl 2) a.trimming a.option false r s r s
  have hw' := trimMom_mean_affine hn y y 2 (le_refl 2) a.trimming a.option false r' s' r' s'
  rw [hco] at hco'
  rw [hv] at hv'
  rw [hw] at hw'
  simp only [Except.map] at hco' hv' hw'
  have e2 : ∀ q : ℝ, q ^ (exps 2 a.option).1 * q ^ (exps 2 a.option).2 = q ^ 2 := by
    intro q; rw [← pow_add]; rfl
  rw [e2] at hv' hw'
  have e1 : exps k a.option = (k - a.option, a.option) := by unfold exps; simp [hk2]
  rw [e1] at hco'
  rw [run_co hn m hm c a hb hs _ _ _ _ _ hco' hv' hw' (by positivity) (by positivity),
    run_co hn m hm c a hb hs _ _ _ _ _ hco (hv _) (hw _) hv0 hw0]
  rw [← hk, Real.sqrt_mul (sq_nonneg r), Real.sqrt_mul (sq_nonneg r'), Real.sqrt_sq hr.le, Real.sqrt_sq hr'.le]
  have e : r ^ (k - a.option) * r' ^ a.option * co / (r * √v) ^ (k - a.option) / (r' * √w) ^ a.option =
      co / √v ^ (k - a.option) / √w ^ a.option := by
    rw [mul_pow, mul_pow, div_div, div_div,
      show r ^ (k - a.option) * √v ^ (k - a.option) * (r' ^ a.option * √w ^ a.option) =
        (r ^ (k - a.option) * r' ^ a.option) * (√v ^ (k - a.option) * √w ^ a.option) by ring,
      mul_div_mul_left _ _ (by positivity)]
  rw [e]

/-! ### C31 -/

/-- C31: the bias corrected variance and covariance are n/(n-1) times the uncorrected ones. -/
theorem C31_var_cov_corrected {n : ℕ} (hn : 2 ≤ n) (a : FitArgs) (ht : a.trimming = 0) (x y : Fin n → ℝ) :
    run .arithmetic .var .mean { a with biascorr := true } (colMat x) (colMat y) =
        (run .arithmetic .var .mean { a with biascorr := false } (colMat x) (colMat y)).map (fun v => (n : ℝ) / (n - 1) * v) ∧
    run .arithmetic .cov .mean { a with biascorr := true } (colMat x) (colMat y) =
        (run .arithmetic .cov .mean { a with biascorr := false } (colMat x) (colMat y)).map (fun v => (n : ℝ) / (n - 1) * v) := by
  have hn0 : 0 < n := by omega
  rw [run_var hn0, run_var hn0, run_cov hn0, run_cov hn0]
  simp only [ht]
  rw [trimMom_mean0 _ _ _ (le_refl 2), trimMom_mean0 _ _ _ (le_refl 2), trimMom_mean0 _ _ _ (le_refl 2),
    trimMom_mean0 _ _ _ (le_refl 2), momFactor_two, momFactor_two]
  simp only [Except.map, if_true, Bool.false_eq_true, if_false, mul_one]
  exact ⟨by rw [mul_comm], by rw [mul_comm]⟩

/-- The uncorrected variance and covariance are the textbook averages. -/
theorem C31_var_cov_uncorrected {n : ℕ} (hn : 0 < n) (a : FitArgs) (ht : a.trimming = 0) (hb : a.biascorr = false)
    (x y : Fin n → ℝ) :
    run .arithmetic .var .mean a (colMat x) (colMat y) = .ok (avg fun i => (x i - avg x) ^ 2) ∧
    run .arithmetic .cov .mean a (colMat x) (colMat y) = .ok (avg fun i => (x i - avg x) * (y i - avg y)) := by
  rw [run_var hn, run_cov hn, ht, hb, trimMom_mean0 _ _ _ (le_refl 2), trimMom_mean0 _ _ _ (le_refl 2), momFactor_false]
  simp only [exps, lt_irrefl, if_false, mul_one]
  refine ⟨by rw [cmom_self], by simp [cmom]⟩

/-- Uncorrected skewness and kurtosis, by their textbook definitions. -/
lemma skew_value {n : ℕ} (hn : 0 < n) (c : Loc) (a : FitArgs) (ht : a.trimming = 0) (hopt : a.option ≤ 3)
    (x y : Fin n → ℝ) :
    run .arithmetic .skew c a (colMat x) (colMat y) =
      .ok (standardizeMom .skew a.biascorr a.fisher n
        ((avg fun i => (x i - avg x) ^ 3) * momFactor n 0 3 a.biascorr) (avg fun i => (x i - avg x) ^ 2)) := by
  have h3 : trimMom .mean x x 3 a.trimming a.option a.biascorr =
      .ok ((avg fun i => (x i - avg x) ^ 3) * momFactor n 0 3 a.biascorr) := by
    rw [ht, trimMom_mean0 _ _ _ (by norm_num), cmom_self]
    simp only [exps]
    norm_num [Nat.sub_add_cancel hopt]
  have h2 : trimMom .mean x x 2 a.trimming a.option false = .ok (avg fun i => (x i - avg x) ^ 2) := by
    rw [ht, trimMom_mean0 _ _ _ (le_refl 2), cmom_self, momFactor_false, mul_one]
    rfl
  rw [run_std hn .skew (Or.inr (Or.inl rfl)) c a x y _ _ h3 h2, ht, pyRound_nat0]
  simp

lemma kurt_value {n : ℕ} (hn : 0 < n) (c : Loc) (a : FitArgs) (ht : a.trimming = 0) (hopt : a.option ≤ 4)
    (x y : Fin n → ℝ) :
    run .arithmetic .kurt c a (colMat x) (colMat y) =
      .ok (standardizeMom .kurt a.biascorr a.fisher n
        ((avg fun i => (x i - avg x) ^ 4) * momFactor n 0 4 a.biascorr) (avg fun i => (x i - avg x) ^ 2)) := by
  have h3 : trimMom .mean x x 4 a.trimming a.option a.biascorr =
      .ok ((avg fun i => (x i - avg x) ^ 4) * momFactor n 0 4 a.biascorr) := by
    rw [ht, trimMom_mean0 _ _ _ (by norm_num), cmom_self]
    simp only [exps]
    norm_num [Nat.sub_add_cancel hopt]
  have h2 : trimMom .mean x x 2 a.trimming a.option false = .ok (avg fun i => (x i - avg x) ^ 2) := by
    rw [ht, trimMom_mean0 _ _ _ (le_refl 2), cmom_self, momFactor_false, mul_one]
    rfl
  rw [run_std hn .kurt (Or.inr (Or.inr rfl)) c a x y _ _ h3 h2, ht, pyRound_nat0]
  simp

/-- C31: without correction the skewness is m₃/m₂^(3/2); with correction it is √(n(n-1))/(n-2) times that. -/
theorem C31_skew_corrected {n : ℕ} (hn : 3 ≤ n) (c : Loc) (a : FitArgs) (ht : a.trimming = 0) (hopt : a.option ≤ 3)
    (x y : Fin n → ℝ) :
    run .arithmetic .skew c { a with biascorr := false } (colMat x) (colMat y) =
        .ok ((avg fun i => (x i - avg x) ^ 3) / (avg fun i => (x i - avg x) ^ 2) ^ (3 / 2 : ℝ)) ∧
    run .arithmetic .skew c { a with biascorr := true } (colMat x) (colMat y) =
        .ok (√((n : ℝ) * (n - 1)) / (n - 2) *
          ((avg fun i => (x i - avg x) ^ 3) / (avg fun i => (x i - avg x) ^ 2) ^ (3 / 2 : ℝ))) := by
  have hn0 : 0 < n := by omega
  have hnr : (3 : ℝ) ≤ n := by exact_mod_cast hn
  rw [skew_value hn0 c { a with biascorr := false } ht hopt, skew_value hn0 c { a with biascorr := true } ht hopt]
  simp only [momFactor_false, momFactor_three, mul_one]
  unfold standardizeMom
  simp only [Bool.false_eq_true, if_false, if_true, numPower, true_and]
  congr 1
  generalize (avg fun i => (x i - avg x) ^ 3) = m3
  generalize (avg fun i => (x i - avg x) ^ 2) ^ (3 / 2 : ℝ) = d
  have hpos : 0 < (n : ℝ) * (n - 1) := by apply mul_pos <;> linarith
  have hsq := Real.mul_self_sqrt hpos.le
  have hs := Real.sqrt_pos.mpr hpos
  rw [show (n : ℝ) ^ 2 - n = n * (n - 1) by ring]
  set s := √((n : ℝ) * (n - 1))
  have h1 : (n : ℝ) - 1 ≠ 0 := by linarith
  have h2 : (n : ℝ) - 2 ≠ 0 := by linarith
  by_cases hd : d = 0
  · simp [hd]
  field_simp
  rw [sq, hsq]
  ring

/-- C31: without correction the kurtosis is m₄/m₂²; with correction it is the unbiased-under-normality excess
kurtosis G₂ = (n-1)/((n-2)(n-3)) ((n+1) m₄/m₂² - 3(n-1)), plus 3 if `Fisher=False`. -/
theorem C31_kurt_corrected {n : ℕ} (hn : 4 ≤ n) (c : Loc) (a : FitArgs) (ht : a.trimming = 0) (hopt : a.option ≤ 4)
    (x y : Fin n → ℝ) :
    run .arithmetic .kurt c { a with biascorr := false } (colMat x) (colMat y) =
        .ok ((avg fun i => (x i - avg x) ^ 4) / (avg fun i => (x i - avg x) ^ 2) ^ 2) ∧
    run .arithmetic .kurt c { a with biascorr := true } (colMat x) (colMat y) =
        .ok (((n : ℝ) - 1) / ((n - 2) * (n - 3)) *
          ((n + 1) * ((avg fun i => (x i - avg x) ^ 4) / (avg fun i => (x i - avg x) ^ 2) ^ 2) - 3 * (n - 1)) +
          if a.fisher then 0 else 3) := by
  have hn0 : 0 < n := by omega
  have hnr : (4 : ℝ) ≤ n := by exact_mod_cast hn
  rw [kurt_value hn0 c { a with biascorr := false } ht hopt, kurt_value hn0 c { a with biascorr := true } ht hopt]
  simp only [momFactor_false, momFactor_four, mul_one]
  unfold standardizeMom
  simp only [Bool.false_eq_true, if_false, if_true, numPower]
  have e : ((avg fun i => (x i - avg x) ^ 2) ^ (2 : ℝ)) = (avg fun i => (x i - avg x) ^ 2) ^ 2 := by
    exact Real.rpow_natCast _ 2
  rw [e]
  refine ⟨rfl, ?_⟩
  congr 1
  generalize (avg fun i => (x i - avg x) ^ 4) = m4
  generalize (avg fun i => (x i - avg x) ^ 2) ^ 2 = d
  have h0 : (n : ℝ) ≠ 0 := by linarith
  have h1 : (n : ℝ) - 2 ≠ 0 := by linarith
  have h2 : (n : ℝ) - 3 ≠ 0 := by linarith
  by_cases hd : d = 0
  · subst hd
    split_ifs <;> field_simp <;> ring
  split_ifs <;> field_simp <;> ring

/-- C78 (partial): without bias correction `std` is the square root of `var` (mean centring, no trimming). -/
theorem C78_std_sqrt_var_partial {n : ℕ} (hn : 0 < n) (a : FitArgs) (ht : a.trimming = 0) (hb : a.biascorr = false)
    (x y : Fin n → ℝ) :
    run .arithmetic .std .mean a (colMat x) (colMat y) =
      (run .arithmetic .var .mean a (colMat x) (colMat y)).map Real.sqrt := by
  have h2 : trimMom .mean x x 2 a.trimming 0 false = .ok (avg fun i => (x i - avg x) ^ 2) := by
    rw [ht, trimMom_mean0 _ _ _ (le_refl 2), cmom_self, momFactor_false, mul_one]
    rfl
  rw [run_std hn .std (Or.inl rfl) .mean a x y _ _ (by rw [hb]; exact h2) h2, run_var hn, hb, h2]
  simp only [Except.map, standardizeMom, Bool.false_eq_true, if_false, numPower]
  congr 1
  rw [← Real.sqrt_eq_rpow, Real.div_sqrt]

/-- C78 fails with bias correction: `std` of the column (0, 2) is then 2, but `var` is 2 and its root √2. -/
theorem C78_std_biascorr_violated :
    run .arithmetic .std .mean { biascorr := true } (colMat (![0, 2] : Fin 2 → ℝ)) (colMat ![0, 2]) = .ok 2 ∧
    run .arithmetic .var .mean { biascorr := true } (colMat (![0, 2] : Fin 2 → ℝ)) (colMat ![0, 2]) = .ok 2 ∧
    √(2 : ℝ) ≠ 2 := by
  have hv : (avg fun i => ((![0, 2] : Fin 2 → ℝ) i - avg ![0, 2]) ^ 2) = 1 := by
    simp [avg, Fin.sum_univ_two]
    norm_num
  have h : ∀ b, trimMom .mean (![0, 2] : Fin 2 → ℝ) ![0, 2] 2 0 0 b = .ok (1 * momFactor 2 0 2 b) := by
    intro b
    rw [trimMom_mean0 _ _ _ (le_refl 2), cmom_self]
    simp only [exps, lt_irrefl, if_false, Nat.reduceAdd, hv]
  refine ⟨?_, ?_, ?_⟩
  · rw [run_std (by norm_num) .std (Or.inl rfl) .mean { biascorr := true } _ _ _ _ (h true) (h false)]
    simp [standardizeMom, momFactor_two, numPower]
    norm_num
  · rw [run_var (by norm_num)]
    refine (h true).trans ?_
    rw [momFactor_two]
    norm_num
  · intro h
    have := Real.mul_self_sqrt (show (0 : ℝ) ≤ 2 by norm_num)
    rw [h] at this
    norm_num at this

/-! ### C32 -/

/-- C32: without trimming and with mean centring, continuum association is `cov² · sd(x)^(α-1)`, with the covariance and
variance that `cov` and `var` return under the same arguments. -/
theorem C32_continuum_value {n : ℕ} (hn : 2 ≤ n) (a : FitArgs) (ht : a.trimming = 0) (ho : a.order = 2) (x y : Fin n → ℝ) :
    ∃ c v, run .arithmetic .cov .mean a (colMat x) (colMat y) = .ok c ∧
      run .arithmetic .var .mean a (colMat x) (colMat y) = .ok v ∧
      run .arithmetic .continuum .mean a (colMat x) (colMat y) = .ok (c ^ 2 * √v ^ (a.alpha - 1)) := by
  have hn0 : 0 < n := by omega
  obtain ⟨v, hv, hv0, _⟩ := C27_var_nonneg hn a ht x y
  have hv' := hv
  rw [run_var hn0] at hv'
  have key : ∀ u w : Fin n → ℝ, ∃ z, trimMom .mean u w 2 a.trimming 0 a.biascorr = .ok z := by
    intro u w
    rw [ht, trimMom_mean0 _ _ _ (le_refl 2)]; exact ⟨_, rfl⟩
  obtain ⟨c, hc⟩ := key x y
  obtain ⟨w, hw⟩ := key y y
  refine ⟨c, v, by rw [run_cov hn0]; exact hc, hv, ?_⟩
  rw [run_continuum hn0 .mean a ho x y v c w hv' hc hw hv0]
  congr 1; ring

/-- C32: at α = 1 the square root of the continuum association is the absolute covariance. -/
theorem C32_continuum_alpha_one {n : ℕ} (hn : 2 ≤ n) (a : FitArgs) (ht : a.trimming = 0) (ho : a.order = 2)
    (hα : a.alpha = 1) (x y : Fin n → ℝ) :
    (run .arithmetic .continuum .mean a (colMat x) (colMat y)).map Real.sqrt =
      (run .arithmetic .cov .mean a (colMat x) (colMat y)).map (fun v => |v|) := by
  obtain ⟨c, v, hc, hv, h⟩ := C32_continuum_value hn a ht ho x y
  rw [h, hc, hα]
  simp [Except.map, Real.sqrt_sq_eq_abs]

/-- C32: homogeneous of degree α+1 in `x` and of degree 2 in `y`, for positive factors. -/
theorem C32_continuum_homogeneous {n : ℕ} (hn : 2 ≤ n) (a : FitArgs) (ht : a.trimming = 0) (ho : a.order = 2)
    (x y : Fin n → ℝ) (r s : ℝ) (hr : 0 < r) :
    run .arithmetic .continuum .mean a (colMat fun i => r * x i) (colMat fun i => s * y i) =
      (run .arithmetic .continuum .mean a (colMat x) (colMat y)).map (fun v => r ^ (a.alpha + 1) * s ^ 2 * v) := by
  have hn0 : 0 < n := by omega
  obtain ⟨c, v, hc, hv, h⟩ := C32_continuum_value hn a ht ho x y
  obtain ⟨c', v', hc', hv', h'⟩ := C32_continuum_value hn a ht ho (fun i => r * x i) (fun i => s * y i)
  obtain ⟨_, hvv, hv0, _⟩ := C27_var_nonneg hn a ht x y
  rw [hv] at hvv
  cases hvv
  rw [run_cov hn0] at hc hc'
  have e := trimMom_mean_affine hn0 x y 2 (le_refl 2) a.trimming 0 a.biascorr r 0 s 0
  simp only [add_zero] at e
  rw [hc, hc'] at e
  simp only [Except.map, Except.ok.injEq, exps, lt_irrefl, if_false, pow_one] at e
  rw [run_var hn0] at hv hv'
  have e2 := trimMom_mean_affine hn0 x x 2 (le_refl 2) a.trimming 0 a.biascorr r 0 r 0
  simp only [add_zero] at e2
  rw [hv, hv'] at e2
  simp only [Except.map, Except.ok.injEq, exps, lt_irrefl, if_false, pow_one] at e2
  rw [h, h']
  simp only [Except.map]
  congr 1
  rw [e, e2, Real.sqrt_mul (mul_self_nonneg r), Real.sqrt_mul_self hr.le,
    Real.mul_rpow hr.le (Real.sqrt_nonneg _),
    show a.alpha + 1 = 2 + (a.alpha - 1) by ring, Real.rpow_add hr, show r ^ (2 : ℝ) = r ^ 2 from Real.rpow_natCast r 2]
  ring

/-- Cases with trimming that meet the hypotheses above. -/
example : TrimOK 20 (1 / 10) := by
  right
  rw [show (1 / 10 : ℝ) * (20 : ℕ) = (2 : ℕ) by norm_num, Nat.floor_natCast]
  norm_num

end Direpack
