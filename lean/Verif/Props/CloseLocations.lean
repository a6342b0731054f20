import Verif.Props.Preproc2
import Verif.Props.Stability
import Verif.Props.Idempotent

/-! Property C199: the different locations and scales of the same data stay close to each other. -/

namespace Direpack

open scoped BigOperators
open Spec

variable {n p : ℕ}

lemma sq_mean_le (x : Fin n → ℝ) : (∑ i, |x i|) ^ 2 ≤ n * ∑ i, x i ^ 2 := by
  have h := sq_sum_le_card_mul_sum_sq (s := Finset.univ) (f := fun i : Fin n => |x i|)
  simpa [sq_abs] using h

lemma card_var (hn : 0 < n) (x : Fin n → ℝ) : n * var x = ∑ i, (x i - mean x) ^ 2 := by
  have hn' : (0 : ℝ) < n := by exact_mod_cast hn
  rw [var_eq, mean_eq]; field_simp

/-- The mean and any point that is at least as central as the mean in absolute deviation. -/
lemma mean_near (hn : 0 < n) (x : Fin n → ℝ) : |mean x - med x| ≤ Real.sqrt (var x) := by
  have hn' : (0 : ℝ) < n := by exact_mod_cast hn
  have h1 : n * |mean x - med x| ≤ ∑ i, |x i - med x| := by
    have e : n * (mean x - med x) = ∑ i, (x i - med x) := by
      rw [Finset.sum_sub_distrib, mean_eq]
      simp only [Finset.sum_const, Finset.card_univ, Fintype.card_fin, nsmul_eq_mul]
      field_simp
    rw [← abs_of_pos hn', ← abs_mul, e]
    exact Finset.abs_sum_le_sum_abs _ _
  have h2 := C13_median_minimises x (mean x)
  have h3 := sq_mean_le fun i => x i - mean x
  have h4 : n * var x = ∑ i, (x i - mean x) ^ 2 := by
    rw [var_eq, mean_eq]; field_simp
  apply Real.le_sqrt_of_sq_le
  have h5 : (n * |mean x - med x|) ^ 2 ≤ n * (n * var x) := by
    rw [h4]
    exact (pow_le_pow_left₀ (by positivity) (h1.trans h2) 2).trans h3
  rw [sq_abs] at *
  have h6 : (n : ℝ) ^ 2 * (mean x - med x) ^ 2 ≤ n ^ 2 * var x := by
    have : (n * |mean x - med x|) ^ 2 = (n : ℝ) ^ 2 * (mean x - med x) ^ 2 := by rw [mul_pow, sq_abs]
    nlinarith
  exact le_of_mul_le_mul_left h6 (by positivity)

/-- **C199**: the mean and the median of a variable differ by at most its standard deviation. -/
theorem C199_mean_median (hn : 0 < n) (X : Fin n → Fin p → ℝ) (j : Fin p) :
    |Centre.mean.run X j - Centre.median.run X j| ≤ ScaleOpt.std.run X j := mean_near hn fun i => X i j

/-- The median of numbers that are not negative, against their mean square. -/
lemma med_sq_le (hn : 0 < n) (d : Fin n → ℝ) (hd : ∀ i, 0 ≤ d i) : n * med d ^ 2 ≤ 2 * ∑ i, d i ^ 2 := by
  have hm0 : 0 ≤ med d := by
    apply le_medL_of_forall (ofFn_ne_nil hn _)
    intro v hv
    obtain ⟨i, rfl⟩ := (List.mem_ofFn' _ _).mp hv
    exact hd i
  have h1 := (C05_median_splits hn d).2
  have h2 : ((Finset.univ.filter fun i => med d ≤ d i).card : ℝ) * med d ^ 2 ≤ ∑ i, d i ^ 2 := by
    calc ((Finset.univ.filter fun i => med d ≤ d i).card : ℝ) * med d ^ 2 = ∑ i ∈ Finset.univ.filter fun i => med d ≤ d i, med d ^ 2 := by
          rw [Finset.sum_const, nsmul_eq_mul]
      _ ≤ ∑ i ∈ Finset.univ.filter fun i => med d ≤ d i, d i ^ 2 := Finset.sum_le_sum fun i hi => pow_le_pow_left₀ hm0 (Finset.mem_filter.mp hi).2 2
      _ ≤ ∑ i, d i ^ 2 := Finset.sum_le_sum_of_subset_of_nonneg (Finset.filter_subset _ _) fun i _ _ => sq_nonneg _
  have h3 : (n : ℝ) ≤ 2 * ((Finset.univ.filter fun i => med d ≤ d i).card : ℝ) := by exact_mod_cast h1
  nlinarith [sq_nonneg (med d)]

lemma mad_near (hn : 0 < n) (x : Fin n → ℝ) : mad x ≤ 2 / madConst * Real.sqrt (var x) := by
  have hn' : (0 : ℝ) < n := by exact_mod_cast hn
  have hm : (0 : ℝ) < madConst := by unfold madConst; norm_num
  have h1 := med_sq_le hn (fun i => |x i - med x|) fun i => abs_nonneg _
  have h2 := mean_near hn x
  have hv : 0 ≤ var x := by
    rw [var_eq, mean_eq]; exact div_nonneg (Finset.sum_nonneg fun i _ => sq_nonneg _) hn'.le
  have h3 : (mean x - med x) ^ 2 ≤ var x := by
    rw [← sq_abs, ← Real.sq_sqrt hv]
    exact pow_le_pow_left₀ (abs_nonneg _) h2 2
  have h4 : ∑ i, |x i - med x| ^ 2 = n * var x + n * (mean x - med x) ^ 2 := by
    have e : ∀ i, |x i - med x| ^ 2 = (x i - mean x) ^ 2 + (2 * (mean x - med x) * (x i - mean x) + (mean x - med x) ^ 2) := fun i => by rw [sq_abs]; ring
    simp only [e, Finset.sum_add_distrib, ← Finset.mul_sum, Finset.sum_const, Finset.card_univ, Fintype.card_fin, nsmul_eq_mul]
    have e1 : ∑ i, (x i - mean x) = 0 := by
      rw [Finset.sum_sub_distrib, mean_eq]
      simp only [Finset.sum_const, Finset.card_univ, Fintype.card_fin, nsmul_eq_mul]
      field_simp; ring
    have e2 : n * var x = ∑ i, (x i - mean x) ^ 2 := by
      rw [var_eq, mean_eq]; field_simp
    rw [e1, e2]; ring
  rw [h4] at h1
  have h5 : (med fun i => |x i - med x|) ^ 2 ≤ (2 * Real.sqrt (var x)) ^ 2 := by
    rw [mul_pow, Real.sq_sqrt hv]
    have : (n : ℝ) * (med fun i => |x i - med x|) ^ 2 ≤ n * (2 ^ 2 * var x) := by nlinarith
    exact le_of_mul_le_mul_left this hn'
  have h6 := abs_le_of_sq_le_sq' h5 (by positivity)
  rw [mad_eq, div_mul_eq_mul_div]
  exact div_le_div_of_nonneg_right h6.2 hm.le

/-- **C199**: the median absolute deviation is at most three times (2 / 0.674) the standard deviation. -/
theorem C199_mad_std (hn : 0 < n) (X : Fin n → Fin p → ℝ) (j : Fin p) : ScaleOpt.mad.run X j ≤ 2 / madConst * ScaleOpt.std.run X j := mad_near hn fun i => X i j

/-- **C199**: the distance of the spatial median from the means is at most the root of the total variance, if the optimiser has found a minimum. -/
theorem C199_l1median (hn : 0 < n) (opt : (Fin n → Fin p → ℝ) → (Fin p → ℝ) → (Fin p → ℝ)) (X : Fin n → Fin p → ℝ)
    (hopt : 2 ≤ p → ∀ x0 b, sumDist X (opt X x0) ≤ sumDist X b) :
    ∑ j, (Centre.mean.run X j - l1median opt X j) ^ 2 ≤ ∑ j, ScaleOpt.std.run X j ^ 2 := by
  have hn' : (0 : ℝ) < n := by exact_mod_cast hn
  set m := l1median opt X with hm
  have hmin := C13_l1median_optimal opt X hopt (Centre.mean.run X)
  rw [← hm] at hmin
  set D := ∑ j, (Centre.mean.run X j - m j) ^ 2 with hD
  have hD0 : 0 ≤ D := Finset.sum_nonneg fun j _ => sq_nonneg _
  -- the mean is at most the average distance away
  have h1 : n * D ≤ Real.sqrt D * sumDist X m := by
    have e : n * D = ∑ i, ∑ j, (X i j - m j) * (Centre.mean.run X j - m j) := by
      rw [Finset.sum_comm, hD, Finset.mul_sum]
      refine Finset.sum_congr rfl fun j _ => ?_
      rw [← Finset.sum_mul]
      have : ∑ i, (X i j - m j) = n * (Centre.mean.run X j - m j) := by
        rw [Finset.sum_sub_distrib]
        simp only [Centre.run, mean_eq, Finset.sum_const, Finset.card_univ, Fintype.card_fin, nsmul_eq_mul]
        field_simp
      rw [this]; ring
    rw [e, sumDist, Finset.mul_sum]
    refine Finset.sum_le_sum fun i _ => ?_
    rw [← Real.sqrt_mul hD0]
    apply Real.le_sqrt_of_sq_le
    rw [mul_comm D]
    exact Finset.sum_mul_sq_le_sq_mul_sq _ _ _
  have h2 : sumDist X (Centre.mean.run X) ^ 2 ≤ n * (n * ∑ j, ScaleOpt.std.run X j ^ 2) := by
    have h := sq_mean_le fun i => Real.sqrt (∑ j, (X i j - Centre.mean.run X j) ^ 2)
    simp only [abs_of_nonneg (Real.sqrt_nonneg _), Real.sq_sqrt (Finset.sum_nonneg fun j _ => sq_nonneg _)] at h
    refine h.trans_eq ?_
    congr 1
    rw [Finset.sum_comm, Finset.mul_sum]
    refine Finset.sum_congr rfl fun j _ => ?_
    simp only [ScaleOpt.run, Centre.run]
    rw [Real.sq_sqrt (by rw [var_eq, mean_eq]; exact div_nonneg (Finset.sum_nonneg fun i _ => sq_nonneg _) hn'.le), card_var hn]
  have hs0 : 0 ≤ sumDist X m := Finset.sum_nonneg fun i _ => Real.sqrt_nonneg _
  rcases hD0.eq_or_lt with h0 | hpos
  · rw [← h0]; exact Finset.sum_nonneg fun j _ => sq_nonneg _
  · have hsq : Real.sqrt D * Real.sqrt D = D := Real.mul_self_sqrt hD0
    have hsp : 0 < Real.sqrt D := Real.sqrt_pos.mpr hpos
    have h3 : n * Real.sqrt D ≤ sumDist X m := by
      have : Real.sqrt D * (n * Real.sqrt D) ≤ Real.sqrt D * sumDist X m := by nlinarith
      exact le_of_mul_le_mul_left this hsp
    have h4 : (n * Real.sqrt D) ^ 2 ≤ n * (n * ∑ j, ScaleOpt.std.run X j ^ 2) :=
      (pow_le_pow_left₀ (by positivity) (h3.trans hmin) 2).trans h2
    have h5 : (n : ℝ) ^ 2 * D ≤ n ^ 2 * ∑ j, ScaleOpt.std.run X j ^ 2 := by
      have : (n * Real.sqrt D) ^ 2 = (n : ℝ) ^ 2 * D := by rw [mul_pow, Real.sq_sqrt hD0]
      nlinarith
    exact le_of_mul_le_mul_left h5 (by positivity)

lemma mapE_getElem {α β : Type} {f : α → Except Err β} : ∀ {l : List α} {r : List β}, mapE f l = .ok r → ∀ {j : ℕ} {a : α}, l[j]? = some a →
    ∃ b, r[j]? = some b ∧ f a = .ok b
  | [], r, _, j, a, h => by simp at h
  | a0 :: l, r, h, j, a, hj => by
    rw [mapE] at h
    cases h1 : f a0 with
    | error e => simp [h1] at h
    | ok b =>
      cases h2 : mapE f l with
      | error e => simp [h1, h2] at h
      | ok bs =>
        simp only [h1, h2, Except.ok.injEq] at h
        subst h
        cases j with
        | zero => simp only [List.getElem?_cons_zero, Option.some.injEq] at hj ⊢; subst hj; exact ⟨b, rfl, h1⟩
        | succ k => simp only [List.getElem?_cons_succ] at hj ⊢; exact mapE_getElem h2 hj

/-- **C199** for two `VersatileScaler` objects fitted to the same table with at least one row, one with mean and standard deviation, the other with median and median
absolute deviation: in every column the centres differ by at most the standard deviation, and the robust scale is at most 2 / 0.674 times the other. -/
theorem C199_fit (x : NDArray ℝ) {n p : ℕ} (hs : x.shape = [n, p]) (hwf : x.Wf) (hn : 2 ≤ n) {a b : Scaler ℝ} (ha : Scaler.fit .mean .std Real.sqrt 0 x = .ok a)
    (hb : Scaler.fit .median .mad Real.sqrt 0 x = .ok b) : ∀ j < p, ∃ ma sa mb sb, a.center[j]? = some ma ∧ a.scale[j]? = some sa ∧ b.center[j]? = some mb ∧ b.scale[j]? = some sb ∧
      |ma - mb| ≤ sa ∧ sb ≤ 2 / madConst * sa := by
  intro j hj
  have hlen : x.data.length = n * p := by rw [hwf, hs]; simp
  have hcol := NDArray.col_length x hlen hj
  rw [fit_matrixN _ _ _ _ x hs (Or.inl (by omega)) (by simp) (by simp)] at ha hb
  have ht : checkTrimming (0 : ℝ) = .ok () := by unfold checkTrimming; rw [if_neg (by norm_num)]
  simp only [ht, bind, Except.bind] at ha hb
  cases h1 : mapE (fun j => locColN (.mean : LocOpt ℝ) 0 (x.col n p j)) (List.range p) with
  | error e => simp [h1] at ha
  | ok m1 =>
  cases h2 : mapE (fun j => scaColN (.std : ScaOpt ℝ) Real.sqrt 0 (x.col n p j)) (List.range p) with
  | error e => simp [h1, h2] at ha
  | ok s1 =>
  cases h3 : mapE (fun j => locColN (.median : LocOpt ℝ) 0 (x.col n p j)) (List.range p) with
  | error e => simp [h3] at hb
  | ok m2 =>
  cases h4 : mapE (fun j => scaColN (.mad : ScaOpt ℝ) Real.sqrt 0 (x.col n p j)) (List.range p) with
  | error e => simp [h3, h4] at hb
  | ok s2 =>
  simp only [h1, h2, h3, h4, Except.ok.injEq] at ha hb
  subst ha; subst hb
  have hr : (List.range p)[j]? = some j := by simp [hj]
  obtain ⟨ma, e1, f1⟩ := mapE_getElem h1 hr
  obtain ⟨sa, e2, f2⟩ := mapE_getElem h2 hr
  obtain ⟨mb, e3, f3⟩ := mapE_getElem h3 hr
  obtain ⟨sb, e4, f4⟩ := mapE_getElem h4 hr
  simp only [locColN, scaColN, meanT, stdT, if_true, Except.ok.injEq] at f1 f2 f3 f4
  have hl : 0 < (x.col n p j).length := by omega
  have k1 := mean_near hl (x.col n p j).get
  have k2 := mad_near hl (x.col n p j).get
  simp only [mean, med, var, mad, List.ofFn_get] at k1 k2
  rw [f1, f3, f2] at k1
  rw [f4, f2] at k2
  exact ⟨ma, sa, mb, sb, e1, e2, e3, e4, k1, k2⟩

/-- **C199**, what it means for data standardised with mean and standard deviation: the median of every variable lies between -1 and 1. -/
theorem C199_standardised (hn : 0 < n) (X : Fin n → Fin p → ℝ) (j : Fin p) (h0 : ScaleOpt.std.run X j ≠ 0) :
    |med fun i => scaleMat X (Centre.mean.run X) (ScaleOpt.std.run X) i j| ≤ 1 := by
  have h := C199_mean_median hn X j
  have hp : 0 < ScaleOpt.std.run X j := lt_of_le_of_ne (Real.sqrt_nonneg _) (Ne.symm h0)
  have e : (fun i => scaleMat X (Centre.mean.run X) (ScaleOpt.std.run X) i j) =
      fun i => (ScaleOpt.std.run X j)⁻¹ * X i j + -(Centre.mean.run X j) / ScaleOpt.std.run X j := by
    funext i
    simp only [scaleMat, if_neg h0]
    field_simp
    ring
  rw [e, med_affine hn]
  have e2 : (ScaleOpt.std.run X j)⁻¹ * med (fun i => X i j) + -(Centre.mean.run X j) / ScaleOpt.std.run X j =
      -((Centre.mean.run X j - Centre.median.run X j) / ScaleOpt.std.run X j) := by
    simp only [Centre.run]
    field_simp
    ring
  rw [e2, abs_neg, abs_div, abs_of_pos hp, div_le_one hp]
  exact h

/-- The difference is a real one: mean 1 and median 0 of the values 0, 0 and 3. -/
example : |Centre.mean.run (![![0], ![0], ![3]] : Fin 3 → Fin 1 → ℝ) 0 - Centre.median.run ![![0], ![0], ![3]] 0| = 1 ∧ 0 < ScaleOpt.std.run (![![0], ![0], ![3]] : Fin 3 → Fin 1 → ℝ) 0 := by
  have e : (fun i => (![![0], ![0], ![3]] : Fin 3 → Fin 1 → ℝ) i 0) = ![0, 0, 3] := by funext i; fin_cases i <;> rfl
  simp only [Centre.run, ScaleOpt.run, e, mean_eq, var_eq, med_three (0 : ℝ) 0 3 le_rfl (by norm_num)]
  constructor
  · simp [Fin.sum_univ_succ]
  · simp [Fin.sum_univ_succ]; norm_num

/-- Non-vacuity of `C199_fit`: both scalers can be fitted to a table. -/
example : ∃ a b : Scaler ℝ, Scaler.fit .mean .std Real.sqrt 0 (⟨[3, 2], [0, 1, 0, 5, 3, 7]⟩ : NDArray ℝ) = .ok a ∧
    Scaler.fit .median .mad Real.sqrt 0 (⟨[3, 2], [0, 1, 0, 5, 3, 7]⟩ : NDArray ℝ) = .ok b := by
  have ht : checkTrimming (0 : ℝ) = .ok () := by unfold checkTrimming; rw [if_neg (by norm_num)]
  rw [fit_matrixN _ _ _ _ _ (n := 3) (p := 2) rfl (Or.inl (by omega)) (by simp) (by simp), fit_matrixN _ _ _ _ _ (n := 3) (p := 2) rfl (Or.inl (by omega)) (by simp) (by simp), ht]
  simp only [locColN, scaColN, meanT, stdT, if_true, mapE_oks, bind, Except.bind, Except.ok.injEq]
  exact ⟨_, _, rfl, rfl⟩

/-- Non-vacuity of `C199_l1median`: the corners of a square, with the centre as the answer of the optimiser. -/
example : ∃ opt : (Fin 4 → Fin 2 → ℝ) → (Fin 2 → ℝ) → (Fin 2 → ℝ), 2 ≤ 2 → ∀ x0 b, sumDist (![![1, 0], ![0, 1], ![-1, 0], ![0, -1]] : Fin 4 → Fin 2 → ℝ) (opt ![![1, 0], ![0, 1], ![-1, 0], ![0, -1]] x0) ≤
    sumDist ![![1, 0], ![0, 1], ![-1, 0], ![0, -1]] b :=
  ⟨fun _ _ => 0, fun _ _ b => C13_l1median_global _ 0 (fun j => by
    fin_cases j <;> simp [l1mJacobian, diffmat, euclidnorm, Fin.sum_univ_succ]) b⟩

end Direpack
