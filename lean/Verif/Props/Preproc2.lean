import Verif.Props.Scaler
import Verif.Props.Robust
import Verif.Props.Dicomo2

/-!
Further theorems on location, scale and scaling (C07, C08, C09, C11, C13) and on the small sample corrections (C31).
-/

namespace Direpack

open scoped BigOperators
open Spec (sumDist IsSqrt)

section
variable {K : Type} [Field K] [LinearOrder K] [IsStrictOrderedRing K]

/-- C07: the MAD is the median of the absolute deviations from the median, divided by 0.6744897501960817 (the upper quartile of the standard normal
distribution). -/
theorem C07_mad_value {n : ℕ} (x : Fin n → K) :
    mad x * (6744897501960817 / 10000000000000000) = med fun i => |x i - med x| := by
  rw [mad_eq]
  have h : (madConst : K) = 6744897501960817 / 10000000000000000 := rfl
  rw [← h]
  exact div_mul_cancel₀ _ madConst_pos.ne'

variable [FloorSemiring K]

/-- C08: `fit_transform` (and `versatile_scale`) gives the standardised training matrix: fitting again finds location 0 in every column, and scale
1 in every column whose scale was not zero. -/
theorem C08_fit_transform (c : LocOpt K) (s : ScaOpt K) (sq : K → K) (hsq : IsSqrt sq) (t : K)
    (hc : c = .mean ∨ c = .median) (hsc : s = .std ∨ s = .mad)
    (x : NDArray K) (n p : ℕ) (hs : x.shape = [n, p]) (hwf : x.Wf) (hn : 2 ≤ n) (hp : 1 ≤ p)
    (sc : Scaler K) (hfit : Scaler.fit c s sq t x = .ok sc) :
    ∃ z, Scaler.fitTransform c s sq t x = .ok z ∧ sc.transform x = .ok z ∧
      Scaler.fit c s sq t z =
        .ok ⟨List.replicate p 0, sc.scale.map (fun v => if v = 0 then 0 else 1)⟩ := by
  obtain ⟨z, hz, _, _, hf⟩ := C08_standardised c s sq hsq t hc hsc x n p hs hwf hn hp sc hfit
  refine ⟨z, ?_, hz, hf⟩
  simp only [Scaler.fitTransform, hfit, bind, Except.bind]
  exact hz

/-- C09: without scaling (`scale='None'`) and with a column-wise location or none, the round trip is exact for every matrix with the training
number of columns and at least two rows. -/
theorem C09_no_scale (c : LocOpt K) (hc : c = .mean ∨ c = .median ∨ c = .noneOpt) (sq : K → K) (t : K)
    (x : NDArray K) (n p : ℕ) (hs : x.shape = [n, p]) (hn : 2 ≤ n) (hp : 1 ≤ p)
    (sc : Scaler K) (hfit : Scaler.fit c .noneOpt sq t x = .ok sc)
    (x' : NDArray K) (n' : ℕ) (hs' : x'.shape = [n', p]) (hwf' : x'.Wf) (hn' : 2 ≤ n') :
    ∃ z, sc.transform x' = .ok z ∧ sc.inverse z = .ok x' := by
  have hlen : sc.center.length = p ∧ sc.scale = List.replicate p 1 := by
    unfold Scaler.fit at hfit
    rw [checkInput_matrix x hs (Or.inl (by omega))] at hfit
    simp only [bind, Except.bind, hs] at hfit
    cases htr : checkTrimming t with
    | error e => simp [htr] at hfit
    | ok u =>
    simp only [htr] at hfit
    cases hm : c.run t x n p with
    | error e => simp [hm] at hfit
    | ok m =>
    simp only [hm, ScaOpt.run, Except.ok.injEq] at hfit
    subst hfit
    refine ⟨?_, rfl⟩
    rcases hc with rfl | rfl | rfl
    · have := (mapE_inv _ _ _ hm).1; simpa using this
    · have := (mapE_inv _ _ _ hm).1; simpa using this
    · simp only [LocOpt.run, Except.ok.injEq] at hm
      rw [← hm]; simp
  refine C09_roundtrip_partial sc x' n' p hs' hwf' hn' hp hlen.1 (by rw [hlen.2]; simp) ?_
  intro i _ j hj h
  rw [hlen.2, List.getElem?_replicate, if_pos hj] at h
  simp at h

/-- C11: `fit` rejects every trimming fraction outside [0, 0.99], whatever the estimators and the data. -/
theorem C11_fit_rejects (c : LocOpt K) (s : ScaOpt K) (sq : K → K) (t : K) (x : NDArray K) (n p : ℕ) (hs : x.shape = [n, p])
    (hn : 2 ≤ n) (ht : t < 0 ∨ 99 / 100 < t) : Scaler.fit c s sq t x = .error .valueError := by
  unfold Scaler.fit
  rw [checkInput_matrix x hs (Or.inl (by omega)), (C11_checkTrimming t).2 ht]
  rfl

end

/-! ### C13: the median of one column is a spatial median, so `l1median` is one whenever the optimiser finds one -/

/-- The sum of absolute deviations is least at the median. -/
theorem C13_median_minimises {n : ℕ} (x : Fin n → ℝ) (b : ℝ) : ∑ i, |x i - med x| ≤ ∑ i, |x i - b| := by
  rcases Nat.eq_zero_or_pos n with h0 | hn
  · subst h0; simp
  obtain ⟨h1, h2⟩ := C05_median_splits hn x
  -- the deviations grow by at least (number on the near side − number on the far side) × distance
  have key : ∀ (m b : ℝ) (x : Fin n → ℝ), n ≤ 2 * (Finset.univ.filter fun i => x i ≤ m).card → m ≤ b →
      ∑ i, |x i - m| ≤ ∑ i, |x i - b| := by
    intro m b x hc hmb
    have h : ∀ i, |x i - m| + (if x i ≤ m then (b - m) else -(b - m)) ≤ |x i - b| := by
      intro i
      split_ifs with hi
      · rw [abs_of_nonpos (by linarith), abs_of_nonpos (by linarith)]; linarith
      · push Not at hi
        rw [abs_of_pos (by linarith)]
        have := le_abs_self (x i - b)
        linarith
    have hs := Finset.sum_le_sum fun i (_ : i ∈ Finset.univ) => h i
    rw [Finset.sum_add_distrib, Finset.sum_ite, Finset.sum_const, Finset.sum_const, nsmul_eq_mul, nsmul_eq_mul] at hs
    have hcard := Finset.card_filter_add_card_filter_not (s := (Finset.univ : Finset (Fin n))) (fun i => x i ≤ m)
    rw [Finset.card_univ, Fintype.card_fin] at hcard
    have hle : ((Finset.univ.filter fun i => ¬ x i ≤ m).card : ℝ) ≤ ((Finset.univ.filter fun i => x i ≤ m).card : ℝ) := by
      exact_mod_cast (by omega)
    nlinarith
  rcases le_total (med x) b with h | h
  · exact key _ _ _ h1 h
  · have := key (-med x) (-b) (fun i => -x i) (by simpa using h2) (by linarith)
    simpa [neg_add_eq_sub, abs_sub_comm] using this

/-- C13: if the optimiser returns a minimiser of the sum of distances for two or more columns, `l1median` returns a spatial median for any number of
columns. -/
theorem C13_l1median_optimal {n p : ℕ} (opt : (Fin n → Fin p → ℝ) → (Fin p → ℝ) → (Fin p → ℝ)) (X : Fin n → Fin p → ℝ)
    (hopt : 2 ≤ p → ∀ x0 b, sumDist X (opt X x0) ≤ sumDist X b) : ∀ b, sumDist X (l1median opt X) ≤ sumDist X b := by
  intro b
  by_cases hp : p < 2
  · have e : l1median opt X = fun j => med (fun i => X i j) := by
      simp only [l1median, if_pos hp]
    rw [e]
    rcases (by omega : p = 0 ∨ p = 1) with rfl | rfl
    · simp [sumDist]
    · simp only [sumDist, Fin.sum_univ_one, Fin.isValue, Real.sqrt_sq_eq_abs]
      exact C13_median_minimises (fun i => X i 0) (b 0)
  · have e : l1median opt X = opt X (fun j => med (fun i => X i j)) := by
      simp only [l1median, if_neg hp]
    rw [e]
    exact hopt (by omega) _ b

/-- C13: for two or more columns the value returned is that of the optimiser started at the column-wise median. -/
theorem C13_l1median_start {n p : ℕ} (hp : 2 ≤ p) (opt : (Fin n → Fin p → ℝ) → (Fin p → ℝ) → (Fin p → ℝ)) (X : Fin n → Fin p → ℝ) :
    l1median opt X = opt X fun j => med fun i => X i j := by
  simp only [l1median, if_neg (not_lt.2 hp)]

/-! ### C31 with trimming -/

/-- C31 for trimmed moments: when `r = n(1 − t)` is a whole number, the corrected variance and covariance are `r / (r − 1)` times the uncorrected ones. -/
theorem C31_var_cov_trimmed {n : ℕ} (hn : 0 < n) (a : FitArgs) (r : ℕ) (hr : (n : ℝ) * (1 - a.trimming) = r) (x y : Fin n → ℝ) :
    run .arithmetic .var .mean { a with biascorr := true } (colMat x) (colMat y) =
        (run .arithmetic .var .mean { a with biascorr := false } (colMat x) (colMat y)).map (fun v => (r : ℝ) / (r - 1) * v) ∧
    run .arithmetic .cov .mean { a with biascorr := true } (colMat x) (colMat y) =
        (run .arithmetic .cov .mean { a with biascorr := false } (colMat x) (colMat y)).map (fun v => (r : ℝ) / (r - 1) * v) := by
  have hf : momFactor n a.trimming 2 true = (r : ℝ) / (r - 1) := by
    unfold momFactor
    rw [hr, pyRound_nat]
    simp [Finset.prod_Ico_eq_prod_range]
  have hf' : momFactor n a.trimming 2 false = 1 := by simp [momFactor]
  have key : ∀ u v : Fin n → ℝ, trimMom .mean u v 2 a.trimming 0 true =
      (trimMom .mean u v 2 a.trimming 0 false).map (fun v => (r : ℝ) / (r - 1) * v) := by
    intro u v
    rw [trimMom_ge2 _ _ _ _ (le_refl 2), trimMom_ge2 _ _ _ _ (le_refl 2)]
    simp only [momMean, hf, hf', bind, Except.bind]
    cases meanT a.trimming (List.ofFn u) with
    | error e => rfl
    | ok mx =>
      cases meanT a.trimming (List.ofFn v) with
      | error e => rfl
      | ok my =>
        simp only []
        cases meanT a.trimming (List.ofFn fun i => (u i - mx) ^ (exps 2 0).1 * (v i - my) ^ (exps 2 0).2) with
        | error e => rfl
        | ok w => simp only [Except.map, mul_one, mul_comm]
  rw [run_var hn, run_var hn, run_cov hn, run_cov hn]
  exact ⟨key x x, key x y⟩

/-- A trimming fraction of 1/5 with ten cases meets the hypothesis with `r = 8`. -/
example : ((10 : ℕ) : ℝ) * (1 - ({ trimming := 1 / 5 } : FitArgs).trimming) = (8 : ℕ) := by norm_num

end Direpack
