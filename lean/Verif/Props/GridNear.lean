import Mathlib.Analysis.SpecialFunctions.Complex.Arg
import Verif.Props.PPDirePLS
import Verif.Props.Grid
import Verif.Props.Dicomo2

/-! Property C175: how close the direction found by the grid search is to the best one. -/

namespace Direpack

open scoped BigOperators
open Spec

variable {n p : ℕ}

/-! ### The plane -/

/-- Every unit vector of the plane has an angle. -/
lemma unit_angle {u : Fin 2 → ℝ} (hu : UnitLen u) : ∃ θ, u = planeDir θ := by
  have h1 : u 0 ^ 2 + u 1 ^ 2 = 1 := by unfold UnitLen at hu; rwa [Fin.sum_univ_two] at hu
  have hz : ‖(⟨u 0, u 1⟩ : ℂ)‖ = 1 := by
    rw [Complex.norm_def, Complex.normSq_mk, ← sq, ← sq, h1, Real.sqrt_one]
  refine ⟨Complex.arg ⟨u 0, u 1⟩, ?_⟩
  have e0 := Complex.norm_mul_cos_arg ⟨u 0, u 1⟩
  have e1 := Complex.norm_mul_sin_arg ⟨u 0, u 1⟩
  rw [hz, one_mul] at e0 e1
  funext i
  fin_cases i
  · simpa [planeDir] using e0.symm
  · simpa [planeDir] using e1.symm

/-- A nonnegative quadratic form at directions that leave no gap wider than `2 ε`. -/
lemma quad_cover {A B C ε : ℝ} (hpos : ∀ θ : ℝ, 0 ≤ A * Real.cos θ ^ 2 + 2 * B * (Real.cos θ * Real.sin θ) + C * Real.sin θ ^ 2) (h0 : 0 ≤ ε) (h1 : ε ≤ Real.pi / 2) :
    ∃ θ₀ : ℝ, ∀ δ : ℝ, |δ| ≤ ε → ∀ θ : ℝ, Real.cos ε ^ 2 * (A * Real.cos θ ^ 2 + 2 * B * (Real.cos θ * Real.sin θ) + C * Real.sin θ ^ 2) ≤
      A * Real.cos (θ₀ + δ) ^ 2 + 2 * B * (Real.cos (θ₀ + δ) * Real.sin (θ₀ + δ)) + C * Real.sin (θ₀ + δ) ^ 2 := by
  set R := ‖(⟨(A - C) / 2, B⟩ : ℂ)‖ with hR
  set ψ := Complex.arg ⟨(A - C) / 2, B⟩ with hψ
  have e0 : R * Real.cos ψ = (A - C) / 2 := Complex.norm_mul_cos_arg _
  have e1 : R * Real.sin ψ = B := Complex.norm_mul_sin_arg _
  have hR0 : 0 ≤ R := norm_nonneg _
  have hq : ∀ θ, A * Real.cos θ ^ 2 + 2 * B * (Real.cos θ * Real.sin θ) + C * Real.sin θ ^ 2 = (A + C) / 2 + R * Real.cos (2 * θ - ψ) := by
    intro θ
    rw [Real.cos_sub, Real.cos_two_mul, Real.sin_two_mul]
    have h3 := Real.sin_sq_add_cos_sq θ
    have h4 : R * ((2 * Real.cos θ ^ 2 - 1) * Real.cos ψ + 2 * Real.sin θ * Real.cos θ * Real.sin ψ) =
        (R * Real.cos ψ) * (2 * Real.cos θ ^ 2 - 1) + (R * Real.sin ψ) * (2 * Real.sin θ * Real.cos θ) := by ring
    rw [h4, e0, e1]
    have h5 : Real.sin θ ^ 2 = 1 - Real.cos θ ^ 2 := by linarith
    rw [h5]
    ring
  have hlow : R ≤ (A + C) / 2 := by
    have := hpos (ψ / 2 + Real.pi / 2)
    rw [hq, show 2 * (ψ / 2 + Real.pi / 2) - ψ = Real.pi by ring, Real.cos_pi] at this
    linarith
  refine ⟨ψ / 2, fun δ hδ θ => ?_⟩
  rw [hq, hq, show 2 * (ψ / 2 + δ) - ψ = 2 * δ by ring, Real.cos_two_mul]
  have hc : Real.cos ε ^ 2 ≤ Real.cos δ ^ 2 := by
    rw [← Real.cos_abs δ]
    have h5 : Real.cos ε ≤ Real.cos |δ| := Real.cos_le_cos_of_nonneg_of_le_pi (abs_nonneg δ) (by linarith [Real.pi_pos]) hδ
    have h6 : 0 ≤ Real.cos ε := Real.cos_nonneg_of_mem_Icc ⟨by linarith [Real.pi_pos], h1⟩
    exact pow_le_pow_left₀ h6 h5 2
  have hc1 := Real.cos_sq_le_one ε
  have hc0 := sq_nonneg (Real.cos ε)
  have h7 := Real.cos_le_one (2 * θ - ψ)
  have h8 : (A + C) / 2 + R * Real.cos (2 * θ - ψ) ≤ (A + C) / 2 + R := by nlinarith
  calc Real.cos ε ^ 2 * ((A + C) / 2 + R * Real.cos (2 * θ - ψ)) ≤ Real.cos ε ^ 2 * ((A + C) / 2 + R) := mul_le_mul_of_nonneg_left h8 hc0
    _ ≤ (A + C) / 2 + R * (2 * Real.cos δ ^ 2 - 1) := by nlinarith [mul_nonneg hR0 (sub_nonneg.mpr hc), mul_nonneg (sub_nonneg.mpr hlow) (sub_nonneg.mpr hc1)]

/-- The criterion of the projections of planar data is a nonnegative quadratic form in the direction. -/
def Spec.QuadraticCriterion (φ : (Fin n → ℝ) → ℝ) (sq : Bool) (X : Fin n → Fin 2 → ℝ) : Prop :=
  ∃ A B C : ℝ, ∀ u : Fin 2 → ℝ, criterion φ sq (projectOn X u) = A * u 0 ^ 2 + 2 * B * (u 0 * u 1) + C * u 1 ^ 2 ∧ 0 ≤ criterion φ sq (projectOn X u)

/-- **C175.** A search of the plane reaches at least the share `cos²(π/(2 ndir))` of the largest value of a criterion that is a nonnegative quadratic form. -/
theorem C175_plane_partial (φ : (Fin n → ℝ) → ℝ) (sq : Bool) (ndir : ℕ) (hn : 0 < ndir) (X : Fin n → Fin 2 → ℝ) (hq : QuadraticCriterion φ sq X)
    (w : Fin 2 → ℝ) (m : ℝ) (h : gridplane φ sq ndir X = .ok (w, m)) :
    m = criterion φ sq (projectOn X w) ∧ ∀ u, UnitLen u → Real.cos (Real.pi / (2 * ndir)) ^ 2 * criterion φ sq (projectOn X u) ≤ m := by
  obtain ⟨k₀, rfl, hk₀, hv, hle, -⟩ := C54_gridplane_best φ sq ndir X w m h
  refine ⟨hv.symm, fun u hu => ?_⟩
  obtain ⟨A, B, C, hABC⟩ := hq
  have hN : (1 : ℝ) ≤ ndir := by exact_mod_cast hn
  have hpi := Real.pi_pos
  have hpl : ∀ θ, criterion φ sq (projectOn X (planeDir θ)) = A * Real.cos θ ^ 2 + 2 * B * (Real.cos θ * Real.sin θ) + C * Real.sin θ ^ 2 := fun θ => by
    rw [(hABC _).1]; simp [planeDir]
  obtain ⟨θ₀, hθ⟩ := quad_cover (A := A) (B := B) (C := C) (ε := Real.pi / (2 * ndir)) (fun θ => by rw [← hpl]; exact (hABC _).2) (by positivity)
    (div_le_div_of_nonneg_left hpi.le (by norm_num) (by linarith))
  obtain ⟨θ, rfl⟩ := unit_angle hu
  obtain ⟨k, hk, c, hc, δ, hδ, hcδ⟩ := (C53_candidates φ sq ndir hn X _ m h).2.2.2 θ₀
  have h1 := hθ δ hδ θ
  rw [← hpl, ← hpl, ← hcδ] at h1
  have h2 : criterion φ sq (projectOn X c) = criterion φ sq (projectOn X (planeDir (k * (Real.pi / ndir)))) := by
    rcases hc with rfl | rfl
    · rfl
    · rw [(hABC _).1, (hABC _).1]
      simp only [Pi.neg_apply]
      ring
  exact h1.trans (h2.le.trans (hle k hk))

/-- Variance. -/
noncomputable def Spec.varianceOf (t : Fin n → ℝ) : ℝ := avg fun i => (t i - avg t) ^ 2

/-- Covariance. -/
noncomputable def Spec.covarianceOf (y t : Fin n → ℝ) : ℝ := avg fun i => (t i - avg t) * (y i - avg y)

lemma avg_proj (X : Fin n → Fin 2 → ℝ) (u : Fin 2 → ℝ) (i : Fin n) :
    projectOn X u i - avg (projectOn X u) = (X i 0 - avg fun i => X i 0) * u 0 + (X i 1 - avg fun i => X i 1) * u 1 := by
  simp only [projectOn, avg, Fin.sum_univ_two, Finset.sum_add_distrib, ← Finset.sum_mul]
  ring

/-- The variance is such a criterion. -/
lemma quadratic_variance (X : Fin n → Fin 2 → ℝ) : QuadraticCriterion varianceOf false X := by
  refine ⟨avg fun i => (X i 0 - avg fun i => X i 0) ^ 2, avg fun i => (X i 0 - avg fun i => X i 0) * (X i 1 - avg fun i => X i 1),
    avg fun i => (X i 1 - avg fun i => X i 1) ^ 2, fun u => ⟨?_, ?_⟩⟩
  · simp only [criterion, Bool.false_eq_true, if_false, varianceOf, avg_proj]
    unfold avg
    rw [div_mul_eq_mul_div, mul_div_assoc', div_mul_eq_mul_div, div_mul_eq_mul_div, ← add_div, ← add_div, Finset.mul_sum, Finset.sum_mul, Finset.sum_mul, Finset.sum_mul,
      ← Finset.sum_add_distrib, ← Finset.sum_add_distrib]
    congr 1
    exact Finset.sum_congr rfl fun i _ => by ring
  · simp only [criterion, Bool.false_eq_true, if_false, varianceOf]
    unfold avg
    exact div_nonneg (Finset.sum_nonneg fun i _ => sq_nonneg _) (Nat.cast_nonneg n)

/-- So is the square of the covariance with a response. -/
lemma quadratic_covariance (y : Fin n → ℝ) (X : Fin n → Fin 2 → ℝ) : QuadraticCriterion (covarianceOf y) true X := by
  refine ⟨(covarianceOf y fun i => X i 0) ^ 2, (covarianceOf y fun i => X i 0) * (covarianceOf y fun i => X i 1), (covarianceOf y fun i => X i 1) ^ 2, fun u => ⟨?_, ?_⟩⟩
  · have : covarianceOf y (projectOn X u) = (covarianceOf y fun i => X i 0) * u 0 + (covarianceOf y fun i => X i 1) * u 1 := by
      simp only [covarianceOf, avg_proj]
      unfold avg
      rw [div_mul_eq_mul_div, div_mul_eq_mul_div, ← add_div, Finset.sum_mul, Finset.sum_mul, ← Finset.sum_add_distrib]
      congr 1
      exact Finset.sum_congr rfl fun i _ => by ring
    simp only [criterion, if_true, this]
    ring
  · simp only [criterion, if_true]
    exact sq_nonneg _

/-- **C175.** The criteria in question are those of `ppdire` with the default estimator: variance and covariance as computed by `dicomo`. -/
theorem C175_index (hn : 0 < n) (d : Dicomo) (he : d.est = .arithmetic) (hc : d.center = .mean) (a : FitArgs) (ht : a.trimming = 0) (hb : a.biascorr = false) :
    (d.mode = .var → a.y = none → dicomoIndex d a = (varianceOf : (Fin n → ℝ) → ℝ)) ∧ (d.mode = .cov → ∀ y : Fin n → ℝ, dicomoIndex2 d a y = covarianceOf y) := by
  constructor
  · intro hm hy
    funext t
    have h1 : Dicomo.compute .arithmetic .var .mean { a with y := none } (colMat t) = Dicomo.compute .arithmetic .var .mean { a with y := some (colMat t) } (colMat t) :=
      compute_alone _ _ _ rfl _ _
    have h2 := (C31_var_cov_uncorrected hn a ht hb t t).1
    have ha : { a with y := none } = a := by cases a; cases hy; rfl
    rw [ha] at h1
    have h3 : ((Dicomo.mk d.est d.mode d.center none).fit a (colMat t)).2 = run .arithmetic .var .mean a (colMat t) (colMat t) := by
      unfold run Dicomo.fit
      rw [he, hm, hc]
      dsimp only
      have e : (if forcesMean Mode.var = true then Loc.mean else Loc.mean) = Loc.mean := by split <;> rfl
      rw [e, h1]
    unfold dicomoIndex
    have : (⟨n, 1, fun i _ => t i⟩ : DMat) = colMat t := rfl
    rw [this, fit_history (h3.trans h2)]
    rfl
  · intro hm y
    funext t
    have h2 := (C31_var_cov_uncorrected hn a ht hb t y).2
    have h3 : ((Dicomo.mk d.est d.mode d.center none).fit { a with y := some (colMat y) } (colMat t)).2 = run .arithmetic .cov .mean a (colMat t) (colMat y) := by
      rw [he, hm, hc]
      rfl
    unfold dicomoIndex2 dicomoIndex
    have e1 : (⟨n, 1, fun i _ => t i⟩ : DMat) = colMat t := rfl
    have e2 : (⟨n, 1, fun i _ => y i⟩ : DMat) = colMat y := rfl
    rw [e1, e2, fit_history (h3.trans h2)]
    rfl

/-! ### Three and more variables -/

/-- The first stage starts with the plane of the first two variables. -/
lemma gridStage1_start {m : ℕ} {φ : (Fin n → ℝ) → ℝ} {sq : Bool} {ndir : ℕ} {E : Fin n → Fin (m + 3) → ℝ}
    {st : GridState n (m + 3)} (h : gridStage1 φ sq ndir E = .ok st) :
    ∃ w b, gridplane φ sq ndir (fun i => ![E i 0, E i 1]) = .ok (w, b) ∧
      GridInv φ sq E (⟨fun k => if k = 0 then w 0 else if k = 1 then w 1 else 0, proj2 (fun i => ![E i 0, E i 1]) w, b⟩ : GridState n (m + 3)) ∧
      ((List.finRange (m + 3)).drop 2).foldlM (grid1Step φ sq ndir E)
        ⟨fun k => if k = 0 then w 0 else if k = 1 then w 1 else 0, proj2 (fun i => ![E i 0, E i 1]) w, b⟩ = .ok st ∧ b ≤ st.best := by
  have hn := gridStage1_ndir h
  unfold gridStage1 at h
  split at h
  · simp at h
  · rename_i w b hw
    obtain ⟨hu, -, hx, -⟩ := C53_candidates _ _ _ hn _ _ _ hw
    obtain ⟨k, hwk, hk, hv, hle, -⟩ := C54_gridplane_best _ _ _ _ _ _ hw
    have h01 : (0 : Fin (m + 3)) ≠ 1 := by simp
    have hsum : ∀ f : Fin (m + 3) → ℝ, (∑ k, f k * (if k = 0 then w 0 else if k = 1 then w 1 else 0)) =
        f 0 * w 0 + f 1 * w 1 := by
      intro f
      rw [← Finset.sum_subset (s₁ := {0, 1}) (Finset.subset_univ _)]
      · rw [Finset.sum_pair h01]
        simp [h01.symm]
      · intro x _ hx
        simp only [Finset.mem_insert, Finset.mem_singleton, not_or] at hx
        simp [hx.1, hx.2]
    have hI : GridInv φ sq E (⟨fun k => if k = 0 then w 0 else if k = 1 then w 1 else 0,
        proj2 (fun i => ![E i 0, E i 1]) w, b⟩ : GridState n (m + 3)) := by
      refine ⟨?_, ?_, ?_⟩
      · unfold UnitLen at *
        rw [Fin.sum_univ_two] at hu
        have := hsum fun k => if k = 0 then w 0 else if k = 1 then w 1 else 0
        simp only [← pow_two] at this
        rw [this]
        simp only [if_true, h01.symm, if_false]
        linear_combination hu
      · funext i
        unfold projectOn
        dsimp only
        rw [hsum]
        simp [proj2]
      · show b = _
        dsimp only at hv
        rw [← hwk] at hv
        refine hv.symm.trans ?_
        dsimp only
        rw [← proj2_eq]
    have hpw : ((List.finRange (m + 3)).drop 2).Pairwise (· < ·) :=
      (List.pairwise_lt_finRange _).sublist (List.drop_sublist 2 _)
    have hge : ∀ j ∈ (List.finRange (m + 3)).drop 2, 2 ≤ j.val := by
      intro j hj
      rw [List.mem_iff_getElem] at hj
      obtain ⟨i, hi, rfl⟩ := hj
      simp
    obtain ⟨-, hb⟩ := grid1_fold_inv hn _ hpw hI (by
      intro j hj k hk
      have h2 := hge j hj
      have hk2 : 2 ≤ k.val := h2.trans hk
      have hk0 : k ≠ 0 := by intro h0; rw [h0] at hk2; simp at hk2
      have hk1 : k ≠ 1 := by intro h0; rw [h0] at hk2; simp at hk2
      simp [hk0, hk1]) h
    exact ⟨w, b, hw, hI, h, hb⟩

/-- **C175** (partial: odd numbers of directions, and combinations of the first two variables).  The direction returned reaches the
share `cos²(π/(2 ndir))` of the criterion of every combination of the first two variables. -/
theorem C175_first_plane_partial {m : ℕ} (φ : (Fin n → ℝ) → ℝ) (sq : Bool) (ndir maxiter : ℕ) (hodd : Odd ndir) (h3 : 3 ≤ ndir)
    (E : Fin n → Fin (m + 3) → ℝ) (hq : QuadraticCriterion φ sq (fun i => ![E i 0, E i 1])) (a : Fin (m + 3) → ℝ) (o : ℝ)
    (h : gridDirection φ sq ndir maxiter E = .ok (a, o)) (c s : ℝ) (hcs : c ^ 2 + s ^ 2 = 1) :
    Real.cos (Real.pi / (2 * ndir)) ^ 2 * criterion φ sq (fun i => c * E i 0 + s * E i 1) ≤ criterion φ sq (projectOn E a) := by
  obtain ⟨st, hst, hle⟩ := C56_grid_partial φ sq ndir maxiter hodd h3 E a o h
  obtain ⟨w, b, hw, -, -, hb⟩ := gridStage1_start hst
  have hI := (gridStage1_inv hst).1
  have h1 := (C175_plane_partial φ sq ndir (by omega) _ hq w b hw).2 ![c, s] (by unfold UnitLen; rw [Fin.sum_univ_two]; simpa using hcs)
  have h2 : projectOn (fun i => ![E i 0, E i 1]) ![c, s] = fun i => c * E i 0 + s * E i 1 := by
    funext i
    simp only [projectOn, Fin.sum_univ_two, Matrix.cons_val_zero, Matrix.cons_val_one]
    ring
  rw [h2] at h1
  rw [hI.best_eq, hI.z_eq] at hb
  exact h1.trans (hb.trans hle)

/-! ### The best direction can be missed by far -/

/-- Four cases, three variables: a first variable with large variance, and two equal ones whose sum has more. -/
def farX : Fin 4 → Fin 3 → ℝ := ![![10, 0, 0], ![-10, 0, 0], ![0, 9, 9], ![0, -9, -9]]

lemma farX_crit (a : Fin 3 → ℝ) : criterion varianceOf false (projectOn farX a) = 50 * a 0 ^ 2 + 81 / 2 * (a 1 + a 2) ^ 2 := by
  simp [criterion, varianceOf, avg, projectOn, farX, Fin.sum_univ_succ]
  ring

lemma farX_col : criterion varianceOf false (fun i => farX i 0) = 50 := by
  simp [criterion, varianceOf, avg, farX, Fin.sum_univ_succ]
  norm_num

lemma far_keep {x y : ℝ} (hu : x ^ 2 + y ^ 2 = 1) (h : 50 ≤ 50 * x ^ 2 + 81 / 2 * y ^ 2) : y = 0 := by
  have : y ^ 2 = 0 := by nlinarith [sq_nonneg y]
  exact pow_eq_zero_iff two_ne_zero |>.mp this

lemma far_step (r : ℕ) (hr : 0 < r) (h4 : ¬ 4 ∣ 2 * r + 1 - 1) (st : GridState 4 3) (hu : UnitLen st.a) (hz : st.z = projectOn farX st.a)
    (h1 : st.a 1 = 0) (h2 : st.a 2 = 0) (j : Fin 3) :
    ∃ st', grid2Step varianceOf false (2 * r + 1) farX st j = .ok st' ∧ UnitLen st'.a ∧ st'.z = projectOn farX st'.a ∧ st'.a 1 = 0 ∧ st'.a 2 = 0 := by
  have hs := unit3 hu
  have hq : st.a j ^ 2 ≤ 1 := by fin_cases j <;> simp only [Fin.zero_eta, Fin.mk_one, Fin.reduceFinMk] <;> nlinarith [sq_nonneg (st.a 0), sq_nonneg (st.a 1), sq_nonneg (st.a 2)]
  obtain ⟨s, e, k, hk, hf⟩ := grid2Step_total varianceOf false (by omega : 0 < 2 * r + 1) farX st j (fun k _ => divSq_pos _ (by omega) h4 k _ hq)
  have hI := (grid2Step_inv hu hz e).1
  have hmono := grid2Step_mono hr hu hz e
  rw [hz, hI.z_eq, farX_crit, farX_crit, h1, h2] at hmono
  rw [h1, h2] at hs
  have hu' := unit3 hI.unit
  refine ⟨s, e, hI.unit, hI.z_eq, ?_⟩
  have f1 := hf 1
  have f2 := hf 2
  rw [h1, zero_mul, zero_add] at f1
  rw [h2, zero_mul, zero_add] at f2
  fin_cases j
  · exact ⟨by simpa using f1, by simpa using f2⟩
  · have f2' : s.a 2 = 0 := by simpa using f2
    rw [f2'] at hmono hu'
    exact ⟨far_keep (x := s.a 0) (by linarith) (by rw [add_zero] at hmono; linarith), f2'⟩
  · have f1' : s.a 1 = 0 := by simpa using f1
    rw [f1'] at hmono hu'
    exact ⟨f1', far_keep (x := s.a 0) (by linarith) (by rw [zero_add] at hmono; linarith)⟩

lemma far_fold (r : ℕ) (hr : 0 < r) (h4 : ¬ 4 ∣ 2 * r + 1 - 1) : ∀ (l : List (Fin 3)) (st : GridState 4 3), UnitLen st.a → st.z = projectOn farX st.a →
    st.a 1 = 0 → st.a 2 = 0 →
    ∃ st', l.foldlM (grid2Step varianceOf false (2 * r + 1) farX) st = .ok st' ∧ UnitLen st'.a ∧ st'.z = projectOn farX st'.a ∧ st'.a 1 = 0 ∧ st'.a 2 = 0 := by
  intro l
  induction l with
  | nil => intro st hu hz h1 h2; exact ⟨st, rfl, hu, hz, h1, h2⟩
  | cons j l ih =>
    intro st hu hz h1 h2
    obtain ⟨s, e, hu', hz', h1', h2'⟩ := far_step r hr h4 st hu hz h1 h2 j
    rw [List.foldlM_cons, e]
    exact ih s hu' hz' h1' h2'

lemma far_loop (r : ℕ) (hr : 0 < r) (h4 : ¬ 4 ∣ 2 * r + 1 - 1) : ∀ (left : ℕ) (o1 o2 : ℝ) (st : GridState 4 3), UnitLen st.a →
    st.z = projectOn farX st.a → st.a 1 = 0 → st.a 2 = 0 →
    ∃ a o, gridLoop varianceOf false (2 * r + 1) farX left o1 o2 st = .ok (a, o) ∧ UnitLen a ∧ a 1 = 0 ∧ a 2 = 0 := by
  intro left
  induction left with
  | zero => intro o1 o2 st hu _ h1 h2; exact ⟨_, _, rfl, hu, h1, h2⟩
  | succ left ih =>
    intro o1 o2 st hu hz h1 h2
    rw [gridLoop]
    split
    · obtain ⟨s, e, hu', hz', h1', h2'⟩ := far_fold r hr h4 (List.finRange 3) st hu hz h1 h2
      have e' : gridSweep varianceOf false (2 * r + 1) farX st = .ok s := e
      rw [e']
      exact ih _ _ s hu' hz' h1' h2'
    · exact ⟨_, _, rfl, hu, h1, h2⟩

lemma far_stage1 {ndir : ℕ} {st : GridState 4 3} (h : gridStage1 (m := 0) varianceOf false ndir farX = .ok st) : st.a 1 = 0 ∧ st.a 2 = 0 := by
  have hn := gridStage1_ndir h
  obtain ⟨w, b, hw, hI0, hf, hb⟩ := gridStage1_start (m := 0) h
  have hx := (C53_candidates _ _ _ hn _ _ _ hw).2.2.1
  have hx' : criterion varianceOf false (fun i => farX i 0) ≤ b := by simpa using hx
  have hbe := hI0.best_eq
  rw [hI0.z_eq, farX_crit] at hbe
  have hu0 := unit3 hI0.unit
  rw [farX_col] at hx'
  dsimp only at hbe hu0
  simp only [if_true, one_ne_zero, if_false, show (2 : Fin 3) ≠ 0 by decide, show (2 : Fin 3) ≠ 1 by decide] at hbe hu0
  have hw1 : w 1 = 0 := far_keep (x := w 0) (by linarith) (by rw [add_zero] at hbe; linarith)
  have hd : (List.finRange (0 + 3)).drop 2 = [2] := rfl
  rw [hd, List.foldlM_cons] at hf
  cases hs : grid1Step varianceOf false ndir farX (⟨fun k => if k = 0 then w 0 else if k = 1 then w 1 else 0, proj2 (fun i => ![farX i 0, farX i 1]) w, b⟩ : GridState 4 3) 2 with
  | error e => rw [hs] at hf; simp [bind, Except.bind] at hf
  | ok s =>
    rw [hs] at hf
    have hst : s = st := by simpa [bind, Except.bind, pure, Except.pure] using hf
    subst hst
    have hI := (gridStage1_inv (m := 0) h).1
    have ha1 : s.a 1 = 0 := by
      unfold grid1Step at hs
      split at hs
      · simp at hs
      · simp only [Except.ok.injEq] at hs
        rw [← hs]
        simp [hw1]
    have hu := unit3 hI.unit
    have hbs := hI.best_eq
    rw [hI.z_eq, farX_crit] at hbs
    rw [ha1] at hu hbs
    exact ⟨ha1, far_keep (x := s.a 0) (by linarith) (by rw [zero_add (s.a 2)] at hbs; linarith)⟩

/-- **C175 is violated** for three variables and every number of directions `4 s + 3`, whatever the number of iterations: for
the variance of these data the search returns a direction of variance 50, although another has 81, and
the share that the angles of the grid would grant is not reached. -/
theorem C175_space_violated (ndir : ℕ) (hd : ndir % 4 = 3) (maxiter : ℕ) (hm : 0 < maxiter) :
    ∃ a o, gridDirection varianceOf false ndir maxiter farX = .ok (a, o) ∧ criterion varianceOf false (projectOn farX a) = 50 ∧
      ∃ u, UnitLen u ∧ criterion varianceOf false (projectOn farX u) = 81 ∧
        criterion varianceOf false (projectOn farX a) < Real.cos (Real.pi / (2 * ndir)) ^ 2 * criterion varianceOf false (projectOn farX u) := by
  obtain ⟨r, rfl⟩ : ∃ r, ndir = 2 * r + 1 := ⟨ndir / 2, by omega⟩
  obtain ⟨st, hst⟩ := gridStage1_total (m := 0) varianceOf false (by omega : 0 < 2 * r + 1) farX
  have hI := (gridStage1_inv (m := 0) hst).1
  obtain ⟨h1, h2⟩ := far_stage1 hst
  obtain ⟨a, o, hl, hu, ha1, ha2⟩ := far_loop r (by omega) (by omega) (maxiter + 1) (evalIdx varianceOf false (projE farX st.a)) (-1000) st hI.unit hI.z_eq h1 h2
  have hc : criterion varianceOf false (projectOn farX a) = 50 := by
    have := unit3 hu
    rw [ha1, ha2] at this
    rw [farX_crit, ha1, ha2]
    linarith
  have hsq : (√2 / 2 : ℝ) ^ 2 = 1 / 2 := by rw [div_pow, Real.sq_sqrt (by norm_num)]; norm_num
  have hc8 : criterion varianceOf false (projectOn farX ![0, √2 / 2, √2 / 2]) = 81 := by
    rw [farX_crit]
    simp only [Matrix.cons_val_zero, Matrix.cons_val_one, Matrix.cons_val]
    linear_combination 162 * hsq
  refine ⟨a, o, ?_, hc, ![0, √2 / 2, √2 / 2], ?_, hc8, ?_⟩
  · rw [gridDirection, hst]
    dsimp only
    rw [if_neg hm.ne']
    exact hl
  · unfold UnitLen
    rw [Fin.sum_univ_three]
    simp only [Matrix.cons_val_zero, Matrix.cons_val_one, Matrix.cons_val]
    linear_combination 2 * hsq
  · rw [hc, hc8]
    have hN : (3 : ℝ) ≤ ((2 * r + 1 : ℕ) : ℝ) := by exact_mod_cast (by omega : 3 ≤ 2 * r + 1)
    have hpi := Real.pi_pos
    have h6 : Real.pi / (2 * ((2 * r + 1 : ℕ) : ℝ)) ≤ Real.pi / 6 := div_le_div_of_nonneg_left hpi.le (by norm_num) (by linarith)
    have h7 : Real.cos (Real.pi / 6) ≤ Real.cos (Real.pi / (2 * ((2 * r + 1 : ℕ) : ℝ))) := Real.cos_le_cos_of_nonneg_of_le_pi (by positivity) (by linarith) h6
    have h8 : Real.cos (Real.pi / 6) ^ 2 = 3 / 4 := Real.sq_cos_pi_div_six
    have h9 : 0 ≤ Real.cos (Real.pi / 6) := by rw [Real.cos_pi_div_six]; positivity
    nlinarith [pow_le_pow_left₀ h9 h7 2]

/-! The hypotheses are met: the variance and the squared covariance are quadratic for all data, and a search of the plane and
of these data succeeds. -/

example (y : Fin n → ℝ) (X : Fin n → Fin 2 → ℝ) : QuadraticCriterion varianceOf false X ∧ QuadraticCriterion (covarianceOf y) true X :=
  ⟨quadratic_variance X, quadratic_covariance y X⟩

example : dicomoIndex ⟨.arithmetic, .var, .mean, none⟩ {} = (varianceOf : (Fin 4 → ℝ) → ℝ) := (C175_index (by norm_num) _ rfl rfl _ rfl rfl).1 rfl rfl

example : ∃ w m, gridplane varianceOf false 1000 (![![1, 2], ![3, -1], ![0, 5]] : Fin 3 → Fin 2 → ℝ) = .ok (w, m) :=
  C54_gridplane_total _ _ _ (by norm_num) _

example : ∃ a o, gridDirection varianceOf false 7 100 farX = .ok (a, o) ∧ criterion varianceOf false (projectOn farX a) = 50 ∧
    Odd 7 ∧ 3 ≤ 7 ∧ QuadraticCriterion varianceOf false (fun i => ![farX i 0, farX i 1]) := by
  obtain ⟨a, o, h, hc, -⟩ := C175_space_violated 7 rfl 100 (by norm_num)
  exact ⟨a, o, h, hc, ⟨3, rfl⟩, by norm_num, quadratic_variance _⟩

end Direpack
