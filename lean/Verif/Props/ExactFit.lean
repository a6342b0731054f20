import Mathlib.LinearAlgebra.Matrix.NonsingularInverse
import Mathlib.LinearAlgebra.Matrix.ToLinearEquiv
import Mathlib.Tactic.Linarith
import Mathlib.Tactic.FieldSimp
import Verif.Spec.Exact
import Verif.Props.RM
import Verif.Props.RMExample
import Verif.Props.ReweightRun
import Verif.Props.Nested
import Verif.Props.NestedSudire

/-! Property C142: an exact linear relationship is recovered. -/

set_option linter.unusedSectionVars false

namespace Direpack

open scoped BigOperators
open Spec Matrix

variable {n p : ℕ}

/-! ### Linear algebra -/

/-- If `Z B` has as many linearly independent columns as `Z` has columns, the two have the same column space and `Z` is injective. -/
lemma full_rank {k : ℕ} (hk : k = p) (Z : Matrix (Fin n) (Fin p) ℝ) (B : Matrix (Fin p) (Fin k) ℝ) (T : Matrix (Fin n) (Fin k) ℝ) (hT : Z * B = T)
    (hd : (T.transpose * T).det ≠ 0) : (∀ v : Fin p → ℝ, ∃ q : Fin k → ℝ, Z *ᵥ v = T *ᵥ q) ∧ ∀ v : Fin p → ℝ, Z *ᵥ v = 0 → v = 0 := by
  subst hk
  have e : T.transpose * T = B.transpose * (Z.transpose * Z) * B := by
    rw [← hT, Matrix.transpose_mul]; simp only [Matrix.mul_assoc]
  rw [e, Matrix.det_mul, Matrix.det_mul] at hd
  have hB : IsUnit B.det := isUnit_iff_ne_zero.mpr (right_ne_zero_of_mul hd)
  have hZ : (Z.transpose * Z).det ≠ 0 := right_ne_zero_of_mul (left_ne_zero_of_mul hd)
  refine ⟨fun v => ⟨B⁻¹ *ᵥ v, ?_⟩, fun v hv => ?_⟩
  · rw [← hT, Matrix.mulVec_mulVec, Matrix.mul_nonsing_inv_cancel_right _ _ hB]
  · refine Matrix.eq_zero_of_mulVec_eq_zero hZ ?_
    rw [← Matrix.mulVec_mulVec, hv, Matrix.mulVec_zero]

/-- A combination of vectors that is orthogonal to all of them vanishes. -/
lemma zero_of_orth_span {k : ℕ} (T : Fin n → Fin k → ℝ) (r : Fin n → ℝ) (q : Fin k → ℝ) (hr : ∀ i, r i = ∑ a, T i a * q a) (ho : ∀ a, ∑ i, r i * T i a = 0) (i : Fin n) :
    r i = 0 := by
  have h : ∑ i, r i ^ 2 = 0 := by
    have e : ∀ i, r i ^ 2 = ∑ a, r i * T i a * q a := by
      intro i
      rw [pow_two]
      nth_rewrite 2 [hr i]
      rw [Finset.mul_sum]
      exact Finset.sum_congr rfl fun a _ => by ring
    simp only [e]
    rw [Finset.sum_comm]
    refine Finset.sum_eq_zero fun a _ => ?_
    rw [← Finset.sum_mul, ho, zero_mul]
  have := (Finset.sum_eq_zero_iff_of_nonneg fun i _ => sq_nonneg (r i)).mp h i (Finset.mem_univ _)
  exact pow_eq_zero_iff two_ne_zero |>.mp this

/-- Standardising an exact relationship whose locations satisfy it too. -/
lemma exact_std {X : Fin n → Fin p → ℝ} {y : Fin n → ℝ} {a : ℝ} {β : Fin p → ℝ} (he : ExactLinear X y a β) {m s : Fin p → ℝ} {my sy : ℝ} (hs : ∀ j, s j ≠ 0) (hsy : sy ≠ 0)
    (hloc : my = a + ∑ j, m j * β j) (i : Fin n) : stdVec y my sy i = lin (stdMat X m s) (fun j => s j / sy * β j) i := by
  unfold stdVec std1 lin stdMat std1
  rw [if_neg hsy, he i, hloc]
  have : ∀ j, (if s j = 0 then X i j - m j else (X i j - m j) / s j) * (s j / sy * β j) = (X i j * β j - m j * β j) / sy := by
    intro j
    rw [if_neg (hs j)]
    have := hs j
    field_simp
  rw [Finset.sum_congr rfl fun j _ => this j, ← Finset.sum_div, Finset.sum_sub_distrib]
  ring

/-- The means satisfy the relationship. -/
lemma exact_mean (hn : 0 < n) {X : Fin n → Fin p → ℝ} {y : Fin n → ℝ} {a : ℝ} {β : Fin p → ℝ} (he : ExactLinear X y a β) :
    mean y = a + ∑ j, mean (fun i => X i j) * β j := by
  have hn' : (n : ℝ) ≠ 0 := by positivity
  have e : y = fun i => a + ∑ j, X i j * β j := funext he
  rw [e, mean_eq, Finset.sum_add_distrib, Finset.sum_comm]
  simp only [mean_eq, ← Finset.sum_mul, Finset.sum_const, Finset.card_univ, Fintype.card_fin, nsmul_eq_mul, add_div]
  rw [mul_div_cancel_left₀ _ hn', Finset.sum_div]
  congr 1
  exact Finset.sum_congr rfl fun j _ => by ring

/-! ### SNIPLS -/

/-- C142 (SNIPLS; partial: as many components as predictors were extracted, a response of nonzero scale, and mean centring, or no centring and no intercept): the
slopes and the intercept of the relationship are `coef_` and `intercept_`. -/
theorem C142_snipls_partial {pr : SnParams} {X : Fin n → Fin p → ℝ} {y : Fin n → ℝ} {f : SnFit n p} (hn : 0 < n) (h : snFit pr X y = .ok f) {a : ℝ} {β : Fin p → ℝ}
    (he : ExactLinear X y a β) (hc : pr.centre = .mean ∨ pr.centre = .noneOpt ∧ a = 0) (hsy : f.ySca ≠ 0) (hp : f.comps.length = p) :
    f.coef = β ∧ f.intercept = a ∧ f.fitted = y ∧ ∀ i, f.residuals i = 0 := by
  have hr := snFit_run h
  obtain ⟨-, e1, e2, e3, e4, hs, -, -, hco, hint, hfit, hres⟩ := snFit_inv h
  obtain ⟨horth, q, hq⟩ := C45_normal_equations h
  have hloc : f.yLoc = a + ∑ j, f.xLoc j * β j := by
    rcases hc with hc | ⟨hc, rfl⟩
    · rw [e1, e3, hc]
      exact exact_mean hn he
    · rw [e1, e3, hc]
      simp [Centre.run]
  have hstd := exact_std he hs hsy hloc
  set Z := stdMat X f.xLoc f.xSca with hZ
  set γ : Fin p → ℝ := fun j => f.xSca j / f.ySca * β j with hγ
  have hdet : IsUnit (snQ (Matrix.of Z) f.comps).det := by rw [hr.det_Q]; exact isUnit_one
  obtain ⟨hspan, hinj⟩ := full_rank hp (Matrix.of Z) (compW f.comps * (snQ (Matrix.of Z) f.comps)⁻¹) (compT f.comps)
    (by rw [← Matrix.mul_assoc, hr.mul_W, Matrix.mul_assoc, Matrix.mul_nonsing_inv _ hdet, Matrix.mul_one]) hr.det_gram
  obtain ⟨q', hq'⟩ := hspan γ
  have hzero : ∀ i, stdVec y f.yLoc f.ySca i - lin Z f.coefScaled i = 0 := by
    refine zero_of_orth_span (fun i a => compT f.comps i a) _ (fun a => q' a - q a) (fun i => ?_) fun a => horth a
    rw [hstd, hq, lin_eq_mulVec, hq']
    simp only [mul_sub, Finset.sum_sub_distrib]
    rfl
  have hcs : f.coefScaled = γ := by
    have : γ - f.coefScaled = 0 := by
      apply hinj
      funext i
      have h1 := hzero i
      rw [hstd, lin_eq_mulVec, lin_eq_mulVec] at h1
      rw [Matrix.mulVec_sub]
      exact h1
    exact (sub_eq_zero.mp this).symm
  have hcoef : f.coef = β := by
    funext j
    rw [hco, hcs, hγ]
    have := hs j
    field_simp
  have hra : (fun i => y i - lin X f.coef i) = fun _ => a := by
    funext i
    rw [hcoef, he i]
    simp [lin]
  have hin : f.intercept = a := by
    rw [hint, hra]
    rcases hc with hc | ⟨hc, rfl⟩
    · rw [hc]
      have hn' : (n : ℝ) ≠ 0 := by positivity
      simp only [snIntercept]
      rw [mean_eq]
      simp
      field_simp
    · rw [hc]
      rfl
  have hf : f.fitted = y := by
    funext i
    rw [hfit, hin, hcoef, he i]
    simp only [lin]
    ring
  exact ⟨hcoef, hin, hf, fun i => by rw [hres, hf, sub_self]⟩

/-- The coefficients of the scores are those of the response in their span. -/
lemma snRun_exact {eta : ℝ} {X : Matrix (Fin n) (Fin p) ℝ} {y : Fin n → ℝ} {old : Finset (Fin p)} {l : List (SnComp n p)} (h : SnRun eta X y old l) :
    ∀ q : SnComp n p → ℝ, (∀ i, y i = (l.map fun c => c.t i * q c).sum) → ∀ i, y i = (l.map fun c => c.t i * c.c).sum := by
  induction h with
  | stop => intro q hq i; simpa using hq i
  | step X y old good w t c ld l hcov hg hne hw ht hnz hc hld hrun ih =>
    intro q hq i
    have horth : ∀ b ∈ l, b.t ⬝ᵥ t = 0 := fun b hb => by
      rw [dotProduct_comm]; exact hrun.orth_of _ (defl_orth X t hnz) b hb
    have hsplit : y = fun i => t i * q ⟨w, ld, c, t, good⟩ + (l.map fun c => c.t i * q c).sum := by
      funext i; rw [hq i]; simp
    have hct : c = q ⟨w, ld, c, t, good⟩ := by
      have h1 : y ⬝ᵥ t = q ⟨w, ld, c, t, good⟩ * (t ⬝ᵥ t) := by
        have h2 : ∑ i, (l.map fun c => c.t i * q c).sum * t i = 0 := by
          have h3 : ∀ i, (l.map fun c => c.t i * q c).sum * t i = ∑ b : Fin l.length, (l.get b).t i * q (l.get b) * t i := by
            intro i; rw [sum_map_get, Finset.sum_mul]
          simp only [h3]
          rw [Finset.sum_comm]
          refine Finset.sum_eq_zero fun b _ => ?_
          have h4 := horth (l.get b) (List.get_mem _ _)
          simp only [dotProduct] at h4
          calc ∑ i, (l.get b).t i * q (l.get b) * t i = q (l.get b) * ∑ i, (l.get b).t i * t i := by
                rw [Finset.mul_sum]; exact Finset.sum_congr rfl fun i _ => by ring
            _ = 0 := by rw [h4, mul_zero]
        calc y ⬝ᵥ t = ∑ i, (t i * q ⟨w, ld, c, t, good⟩ + (l.map fun c => c.t i * q c).sum) * t i := by
              simp only [dotProduct]
              exact Finset.sum_congr rfl fun i _ => by rw [congrFun hsplit i]
          _ = ∑ i, t i * q ⟨w, ld, c, t, good⟩ * t i + ∑ i, (l.map fun c => c.t i * q c).sum * t i := by
              rw [← Finset.sum_add_distrib]; exact Finset.sum_congr rfl fun i _ => by ring
          _ = _ := by
              rw [h2, add_zero]
              simp only [dotProduct]
              rw [Finset.mul_sum]
              exact Finset.sum_congr rfl fun i _ => by ring
      exact hc.trans (by rw [h1, mul_div_cancel_right₀ _ hnz])
    have hrest := ih q (fun i => by
      have := congrFun hsplit i
      simp only [Pi.sub_apply, Pi.smul_apply, smul_eq_mul]
      rw [this, ← hct]; ring) i
    simp only [Pi.sub_apply, Pi.smul_apply, smul_eq_mul] at hrest
    simp only [List.map_cons, List.sum_cons]
    rw [← hrest]
    ring

/-- When the extracted components explain the response exactly, no further component can be extracted. -/
lemma snLoop_exact {eta : ℝ} (k : ℕ) : ∀ (X : Fin n → Fin p → ℝ) (y : Fin n → ℝ) (old : Finset (Fin p)) (l : List (SnComp n p)), snLoop eta k X y old = .ok l →
    l.length = k → (0 < k ∨ old ≠ ∅) → (∀ i, y i = (l.map fun c => c.t i * c.c).sum) → ∀ m, ∃ e, snLoop eta (k + 1 + m) X y old = .error e := by
  induction k with
  | zero =>
    intro X y old l hl hlen ho hy m
    have : l = [] := List.length_eq_zero_iff.mp hlen
    subst this
    rw [show 0 + 1 + m = m + 1 by ring]
    simp only [snLoop]
    rw [if_pos (fun j => Finset.sum_eq_zero fun i _ => by rw [hy i]; simp), if_neg (ho.resolve_left (lt_irrefl 0))]
    exact ⟨_, rfl⟩
  | succ k ih =>
    intro X y old l hl hlen ho hy m
    rw [show k + 1 + 1 + m = (k + 1 + m) + 1 by ring]
    simp only [snLoop] at hl ⊢
    split at hl
    · split at hl
      · simp only [Except.ok.injEq] at hl; subst hl; simp at hlen
      · simp at hl
    · rename_i hcov
      rw [if_neg hcov]
      split at hl
      · simp only [Except.ok.injEq] at hl; subst hl; simp at hlen
      · rename_i hg
        rw [if_neg hg]
        split at hl
        · simp at hl
        · rename_i hnz
          rw [if_neg hnz]
          split at hl
          · simp at hl
          · rename_i l' hl'
            simp only [Except.ok.injEq] at hl
            subst hl
            obtain ⟨e, he⟩ := ih _ _ _ _ hl' (by simpa using hlen) (Or.inr hg) (fun i => by
              have := hy i
              simp only [List.map_cons, List.sum_cons] at this
              rw [this]
              ring) m
            rw [he]
            exact ⟨e, rfl⟩

/-- C142 is violated by SNIPLS: once the components explain the response without error, asking for more of them, still at most as many as there are predictors or
not, gives no model (in the code the further columns, and with them all coefficients, are NaN). -/
theorem C142_snipls_violated {pr : SnParams} (hc : pr.centre = .mean ∨ pr.centre = .noneOpt) (hn : 0 < n) {X : Fin n → Fin p → ℝ} {y : Fin n → ℝ} {f : SnFit n p}
    (h : snFit pr X y = .ok f) (hsy : f.ySca ≠ 0) (hlen : f.comps.length = pr.nComponents) (h0 : ∀ i, f.residuals i = 0) (k : ℕ) (hk : pr.nComponents < k) :
    ∃ e, snFit { pr with nComponents := k } X y = .error e := by
  obtain ⟨m, rfl⟩ : ∃ m, k = pr.nComponents + 1 + m := ⟨k - pr.nComponents - 1, by omega⟩
  have hr := snFit_run h
  obtain ⟨⟨ha, hb, hpos⟩, e1, e2, e3, e4, hs, hl, -, hco, hint, hfit, hres⟩ := snFit_inv h
  obtain ⟨-, q, hq⟩ := C45_normal_equations h
  have hff := C46_original_scale hn h hc
  have hy : ∀ i, stdVec y f.yLoc f.ySca i = ∑ a, compT f.comps i a * q a := by
    intro i
    have h1 := h0 i
    rw [hres, hff, hq] at h1
    simp only [stdVec, std1, if_neg hsy]
    rw [div_eq_iff hsy]
    linarith
  have hy2 : ∀ i, stdVec y f.yLoc f.ySca i = (f.comps.map fun c => c.t i * c.c).sum := by
    classical
    refine fun i => ?_
    -- the coefficients of a component, by orthogonality
    refine snRun_exact hr (fun c => (∑ i, stdVec y f.yLoc f.ySca i * c.t i) / (c.t ⬝ᵥ c.t)) (fun i => ?_) i
    rw [sum_map_get, hy i]
    refine Finset.sum_congr rfl fun a _ => ?_
    have hnz := hr.nz _ (List.get_mem f.comps a)
    have hga := hr.T_gram
    have : ∑ i, stdVec y f.yLoc f.ySca i * (f.comps.get a).t i = q a * ((f.comps.get a).t ⬝ᵥ (f.comps.get a).t) := by
      have e : ∑ i, stdVec y f.yLoc f.ySca i * (f.comps.get a).t i = ∑ b, ((compT f.comps).transpose * compT f.comps) b a * q b := by
        simp only [hy, Matrix.mul_apply, Finset.sum_mul]
        rw [Finset.sum_comm]
        refine Finset.sum_congr rfl fun b _ => Finset.sum_congr rfl fun i _ => ?_
        simp only [Matrix.transpose_apply, compT, Matrix.of_apply]
        ring
      rw [e, hga, Finset.sum_eq_single a]
      · rw [Matrix.diagonal_apply_eq]; ring
      · intro b _ hb
        rw [Matrix.diagonal_apply_ne _ hb, zero_mul]
      · simp
    rw [this, mul_div_cancel_right₀ _ hnz]
    rfl
  obtain ⟨e, he⟩ := snLoop_exact pr.nComponents _ _ _ _ hl hlen (Or.inl hpos) hy2 m
  cases hf : snFit { pr with nComponents := pr.nComponents + 1 + m } X y with
  | error e => exact ⟨e, rfl⟩
  | ok g =>
    exfalso
    obtain ⟨-, a1, a2, a3, a4, -, hl', -⟩ := snFit_inv hf
    dsimp only at a1 a2 a3 a4 hl'
    rw [a1, a2, a3, a4, ← e1, ← e2, ← e3, ← e4, he] at hl'
    simp at hl'

/-! ### ppdire -/

/-- C142 (ppdire; partial: least squares, the mean as centre, no trimming, and as many components as predictors): the slopes and the intercept of the relationship are
`coef_` and `intercept_`, for every projection index and every optimiser. -/
theorem C142_ppdire_partial {pr : PpParams} {pinv : Pinv} (hpi : IsGenInverse pinv) {φ : (Fin n → ℝ) → (Fin n → ℝ) → ℝ} {X : Fin n → Fin p → ℝ} {y : Fin n → ℝ}
    {f : PpFit n p} (hm : pr.centre = .mean) (ht : pr.trimming = 0) (hc : pr.centerData = true) (h : ppFit pr pinv .ols φ X y = .ok f) (hn : 0 < n) (hp : pr.nComponents = p)
    {a : ℝ} {β : Fin p → ℝ} (he : ExactLinear X y a β) : f.coef = β ∧ f.intercept = a ∧ f.fitted = y ∧ ∀ i, f.residuals i = 0 := by
  obtain ⟨-, -, -, hmin⟩ := C83_least_squares pr pinv hpi φ X y f h hm ht hc
  obtain ⟨-, -, horth, -⟩ := C57_scores pr pinv .ols φ X y f h
  obtain ⟨Xs, ys, hXs, hys, hmX, hsX, hmy, hsy, -, -, hl, hs, hrot, hbs, hb, hb0, hfit, hres, -⟩ := ppFit_inv h
  obtain ⟨hlen, hI⟩ := ppLoop_inv _ _ _ hl
  have hsc := ppScores_eq hpi hI
  simp only [hc, if_true, hm, ht, PpCentre.loc, ppMean_zero] at hXs hys hmX hmy hb0
  have hgram : ((ppT f.comps).transpose * ppT f.comps).det ≠ 0 := by
    have : (ppT f.comps).transpose * ppT f.comps = Matrix.diagonal fun b => ∑ i, (f.comps.get b).t i ^ 2 := by
      ext b d
      rw [Matrix.mul_apply]
      by_cases hbd : b = d
      · subst hbd
        rw [Matrix.diagonal_apply_eq]
        exact Finset.sum_congr rfl fun i _ => (pow_two _).symm
      · rw [Matrix.diagonal_apply_ne _ hbd]
        exact horth b d hbd
    rw [this, Matrix.det_diagonal]
    exact Finset.prod_ne_zero_iff.mpr fun b _ => hI.nz _ (List.get_mem _ _)
  obtain ⟨hspan, hinj⟩ := full_rank (hlen.trans hp) (Matrix.of Xs) (ppR pinv f.comps) (ppT f.comps) hsc hgram
  -- centred predictors
  have hXv : ∀ (v : Fin p → ℝ) i, (Matrix.of Xs *ᵥ fun j => f.xSca j * v j) i = (∑ j, X i j * v j) - ∑ j, f.xLoc j * v j := by
    intro v i
    simp only [Matrix.mulVec, dotProduct, Matrix.of_apply, hXs, scaleMat]
    rw [← Finset.sum_sub_distrib]
    refine Finset.sum_congr rfl fun j _ => ?_
    have := hs j
    simp only [this, if_false]
    field_simp
  obtain ⟨q, hq⟩ := hspan fun j => f.xSca j * β j
  have hyq : ∀ i, y i = affine q (a + ∑ j, f.xLoc j * β j) (ppT f.comps i) := by
    intro i
    have h1 := congrFun hq i
    rw [hXv] at h1
    have h2 : (ppT f.comps *ᵥ q) i = ∑ b, ppT f.comps i b * q b := rfl
    rw [h2] at h1
    rw [affine, ← h1, he i]
    ring
  have hf : f.fitted = y := by
    funext i
    have h1 := hmin (a + ∑ j, f.xLoc j * β j) q
    have h2 : ∑ i, (y i - affine q (a + ∑ j, f.xLoc j * β j) (ppT f.comps i)) ^ 2 = 0 :=
      Finset.sum_eq_zero fun i _ => by rw [← hyq i]; ring
    rw [h2] at h1
    have h3 := (Finset.sum_eq_zero_iff_of_nonneg fun i _ => sq_nonneg (y i - f.fitted i)).mp
      (le_antisymm h1 (Finset.sum_nonneg fun i _ => sq_nonneg _)) i (Finset.mem_univ _)
    have h4 := pow_eq_zero_iff two_ne_zero |>.mp h3
    linarith
  have hfi : ∀ i, (∑ k, X i k * f.coef k) + f.intercept = y i := by
    intro i; rw [← congrFun hf i, hfit]
  have hcoef : f.coef = β := by
    have hd : ∀ i, ∑ k, X i k * (f.coef k - β k) = a - f.intercept := by
      intro i
      have h1 := hfi i
      rw [he i] at h1
      simp only [mul_sub, Finset.sum_sub_distrib]
      linarith
    have hmd : ∑ j, f.xLoc j * (f.coef j - β j) = a - f.intercept := by
      have h1 : ExactLinear X (fun _ => a - f.intercept) 0 (fun j => f.coef j - β j) := fun i => by rw [hd i, zero_add]
      have h2 := exact_mean hn h1
      have hn' : (n : ℝ) ≠ 0 := by positivity
      rw [mean_eq] at h2
      simp only [Finset.sum_const, Finset.card_univ, Fintype.card_fin, nsmul_eq_mul, zero_add] at h2
      rw [mul_div_cancel_left₀ _ hn'] at h2
      rw [h2, hmX]
    have hz := hinj (fun j => f.xSca j * (f.coef j - β j)) (by
      funext i
      rw [hXv, hd, hmd, sub_self]; rfl)
    funext j
    have := congrFun hz j
    simp only [Pi.zero_apply, mul_eq_zero] at this
    exact sub_eq_zero.mp (this.resolve_left (hs j))
  have hin : f.intercept = a := by
    have h1 := hfi ⟨0, hn⟩
    rw [he, hcoef] at h1
    linarith
  exact ⟨hcoef, hin, hf, fun i => by rw [hres]; simp [hf]⟩

/-! ### sudire -/

/-- C142 (sudire): with as many components as predictors and a least squares routine that solves the normal equations, the predictions for the training data are the
responses. -/
theorem C142_sudire {ext : SdExt} (hols : ∀ {n k : ℕ} (A : Fin n → Fin k → ℝ) (y : Fin n → ℝ), IsLeastSquares A y (ext.ols A y)) {o o' : SdObj}
    (hc : o.params.copy = true) {X : Fin n → Fin p → ℝ} {y : Fin n → ℝ} {f : SdFit n p} (h : o.fit ext X y = .ok (o', f)) (hp : f.h = p) {a : ℝ} {β : Fin p → ℝ}
    (he : ExactLinear X y a β) : f.predict X = .ok y := by
  obtain ⟨yh, hyh, horth, hone⟩ := C93_training hols hc h
  obtain ⟨yh', b0, b, hyh', hb⟩ := fit_predict_affine hc h
  have : yh' = yh := by rw [hyh] at hyh'; exact (Except.ok.inj hyh').symm
  subst this
  have htr := C92_training_partial hc h
  -- the responses are an affine function of the scores
  have hy : ∃ q : Fin f.h → ℝ, ∀ c, y c = a + ∑ j, f.T c j * q j := by
    obtain ⟨q, L, st', pm, T, -, -, hpm, -, -, rfl⟩ := SdObj.fit_ok h
    obtain ⟨hu, -⟩ := projMat_ok hpm
    unfold SdFit.transform at htr
    simp only [Fin.cast_refl, id_eq, dite_true, Except.ok.injEq] at htr
    dsimp only at hp ⊢
    obtain ⟨hd, P⟩ := L
    dsimp only at *
    subst hp
    have hPu : IsUnit P.det := by
      rw [Matrix.det_mul, Matrix.det_transpose] at hu
      exact isUnit_of_mul_isUnit_right hu
    refine ⟨P⁻¹ *ᵥ β, fun c => ?_⟩
    rw [he c, ← htr]
    congr 1
    have h1 : (Matrix.of X * P) *ᵥ (P⁻¹ *ᵥ β) = Matrix.of X *ᵥ β := by
      rw [Matrix.mulVec_mulVec, Matrix.mul_nonsing_inv_cancel_right _ _ hPu]
    have h2 := congrFun h1 c
    exact h2.symm
  obtain ⟨q, hq⟩ := hy
  have hsum : ∑ c, (y c - yh' c) = 0 := by
    by_cases hcst : ∃ j, IsConstCol f.T j
    · obtain ⟨j, h1, h2⟩ := hcst
      rcases Nat.eq_zero_or_pos n with rfl | hn
      · simp
      · have h3 := horth j
        have h4 : ∀ c, f.T c j = f.T ⟨0, hn⟩ j := fun c => h1 c _
        simp only [h4, ← Finset.mul_sum] at h3
        exact (mul_eq_zero.mp h3).resolve_left (h2 _)
    · exact hone hcst
  have hz : ∀ c, y c - yh' c = 0 := by
    refine zero_of_orth_span (fun c => (Fin.cons 1 (f.T c) : Fin (f.h + 1) → ℝ)) _ (Fin.cons (a - b0) fun j => q j - b j) (fun c => ?_) fun k => ?_
    · rw [Fin.sum_univ_succ]
      simp only [Fin.cons_zero, Fin.cons_succ, one_mul]
      rw [hb, hq c]
      simp only [mul_sub, Finset.sum_sub_distrib]
      ring
    · refine Fin.cases ?_ (fun j => ?_) k
      · simpa using hsum
      · rw [← horth j]
        exact Finset.sum_congr rfl fun c _ => by simp only [Fin.cons_succ]; ring
  rw [hyh]
  congr 1
  funext c
  have := hz c
  linarith

/-! ### Robust M regression -/

/-- Residuals that all vanish cannot be scaled. -/
lemma scaleRes_zero (r d : Fin n → ℝ) (hr : ∀ i, r i = 0) : scaleRes r ≠ .ok d := by
  classical
  unfold scaleRes
  dsimp only
  have h1 : (Finset.univ.filter fun i => r i = 0).card = n := by
    rw [Finset.filter_true_of_mem fun i _ => hr i]; simp
  have h2 : ¬ ((n : ℝ) < (n : ℝ) / 2) := by
    have : (0 : ℝ) ≤ n := Nat.cast_nonneg n
    linarith
  split
  · rename_i h3
    exfalso
    refine h2 ?_
    have h4 : ((Finset.univ.filter fun i => r i = 0).card : ℝ) < (n : ℝ) / 2 := by convert h3
    rwa [h1] at h4
  · rw [if_pos]
    · simp
    · rw [List.map_eq_nil_iff, List.filter_eq_nil_iff]
      intro v hv
      obtain ⟨i, rfl⟩ := (List.mem_ofFn' _ _).mp hv
      simp [hr i]

/-- C142 is violated by robust M regression: if the locations of response and predictors satisfy the relationship too, `fit` gives no model, whatever the weight
function, its tuning, the scale and the number of iterations.  (The residuals of the first weighted least squares fit vanish, and they are divided by the median of
the nonzero ones.  In the code the weights are then NaN.) -/
theorem C142_rm_violated (ext : RmExt) (hls : ∀ {n p : ℕ} (X : Fin n → Fin p → ℝ) (y : Fin n → ℝ), IsLeastSquares X y (ext.lstsq X y)) (pr : RmParams)
    (X : Fin n → Fin p → ℝ) (y : Fin n → ℝ) {a : ℝ} {β : Fin p → ℝ} (he : ExactLinear X y a β)
    (hloc : pr.centre.run (asCol y) 0 = a + ∑ j, pr.centre.run X j * β j) (hsy : pr.scale.run (asCol y) 0 ≠ 0) : ∃ e, rmFit ext pr X y = .error e := by
  cases hf : rmFit ext pr X y with
  | error e => exact ⟨e, rfl⟩
  | ok f =>
    exfalso
    obtain ⟨-, e1, e2, e3, e4, hs, dx, dy, o, -, -, hl, hb, -⟩ := rmFit_inv hf
    have hstd := exact_std he hs (sy := f.ySca) (by rw [e4]; exact hsy) (m := f.xLoc) (my := f.yLoc) (by rw [e1, e3]; exact hloc)
    obtain ⟨we, b2, hwe, hst⟩ := (rwLoop_pass _ _ _ _ _ _ _ _ _ _ (clip_ge _) (by simp) hl o rfl).last
    set Z := stdMat X f.xLoc f.xSca with hZ
    set ys := stdVec y f.yLoc f.ySca with hys
    unfold rmStep at hst
    dsimp only at hst
    have hmin := isLeastSquares_min (hls (weightRows Z we) (fun i => ys i * Real.sqrt (we i))) fun j => f.xSca j / f.ySca * β j
    set b := ext.lstsq (weightRows Z we) (fun i => ys i * Real.sqrt (we i)) with hbdef
    have hex : ∀ i, ys i * Real.sqrt (we i) - ∑ j, weightRows Z we i j * (f.xSca j / f.ySca * β j) = 0 := by
      intro i
      rw [hstd i]
      simp only [lin, weightRows, Finset.sum_mul]
      rw [← Finset.sum_sub_distrib]
      exact Finset.sum_eq_zero fun j _ => by ring
    have hzero : ∀ i, ys i - ∑ j, Z i j * b j = 0 := by
      intro i
      have h1 : ∑ i, (ys i * Real.sqrt (we i) - ∑ j, weightRows Z we i j * b j) ^ 2 ≤ 0 := by
        refine hmin.trans (le_of_eq (Finset.sum_eq_zero fun i _ => ?_))
        rw [hex i]; ring
      have h2 := (Finset.sum_eq_zero_iff_of_nonneg fun i _ => sq_nonneg (ys i * Real.sqrt (we i) - ∑ j, weightRows Z we i j * b j)).mp
        (le_antisymm h1 (Finset.sum_nonneg fun i _ => sq_nonneg _)) i (Finset.mem_univ _)
      have h3 := pow_eq_zero_iff two_ne_zero |>.mp h2
      have h4 : ys i * Real.sqrt (we i) - ∑ j, weightRows Z we i j * b j = Real.sqrt (we i) * (ys i - ∑ j, Z i j * b j) := by
        rw [mul_sub, Finset.mul_sum]
        congr 1
        · ring
        · exact Finset.sum_congr rfl fun j _ => by simp only [weightRows]; ring
      rw [h4] at h3
      have h5 : 0 < Real.sqrt (we i) := Real.sqrt_pos.mpr (by have := hwe i; unfold wMin at this; linarith)
      exact (mul_eq_zero.mp h3).resolve_left h5.ne'
    split at hst
    · simp at hst
    · rename_i r hr
      exact scaleRes_zero _ _ hzero hr

/-- C142 is violated by robust M regression with the mean as centre, for every exact relationship. -/
theorem C142_rm_mean_violated (ext : RmExt) (hls : ∀ {n p : ℕ} (X : Fin n → Fin p → ℝ) (y : Fin n → ℝ), IsLeastSquares X y (ext.lstsq X y)) (pr : RmParams)
    (hc : pr.centre = .mean) (hn : 0 < n) (X : Fin n → Fin p → ℝ) (y : Fin n → ℝ) {a : ℝ} {β : Fin p → ℝ} (he : ExactLinear X y a β) (hsy : pr.scale.run (asCol y) 0 ≠ 0) :
    ∃ e, rmFit ext pr X y = .error e := by
  refine C142_rm_violated ext hls pr X y he ?_ hsy
  rw [hc]
  exact exact_mean hn he

/-- C142 is violated by robust M regression with the median as centre (the default), for every exact relationship with a single predictor. -/
theorem C142_rm_median_violated (ext : RmExt) (hls : ∀ {n p : ℕ} (X : Fin n → Fin p → ℝ) (y : Fin n → ℝ), IsLeastSquares X y (ext.lstsq X y)) (pr : RmParams)
    (hc : pr.centre = .median) (hn : 0 < n) (X : Fin n → Fin 1 → ℝ) (y : Fin n → ℝ) {a : ℝ} {β : Fin 1 → ℝ} (he : ExactLinear X y a β)
    (hsy : pr.scale.run (asCol y) 0 ≠ 0) : ∃ e, rmFit ext pr X y = .error e := by
  refine C142_rm_violated ext hls pr X y he ?_ hsy
  rw [hc]
  simp only [Centre.run, asCol, Fin.sum_univ_one]
  have : y = fun i => a + β 0 * X i 0 := by
    funext i; rw [he i]; simp [mul_comm]
  have h2 := med_affine hn (β 0) a fun i => X i 0
  rw [this, add_comm a, mul_comm (med fun i => X i 0), ← h2]
  congr 1
  funext i
  ring

/-! ### Cases that meet the hypotheses -/

/-- SNIPLS with two components on two predictors recovers `y = 5 x₁ - x₂`. -/
example : ∃ f, snFit snPr snX snY = .ok f ∧ ExactLinear snX snY 0 ![5, -1] ∧ snPr.centre = .noneOpt ∧ f.ySca ≠ 0 ∧ f.comps.length = 2 ∧ f.coef = ![5, -1] := by
  obtain ⟨f, hf, hc⟩ := snExFit
  obtain ⟨_, _, _, _, e4, _⟩ := snFit_inv hf
  have hs : f.ySca ≠ 0 := by rw [e4]; simp [snPr, ScaleOpt.run]
  have he : ExactLinear snX snY 0 ![5, -1] := by
    intro i; fin_cases i <;> simp [snX, snY, Fin.sum_univ_two]; norm_num
  exact ⟨f, hf, he, rfl, hs, by rw [hc]; rfl, (C142_snipls_partial (by norm_num) hf he (.inr ⟨rfl, rfl⟩) hs (by rw [hc]; rfl)).1⟩

/-- The response is the first of two predictors: one component reproduces it, and with two components there is no model. -/
theorem snExact_one : ∃ f : SnFit 2 2, snFit { snPr with nComponents := 1 } (fun i j => if i = j then 1 else 0) ![1, 0] = .ok f ∧ f.ySca ≠ 0 ∧ f.comps.length = 1 ∧
    ∀ i, f.residuals i = 0 := by
  set X : Fin 2 → Fin 2 → ℝ := fun i j => if i = j then 1 else 0 with hX
  have hw : snWeights (3 / 4) X ![1, 0] = (![1 / 4, -(3 / 4)], ![1 / 4, 0]) := by
    have hs : ∀ j, ∑ i, X i j * (![1, 0] : Fin 2 → ℝ) i = ![1, 0] j := by
      intro j; fin_cases j <;> simp [hX, Fin.sum_univ_two]
    have hn : Real.sqrt (∑ j : Fin 2, (![1, 0] j : ℝ) ^ 2) = 1 := by
      rw [Fin.sum_univ_two]; simp
    have hm : maxAbs (fun j => (![1, 0] j : ℝ) / 1) = 1 := by
      rw [maxAbs_two]; simp
    simp only [snWeights, hs, hn, hm]
    refine Prod.ext ?_ ?_ <;> funext j <;> fin_cases j <;> norm_num [npSign]
  have h1 := snLoop_step (eta := 3 / 4) (h := 0) (X := X) (y := ![1, 0]) (old := ∅)
    (good := {0}) (w := ![1 / 4, 0]) (t := ![1 / 4, 0]) (q := 1 / 16) (c := 4) (ph := ![4, 0]) (l := [])
    (X' := fun i j => if i = 1 ∧ j = 1 then 1 else 0) (y' := fun _ => 0)
    (by intro h; have := h 0; simp [hX, Fin.sum_univ_two] at this) hw
    (by ext j; fin_cases j <;> simp <;> norm_num) (by simp)
    (by funext j; fin_cases j <;> simp)
    (by funext i; fin_cases i <;> simp [hX, Fin.sum_univ_two])
    (by simp [Fin.sum_univ_two]; norm_num) (by norm_num) (by simp [Fin.sum_univ_two]; norm_num)
    (by funext j; fin_cases j <;> simp [hX, Fin.sum_univ_two]; norm_num)
    (by funext i j; fin_cases i <;> fin_cases j <;> simp [hX])
    (by funext i; fin_cases i <;> simp) rfl
  have e1 : stdMat X (snPr.centre.run X) (snPr.scale.run X) = X := by
    funext i j; simp [stdMat, std1, snPr, Centre.run, ScaleOpt.run]
  have e2 : stdVec (![1, 0] : Fin 2 → ℝ) (snPr.centre.run (asCol ![1, 0]) 0) (snPr.scale.run (asCol (![1, 0] : Fin 2 → ℝ)) 0) = ![1, 0] := by
    funext i; simp [stdVec, std1, snPr, Centre.run, ScaleOpt.run]
  obtain ⟨f, hf, hc⟩ := snFit_of_loop { snPr with nComponents := 1 } X ![1, 0] (by norm_num [snPr]) (by norm_num [snPr]) (by simp)
    (fun j => by simp [snPr, ScaleOpt.run]) _ (by
      rw [show ({ snPr with nComponents := 1 } : SnParams).centre = snPr.centre from rfl, show ({ snPr with nComponents := 1 } : SnParams).scale = snPr.scale from rfl, e1, e2]
      exact h1)
  obtain ⟨-, f1, f2, f3, f4, -⟩ := snFit_inv hf
  have hs : f.ySca ≠ 0 := by rw [f4]; simp [snPr, ScaleOpt.run]
  refine ⟨f, hf, hs, by rw [hc]; rfl, ?_⟩
  obtain ⟨ho, q, hq⟩ := C45_residuals (by norm_num) hf (.inr rfl) hs
  obtain ⟨-, -, -, -, -, -, -, -, -, -, -, hres⟩ := snFit_inv hf
  have hy0 : f.yLoc = 0 := by rw [f3]; rfl
  generalize f.comps = l at hc ho q hq
  subst hc
  have o0 := ho 0
  have q1 := hq 1
  have r0 := hres 0
  have r1 := hres 1
  simp [dot, compT, Fin.sum_univ_two] at o0
  simp [compT, hy0] at q1
  simp at r0 r1
  intro i
  fin_cases i
  · exact o0
  · show f.residuals 1 = 0
    rw [r1, q1]; ring

/-- A SNIPLS model that meets the hypotheses of `C142_snipls_violated`, with two predictors and a request for two components. -/
example : ∃ e, snFit { snPr with nComponents := 2 } (fun i j : Fin 2 => if i = j then (1 : ℝ) else 0) ![1, 0] = .error e := by
  obtain ⟨f, hf, hs, hl, h0⟩ := snExact_one
  exact C142_snipls_violated (.inr rfl) (by norm_num) hf hs hl h0 2 (by simp)

/-- ppdire with two components on two predictors recovers `y = 1 + 2 x₁ - x₂`. -/
example : ∃ (pinv : Pinv) (f : PpFit 3 2), IsGenInverse pinv ∧ (ppExPr true).nComponents = 2 ∧ ExactLinear ppExX ![0, -1, 4] 1 ![2, -1] ∧
    ppFit (ppExPr true) pinv .ols (fun _ t => t 0) ppExX ![0, -1, 4] = .ok f ∧ f.coef = ![2, -1] ∧ f.intercept = 1 := by
  obtain ⟨pinv, h⟩ := exists_pinv
  obtain ⟨f, hf⟩ := ppExFit true pinv .ols (fun _ t => t 0) ![0, -1, 4]
  have he : ExactLinear ppExX ![0, -1, 4] 1 ![2, -1] := by
    intro i; fin_cases i <;> simp [ppExX, Fin.sum_univ_two] <;> norm_num
  obtain ⟨h1, h2, -⟩ := C142_ppdire_partial h rfl rfl rfl hf (by norm_num) rfl he
  exact ⟨pinv, f, h, rfl, he, hf, h1, h2⟩

/-- A sudire model with two components on two predictors, for a response that is linear in them. -/
example : ∃ (ext : SdExt) (o : SdObj) (f : SdFit 6 2), (∀ {n k : ℕ} (A : Fin n → Fin k → ℝ) (y : Fin n → ℝ), IsLeastSquares A y (ext.ols A y)) ∧
    (SdObj.new iht2Params).fit ext (sixX 1) (fun i => 3 + ∑ j, sixX 1 i j * ![1, 2] j) = .ok (o, f) ∧ f.predict (sixX 1) = .ok fun i => 3 + ∑ j, sixX 1 i j * ![1, 2] j := by
  obtain ⟨ext, o, f, h1, -, h2, -, h3, h4⟩ := iht2_fits fun i => 3 + ∑ j, sixX 1 i j * ![1, 2] j
  exact ⟨ext, o, f, h1, h3, C142_sudire h1 h2 h3 h4 fun i => rfl⟩

/-- Robust M regression with the median as centre fails on `y = 1 + 2 x`. -/
example (fn : WFun) (maxit : ℤ) : ∃ e, rmFit rmExt0 ⟨fn, 95 / 100, 975 / 1000, 999 / 1000, .median, .noneOpt, true, maxit, 1 / 100, true⟩
    (fun i _ => ![0, 1, 2, 5] i : Fin 4 → Fin 1 → ℝ) ![1, 3, 5, 11] = .error e :=
  C142_rm_median_violated rmExt0 (fun X y => rmExt0_lstsq X y) _ rfl (by norm_num) _ _ (a := 1) (β := ![2])
    (by intro i; fin_cases i <;> simp <;> norm_num) (by simp [ScaleOpt.run])

end Direpack
