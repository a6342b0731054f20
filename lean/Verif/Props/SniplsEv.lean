import Verif.SniplsEv
import Verif.Props.Snipls
import Mathlib.Algebra.Order.BigOperators.Group.List

/-!
Property C105: the explained variances published by `snipls`.
-/

namespace Direpack

open scoped BigOperators
open Matrix Spec

variable {n p : ℕ} {eta : ℝ}

/-- The sum of squares of the entries of a deflated matrix. -/
theorem sumSq_defl (X : Matrix (Fin n) (Fin p) ℝ) (t : Fin n → ℝ) (hnz : t ⬝ᵥ t ≠ 0) :
    ∑ i, ∑ j, X i j ^ 2 = (t ⬝ᵥ t) * ∑ j, ((t ᵥ* X) j / (t ⬝ᵥ t)) ^ 2 +
      ∑ i, ∑ j, (X - vecMulVec t (fun j => (t ᵥ* X) j / (t ⬝ᵥ t))) i j ^ 2 := by
  rw [Finset.sum_comm, Finset.sum_comm (f := fun i j => (X - vecMulVec t (fun j => (t ᵥ* X) j / (t ⬝ᵥ t))) i j ^ 2),
    Finset.mul_sum, ← Finset.sum_add_distrib]
  refine Finset.sum_congr rfl fun j _ => ?_
  set q := (t ᵥ* X) j / (t ⬝ᵥ t) with hq
  have h1 : ∑ i, t i * X i j = q * (t ⬝ᵥ t) := by
    rw [hq, div_mul_cancel₀ _ hnz]; rfl
  have h2 : ∑ i, (X - vecMulVec t (fun j => (t ᵥ* X) j / (t ⬝ᵥ t))) i j ^ 2 =
      ∑ i, X i j ^ 2 - 2 * q * ∑ i, t i * X i j + q ^ 2 * (t ⬝ᵥ t) := by
    simp only [dotProduct]
    rw [Finset.mul_sum, Finset.mul_sum, ← Finset.sum_sub_distrib, ← Finset.sum_add_distrib]
    refine Finset.sum_congr rfl fun i _ => ?_
    rw [Matrix.sub_apply, vecMulVec_apply]
    simp only [dotProduct] at hq ⊢
    rw [← hq]; ring
  rw [h2, h1]; ring

theorem SnRun.x_le {X : Matrix (Fin n) (Fin p) ℝ} {y : Fin n → ℝ} {old : Finset (Fin p)}
    {l : List (SnComp n p)} (h : SnRun eta X y old l) :
    (l.map fun c => (c.t ⬝ᵥ c.t) * ∑ j, c.load j ^ 2).sum ≤ ∑ i, ∑ j, X i j ^ 2 := by
  induction h with
  | stop X y old => simpa using Finset.sum_nonneg fun i _ => Finset.sum_nonneg fun j _ => sq_nonneg (X i j)
  | step X y old good w t c ld l hcov hg hne hw ht hnz hc hld hrun ih =>
    rw [sumSq_defl X t hnz, List.map_cons, List.sum_cons]
    refine add_le_add ?_ ih
    refine mul_le_mul_of_nonneg_left ?_ (by rw [dotProduct]; exact Finset.sum_nonneg fun i _ => mul_self_nonneg _)
    refine Finset.sum_le_sum fun j _ => ?_
    rw [hld]
    simp only
    split
    · exact le_refl _
    · rw [zero_pow two_ne_zero]; exact sq_nonneg _

theorem SnRun.x_eq {X : Matrix (Fin n) (Fin p) ℝ} {y : Fin n → ℝ} {old : Finset (Fin p)}
    {l : List (SnComp n p)} (h : SnRun eta X y old l) (hall : ∀ c ∈ l, c.good = Finset.univ) :
    (l.map fun c => (c.t ⬝ᵥ c.t) * ∑ j, c.load j ^ 2).sum +
      ∑ i, ∑ j, (X i j - (l.map fun c => c.t i * c.load j).sum) ^ 2 = ∑ i, ∑ j, X i j ^ 2 := by
  induction h with
  | stop X y old => simp
  | step X y old good w t c ld l hcov hg hne hw ht hnz hc hld hrun ih =>
    have hgu : good = Finset.univ := hall ⟨w, ld, c, t, good⟩ (by simp)
    have hld' : ld = fun j => (t ᵥ* X) j / (t ⬝ᵥ t) := by
      rw [hld]; funext j; rw [if_pos (by rw [hgu]; simp)]
    have hrec := ih fun c hc => hall c (by simp [hc])
    rw [sumSq_defl X t hnz, ← hrec, List.map_cons, List.sum_cons]
    simp only [List.map_cons, List.sum_cons, hld', Matrix.sub_apply, vecMulVec_apply, sub_sub]
    ring

theorem SnRun.c_eq {X : Matrix (Fin n) (Fin p) ℝ} {y : Fin n → ℝ} {old : Finset (Fin p)}
    {l : List (SnComp n p)} (h : SnRun eta X y old l) :
    ∀ c ∈ l, c.c = (y ⬝ᵥ c.t) / (c.t ⬝ᵥ c.t) := by
  induction h with
  | stop => intro c hc; simp at hc
  | step X y old good w t c ld l hcov hg hne hw ht hnz hc hld hrun ih =>
    intro d hd
    rcases List.mem_cons.1 hd with rfl | hd
    · exact hc
    · rw [ih d hd, sub_dotProduct, smul_dotProduct, hrun.orth_of _ (defl_orth X t hnz) d hd]
      simp

theorem dotSelf_eq (t : Fin n → ℝ) : t ⬝ᵥ t = ∑ i, t i ^ 2 := by simp only [dotProduct, sq]

/-- The squared length of the fitted part is the sum of the contributions of the components. -/
theorem snFit_y_contrib {pr : SnParams} {X : Fin n → Fin p → ℝ} {y : Fin n → ℝ} {f : SnFit n p}
    (h : snFit pr X y = .ok f) :
    (f.comps.map fun c => (c.t ⬝ᵥ c.t) * c.c ^ 2).sum +
      ∑ i, (stdVec y f.yLoc f.ySca i - lin (stdMat X f.xLoc f.xSca) f.coefScaled i) ^ 2 =
      ∑ i, stdVec y f.yLoc f.ySca i ^ 2 := by
  have hr := snFit_run h
  obtain ⟨h1, q, h2⟩ := C45_normal_equations h
  set y0 := stdVec y f.yLoc f.ySca with hy0
  set g := lin (stdMat X f.xLoc f.xSca) f.coefScaled with hg
  have hug : ∀ u : Fin n → ℝ, u ⬝ᵥ g = ∑ a, q a * (u ⬝ᵥ (f.comps.get a).t) := by
    intro u
    have e0 : u ⬝ᵥ g = ∑ i, ∑ a, u i * (compT f.comps i a * q a) :=
      Finset.sum_congr rfl fun i _ => by rw [h2 i, Finset.mul_sum]
    rw [e0, Finset.sum_comm]
    refine Finset.sum_congr rfl fun b _ => ?_
    rw [dotProduct, Finset.mul_sum]
    exact Finset.sum_congr rfl fun i _ => by simp only [compT, Matrix.of_apply]; ring
  have hgt : ∀ a, g ⬝ᵥ (f.comps.get a).t = q a * ((f.comps.get a).t ⬝ᵥ (f.comps.get a).t) := by
    intro a
    rw [dotProduct_comm, hug, Finset.sum_eq_single a]
    · intro b _ hb
      have := C42_scores_orthogonal h a b (Ne.symm hb)
      simp only [dot, compT, Matrix.of_apply] at this
      simp only [dotProduct]
      rw [this, mul_zero]
    · intro hh; exact absurd (Finset.mem_univ a) hh
  have hyt : ∀ a, y0 ⬝ᵥ (f.comps.get a).t = g ⬝ᵥ (f.comps.get a).t := by
    intro a
    have := h1 a
    simp only [dot, sub_mul, Finset.sum_sub_distrib] at this
    exact sub_eq_zero.1 this
  have hc : ∀ a, (f.comps.get a).c = q a := by
    intro a
    rw [hr.c_eq _ (List.get_mem _ a), hyt, hgt, mul_div_assoc, div_self (hr.nz _ (List.get_mem _ a)), mul_one]
  have hgg : g ⬝ᵥ g = (f.comps.map fun c => (c.t ⬝ᵥ c.t) * c.c ^ 2).sum := by
    rw [sum_map_get]
    rw [hug]
    refine Finset.sum_congr rfl fun a _ => ?_
    rw [hgt, hc]; ring
  have hyg : y0 ⬝ᵥ g = g ⬝ᵥ g := by
    have : (fun i => y0 i - g i) ⬝ᵥ g = 0 := by
      rw [hug]
      refine Finset.sum_eq_zero fun a _ => ?_
      have := h1 a
      change (fun i => y0 i - g i) ⬝ᵥ (f.comps.get a).t = 0 at this
      rw [this, mul_zero]
    simp only [dotProduct, sub_mul, Finset.sum_sub_distrib] at this ⊢
    linarith
  rw [← hgg]
  simp only [dotProduct] at hyg ⊢
  have : ∑ i, (y0 i - g i) ^ 2 = ∑ i, y0 i ^ 2 - 2 * ∑ i, y0 i * g i + ∑ i, g i * g i := by
    rw [Finset.mul_sum, ← Finset.sum_sub_distrib, ← Finset.sum_add_distrib]
    exact Finset.sum_congr rfl fun i _ => by ring
  rw [this, hyg]; ring

/-! ### The published percentages -/

theorem filledArray_some {α β : Type} {l : List α} {g : α → β} {v : List β} (h : filledArray l g = some v) :
    v = l.map g ∧ l ≠ [] := by
  unfold filledArray at h
  split at h
  · simp at h
  · rename_i hl
    simp only [Option.some.injEq] at h
    exact ⟨h.symm, fun e => hl (by rw [e]; rfl)⟩

theorem filledArray_isSome {α β : Type} (l : List α) (g : α → β) : (∃ v, filledArray l g = some v) ↔ l ≠ [] := by
  unfold filledArray
  cases l <;> simp

theorem yEv_std (f : SnFit n p) (y : Fin n → ℝ) :
    f.yEv y = filledArray f.comps fun c => ((c.t ⬝ᵥ c.t) * c.c ^ 2) / (∑ i, stdVec y f.yLoc f.ySca i ^ 2) * 100 := by
  unfold SnFit.yEv
  simp only [scaleMat_eq, dotSelf_eq]
  rfl

theorem xEv_std (f : SnFit n p) (X : Fin n → Fin p → ℝ) :
    f.xEv X = filledArray f.comps fun c =>
      ((c.t ⬝ᵥ c.t) * ∑ j, c.load j ^ 2) / (∑ i, ∑ j, stdMat X f.xLoc f.xSca i j ^ 2) * 100 := by
  unfold SnFit.xEv
  simp only [scaleMat_eq, dotSelf_eq]

/-- Shares of a total: nonnegative parts whose sum is at most the total. -/
theorem shares_percent {α : Type} (l : List α) (g : α → ℝ) (S : ℝ) (h0 : ∀ a ∈ l, 0 ≤ g a) (hS : (l.map g).sum ≤ S) :
    (∀ v ∈ l.map (fun a => g a / S * 100), 0 ≤ v ∧ v ≤ 100) ∧ (l.map fun a => g a / S * 100).sum ≤ 100 := by
  have hsum0 : 0 ≤ (l.map g).sum := List.sum_nonneg (by simpa using h0)
  have hS0 : 0 ≤ S := hsum0.trans hS
  have hle : (l.map g).sum / S ≤ 1 := by
    rcases hS0.eq_or_lt with e | e
    · rw [← e, div_zero]; exact zero_le_one
    · rw [div_le_one e]; exact hS
  constructor
  · intro v hv
    obtain ⟨a, ha, rfl⟩ := List.mem_map.1 hv
    have h1 : g a ≤ (l.map g).sum := List.single_le_sum (by simpa using h0) _ (List.mem_map_of_mem ha)
    have h2 : g a / S ≤ (l.map g).sum / S := div_le_div_of_nonneg_right h1 hS0
    have h3 : 0 ≤ g a / S := div_nonneg (h0 a ha) hS0
    constructor <;> linarith
  · have : (l.map fun a => g a / S * 100).sum = (l.map g).sum / S * 100 := by
      rw [sum_map_get, sum_map_get, Finset.sum_div, Finset.sum_mul]
    rw [this]; linarith

/-- **C105.** The published `x_ev_` are percentages: each lies in `[0,100]` and together they are at most 100. -/
theorem C105_x_percent_partial {pr : SnParams} {X : Fin n → Fin p → ℝ} {y : Fin n → ℝ} {f : SnFit n p}
    (h : snFit pr X y = .ok f) (v : List ℝ) (hv : f.xEv X = some v) :
    v.length = f.comps.length ∧ (∀ a ∈ v, 0 ≤ a ∧ a ≤ 100) ∧ v.sum ≤ 100 := by
  rw [xEv_std] at hv
  obtain ⟨rfl, _⟩ := filledArray_some hv
  refine ⟨by simp, shares_percent _ _ _ (fun c _ => ?_) (snFit_run h).x_le⟩
  rw [dotSelf_eq]
  exact mul_nonneg (Finset.sum_nonneg fun _ _ => sq_nonneg _) (Finset.sum_nonneg fun _ _ => sq_nonneg _)

/-- **C105.** The published `y_ev_` are percentages. -/
theorem C105_y_percent_partial {pr : SnParams} {X : Fin n → Fin p → ℝ} {y : Fin n → ℝ} {f : SnFit n p}
    (h : snFit pr X y = .ok f) (v : List ℝ) (hv : f.yEv y = some v) :
    v.length = f.comps.length ∧ (∀ a ∈ v, 0 ≤ a ∧ a ≤ 100) ∧ v.sum ≤ 100 := by
  rw [yEv_std] at hv
  obtain ⟨rfl, _⟩ := filledArray_some hv
  refine ⟨by simp, shares_percent _ _ _ (fun c _ => ?_) ?_⟩
  · rw [dotSelf_eq]
    exact mul_nonneg (Finset.sum_nonneg fun _ _ => sq_nonneg _) (sq_nonneg _)
  · rw [← snFit_y_contrib h]
    exact le_add_of_nonneg_right (Finset.sum_nonneg fun _ _ => sq_nonneg _)

theorem map_share_sum {α : Type} (l : List α) (g : α → ℝ) (S : ℝ) :
    (l.map fun a => g a / S * 100).sum = 100 * ((l.map g).sum / S) := by
  rw [sum_map_get, sum_map_get, Finset.sum_div, Finset.mul_sum]
  exact Finset.sum_congr rfl fun _ _ => by ring

/-- A model with components has a standardised response that is not zero. -/
theorem snFit_y_ne {pr : SnParams} {X : Fin n → Fin p → ℝ} {y : Fin n → ℝ} {f : SnFit n p}
    (h : snFit pr X y = .ok f) (hne : f.comps ≠ []) :
    ∑ i, stdVec y f.yLoc f.ySca i ^ 2 ≠ 0 ∧ ∑ i, ∑ j, stdMat X f.xLoc f.xSca i j ^ 2 ≠ 0 := by
  have hr := snFit_run h
  generalize hl : f.comps = l at hr hne
  cases hr with
  | stop => exact absurd rfl hne
  | step X y old good w t c ld l hcov hg hne hw ht hnz hc hld hrun =>
    constructor
    · intro h0
      have := (Finset.sum_eq_zero_iff_of_nonneg fun i _ => sq_nonneg _).1 h0
      refine hcov fun j => Finset.sum_eq_zero fun i hi => ?_
      rw [pow_eq_zero_iff two_ne_zero |>.1 (this i hi), mul_zero]
    · intro h0
      have := (Finset.sum_eq_zero_iff_of_nonneg fun i _ => Finset.sum_nonneg fun j _ => sq_nonneg _).1 h0
      refine hcov fun j => Finset.sum_eq_zero fun i hi => ?_
      have h1 := (Finset.sum_eq_zero_iff_of_nonneg fun j _ => sq_nonneg _).1 (this i hi) j (Finset.mem_univ j)
      rw [Matrix.of_apply, pow_eq_zero_iff two_ne_zero |>.1 h1, zero_mul]

/-- **C105.** Together the `y_ev_` are the coefficient of determination of the model on the standardised data, in percent. -/
theorem C105_y_r2_partial {pr : SnParams} {X : Fin n → Fin p → ℝ} {y : Fin n → ℝ} {f : SnFit n p}
    (h : snFit pr X y = .ok f) (v : List ℝ) (hv : f.yEv y = some v) :
    v.sum = 100 * (1 - (∑ i, (stdVec y f.yLoc f.ySca i - lin (stdMat X f.xLoc f.xSca) f.coefScaled i) ^ 2) /
      ∑ i, stdVec y f.yLoc f.ySca i ^ 2) := by
  rw [yEv_std] at hv
  obtain ⟨rfl, hne⟩ := filledArray_some hv
  rw [map_share_sum, eq_sub_of_add_eq (snFit_y_contrib h), sub_div, div_self (snFit_y_ne h hne).1]

/-- **C105.** With `centre='mean'` and a response that is not constant this is the usual R squared of `fitted_`, in percent. -/
theorem C105_y_r2_original_partial {pr : SnParams} {X : Fin n → Fin p → ℝ} {y : Fin n → ℝ} {f : SnFit n p}
    (hn : 0 < n) (hc : pr.centre = .mean) (h : snFit pr X y = .ok f) (hs : f.ySca ≠ 0) (v : List ℝ) (hv : f.yEv y = some v) :
    v.sum = 100 * (1 - (∑ i, f.residuals i ^ 2) / ∑ i, (y i - Direpack.mean y) ^ 2) := by
  rw [C105_y_r2_partial h v hv]
  obtain ⟨_, _, _, e3, _, _, _, _, _, _, _, hres⟩ := snFit_inv h
  have hm : f.yLoc = Direpack.mean y := by rw [e3, hc]; rfl
  have h1 : ∀ i, f.residuals i = f.ySca * (stdVec y f.yLoc f.ySca i - lin (stdMat X f.xLoc f.xSca) f.coefScaled i) := by
    intro i
    rw [hres, C46_original_scale hn h (.inl hc)]
    simp only [stdVec, std1, if_neg hs]
    field_simp
    ring
  have h2 : ∀ i, y i - Direpack.mean y = f.ySca * stdVec y f.yLoc f.ySca i := by
    intro i
    rw [← hm]
    simp only [stdVec, std1, if_neg hs]
    field_simp
  simp only [h1, h2, mul_pow, ← Finset.mul_sum]
  rw [mul_div_mul_left _ _ (pow_ne_zero 2 hs)]

/-- **C105.** When no variable is eliminated, the `x_ev_` together are the share of the predictors that scores and loadings reproduce, in percent. -/
theorem C105_x_r2_partial {pr : SnParams} {X : Fin n → Fin p → ℝ} {y : Fin n → ℝ} {f : SnFit n p}
    (h : snFit pr X y = .ok f) (hall : ∀ c ∈ f.comps, c.good = Finset.univ) (v : List ℝ) (hv : f.xEv X = some v) :
    v.sum = 100 * (1 - (∑ i, ∑ j, (stdMat X f.xLoc f.xSca i j - ∑ a, compT f.comps i a * compP f.comps j a) ^ 2) /
      ∑ i, ∑ j, stdMat X f.xLoc f.xSca i j ^ 2) := by
  rw [xEv_std] at hv
  obtain ⟨rfl, hne⟩ := filledArray_some hv
  have := (snFit_run h).x_eq hall
  simp only [sum_map_get f.comps (fun c => c.t _ * c.load _), Matrix.of_apply] at this
  rw [map_share_sum, eq_sub_of_add_eq this, sub_div, div_self (snFit_y_ne h hne).2]
  rfl

/-- **C105.** The explained variances are written exactly when some predictor is correlated with the response. -/
theorem C105_defined_iff {pr : SnParams} {X : Fin n → Fin p → ℝ} {y : Fin n → ℝ} {f : SnFit n p} (h : snFit pr X y = .ok f) :
    ((∃ v, f.xEv X = some v) ↔ ∃ j, dot (fun i => stdMat X f.xLoc f.xSca i j) (stdVec y f.yLoc f.ySca) ≠ 0) ∧
    ((∃ v, f.yEv y = some v) ↔ ∃ j, dot (fun i => stdMat X f.xLoc f.xSca i j) (stdVec y f.yLoc f.ySca) ≠ 0) := by
  rw [xEv_std, yEv_std, filledArray_isSome, filledArray_isSome, C44_nonempty h]
  have : f.comps ≠ [] ↔ ∃ s, colret f.comps = some s ∧ s.Nonempty := by
    constructor
    · intro hne
      refine ⟨(f.comps.getLast hne).good, by simp [colret, List.getLast?_eq_some_getLast hne], ?_⟩
      exact Finset.nonempty_iff_ne_empty.2 ((snFit_run h).support.1 _ (List.getLast_mem hne)).2.1
    · rintro ⟨s, hs, _⟩ e
      rw [e] at hs
      simp [colret] at hs
  exact ⟨this, this⟩

/-- The example has explained variances: the hypotheses above are met. -/
example : ∃ f, snFit snPr snX snY = .ok f ∧ (∃ v, f.xEv snX = some v) ∧ ∃ v, f.yEv snY = some v := by
  obtain ⟨f, hf, hc⟩ := snExFit
  refine ⟨f, hf, ?_, ?_⟩
  · rw [xEv_std, filledArray_isSome, hc]; simp
  · rw [yEv_std, filledArray_isSome, hc]; simp

/-- **C105 fails** for a constant response: the fit succeeds (all coefficients are zero), but `x_ev_` and `y_ev_` are uninitialised
memory. -/
theorem C105_ev_violated (eta : ℝ) (h0 : 0 ≤ eta) (h1 : eta < 1) (X : Fin n → Fin p → ℝ) (hs : ∀ j, ScaleOpt.std.run X j ≠ 0) (b : ℝ)
    (hn : 0 < n) (k : ℕ) (hk : 0 < k) :
    ∃ f, snFit ⟨eta, k, .mean, .std⟩ X (fun _ => b) = .ok f ∧ f.xEv X = none ∧ f.yEv (fun _ => b) = none := by
  have hmean : Centre.mean.run (asCol fun _ : Fin n => b) 0 = b := by
    simp only [Centre.run, asCol, mean_eq]
    simp
    field_simp
  have hy : stdVec (fun _ : Fin n => b) (Centre.mean.run (asCol fun _ : Fin n => b) 0) (ScaleOpt.std.run (asCol fun _ : Fin n => b) 0) =
      fun _ => 0 := by
    funext i
    rw [hmean]
    simp [stdVec, std1]
  obtain ⟨k, rfl⟩ : ∃ k', k = k' + 1 := ⟨k - 1, by omega⟩
  obtain ⟨f, hf, hc⟩ := snFit_of_loop ⟨eta, k + 1, .mean, .std⟩ X (fun _ => b) h0 h1 (by simp) hs [] (by
    rw [hy]
    simp [snLoop])
  refine ⟨f, hf, ?_, ?_⟩
  · rw [xEv_std, hc]; rfl
  · rw [yEv_std, hc]; rfl

end Direpack
