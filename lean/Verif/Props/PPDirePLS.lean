import Verif.Props.PPDirePCA
import Verif.Props.Snipls

/-!
Projection pursuit regression with the covariance as projection index, least squares, and an optimiser that finds the best direction is partial
least squares: it gives the same model as `snipls` without sparsity (C127).
-/

namespace Direpack

open scoped BigOperators
open Spec

variable {n p : ℕ}

/-- The covariance of centred values with a response. -/
lemma dicomoIndex2_cov (hn : 2 ≤ n) {d : Dicomo} (he : d.est = .arithmetic) (hm : d.mode = .cov) (hc : d.center = .mean) {a : FitArgs}
    (ht : a.trimming = 0) (ys : Fin n → ℝ) {t : Fin n → ℝ} (h0 : ∑ i, t i = 0) :
    dicomoIndex2 d a ys t = (momFactor n 0 2 a.biascorr / n) * ∑ i, t i * ys i := by
  have h2 := run_cov (n := n) (by omega) .mean a t ys
  rw [ht, trimMom_mean0 _ _ _ (le_refl 2)] at h2
  have h3 : ((Dicomo.mk d.est d.mode d.center none).fit { a with y := some (colMat ys) } (colMat t)).2 =
      run .arithmetic .cov .mean a (colMat t) (colMat ys) := by
    rw [he, hm, hc]
    rfl
  unfold dicomoIndex2 dicomoIndex
  have e1 : (⟨n, 1, fun i _ => t i⟩ : DMat) = colMat t := rfl
  have e2 : (⟨n, 1, fun i _ => ys i⟩ : DMat) = colMat ys := rfl
  rw [e1, e2, fit_history (h3.trans h2)]
  dsimp only
  unfold cmom
  simp only [exps, lt_irrefl, if_false, pow_one, avg_of_sum_zero h0, sub_zero]
  rw [show avg (fun i => t i * (ys i - avg ys)) = (∑ i, t i * (ys i - avg ys)) / n from rfl]
  have : ∑ i, t i * (ys i - avg ys) = ∑ i, t i * ys i := by
    simp only [mul_sub, Finset.sum_sub_distrib, ← Finset.sum_mul, h0, zero_mul, sub_zero]
  rw [this]
  ring

/-- The direction of unit length with the largest scalar product with `s`. -/
lemma best_is_direction {s w : Fin p → ℝ} (hs : ∃ k, s k ≠ 0) (hw : UnitLen w)
    (hmax : ∀ v, UnitLen v → ∑ k, v k * s k ≤ ∑ k, w k * s k) (k : Fin p) : w k = s k / Real.sqrt (∑ k, s k ^ 2) := by
  have h0 : 0 < ∑ k, s k ^ 2 := by
    obtain ⟨k, hk⟩ := hs
    exact lt_of_lt_of_le (by positivity) (Finset.single_le_sum (f := fun j => s j ^ 2) (fun j _ => sq_nonneg _) (Finset.mem_univ k))
  set N := Real.sqrt (∑ k, s k ^ 2) with hN
  have hN0 : 0 < N := Real.sqrt_pos.mpr h0
  have hN2 : N ^ 2 = ∑ k, s k ^ 2 := Real.sq_sqrt h0.le
  have hu : UnitLen fun k => s k / N := by
    unfold UnitLen
    simp only [div_pow, ← Finset.sum_div]
    rw [hN2]
    exact div_self h0.ne'
  have h1 := hmax _ hu
  have h2 : ∑ k, s k / N * s k = N := by
    have : ∀ k, s k / N * s k = s k ^ 2 / N := fun k => by ring
    simp only [this, ← Finset.sum_div]
    rw [← hN2]
    field_simp
  rw [h2] at h1
  have h3 : ∑ k, (w k - s k / N) ^ 2 = 2 - 2 * ((∑ k, w k * s k) / N) := by
    have : ∀ k, (w k - s k / N) ^ 2 = w k ^ 2 - 2 * (w k * s k / N) + (s k / N) ^ 2 := fun k => by ring
    simp only [this, Finset.sum_add_distrib, Finset.sum_sub_distrib, ← Finset.mul_sum, ← Finset.sum_div]
    rw [show ∑ k, w k ^ 2 = 1 from hw, show ∑ k, (s k / N) ^ 2 = 1 from hu]
    ring
  have h4 : 1 ≤ (∑ k, w k * s k) / N := (one_le_div hN0).mpr h1
  have h5 : ∑ k, (w k - s k / N) ^ 2 = 0 := le_antisymm (by rw [h3]; linarith) (Finset.sum_nonneg fun k _ => sq_nonneg _)
  have h6 := (Finset.sum_eq_zero_iff_of_nonneg fun k _ => sq_nonneg _).mp h5 k (Finset.mem_univ k)
  exact sub_eq_zero.mp (pow_eq_zero_iff two_ne_zero |>.mp h6)

/-- Without sparsity, the weights of `snipls` are the normalised covariances. -/
lemma snWeights_zero (X : Fin n → Fin p → ℝ) (y : Fin n → ℝ) (j : Fin p) :
    (snWeights 0 X y).2 j = (∑ i, X i j * y i) / Real.sqrt (∑ j, (∑ i, X i j * y i) ^ 2) ∧
    (snWeights 0 X y).1 j = |(∑ i, X i j * y i) / Real.sqrt (∑ j, (∑ i, X i j * y i) ^ 2)| := by
  unfold snWeights
  dsimp only
  generalize (∑ i, X i j * y i) / Real.sqrt (∑ j, (∑ i, X i j * y i) ^ 2) = v
  constructor
  · rw [zero_mul, sub_zero]
    unfold npSign
    split_ifs with h1 h2
    · rw [abs_of_pos h1, mul_one]
    · rw [abs_of_neg h2]; ring
    · have : v = 0 := le_antisymm (not_lt.mp h1) (not_lt.mp h2)
      rw [this]; simp
  · rw [zero_mul, sub_zero]

lemma ppDirection_cov {find : {n p : ℕ} → (Fin n → Fin p → ℝ) → (Fin p → ℝ)} {φ : (Fin n → ℝ) → ℝ} {κ : ℝ} (hκ : 0 < κ) {sq : Bool} {ys : Fin n → ℝ}
    {E : Fin n → Fin p → ℝ} (hE : ∀ k, ∑ i, E i k = 0) (hφ : ∀ t : Fin n → ℝ, ∑ i, t i = 0 → φ t = κ * ∑ i, t i * ys i)
    (hf : SolvesOnSphere (ppObjective φ E) (find E)) {w : Fin p → ℝ} {o : ℝ} (h : ppDirection (.ext find) φ sq E = .ok (w, o)) :
    UnitLen w ∧ ∀ v, UnitLen v → ∑ k, v k * ∑ i, E i k * ys i ≤ ∑ k, w k * ∑ i, E i k * ys i := by
  refine ⟨ppDirection_unit h, ?_⟩
  unfold ppDirection at h
  dsimp only at h
  have h1 : Real.sqrt (∑ k, find E k ^ 2) = 1 := by rw [show ∑ k, find E k ^ 2 = 1 from hf.1, Real.sqrt_one]
  rw [h1, if_neg one_ne_zero] at h
  simp only [div_one, Except.ok.injEq, Prod.mk.injEq] at h
  obtain ⟨rfl, -⟩ := h
  intro v hv
  have h2 := hf.2 v hv
  unfold ppObjective at h2
  rw [hφ _ (sum_proj_zero hE _), hφ _ (sum_proj_zero hE _)] at h2
  have h3 : ∀ v : Fin p → ℝ, ∑ i, projE E v i * ys i = ∑ k, v k * ∑ i, E i k * ys i := by
    intro v
    unfold projE
    simp only [Finset.sum_mul, Finset.mul_sum]
    rw [Finset.sum_comm]
    exact Finset.sum_congr rfl fun k _ => Finset.sum_congr rfl fun i _ => by ring
  rw [h3, h3] at h2
  exact le_of_mul_le_mul_left (neg_le_neg_iff.mp h2) hκ

lemma pls_loop {find : {n p : ℕ} → (Fin n → Fin p → ℝ) → (Fin p → ℝ)} {φ : (Fin n → ℝ) → ℝ} {κ : ℝ} (hκ : 0 < κ) {sq : Bool} {ys : Fin n → ℝ}
    {reg : (Fin n → ℝ) → ℝ} (hφ : ∀ t : Fin n → ℝ, ∑ i, t i = 0 → φ t = κ * ∑ i, t i * ys i)
    (hf : ∀ E : Fin n → Fin p → ℝ, (∀ k, ∑ i, E i k = 0) → SolvesOnSphere (ppObjective φ E) (find E)) :
    ∀ (h : ℕ) (E : Fin n → Fin p → ℝ) (y' : Fin n → ℝ) (old : Finset (Fin p)) (l : List (PpComp n p)) (l' : List (SnComp n p)),
      (∀ k, ∑ i, E i k = 0) → (∀ k, ∑ i, E i k * y' i = ∑ i, E i k * ys i) → (old ≠ ∅ ∨ ¬ ∀ k, ∑ i, E i k * y' i = 0) →
      ppLoop (.ext find) φ sq reg h E = .ok l → snLoop 0 h E y' old = .ok l' →
      List.Forall₂ (fun (c : PpComp n p) (d : SnComp n p) => c.w = d.w ∧ c.t = d.t) l l' := by
  intro h
  induction h with
  | zero =>
    intro E y' old l l' _ _ _ hl hl'
    simp only [ppLoop, Except.ok.injEq] at hl
    simp only [snLoop, Except.ok.injEq] at hl'
    subst hl hl'
    exact .nil
  | succ h ih =>
    intro E y' old l l' hE hy hold hl hl'
    obtain ⟨c, l2, rfl, ⟨o, hd, -⟩, ht, hnz, hload, -, -, hl2⟩ := ppLoop_cons hl
    obtain ⟨hu, hmax⟩ := ppDirection_cov hκ hE hφ (hf E hE) hd
    rw [snLoop] at hl'
    by_cases hcov : ∀ j, ∑ i, E i j * y' i = 0
    · rw [if_pos hcov, if_neg (hold.resolve_right fun hh => hh hcov)] at hl'
      simp at hl'
    · rw [if_neg hcov] at hl'
      dsimp only at hl'
      set good := old ∪ Finset.univ.filter fun j => 0 < (snWeights 0 E y').1 j with hgood
      push Not at hcov
      have hnp : 0 < Real.sqrt (∑ j, (∑ i, E i j * y' i) ^ 2) := by
        apply Real.sqrt_pos.2
        obtain ⟨k, hk⟩ := hcov
        exact lt_of_lt_of_le (by positivity) (Finset.single_le_sum (f := fun j => (∑ i, E i j * y' i) ^ 2)
          (fun j _ => sq_nonneg _) (Finset.mem_univ k))
      have hin : ∀ j, ∑ i, E i j * y' i ≠ 0 → j ∈ good := by
        intro j hj
        rw [hgood]
        refine Finset.mem_union_right _ (Finset.mem_filter.mpr ⟨Finset.mem_univ _, ?_⟩)
        rw [(snWeights_zero E y' j).2]
        exact abs_pos.mpr (div_ne_zero hj hnp.ne')
      have hne : good ≠ ∅ := by
        obtain ⟨k, hk⟩ := hcov
        exact Finset.ne_empty_of_mem (hin k hk)
      have hw : (fun j => if j ∈ good then (snWeights 0 E y').2 j else 0) = c.w := by
        funext j
        have h1 := best_is_direction (s := fun k => ∑ i, E i k * y' i) hcov hu (by simpa only [hy] using hmax) j
        rw [h1]
        split_ifs with hj
        · exact (snWeights_zero E y' j).1
        · have : ∑ i, E i j * y' i = 0 := by
            by_contra hh
            exact hj (hin j hh)
          simp only [this, zero_div]
      have htj : ∀ i, ∑ j, E i j * (if j ∈ good then (snWeights 0 E y').2 j else 0) = c.t i := by
        intro i
        have hw' : ∀ j, (if j ∈ good then (snWeights 0 E y').2 j else 0) = c.w j := fun j => congrFun hw j
        simp only [hw', ht]
        rfl
      rw [if_neg hne] at hl'
      simp only [htj, hw] at hl'
      rw [if_neg hnz] at hl'
      split at hl'
      · simp at hl'
      · rename_i l3 hl3
        simp only [Except.ok.injEq] at hl'
        subst hl'
        refine .cons ⟨rfl, rfl⟩ ?_
        have hld : ∀ k, (∑ i, E i k * c.t i) / ∑ i, c.t i ^ 2 = c.load k := fun k => (hload k).symm
        simp only [hld] at hl3
        have ht0 : ∑ i, c.t i = 0 := by rw [ht]; exact sum_proj_zero hE c.w
        -- the new score is orthogonal to the deflated data
        have horth : ∀ k, ∑ i, (E i k - c.t i * c.load k) * c.t i = 0 := by
          intro k
          have : ∀ i, (E i k - c.t i * c.load k) * c.t i = E i k * c.t i - c.load k * c.t i ^ 2 := fun i => by ring
          simp only [this, Finset.sum_sub_distrib, ← Finset.mul_sum]
          rw [hload]
          field_simp
          ring
        have hty : ∑ i, c.t i * y' i = ∑ i, c.t i * ys i := by
          have h3 : ∀ u : Fin n → ℝ, ∑ i, c.t i * u i = ∑ k, c.w k * ∑ i, E i k * u i := by
            intro u
            rw [ht]
            unfold projectOn
            simp only [Finset.sum_mul, Finset.mul_sum]
            rw [Finset.sum_comm]
            exact Finset.sum_congr rfl fun k _ => Finset.sum_congr rfl fun i _ => by ring
          rw [h3, h3]
          simp only [hy]
        refine ih _ _ _ _ _ ?_ ?_ (Or.inl hne) hl2 hl3
        · intro k
          rw [Finset.sum_sub_distrib, hE, ← Finset.sum_mul, ht0]
          ring
        · intro k
          have e1 : ∀ i, (E i k - c.t i * c.load k) * (y' i - c.t i * ((∑ i, y' i * c.t i) / ∑ i, c.t i ^ 2)) =
              (E i k * y' i - c.load k * (c.t i * y' i)) - (∑ i, y' i * c.t i) / (∑ i, c.t i ^ 2) * ((E i k - c.t i * c.load k) * c.t i) := fun i => by ring
          have e2 : ∀ i, (E i k - c.t i * c.load k) * ys i = E i k * ys i - c.load k * (c.t i * ys i) := fun i => by ring
          simp only [e1, e2, Finset.sum_sub_distrib, ← Finset.mul_sum, horth, hty, hy]
          ring

/-! ### The coefficients -/

/-- A vector in the span of mutually orthogonal score vectors that is orthogonal to all of them is zero. -/
lemma zero_of_span_orth {h : ℕ} (T : Fin n → Fin h → ℝ) (q : Fin h → ℝ) (ho : ∀ a, ∑ i, (∑ b, T i b * q b) * T i a = 0) (i : Fin n) :
    ∑ b, T i b * q b = 0 := by
  have h1 : ∑ i, (∑ b, T i b * q b) ^ 2 = 0 := by
    have : ∀ i, (∑ b, T i b * q b) ^ 2 = ∑ a, q a * ((∑ b, T i b * q b) * T i a) := by
      intro i
      rw [sq]
      conv_lhs => rw [Finset.mul_sum]
      exact Finset.sum_congr rfl fun a _ => by ring
    simp only [this]
    rw [Finset.sum_comm]
    simp only [← Finset.mul_sum, ho, mul_zero, Finset.sum_const_zero]
  exact pow_eq_zero_iff two_ne_zero |>.mp
    ((Finset.sum_eq_zero_iff_of_nonneg fun i _ => sq_nonneg _).mp h1 i (Finset.mem_univ i))

/-- Coefficients in the span of the weights are determined by the fit. -/
lemma pp_coef_unique {E : Fin n → Fin p → ℝ} {reg : (Fin n → ℝ) → ℝ} {l : List (PpComp n p)} (hI : PpInv E reg l)
    (u : Fin l.length → ℝ) (h0 : ∀ i, ∑ k, E i k * (ppW l).mulVec u k = 0) : (ppW l).mulVec u = 0 := by
  obtain ⟨pinv, hp⟩ := exists_pinv
  have hdet := ppPW_det hI
  have hunit : IsUnit ((ppP l).transpose * ppW l).det := by rw [hdet]; exact isUnit_one
  have hsc := ppScores_eq hp hI
  have hXW : Matrix.of E * ppW l = ppT l * ((ppP l).transpose * ppW l) := by
    rw [← hsc, ppR, pinv_of_det hp hdet, Matrix.mul_assoc, Matrix.mul_assoc, Matrix.nonsing_inv_mul _ hunit, Matrix.mul_one]
  set q := ((ppP l).transpose * ppW l).mulVec u with hq
  have h1 : (ppT l).mulVec q = 0 := by
    rw [hq, Matrix.mulVec_mulVec, ← hXW, ← Matrix.mulVec_mulVec]
    funext i
    exact h0 i
  have hq0 : q = 0 := by
    funext a
    have h2 : ∑ i, (ppT l).mulVec q i * (l.get a).t i = 0 := by rw [h1]; simp
    have h3 : ∑ i, (ppT l).mulVec q i * (l.get a).t i = ∑ b, q b * ∑ i, (l.get b).t i * (l.get a).t i := by
      have : ∀ i, (ppT l).mulVec q i * (l.get a).t i = ∑ b, q b * ((l.get b).t i * (l.get a).t i) := by
        intro i
        show (∑ b, (l.get b).t i * q b) * _ = _
        rw [Finset.sum_mul]
        exact Finset.sum_congr rfl fun b _ => by ring
      simp only [this]
      rw [Finset.sum_comm]
      simp only [← Finset.mul_sum]
    rw [h3, Finset.sum_eq_single a] at h2
    · rcases mul_eq_zero.mp h2 with h4 | h4
      · exact h4
      · exact absurd (by simpa only [← sq] using h4) (hI.nz _ (List.get_mem l a))
    · intro b _ hb
      rcases lt_or_gt_of_ne hb with hlt | hgt
      · rw [List.pairwise_iff_get.mp hI.orth b a hlt, mul_zero]
      · have := List.pairwise_iff_get.mp hI.orth a b hgt
        have h5 : ∑ i, (l.get b).t i * (l.get a).t i = 0 := by
          rw [← this]
          exact Finset.sum_congr rfl fun i _ => mul_comm _ _
        rw [h5, mul_zero]
    · simp
  have hu0 : u = 0 := by
    have h6 : ((ppP l).transpose * ppW l)⁻¹.mulVec q = u := by
      rw [hq, Matrix.mulVec_mulVec, Matrix.nonsing_inv_mul _ hunit, Matrix.one_mulVec]
    rw [← h6, hq0, Matrix.mulVec_zero]
  rw [hu0, Matrix.mulVec_zero]

/-- The coefficients of `snipls` are a combination of its weights. -/
lemma sn_coef_span {pr : SnParams} {X : Fin n → Fin p → ℝ} {y : Fin n → ℝ} {f : SnFit n p} (h : snFit pr X y = .ok f) :
    ∃ u : Fin f.comps.length → ℝ, ∀ k, f.coefScaled k = ∑ a, compW f.comps k a * u a := by
  have hr := snFit_run h
  obtain ⟨_, _, _, _, _, _, _, hc, _⟩ := snFit_inv h
  rw [snCoef_ok hr] at hc
  simp only [Except.ok.injEq] at hc
  by_cases hlen : f.comps.length = 0
  · rw [if_pos hlen] at hc
    have hB := congrArg Prod.snd hc
    simp only at hB
    exact ⟨fun _ => 0, fun k => by rw [← hB]; simp⟩
  · rw [if_neg hlen] at hc
    have hB := congrArg Prod.snd hc
    simp only at hB
    refine ⟨(((compW f.comps).transpose * ((Matrix.of (stdMat X f.xLoc f.xSca)).transpose * Matrix.of (stdMat X f.xLoc f.xSca)) * compW f.comps)⁻¹ *
      (compW f.comps).transpose).mulVec ((Matrix.of (stdMat X f.xLoc f.xSca)).transpose.mulVec (stdVec y f.yLoc f.ySca)), fun k => ?_⟩
    rw [← hB, ← Matrix.mulVec_mulVec]
    rfl

/-! ### C127 -/

/-- The scale option of `snipls` that goes with `scale_data`. -/
def plsScale (scaleData : Bool) : ScaleOpt := if scaleData then .std else .noneOpt

/-- C127: projection pursuit regression with the covariance as index, least squares, `center='mean'` without trimming, and an optimiser that finds
the best direction of unit length, gives the model of `snipls` with `eta=0` (partial least squares) with the same number of components and the same
standardisation: the coefficients, the intercept, the fitted values and all predictions are the same, and so are the weights and the scores, component by component,
unless every variable has covariance zero with the response (then `snipls` extracts no component and both models predict the mean). -/
theorem C127_pls (hn : 2 ≤ n) (pr : PpParams) (hcen : pr.centre = .mean) (htr : pr.trimming = 0) (hcd : pr.centerData = true)
    (find : {n p : ℕ} → (Fin n → Fin p → ℝ) → (Fin p → ℝ)) (hopt : pr.optimizer = .ext find) (pinv : Pinv) (hp : IsGenInverse pinv)
    (d : Dicomo) (he : d.est = .arithmetic) (hm : d.mode = .cov) (hc : d.center = .mean) (a : FitArgs) (ht : a.trimming = 0)
    (X : Fin n → Fin p → ℝ) (y : Fin n → ℝ) (f : PpFit n p) (h : ppFit pr pinv .ols (dicomoIndex2 d a) X y = .ok f)
    (hf : ∀ E : Fin n → Fin p → ℝ, (∀ k, ∑ i, E i k = 0) →
      SolvesOnSphere (ppObjective (dicomoIndex2 d a (stdVec y f.yLoc f.ySca)) E) (find E))
    (sp : SnParams) (hs1 : sp.eta = 0) (hs2 : sp.nComponents = pr.nComponents) (hs3 : sp.centre = .mean) (hs4 : sp.scale = plsScale pr.scaleData)
    (g : SnFit n p) (hg : snFit sp X y = .ok g) :
    f.coef = g.coef ∧ f.intercept = g.intercept ∧ f.fitted = g.fitted ∧
      (∀ {m : ℕ} (Xn : Fin m → Fin p → ℝ), f.predict Xn = g.predict Xn) ∧
      ((¬ ∀ k, ∑ i, stdMat X f.xLoc f.xSca i k * stdVec y f.yLoc f.ySca i = 0) → ∃ hlen : f.comps.length = g.comps.length,
        (∀ k b, ppW f.comps k b = compW g.comps k (b.cast hlen)) ∧ ∀ i b, ppT f.comps i b = compT g.comps i (b.cast hlen)) := by
  obtain ⟨Xs, ys, hXs, hys, hmX, hsX, hmy, hsy, -, -, hl, hs, hrot, hbs, hb, hb0, hfit, hres, -⟩ := ppFit_inv h
  obtain ⟨-, gx, gs, gy, gsy, -, hgl, hgc, hgb, hg0, hgf, -⟩ := snFit_inv hg
  simp only [hcd, if_true, hcen, htr, PpCentre.loc, ppMean_zero] at hXs hys hmX hmy hb0 hsX hsy
  have hZ0 : ∀ k, ∑ i, stdMat X f.xLoc f.xSca i k = 0 := by
    intro k
    unfold stdMat std1
    simp only [hs k, if_false, ← Finset.sum_div]
    rw [hmX]
    simp only [pp_sum_center, zero_div]
  -- the standardisations agree
  have e1 : g.xLoc = f.xLoc := by rw [gx, hmX, hs3]; rfl
  have e2 : g.xSca = f.xSca := by
    rw [gs, hsX, hs4]
    funext k
    unfold plsScale PpCentre.sca
    split_ifs
    · rw [ppStd_zero]; rfl
    · rfl
  have e3 : g.yLoc = f.yLoc := by rw [gy, hmy, hs3]; rfl
  have e4 : g.ySca = f.ySca := by
    rw [gsy, hsy, hs4]
    unfold plsScale PpCentre.sca
    split_ifs
    · rw [ppStd_zero]; rfl
    · rfl
  have e5 : ys = stdVec y f.yLoc f.ySca := by
    rw [hys]
    funext i
    unfold stdVec std1
    split <;> simp
  rw [scaleMat_eq] at hXs
  rw [hXs, e5, hopt] at hl
  rw [e1, e2, e3, e4] at hgl
  rw [hs1, hs2] at hgl
  have hn' : (0 : ℝ) < n := by exact_mod_cast (by omega : 0 < n)
  have hκ : 0 < momFactor n 0 2 a.biascorr / n := div_pos (momFactor_two_pos hn _) hn'
  obtain ⟨hlen, hI⟩ := ppLoop_inv _ _ _ hl
  have hsc := ppScores_eq hp hI
  rw [← hrot] at hsc
  set Z := stdMat X f.xLoc f.xSca with hZ
  set Y := stdVec y f.yLoc f.ySca with hY
  -- the component loops
  have hcomp : (¬ ∀ k, ∑ i, Z i k * Y i = 0) → List.Forall₂ (fun (c : PpComp n p) (d : SnComp n p) => c.w = d.w ∧ c.t = d.t) f.comps g.comps :=
    fun hcov => pls_loop hκ (fun t h0 => dicomoIndex2_cov hn he hm hc ht Y h0) hf _ _ _ _ _ _ hZ0 (fun _ => rfl) (Or.inr hcov) hl hgl
  -- the fit of projection pursuit
  have hZbs : ∀ i, ∑ k, Z i k * f.coefScaled k = ∑ b, ppT f.comps i b * ppC f.comps b := by
    intro i
    have : (Matrix.of Z).mulVec f.coefScaled i = (ppT f.comps).mulVec (ppC f.comps) i := by
      rw [hbs, Matrix.mulVec_mulVec, hsc]
    exact this
  have hspan : ∃ u, f.coefScaled = (ppW f.comps).mulVec u := by
    refine ⟨(pinv ((ppP f.comps).transpose * ppW f.comps)).mulVec (ppC f.comps), ?_⟩
    rw [Matrix.mulVec_mulVec, hbs, hrot]
    rfl
  obtain ⟨uf, hspan⟩ := hspan
  have key : f.coefScaled = g.coefScaled := by
    by_cases hcov : ∀ k, ∑ i, Z i k * Y i = 0
    · -- nothing to explain: both are zero
      have hC : ppC f.comps = 0 := by
        funext b
        have h1 := hI.left Y (fun k => by rw [← hcov k]; exact Finset.sum_congr rfl fun i _ => mul_comm _ _) (f.comps.get b) (List.get_mem _ _)
        show (f.comps.get b).c = 0
        rw [hI.reg _ (List.get_mem _ _)]
        show (∑ i, (f.comps.get b).t i * Y i) / _ = 0
        have : ∑ i, (f.comps.get b).t i * Y i = 0 := by
          rw [← h1]
          exact Finset.sum_congr rfl fun i _ => mul_comm _ _
        rw [this, zero_div]
      have hgn : g.comps = [] := by
        cases hk : pr.nComponents with
        | zero => rw [hk] at hgl; simp only [snLoop, Except.ok.injEq] at hgl; exact hgl.symm
        | succ m =>
          rw [hk, snLoop, if_pos hcov, if_pos rfl] at hgl
          simp only [Except.ok.injEq] at hgl
          exact hgl.symm
      rw [hbs, hC, Matrix.mulVec_zero]
      obtain ⟨u, hu⟩ := sn_coef_span hg
      funext k
      rw [hu k]
      symm
      refine Finset.sum_eq_zero fun b _ => ?_
      have hb2 := b.2
      have : g.comps.length = 0 := by rw [hgn]; rfl
      omega
    · have hF := hcomp hcov
      have hlen2 : f.comps.length = g.comps.length := hF.length_eq
      have hget : ∀ b : Fin f.comps.length, (f.comps.get b).w = (g.comps.get (b.cast hlen2)).w ∧ (f.comps.get b).t = (g.comps.get (b.cast hlen2)).t :=
        fun b => (List.forall₂_iff_get.mp hF).2 b.1 b.2 (by rw [← hlen2]; exact b.2)
      obtain ⟨ug, hug⟩ := sn_coef_span hg
      obtain ⟨hne, q, hq⟩ := C45_normal_equations hg
      rw [e1, e2, e3, e4] at hne
      rw [e1, e2] at hq
      have hsum : ∀ F : Fin g.comps.length → ℝ, ∑ b, F b = ∑ b : Fin f.comps.length, F (b.cast hlen2) :=
        fun F => (Equiv.sum_comp (finCongr hlen2) F).symm
      have hug' : g.coefScaled = (ppW f.comps).mulVec fun b => ug (b.cast hlen2) := by
        funext k
        rw [hug k, hsum]
        refine Finset.sum_congr rfl fun b _ => ?_
        show (g.comps.get (b.cast hlen2)).w k * _ = (f.comps.get b).w k * _
        rw [(hget b).1]
      have hdiff : f.coefScaled - g.coefScaled = (ppW f.comps).mulVec (uf - fun b => ug (b.cast hlen2)) := by
        rw [Matrix.mulVec_sub, ← hspan, ← hug']
      have hqf : ∀ i, lin Z g.coefScaled i = ∑ b, ppT f.comps i b * q (b.cast hlen2) := by
        intro i
        rw [hq i, hsum]
        refine Finset.sum_congr rfl fun b _ => ?_
        show (g.comps.get (b.cast hlen2)).t i * _ = (f.comps.get b).t i * _
        rw [(hget b).2]
      have hZd : ∀ i, ∑ k, Z i k * (f.coefScaled - g.coefScaled) k = ∑ b, ppT f.comps i b * (ppC f.comps b - q (b.cast hlen2)) := by
        intro i
        have : ∑ k, Z i k * (f.coefScaled - g.coefScaled) k = ∑ k, Z i k * f.coefScaled k - lin Z g.coefScaled i := by
          unfold lin
          rw [← Finset.sum_sub_distrib]
          exact Finset.sum_congr rfl fun k _ => by rw [Pi.sub_apply]; ring
        rw [this, hZbs, hqf, ← Finset.sum_sub_distrib]
        exact Finset.sum_congr rfl fun b _ => by ring
      have hzero : ∀ i, ∑ k, Z i k * (f.coefScaled - g.coefScaled) k = 0 := by
        intro i
        rw [hZd]
        refine zero_of_span_orth _ _ (fun b => ?_) i
        have h1 : ∑ i, (Y i - lin Z g.coefScaled i) * ppT f.comps i b = 0 := by
          have := hne (b.cast hlen2)
          unfold dot at this
          rw [← this]
          refine Finset.sum_congr rfl fun i _ => ?_
          show _ * (f.comps.get b).t i = _ * (g.comps.get (b.cast hlen2)).t i
          rw [(hget b).2]
        have h2 : ∑ i, (Y i - ∑ k, Z i k * f.coefScaled k) * ppT f.comps i b = 0 := by
          simp only [hZbs, sub_mul, Finset.sum_sub_distrib]
          have h3 : ∑ i, (∑ e, ppT f.comps i e * ppC f.comps e) * ppT f.comps i b = ∑ e, ppC f.comps e * ∑ i, ppT f.comps i e * ppT f.comps i b := by
            simp only [Finset.sum_mul, Finset.mul_sum]
            rw [Finset.sum_comm]
            exact Finset.sum_congr rfl fun e _ => Finset.sum_congr rfl fun i _ => by ring
          rw [h3, Finset.sum_eq_single b]
          · have h4 : ppC f.comps b = (∑ i, (f.comps.get b).t i * Y i) / ∑ i, (f.comps.get b).t i ^ 2 := hI.reg _ (List.get_mem _ _)
            have h5 := hI.nz _ (List.get_mem f.comps b)
            have h6 : ∑ i, ppT f.comps i b * ppT f.comps i b = ∑ i, (f.comps.get b).t i ^ 2 := Finset.sum_congr rfl fun i _ => (sq _).symm
            have h7 : ∑ i, Y i * ppT f.comps i b = ∑ i, (f.comps.get b).t i * Y i := Finset.sum_congr rfl fun i _ => mul_comm _ _
            rw [h4, h6, h7, div_mul_cancel₀ _ h5, sub_self]
          · intro e _ heb
            have h8 : ∑ i, ppT f.comps i e * ppT f.comps i b = 0 := by
              rcases lt_or_gt_of_ne heb with hlt | hgt
              · exact List.pairwise_iff_get.mp hI.orth e b hlt
              · have := List.pairwise_iff_get.mp hI.orth b e hgt
                rw [← this]
                exact Finset.sum_congr rfl fun i _ => mul_comm _ _
            rw [h8, mul_zero]
          · simp
        have h9 : ∀ i, (∑ e, ppT f.comps i e * (ppC f.comps e - q (e.cast hlen2))) * ppT f.comps i b =
            (Y i - lin Z g.coefScaled i) * ppT f.comps i b - (Y i - ∑ k, Z i k * f.coefScaled k) * ppT f.comps i b := by
          intro i
          rw [hZbs, hqf]
          have : ∑ e, ppT f.comps i e * (ppC f.comps e - q (e.cast hlen2)) = ∑ e, ppT f.comps i e * ppC f.comps e - ∑ e, ppT f.comps i e * q (e.cast hlen2) := by
            rw [← Finset.sum_sub_distrib]
            exact Finset.sum_congr rfl fun e _ => by ring
          rw [this]
          ring
        simp only [h9, Finset.sum_sub_distrib, h1, h2, sub_zero]
      have := pp_coef_unique hI (uf - fun b => ug (b.cast hlen2)) (by
        intro i
        rw [← hdiff]
        exact hzero i)
      rw [← hdiff] at this
      exact sub_eq_zero.mp this
  have hcoef : f.coef = g.coef := by
    funext k
    rw [hb, hgb, e2, e4, key]
  have hint : f.intercept = g.intercept := by
    rw [hb0, hg0, hs3, hcoef]
    rfl
  refine ⟨hcoef, hint, ?_, ?_, ?_⟩
  · funext i
    rw [hfit, hgf, hcoef, hint]
    rfl
  · intro m Xn
    unfold PpFit.predict SnFit.predict
    rw [hcoef, hint]
  · intro hcov
    have hF := hcomp hcov
    have hlen2 : f.comps.length = g.comps.length := hF.length_eq
    have hget : ∀ b : Fin f.comps.length, (f.comps.get b).w = (g.comps.get (b.cast hlen2)).w ∧ (f.comps.get b).t = (g.comps.get (b.cast hlen2)).t :=
      fun b => (List.forall₂_iff_get.mp hF).2 b.1 b.2 (by rw [← hlen2]; exact b.2)
    exact ⟨hlen2, fun k b => congrFun (hget b).1 k, fun i b => congrFun (hget b).2 i⟩

/-! ### The hypotheses can be met -/

def covObj : Dicomo := ⟨.arithmetic, .cov, .mean, none⟩

/-- A response with mean zero. -/
def plsY : Fin 3 → ℝ := ![-1, 0, 1]

/-- The covariance with that response. -/
noncomputable def plsIndex {m : ℕ} (t : Fin m → ℝ) : ℝ :=
  if h : 3 = m then dicomoIndex2 covObj {} plsY fun i => t (Fin.cast h i) else 0

lemma plsIndex_eq (t : Fin 3 → ℝ) : plsIndex t = dicomoIndex2 covObj {} plsY t := by
  unfold plsIndex
  rw [dif_pos rfl]
  rfl

noncomputable def plsPr : PpParams :=
  { nComponents := 1, trimming := 0, optimizer := .ext (bestFind plsIndex), centre := .mean, centerData := true, scaleData := false, squarePi := false }

lemma pls_solves (E : Fin 3 → Fin 2 → ℝ) (hE : ∀ k, ∑ i, E i k = 0) :
    SolvesOnSphere (ppObjective (dicomoIndex2 covObj {} plsY) E) (bestFind plsIndex E) := by
  have hfun : (plsIndex : (Fin 3 → ℝ) → ℝ) = dicomoIndex2 covObj {} plsY := funext plsIndex_eq
  obtain ⟨w, hw, hmax⟩ := exists_max_unit (p := 1) (fun v => ∑ i, projE E v i * plsY i) (by unfold projE; fun_prop)
  have : ∃ w, SolvesOnSphere (ppObjective (plsIndex : (Fin 3 → ℝ) → ℝ) E) w := by
    refine ⟨w, hw, fun v hv => ?_⟩
    rw [hfun]
    unfold ppObjective
    rw [dicomoIndex2_cov (by norm_num) rfl rfl rfl rfl _ (sum_proj_zero hE _), dicomoIndex2_cov (by norm_num) rfl rfl rfl rfl _ (sum_proj_zero hE _)]
    exact neg_le_neg (mul_le_mul_of_nonneg_left (hmax v hv) (div_pos (momFactor_two_pos (by norm_num) _) (by norm_num)).le)
  have := bestFind_solves this
  rw [hfun] at this
  exact this

theorem plsExFit (pinv : Pinv) : ∃ f, ppFit plsPr pinv .ols (dicomoIndex2 covObj {}) ppExX plsY = .ok f := by
  have hm : ∀ k, ppMean 0 (fun i => ppExX i k) = 0 := by
    intro k
    rw [ppMean_zero, mean_eq]
    fin_cases k <;> simp [ppExX, Fin.sum_univ_succ]
    norm_num
  have hmy : ppMean 0 plsY = 0 := by
    rw [ppMean_zero, mean_eq]
    simp [plsY, Fin.sum_univ_succ]
  have h0 : ∀ k, ∑ i, ppExX i k = 0 := by
    intro k
    fin_cases k <;> simp [ppExX, Fin.sum_univ_succ]
    norm_num
  unfold ppFit
  rw [if_neg (by simp [plsPr]), if_neg (by simp [plsPr, trimOk]; norm_num)]
  dsimp only
  have hX : (if plsPr.centerData = true then
        scaleMat ppExX (fun k => if plsPr.centerData = true then plsPr.centre.loc plsPr.trimming fun i => ppExX i k else 0) fun k =>
          if plsPr.centerData = true then plsPr.centre.sca plsPr.scaleData plsPr.trimming fun i => ppExX i k else 1
      else ppExX) = ppExX := by
    split
    · funext i k
      simp only [scaleMat]
      simp [plsPr, PpCentre.loc, PpCentre.sca, hm]
    · rfl
  have hY : (if plsPr.centerData = true then (fun i => scaleMat (asCol plsY) (fun _ => if plsPr.centerData = true then plsPr.centre.loc plsPr.trimming plsY else 0)
      (fun _ => if plsPr.centerData = true then plsPr.centre.sca plsPr.scaleData plsPr.trimming plsY else 1) i 0) else plsY) = plsY := by
    split
    · funext i
      simp only [scaleMat]
      simp [plsPr, PpCentre.loc, PpCentre.sca, hmy, asCol]
    · rfl
  rw [hX, hY]
  have hsol := pls_solves ppExX h0
  have hl : ∃ l, ppLoop plsPr.optimizer (dicomoIndex2 covObj {} plsY) plsPr.squarePi (PpReg.ols.run plsY plsY) 1 ppExX = .ok l := by
    refine ppLoop_ext_ok (find := bestFind plsIndex) hsol.1 ?_ ⟨[], rfl⟩
    intro hz
    have h1 := hsol.2 ![1, 0] (by simp [UnitLen, Fin.sum_univ_succ])
    unfold ppObjective at h1
    rw [dicomoIndex2_cov (by norm_num) rfl rfl rfl rfl _ (sum_proj_zero h0 _), dicomoIndex2_cov (by norm_num) rfl rfl rfl rfl _ (sum_proj_zero h0 _)] at h1
    have h2 := le_of_mul_le_mul_left (neg_le_neg_iff.mp h1) (div_pos (momFactor_two_pos (by norm_num) _) (by norm_num))
    have h3 : ∀ i, projE ppExX (bestFind plsIndex ppExX) i = 0 := by
      intro i
      exact pow_eq_zero_iff two_ne_zero |>.mp ((Finset.sum_eq_zero_iff_of_nonneg fun i _ => sq_nonneg _).mp hz i (Finset.mem_univ i))
    simp only [h3, zero_mul, Finset.sum_const_zero] at h2
    simp [projE, ppExX, plsY, Fin.sum_univ_succ] at h2
    norm_num at h2
  obtain ⟨l, hl⟩ := hl
  have hl' : ppLoop plsPr.optimizer (dicomoIndex2 covObj {} plsY) plsPr.squarePi (PpReg.ols.run plsY plsY) plsPr.nComponents ppExX = .ok l := hl
  rw [hl']
  dsimp only
  rw [if_neg (by simp [plsPr, PpCentre.sca])]
  exact ⟨_, rfl⟩

/-- The hypotheses of C127 can be met, with a nonzero covariance. -/
example : ∃ (pinv : Pinv) (f : PpFit 3 2) (g : SnFit 3 2), ppFit plsPr pinv .ols (dicomoIndex2 covObj {}) ppExX plsY = .ok f ∧
    snFit ⟨0, 1, .mean, .noneOpt⟩ ppExX plsY = .ok g ∧ f.coef = g.coef ∧ ∑ i, ppExX i 0 * plsY i ≠ 0 := by
  obtain ⟨pinv, hp⟩ := exists_pinv
  obtain ⟨f, hf⟩ := plsExFit pinv
  obtain ⟨g, hg⟩ := C44_one_component_total ⟨0, 1, .mean, .noneOpt⟩ ppExX plsY (le_refl _) (by norm_num) rfl (fun j => one_ne_zero)
  obtain ⟨Xs, ys, hXs, hys, hmX, hsX, hmy, hsy, -⟩ := ppFit_inv hf
  have hy : stdVec plsY f.yLoc f.ySca = plsY := by
    have h1 : f.yLoc = 0 := by
      rw [hmy]
      simp only [plsPr, PpCentre.loc, ppMean_zero, if_true]
      rw [mean_eq]
      simp [plsY, Fin.sum_univ_succ]
    have h2 : f.ySca = 1 := by rw [hsy]; simp [plsPr, PpCentre.sca]
    funext i
    simp [stdVec, std1, h1, h2]
  have h := C127_pls (by norm_num) plsPr rfl rfl rfl (bestFind plsIndex) rfl pinv hp covObj rfl rfl rfl {} rfl ppExX plsY f hf
    (fun E hE => by rw [hy]; exact pls_solves E hE) ⟨0, 1, .mean, .noneOpt⟩ rfl rfl rfl rfl g hg
  refine ⟨pinv, f, g, hf, hg, h.1, ?_⟩
  simp [ppExX, plsY, Fin.sum_univ_succ]

end Direpack
