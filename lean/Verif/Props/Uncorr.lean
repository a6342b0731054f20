import Verif.Props.Constant
import Verif.Props.Stats
import Verif.Props.RMExample
import Verif.Spec.Uncorr

/-!
Property C179: a predictor that is uncorrelated with the response and with the other predictors carries no information for SNIPLS.
-/

namespace Direpack

open scoped BigOperators
open Matrix Spec

variable {n p q : ℕ} {eta : ℝ}

/-- `X'` has the columns of `X` in the places `e`, and all its other columns are orthogonal to those and to `y`. -/
structure OrthExt (e : Fin p ↪ Fin q) (X : Fin n → Fin p → ℝ) (X' : Fin n → Fin q → ℝ) (y : Fin n → ℝ) : Prop where
  same : ∀ i j, X' i (e j) = X i j
  resp : ∀ j, j ∉ Set.range e → ∑ i, X' i j * y i = 0
  cols : ∀ j, j ∉ Set.range e → ∀ k, ∑ i, X' i j * X i k = 0

lemma OrthExt.cov {e : Fin p ↪ Fin q} {X : Fin n → Fin p → ℝ} {X' : Fin n → Fin q → ℝ} {y : Fin n → ℝ} (h : OrthExt e X X' y) :
    ∀ j, ∑ i, X' i j * y i = pad e (fun j => ∑ i, X i j * y i) j := by
  refine fun j => congrFun (eq_pad e (fun j => ∑ i, X i j * y i) (fun j => ∑ i, X' i j * y i) (fun j => ?_) fun j hj => h.resp j hj) j
  simp only [h.same]

/-- The weights depend on the data through the covariances only. -/
lemma snWeights_orth {e : Fin p ↪ Fin q} (eta : ℝ) {X : Fin n → Fin p → ℝ} {X' : Fin n → Fin q → ℝ} {y : Fin n → ℝ} (h : OrthExt e X X' y) :
    snWeights eta X' y = snWeights eta (padMat e X) y := by
  unfold snWeights
  simp only [h.cov, fun j => congrFun (padMat_cov e X y) j]

theorem snLoop_orth (e : Fin p ↪ Fin q) (he : 0 ≤ eta) (h : ℕ) : ∀ (X : Fin n → Fin p → ℝ) (X' : Fin n → Fin q → ℝ) (y : Fin n → ℝ) (old : Finset (Fin p)),
    OrthExt e X X' y → snLoop eta h X' y (old.map e) = (snLoop eta h X y old).map fun l => l.map (padComp e) := by
  induction h with
  | zero => intro X X' y old _; rfl
  | succ h ih =>
    intro X X' y old hO
    simp only [snLoop]
    obtain ⟨w1, w2, w3, w4⟩ := snWeights_pad e eta X y
    rw [← snWeights_orth eta hO] at w1 w2 w3 w4
    have hcov : (∀ j, ∑ i, X' i j * y i = 0) ↔ ∀ j, ∑ i, X i j * y i = 0 := by
      simp only [hO.cov]
      constructor
      · intro hh j
        have := hh (e j)
        rwa [pad_apply] at this
      · intro hh j
        by_cases hj : j ∈ Set.range e
        · obtain ⟨k, rfl⟩ := hj; rw [pad_apply]; exact hh k
        · exact pad_out e _ hj
    have hold : old.map e = ∅ ↔ old = ∅ := by simp
    by_cases hc : ∀ j, ∑ i, X i j * y i = 0
    · rw [if_pos hc, if_pos (hcov.2 hc)]
      by_cases ho : old = ∅
      · rw [if_pos ho, if_pos (hold.2 ho)]; rfl
      · rw [if_neg ho, if_neg (fun h => ho (hold.1 h))]; rfl
    · rw [if_neg hc, if_neg (fun h => hc (hcov.1 h))]
      set good := old ∪ Finset.univ.filter fun j => 0 < (snWeights eta X y).1 j with hgood
      have hg : old.map e ∪ Finset.univ.filter (fun j => 0 < (snWeights eta X' y).1 j) = good.map e := by
        ext j
        simp only [Finset.mem_union, Finset.mem_filter, Finset.mem_univ, true_and, Finset.mem_map, hgood]
        constructor
        · rintro (⟨k, hk, rfl⟩ | hj)
          · exact ⟨k, .inl hk, rfl⟩
          · by_cases hr : j ∈ Set.range e
            · obtain ⟨k, rfl⟩ := hr
              rw [w1] at hj
              exact ⟨k, .inr hj, rfl⟩
            · exact absurd hj (w4 he j hr)
        · rintro ⟨k, hk | hk, rfl⟩
          · exact .inl ⟨k, hk, rfl⟩
          · rw [w1]; exact .inr hk
      rw [hg]
      have hge : good.map e = ∅ ↔ good = ∅ := by simp
      have hgm : ∀ j, e j ∈ good.map e ↔ j ∈ good := fun j => Finset.mem_map' e
      have hgo : ∀ j, j ∉ Set.range e → j ∉ good.map e := by
        intro j hj hm
        obtain ⟨k, -, rfl⟩ := Finset.mem_map.1 hm
        exact hj ⟨k, rfl⟩
      by_cases hgn : good = ∅
      · rw [if_pos hgn, if_pos (hge.2 hgn)]; rfl
      · rw [if_neg hgn, if_neg (fun h => hgn (hge.1 h))]
        set w : Fin p → ℝ := fun j => if j ∈ good then (snWeights eta X y).2 j else 0 with hw
        have hwj : ∀ j, (if j ∈ good then (snWeights eta X y).2 j else 0) = w j := fun _ => rfl
        have hw' : ∀ j, (if j ∈ good.map e then (snWeights eta X' y).2 j else 0) = pad e w j := by
          have : (fun j => if j ∈ good.map e then (snWeights eta X' y).2 j else 0) = pad e w := by
            refine eq_pad e _ _ (fun j => ?_) fun j hj => ?_
            · simp only [hgm, w2, hw]
            · rw [if_neg (hgo j hj)]
          exact fun j => congrFun this j
        set t : Fin n → ℝ := fun i => ∑ j, X i j * w j with ht
        have htj : ∀ i, ∑ j, X i j * w j = t i := fun _ => rfl
        have ht' : ∀ i, ∑ j, X' i j * pad e w j = t i := fun i => congrFun (pad_lin e X X' hO.same w) i
        have hot : ∀ j, j ∉ Set.range e → ∑ i, X' i j * t i = 0 := by
          intro j hj
          simp only [ht, Finset.mul_sum, ← mul_assoc]
          rw [Finset.sum_comm]
          refine Finset.sum_eq_zero fun k _ => ?_
          rw [← Finset.sum_mul, hO.cols j hj k, zero_mul]
        simp only [hw', hwj, ht', htj]
        by_cases hz : ∑ i, t i ^ 2 = 0
        · rw [if_pos hz, if_pos hz]; rfl
        · rw [if_neg hz, if_neg hz]
          set ph : Fin p → ℝ := fun j => (∑ i, X i j * t i) / ∑ i, t i ^ 2 with hphdef
          have hph : ∀ j, (∑ i, X' i j * t i) / (∑ i, t i ^ 2) = pad e ph j := by
            refine fun j => congrFun (eq_pad e ph (fun j => (∑ i, X' i j * t i) / (∑ i, t i ^ 2)) (fun j => ?_) fun j hj => ?_) j
            · simp only [hO.same, hphdef]
            · simp only [hot j hj, zero_div]
          simp only [hph]
          have hO' : OrthExt e (fun i j => X i j - t i * ph j) (fun i j => X' i j - t i * pad e ph j) (fun i => y i - t i * ((∑ i, y i * t i) / ∑ i, t i ^ 2)) := by
            refine ⟨fun i j => by rw [hO.same, pad_apply], fun j hj => ?_, fun j hj k => ?_⟩
            · simp only [pad_out e _ hj, mul_zero, sub_zero, mul_sub, ← mul_assoc, Finset.sum_sub_distrib, ← Finset.sum_mul, hO.resp j hj, hot j hj, zero_mul]
            · simp only [pad_out e _ hj, mul_zero, sub_zero, mul_sub, ← mul_assoc, Finset.sum_sub_distrib, ← Finset.sum_mul, hO.cols j hj, hot j hj, zero_mul]
          rw [ih _ _ _ good hO']
          have hld : (fun j => if j ∈ good.map e then pad e ph j else 0) = pad e fun j => if j ∈ good then ph j else 0 := by
            refine eq_pad e _ _ (fun j => ?_) fun j hj => ?_
            · simp only [hgm, pad_apply]
            · rw [if_neg (hgo j hj)]
          cases hrec : snLoop eta h (fun i j => X i j - t i * ph j) (fun i => y i - t i * ((∑ i, y i * t i) / ∑ i, t i ^ 2)) good with
          | error e => rfl
          | ok l =>
            simp only [Except.map, List.map_cons, hld]
            rfl

/-- Relation of the regression vectors. -/
theorem snCoef_orth (e : Fin p ↪ Fin q) (he : 0 ≤ eta) {X : Fin n → Fin p → ℝ} {X' : Fin n → Fin q → ℝ} {y : Fin n → ℝ} (hO : OrthExt e X X' y) {h : ℕ}
    {l : List (SnComp n p)} (hl : snLoop eta h X y ∅ = .ok l)
    {R : Matrix (Fin p) (Fin l.length) ℝ} {B : Fin p → ℝ} (hc : snCoef X y l = .ok (R, B)) :
    ∃ R', snCoef X' y (l.map (padComp e)) = .ok (R', pad e B) := by
  have hl' := snLoop_orth e he h X X' y ∅ hO
  rw [hl, Finset.map_empty] at hl'
  have hr' := (snLoop_run _ _ _ _ _ _ hl').1
  have hr := (snLoop_run _ _ _ _ _ _ hl).1
  obtain ⟨⟨v, hv⟩, hn⟩ := snCoef_normal hr hc
  have hlen : (l.map (padComp e)).length = l.length := by simp
  set l' := l.map (padComp e) with hl'def
  have hget : ∀ a, (l'.get a).w = pad e (l.get (Fin.cast hlen a)).w := by
    intro a
    simp only [hl'def, List.get_eq_getElem, List.getElem_map, padComp]
    rfl
  have hB : compW l' *ᵥ (fun a => v (Fin.cast hlen a)) = pad e B := by
    refine eq_pad e _ _ (fun j => ?_) fun j hj => ?_
    · rw [hv]
      simp only [Matrix.mulVec, dotProduct]
      rw [← Equiv.sum_comp (finCongr hlen)]
      refine Finset.sum_congr rfl fun a _ => ?_
      simp only [compW, Matrix.of_apply, hget, pad_apply, finCongr_apply]
    · simp only [Matrix.mulVec, dotProduct]
      refine Finset.sum_eq_zero fun a _ => ?_
      simp only [compW, Matrix.of_apply, hget, pad_out e _ hj, zero_mul]
  have hlin : ∀ b : Fin p → ℝ, Matrix.of X' *ᵥ pad e b = Matrix.of X *ᵥ b := fun b => pad_lin e X X' hO.same b
  obtain ⟨R', hR⟩ := snCoef_unique (y0 := y) hr' (fun a => v (Fin.cast hlen a)) (by
    intro c' hc'
    obtain ⟨c, hcl, rfl⟩ := List.mem_map.1 hc'
    rw [hB]
    have h0 := hn c hcl
    simp only [padComp, hlin]
    exact h0)
  rw [hB] at hR
  exact ⟨R', hR⟩

/-- Uncorrelated variables are orthogonal after standardisation. -/
lemma uncorrelated_std {u v : Fin n → ℝ} (h : Uncorrelated u v) (a b : ℝ) : ∑ i, std1 (u i) (Direpack.mean u) a * std1 (v i) (Direpack.mean v) b = 0 := by
  have e : ∀ i, std1 (u i) (Direpack.mean u) a * std1 (v i) (Direpack.mean v) b =
      (u i - average u) * (v i - average v) * ((if a = 0 then 1 else a)⁻¹ * (if b = 0 then 1 else b)⁻¹) := by
    intro i
    unfold std1
    rw [mean_average, mean_average]
    split_ifs <;> simp only [div_eq_mul_inv, inv_one] <;> ring
  simp only [e]
  rw [← Finset.sum_mul, h, zero_mul]

/-- **C179**: SNIPLS with the mean as location, standardised or not, ignores predictors that are uncorrelated with the response and with the other predictors.  It gives a model for the
larger table exactly when it gives one for the smaller; the additional predictors are never retained and have coefficient zero; the other coefficients, the intercept, the retained
variables, the scores, the fitted values, the residuals, and the predictions of new cases (whatever their values of the additional predictors) are the same.  With scaling the additional
predictors must not be constant.  Missing: the median as location (`C179_median_violated`). -/
theorem C179_snipls_partial {pr : SnParams} (hc : pr.centre = .mean) (hn : 0 < n) {e : Fin p ↪ Fin q} {X : Fin n → Fin p → ℝ}
    {X' : Fin n → Fin q → ℝ} {y : Fin n → ℝ} (hX : AddsUncorrelated e X X' y)
    (hs : pr.scale = .noneOpt ∨ pr.scale = .std ∧ ∀ j, j ∉ Set.range e → ∃ i i', X' i j ≠ X' i' j) :
    ((∃ f, snFit pr X y = .ok f) ↔ ∃ f', snFit pr X' y = .ok f') ∧
    ∀ f f', snFit pr X y = .ok f → snFit pr X' y = .ok f' →
      (∀ j, f'.coef (e j) = f.coef j) ∧ (∀ j, j ∉ Set.range e → f'.coef j = 0) ∧ f'.intercept = f.intercept ∧
      f'.comps.map (fun c => c.t) = f.comps.map (fun c => c.t) ∧ f'.comps.map (fun c => c.good) = f.comps.map (fun c => c.good.map e) ∧
      f'.fitted = f.fitted ∧ f'.residuals = f.residuals ∧
      ∀ {m : ℕ} (Z : Fin m → Fin p → ℝ) (Z' : Fin m → Fin q → ℝ), (∀ i j, Z' i (e j) = Z i j) → f'.predict Z' = f.predict Z := by
  have hloc : ∀ j, pr.centre.run X' (e j) = pr.centre.run X j := by
    intro j; rw [hc]; simp only [Centre.run, hX.1]
  have hsca : ∀ j, pr.scale.run X' (e j) = pr.scale.run X j := by
    intro j
    rcases hs with h | ⟨h, -⟩ <;> rw [h] <;> simp only [ScaleOpt.run, hX.1]
  have hsnew : ∀ j, j ∉ Set.range e → pr.scale.run X' j ≠ 0 := by
    intro j hj
    rcases hs with h | ⟨h, h'⟩
    · rw [h]; exact one_ne_zero
    · rw [h]
      obtain ⟨i, i', hne⟩ := h' j hj
      intro h0
      have h0 : Real.sqrt (var fun i => X' i j) = 0 := h0
      have hv : 0 ≤ var fun i => X' i j := by rw [var_eq, mean_eq]; positivity
      rw [Real.sqrt_eq_zero hv, var_eq_zero_iff hn] at h0
      exact hne ((h0 i).trans (h0 i').symm)
  have hsc : (∀ j, pr.scale.run X j ≠ 0) ↔ ∀ j, pr.scale.run X' j ≠ 0 := by
    constructor
    · intro h j
      by_cases hj : j ∈ Set.range e
      · obtain ⟨k, rfl⟩ := hj; rw [hsca]; exact h k
      · exact hsnew j hj
    · intro h j
      rw [← hsca]; exact h _
  have hO : OrthExt e (stdMat X (pr.centre.run X) (pr.scale.run X)) (stdMat X' (pr.centre.run X') (pr.scale.run X'))
      (stdVec y (pr.centre.run (asCol y) 0) (pr.scale.run (asCol y) 0)) := by
    refine ⟨fun i j => by simp only [stdMat, hX.1, hloc, hsca], fun j hj => ?_, fun j hj k => ?_⟩
    · have := uncorrelated_std (hX.2 j hj).1 (pr.scale.run X' j) (pr.scale.run (asCol y) 0)
      rw [hc]; exact this
    · have := uncorrelated_std ((hX.2 j hj).2 k) (pr.scale.run X' j) (pr.scale.run X k)
      rw [hc]; exact this
  constructor
  · constructor
    · rintro ⟨f, hf⟩
      obtain ⟨⟨p1, p2, p3⟩, a1, a2, a3, a4, a0, a5, -⟩ := snFit_inv hf
      rw [a1, a2, a3, a4] at a5
      rw [a2] at a0
      have hl := snLoop_orth e p1 pr.nComponents _ _ _ ∅ hO
      rw [a5, Finset.map_empty] at hl
      obtain ⟨f', hf', -⟩ := snFit_of_loop pr X' y p1 p2 p3 (hsc.1 a0) _ hl
      exact ⟨f', hf'⟩
    · rintro ⟨f', hf'⟩
      obtain ⟨⟨p1, p2, p3⟩, a1, a2, a3, a4, a0, a5, -⟩ := snFit_inv hf'
      rw [a1, a2, a3, a4] at a5
      rw [a2] at a0
      have hl := snLoop_orth e p1 pr.nComponents _ _ _ ∅ hO
      rw [Finset.map_empty, a5] at hl
      cases hx : snLoop pr.eta pr.nComponents (stdMat X (pr.centre.run X) (pr.scale.run X)) (stdVec y (pr.centre.run (asCol y) 0) (pr.scale.run (asCol y) 0)) ∅ with
      | error e => rw [hx] at hl; exact absurd hl (by simp [Except.map])
      | ok l =>
        obtain ⟨f, hf, -⟩ := snFit_of_loop pr X y p1 p2 p3 (hsc.2 a0) _ hx
        exact ⟨f, hf⟩
  · intro f f' hf hf'
    obtain ⟨⟨p1, p2, p3⟩, a1, a2, a3, a4, a0, a5, a6, a7, a8, a9, a10⟩ := snFit_inv hf
    obtain ⟨-, b1, b2, b3, b4, -, b5, b6, b7, b8, b9, b10⟩ := snFit_inv hf'
    have hys : stdVec y f'.yLoc f'.ySca = stdVec y f.yLoc f.ySca := by rw [b3, b4, a3, a4]
    rw [← a1, ← a2, ← b1, ← b2, ← a3, ← a4] at hO
    have hl := snLoop_orth e p1 pr.nComponents _ _ _ ∅ hO
    rw [a5, Finset.map_empty] at hl
    rw [hys, hl] at b5
    have hcomps : f'.comps = f.comps.map (padComp e) := (Except.ok.inj b5).symm
    obtain ⟨R', hR'⟩ := snCoef_orth e p1 hO a5 a6
    have hB : f'.coefScaled = pad e f.coefScaled := by
      have b6' : (snCoef (stdMat X' f'.xLoc f'.xSca) (stdVec y f.yLoc f.ySca) f'.comps).map Prod.snd = .ok f'.coefScaled := by
        rw [← hys, b6]; rfl
      rw [hcomps, hR'] at b6'
      exact (Except.ok.inj b6').symm
    have q3 : f'.coef = pad e f.coef := by
      refine eq_pad e _ _ (fun j => ?_) fun j hj => ?_
      · rw [b7, a7, hB, pad_apply, b2, a2, hsca, b4, a4]
      · rw [b7, hB, pad_out e _ hj, mul_zero]
    have q4 : lin X' f'.coef = lin X f.coef := by rw [q3]; exact pad_lin e X X' hX.1 f.coef
    have q5 : f'.intercept = f.intercept := by rw [b8, a8, q4]
    have q6 : f'.fitted = f.fitted := by funext i; rw [b9, a9, q4, q5]
    refine ⟨fun j => by rw [q3, pad_apply], fun j hj => by rw [q3, pad_out e _ hj], q5, ?_, ?_, q6, by funext i; rw [b10, a10, q6], fun Z Z' hZ => ?_⟩
    · rw [hcomps, List.map_map]; rfl
    · rw [hcomps, List.map_map]; rfl
    · unfold SnFit.predict
      rw [dif_pos rfl, dif_pos rfl, q5]
      congr 1
      funext i
      congr 1
      have := congrFun (pad_lin e Z Z' hZ f.coef) i
      rw [q3]
      exact this

lemma abs_mul_npSign (x : ℝ) : |x| * npSign x = x := by
  unfold npSign
  split_ifs with h1 h2
  · rw [abs_of_pos h1, mul_one]
  · rw [abs_of_neg h2]; ring
  · rw [le_antisymm (not_lt.1 h1) (not_lt.1 h2)]; simp

/-! ### An example, and what happens with the median -/

/-- Three cases: a predictor and a second one that is uncorrelated with it. -/
noncomputable def ucX : Fin 3 → Fin 2 → ℝ := ![![0, 4], ![1, -5], ![5, 1]]
noncomputable def ucX0 : Fin 3 → Fin 1 → ℝ := fun i _ => ![0, 1, 5] i
noncomputable def ucY : Fin 3 → ℝ := ![0, 1, 5]

lemma ucX_adds : AddsUncorrelated Fin.castSuccEmb ucX0 ucX ucY := by
  constructor
  · intro i j
    rw [Subsingleton.elim j 0]
    fin_cases i <;> rfl
  · intro j hj
    have hj1 : j = 1 := by
      fin_cases j
      · exact absurd ⟨0, rfl⟩ hj
      · rfl
    subst hj1
    refine ⟨?_, fun k => ?_⟩ <;> unfold Uncorrelated <;> simp [average, Fin.sum_univ_three, ucX, ucX0, ucY] <;> norm_num

/-- The fit of the larger table leaves the second predictor out. -/
example : ∃ f', snFit ⟨0, 1, .mean, .std⟩ ucX ucY = .ok f' ∧ f'.coef 1 = 0 := by
  have hsd : (⟨0, 1, .mean, .std⟩ : SnParams).scale = .noneOpt ∨ (⟨0, 1, .mean, .std⟩ : SnParams).scale = .std ∧
      ∀ j : Fin 2, j ∉ Set.range (Fin.castSuccEmb : Fin 1 ↪ Fin 2) → ∃ i i', ucX i j ≠ ucX i' j := by
    refine .inr ⟨rfl, fun j hj => ⟨0, 1, ?_⟩⟩
    fin_cases j <;> simp [ucX] <;> norm_num
  obtain ⟨h1, h2⟩ := C179_snipls_partial (pr := ⟨0, 1, .mean, .std⟩) rfl (by norm_num) ucX_adds hsd
  obtain ⟨f, hf⟩ := C44_one_component_total ⟨0, 1, .mean, .std⟩ ucX0 ucY le_rfl zero_lt_one rfl (fun j => by
    intro h0
    have h0 : Real.sqrt (var fun i => ucX0 i j) = 0 := h0
    have hv : 0 ≤ var fun i => ucX0 i j := by rw [var_eq, mean_eq]; positivity
    rw [Real.sqrt_eq_zero hv, var_eq_zero_iff (by norm_num)] at h0
    have e := (h0 0).trans (h0 1).symm
    simp [ucX0] at e)
  obtain ⟨f', hf'⟩ := h1.1 ⟨f, hf⟩
  refine ⟨f', hf', (h2 f f' hf hf').2.1 1 ?_⟩
  rintro ⟨k, hk⟩
  have := congrArg Fin.val hk
  simp at this

/-- **C179** does not hold with the median: deviations from the medians of uncorrelated variables are not orthogonal, and the uncorrelated predictor enters the model. -/
theorem C179_median_violated : AddsUncorrelated Fin.castSuccEmb ucX0 ucX ucY ∧ ∃ f', snFit ⟨0, 1, .median, .noneOpt⟩ ucX ucY = .ok f' ∧
    colret f'.comps = some {0, 1} ∧ f'.coef 1 ≠ 0 := by
  obtain ⟨f, hf⟩ := C44_one_component_total ⟨0, 1, .median, .noneOpt⟩ ucX ucY le_rfl zero_lt_one rfl (fun j => one_ne_zero)
  obtain ⟨-, e1, e2, e3, e4, -, hl, hco, hcf, -⟩ := snFit_inv hf
  have m0 : med (fun i => ucX i 0) = 1 :=
    med3 _ 1 0 1 2 (by decide) (by decide) (by simp [ucX]) (by simp [ucX]) (by simp [ucX])
  have m1 : med (fun i => ucX i 1) = 1 :=
    med3 _ 1 1 2 0 (by decide) (by decide) (by simp [ucX]; norm_num) (by simp [ucX]) (by simp [ucX])
  have my : med ucY = 1 :=
    med3 _ 1 0 1 2 (by decide) (by decide) (by simp [ucY]) (by simp [ucY]) (by simp [ucY])
  have hXs : stdMat ucX f.xLoc f.xSca = ![![-1, 3], ![0, -6], ![4, 0]] := by
    rw [e1, e2]
    have l0 : Centre.median.run ucX 0 = 1 := m0
    have l1 : Centre.median.run ucX 1 = 1 := m1
    funext i j
    fin_cases j <;> fin_cases i <;> simp [stdMat, std1, l0, l1, ScaleOpt.run] <;> simp [ucX] <;> norm_num
  have hys : stdVec ucY f.yLoc f.ySca = ![-1, 0, 4] := by
    rw [e3, e4]
    have l0 : Centre.median.run (asCol ucY) 0 = 1 := my
    funext i
    fin_cases i <;> simp [stdVec, std1, l0, ScaleOpt.run] <;> simp [ucY] <;> norm_num
  have hcov : ∀ j, (![17, -3] : Fin 2 → ℝ) j = dot (fun i => stdMat ucX f.xLoc f.xSca i j) (stdVec ucY f.yLoc f.ySca) := by
    intro j
    rw [hXs, hys]
    fin_cases j <;> simp [dot, Fin.sum_univ_three] <;> norm_num
  refine ⟨ucX_adds, f, hf, ?_, ?_⟩
  · obtain ⟨s, hs, -, hm⟩ := (C44_first_component hf rfl ![17, -3] hcov).2 ⟨0, by simp⟩
    rw [hs]
    congr 1
    ext j
    rw [hm]
    fin_cases j <;> simp [Fin.forall_fin_two]
  · intro h0
    obtain ⟨c, hc1, hcw⟩ : ∃ c, f.comps = [c] ∧ ∃ r : ℝ, r ≠ 0 ∧ ∀ j, c.w j = r * (![17, -3] : Fin 2 → ℝ) j := by
      have hs : ∀ j, ∑ i, stdMat ucX f.xLoc f.xSca i j * stdVec ucY f.yLoc f.ySca i = (![17, -3] : Fin 2 → ℝ) j := fun j => (hcov j).symm
      have hsq : 0 < Real.sqrt (∑ j, (![17, -3] : Fin 2 → ℝ) j ^ 2) := by
        apply Real.sqrt_pos.2; simp [Fin.sum_univ_two]; norm_num
      have hwt : ∀ j, (snWeights 0 (stdMat ucX f.xLoc f.xSca) (stdVec ucY f.yLoc f.ySca)).2 j = (Real.sqrt (∑ j, (![17, -3] : Fin 2 → ℝ) j ^ 2))⁻¹ * (![17, -3] : Fin 2 → ℝ) j := by
        intro j
        simp only [snWeights, hs, zero_mul, sub_zero]
        rw [abs_mul_npSign]; ring
      have hg : ∀ j, 0 < (snWeights 0 (stdMat ucX f.xLoc f.xSca) (stdVec ucY f.yLoc f.ySca)).1 j := by
        intro j
        simp only [snWeights, hs, zero_mul, sub_zero]
        apply abs_pos.2
        apply div_ne_zero _ hsq.ne'
        fin_cases j <;> simp
      simp only [snLoop] at hl
      rw [if_neg (by rw [not_forall]; exact ⟨0, by rw [hs]; simp⟩)] at hl
      split_ifs at hl with h1 h2
      · simp [hg] at h1
        exact absurd h1 (by simp [Finset.ext_iff])
      · refine ⟨_, (Except.ok.inj hl).symm, _, (inv_pos.2 hsq).ne', fun j => ?_⟩
        simp only [hg, Finset.filter_true, Finset.empty_union, Finset.mem_univ, if_true]
        exact hwt j
    obtain ⟨r, hr, hw⟩ := hcw
    obtain ⟨⟨v, hv⟩, hn⟩ := snCoef_normal (snLoop_run _ _ _ _ _ _ hl).1 hco
    have hB : ∃ a : ℝ, f.coefScaled = fun j => c.w j * a := by
      have aux : ∀ (l : List (SnComp 3 2)) (v : Fin l.length → ℝ), l = [c] → ∃ a : ℝ, compW l *ᵥ v = fun j => c.w j * a := by
        intro l v hl
        subst hl
        refine ⟨v 0, ?_⟩
        funext j
        simp [Matrix.mulVec, dotProduct, compW]
      rw [hv]
      exact aux _ v hc1
    obtain ⟨a, ha⟩ := hB
    have ha0 : a = 0 := by
      rw [hcf, ha] at h0
      dsimp only at h0
      rw [hw] at h0
      rw [e2, e4] at h0
      simpa [ScaleOpt.run, hr] using h0
    have h1 := hn c (by rw [hc1]; simp)
    rw [ha, ha0, hXs, hys] at h1
    simp [Matrix.mulVec, dotProduct, Fin.sum_univ_three, Fin.sum_univ_two, hw] at h1
    have : r * 298 = 0 := by linarith
    exact hr (by linarith)

end Direpack
