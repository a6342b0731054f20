import Verif.EquivLemmas
import Verif.Props.Snipls

/-!
Properties C106 and C107: the fitted `snipls` model does not depend on the units of the variables nor on the order of cases and variables.
-/

namespace Direpack

open scoped BigOperators
open Matrix Spec

variable {n p : ℕ} {eta : ℝ}

/-! ### The regression vector is the only solution of the normal equations in the span of the weights -/

theorem SnRun.det_M {X : Matrix (Fin n) (Fin p) ℝ} {y : Fin n → ℝ} {old : Finset (Fin p)} {l : List (SnComp n p)} (hr : SnRun eta X y old l) :
    ((compW l).transpose * (X.transpose * X) * compW l).det ≠ 0 := by
  have e1 : (compW l).transpose * (X.transpose * X) * compW l = (X * compW l).transpose * (X * compW l) := by
    rw [Matrix.transpose_mul]; simp only [Matrix.mul_assoc]
  have e2 : (compW l).transpose * (X.transpose * X) * compW l = (snQ X l).transpose * ((compT l).transpose * compT l) * snQ X l := by
    rw [e1, hr.mul_W, Matrix.transpose_mul]; simp only [Matrix.mul_assoc]
  rw [e2, Matrix.det_mul, Matrix.det_mul, Matrix.det_transpose, hr.det_Q]
  simpa using hr.det_gram

theorem snCoef_normal {X : Fin n → Fin p → ℝ} {y y0 : Fin n → ℝ} {old : Finset (Fin p)} {l : List (SnComp n p)}
    (hr : SnRun eta (Matrix.of X) y old l) {R : Matrix (Fin p) (Fin l.length) ℝ} {B : Fin p → ℝ} (h : snCoef X y0 l = .ok (R, B)) :
    (∃ v, B = compW l *ᵥ v) ∧ ∀ c ∈ l, (y0 - Matrix.of X *ᵥ B) ⬝ᵥ (Matrix.of X *ᵥ c.w) = 0 := by
  rw [snCoef_ok hr, Except.ok.injEq] at h
  by_cases hlen : l.length = 0
  · rw [if_pos hlen] at h
    have hB := congrArg Prod.snd h
    simp only at hB
    rw [← hB]
    refine ⟨⟨fun _ => 0, ?_⟩, ?_⟩
    · funext j; simp [Matrix.mulVec, dotProduct]
    · intro c hc
      rw [List.length_eq_zero_iff] at hlen
      rw [hlen] at hc
      simp at hc
  · rw [if_neg hlen] at h
    have hB := congrArg Prod.snd h
    simp only at hB
    set W := compW l with hW
    set M := W.transpose * ((Matrix.of X).transpose * Matrix.of X) * W with hM
    refine ⟨⟨(M⁻¹ * W.transpose) *ᵥ ((Matrix.of X).transpose *ᵥ y0), ?_⟩, ?_⟩
    · rw [← hB]; simp only [Matrix.mulVec_mulVec, Matrix.mul_assoc]
    · have key : (W.transpose * (Matrix.of X).transpose) *ᵥ (y0 - Matrix.of X *ᵥ B) = 0 := by
        rw [Matrix.mulVec_sub, ← hB]
        simp only [Matrix.mulVec_mulVec]
        have : W.transpose * (Matrix.of X).transpose * Matrix.of X * (W * (M⁻¹ * W.transpose) * (Matrix.of X).transpose)
            = W.transpose * (Matrix.of X).transpose := by
          calc _ = M * M⁻¹ * W.transpose * (Matrix.of X).transpose := by
                rw [hM]; simp only [Matrix.mul_assoc]
            _ = _ := by
              rw [Matrix.mul_nonsing_inv _ (isUnit_iff_ne_zero.2 hr.det_M), Matrix.one_mul]
        simp only [← Matrix.mul_assoc] at this ⊢
        rw [this, sub_self]
      intro c hcm
      obtain ⟨b, rfl⟩ := List.get_of_mem hcm
      have := congrFun key b
      rw [← Matrix.transpose_mul] at this
      rw [dotProduct_comm]
      exact this

theorem snCoef_unique {X : Fin n → Fin p → ℝ} {y y0 : Fin n → ℝ} {old : Finset (Fin p)} {l : List (SnComp n p)}
    (hr : SnRun eta (Matrix.of X) y old l) (v : Fin l.length → ℝ)
    (hv : ∀ c ∈ l, (y0 - Matrix.of X *ᵥ (compW l *ᵥ v)) ⬝ᵥ (Matrix.of X *ᵥ c.w) = 0) :
    ∃ R, snCoef X y0 l = .ok (R, compW l *ᵥ v) := by
  obtain ⟨R, B, h⟩ : ∃ R B, snCoef X y0 l = .ok (R, B) := ⟨_, _, snCoef_ok hr⟩
  obtain ⟨⟨u, hu⟩, hB⟩ := snCoef_normal hr h
  refine ⟨R, ?_⟩
  rw [h, hu]
  have hzero : ((compW l).transpose * ((Matrix.of X).transpose * Matrix.of X) * compW l) *ᵥ (u - v) = 0 := by
    funext a
    have h1 := hB _ (List.get_mem l a)
    have h2 := hv _ (List.get_mem l a)
    rw [hu] at h1
    have h3 : (Matrix.of X *ᵥ (compW l *ᵥ (u - v))) ⬝ᵥ (Matrix.of X *ᵥ (l.get a).w) = 0 := by
      rw [Matrix.mulVec_sub, Matrix.mulVec_sub, sub_dotProduct]
      rw [sub_dotProduct] at h1 h2
      linarith
    have h4 : ((compW l).transpose * ((Matrix.of X).transpose * Matrix.of X) * compW l) *ᵥ (u - v) =
        ((compW l).transpose * (Matrix.of X).transpose) *ᵥ (Matrix.of X *ᵥ (compW l *ᵥ (u - v))) := by
      simp only [Matrix.mulVec_mulVec, Matrix.mul_assoc]
    rw [h4, ← Matrix.transpose_mul]
    rw [dotProduct_comm] at h3
    exact h3
  have hu0 : u - v = 0 := by
    have := congrArg (fun z => ((compW l).transpose * ((Matrix.of X).transpose * Matrix.of X) * compW l)⁻¹ *ᵥ z) hzero
    simp only [Matrix.mulVec_mulVec, Matrix.mulVec_zero] at this
    rwa [Matrix.nonsing_inv_mul _ (isUnit_iff_ne_zero.2 hr.det_M), Matrix.one_mulVec] at this
  rw [sub_eq_zero.1 hu0]

/-- Relation of the regression vectors. -/
theorem snCoef_rel {q : ℕ} (σ : Equiv.Perm (Fin n)) (τ : Fin q ≃ Fin p) (D : Fin q → ℝ) (k : ℝ) (hD : ∀ j, D j = 1 ∨ D j = -1) (hk : k ≠ 0)
    {X : Fin n → Fin p → ℝ} {y : Fin n → ℝ} {h : ℕ} {l : List (SnComp n p)} (hl : snLoop eta h X y ∅ = .ok l)
    {R : Matrix (Fin p) (Fin l.length) ℝ} {B : Fin p → ℝ} (hc : snCoef X y l = .ok (R, B)) :
    ∃ R', snCoef (fun i j => D j * X (σ i) (τ j)) (fun i => k * y (σ i)) (l.map (relComp σ τ D k)) = .ok (R', fun j => k * D j * B (τ j)) := by
  have hDD : ∀ j, D j * D j = 1 := fun j => by rcases hD j with h | h <;> rw [h] <;> norm_num
  have hl' := snLoop_rel σ τ D k hD hk eta h X y ∅
  rw [hl, Finset.map_empty] at hl'
  have hr' := (snLoop_run _ _ _ _ _ _ hl').1
  have hr := (snLoop_run _ _ _ _ _ _ hl).1
  obtain ⟨⟨v, hv⟩, hn⟩ := snCoef_normal hr hc
  have hlen : (l.map (relComp σ τ D k)).length = l.length := by simp
  set l' := l.map (relComp σ τ D k) with hl'def
  have hB : compW l' *ᵥ (fun a => |k| * v (Fin.cast hlen a)) = fun j => k * D j * B (τ j) := by
    funext j
    rw [hv]
    simp only [Matrix.mulVec, dotProduct]
    rw [Finset.mul_sum, ← Equiv.sum_comp (finCongr hlen)]
    refine Finset.sum_congr rfl fun a _ => ?_
    have : (l'.get a).w j = sg k * D j * (l.get (Fin.cast hlen a)).w (τ j) := by
      simp only [hl'def, List.get_eq_getElem, List.getElem_map, relComp]
      rfl
    simp only [compW, Matrix.of_apply, this, finCongr_apply]
    calc _ = (sg k * |k|) * (D j * ((l.get (Fin.cast hlen a)).w (τ j) * v (Fin.cast hlen a))) := by ring
      _ = _ := by rw [sg_mul_abs hk]; ring
  have hlin : ∀ b : Fin p → ℝ, ∀ e : ℝ, ∀ i, (Matrix.of (fun i j => D j * X (σ i) (τ j)) *ᵥ fun j => e * D j * b (τ j)) i =
      e * (Matrix.of X *ᵥ b) (σ i) := by
    intro b e i
    simp only [Matrix.mulVec, dotProduct, Matrix.of_apply]
    rw [← Equiv.sum_comp τ (fun j => X (σ i) j * b j), Finset.mul_sum]
    refine Finset.sum_congr rfl fun j _ => ?_
    calc _ = (D j * D j) * (e * (X (σ i) (τ j) * b (τ j))) := by ring
      _ = _ := by rw [hDD, one_mul]
  obtain ⟨R', hR⟩ := snCoef_unique (y0 := fun i => k * y (σ i)) hr' (fun a => |k| * v (Fin.cast hlen a)) (by
    intro c' hc'
    obtain ⟨c, hcl, rfl⟩ := List.mem_map.1 hc'
    rw [hB]
    have h0 := hn c hcl
    simp only [dotProduct, Pi.sub_apply] at h0 ⊢
    simp only [hlin, relComp]
    rw [← Equiv.sum_comp σ (fun i => (y i - (Matrix.of X *ᵥ B) i) * (Matrix.of X *ᵥ c.w) i)] at h0
    calc _ = ∑ i, (k * sg k) * ((y (σ i) - (Matrix.of X *ᵥ B) (σ i)) * (Matrix.of X *ᵥ c.w) (σ i)) :=
          Finset.sum_congr rfl fun i _ => by ring
      _ = _ := by rw [← Finset.mul_sum, h0, mul_zero])
  rw [hB] at hR
  exact ⟨R', hR⟩

/-- A fit from its parts. -/
theorem snFit_intro (pr : SnParams) (X : Fin n → Fin p → ℝ) (y : Fin n → ℝ)
    (h0 : 0 ≤ pr.eta ∧ pr.eta < 1 ∧ 0 < pr.nComponents) (hs : ∀ j, pr.scale.run X j ≠ 0) (l : List (SnComp n p))
    (hl : snLoop pr.eta pr.nComponents (stdMat X (pr.centre.run X) (pr.scale.run X))
      (stdVec y (pr.centre.run (asCol y) 0) (pr.scale.run (asCol y) 0)) ∅ = .ok l)
    (R : Matrix (Fin p) (Fin l.length) ℝ) (B : Fin p → ℝ)
    (hc : snCoef (stdMat X (pr.centre.run X) (pr.scale.run X))
      (stdVec y (pr.centre.run (asCol y) 0) (pr.scale.run (asCol y) 0)) l = .ok (R, B)) :
    ∃ f, snFit pr X y = .ok f ∧ f.comps = l ∧ f.coefScaled = B := by
  obtain ⟨f, hf, hfl⟩ := snFit_of_loop pr X y h0.1 h0.2.1 h0.2.2 hs l hl
  refine ⟨f, hf, hfl, ?_⟩
  obtain ⟨_, e1, e2, e3, e4, _, _, hc', _⟩ := snFit_inv hf
  rw [e1, e2, e3, e4] at hc'
  subst hfl
  rw [hc] at hc'
  simp only [Except.ok.injEq, Prod.mk.injEq] at hc'
  exact hc'.2.symm

/-! ### C106: units -/

/-- **C106.** Measuring the predictors and the response in other units (any location and any factor that is not zero, for estimators of
location and scale that follow the units) changes the coefficients accordingly, keeps the retained variables, and changes every prediction exactly as the response
is changed. -/
theorem C106_snipls_units {pr : SnParams} (hc : pr.centre = .mean ∨ pr.centre = .median) (hs : pr.scale = .std ∨ pr.scale = .mad)
    (hn : 0 < n) {X : Fin n → Fin p → ℝ} {y : Fin n → ℝ} {f : SnFit n p} (h : snFit pr X y = .ok f)
    (a b : Fin p → ℝ) (ha : ∀ j, a j ≠ 0) (c d : ℝ) (hcn : c ≠ 0) :
    ∃ f', snFit pr (newUnits a b X) (newUnit c d y) = .ok f' ∧
      colret f'.comps = colret f.comps ∧
      (∀ j, f'.coef j = c / a j * f.coef j) ∧
      ∀ {m : ℕ} (Xn : Fin m → Fin p → ℝ), f'.predict (newUnits a b Xn) = (f.predict Xn).map (newUnit c d) := by
  obtain ⟨hpar, e1, e2, e3, e4, hne, hl, hcf, hco, hint, hfit, _⟩ := snFit_inv h
  have hX : stdMat (newUnits a b X) (pr.centre.run (newUnits a b X)) (pr.scale.run (newUnits a b X)) =
      fun i j => sg (a j) * stdMat X f.xLoc f.xSca (Equiv.refl _ i) (Equiv.refl _ j) := by
    funext i j
    have hsj : |a j| * f.xSca j ≠ 0 := mul_ne_zero (abs_ne_zero.2 (ha j)) (hne j)
    change std1 (a j * X i j + b j) (pr.centre.run (newUnits a b X) j) (pr.scale.run (newUnits a b X) j) =
      sg (a j) * std1 (X i j) (f.xLoc j) (f.xSca j)
    rw [Centre.run_units hc hn, ScaleOpt.run_units hs hn, ← e1, ← e2, std1, std1, if_neg hsj, if_neg (hne j), sg, div_mul_div_comm]
    congr 1
    ring
  have hyloc : pr.centre.run (asCol (newUnit c d y)) 0 = c * f.yLoc + d := by
    have := Centre.run_units hc hn (fun _ : Fin 1 => c) (fun _ => d) (asCol y) 0
    rw [← e3] at this
    exact this
  have hysca : pr.scale.run (asCol (newUnit c d y)) 0 = |c| * f.ySca := by
    have := ScaleOpt.run_units hs hn (fun _ : Fin 1 => c) (fun _ => d) (asCol y) 0
    rw [← e4] at this
    exact this
  obtain ⟨k, hk, hky, hks⟩ : ∃ k : ℝ, k ≠ 0 ∧ (stdVec (newUnit c d y) (c * f.yLoc + d) (|c| * f.ySca) =
      fun i => k * stdVec y f.yLoc f.ySca (Equiv.refl _ i)) ∧ |c| * f.ySca * k = c * f.ySca := by
    by_cases hz : f.ySca = 0
    · refine ⟨c, hcn, ?_, by rw [hz]; ring⟩
      funext i
      simp only [stdVec, std1, hz, mul_zero, if_true, newUnit, Equiv.refl_apply]
      ring
    · refine ⟨sg c, ?_, ?_, ?_⟩
      · rcases sg_cases hcn with e | e <;> rw [e] <;> norm_num
      · funext i
        have hsj : |c| * f.ySca ≠ 0 := mul_ne_zero (abs_ne_zero.2 hcn) hz
        simp only [stdVec, std1, if_neg hz, if_neg hsj, newUnit, Equiv.refl_apply, sg]
        rw [div_mul_div_comm]
        congr 1
        ring
      · calc _ = (sg c * |c|) * f.ySca := by ring
          _ = _ := by rw [sg_mul_abs hcn]
  have hD : ∀ j, sg (a j) = 1 ∨ sg (a j) = -1 := fun j => sg_cases (ha j)
  have hloop := snLoop_rel (Equiv.refl (Fin n)) (Equiv.refl (Fin p)) (fun j => sg (a j)) k hD hk pr.eta pr.nComponents
    (stdMat X f.xLoc f.xSca) (stdVec y f.yLoc f.ySca) ∅
  rw [hl, Finset.map_empty] at hloop
  obtain ⟨R', hR'⟩ := snCoef_rel (Equiv.refl (Fin n)) (Equiv.refl (Fin p)) (fun j => sg (a j)) k hD hk hl hcf
  obtain ⟨f', hf', hcomps, hB'⟩ := snFit_intro pr (newUnits a b X) (newUnit c d y) hpar
    (fun j => by rw [ScaleOpt.run_units hs hn, ← e2]; exact mul_ne_zero (abs_ne_zero.2 (ha j)) (hne j)) _
    (by rw [hX, hyloc, hysca, hky]; exact hloop) R' _ (by rw [hX, hyloc, hysca, hky]; exact hR')
  obtain ⟨_, g1, g2, g3, g4, _, _, _, gco, gint, gfit, _⟩ := snFit_inv hf'
  have hcoef : ∀ j, f'.coef j = c / a j * f.coef j := by
    intro j
    rw [gco, hB', g4, hysca, g2, ScaleOpt.run_units hs hn, ← e2, hco]
    simp only [Equiv.refl_apply]
    have h1 : |a j| ≠ 0 := abs_ne_zero.2 (ha j)
    have h2 := hne j
    have h3 : sg (a j) / |a j| = 1 / a j := by
      rw [sg, div_div, abs_mul_abs_self, div_mul_eq_div_div, div_self (ha j)]
    calc _ = (|c| * f.ySca * k) * (sg (a j) / |a j|) / f.xSca j * f.coefScaled j := by field_simp
      _ = _ := by rw [hks, h3]; field_simp
  have hlin : ∀ {m : ℕ} (Xn : Fin m → Fin p → ℝ) (i : Fin m), lin (newUnits a b Xn) f'.coef i =
      c * lin Xn f.coef i + ∑ j, b j * (c / a j * f.coef j) := by
    intro m Xn i
    simp only [lin, newUnits, hcoef]
    rw [Finset.mul_sum, ← Finset.sum_add_distrib]
    refine Finset.sum_congr rfl fun j _ => ?_
    have := ha j
    field_simp
  have hcen : pr.centre ≠ .noneOpt := by rcases hc with e | e <;> rw [e] <;> simp
  have hb0 : f'.intercept = c * f.intercept + (d - ∑ j, b j * (c / a j * f.coef j)) := by
    rw [gint, hint, ← snIntercept_affine hcen hn]
    congr 1
    funext i
    rw [hlin]
    simp only [newUnit]
    ring
  refine ⟨f', hf', ?_, hcoef, ?_⟩
  · rw [hcomps]
    simp only [colret, List.getLast?_map, Option.map_map]
    congr 1
    funext x
    simp [relComp]
  · intro m Xn
    rw [(C46_predict_affine f' Xn).2, (C46_predict_affine f Xn).2]
    simp only [Except.map, Except.ok.injEq]
    funext i
    rw [hlin, hb0]
    simp only [newUnit]
    ring

/-- **C106.** The other way round: a fit in the new units succeeds only if the fit in the old units does. -/
theorem C106_snipls_units_iff {pr : SnParams} (hc : pr.centre = .mean ∨ pr.centre = .median) (hs : pr.scale = .std ∨ pr.scale = .mad)
    (hn : 0 < n) (X : Fin n → Fin p → ℝ) (y : Fin n → ℝ) (a b : Fin p → ℝ) (ha : ∀ j, a j ≠ 0) (c d : ℝ) (hcn : c ≠ 0) :
    (∃ f, snFit pr (newUnits a b X) (newUnit c d y) = .ok f) ↔ ∃ f, snFit pr X y = .ok f := by
  constructor
  · rintro ⟨f, hf⟩
    obtain ⟨f', hf', _⟩ := C106_snipls_units hc hs hn hf (fun j => 1 / a j) (fun j => -b j / a j)
      (fun j => one_div_ne_zero (ha j)) (1 / c) (-d / c) (one_div_ne_zero hcn)
    refine ⟨f', ?_⟩
    rw [← hf']
    congr 1
    · funext i j
      have := ha j
      simp only [newUnits]
      field_simp
      ring
    · funext i
      simp only [newUnit]
      field_simp
      ring
  · rintro ⟨f, hf⟩
    obtain ⟨f', hf', _⟩ := C106_snipls_units hc hs hn hf a b ha c d hcn
    exact ⟨f', hf'⟩

/-! ### C107: order of cases and variables -/

/-- Reordering cases and variables, for estimators of location and scale whose values for the given data follow the order. -/
theorem snFit_reorder {pr : SnParams} {X : Fin n → Fin p → ℝ} {y : Fin n → ℝ} {f : SnFit n p} (h : snFit pr X y = .ok f)
    (σ : Equiv.Perm (Fin n)) (τ : Equiv.Perm (Fin p))
    (hcX : ∀ j, pr.centre.run (reorder σ τ X) j = pr.centre.run X (τ j)) (hsX : ∀ j, pr.scale.run (reorder σ τ X) j = pr.scale.run X (τ j))
    (hcy : pr.centre.run (asCol fun i => y (σ i)) 0 = pr.centre.run (asCol y) 0)
    (hsy : pr.scale.run (asCol fun i => y (σ i)) 0 = pr.scale.run (asCol y) 0) :
    ∃ f', snFit pr (reorder σ τ X) (fun i => y (σ i)) = .ok f' ∧
      (∀ j, f'.coef j = f.coef (τ j)) ∧ f'.intercept = f.intercept ∧
      (∀ i, f'.fitted i = f.fitted (σ i)) ∧ (∀ i, f'.residuals i = f.residuals (σ i)) ∧
      (f'.comps.map fun c => c.t) = (f.comps.map fun c => fun i => c.t (σ i)) ∧
      (∀ j, (∃ s, colret f'.comps = some s ∧ j ∈ s) ↔ ∃ s, colret f.comps = some s ∧ τ j ∈ s) ∧
      ∀ {m : ℕ} (Xn : Fin m → Fin p → ℝ), f'.predict (reorder (Equiv.refl _) τ Xn) = f.predict Xn := by
  obtain ⟨hpar, e1, e2, e3, e4, hne, hl, hcf, hco, hint, hfit, hres⟩ := snFit_inv h
  have hX : stdMat (reorder σ τ X) (pr.centre.run (reorder σ τ X)) (pr.scale.run (reorder σ τ X)) =
      fun i j => (fun _ => (1 : ℝ)) j * stdMat X f.xLoc f.xSca (σ i) (τ j) := by
    funext i j
    simp only [stdMat, hcX, hsX, ← e1, ← e2, one_mul, reorder]
  have hyloc : pr.centre.run (asCol fun i => y (σ i)) 0 = f.yLoc := by
    rw [hcy, ← e3]
  have hysca : pr.scale.run (asCol fun i => y (σ i)) 0 = f.ySca := by
    rw [hsy, ← e4]
  have hky : stdVec (fun i => y (σ i)) f.yLoc f.ySca = fun i => 1 * stdVec y f.yLoc f.ySca (σ i) := by
    funext i; simp [stdVec]
  have hD : ∀ j : Fin p, (fun _ => (1 : ℝ)) j = 1 ∨ (fun _ : Fin p => (1 : ℝ)) j = -1 := fun _ => .inl rfl
  have hloop := snLoop_rel σ τ (fun _ => 1) 1 hD one_ne_zero pr.eta pr.nComponents
    (stdMat X f.xLoc f.xSca) (stdVec y f.yLoc f.ySca) ∅
  rw [hl, Finset.map_empty] at hloop
  obtain ⟨R', hR'⟩ := snCoef_rel σ τ (fun _ => 1) 1 hD one_ne_zero hl hcf
  obtain ⟨f', hf', hcomps, hB'⟩ := snFit_intro pr (reorder σ τ X) (fun i => y (σ i)) hpar
    (fun j => by rw [hsX, ← e2]; exact hne _) _
    (by rw [hX, hyloc, hysca, hky]; exact hloop) R' _ (by rw [hX, hyloc, hysca, hky]; exact hR')
  obtain ⟨_, g1, g2, g3, g4, _, _, _, gco, gint, gfit, gres⟩ := snFit_inv hf'
  have hcoef : ∀ j, f'.coef j = f.coef (τ j) := by
    intro j
    rw [gco, hB', g4, hysca, g2, hsX, ← e2, hco]
    simp only [one_mul]
  have hlin : ∀ {m : ℕ} (ρ : Equiv.Perm (Fin m)) (Xn : Fin m → Fin p → ℝ) (i : Fin m), lin (reorder ρ τ Xn) f'.coef i = lin Xn f.coef (ρ i) := by
    intro m ρ Xn i
    simp only [lin, reorder, hcoef]
    exact Equiv.sum_comp τ (fun j => Xn (ρ i) j * f.coef j)
  have hb0 : f'.intercept = f.intercept := by
    rw [gint, hint, ← snIntercept_perm pr.centre σ (fun i => y i - lin X f.coef i)]
    simp only [hlin]
  have hfit' : ∀ i, f'.fitted i = f.fitted (σ i) := fun i => by rw [gfit, hfit, hlin, hb0]
  refine ⟨f', hf', hcoef, hb0, hfit', fun i => by rw [gres, hres, hfit'], ?_, ?_, ?_⟩
  · rw [hcomps, List.map_map]
    congr 1
    funext x
    simp [relComp, sg]
  · intro j
    rw [hcomps]
    simp only [colret, List.getLast?_map, Option.map_map]
    cases f.comps.getLast? <;> simp [relComp, Finset.mem_map_equiv]
  · intro m Xn
    rw [(C46_predict_affine f' (reorder (Equiv.refl (Fin m)) τ Xn)).2, (C46_predict_affine f Xn).2]
    simp only [Except.ok.injEq]
    funext i
    rw [hlin, hb0]
    rfl

/-- **C107.** Reordering the cases and the variables reorders the coefficients, scores, fitted values and residuals and changes nothing else: the same
intercept, and the same prediction for every new case with its variables in the new order. -/
theorem C107_snipls_order {pr : SnParams} (hc : pr.centre = .mean ∨ pr.centre = .median ∨ pr.centre = .noneOpt)
    (hs : pr.scale = .std ∨ pr.scale = .mad ∨ pr.scale = .noneOpt)
    {X : Fin n → Fin p → ℝ} {y : Fin n → ℝ} {f : SnFit n p} (h : snFit pr X y = .ok f)
    (σ : Equiv.Perm (Fin n)) (τ : Equiv.Perm (Fin p)) :
    ∃ f', snFit pr (reorder σ τ X) (fun i => y (σ i)) = .ok f' ∧
      (∀ j, f'.coef j = f.coef (τ j)) ∧ f'.intercept = f.intercept ∧
      (∀ i, f'.fitted i = f.fitted (σ i)) ∧ (∀ i, f'.residuals i = f.residuals (σ i)) ∧
      (f'.comps.map fun c => c.t) = (f.comps.map fun c => fun i => c.t (σ i)) ∧
      (∀ j, (∃ s, colret f'.comps = some s ∧ j ∈ s) ↔ ∃ s, colret f.comps = some s ∧ τ j ∈ s) ∧
      ∀ {m : ℕ} (Xn : Fin m → Fin p → ℝ), f'.predict (reorder (Equiv.refl _) τ Xn) = f.predict Xn := by
  exact snFit_reorder h σ τ (Centre.run_reorder hc σ τ X) (ScaleOpt.run_reorder hs σ τ X)
    (Centre.run_reorder hc σ (Equiv.refl (Fin 1)) (asCol y) 0) (ScaleOpt.run_reorder hs σ (Equiv.refl (Fin 1)) (asCol y) 0)

/-- **C107**, for every estimator of location and every estimator of scale that themselves follow the order of cases and variables (as those offered by
name do, and any function the user passes that treats cases and variables alike). -/
theorem C107_snipls_order_any {pr : SnParams} {X : Fin n → Fin p → ℝ} {y : Fin n → ℝ} {f : SnFit n p} (h : snFit pr X y = .ok f)
    (σ : Equiv.Perm (Fin n)) (τ : Equiv.Perm (Fin p)) (hc : pr.centre.Follows σ) (hs : pr.scale.Follows σ) :
    ∃ f', snFit pr (reorder σ τ X) (fun i => y (σ i)) = .ok f' ∧
      (∀ j, f'.coef j = f.coef (τ j)) ∧ f'.intercept = f.intercept ∧
      (∀ i, f'.fitted i = f.fitted (σ i)) ∧ (∀ i, f'.residuals i = f.residuals (σ i)) ∧
      (f'.comps.map fun c => c.t) = (f.comps.map fun c => fun i => c.t (σ i)) ∧
      (∀ j, (∃ s, colret f'.comps = some s ∧ j ∈ s) ↔ ∃ s, colret f.comps = some s ∧ τ j ∈ s) ∧
      ∀ {m : ℕ} (Xn : Fin m → Fin p → ℝ), f'.predict (reorder (Equiv.refl _) τ Xn) = f.predict Xn := by
  have hx : ∀ {k : ℕ} (Z : Fin n → Fin k → ℝ) (ρ : Equiv.Perm (Fin k)), (fun i j => (1 : ℝ) * Z (σ i) (ρ j)) = reorder σ ρ Z := by
    intro k Z ρ; funext i j; simp [reorder]
  have c1 : ∀ {k : ℕ} (Z : Fin n → Fin k → ℝ) (ρ : Equiv.Perm (Fin k)) j, pr.centre.run (reorder σ ρ Z) j = pr.centre.run Z (ρ j) := by
    intro k Z ρ j
    have := hc ρ (fun _ => 1) (fun _ => .inl rfl) Z j
    rwa [hx, one_mul] at this
  have s1 : ∀ {k : ℕ} (Z : Fin n → Fin k → ℝ) (ρ : Equiv.Perm (Fin k)) j, pr.scale.run (reorder σ ρ Z) j = pr.scale.run Z (ρ j) := by
    intro k Z ρ j
    have := hs ρ (fun _ => 1) (fun _ => .inl rfl) Z j
    rwa [hx] at this
  exact snFit_reorder h σ τ (c1 X τ) (s1 X τ) (c1 (asCol y) (Equiv.refl _) 0) (s1 (asCol y) (Equiv.refl _) 0)

/-- Two cases, two predictors, mean and standard deviation: the hypotheses of C106 and C107 are met, with temperatures changed from Celsius to
Fahrenheit, lengths from metres to millimetres, and the sign of the response changed. -/
example : ∃ f f', snFit ⟨0, 1, .mean, .std⟩ (![![0, 1], ![2, 0]] : Fin 2 → Fin 2 → ℝ) ![0, 2] = .ok f ∧
    snFit ⟨0, 1, .mean, .std⟩ (newUnits ![9 / 5, 1000] ![32, 0] (![![0, 1], ![2, 0]] : Fin 2 → Fin 2 → ℝ)) (newUnit (-1) 5 ![0, 2]) = .ok f' ∧
    f'.coef 1 = -1 / 1000 * f.coef 1 := by
  obtain ⟨f, hf⟩ := C44_one_component_total ⟨0, 1, .mean, .std⟩ (![![0, 1], ![2, 0]] : Fin 2 → Fin 2 → ℝ) ![0, 2] (le_refl 0) one_pos rfl (by
    intro j
    have : 0 < var fun i => (![![0, 1], ![2, 0]] : Fin 2 → Fin 2 → ℝ) i j := by
      fin_cases j <;> simp [var, varL, List.ofFn_succ, meanL] <;> norm_num
    simp only [ScaleOpt.run]
    exact (Real.sqrt_pos.2 this).ne')
  obtain ⟨f', hf', _, hc, _⟩ := C106_snipls_units (.inl rfl) (.inl rfl) (by norm_num) hf ![9 / 5, 1000] ![32, 0]
    (by intro j; fin_cases j <;> norm_num) (-1) 5 (by norm_num)
  exact ⟨f, f', hf, hf', by rw [hc]; norm_num⟩

end Direpack
