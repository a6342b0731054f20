import Verif.EquivRobust
import Verif.Props.RM
import Verif.Props.RMExample

/-!
Properties C108 and C109: the fitted RM model does not depend on the units of the variables nor on the order of cases and variables.
-/

namespace Direpack

open scoped BigOperators
open Spec

variable {n p : ℕ}

/-! ### Standardised data -/

theorem stdMat_rel {ce : Centre} {sc : ScaleOpt}
    (σ : Equiv.Perm (Fin n)) (τ : Equiv.Perm (Fin p)) (a b : Fin p → ℝ) (ha : ∀ j, a j ≠ 0) (X : Fin n → Fin p → ℝ)
    (hne : ∀ j, sc.run X j ≠ 0) (hcX : ∀ j, ce.run (newUnits a b (reorder σ τ X)) j = a j * ce.run X (τ j) + b j)
    (hsX : ∀ j, sc.run (newUnits a b (reorder σ τ X)) j = |a j| * sc.run X (τ j)) :
    stdMat (newUnits a b (reorder σ τ X)) (ce.run (newUnits a b (reorder σ τ X))) (sc.run (newUnits a b (reorder σ τ X))) =
      fun i j => sg (a j) * stdMat X (ce.run X) (sc.run X) (σ i) (τ j) := by
  funext i j
  have hsj : |a j| * sc.run X (τ j) ≠ 0 := mul_ne_zero (abs_ne_zero.2 (ha j)) (hne _)
  change std1 (a j * X (σ i) (τ j) + b j) (ce.run (newUnits a b (reorder σ τ X)) j) (sc.run (newUnits a b (reorder σ τ X)) j) =
    sg (a j) * std1 (X (σ i) (τ j)) (ce.run X (τ j)) (sc.run X (τ j))
  rw [hcX, hsX, std1, std1,
    if_neg hsj, if_neg (hne _), sg, div_mul_div_comm]
  congr 1
  ring

theorem yLoc_rel {ce : Centre} (hc : ce = .mean ∨ ce = .median) (hn : 0 < n) (σ : Equiv.Perm (Fin n)) (c d : ℝ) (y : Fin n → ℝ) :
    ce.run (asCol (newUnit c d fun i => y (σ i))) 0 = c * ce.run (asCol y) 0 + d := by
  have h1 := Centre.run_units hc hn (fun _ : Fin 1 => c) (fun _ => d) (asCol fun i => y (σ i)) 0
  have h2 := Centre.run_reorder (c := ce) (by tauto) σ (Equiv.refl (Fin 1)) (asCol y) 0
  change ce.run (asCol (newUnit c d fun i => y (σ i))) 0 = c * ce.run (asCol fun i => y (σ i)) 0 + d at h1
  change ce.run (asCol fun i => y (σ i)) 0 = ce.run (asCol y) 0 at h2
  rw [h1, h2]

theorem ySca_rel {sc : ScaleOpt} (hs : sc = .std ∨ sc = .mad) (hn : 0 < n) (σ : Equiv.Perm (Fin n)) (c d : ℝ) (y : Fin n → ℝ) :
    sc.run (asCol (newUnit c d fun i => y (σ i))) 0 = |c| * sc.run (asCol y) 0 := by
  have h1 := ScaleOpt.run_units hs hn (fun _ : Fin 1 => c) (fun _ => d) (asCol fun i => y (σ i)) 0
  have h2 := ScaleOpt.run_reorder (s := sc) (by tauto) σ (Equiv.refl (Fin 1)) (asCol y) 0
  change sc.run (asCol (newUnit c d fun i => y (σ i))) 0 = |c| * sc.run (asCol fun i => y (σ i)) 0 at h1
  change sc.run (asCol fun i => y (σ i)) 0 = sc.run (asCol y) 0 at h2
  rw [h1, h2]

theorem stdVec_rel (σ : Equiv.Perm (Fin n)) (c d : ℝ) (hcn : c ≠ 0) (y : Fin n → ℝ) (m s : ℝ) (hy : s ≠ 0 ∨ |c| = 1) :
    stdVec (newUnit c d fun i => y (σ i)) (c * m + d) (|c| * s) = fun i => sg c * stdVec y m s (σ i) := by
  funext i
  by_cases hz : s = 0
  · have h1 := hy.resolve_left (fun h => h hz)
    simp only [stdVec, std1, hz, mul_zero, if_true, newUnit, sg, h1, div_one]
    ring
  · have hsj : |c| * s ≠ 0 := mul_ne_zero (abs_ne_zero.2 hcn) hz
    simp only [stdVec, std1, if_neg hz, if_neg hsj, newUnit, sg]
    rw [div_mul_div_comm]
    congr 1
    ring

theorem startY_rel {ce : Centre} {sc : ScaleOpt} (hn : 0 < n) (σ : Equiv.Perm (Fin n)) (c d : ℝ) (hcn : c ≠ 0)
    (hpos : (ce = .median ∧ sc = .mad) ∨ 0 < c) {ys y dy : Fin n → ℝ} (h : startY ce sc ys y = .ok dy) :
    startY ce sc (fun i => sg c * ys (σ i)) (newUnit c d fun i => y (σ i)) = .ok fun i => dy (σ i) := by
  have hsa : |sg c| = 1 := by rcases sg_cases hcn with e | e <;> rw [e] <;> norm_num
  unfold startY at h ⊢
  by_cases hmm : isMedianMad ce sc = true
  · rw [if_pos hmm] at h ⊢
    simp only [Except.ok.injEq] at h ⊢
    rw [← h]
    funext i
    rw [abs_mul, hsa, one_mul]
  · have hc0 : 0 < c := by
      rcases hpos with ⟨h1, h2⟩ | h
      · exact absurd (by rw [h1, h2]; rfl) hmm
      · exact h
    rw [if_neg hmm] at h ⊢
    simp only at h ⊢
    have hm : med (newUnit c d fun i => y (σ i)) = c * med y + d := by
      rw [← C05_median_perm σ y]
      exact med_affine hn c d fun i => y (σ i)
    have hd : ∀ i, |newUnit c d (fun i => y (σ i)) i - (c * med y + d)| = c * |y (σ i) - med y| + 0 := by
      intro i
      have : newUnit c d (fun i => y (σ i)) i - (c * med y + d) = c * (y (σ i) - med y) := by simp only [newUnit]; ring
      rw [this, abs_mul, abs_of_pos hc0, add_zero]
    have hmd : (med fun i => c * |y (σ i) - med y| + 0) = c * med fun i => |y i - med y| := by
      rw [med_affine hn c 0 fun i => |y (σ i) - med y|, C05_median_perm σ (fun i => |y i - med y|), add_zero]
    simp only [hm, hd, hmd]
    split at h
    · cases h
    · rename_i hne
      rw [if_neg (by
        intro e
        apply hne
        have : c * (14826 / 10000 * med fun i => |y i - med y|) = 0 := by rw [← e]; ring
        exact (mul_eq_zero.1 this).resolve_left hcn)]
      simp only [Except.ok.injEq] at h ⊢
      rw [← h]
      funext i
      simp only [newUnit]
      rw [show c * y (σ i) + d - (c * med y + d) = c * (y (σ i) - med y) by ring,
        show 14826 / 10000 * (c * med fun i => |y i - med y|) = c * (14826 / 10000 * med fun i => |y i - med y|) by ring,
        mul_div_mul_left _ _ hcn]

theorem rmIntercept_affine (ce : Centre) (hn : 0 < n) (a b : ℝ) (r : Fin n → ℝ) :
    rmIntercept ce (fun i => a * r i + b) = a * rmIntercept ce r + b := by
  unfold rmIntercept
  split
  · exact mean_affine hn a b r
  · exact med_affine hn a b r

theorem rmIntercept_perm (ce : Centre) (σ : Equiv.Perm (Fin n)) (r : Fin n → ℝ) :
    rmIntercept ce (fun i => r (σ i)) = rmIntercept ce r := by
  unfold rmIntercept
  split
  · exact mean_perm' σ r
  · exact C05_median_perm σ r

/-- The regression steps of two related fits. -/
theorem rmStep_rel {ext : RmExt} {fn : WFun} {cy : ℝ × ℝ × ℝ} (σ : Equiv.Perm (Fin n)) (τ : Equiv.Perm (Fin p)) (D : Fin p → ℝ)
    (hD : ∀ j, D j = 1 ∨ D j = -1) {e : ℝ} (he : e = 1 ∨ e = -1)
    (hls : ∀ (A : Fin n → Fin p → ℝ) (z : Fin n → ℝ), ext.lstsq (fun i j => D j * A (σ i) (τ j)) (fun i => e * z (σ i)) =
      fun j => e * D j * ext.lstsq A z (τ j))
    (Xs : Fin n → Fin p → ℝ) (ys wx we b : _) (s : ℝ) (wy wt : Fin n → ℝ)
    (h : rmStep ext fn cy Xs ys wx we = .ok (b, s, wy, wt)) :
    rmStep ext fn cy (fun i j => D j * Xs (σ i) (τ j)) (fun i => e * ys (σ i)) (fun i => wx (σ i)) (fun i => we (σ i)) =
      .ok ((fun j => e * D j * b (τ j)), s, (fun i => wy (σ i)), fun i => wt (σ i)) := by
  have hDD : ∀ j, D j * D j = 1 := fun j => by rcases hD j with h | h <;> rw [h] <;> norm_num
  have hee : e * e = 1 := by rcases he with rfl | rfl <;> norm_num
  have hb : ext.lstsq (weightRows (fun i j => D j * Xs (σ i) (τ j)) fun i => we (σ i)) (fun i => e * ys (σ i) * Real.sqrt (we (σ i))) =
      fun j => e * D j * ext.lstsq (weightRows Xs we) (fun i => ys i * Real.sqrt (we i)) (τ j) := by
    rw [← hls (weightRows Xs we) (fun i => ys i * Real.sqrt (we i))]
    congr 1
    · funext i j; simp only [weightRows]; ring
    · funext i; ring
  unfold rmStep at h ⊢
  simp only at h ⊢
  rw [hb]
  set B := ext.lstsq (weightRows Xs we) (fun i => ys i * Real.sqrt (we i)) with hB
  have hr : (fun i => e * ys (σ i) - ∑ j, D j * Xs (σ i) (τ j) * (e * D j * B (τ j))) =
      fun i => e * (fun i => ys i - ∑ j, Xs i j * B j) (σ i) := by
    funext i
    have : ∑ j, D j * Xs (σ i) (τ j) * (e * D j * B (τ j)) = e * ∑ j, Xs (σ i) j * B j := by
      rw [← Equiv.sum_comp τ (fun j => Xs (σ i) j * B j), Finset.mul_sum]
      refine Finset.sum_congr rfl fun j _ => ?_
      calc _ = (D j * D j) * (e * (Xs (σ i) (τ j) * B (τ j))) := by ring
        _ = _ := by rw [hDD, one_mul]
    rw [this]
    ring
  rw [hr]
  cases hsr : scaleRes (fun i => ys i - ∑ j, Xs i j * B j) with
  | error er => rw [hsr] at h; cases h
  | ok r =>
    rw [hsr] at h
    rw [scaleRes_rel σ he hsr]
    simp only [Except.ok.injEq, Prod.mk.injEq] at h ⊢
    obtain ⟨h1, h2, h3, h4⟩ := h
    refine ⟨by rw [← h1], ?_, by rw [WFun.run_perm, ← h3], by rw [← h4]⟩
    rw [← h2, ← Equiv.sum_comp τ (fun j => B j ^ 2)]
    refine Finset.sum_congr rfl fun j _ => ?_
    calc _ = (e * e) * (D j * D j) * B (τ j) ^ 2 := by ring
      _ = _ := by rw [hee, hDD]; ring

theorem rowDistances_ncases {X : Fin n → Fin p → ℝ} {d : Fin n → ℝ} (h : rowDistances X = .ok d) : 0 < n := by
  rcases Nat.eq_zero_or_pos n with hn | hn
  · subst hn; simp [rowDistances, med, medL, sortL] at h
  · exact hn

theorem ScaleOpt.none_run {s : ScaleOpt} {X : Fin n → Fin p → ℝ} {Y : Fin n → Fin 1 → ℝ} (h : s.isNone = true) :
    (∀ j, s.run X j = 1) ∧ s.run Y 0 = 1 := by
  cases s <;> simp [ScaleOpt.isNone] at h
  exact ⟨fun _ => rfl, rfl⟩

/-- Whatever the options, the intercept of an RM fit is the mean or median of `y - X coef`. -/
theorem rmIntercepts_eq {c : Centre} {s : ScaleOpt} {X Xs : Fin n → Fin p → ℝ} {y ys : Fin n → ℝ} {xSca coef b : Fin p → ℝ} {ySca i0 i1 : ℝ}
    (h1 : s.isNone = true → (∀ j, xSca j = 1) ∧ ySca = 1) (hco : ∀ j, coef j = ySca / xSca j * b j)
    (h : rmIntercepts c s X y Xs ys b (rmIntercept c fun i => y i - lin X coef i) = .ok (i0, i1)) :
    i0 = rmIntercept c fun i => y i - lin X coef i := by
  cases hnn : s.isNone with
  | false =>
    simp only [rmIntercepts, hnn, Bool.false_eq_true, if_false, Except.ok.injEq, Prod.mk.injEq] at h
    exact h.1.symm
  | true =>
    obtain ⟨h2, h3⟩ := h1 hnn
    have hb : b = coef := by funext j; rw [hco, h2, h3]; simp
    cases hmm : c.isMean with
    | false => simp [rmIntercepts, hnn, hmm] at h
    | true =>
      simp only [rmIntercepts, hnn, hmm, if_true, Except.ok.injEq, Prod.mk.injEq] at h
      rw [← h.1, rmIntercept, hmm, if_pos rfl, hb]
      rfl

/-- Relation of two RM fits under a change of units and of order, for estimators of location and scale whose values for the given data follow that change. -/
theorem rm_rel_any {ext : RmExt} {pr : RmParams}
    {X : Fin n → Fin p → ℝ} {y : Fin n → ℝ} {f : RmFit n p} (h : rmFit ext pr X y = .ok f)
    (σ : Equiv.Perm (Fin n)) (τ : Equiv.Perm (Fin p)) (a b : Fin p → ℝ) (ha : ∀ j, a j ≠ 0) (c d : ℝ) (hcn : c ≠ 0)
    (hcX : ∀ j, pr.centre.run (newUnits a b (reorder σ τ X)) j = a j * pr.centre.run X (τ j) + b j)
    (hsX : ∀ j, pr.scale.run (newUnits a b (reorder σ τ X)) j = |a j| * pr.scale.run X (τ j))
    (hyl : pr.centre.run (asCol (newUnit c d fun i => y (σ i))) 0 = c * pr.centre.run (asCol y) 0 + d)
    (hysc : pr.scale.run (asCol (newUnit c d fun i => y (σ i))) 0 = |c| * pr.scale.run (asCol y) 0)
    (hpos : (pr.centre = .median ∧ pr.scale = .mad) ∨ 0 < c) (hys : f.ySca ≠ 0 ∨ |c| = 1)
    (hls : ∀ (A : Fin n → Fin p → ℝ) (z : Fin n → ℝ), ext.lstsq (fun i j => sg (a j) * A (σ i) (τ j)) (fun i => sg c * z (σ i)) =
      fun j => sg c * sg (a j) * ext.lstsq A z (τ j)) :
    ∃ f', rmFit ext pr (newUnits a b (reorder σ τ X)) (newUnit c d fun i => y (σ i)) = .ok f' ∧
      (∀ j, f'.coef j = c / a j * f.coef (τ j)) ∧
      (∀ i, f'.fitted i = c * f.fitted (σ i) + d) ∧ (∀ i, f'.residuals i = c * f.residuals (σ i)) ∧
      (∀ i, f'.caseweights i = f.caseweights (σ i)) ∧ (∀ i, f'.xCaseweights i = f.xCaseweights (σ i)) ∧
      (∀ i, f'.yCaseweights i = f.yCaseweights (σ i)) ∧
      ∀ {m : ℕ} (Xn : Fin m → Fin p → ℝ), f'.predict (newUnits a b (reorder (Equiv.refl _) τ Xn)) = (f.predict Xn).map (newUnit c d) := by
  obtain ⟨hpr, e1, e2, e3, e4, hne, dx, dy, o, hdx, hdy, hl, hcs, hco, hfit, hint, hw, hwx, hwy, htc, _, hres⟩ := rmFit_inv h
  have hn : 0 < n := rowDistances_ncases hdx
  have hD : ∀ j, sg (a j) = 1 ∨ sg (a j) = -1 := fun j => sg_cases (ha j)
  have hDa : ∀ j, |sg (a j)| = 1 := fun j => by rcases hD j with e | e <;> rw [e] <;> norm_num
  have he := sg_cases hcn
  have hX := stdMat_rel σ τ a b ha X (by rw [← e2]; exact hne) hcX hsX
  have hY := stdVec_rel σ c d hcn y f.yLoc f.ySca hys
  rw [← e1, ← e2] at hX
  rw [← e3] at hyl
  rw [← e4] at hysc
  rw [← e2] at hsX
  have hsXne : ∀ j, pr.scale.run (newUnits a b (reorder σ τ X)) j ≠ 0 := fun j => by
    rw [hsX]; exact mul_ne_zero (abs_ne_zero.2 (ha j)) (hne _)
  have hdx' := rowDistances_rel (X' := fun i j => sg (a j) * stdMat X f.xLoc f.xSca (σ i) (τ j)) σ τ
    (fun i j => by rw [abs_mul, hDa, one_mul]) hdx
  have hdy' := startY_rel hn σ c d hcn hpos hdy
  obtain ⟨res', hl', hrel⟩ := rwLoop_rel (fun b b' => b' = fun j => sg c * sg (a j) * b (τ j)) σ
    (fun we b s wy wt _ hst => ⟨_, rfl, rmStep_rel σ τ (fun j => sg (a j)) hD he hls _ _ _ _ _ _ _ _ hst⟩) pr.tol pr.maxit _ _ _ _ _ none none
    _ (fun i => clip_ge _ i) trivial hl
  cases res' with
  | none => exact absurd hrel (by simp [RwRel])
  | some o' =>
  obtain ⟨hb', hwe', hwye', hwte', hw0', _⟩ := hrel
  have hcheck : checkProbs pr.fn pr.probp1 pr.probp2 pr.probp3 = .ok () := by
    unfold checkProbs
    obtain ⟨q1, q2, q3⟩ := hpr
    rw [if_neg (by push Not; exact ⟨q2, q1⟩), if_neg (by rintro ⟨q4, q5⟩; exact q5 (q3 q4))]
  have hex : ∃ f', rmFit ext pr (newUnits a b (reorder σ τ X)) (newUnit c d fun i => y (σ i)) = .ok f' := by
    have hyy : (fun i => scaleMat (asCol (newUnit c d fun i => y (σ i))) (pr.centre.run (asCol (newUnit c d fun i => y (σ i))))
        (pr.scale.run (asCol (newUnit c d fun i => y (σ i)))) i 0) = fun i => sg c * stdVec y f.yLoc f.ySca (σ i) := by
      rw [scaleMat_eq]
      change stdVec (newUnit c d fun i => y (σ i)) (pr.centre.run (asCol (newUnit c d fun i => y (σ i))) 0)
        (pr.scale.run (asCol (newUnit c d fun i => y (σ i))) 0) = _
      rw [hyl, hysc, hY]
    have hxx : scaleMat (newUnits a b (reorder σ τ X)) (pr.centre.run (newUnits a b (reorder σ τ X)))
        (pr.scale.run (newUnits a b (reorder σ τ X))) = fun i j => sg (a j) * stdMat X f.xLoc f.xSca (σ i) (τ j) := by
      rw [scaleMat_eq, hX]
    unfold rmFit
    rw [hcheck]
    simp only [hyy, hxx, hdx', hdy', WFun.run_perm]
    have hcw : (clipW fun i => pr.fn.run dx (cutX ext pr.specific p pr.probp1 pr.probp2 pr.probp3) (σ i) *
        pr.fn.run dy (cutY ext pr.probp1 pr.probp2 pr.probp3) (σ i)) =
        fun i => (clipW fun i => pr.fn.run dx (cutX ext pr.specific p pr.probp1 pr.probp2 pr.probp3) i *
        pr.fn.run dy (cutY ext pr.probp1 pr.probp2 pr.probp3) i) (σ i) := rfl
    rw [hcw, hl']
    simp only [rmFinish]
    rw [if_neg (by push Not; exact hsXne)]
    cases hnn : pr.scale.isNone with
    | false => simp only [rmIntercepts, hnn]; exact ⟨_, rfl⟩
    | true =>
      cases hmm : pr.centre.isMean with
      | false => simp [rmIntercepts, hnn, hmm] at hint
      | true => simp only [rmIntercepts, hnn, hmm]; exact ⟨_, rfl⟩
  obtain ⟨f', hf'⟩ := hex
  obtain ⟨_, g1, g2, g3, g4, _, dx2, dy2, o2, gdx, gdy, gl, _, gco, gfit, gint, gw, gwx, gwy, gtc, _, gres⟩ := rmFit_inv hf'
  have hX2 : stdMat (newUnits a b (reorder σ τ X)) f'.xLoc f'.xSca = fun i j => sg (a j) * stdMat X f.xLoc f.xSca (σ i) (τ j) := by
    rw [g1, g2, hX]
  have hY2 : stdVec (newUnit c d fun i => y (σ i)) f'.yLoc f'.ySca = fun i => sg c * stdVec y f.yLoc f.ySca (σ i) := by
    rw [g3, g4, hyl, hysc, hY]
  rw [hX2, hdx', Except.ok.injEq] at gdx
  rw [hY2, hdy', Except.ok.injEq] at gdy
  subst gdx gdy
  rw [hX2, hY2] at gl
  simp only [WFun.run_perm] at gl
  have hoo : o2 = o' := by
    have := gl.symm.trans hl'
    simpa using this
  subst hoo
  have hcoef : ∀ j, f'.coef j = c / a j * f.coef (τ j) := by
    intro j
    rw [gco, g4, hysc, g2, hsX, hb', hco]
    have h1 : |a j| ≠ 0 := abs_ne_zero.2 (ha j)
    have h2 := hne (τ j)
    have h3 : sg (a j) / |a j| = 1 / a j := by
      rw [sg, div_div, abs_mul_abs_self, div_mul_eq_div_div, div_self (ha j)]
    have h4 : |c| * sg c = c := by rw [mul_comm]; exact sg_mul_abs hcn
    calc _ = (|c| * sg c) * (sg (a j) / |a j|) * f.ySca / f.xSca (τ j) * o.b (τ j) := by field_simp
      _ = _ := by rw [h4, h3]; field_simp
  have hlin : ∀ {m : ℕ} (ρ : Equiv.Perm (Fin m)) (Xn : Fin m → Fin p → ℝ) (i : Fin m), lin (newUnits a b (reorder ρ τ Xn)) f'.coef i =
      c * lin Xn f.coef (ρ i) + ∑ j, b j * (c / a j * f.coef (τ j)) := by
    intro m ρ Xn i
    simp only [lin, newUnits, reorder, hcoef]
    rw [← Equiv.sum_comp τ (fun j => Xn (ρ i) j * f.coef j), Finset.mul_sum, ← Finset.sum_add_distrib]
    refine Finset.sum_congr rfl fun j _ => ?_
    have := ha j
    field_simp
  set B := ∑ j, b j * (c / a j * f.coef (τ j)) with hBdef
  have hi1 : rmIntercept pr.centre (fun i => newUnit c d (fun i => y (σ i)) i - lin (newUnits a b (reorder σ τ X)) f'.coef i) =
      c * rmIntercept pr.centre (fun i => y i - lin X f.coef i) + (d - B) := by
    rw [← rmIntercept_perm pr.centre σ (fun i => y i - lin X f.coef i), ← rmIntercept_affine pr.centre hn]
    congr 1
    funext i
    rw [hlin]
    simp only [newUnit]
    ring
  have hint1 : f.intercept = rmIntercept pr.centre (fun i => y i - lin X f.coef i) := rmIntercepts_eq (by rw [e2, e4]; exact ScaleOpt.none_run) hco hint
  have hint2 : f'.intercept = c * f.intercept + (d - B) := by
    rw [rmIntercepts_eq (by rw [g2, g4]; exact ScaleOpt.none_run) gco gint, hi1, hint1]
  have hfit' : ∀ i, f'.fitted i = c * f.fitted (σ i) + d := by
    intro i
    rw [gfit, hfit, hi1, hlin]
    ring
  have hz : ∀ (w : Fin n → ℝ) (i : Fin n), zeroOut (fun i => w (σ i)) o2.w0 i = zeroOut w o.w0 (σ i) := by
    intro w i
    simp only [zeroOut, hw0']
  refine ⟨f', hf', hcoef, hfit', ?_, ?_, ?_, ?_, ?_⟩
  · intro i
    rw [gres, hres, hfit']
    simp only [newUnit]
    ring
  · intro i; rw [gw, hw, hwe', hz]
  · intro i; rw [gwx, hwx]; simp only [WFun.run_perm]; exact hz _ i
  · intro i; rw [gwy, hwy, hwye', hz]
  · intro m Xn
    unfold RmFit.predict
    rw [gtc, htc]
    cases pr.copy with
    | false => rfl
    | true =>
      simp only [if_true, dif_pos]
      simp only [Except.map, Except.ok.injEq]
      funext i
      have := hlin (Equiv.refl (Fin m)) Xn i
      simp only [lin, Equiv.refl_apply] at this
      change (∑ j, newUnits a b (reorder (Equiv.refl _) τ Xn) i j * f'.coef j) + f'.intercept =
        newUnit c d (fun i => (∑ j, Xn i j * f.coef j) + f.intercept) i
      rw [this, hint2]
      simp only [newUnit]
      ring

/-- Relation of two RM fits under a change of units and of order. -/
theorem rm_rel {ext : RmExt} {pr : RmParams} (hc : pr.centre = .mean ∨ pr.centre = .median) (hs : pr.scale = .std ∨ pr.scale = .mad)
    {X : Fin n → Fin p → ℝ} {y : Fin n → ℝ} {f : RmFit n p} (h : rmFit ext pr X y = .ok f)
    (σ : Equiv.Perm (Fin n)) (τ : Equiv.Perm (Fin p)) (a b : Fin p → ℝ) (ha : ∀ j, a j ≠ 0) (c d : ℝ) (hcn : c ≠ 0)
    (hpos : (pr.centre = .median ∧ pr.scale = .mad) ∨ 0 < c) (hys : f.ySca ≠ 0 ∨ |c| = 1)
    (hls : ∀ (A : Fin n → Fin p → ℝ) (z : Fin n → ℝ), ext.lstsq (fun i j => sg (a j) * A (σ i) (τ j)) (fun i => sg c * z (σ i)) =
      fun j => sg c * sg (a j) * ext.lstsq A z (τ j)) :
    ∃ f', rmFit ext pr (newUnits a b (reorder σ τ X)) (newUnit c d fun i => y (σ i)) = .ok f' ∧
      (∀ j, f'.coef j = c / a j * f.coef (τ j)) ∧
      (∀ i, f'.fitted i = c * f.fitted (σ i) + d) ∧ (∀ i, f'.residuals i = c * f.residuals (σ i)) ∧
      (∀ i, f'.caseweights i = f.caseweights (σ i)) ∧ (∀ i, f'.xCaseweights i = f.xCaseweights (σ i)) ∧
      (∀ i, f'.yCaseweights i = f.yCaseweights (σ i)) ∧
      ∀ {m : ℕ} (Xn : Fin m → Fin p → ℝ), f'.predict (newUnits a b (reorder (Equiv.refl _) τ Xn)) = (f.predict Xn).map (newUnit c d) := by
  have hn : 0 < n := by
    obtain ⟨_, _, _, _, _, _, dx, _, _, hdx, _⟩ := rmFit_inv h
    exact rowDistances_ncases hdx
  exact rm_rel_any h σ τ a b ha c d hcn (fun j => by rw [Centre.run_units hc hn, Centre.run_reorder (by tauto)])
    (fun j => by rw [ScaleOpt.run_units hs hn, ScaleOpt.run_reorder (by tauto)]) (yLoc_rel hc hn σ c d y) (ySca_rel hs hn σ c d y) hpos hys hls

/-! ### The properties -/

/-- **C108.** Measuring the predictors and the response of an RM fit in other units converts the coefficients, leaves the case
weights alone, and converts fitted values, residuals and predictions.  Predictors may also be reversed. -/
theorem C108_rm_units {ext : RmExt} {pr : RmParams} (hc : pr.centre = .mean ∨ pr.centre = .median) (hs : pr.scale = .std ∨ pr.scale = .mad)
    (hls : ∀ (A : Fin n → Fin p → ℝ) (z : Fin n → ℝ), IsMinNormLS A z (ext.lstsq A z))
    {X : Fin n → Fin p → ℝ} {y : Fin n → ℝ} {f : RmFit n p} (h : rmFit ext pr X y = .ok f) (hy : f.ySca ≠ 0)
    (a b : Fin p → ℝ) (ha : ∀ j, a j ≠ 0) (c d : ℝ) (hc0 : 0 < c) :
    ∃ f', rmFit ext pr (newUnits a b X) (newUnit c d y) = .ok f' ∧
      (∀ j, f'.coef j = c / a j * f.coef j) ∧
      (∀ i, f'.fitted i = c * f.fitted i + d) ∧ (∀ i, f'.residuals i = c * f.residuals i) ∧
      f'.caseweights = f.caseweights ∧ f'.xCaseweights = f.xCaseweights ∧ f'.yCaseweights = f.yCaseweights ∧
      ∀ {m : ℕ} (Xn : Fin m → Fin p → ℝ), f'.predict (newUnits a b Xn) = (f.predict Xn).map (newUnit c d) := by
  obtain ⟨f', h1, h2, h3, h4, h5, h6, h7, h8⟩ := rm_rel hc hs h (Equiv.refl _) (Equiv.refl _) a b ha c d hc0.ne' (.inr hc0) (.inl hy)
    (fun A z => lstsq_rel hls (Equiv.refl _) (Equiv.refl _) (fun j => sg (a j)) (fun j => sg_cases (ha j)) (sg_cases hc0.ne') A z)
  exact ⟨f', h1, h2, h3, h4, funext h5, funext h6, funext h7, h8⟩

/-- **C108.** The same for any least squares solver, if no variable is reversed. -/
theorem C108_rm_units_any_solver {ext : RmExt} {pr : RmParams} (hc : pr.centre = .mean ∨ pr.centre = .median)
    (hs : pr.scale = .std ∨ pr.scale = .mad)
    {X : Fin n → Fin p → ℝ} {y : Fin n → ℝ} {f : RmFit n p} (h : rmFit ext pr X y = .ok f) (hy : f.ySca ≠ 0)
    (a b : Fin p → ℝ) (ha : ∀ j, 0 < a j) (c d : ℝ) (hc0 : 0 < c) :
    ∃ f', rmFit ext pr (newUnits a b X) (newUnit c d y) = .ok f' ∧
      (∀ j, f'.coef j = c / a j * f.coef j) ∧
      (∀ i, f'.fitted i = c * f.fitted i + d) ∧ (∀ i, f'.residuals i = c * f.residuals i) ∧
      f'.caseweights = f.caseweights ∧ f'.xCaseweights = f.xCaseweights ∧ f'.yCaseweights = f.yCaseweights ∧
      ∀ {m : ℕ} (Xn : Fin m → Fin p → ℝ), f'.predict (newUnits a b Xn) = (f.predict Xn).map (newUnit c d) := by
  have h1 : ∀ {t : ℝ}, 0 < t → sg t = 1 := fun ht => by rw [sg, abs_of_pos ht, div_self ht.ne']
  obtain ⟨f', h1, h2, h3, h4, h5, h6, h7, h8⟩ := rm_rel hc hs h (Equiv.refl _) (Equiv.refl _) a b (fun j => (ha j).ne') c d hc0.ne'
    (.inr hc0) (.inl hy) (fun A z => by simp only [h1 (ha _), h1 hc0, one_mul, Equiv.refl_apply])
  exact ⟨f', h1, h2, h3, h4, funext h5, funext h6, funext h7, h8⟩

/-- **C109.** An RM fit does not depend on the order of the cases nor on that of the predictors, for every estimator of location and every estimator of
scale that themselves follow the order of cases and variables. -/
theorem C109_rm_order_any {ext : RmExt} {pr : RmParams}
    (hls : ∀ (A : Fin n → Fin p → ℝ) (z : Fin n → ℝ), IsMinNormLS A z (ext.lstsq A z))
    {X : Fin n → Fin p → ℝ} {y : Fin n → ℝ} {f : RmFit n p} (h : rmFit ext pr X y = .ok f)
    (σ : Equiv.Perm (Fin n)) (τ : Equiv.Perm (Fin p)) (hc : pr.centre.Follows σ) (hs : pr.scale.Follows σ) :
    ∃ f', rmFit ext pr (reorder σ τ X) (fun i => y (σ i)) = .ok f' ∧
      (∀ j, f'.coef j = f.coef (τ j)) ∧
      (∀ i, f'.fitted i = f.fitted (σ i)) ∧ (∀ i, f'.residuals i = f.residuals (σ i)) ∧
      (∀ i, f'.caseweights i = f.caseweights (σ i)) ∧ (∀ i, f'.xCaseweights i = f.xCaseweights (σ i)) ∧
      (∀ i, f'.yCaseweights i = f.yCaseweights (σ i)) ∧
      ∀ {m : ℕ} (Xn : Fin m → Fin p → ℝ), f'.predict (reorder (Equiv.refl _) τ Xn) = f.predict Xn := by
  have hu : ∀ {m : ℕ} (Z : Fin m → Fin p → ℝ), newUnits (fun _ => 1) (fun _ => 0) Z = Z := by
    intro m Z; funext i j; simp [newUnits]
  have hv : ∀ {m : ℕ} (z : Fin m → ℝ), newUnit 1 0 z = z := by intro m z; funext i; simp [newUnit]
  have hx : ∀ {k : ℕ} (Z : Fin n → Fin k → ℝ) (ρ : Equiv.Perm (Fin k)), (fun i j => (1 : ℝ) * Z (σ i) (ρ j)) = reorder σ ρ Z := by
    intro k Z ρ; funext i j; simp [reorder]
  have c1 : ∀ {k : ℕ} (Z : Fin n → Fin k → ℝ) (ρ : Equiv.Perm (Fin k)) j, pr.centre.run (reorder σ ρ Z) j = pr.centre.run Z (ρ j) := by
    intro k Z ρ j
    have := hc ρ (fun _ => 1) (fun _ => .inl rfl) Z j
    rwa [hx, one_mul] at this
  have s1 : ∀ {k : ℕ} (Z : Fin n → Fin k → ℝ) (ρ : Equiv.Perm (Fin k)) j, pr.scale.run (reorder σ ρ Z) j = pr.scale.run Z (ρ j) := by
    intro k Z ρ j
    have := hs ρ (fun _ => 1) (fun _ => .inl rfl) Z j
    rwa [hx] at this
  obtain ⟨f', h1, h2, h3, h4, h5, h6, h7, h8⟩ := rm_rel_any h σ τ (fun _ => 1) (fun _ => 0) (fun _ => one_ne_zero) 1 0 one_ne_zero
    (fun j => by rw [hu, c1]; simp) (fun j => by rw [hu, s1]; simp)
    (by rw [hv, one_mul, add_zero]; exact c1 (asCol y) (Equiv.refl _) 0) (by rw [hv, abs_one, one_mul]; exact s1 (asCol y) (Equiv.refl _) 0)
    (.inr one_pos) (.inr abs_one)
    (fun A z => lstsq_rel hls σ τ (fun _ => sg 1) (fun _ => sg_cases one_ne_zero) (sg_cases one_ne_zero) A z)
  rw [hu, hv] at h1
  refine ⟨f', h1, fun j => ?_, fun i => ?_, fun i => ?_, h5, h6, h7, fun Xn => ?_⟩
  · rw [h2]; simp
  · rw [h3]; simp
  · rw [h4]; simp
  · have := h8 Xn
    rw [hu] at this
    rw [this]
    cases f.predict Xn with
    | error e => rfl
    | ok z => simp [Except.map, hv]

/-- **C109.** An RM fit does not depend on the order of the cases nor on that of the predictors. -/
theorem C109_rm_order {ext : RmExt} {pr : RmParams} (hc : pr.centre = .mean ∨ pr.centre = .median) (hs : pr.scale = .std ∨ pr.scale = .mad)
    (hls : ∀ (A : Fin n → Fin p → ℝ) (z : Fin n → ℝ), IsMinNormLS A z (ext.lstsq A z))
    {X : Fin n → Fin p → ℝ} {y : Fin n → ℝ} {f : RmFit n p} (h : rmFit ext pr X y = .ok f)
    (σ : Equiv.Perm (Fin n)) (τ : Equiv.Perm (Fin p)) :
    ∃ f', rmFit ext pr (reorder σ τ X) (fun i => y (σ i)) = .ok f' ∧
      (∀ j, f'.coef j = f.coef (τ j)) ∧
      (∀ i, f'.fitted i = f.fitted (σ i)) ∧ (∀ i, f'.residuals i = f.residuals (σ i)) ∧
      (∀ i, f'.caseweights i = f.caseweights (σ i)) ∧ (∀ i, f'.xCaseweights i = f.xCaseweights (σ i)) ∧
      (∀ i, f'.yCaseweights i = f.yCaseweights (σ i)) ∧
      ∀ {m : ℕ} (Xn : Fin m → Fin p → ℝ), f'.predict (reorder (Equiv.refl _) τ Xn) = f.predict Xn := by
  have hn : 0 < n := by
    obtain ⟨_, _, _, _, _, _, dx, _, _, hdx, _⟩ := rmFit_inv h
    exact rowDistances_ncases hdx
  exact C109_rm_order_any hls h σ τ (Centre.follows (by tauto) hn σ) (ScaleOpt.follows (by tauto) hn σ)

/-- **C110.** Reversing the response (and possibly predictors) reverses the fit, when the data are centred by the median and scaled by the
MAD.  Missing: other centres or scales, where the claim fails (see `C110_rm_reverse_violated`). -/
theorem C110_rm_reverse_partial {ext : RmExt} {pr : RmParams} (hc : pr.centre = .median) (hs : pr.scale = .mad)
    (hls : ∀ (A : Fin n → Fin p → ℝ) (z : Fin n → ℝ), IsMinNormLS A z (ext.lstsq A z))
    {X : Fin n → Fin p → ℝ} {y : Fin n → ℝ} {f : RmFit n p} (h : rmFit ext pr X y = .ok f) (hy : f.ySca ≠ 0)
    (a b : Fin p → ℝ) (ha : ∀ j, a j ≠ 0) (c d : ℝ) (hcn : c ≠ 0) :
    ∃ f', rmFit ext pr (newUnits a b X) (newUnit c d y) = .ok f' ∧
      (∀ j, f'.coef j = c / a j * f.coef j) ∧
      (∀ i, f'.fitted i = c * f.fitted i + d) ∧ (∀ i, f'.residuals i = c * f.residuals i) ∧
      f'.caseweights = f.caseweights ∧ f'.xCaseweights = f.xCaseweights ∧ f'.yCaseweights = f.yCaseweights ∧
      ∀ {m : ℕ} (Xn : Fin m → Fin p → ℝ), f'.predict (newUnits a b Xn) = (f.predict Xn).map (newUnit c d) := by
  obtain ⟨f', h1, h2, h3, h4, h5, h6, h7, h8⟩ := rm_rel (.inr hc) (.inr hs) h (Equiv.refl _) (Equiv.refl _) a b ha c d hcn
    (.inl ⟨hc, hs⟩) (.inl hy)
    (fun A z => lstsq_rel hls (Equiv.refl _) (Equiv.refl _) (fun j => sg (a j)) (fun j => sg_cases (ha j)) (sg_cases hcn) A z)
  exact ⟨f', h1, h2, h3, h4, funext h5, funext h6, funext h7, h8⟩

/-! ### Least squares solvers of least norm exist -/

theorem exists_minNormLS (A : Fin n → Fin p → ℝ) (y : Fin n → ℝ) : ∃ b, IsLeastSquares A y b ∧ IsMinNormLS A y b := by
  obtain ⟨b0, hb0⟩ := exists_leastSquares A y
  obtain ⟨u, hu⟩ := exists_leastSquares (fun j i => A i j) b0
  set b : Fin p → ℝ := fun j => ∑ i, A i j * u i with hb
  have hAb : ∀ i, ∑ j, A i j * b j = ∑ j, A i j * b0 j := by
    intro i
    have := hu i
    simp only [mul_sub, Finset.sum_sub_distrib] at this
    simp only [hb]
    linarith
  have hn : IsLeastSquares A y b := by
    intro j
    simp only [hAb]
    exact hb0 j
  have hsplit : ∀ b', rss A y b' = rss A y b + ∑ i, (∑ j, A i j * (b' j - b j)) ^ 2 := by
    intro b'
    have hx : ∑ i, (y i - ∑ j, A i j * b j) * ∑ j, A i j * (b' j - b j) = 0 := by
      simp only [Finset.mul_sum]
      rw [Finset.sum_comm]
      apply Finset.sum_eq_zero
      intro j _
      have h1 : ∑ i, (y i - ∑ k, A i k * b k) * (A i j * (b' j - b j)) = (∑ i, A i j * (y i - ∑ k, A i k * b k)) * (b' j - b j) := by
        rw [Finset.sum_mul]
        exact Finset.sum_congr rfl fun i _ => by ring
      have h2 := hn j
      rw [h1, h2, zero_mul]
    have h3 : rss A y b' = ∑ i, ((y i - ∑ j, A i j * b j) ^ 2 + (∑ j, A i j * (b' j - b j)) ^ 2 -
        2 * ((y i - ∑ j, A i j * b j) * ∑ j, A i j * (b' j - b j))) := by
      refine Finset.sum_congr rfl fun i _ => ?_
      have : ∑ j, A i j * (b' j - b j) = ∑ j, A i j * b' j - ∑ j, A i j * b j := by
        rw [← Finset.sum_sub_distrib]
        exact Finset.sum_congr rfl fun j _ => by ring
      rw [this]
      ring
    rw [h3, Finset.sum_sub_distrib, Finset.sum_add_distrib, ← Finset.mul_sum, hx, mul_zero, sub_zero]
    rfl
  refine ⟨b, hn, fun b' => ?_, fun b' hb' => ?_⟩
  · rw [hsplit b']
    have : 0 ≤ ∑ i, (∑ j, A i j * (b' j - b j)) ^ 2 := Finset.sum_nonneg fun i _ => sq_nonneg _
    linarith
  · have h1 := hb' b
    rw [hsplit b'] at h1
    have h0 : ∑ i, (∑ j, A i j * (b' j - b j)) ^ 2 = 0 :=
      le_antisymm (by linarith) (Finset.sum_nonneg fun i _ => sq_nonneg _)
    have hz : ∀ i, ∑ j, A i j * (b' j - b j) = 0 := by
      intro i
      have := (Finset.sum_eq_zero_iff_of_nonneg fun i _ => sq_nonneg _).1 h0 i (Finset.mem_univ i)
      exact pow_eq_zero_iff (two_ne_zero) |>.1 this
    have horth : ∑ j, b j * (b' j - b j) = 0 := by
      simp only [hb, Finset.sum_mul]
      rw [Finset.sum_comm]
      apply Finset.sum_eq_zero
      intro i _
      have : ∑ j, A i j * u i * (b' j - ∑ k, A k j * u k) = u i * ∑ j, A i j * (b' j - b j) := by
        rw [Finset.mul_sum]
        exact Finset.sum_congr rfl fun j _ => by simp only [hb]; ring
      rw [this, hz, mul_zero]
    have h4 : ∑ j, b' j ^ 2 = ∑ j, b j ^ 2 + ∑ j, (b' j - b j) ^ 2 + 2 * ∑ j, b j * (b' j - b j) := by
      rw [Finset.mul_sum, ← Finset.sum_add_distrib, ← Finset.sum_add_distrib]
      exact Finset.sum_congr rfl fun j _ => by ring
    rw [h4, horth]
    have : 0 ≤ ∑ j, (b' j - b j) ^ 2 := Finset.sum_nonneg fun j _ => sq_nonneg _
    linarith

/-- A least squares solver of least norm. -/
noncomputable def minLstsq (A : Fin n → Fin p → ℝ) (y : Fin n → ℝ) : Fin p → ℝ := Classical.choose (exists_minNormLS A y)

/-- Functions with the assumed properties of the third-party functions. -/
noncomputable def rmExt1 : RmExt := ⟨fun q => 10 * (q - 1 / 2), fun q _ => 10 * q, fun X y => minLstsq X y⟩

lemma rmExt1_ls {n p : ℕ} (X : Fin n → Fin p → ℝ) (y : Fin n → ℝ) : IsLeastSquares X y (rmExt1.lstsq X y) :=
  (Classical.choose_spec (exists_minNormLS X y)).1

lemma rmExt1_min {n p : ℕ} (X : Fin n → Fin p → ℝ) (y : Fin n → ℝ) : IsMinNormLS X y (rmExt1.lstsq X y) :=
  (Classical.choose_spec (exists_minNormLS X y)).2

/-- Non-vacuity of C108, C109 and C110: a fit (coefficient 3/5) in other units, in reverse order, and reversed. -/
example : ∃ f, rmFit rmExt1 (rmPr true) rmX rmY = .ok f ∧
    (∃ f', rmFit rmExt1 (rmPr true) (newUnits (fun _ => 2) (fun _ => 7) rmX) (newUnit 3 5 rmY) = .ok f' ∧ f'.coef 0 = 9 / 10) ∧
    (∃ f', rmFit rmExt1 (rmPr true) (reorder Fin.revPerm (Equiv.refl _) rmX) (fun i => rmY (Fin.revPerm i)) = .ok f' ∧ f'.coef 0 = 3 / 5) ∧
    ∃ f', rmFit rmExt1 (rmPr true) (newUnits (fun _ => 2) (fun _ => 7) rmX) (newUnit (-3) 5 rmY) = .ok f' ∧ f'.coef 0 = -9 / 10 := by
  obtain ⟨f, hf, ⟨h1, _⟩, _, ⟨_, _, _, h8⟩, _⟩ := rmExFit rmExt1 rmExt1_ls (by simp only [rmExt1]; norm_num) (by simp only [rmExt1]; norm_num) true
  have hy : f.ySca ≠ 0 := by rw [h8]; have := madC_pos; positivity
  refine ⟨f, hf, ?_, ?_, ?_⟩
  · obtain ⟨f', hf', hco, _⟩ := C108_rm_units (.inr rfl) (.inr rfl) rmExt1_min hf hy (fun _ => 2) (fun _ => 7) (fun _ => by norm_num) 3 5
      (by norm_num)
    exact ⟨f', hf', by rw [hco, h1]; norm_num⟩
  · obtain ⟨f', hf', hco, _⟩ := C109_rm_order (.inr rfl) (.inr rfl) rmExt1_min hf Fin.revPerm (Equiv.refl _)
    exact ⟨f', hf', by rw [hco]; exact h1⟩
  · obtain ⟨f', hf', hco, _⟩ := C110_rm_reverse_partial rfl rfl rmExt1_min hf hy (fun _ => 2) (fun _ => 7) (fun _ => by norm_num) (-3) 5
      (by norm_num)
    exact ⟨f', hf', by rw [hco, h1]; norm_num⟩

/-! ### A reversed response that is fitted differently -/

/-- Equally spaced predictor values, and a response with an outlier below (`e = 1`) or above (`e = -1`). -/
noncomputable def rvX : Fin 3 → Fin 1 → ℝ := fun i _ => ![-1, 0, 1] i
noncomputable def rvY (e : ℝ) : Fin 3 → ℝ := fun i => e * ![-10, 0, 1] i
noncomputable def rvPr : RmParams :=
  { fn := .huber, probp1 := 95 / 100, probp2 := 975 / 1000, probp3 := 999 / 1000, centre := .mean, scale := .mad
    specific := true, maxit := 2, tol := 1 / 100, copy := true }

lemma rv_medX : med (fun i => rvX i 0) = 0 :=
  med3 _ 0 0 1 2 (by decide) (by decide) (by simp [rvX]) (by simp [rvX]) (by simp [rvX])

lemma rv_madX : Direpack.mad (fun i => rvX i 0) = 1 / madConst := by
  rw [rm_mad_eq, rv_medX, med3 (fun i => |rvX i 0 - 0|) 1 1 2 0 (by decide) (by decide) (by simp [rvX]) (by simp [rvX])
    (by simp [rvX])]

lemma rv_medY {e : ℝ} (he : e = 1 ∨ e = -1) : med (rvY e) = 0 := by
  rcases he with rfl | rfl
  · exact med3 _ 0 0 1 2 (by decide) (by decide) (by simp [rvY]) (by simp [rvY]) (by simp [rvY])
  · exact med3 _ 0 2 1 0 (by decide) (by decide) (by simp [rvY]) (by simp [rvY]) (by simp [rvY])

lemma rv_devY {e : ℝ} (he : e = 1 ∨ e = -1) : (med fun i => |rvY e i - 0|) = 1 := by
  rcases he with rfl | rfl <;>
    exact med3 _ 1 1 2 0 (by decide) (by decide) (by simp [rvY]) (by simp [rvY]) (by simp [rvY])

lemma rv_madY {e : ℝ} (he : e = 1 ∨ e = -1) : Direpack.mad (rvY e) = 1 / madConst := by
  rw [rm_mad_eq, rv_medY he, rv_devY he]

lemma rv_meanX : Direpack.mean (fun i => rvX i 0) = 0 := by
  simp [Direpack.mean, meanL, List.ofFn_succ, rvX]

lemma rv_meanY (e : ℝ) : Direpack.mean (rvY e) = -3 * e := by
  simp [Direpack.mean, meanL, List.ofFn_succ, rvY]
  ring

lemma rvXs : scaleMat rvX (Centre.mean.run rvX) (ScaleOpt.mad.run rvX) = fun i _ => ![-1, 0, 1] i * madConst := by
  funext i j
  have hj : j = 0 := Subsingleton.elim _ _
  subst hj
  have h1 : Centre.mean.run rvX 0 = 0 := rv_meanX
  have h2 : ScaleOpt.mad.run rvX 0 = 1 / madConst := rv_madX
  unfold scaleMat
  rw [h1, h2, if_neg (by have := madC_pos; positivity)]
  simp only [rvX, sub_zero]
  rw [div_div_eq_mul_div, div_one]

lemma rvYs {e : ℝ} (he : e = 1 ∨ e = -1) :
    (fun i => scaleMat (asCol (rvY e)) (Centre.mean.run (asCol (rvY e))) (ScaleOpt.mad.run (asCol (rvY e))) i 0) =
      fun i => e * ![-7, 3, 4] i * madConst := by
  funext i
  have h1 : Centre.mean.run (asCol (rvY e)) 0 = -3 * e := rv_meanY e
  have h2 : ScaleOpt.mad.run (asCol (rvY e)) 0 = 1 / madConst := rv_madY he
  unfold scaleMat
  rw [h1, h2, if_neg (by have := madC_pos; positivity), div_div_eq_mul_div, div_one]
  congr 1
  simp only [asCol, rvY]
  fin_cases i <;> simp <;> ring

lemma rv_dist : rowDistances (fun (i : Fin 3) (_ : Fin 1) => (![-1, 0, 1] : Fin 3 → ℝ) i * madConst) = .ok ![1, 0, 1] := by
  have hd : (fun i : Fin 3 => Real.sqrt (∑ _j : Fin 1, ((![-1, 0, 1] : Fin 3 → ℝ) i * madConst) ^ 2))
      = fun i => |(![-1, 0, 1] : Fin 3 → ℝ) i| * madConst := by
    funext i
    rw [Finset.sum_const, Finset.card_univ, Fintype.card_fin, one_smul, Real.sqrt_sq_eq_abs, abs_mul,
      abs_of_pos madC_pos]
  have hm : med (fun i => |(![-1, 0, 1] : Fin 3 → ℝ) i| * (madConst : ℝ)) = madConst :=
    med3 _ _ 1 2 0 (by decide) (by decide) (by simp [madC_pos.le]) (by simp) (by simp)
  unfold rowDistances
  simp only [hd, hm, if_neg madC_pos.ne']
  congr 1
  funext i
  rw [show Real.sqrt (∑ _j : Fin 1, ((![-1, 0, 1] : Fin 3 → ℝ) i * madConst) ^ 2) =
    |(![-1, 0, 1] : Fin 3 → ℝ) i| * madConst from congrFun hd i, mul_div_assoc, div_self madC_pos.ne', mul_one]
  fin_cases i <;> simp

/-- The one regression of the fit, with weight `w` for the outlier. -/
lemma rv_lstsq {ext : RmExt} (hls : ∀ {n p : ℕ} (X : Fin n → Fin p → ℝ) (y : Fin n → ℝ), IsLeastSquares X y (ext.lstsq X y))
    (e w : ℝ) (hw : 0 < w) :
    ext.lstsq (weightRows (fun (i : Fin 3) (_ : Fin 1) => (![-1, 0, 1] : Fin 3 → ℝ) i * madConst) ![w, 1, 1])
      (fun i => e * (![-7, 3, 4] : Fin 3 → ℝ) i * madConst * Real.sqrt ((![w, 1, 1] : Fin 3 → ℝ) i)) =
      fun _ => e * (7 * w + 4) / (w + 1) := by
  have h := hls (weightRows (fun (i : Fin 3) (_ : Fin 1) => (![-1, 0, 1] : Fin 3 → ℝ) i * madConst) ![w, 1, 1])
      (fun i => e * (![-7, 3, 4] : Fin 3 → ℝ) i * madConst * Real.sqrt ((![w, 1, 1] : Fin 3 → ℝ) i)) 0
  generalize ext.lstsq _ _ = b at h
  funext j
  have hj : j = 0 := Subsingleton.elim _ _
  subst hj
  simp [weightRows, Fin.sum_univ_succ] at h
  have hm := madC_pos
  have hq : Real.sqrt w * Real.sqrt w = w := Real.mul_self_sqrt hw.le
  have h2 : (madConst : ℝ) ^ 2 * (e * (7 * w + 4) - b 0 * (w + 1)) = 0 := by
    linear_combination h + (madConst : ℝ) ^ 2 * (b 0 - 7 * e) * hq
  have h3 := (mul_eq_zero.1 h2).resolve_left (by positivity)
  rw [eq_div_iff (by linarith)]
  linarith

/-- The fit to the example, for any weight of the outlier. -/
lemma rv_fit {ext : RmExt} (hls : ∀ {n p : ℕ} (X : Fin n → Fin p → ℝ) (y : Fin n → ℝ), IsLeastSquares X y (ext.lstsq X y))
    (hx : 1 ≤ ext.chi2Ppf (95 / 100) 1) {e : ℝ} (he : e = 1 ∨ e = -1) {w : ℝ} (hw : wMin ≤ w) (hw1 : w ≤ 1)
    (hwy : WFun.huber.run (fun i => rvY e i / (14826 / 10000)) (cutY ext (95 / 100) (975 / 1000) (999 / 1000)) = ![w, 1, 1]) :
    ∃ f, rmFit ext rvPr rvX (rvY e) = .ok f ∧ f.coef 0 = e * (7 * w + 4) / (w + 1) ∧ f.ySca ≠ 0 := by
  have hm := madC_pos
  have hw0 : 0 < w := lt_of_lt_of_le (by unfold wMin; norm_num) hw
  have hcx : WFun.huber.run (![1, 0, 1] : Fin 3 → ℝ) (cutX ext true 1 (95 / 100) (975 / 1000) (999 / 1000)) = fun _ => 1 := by
    apply huber_ones
    · show 1 ≤ ext.chi2Ppf (95 / 100) 1; linarith
    · intro i
      show _ ≤ ext.chi2Ppf (95 / 100) 1
      fin_cases i <;> simp <;> linarith
  have hsy : startY Centre.mean ScaleOpt.mad (fun i => e * (![-7, 3, 4] : Fin 3 → ℝ) i * madConst) (rvY e) =
      .ok fun i => rvY e i / (14826 / 10000) := by
    simp only [startY, isMedianMad, Bool.false_eq_true, if_false, rv_medY he, rv_devY he]
    norm_num
  have hclip : (clipW fun i : Fin 3 => (1 : ℝ) * (![w, 1, 1] : Fin 3 → ℝ) i) = ![w, 1, 1] := by
    funext i
    have := wMin_le_one
    fin_cases i <;> simp [clipW, not_lt.mpr this, not_lt.mpr hw]
  have hres : ∃ r, scaleRes (fun i => e * (![-7, 3, 4] : Fin 3 → ℝ) i * madConst -
      ∑ _j : Fin 1, (![-1, 0, 1] : Fin 3 → ℝ) i * madConst * (e * (7 * w + 4) / (w + 1))) = .ok r := by
    unfold scaleRes
    have hr : ∀ i, e * (![-7, 3, 4] : Fin 3 → ℝ) i * madConst -
      ∑ _j : Fin 1, (![-1, 0, 1] : Fin 3 → ℝ) i * madConst * (e * (7 * w + 4) / (w + 1)) =
        e * madConst * ![-3 / (w + 1), 3, -3 * w / (w + 1)] i := by
      intro i
      rw [Finset.sum_const, Finset.card_univ, Fintype.card_fin, one_smul]
      have : w + 1 ≠ 0 := by positivity
      fin_cases i <;> simp <;> field_simp <;> ring
    simp only [hr]
    have hnz : (Finset.univ.filter fun i : Fin 3 => e * madConst * (![-3 / (w + 1), 3, -3 * w / (w + 1)] : Fin 3 → ℝ) i = 0) = ∅ := by
      apply Finset.filter_eq_empty_iff.mpr
      intro i _
      have h1 : e ≠ 0 := by rcases he with rfl | rfl <;> norm_num
      have : (![-3 / (w + 1), 3, -3 * w / (w + 1)] : Fin 3 → ℝ) i ≠ 0 := by
        have h2 : w + 1 ≠ 0 := by positivity
        fin_cases i <;> simp [h2, hw0.ne']
      exact mul_ne_zero (mul_ne_zero h1 hm.ne') this
    rw [if_pos]
    · exact ⟨_, rfl⟩
    · convert (by norm_num : ((0 : ℕ) : ℝ) < ((3 : ℕ) : ℝ) / 2)
      simp only [hnz]
      rfl
  obtain ⟨r, hr⟩ := hres
  have hstep : rmStep ext .huber (cutY ext (95 / 100) (975 / 1000) (999 / 1000))
      (fun (i : Fin 3) (_ : Fin 1) => (![-1, 0, 1] : Fin 3 → ℝ) i * madConst)
      (fun i => e * (![-7, 3, 4] : Fin 3 → ℝ) i * madConst) (fun _ => 1) ![w, 1, 1] =
      .ok (fun _ => e * (7 * w + 4) / (w + 1), ∑ _j : Fin 1, (e * (7 * w + 4) / (w + 1)) ^ 2,
        WFun.huber.run r (cutY ext (95 / 100) (975 / 1000) (999 / 1000)), fun _ => 1) := by
    unfold rmStep
    simp only [rv_lstsq hls e w hw0, hr]
  have hloop : ∃ o : RwOut (Fin 1 → ℝ) 3, rwLoop (rmStep ext .huber (cutY ext (95 / 100) (975 / 1000) (999 / 1000))
      (fun (i : Fin 3) (_ : Fin 1) => (![-1, 0, 1] : Fin 3 → ℝ) i * madConst)
      (fun i => e * (![-7, 3, 4] : Fin 3 → ℝ) i * madConst) (fun _ => 1)) (1 / 100) 2 ((2 : ℤ).toNat + 1) 1 (1 / 100000)
      ((1 / 100 : ℝ) < 1) ![w, 1, 1] none = some (.ok (some o)) ∧ o.b = fun _ => e * (7 * w + 4) / (w + 1) := by
    rw [show ((2 : ℤ).toNat + 1) = 3 from rfl]
    rw [rwLoop, if_pos (by norm_num), hstep]
    dsimp only
    split
    · exact ⟨_, rfl, rfl⟩
    · rw [rwLoop, if_neg (by norm_num)]
      exact ⟨_, rfl, rfl⟩
  obtain ⟨o, hloop, hob⟩ := hloop
  have hs1 : ScaleOpt.mad.run rvX 0 = 1 / madConst := rv_madX
  have hs2 : ScaleOpt.mad.run (asCol (rvY e)) 0 = 1 / madConst := rv_madY he
  have hsnz : ¬ ∃ j, ScaleOpt.mad.run rvX j = 0 := by
    rintro ⟨j, hj⟩
    have hj0 : j = 0 := Subsingleton.elim _ _
    subst hj0
    rw [hs1] at hj
    exact absurd hj (by positivity)
  have hfit : rmFit ext rvPr rvX (rvY e) = rmFinish rvPr rvX (rvY e)
      (fun (i : Fin 3) (_ : Fin 1) => (![-1, 0, 1] : Fin 3 → ℝ) i * madConst)
      (fun i => e * (![-7, 3, 4] : Fin 3 → ℝ) i * madConst) (fun _ => 1) (Centre.mean.run rvX) (ScaleOpt.mad.run rvX)
      (Centre.mean.run (asCol (rvY e)) 0) (ScaleOpt.mad.run (asCol (rvY e)) 0) (some o) := by
    unfold rmFit
    rw [show checkProbs rvPr.fn rvPr.probp1 rvPr.probp2 rvPr.probp3 = .ok () by unfold checkProbs rvPr; norm_num]
    simp only [show rvPr.centre = .mean from rfl, show rvPr.scale = .mad from rfl, rvYs he]
    simp only [rvXs, rv_dist]
    simp only [hsy, show rvPr.fn = .huber from rfl, show rvPr.probp1 = 95 / 100 from rfl,
      show rvPr.probp2 = 975 / 1000 from rfl, show rvPr.probp3 = 999 / 1000 from rfl,
      show rvPr.specific = true from rfl, show rvPr.maxit = 2 from rfl,
      show rvPr.tol = 1 / 100 from rfl, hcx, hwy, hclip, hloop]
  rw [hfit]
  unfold rmFinish
  simp only [if_neg hsnz, rmIntercepts, show rvPr.scale = .mad from rfl, ScaleOpt.isNone, Bool.false_eq_true, if_false]
  refine ⟨_, rfl, ?_, ?_⟩
  · dsimp only
    rw [hs2, hs1, hob, div_self (by positivity), one_mul]
  · dsimp only
    rw [hs2]
    positivity

/-- **C110** fails for `centre='mean'`: an outlier below keeps its full starting weight, and loses weight when the response is
reversed.  The two fits are not mirror images (the quantile of the normal distribution is 1.645, that of the chi-square 3.84). -/
theorem C110_rm_reverse_violated (ext : RmExt)
    (hls : ∀ {n p : ℕ} (X : Fin n → Fin p → ℝ) (y : Fin n → ℝ), IsLeastSquares X y (ext.lstsq X y))
    (hz : 1 ≤ ext.normPpf (95 / 100)) (hz2 : ext.normPpf (95 / 100) ≤ 6) (hx : 1 ≤ ext.chi2Ppf (95 / 100) 1) :
    ∃ (pr : RmParams) (X : Fin 3 → Fin 1 → ℝ) (y : Fin 3 → ℝ) (f f' : RmFit 3 1), pr.centre = .mean ∧ pr.scale = .mad ∧
      rmFit ext pr X y = .ok f ∧ f.ySca ≠ 0 ∧ rmFit ext pr X (fun i => -y i) = .ok f' ∧ f'.coef 0 ≠ -f.coef 0 := by
  set q := ext.normPpf (95 / 100) with hq
  have hw1 : WFun.huber.run (fun i => rvY 1 i / (14826 / 10000)) (cutY ext (95 / 100) (975 / 1000) (999 / 1000)) = ![1, 1, 1] := by
    have := huber_ones (fun i => rvY 1 i / (14826 / 10000)) q hz (fun i => by
      fin_cases i <;> simp [rvY] <;> linarith)
    refine this.trans ?_
    funext i
    fin_cases i <;> rfl
  have hw2 : WFun.huber.run (fun i => rvY (-1) i / (14826 / 10000)) (cutY ext (95 / 100) (975 / 1000) (999 / 1000)) =
      ![q * (14826 / 100000), 1, 1] := by
    change huber (fun i => rvY (-1) i / (14826 / 10000)) q = _
    have h1 : ¬ (1 : ℝ) > q := not_lt.2 hz
    funext i
    fin_cases i
    · have h2 : ¬ (10 / (14826 / 10000) : ℝ) ≤ q := by norm_num; linarith
      have h3 : (10 / (14826 / 10000) : ℝ) > q := not_le.1 h2
      simp only [huber, maskSet, rvY]
      norm_num at h2 h3 ⊢
      simp only [if_neg (not_le.2 h3), if_pos h3]
      rw [abs_of_pos (by norm_num)]
      ring
    · have h2 : (0 : ℝ) ≤ q := by linarith
      simp [huber, maskSet, rvY, h2, not_lt.2 hz]
    · have h2 : -(10000 / 14826 : ℝ) ≤ q := by norm_num; linarith
      simp only [huber, maskSet, rvY]
      norm_num
      norm_num at h2
      simp only [if_pos h2, if_neg (not_lt.2 hz)]
  obtain ⟨f, hf, hc, hy⟩ := rv_fit hls hx (.inl rfl) wMin_le_one le_rfl hw1
  obtain ⟨f', hf', hc', _⟩ := rv_fit hls hx (.inr rfl) (w := q * (14826 / 100000)) (by unfold wMin; nlinarith) (by nlinarith) hw2
  refine ⟨rvPr, rvX, rvY 1, f, f', rfl, rfl, hf, hy, ?_, ?_⟩
  · rw [← hf']
    congr 1
    funext i
    simp [rvY]
  · rw [hc, hc']
    intro h
    have h0 : q * (14826 / 100000) + 1 ≠ 0 := by nlinarith
    rw [div_eq_iff h0] at h
    nlinarith

end Direpack
