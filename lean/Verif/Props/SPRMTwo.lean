import Verif.Props.EqualCols

/-! A worked SPRM fit with two versions of one predictor: the hypotheses of the C177 theorems on SPRM can be met. -/

namespace Direpack

open scoped BigOperators
open Spec

/-- The predictor of the worked SPRM fit, and the same in other units. -/
noncomputable def tspX : Fin 3 → Fin 2 → ℝ := fun i j => if j = 0 then spX i 0 else 2 * spX i 0 + 5

lemma tspX_same : SameVariable tspX 0 1 2 5 := ⟨by norm_num, fun i => by simp [tspX]⟩

/-- Both standardised predictors. -/
noncomputable def tspXs : Fin 3 → Fin 2 → ℝ := fun i _ => spXs i 0

lemma tsp_mad0 : ScaleOpt.mad.run tspX 0 = 1 / madConst := sp_madX

lemma tsp_mad1 : ScaleOpt.mad.run tspX 1 = 2 * (1 / madConst) := by
  rw [sameVariable_scale (.inr rfl) (by norm_num) tspX_same, tsp_mad0]; norm_num

lemma tsp_med0 : Centre.median.run tspX 0 = 0 := sp_medX

lemma tsp_med1 : Centre.median.run tspX 1 = 5 := by
  show med (fun i => tspX i 1) = 5
  refine med3 _ _ 0 1 2 (by decide) (by decide) ?_ ?_ ?_ <;> simp [tspX, spX] <;> norm_num

lemma tsp_scaled : scaleMat tspX (Centre.median.run tspX) (ScaleOpt.mad.run tspX) = tspXs := by
  have hm := madC_pos
  funext i j
  unfold scaleMat
  fin_cases j
  · simp only [Fin.zero_eta, tsp_med0, tsp_mad0]
    rw [if_neg (by positivity)]
    simp [tspX, tspXs, spX, spXs]
  · simp only [Fin.mk_one, tsp_med1, tsp_mad1]
    rw [if_neg (by positivity)]
    simp only [tspX, tspXs, spX, spXs, one_ne_zero, if_false]
    field_simp
    ring

lemma tsp_keep : keepVars (ScaleOpt.mad.run tspX) = [0, 1] := by
  have h3 : ¬ (1 / madConst : ℝ) < 1 / 100000 := by unfold madConst; norm_num
  have h4 : ¬ (2 * (1 / madConst) : ℝ) < 1 / 100000 := by unfold madConst; norm_num
  unfold keepVars
  rw [show List.finRange 2 = [0, 1] from rfl]
  rw [List.filter_cons, List.filter_cons, List.filter_nil, tsp_mad0, tsp_mad1]
  simp only [h3, h4, not_false_eq_true, decide_true, if_true]

/-- Row distances of multiples of the standardised predictor. -/
lemma tsp_dist {k : ℕ} (Z : Fin 3 → Fin k → ℝ) {r : ℝ} (hr : 0 < r) (hZ : ∀ i, Real.sqrt (∑ a, Z i a ^ 2) = |(![-1, 0, 1] : Fin 3 → ℝ) i| * r) :
    rowDistances Z = .ok ![1, 0, 1] := by
  unfold rowDistances
  simp only [hZ]
  have hmed : med (fun i => |(![-1, 0, 1] : Fin 3 → ℝ) i| * r) = r :=
    med3 _ _ 1 2 0 (by decide) (by decide) (by simp [hr.le]) (by simp) (by simp)
  rw [hmed, if_neg hr.ne']
  congr 1
  funext i
  fin_cases i <;> simp [hr.ne']

/-- One component of two equal predictors. -/
lemma tsp_loop (y : Fin 3 → ℝ) (hy : ∑ i, spXs i 0 * y i ≠ 0) {l : List (SnComp 3 2)} (h : snLoop 0 1 tspXs y ∅ = .ok l) :
    ∃ (c : SnComp 3 2) (κ : ℝ), l = [c] ∧ κ ≠ 0 ∧ ∀ i, c.t i = κ * spXs i 0 := by
  simp only [snLoop] at h
  rw [if_neg (fun h0 => hy (h0 0))] at h
  split at h
  · rename_i hg
    exfalso
    rw [Finset.empty_union, Finset.filter_eq_empty_iff] at hg
    have h0 := hg (Finset.mem_univ (0 : Fin 2))
    apply h0
    simp only [snWeights, tspXs, zero_mul, sub_zero, abs_pos]
    refine div_ne_zero hy (Real.sqrt_pos.mpr ?_).ne'
    rw [Fin.sum_univ_two]
    positivity
  · split at h
    · simp at h
    · rename_i hn
      simp only [Except.ok.injEq] at h
      obtain ⟨c, hl, ht, hn'⟩ : ∃ c : SnComp 3 2, l = [c] ∧ (∀ i, c.t i = ∑ j, tspXs i j * c.w j) ∧ ∑ i, c.t i ^ 2 ≠ 0 := ⟨_, h.symm, fun i => rfl, hn⟩
      have ht' : ∀ i, c.t i = (∑ j, c.w j) * spXs i 0 := fun i => by
        rw [ht, Finset.sum_mul]
        exact Finset.sum_congr rfl fun j _ => mul_comm _ _
      refine ⟨c, ∑ j, c.w j, hl, fun h0 => hn' ?_, ht'⟩
      simp [ht', h0]

lemma tsp_snfit : ∃ (g : SnFit 3 2) (c : SnComp 3 2) (κ : ℝ), snFit ⟨0, 1, .mean, .noneOpt⟩ tspXs spYs = .ok g ∧ g.comps = [c] ∧ κ ≠ 0 ∧
    (∀ i, c.t i = κ * spXs i 0) ∧ ∀ i, spYs i - g.fitted i = ![-2 / 3, 4 / 3, -2 / 3] i * madConst := by
  have hm := madC_pos
  obtain ⟨g, hg⟩ := C44_one_component_total ⟨0, 1, .mean, .noneOpt⟩ tspXs spYs (le_refl _) zero_lt_one rfl (fun j => by simp [ScaleOpt.run])
  have hmx : Centre.mean.run tspXs = fun _ => 0 := by funext j; exact sp_mean_x
  have hmy : Centre.mean.run (asCol spYs) 0 = -1 / 3 * madConst := sp_mean_y
  obtain ⟨-, e1, e2, e3, e4, -, hl, -, hco, hint, hfit, -⟩ := snFit_inv hg
  simp only at e1 e2 e3 e4 hl hint
  rw [hmx] at e1
  rw [hmy] at e3
  have e2' : g.xSca = fun _ => 1 := e2
  have e4' : g.ySca = 1 := e4
  have hX0 : stdMat tspXs g.xLoc g.xSca = tspXs := by
    rw [e1, e2']; funext i j; simp [stdMat, std1]
  have hy0 : stdVec spYs g.yLoc g.ySca = fun i => spYs i + 1 / 3 * madConst := by
    rw [e3, e4']; funext i; simp [stdVec, std1]; ring
  rw [hX0, hy0] at hl
  have hcov : ∑ i, spXs i 0 * (spYs i + 1 / 3 * madConst) = 2 * madConst ^ 2 := by
    simp [spXs, spYs, Fin.sum_univ_succ]; ring
  obtain ⟨c, κ, hc, hκ, hct⟩ := tsp_loop _ (by rw [hcov]; positivity) hl
  refine ⟨g, c, κ, hg, hc, hκ, hct, ?_⟩
  have hne := (C45_normal_equations hg).1
  rw [hX0, hy0] at hne
  have hT : ∀ (l : List (SnComp 3 2)) (hl : [c] = l), ∃ a : Fin l.length, ∀ i, compT l i a = κ * spXs i 0 := by
    intro l hl; subst hl
    exact ⟨0, fun i => hct i⟩
  obtain ⟨a, ha⟩ := hT _ hc.symm
  have hb := hne a
  simp only [dot, lin, ha, Fin.sum_univ_two, Fin.isValue] at hb
  have hB : g.coefScaled 0 + g.coefScaled 1 = 1 := by
    simp [Fin.sum_univ_succ, spXs, spYs, tspXs] at hb
    have h2 : κ * (madConst : ℝ) ^ 2 * (g.coefScaled 0 + g.coefScaled 1 - 1) = 0 := by linear_combination (-1 / 2) * hb
    rcases mul_eq_zero.mp h2 with h3 | h3
    · exact absurd h3 (mul_ne_zero hκ (by positivity))
    · linarith
  have hcoef : g.coef 0 + g.coef 1 = 1 := by rw [hco, hco, e2', e4']; simpa using hB
  have hlin : ∀ i, lin tspXs g.coef i = spXs i 0 := fun i => by
    simp only [lin, Fin.sum_univ_two, tspXs, ← mul_add, hcoef, mul_one]
  have hi : g.intercept = -1 / 3 * madConst := by
    rw [hint]
    show Direpack.mean (fun i => spYs i - lin tspXs g.coef i) = _
    simp only [hlin]
    rw [mean_sub', sp_mean_y, sp_mean_x]; ring
  intro i
  rw [hfit, hi, hlin]
  fin_cases i <;> simp [spXs, spYs] <;> ring

lemma tsp_scores {l : List (SnComp 3 2)} {c : SnComp 3 2} {κ : ℝ} (hκ : κ ≠ 0) (hl : l = [c]) (hc : ∀ i, c.t i = κ * spXs i 0) :
    rowDistances (scaleMat (fun i a => compT l i a / Real.sqrt 1)
      (Centre.median.run fun i a => compT l i a / Real.sqrt 1) (ScaleOpt.mad.run fun i a => compT l i a / Real.sqrt 1)) = .ok ![1, 0, 1] := by
  subst hl
  have hm := madC_pos
  have hT : (fun i a => compT [c] i a / Real.sqrt 1) = newUnits (fun _ : Fin [c].length => κ) (fun _ => 0) (fun i _ => spXs i 0) := by
    funext i a
    have : a = (0 : Fin 1) := Subsingleton.elim (α := Fin 1) _ _
    rw [Real.sqrt_one, div_one, this]
    simp only [newUnits, add_zero]
    exact hc i
  rw [hT]
  have hmed : med (fun i => spXs i 0) = 0 :=
    med3 _ 0 0 1 2 (by decide) (by decide) (by simp [spXs, hm.le]) (by simp [spXs]) (by simp [spXs, hm.le])
  have hmad : Direpack.mad (fun i => spXs i 0) = 1 := by
    rw [rm_mad_eq, hmed, med3 (fun i => |spXs i 0 - 0|) madConst 1 2 0 (by decide) (by decide) (by simp [spXs, hm.le])
      (by simp [spXs, abs_of_pos hm]) (by simp [spXs, abs_of_pos hm])]
    exact div_self hm.ne'
  have hmed' : ∀ a, Centre.median.run (newUnits (fun _ : Fin [c].length => κ) (fun _ => 0) (fun i _ => spXs i 0)) a = 0 := fun a => by
    rw [Centre.run_units (.inr rfl) (by norm_num), add_zero]
    exact mul_eq_zero_of_right _ hmed
  have hmad' : ∀ a, ScaleOpt.mad.run (newUnits (fun _ : Fin [c].length => κ) (fun _ => 0) (fun i _ => spXs i 0)) a = |κ| := fun a => by
    rw [ScaleOpt.run_units (.inr rfl) (by norm_num)]
    have : ScaleOpt.mad.run (fun i (_ : Fin [c].length) => spXs i 0) a = 1 := hmad
    rw [this, mul_one]
  apply tsp_dist _ hm
  intro i
  have hz : ∀ a, scaleMat (newUnits (fun _ : Fin [c].length => κ) (fun _ => 0) (fun i _ => spXs i 0))
      (Centre.median.run (newUnits (fun _ : Fin [c].length => κ) (fun _ => 0) (fun i _ => spXs i 0)))
      (ScaleOpt.mad.run (newUnits (fun _ : Fin [c].length => κ) (fun _ => 0) (fun i _ => spXs i 0))) i a ^ 2 = spXs i 0 ^ 2 := fun a => by
    unfold scaleMat
    rw [hmed', hmad', if_neg (abs_ne_zero.mpr hκ), div_pow, sq_abs]
    simp only [newUnits]
    field_simp
    ring
  simp only [hz]
  have h1 : ∑ _a : Fin [c].length, spXs i 0 ^ 2 = spXs i 0 ^ 2 := by simp
  rw [h1, Real.sqrt_sq_eq_abs]
  simp only [spXs]
  rw [abs_mul, abs_of_pos hm]

/-- The example fit. -/
theorem tspFit (ext : SprmExt) (hz : 27 / 20 ≤ ext.normPpf (95 / 100)) (copy : Bool) : ∃ f, (sprmFit ext (spPr copy) tspX rmY).2 = .ok f := by
  have hm := madC_pos
  have hm1 : (madConst : ℝ) ≤ 27 / 40 := by unfold madConst; norm_num
  have hcy : ∀ v : Fin 3 → ℝ, (∀ i, v i ≤ 27 / 20) →
      WFun.huber.run v (cutY ext.toRm (95 / 100) (975 / 1000) (999 / 1000)) = fun _ => 1 := by
    intro v hv
    apply huber_ones
    · show 1 ≤ ext.normPpf (95 / 100); linarith
    · intro i
      show _ ≤ ext.normPpf (95 / 100)
      linarith [hv i]
  have hchk : sprmCheck (spPr copy) 3 2 = .ok () := by
    unfold sprmCheck checkProbs spPr; norm_num
  obtain ⟨g, c, κ, hg, hgc, hκ, hct, hres⟩ := tsp_snfit
  have hw1 : weightRows tspXs (fun _ => 1) = tspXs := by
    funext i j; simp [weightRows]
  have hstep : sprmStep ext (spPr copy) .mad (cutY ext.toRm (95 / 100) (975 / 1000) (999 / 1000)) tspXs spYs (fun _ => 1) =
      .ok (g, ∑ j, g.coef j ^ 2, fun _ => 1, fun _ => 1) := by
    unfold sprmStep
    have hy1 : (fun i => spYs i * Real.sqrt 1) = spYs := by funext i; simp
    simp only [hw1, hy1, show (spPr copy).eta = 0 from rfl, show (spPr copy).nComponents.toNat = 1 from rfl, hg]
    simp only [hres, sp_res, show (spPr copy).centre = .median from rfl,
      show scoreScale .mad = .mad from rfl, tsp_scores hκ hgc hct,
      show (spPr copy).fn = .huber from rfl, show (spPr copy).probp1 = 95 / 100 from rfl,
      show (spPr copy).probp2 = 975 / 1000 from rfl, show (spPr copy).probp3 = 999 / 1000 from rfl]
    rw [hcy _ (by intro i; fin_cases i <;> norm_num)]
    simp only [reduceCtorEq, if_false]
    rw [hcy _ (by intro i; fin_cases i <;> norm_num)]
  have hclip : (clipW fun _ : Fin 3 => (1 : ℝ) * 1) = fun _ => 1 := by
    funext i
    have := wMin_le_one
    simp [clipW, not_lt.mpr this]
  have hloop : ∃ o, rwLoop (sprmStep ext (spPr copy) .mad (cutY ext.toRm (95 / 100) (975 / 1000) (999 / 1000)) tspXs spYs)
      (1 / 100) 2 ((2 : ℤ).toNat + 1) 1 (1 / 100000) ((1 / 100 : ℝ) < 1) (fun _ => 1) none = some (.ok (some o)) := by
    have h1 : ¬ ((1 : ℝ) * 1 < wMin) := by have := wMin_le_one; linarith
    rw [show ((2 : ℤ).toNat + 1) = 3 from rfl]
    rw [rwLoop, if_pos (by norm_num), hstep]
    simp only [h1, if_false, Finset.filter_false, Finset.card_empty, Option.elim]
    rw [if_neg (by norm_num), rwLoop, if_neg (by norm_num)]
    exact ⟨_, rfl⟩
  obtain ⟨o, ho⟩ := hloop
  have hsy : startY .median .mad spYs rmY = .ok fun i => |spYs i| := by
    simp [startY, isMedianMad]
  have hwy : WFun.huber.run (fun i => |spYs i|) (cutY ext.toRm (95 / 100) (975 / 1000) (999 / 1000)) = fun _ => 1 := by
    apply hcy
    intro i
    simp only [spYs]
    rw [abs_mul, abs_of_pos hm]
    fin_cases i <;> simp <;> linarith
  have hwx : WFun.huber.run ![1, 0, 1] (cutY ext.toRm (95 / 100) (975 / 1000) (999 / 1000)) = fun _ => 1 :=
    hcy _ (by intro i; fin_cases i <;> norm_num)
  have hys : (fun i => scaleMat (asCol rmY) (Centre.median.run (asCol rmY)) (ScaleOpt.mad.run (asCol rmY)) i 0) = spYs := rmYs
  unfold sprmFit
  rw [hchk]
  dsimp only
  have hsr : ((spPr copy).scale.resolve tspX).opt = .mad := rfl
  generalize ((spPr copy).scale.resolve tspX).opt = sr at hsr ⊢
  subst hsr
  have hce : (spPr copy).centre = .median := rfl
  generalize (spPr copy).centre = ce at hce ⊢
  subst hce
  rw [hys]
  generalize hk : keepVars (ScaleOpt.mad.run tspX) = kp
  rw [tsp_keep] at hk
  subst hk
  rw [tsp_scaled]
  have hsx : sprmStartX ext (spPr copy) .mad (selCols tspXs [0, 1]) = .ok (none, ![1, 0, 1]) := by
    unfold sprmStartX
    simp only [show (spPr copy).pcapp = false from rfl, Bool.false_eq_true, if_false]
    rw [tsp_dist (r := √2 * madConst) _ (by positivity) (fun i => by
      show Real.sqrt (∑ _a : Fin 2, spXs i 0 ^ 2) = _
      rw [Fin.sum_const, nsmul_eq_mul, Real.sqrt_mul (by norm_num), Real.sqrt_sq_eq_abs]
      simp only [spXs]
      rw [abs_mul, abs_of_pos hm]
      push_cast
      ring)]
  have hsc : sprmStartCut ext (spPr copy) none = .ok (cutY ext.toRm (95 / 100) (975 / 1000) (999 / 1000)) := rfl
  rw [if_neg (by simp [spPr])]
  simp only [hsx, hsy, hsc, show (spPr copy).fn = .huber from rfl, show (spPr copy).probp1 = 95 / 100 from rfl,
      show (spPr copy).probp2 = 975 / 1000 from rfl, show (spPr copy).probp3 = 999 / 1000 from rfl,
      show (spPr copy).maxit = 2 from rfl, show (spPr copy).tol = 1 / 100 from rfl, hwx, hwy, hclip]
  have ho' : rwLoop (sprmStep ext (spPr copy) .mad (cutY ext.toRm (95 / 100) (975 / 1000) (999 / 1000)) (selCols tspXs [0, 1]) spYs)
      (1 / 100) 2 ((2 : ℤ).toNat + 1) 1 (1 / 100000) ((1 / 100 : ℝ) < 1) (fun _ => 1) none = some (.ok (some o)) := by
    exact ho
  rw [ho']
  exact ⟨_, rfl⟩

/-- Non-vacuity of the C177 theorems on SPRM: both versions are kept, and the coefficients differ by the factor between the units. -/
example : ∃ f, (sprmFit spExt0 (spPr true) tspX rmY).2 = .ok f ∧ ∃ k k', f.keep.get k = 0 ∧ f.keep.get k' = 1 ∧ f.coef k = 2 * f.coef k' := by
  obtain ⟨f, hf⟩ := tspFit spExt0 (by simp only [spExt0, rmExt0]; norm_num) true
  have hk : f.keep = [0, 1] := by
    obtain ⟨-, -, e2, -, -, hkf, -⟩ := sprmFit_inv hf
    rw [hkf, e2]
    exact tsp_keep
  obtain ⟨k, hk0⟩ := List.mem_iff_get.mp (show (0 : Fin 2) ∈ f.keep by rw [hk]; simp)
  obtain ⟨k', hk1⟩ := List.mem_iff_get.mp (show (1 : Fin 2) ∈ f.keep by rw [hk]; simp)
  exact ⟨f, hf, k, k', hk0, hk1, C177_sprm_units_partial (.inr rfl) rfl (.inr rfl) rfl hf tspX_same hk0 hk1⟩

end Direpack
