import Mathlib.Tactic.LinearCombination
import Verif.Props.RM

/-! A worked RM fit: the hypotheses of the C48-C50 theorems can be met, and the scaled and the original model
can differ. -/

namespace Direpack

open scoped BigOperators
open Spec

/-- Least squares solutions exist for all data. -/
theorem exists_leastSquares {n p : ℕ} (X : Fin n → Fin p → ℝ) (y : Fin n → ℝ) : ∃ b, IsLeastSquares X y b := by
  let A : Matrix (Fin n) (Fin p) ℝ := Matrix.of X
  have hle : LinearMap.range (A.transpose * A).mulVecLin ≤ LinearMap.range A.transpose.mulVecLin := by
    rintro v ⟨u, rfl⟩
    exact ⟨A.mulVec u, by simp only [Matrix.mulVecLin_apply, Matrix.mulVec_mulVec]⟩
  have heq : LinearMap.range (A.transpose * A).mulVecLin = LinearMap.range A.transpose.mulVecLin := by
    apply Submodule.eq_of_le_of_finrank_eq hle
    have h1 := Matrix.rank_transpose_mul_self A
    have h2 := Matrix.rank_transpose A
    unfold Matrix.rank at h1 h2
    rw [h1, h2]
  have hmem : A.transpose.mulVec y ∈ LinearMap.range (A.transpose * A).mulVecLin := by
    rw [heq]; exact ⟨y, rfl⟩
  obtain ⟨b, hb⟩ := hmem
  refine ⟨b, fun j => ?_⟩
  have := congrFun hb j
  simp only [Matrix.mulVecLin_apply, ← Matrix.mulVec_mulVec] at this
  simp only [Matrix.mulVec, dotProduct, Matrix.transpose_apply, A, Matrix.of_apply] at this
  simp only [mul_sub, Finset.sum_sub_distrib]
  rw [← this]; ring

/-- A least squares solver. -/
noncomputable def someLstsq {n p : ℕ} (X : Fin n → Fin p → ℝ) (y : Fin n → ℝ) : Fin p → ℝ :=
  Classical.choose (exists_leastSquares X y)

/-- Functions with the assumed properties of the third-party functions. -/
noncomputable def rmExt0 : RmExt := ⟨fun q => 10 * (q - 1 / 2), fun q _ => 10 * q, fun X y => someLstsq X y⟩

lemma rmExt0_quantiles : IsQuantiles rmExt0.normPpf rmExt0.chi2Ppf := by
  constructor
  · intro a b _ h _; simp only [rmExt0]; linarith
  · intro a h _; simp only [rmExt0]; linarith
  · intro d a b _ _ h _; simp only [rmExt0]; linarith
  · intro d a _ h _; simp only [rmExt0]; linarith

lemma rmExt0_lstsq {n p : ℕ} (X : Fin n → Fin p → ℝ) (y : Fin n → ℝ) : IsLeastSquares X y (rmExt0.lstsq X y) :=
  Classical.choose_spec (exists_leastSquares X y)

noncomputable def rmX : Fin 3 → Fin 1 → ℝ := fun i _ => ![-3, 0, 1] i
noncomputable def rmY : Fin 3 → ℝ := ![-2, 1, 0]
noncomputable def rmPr (copy : Bool) : RmParams :=
  { fn := .huber, probp1 := 95 / 100, probp2 := 975 / 1000, probp3 := 999 / 1000, centre := .median, scale := .mad
    specific := true, maxit := 2, tol := 1 / 100, copy := copy }

lemma med_pinned {n : ℕ} (x : Fin n → ℝ) (m : ℝ) (S T : Finset (Fin n)) (hS : n < 2 * S.card) (hT : n < 2 * T.card)
    (hle : ∀ i ∈ S, x i ≤ m) (hge : ∀ i ∈ T, m ≤ x i) : med x = m := by
  unfold med
  apply le_antisymm
  · apply medL_le_of_count
    rw [List.length_ofFn, countP_ofFn x (fun v => v ≤ m)]
    have : S.card ≤ (Finset.univ.filter fun i => x i ≤ m).card :=
      Finset.card_le_card fun i hi => by simp [hle i hi]
    omega
  · apply le_medL_of_count
    rw [List.length_ofFn, countP_ofFn x (fun v => m ≤ v)]
    have : T.card ≤ (Finset.univ.filter fun i => m ≤ x i).card :=
      Finset.card_le_card fun i hi => by simp [hge i hi]
    omega

lemma med3 (x : Fin 3 → ℝ) (m : ℝ) (i j k : Fin 3) (hij : i ≠ j) (hjk : j ≠ k) (hi : x i ≤ m) (hj : x j = m)
    (hk : m ≤ x k) : med x = m := by
  refine med_pinned x m {i, j} {j, k} ?_ ?_ ?_ ?_
  · rw [Finset.card_pair hij]; norm_num
  · rw [Finset.card_pair hjk]; norm_num
  · intro l hl
    simp only [Finset.mem_insert, Finset.mem_singleton] at hl
    rcases hl with rfl | rfl
    · exact hi
    · exact hj.le
  · intro l hl
    simp only [Finset.mem_insert, Finset.mem_singleton] at hl
    rcases hl with rfl | rfl
    · exact hj.ge
    · exact hk

lemma huber_ones {n : ℕ} (x : Fin n → ℝ) (c : ℝ) (hc : 1 ≤ c) (h : ∀ i, x i ≤ c) : huber x c = fun _ => 1 := by
  funext i
  simp [huber, maskSet, h i, not_lt.mpr hc]

lemma rm_medX : med (fun i => rmX i 0) = 0 :=
  med3 _ 0 0 1 2 (by decide) (by decide) (by simp [rmX]) (by simp [rmX]) (by simp [rmX])

lemma rm_medY : med rmY = 0 :=
  med3 _ 0 0 2 1 (by decide) (by decide) (by simp [rmY]) (by simp [rmY]) (by simp [rmY])

lemma rm_mad_eq {n : ℕ} (x : Fin n → ℝ) : Direpack.mad x = med (fun i => |x i - med x|) / madConst := by
  unfold Direpack.mad madL med
  rw [List.map_ofFn]; rfl

lemma rm_madX : Direpack.mad (fun i => rmX i 0) = 1 / madConst := by
  rw [rm_mad_eq, rm_medX, med3 (fun i => |rmX i 0 - 0|) 1 1 2 0 (by decide) (by decide) (by simp [rmX]) (by simp [rmX])
    (by simp [rmX])]

lemma rm_madY : Direpack.mad rmY = 1 / madConst := by
  rw [rm_mad_eq, rm_medY, med3 (fun i => |rmY i - 0|) 1 2 1 0 (by decide) (by decide) (by simp [rmY]) (by simp [rmY])
    (by simp [rmY])]

lemma madC_pos : (0 : ℝ) < madConst := by unfold madConst; norm_num

lemma rmXs : scaleMat rmX (Centre.median.run rmX) (ScaleOpt.mad.run rmX) = fun i _ => ![-3, 0, 1] i * madConst := by
  funext i j
  have hj : j = 0 := Subsingleton.elim _ _
  subst hj
  have h1 : Centre.median.run rmX 0 = 0 := rm_medX
  have h2 : ScaleOpt.mad.run rmX 0 = 1 / madConst := rm_madX
  unfold scaleMat
  rw [h1, h2, if_neg (by have := madC_pos; positivity)]
  simp only [rmX, sub_zero]
  rw [div_div_eq_mul_div, div_one]

lemma rmYs : (fun i => scaleMat (asCol rmY) (Centre.median.run (asCol rmY)) (ScaleOpt.mad.run (asCol rmY)) i 0)
    = fun i => ![-2, 1, 0] i * madConst := by
  funext i
  have h1 : Centre.median.run (asCol rmY) 0 = 0 := rm_medY
  have h2 : ScaleOpt.mad.run (asCol rmY) 0 = 1 / madConst := rm_madY
  unfold scaleMat
  rw [h1, h2, if_neg (by have := madC_pos; positivity)]
  simp only [rmY, asCol, sub_zero]
  rw [div_div_eq_mul_div, div_one]

lemma rm_dist : rowDistances (fun (i : Fin 3) (_ : Fin 1) => (![-3, 0, 1] : Fin 3 → ℝ) i * madConst) = .ok ![3, 0, 1] := by
  have hd : (fun i : Fin 3 => Real.sqrt (∑ _j : Fin 1, ((![-3, 0, 1] : Fin 3 → ℝ) i * madConst) ^ 2))
      = fun i => |(![-3, 0, 1] : Fin 3 → ℝ) i| * madConst := by
    funext i
    rw [Finset.sum_const, Finset.card_univ, Fintype.card_fin, one_smul, Real.sqrt_sq_eq_abs, abs_mul,
      abs_of_pos madC_pos]
  have hm : med (fun i => |(![-3, 0, 1] : Fin 3 → ℝ) i| * (madConst : ℝ)) = madConst :=
    med3 _ _ 1 2 0 (by decide) (by decide) (by simp [madC_pos.le]) (by simp) (by
      simp only [Matrix.cons_val_zero, abs_neg]
      rw [abs_of_pos (by norm_num)]; linarith [madC_pos])
  unfold rowDistances
  simp only [hd, hm, if_neg madC_pos.ne']
  congr 1
  funext i
  rw [show Real.sqrt (∑ _j : Fin 1, ((![-3, 0, 1] : Fin 3 → ℝ) i * madConst) ^ 2) =
    |(![-3, 0, 1] : Fin 3 → ℝ) i| * madConst from congrFun hd i, mul_div_assoc, div_self madC_pos.ne', mul_one]
  fin_cases i <;> simp

lemma rm_check (copy : Bool) : checkProbs (rmPr copy).fn (rmPr copy).probp1 (rmPr copy).probp2 (rmPr copy).probp3 = .ok () := by
  unfold checkProbs rmPr
  norm_num

lemma rm_lstsq (ext : RmExt)
    (hls : ∀ {n p : ℕ} (X : Fin n → Fin p → ℝ) (y : Fin n → ℝ), IsLeastSquares X y (ext.lstsq X y)) :
    ext.lstsq (weightRows (fun (i : Fin 3) (_ : Fin 1) => (![-3, 0, 1] : Fin 3 → ℝ) i * madConst) fun _ => 1)
      (fun i => (![-2, 1, 0] : Fin 3 → ℝ) i * madConst * Real.sqrt ((fun _ => 1 : Fin 3 → ℝ) i)) = fun _ => 3 / 5 := by
  have h := hls (weightRows (fun (i : Fin 3) (_ : Fin 1) => (![-3, 0, 1] : Fin 3 → ℝ) i * madConst) fun _ => 1)
      (fun i => (![-2, 1, 0] : Fin 3 → ℝ) i * madConst * Real.sqrt ((fun _ => 1 : Fin 3 → ℝ) i)) 0
  generalize ext.lstsq _ _ = b at h
  funext j
  have hj : j = 0 := Subsingleton.elim _ _
  subst hj
  simp [weightRows, Fin.sum_univ_succ] at h
  have hm := madC_pos
  have h2 : (madConst : ℝ) ^ 2 * (10 * b 0 - 6) = 0 := by linear_combination -h
  have h3 : 10 * b 0 - 6 = 0 := by
    rcases mul_eq_zero.mp h2 with h3 | h3
    · exact absurd h3 (by positivity)
    · exact h3
  linarith

lemma rm_resid : scaleRes (fun i => (![-2, 1, 0] : Fin 3 → ℝ) i * madConst -
      ∑ _j : Fin 1, (![-3, 0, 1] : Fin 3 → ℝ) i * madConst * (3 / 5)) =
    .ok fun i => ![1 / 3, 5 / 3, 1] i / (14826 / 10000) := by
  have hm := madC_pos
  have hr : (fun i => (![-2, 1, 0] : Fin 3 → ℝ) i * madConst -
      ∑ _j : Fin 1, (![-3, 0, 1] : Fin 3 → ℝ) i * madConst * (3 / 5)) = fun i => ![-1 / 5, 1, -3 / 5] i * madConst := by
    funext i
    rw [Finset.sum_const, Finset.card_univ, Fintype.card_fin, one_smul]
    fin_cases i <;> simp <;> ring
  rw [hr]
  have hnz : (Finset.univ.filter fun i : Fin 3 => (![-1 / 5, 1, -3 / 5] : Fin 3 → ℝ) i * madConst = 0) = ∅ := by
    apply Finset.filter_eq_empty_iff.mpr
    intro i _
    have : (![-1 / 5, 1, -3 / 5] : Fin 3 → ℝ) i ≠ 0 := by fin_cases i <;> norm_num
    exact mul_ne_zero this hm.ne'
  have ha : ∀ i, |(![-1 / 5, 1, -3 / 5] : Fin 3 → ℝ) i * madConst| = (![1 / 5, 1, 3 / 5] : Fin 3 → ℝ) i * madConst := by
    intro i
    rw [abs_mul, abs_of_pos hm]
    congr 1
    fin_cases i <;> simp [abs_div]
  have hmed : med (fun k => |(![-1 / 5, 1, -3 / 5] : Fin 3 → ℝ) k * madConst|) = 3 / 5 * madConst := by
    simp only [ha]
    refine med3 _ _ 0 2 1 (by decide) (by decide) ?_ ?_ ?_
    · simp; linarith
    · simp
    · simp; linarith
  unfold scaleRes
  rw [hmed]
  simp only [ha]
  rw [if_pos]
  · congr 1
    funext i
    fin_cases i <;> simp <;> field_simp
  · convert (by norm_num : ((0 : ℕ) : ℝ) < ((3 : ℕ) : ℝ) / 2)
    simp only [hnz]
    rfl

lemma rm_allPairs : medAllPairs (fun i => (![-2, 1, 0] : Fin 3 → ℝ) i * madConst)
    (fun i => ∑ _j : Fin 1, (![-3, 0, 1] : Fin 3 → ℝ) i * madConst * (3 / 5)) = 0 := by
  have hm := madC_pos
  have hl : (List.ofFn fun i => ∑ _j : Fin 1, (![-3, 0, 1] : Fin 3 → ℝ) i * madConst * (3 / 5)).flatMap
      (fun b => (List.ofFn fun i => (![-2, 1, 0] : Fin 3 → ℝ) i * madConst).map fun a => a - b) =
      [-1 / 5, 14 / 5, 9 / 5, -2, 1, 0, -13 / 5, 2 / 5, -3 / 5].map fun v => madConst * v + 0 := by
    simp [List.ofFn_succ]
    refine ⟨?_, ?_, ?_, ?_, ?_, ?_, ?_⟩ <;> ring
  unfold medAllPairs
  rw [hl, medL_map_affine _ _ (by simp)]
  have : medL ([-1 / 5, 14 / 5, 9 / 5, -2, 1, 0, -13 / 5, 2 / 5, -3 / 5] : List ℝ) = 0 := by
    apply le_antisymm
    · apply medL_le_of_count
      norm_num [List.countP_cons]
    · apply le_medL_of_count
      norm_num [List.countP_cons]
  rw [this]; ring

/-- The example fit, for every choice of the third-party functions with the assumed properties and quantiles that are large
enough (the true values are 1.645 and 3.84). -/
theorem rmExFit (ext : RmExt)
    (hls : ∀ {n p : ℕ} (X : Fin n → Fin p → ℝ) (y : Fin n → ℝ), IsLeastSquares X y (ext.lstsq X y))
    (hz : 27 / 20 ≤ ext.normPpf (95 / 100)) (hx : 3 ≤ ext.chi2Ppf (95 / 100) 1) (copy : Bool) :
    ∃ f, rmFit ext (rmPr copy) rmX rmY = .ok f ∧ (f.coef 0 = 3 / 5 ∧ f.intercept = -1 / 5) ∧
      (f.coefScaled 0 = 3 / 5 ∧ f.interceptScaled = 0) ∧
      (f.xLoc 0 = 0 ∧ f.xSca 0 = 1 / madConst ∧ f.yLoc = 0 ∧ f.ySca = 1 / madConst) ∧ f.caseweights = fun _ => 1 := by
  have hm := madC_pos
  have hm1 : (madConst : ℝ) ≤ 27 / 40 := by unfold madConst; norm_num
  have hcx : WFun.huber.run (![3, 0, 1] : Fin 3 → ℝ) (cutX ext true 1 (95 / 100) (975 / 1000) (999 / 1000)) = fun _ => 1 := by
    apply huber_ones
    · show 1 ≤ ext.chi2Ppf (95 / 100) 1; linarith
    · intro i
      show _ ≤ ext.chi2Ppf (95 / 100) 1
      fin_cases i <;> simp <;> linarith
  have hcy : ∀ v : Fin 3 → ℝ, (∀ i, v i ≤ 27 / 20) →
      WFun.huber.run v (cutY ext (95 / 100) (975 / 1000) (999 / 1000)) = fun _ => 1 := by
    intro v hv
    apply huber_ones
    · show 1 ≤ ext.normPpf (95 / 100); linarith
    · intro i
      show _ ≤ ext.normPpf (95 / 100)
      linarith [hv i]
  have hsy : startY (rmPr copy).centre (rmPr copy).scale (fun i => (![-2, 1, 0] : Fin 3 → ℝ) i * madConst) rmY =
      .ok fun i => |(![-2, 1, 0] : Fin 3 → ℝ) i * madConst| := by
    simp [startY, rmPr, isMedianMad]
  have hwy : WFun.huber.run (fun i => |(![-2, 1, 0] : Fin 3 → ℝ) i * madConst|)
      (cutY ext (95 / 100) (975 / 1000) (999 / 1000)) = fun _ => 1 := by
    apply hcy
    intro i
    rw [abs_mul, abs_of_pos hm]
    fin_cases i <;> simp <;> linarith
  have hwr : WFun.huber.run (fun i => (![1 / 3, 5 / 3, 1] : Fin 3 → ℝ) i / (14826 / 10000))
      (cutY ext (95 / 100) (975 / 1000) (999 / 1000)) = fun _ => 1 := by
    apply hcy
    intro i
    fin_cases i <;> norm_num
  have hstep : rmStep ext .huber (cutY ext (95 / 100) (975 / 1000) (999 / 1000))
      (fun (i : Fin 3) (_ : Fin 1) => (![-3, 0, 1] : Fin 3 → ℝ) i * madConst)
      (fun i => (![-2, 1, 0] : Fin 3 → ℝ) i * madConst) (fun _ => 1) (fun _ => 1) =
      .ok (fun _ => 3 / 5, ∑ _j : Fin 1, (3 / 5) ^ 2, fun _ => 1, fun _ => 1) := by
    unfold rmStep
    simp only [rm_lstsq ext hls, rm_resid, hwr]
  have hclip : (clipW fun _ : Fin 3 => (1 : ℝ) * 1) = fun _ => 1 := by
    funext i
    have := wMin_le_one
    simp [clipW, not_lt.mpr this]
  have hloop : rwLoop (rmStep ext .huber (cutY ext (95 / 100) (975 / 1000) (999 / 1000))
      (fun (i : Fin 3) (_ : Fin 1) => (![-3, 0, 1] : Fin 3 → ℝ) i * madConst)
      (fun i => (![-2, 1, 0] : Fin 3 → ℝ) i * madConst) (fun _ => 1)) (1 / 100) 2 ((2 : ℤ).toNat + 1) 1 (1 / 100000)
      ((1 / 100 : ℝ) < 1) (fun _ => 1) none =
      some (.ok (some ⟨fun _ => 3 / 5, fun _ => 1, fun _ => 1, fun _ => 1, ∅, 1⟩)) := by
    have h1 : ¬ ((1 : ℝ) * 1 < wMin) := by have := wMin_le_one; linarith
    rw [show ((2 : ℤ).toNat + 1) = 3 from rfl]
    rw [rwLoop, if_pos (by norm_num), hstep]
    simp only [h1, if_false, Finset.filter_false, Finset.card_empty, Option.elim]
    rw [if_neg (by norm_num), rwLoop, if_neg (by norm_num)]
    simp
  have hs1 : ScaleOpt.mad.run rmX 0 = 1 / madConst := rm_madX
  have hs2 : ScaleOpt.mad.run (asCol rmY) 0 = 1 / madConst := rm_madY
  have hsnz : ¬ ∃ j, ScaleOpt.mad.run rmX j = 0 := by
    rintro ⟨j, hj⟩
    have hj0 : j = 0 := Subsingleton.elim _ _
    subst hj0
    rw [hs1] at hj
    exact absurd hj (by positivity)
  have hbr : ∀ j : Fin 1, (1 / madConst : ℝ) / ScaleOpt.mad.run rmX j * (3 / 5) = 3 / 5 := by
    intro j
    have hj0 : j = 0 := Subsingleton.elim _ _
    subst hj0
    rw [hs1]; field_simp
  have hi : rmIntercept Centre.median (fun i => rmY i - ∑ j : Fin 1, rmX i j * (3 / 5)) = -1 / 5 := by
    have : med (fun i => rmY i - ∑ j : Fin 1, rmX i j * (3 / 5)) = -1 / 5 := by
      refine med3 _ _ 2 0 1 (by decide) (by decide) ?_ ?_ ?_ <;> simp [rmX, rmY] <;> norm_num
    exact this
  have hfit : rmFit ext (rmPr copy) rmX rmY = rmFinish (rmPr copy) rmX rmY
      (fun (i : Fin 3) (_ : Fin 1) => (![-3, 0, 1] : Fin 3 → ℝ) i * madConst)
      (fun i => (![-2, 1, 0] : Fin 3 → ℝ) i * madConst) (fun _ => 1) (Centre.median.run rmX) (ScaleOpt.mad.run rmX)
      (Centre.median.run (asCol rmY) 0) (ScaleOpt.mad.run (asCol rmY) 0)
      (some ⟨fun _ => 3 / 5, fun _ => 1, fun _ => 1, fun _ => 1, ∅, 1⟩) := by
    unfold rmFit
    rw [rm_check]
    simp only [show (rmPr copy).centre = .median from rfl, show (rmPr copy).scale = .mad from rfl, rmYs]
    simp only [rmXs, rm_dist]
    simp only [show (rmPr copy).centre = .median from rfl, show (rmPr copy).scale = .mad from rfl] at hsy
    simp only [hsy, show (rmPr copy).fn = .huber from rfl, show (rmPr copy).probp1 = 95 / 100 from rfl,
      show (rmPr copy).probp2 = 975 / 1000 from rfl, show (rmPr copy).probp3 = 999 / 1000 from rfl,
      show (rmPr copy).specific = true from rfl, show (rmPr copy).maxit = 2 from rfl,
      show (rmPr copy).tol = 1 / 100 from rfl, hcx, hwy, hclip, hloop]
  rw [hfit]
  unfold rmFinish
  simp only [if_neg hsnz, hs2, hbr, show (rmPr copy).centre = .median from rfl,
    show (rmPr copy).scale = .mad from rfl, hi]
  have hint : rmIntercepts .median .mad rmX rmY (fun (i : Fin 3) (_ : Fin 1) => (![-3, 0, 1] : Fin 3 → ℝ) i * madConst)
      (fun i => (![-2, 1, 0] : Fin 3 → ℝ) i * madConst) (fun _ => 3 / 5) (-1 / 5) = .ok (-1 / 5, 0) := by
    simp only [rmIntercepts, ScaleOpt.isNone, Centre.isMean, Bool.false_eq_true, if_false]
    rw [rm_allPairs]
  simp only [hint]
  refine ⟨_, rfl, ⟨rfl, rfl⟩, ⟨rfl, rfl⟩, ⟨rm_medX, hs1, rm_medY, rfl⟩, ?_⟩
  funext i
  simp [zeroOut]

/-- The scaled and the original model of an RM fit can describe different functions: with median centring,
`intercept_scaled_` is the median over all pairs of cases. -/
theorem C49_rm_scaled_violated (ext : RmExt)
    (hls : ∀ {n p : ℕ} (X : Fin n → Fin p → ℝ) (y : Fin n → ℝ), IsLeastSquares X y (ext.lstsq X y))
    (hz : 27 / 20 ≤ ext.normPpf (95 / 100)) (hx : 3 ≤ ext.chi2Ppf (95 / 100) 1) :
    ∃ f, rmFit ext (rmPr true) rmX rmY = .ok f ∧ (∀ j, f.xSca j ≠ 0) ∧ f.ySca ≠ 0 ∧
      affine f.coef f.intercept (fun _ => 0) ≠
        affineScaled f.coefScaled f.interceptScaled f.xLoc f.xSca f.yLoc f.ySca (fun _ => 0) := by
  obtain ⟨f, hf, ⟨h1, h2⟩, ⟨h3, h4⟩, ⟨h5, h6, h7, h8⟩, -⟩ := rmExFit ext hls hz hx true
  have hm := madC_pos
  refine ⟨f, hf, fun j => ?_, ?_, ?_⟩
  · have hj0 : j = 0 := Subsingleton.elim _ _
    subst hj0
    rw [h6]; positivity
  · rw [h8]; positivity
  · simp only [affine, affineScaled, Fin.sum_univ_one, Fin.isValue, h1, h2, h3, h4, h5, h6, h7, h8]
    norm_num

/-- Non-vacuity: there are functions with the assumed properties, and a fit with them (for either value of `copy`). -/
example (copy : Bool) : ∃ f, rmFit rmExt0 (rmPr copy) rmX rmY = .ok f := by
  obtain ⟨f, hf, -⟩ := rmExFit rmExt0 rmExt0_lstsq (by simp only [rmExt0]; norm_num) (by simp only [rmExt0]; norm_num) copy
  exact ⟨f, hf⟩

example (i : Fin 3) : ∃ f, rmFit rmExt0 (rmPr true) rmX rmY = .ok f ∧ f.predict rmX = .ok f.fitted ∧
    (f.caseweights i = 0 ∨ (1 / 1000000 ≤ f.caseweights i ∧ f.caseweights i ≤ 1)) := by
  obtain ⟨f, hf, -⟩ := rmExFit rmExt0 rmExt0_lstsq (by simp only [rmExt0]; norm_num) (by simp only [rmExt0]; norm_num) true
  exact ⟨f, hf, (C49_rm_predict_partial _ _ _ _ _ hf rfl).1,
    (C48_rm_weights _ rmExt0_quantiles _ (by norm_num [rmPr]) (by norm_num [rmPr]) (by simp [rmPr]) _ _ _ hf i).1⟩

end Direpack
