import Mathlib.Data.Fin.Tuple.Sort
import Verif.Spec.Stats
import Verif.Props.Checks
import Verif.Props.PPDirePCA

/-! C136: the published locations and scales are the statistics that were asked for. -/

namespace Direpack

open scoped BigOperators
open Spec

variable {n p : ℕ}

/-- The values in increasing order. -/
noncomputable def ordered (x : Fin n → ℝ) : Fin n → ℝ := fun i => x (Tuple.sort x i)

lemma ordered_inOrder (x : Fin n → ℝ) : InOrder x (ordered x) :=
  ⟨⟨Tuple.sort x, fun _ => rfl⟩, fun _ _ h => Tuple.monotone_sort x h⟩

lemma sortL_ordered (x : Fin n → ℝ) : sortL (List.ofFn x) = List.ofFn (ordered x) := by
  apply sortL_unique
  · exact (Tuple.sort x).ofFn_comp_perm x
  · rw [List.pairwise_iff_getElem]
    intro i j hi hj hij
    simp only [List.getElem_ofFn]
    exact Tuple.monotone_sort x (by rw [Fin.le_def]; exact hij.le)

lemma med_isMedian (hn : 0 < n) (x : Fin n → ℝ) : IsMedianOf x (med x) := by
  refine ⟨ordered x, ordered_inOrder x, ⟨(n - 1) / 2, by omega⟩, ⟨n / 2, by omega⟩, rfl, rfl, ?_⟩
  unfold med
  rw [medL_eq (ofFn_ne_nil hn x)]
  simp only [sortL_ordered, List.getElem_ofFn, List.length_ofFn]

/-- There is only one median. -/
lemma isMedian_unique (hn : 0 < n) {x : Fin n → ℝ} {m : ℝ} (h : IsMedianOf x m) : m = med x := by
  obtain ⟨v, ⟨⟨σ, hσ⟩, hv⟩, i, j, hi, hj, rfl⟩ := h
  have e : sortL (List.ofFn x) = List.ofFn v := by
    apply sortL_unique
    · have : v = fun i => x (σ i) := funext hσ
      rw [this]
      exact σ.ofFn_comp_perm x
    · rw [List.pairwise_iff_getElem]
      intro i j hi hj hij
      simp only [List.getElem_ofFn]
      exact hv _ _ (by rw [Fin.le_def]; exact hij.le)
  unfold med
  rw [medL_eq (ofFn_ne_nil hn x)]
  simp only [e, List.getElem_ofFn, List.length_ofFn]
  have h1 : i = ⟨(n - 1) / 2, by omega⟩ := Fin.ext hi
  have h2 : j = ⟨n / 2, by omega⟩ := Fin.ext hj
  rw [h1, h2]

lemma mean_average (x : Fin n → ℝ) : Direpack.mean x = average x := by
  simp [Direpack.mean, meanL, average, List.sum_ofFn]

lemma std_stdDev (x : Fin n → ℝ) : Real.sqrt (var x) = stdDev x := by
  unfold var varL stdDev
  rw [List.map_ofFn]
  simp only [meanL, List.sum_ofFn, List.length_ofFn, average, Function.comp_def]

lemma mad_isMad (hn : 0 < n) (x : Fin n → ℝ) : IsMadOf x (Direpack.mad x) := by
  refine ⟨med x, med fun i => |x i - med x|, med_isMedian hn x, med_isMedian hn _, ?_⟩
  unfold Direpack.mad madL med madConst
  rw [List.map_ofFn]
  norm_num [Function.comp_def]

lemma sum_slice (k : ℕ) (v : Fin n → ℝ) (h : 2 * k ≤ n) : (((List.ofFn v).drop k).take (n - k - k)).sum = ∑ i : Fin n, if k ≤ i.1 ∧ i.1 < n - k then v i else 0 := by
  have e : ((List.ofFn v).drop k).take (n - k - k) = List.ofFn fun i : Fin (n - k - k) => v ⟨k + i.1, by omega⟩ := by
    apply List.ext_getElem
    · simp
    · intro i h1 h2; simp
  rw [e, List.sum_ofFn, ← Finset.sum_filter]
  refine Finset.sum_bij (fun i _ => ⟨k + i.1, by omega⟩) ?_ ?_ ?_ ?_
  · intro i _; simp; omega
  · intro i _ j _ hij; ext; simp at hij; exact hij
  · intro b hb
    simp only [Finset.mem_filter, Finset.mem_univ, true_and] at hb
    exact ⟨⟨b.1 - k, by omega⟩, Finset.mem_univ _, by ext; simp; omega⟩
  · intro i _; rfl

lemma ppMean_trimmed {t : ℝ} (ht : trimOk t n) (h0 : t ≠ 0) (x : Fin n → ℝ) : IsTrimmedMeanOf t x (ppMean t x) := by
  obtain ⟨h1, -, h2⟩ := ht
  have hlt : 2 * ⌊t * n⌋₊ < n := h2.resolve_left h0
  refine ⟨ordered x, ordered_inOrder x, ?_⟩
  have hv : trimMeanL (List.ofFn x) t = .ok (some (meanL (((List.ofFn (ordered x)).drop ⌊t * n⌋₊).take (n - ⌊t * n⌋₊ - ⌊t * n⌋₊)))) := by
    unfold trimMeanL
    simp only [List.length_ofFn, sortL_ordered]
    rw [if_neg (by omega), if_neg (by simp; omega)]
  unfold ppMean meanT
  rw [if_neg h0, hv]
  simp only [ofNaN]
  unfold meanL
  rw [sum_slice _ _ (by omega)]
  congr 2
  simp
  omega

lemma isMad_unique (hn : 0 < n) {x : Fin n → ℝ} {s : ℝ} (h : IsMadOf x s) : s = Direpack.mad x := by
  obtain ⟨m, d, hm, hd, rfl⟩ := h
  rw [isMedian_unique hn hm] at hd
  rw [isMedian_unique hn hd]
  unfold Direpack.mad madL med madConst
  rw [List.map_ofFn]
  norm_num [Function.comp_def]

/-- A location asked for by name: the mean is trimmed if a trimming fraction is given. -/
def Spec.IsLocation (c : PpCentre) (t : ℝ) (x : Fin n → ℝ) (m : ℝ) : Prop :=
  match c with
  | .mean => if t = 0 then m = average x else IsTrimmedMeanOf t x m
  | .median => IsMedianOf x m

lemma loc_isLocation {t : ℝ} (hn : 0 < n) (ht : trimOk t n) (c : PpCentre) (x : Fin n → ℝ) : IsLocation c t x (c.loc t x) := by
  cases c with
  | median => exact med_isMedian hn x
  | mean =>
    show if t = 0 then _ else _
    by_cases h0 : t = 0
    · rw [if_pos h0, h0]; exact (ppMean_zero x).trans (mean_average x)
    · rw [if_neg h0]; exact ppMean_trimmed ht h0 x

/-- C136 for `ppdire`: with centring, the locations of the variables and of the response are the statistics asked for; with scaling and without trimming the scales
are the standard deviations or median absolute deviations; without scaling they are one. -/
theorem C136_ppdire_partial {pr : PpParams} {pinv : Pinv} {rg : PpReg} {φ : (Fin n → ℝ) → (Fin n → ℝ) → ℝ} {X : Fin n → Fin p → ℝ}
    {y : Fin n → ℝ} {f : PpFit n p} (h : ppFit pr pinv rg φ X y = .ok f) (hn : 0 < n) :
    (pr.centerData = true → (∀ j, IsLocation pr.centre pr.trimming (fun i => X i j) (f.xLoc j)) ∧ IsLocation pr.centre pr.trimming y f.yLoc ∧
      (pr.scaleData = false → (∀ j, f.xSca j = 1) ∧ f.ySca = 1) ∧
      (pr.scaleData = true → pr.centre = .median → (∀ j, IsMadOf (fun i => X i j) (f.xSca j)) ∧ IsMadOf y f.ySca) ∧
      (pr.scaleData = true → pr.centre = .mean → pr.trimming = 0 → (∀ j, f.xSca j = stdDev fun i => X i j) ∧ f.ySca = stdDev y)) ∧
    (pr.centerData = false → (∀ j, f.xLoc j = 0 ∧ f.xSca j = 1) ∧ f.yLoc = 0 ∧ f.ySca = 1) := by
  obtain ⟨Xs, ys, -, -, h1, h2, h3, h4, -, ht, -⟩ := ppFit_inv h
  refine ⟨fun hc => ?_, fun hc => ?_⟩
  · simp only [hc, if_true] at h1 h2 h3 h4
    refine ⟨fun j => ?_, ?_, fun hs => ?_, fun hs hm => ?_, fun hs hm h0 => ?_⟩
    · rw [h1]; exact loc_isLocation hn ht _ _
    · rw [h3]; exact loc_isLocation hn ht _ _
    · rw [h2, h4, hs]; exact ⟨fun _ => rfl, rfl⟩
    · rw [h2, h4, hs, hm]; exact ⟨fun _ => mad_isMad hn _, mad_isMad hn _⟩
    · rw [h2, h4, hs, hm, h0]
      exact ⟨fun _ => (ppStd_zero _).trans (std_stdDev _), (ppStd_zero _).trans (std_stdDev _)⟩
  · simp only [hc, Bool.false_eq_true, if_false] at h1 h2 h3 h4
    rw [h1, h2]
    exact ⟨fun _ => ⟨rfl, rfl⟩, h3, h4⟩

/-- A location and scale asked for by the names that the regression estimators know. -/
def Spec.IsCentreOf (c : Centre) (x : Fin n → ℝ) (m : ℝ) : Prop :=
  match c with
  | .mean => m = average x
  | .median => IsMedianOf x m
  | .noneOpt => m = 0
  | .other _ => True

def Spec.IsScaleOf (s : ScaleOpt) (x : Fin n → ℝ) (v : ℝ) : Prop :=
  match s with
  | .std => v = stdDev x
  | .mad => IsMadOf x v
  | .noneOpt => v = 1
  | .other _ => True

lemma centre_isCentre (hn : 0 < n) (c : Centre) (X : Fin n → Fin p → ℝ) (j : Fin p) : IsCentreOf c (fun i => X i j) (c.run X j) := by
  cases c with
  | mean => exact mean_average _
  | median => exact med_isMedian hn _
  | noneOpt => rfl
  | other f => trivial

lemma scale_isScale (hn : 0 < n) (s : ScaleOpt) (X : Fin n → Fin p → ℝ) (j : Fin p) : IsScaleOf s (fun i => X i j) (s.run X j) := by
  cases s with
  | std => exact std_stdDev _
  | mad => exact mad_isMad hn _
  | noneOpt => rfl
  | other f => trivial

/-- C136 for `snipls`. -/
theorem C136_snipls_partial {pr : SnParams} {X : Fin n → Fin p → ℝ} {y : Fin n → ℝ} {f : SnFit n p} (h : snFit pr X y = .ok f) (hn : 0 < n) :
    (∀ j, IsCentreOf pr.centre (fun i => X i j) (f.xLoc j) ∧ IsScaleOf pr.scale (fun i => X i j) (f.xSca j)) ∧
      IsCentreOf pr.centre y f.yLoc ∧ IsScaleOf pr.scale y f.ySca := by
  obtain ⟨-, h1, h2, h3, h4, -⟩ := snFit_inv h
  rw [h1, h2, h3, h4]
  exact ⟨fun j => ⟨centre_isCentre hn _ X j, scale_isScale hn _ X j⟩, centre_isCentre hn _ (asCol y) 0, scale_isScale hn _ (asCol y) 0⟩

/-- C136 for `rm`. -/
theorem C136_rm_partial {ext : RmExt} {pr : RmParams} {X : Fin n → Fin p → ℝ} {y : Fin n → ℝ} {f : RmFit n p} (h : rmFit ext pr X y = .ok f) (hn : 0 < n) :
    (∀ j, IsCentreOf pr.centre (fun i => X i j) (f.xLoc j) ∧ IsScaleOf pr.scale (fun i => X i j) (f.xSca j)) ∧
      IsCentreOf pr.centre y f.yLoc ∧ IsScaleOf pr.scale y f.ySca := by
  obtain ⟨-, h1, h2, h3, h4, -⟩ := rmFit_inv h
  rw [h1, h2, h3, h4]
  exact ⟨fun j => ⟨centre_isCentre hn _ X j, scale_isScale hn _ X j⟩, centre_isCentre hn _ (asCol y) 0, scale_isScale hn _ (asCol y) 0⟩

/-- A fit of three cases and one predictor with the median and the median absolute deviation. -/
example : ∃ f, rmFit rmExt0 (rmPr true) rmX rmY = .ok f ∧ IsMedianOf (fun i => rmX i 0) (f.xLoc 0) ∧ IsMadOf (fun i => rmX i 0) (f.xSca 0) := by
  obtain ⟨f, hf, -⟩ := rmExFit rmExt0 rmExt0_lstsq (by simp only [rmExt0]; norm_num) (by simp only [rmExt0]; norm_num) true
  have h := (C136_rm_partial hf (by norm_num)).1 0
  exact ⟨f, hf, h.1, h.2⟩

/-- C136 for `sprm`; the scale `'scaleTau2'` gives way to the median absolute deviation when one of these is zero. -/
theorem C136_sprm_partial {ext : SprmExt} {pr : SprmParams} {X : Fin n → Fin p → ℝ} {y : Fin n → ℝ} {f : SprmFit n p}
    (h : (sprmFit ext pr X y).2 = .ok f) (hn : 0 < n) :
    (∀ j, IsCentreOf pr.centre (fun i => X i j) (f.xLoc j)) ∧ IsCentreOf pr.centre y f.yLoc ∧
      (∀ s, pr.scale = .plain s → (∀ j, IsScaleOf s (fun i => X i j) (f.xSca j)) ∧ IsScaleOf s y f.ySca) ∧
      (∀ g, pr.scale = .tau2 g → (∃ j, IsMadOf (fun i => X i j) 0) → (∀ j, IsMadOf (fun i => X i j) (f.xSca j)) ∧ IsMadOf y f.ySca) := by
  obtain ⟨-, h1, h2, h3, h4, -⟩ := sprmFit_inv h
  rw [h1, h2, h3, h4]
  refine ⟨fun j => centre_isCentre hn _ X j, centre_isCentre hn _ (asCol y) 0, fun s hs => ?_, fun g hg hz => ?_⟩
  · have e : (sprmAfter pr X).scale.opt = s := by simp [sprmAfter, hs, SprmScale.resolve, SprmScale.opt]
    rw [e]
    exact ⟨fun j => scale_isScale hn _ X j, scale_isScale hn _ (asCol y) 0⟩
  · obtain ⟨j, hz⟩ := hz
    have hj : ScaleOpt.mad.run X j = 0 := (isMad_unique hn hz).symm
    have e : (sprmAfter pr X).scale.opt = .mad := by
      simp only [sprmAfter, hg, SprmScale.resolve]
      rw [if_pos ⟨j, hj⟩]
      rfl
    rw [e]
    exact ⟨fun j => mad_isMad hn _, mad_isMad hn _⟩

/-- A fit of three cases and two predictors, one of which is constant. -/
example : ∃ f, (sprmFit spExt0 (spPr true) spX rmY).2 = .ok f ∧ ∀ j, IsMedianOf (fun i => spX i j) (f.xLoc j) := by
  obtain ⟨f, hf⟩ := spExFit spExt0 (by simp only [spExt0, rmExt0]; norm_num) true
  exact ⟨f, hf, (C136_sprm_partial hf (by norm_num)).1⟩

/-- C136 for `sudire`: with centring, the locations are the statistics asked for; with the median, the scales are the median absolute deviations, or one without
scaling.  Missing: the scales reported with the mean (`C136_sudire_violated`). -/
theorem C136_sudire_partial {ext : SdExt} {o o' : SdObj} {X : Fin n → Fin p → ℝ} {y : Fin n → ℝ} {f : SdFit n p} (h : o.fit ext X y = .ok (o', f))
    (hw : o.params.whiten = false) (hc : o.params.centerData = true) :
    (∀ j, IsLocation o.params.center o.params.trimming (fun i => X i j) (f.loc j)) ∧
      (o.params.center = .median → o.params.scaleData = true → ∀ j, IsMadOf (fun i => X i j) (f.sca j)) ∧
      (o.params.center = .median → o.params.scaleData = false → ∀ j, f.sca j = 1) := by
  obtain ⟨q, L, st', pm, T, hq, -, -, -, -, rfl⟩ := SdObj.fit_ok h
  have hwp : o.params.whitened = o.params := by unfold SdParams.whitened; simp [hw]
  rw [hwp] at hq
  unfold sdPre at hq
  split at hq
  · exact absurd hq (by simp)
  · split at hq
    · exact absurd hq (by simp)
    · rename_i hnp
      have hn : 0 < n := by omega
      split at hq
      · exact absurd hq (by simp)
      · by_cases ht : ¬ trimOk o.params.trimming n
        · rw [if_pos ht] at hq; exact absurd hq (by simp)
        · rw [if_neg ht] at hq
          have ht := not_not.mp ht
          simp only [Except.ok.injEq] at hq
          subst hq
          simp only [sdWhitenStep, hw, sdScaleStep, sdCentreStep, hc, if_true, Bool.false_eq_true, if_false]
          have hl := fun j => loc_isLocation hn ht o.params.center fun i => X i j
          cases hcen : o.params.center with
          | mean =>
            rw [hcen] at hl
            refine ⟨fun j => ?_, fun h => by simp at h, fun h => by simp at h⟩
            cases hs : o.params.scaleData <;> exact hl j
          | median =>
            rw [hcen] at hl
            refine ⟨fun j => ?_, fun _ hs j => ?_, fun _ hs j => ?_⟩
            · cases hs : o.params.scaleData <;> exact hl j
            · simp only [hs, if_true]; exact mad_isMad hn _
            · simp only [hs, Bool.false_eq_true, if_false]

/-- C136 is violated for `sudire` with the mean: without scaling, `x_sca_` reports standard deviations (with divisor `n - 1`) that have not been used: the
result is the same for a fit with scaling. -/
theorem C136_sudire_violated {ext : SdExt} {o o' : SdObj} {X : Fin n → Fin p → ℝ} {y : Fin n → ℝ} {f : SdFit n p} (h : o.fit ext X y = .ok (o', f))
    (hw : o.params.whiten = false) (hc : o.params.centerData = true) (hm : o.params.center = .mean) (j : Fin p) :
    f.sca j = Real.sqrt ((∑ i, (X i j - average fun i => X i j) ^ 2) / ((n : ℝ) - 1)) := by
  obtain ⟨q, L, st', pm, T, hq, -, -, -, -, rfl⟩ := SdObj.fit_ok h
  have hwp : o.params.whitened = o.params := by unfold SdParams.whitened; simp [hw]
  rw [hwp] at hq
  unfold sdPre at hq
  split at hq
  · exact absurd hq (by simp)
  · split at hq
    · exact absurd hq (by simp)
    · split at hq
      · exact absurd hq (by simp)
      · by_cases ht : ¬ trimOk o.params.trimming n
        · rw [if_pos ht] at hq; exact absurd hq (by simp)
        · rw [if_neg ht] at hq
          simp only [Except.ok.injEq] at hq
          subst hq
          have : (sdWhitenStep ext o.params (sdScaleStep o.params X (sdCentreStep o.params X ‹_›))).sca j = Real.sqrt (covMat X j j) := by
            simp only [sdWhitenStep, hw, sdScaleStep, sdCentreStep, hc, hm, if_true, Bool.false_eq_true, if_false]
            cases o.params.scaleData <;> rfl
          dsimp only
          rw [this]
          congr 1
          simp only [covMat, Matrix.of_apply, mean_average, sq]

end Direpack
