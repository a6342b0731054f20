import Verif.Props.SudireFit
import Verif.Props.GSSPP
import Verif.Props.PPDireEquiv
import Verif.Props.SudireStart

/-! Properties C122 and C123: `sudire` does not depend on the order of the cases nor on the scale on which the response is measured. -/

namespace Direpack

open scoped BigOperators
open Spec

variable {n p : ℕ}

/-! ### Statistics of reordered cases -/

lemma mean_perm_fun (σ : Equiv.Perm (Fin n)) (x : Fin n → ℝ) : mean (fun i => x (σ i)) = mean x := mean_perm σ x

lemma covMat_perm (X : Fin n → Fin p → ℝ) (σ : Equiv.Perm (Fin n)) : covMat (fun c => X (σ c)) = covMat X := by
  ext j k
  simp only [covMat, Matrix.of_apply]
  rw [mean_perm_fun σ (fun i => X i j), mean_perm_fun σ (fun i => X i k)]
  congr 1
  exact Equiv.sum_comp σ fun c => (X c j - mean fun i => X i j) * (X c k - mean fun i => X i k)

lemma inSlice_sum_perm (y : Fin n → ℝ) (a : ℝ) (σ : Equiv.Perm (Fin n)) (f : Fin n → ℝ) :
    ∑ c ∈ inSlice (fun c => y (σ c)) a, f (σ c) = ∑ c ∈ inSlice y a, f c := by
  unfold inSlice
  rw [Finset.sum_filter, Finset.sum_filter]
  exact Equiv.sum_comp σ fun c => if y c = a then f c else 0

lemma inSlice_card_perm (y : Fin n → ℝ) (a : ℝ) (σ : Equiv.Perm (Fin n)) : (inSlice (fun c => y (σ c)) a).card = (inSlice y a).card := by
  have h := inSlice_sum_perm y a σ fun _ => 1
  simp only [Finset.sum_const, nsmul_eq_mul, mul_one] at h
  exact_mod_cast h

lemma sliceProb_perm (y : Fin n → ℝ) (a : ℝ) (σ : Equiv.Perm (Fin n)) : sliceProb (fun c => y (σ c)) a = sliceProb y a := by
  unfold sliceProb; rw [inSlice_card_perm]

lemma sliceMean_perm (X : Fin n → Fin p → ℝ) (y : Fin n → ℝ) (a : ℝ) (σ : Equiv.Perm (Fin n)) :
    sliceMean (fun c => X (σ c)) (fun c => y (σ c)) a = sliceMean X y a := by
  funext j
  unfold sliceMean
  rw [inSlice_card_perm, inSlice_sum_perm y a σ fun c => X c j]

lemma sliceCov_perm (X : Fin n → Fin p → ℝ) (y : Fin n → ℝ) (a : ℝ) (σ : Equiv.Perm (Fin n)) :
    sliceCov (fun c => X (σ c)) (fun c => y (σ c)) a = sliceCov X y a := by
  unfold sliceCov
  rw [inSlice_card_perm, sliceMean_perm]
  split
  · ext j k
    simp only [Matrix.of_apply]
    rw [inSlice_sum_perm y a σ fun c => (X c j - sliceMean X y a j) * (X c k - sliceMean X y a k)]
  · rfl

lemma kernel_perm (m : SdrMethod) {s : ℕ} (X : Fin n → Fin p → ℝ) (y : Fin n → ℝ) (lab : Fin s → ℝ) (σ : Equiv.Perm (Fin n)) :
    m.kernel (fun c => X (σ c)) (fun c => y (σ c)) lab = m.kernel X y lab := by
  cases m
  · simp only [SdrMethod.kernel, sirMat, sliceMean_perm, sliceProb_perm]
  · simp only [SdrMethod.kernel, saveMat, sliceCov_perm, sliceProb_perm]
  · simp only [SdrMethod.kernel, drMat, sliceMean_perm, sliceProb_perm, sliceCov_perm]

/-- The SIR matrix as a sum over the slices. -/
lemma sirMat_sum {s : ℕ} (X : Fin n → Fin p → ℝ) (y : Fin n → ℝ) (lab : Fin s → ℝ) :
    sirMat X y lab = ∑ i, sliceProb y (lab i) • outer (sliceMean X y (lab i)) := by
  ext j k
  rw [sirMat, Matrix.mul_apply]
  simp only [Matrix.mul_diagonal, Matrix.transpose_apply, Matrix.of_apply, Matrix.sum_apply, Matrix.smul_apply, outer, smul_eq_mul]
  exact Finset.sum_congr rfl fun i _ => by ring

/-- The order in which the labels are met does not matter. -/
lemma kernel_relabel (m : SdrMethod) {s : ℕ} (X : Fin n → Fin p → ℝ) (y : Fin n → ℝ) (lab : Fin s → ℝ) (τ : Equiv.Perm (Fin s)) :
    m.kernel X y (fun i => lab (τ i)) = m.kernel X y lab := by
  cases m
  · simp only [SdrMethod.kernel, sirMat_sum]
    exact Equiv.sum_comp τ fun i => sliceProb y (lab i) • outer (sliceMean X y (lab i))
  · simp only [SdrMethod.kernel, saveMat]
    exact Equiv.sum_comp τ fun i => sliceProb y (lab i) • ((sliceCov X y (lab i) - 1) * (sliceCov X y (lab i) - 1))
  · simp only [SdrMethod.kernel, drMat]
    rw [Equiv.sum_comp τ fun i => sliceProb y (lab i) • ((sliceCov X y (lab i) + outer (sliceMean X y (lab i))) *
        (sliceCov X y (lab i) + outer (sliceMean X y (lab i)))),
      Equiv.sum_comp τ fun i => sliceProb y (lab i) • outer (sliceMean X y (lab i))]

/-! ### Slices of reordered cases -/

lemma divPoints_perm (y : Fin n → ℝ) (h : ℕ) (σ : Equiv.Perm (Fin n)) : divPoints (fun c => y (σ c)) h = divPoints y h := by
  unfold divPoints
  simp only [ordStat_perm]

lemma foldl_mask_perm {y : Fin n → ℝ} (σ : Equiv.Perm (Fin n)) (dp : List ℝ) : ∀ (l : List ℕ) (acc acc' : Fin n → ℕ), (∀ c, acc' c = acc (σ c)) →
    ∀ c, l.foldl (fun a i => maskSet a (fun c => y (σ c) ≥ dp.getD i 0 ∧ y (σ c) < dp.getD (i + 1) 0) fun _ => i + 2) acc' c =
      l.foldl (fun a i => maskSet a (fun c => y c ≥ dp.getD i 0 ∧ y c < dp.getD (i + 1) 0) fun _ => i + 2) acc (σ c)
  | [], _, _, h, c => h c
  | i :: l, acc, acc', h, c => by
    rw [List.foldl_cons, List.foldl_cons]
    refine foldl_mask_perm σ dp l _ _ (fun d => ?_) c
    simp only [maskSet, h]

lemma discretize_perm (y : Fin n → ℝ) (h : ℕ) (σ : Equiv.Perm (Fin n)) :
    discretize (fun c => y (σ c)) h = (discretize y h).map fun l c => l (σ c) := by
  unfold discretize
  rw [divPoints_perm]
  split_ifs with h0
  · rfl
  · cases divPoints y h with
    | error e => rfl
    | ok dp =>
      dsimp only
      split_ifs with h1
      · rfl
      · simp only [Except.map, Except.ok.injEq]
        funext c
        refine foldl_mask_perm σ dp _ _ _ (fun d => ?_) c
        simp only [maskSet]

lemma sliceResponse_perm (cont : Bool) (y : Fin n → ℝ) (s : ℕ) (σ : Equiv.Perm (Fin n)) :
    sliceResponse cont (fun c => y (σ c)) s = (sliceResponse cont y s).map fun l c => l (σ c) := by
  unfold sliceResponse
  cases cont
  · rfl
  · simp only [if_true, discretize_perm]
    cases discretize y s <;> rfl

lemma numLabels_perm (y : Fin n → ℝ) (σ : Equiv.Perm (Fin n)) : numLabels (fun c => y (σ c)) = numLabels y := by
  unfold numLabels
  congr 1
  ext a
  simp only [Finset.mem_image, Finset.mem_univ, true_and]
  exact ⟨fun ⟨c, hc⟩ => ⟨σ c, hc⟩, fun ⟨c, hc⟩ => ⟨σ.symm c, by simpa using hc⟩⟩

/-- When there are not more labels than slices, reordering the cases only reorders the labels. -/
lemma sliceLabels_perm (y : Fin n → ℝ) (hn : 0 < n) (s : ℕ) (hs : numLabels y ≤ s) (σ : Equiv.Perm (Fin n)) :
    (sliceLabels y s = .error .indexError ∧ sliceLabels (fun c => y (σ c)) s = .error .indexError) ∨
      ∃ lab, ∃ τ : Equiv.Perm (Fin s), sliceLabels y s = .ok lab ∧ sliceLabels (fun c => y (σ c)) s = .ok fun i => lab (τ i) := by
  rcases Nat.lt_or_ge (numLabels y) s with h | h
  · exact Or.inl ⟨C63_too_few_labels y hn s h, C63_too_few_labels _ hn s (by rw [numLabels_perm]; exact h)⟩
  · right
    have he : s = numLabels y := by omega
    obtain ⟨lab, h1, h2, -⟩ := C63_proportions_partial y hn s he
    obtain ⟨lab0, h3, h4, h5⟩ := C63_labels y hn s (by omega)
    rw [h1] at h3
    cases h3
    obtain ⟨lab', h6, h7, h8⟩ := C63_labels (fun c => y (σ c)) hn s (by rw [numLabels_perm]; omega)
    choose g hg using h8
    choose f hf using h2
    have hft : ∀ i, lab (f (σ (g i))) = lab' i := fun i => (hf _).symm.trans (hg i)
    have hinj : Function.Injective fun i => f (σ (g i)) := by
      intro i j hij
      apply h7
      rw [← hft i, ← hft j]
      exact congrArg lab hij
    refine ⟨lab, Equiv.ofBijective _ (Finite.injective_iff_bijective.mp hinj), h1, ?_⟩
    rw [h6]
    congr 1
    funext i
    exact (hft i).symm

/-- Slicing a continuous response gives at most the number of slices asked for. -/
lemma numLabels_discretize (y : Fin n → ℝ) (hn : 0 < n) (s : ℕ) {l : Fin n → ℕ} (h : discretize y s = .ok l) :
    numLabels (fun c => (l c : ℝ)) ≤ s := by
  by_cases hs : 2 ≤ s
  · obtain ⟨lab, h1, h2, -⟩ := C61_labels y s hn hs
    rw [h] at h1
    cases h1
    unfold numLabels
    calc (Finset.univ.image fun c => (l c : ℝ)).card ≤ ((Finset.Icc 1 s).image fun k : ℕ => (k : ℝ)).card := by
          refine Finset.card_le_card fun a ha => ?_
          obtain ⟨c, -, rfl⟩ := Finset.mem_image.mp ha
          exact Finset.mem_image.mpr ⟨l c, Finset.mem_Icc.mpr (h2 c), rfl⟩
      _ ≤ (Finset.Icc 1 s).card := Finset.card_image_le
      _ = s := by simp
  · unfold discretize at h
    split_ifs at h with h0
    have h1 : s = 1 := by omega
    subst h1
    simp [divPoints, mapE] at h

/-- The slices of a response cover all cases: it is continuous, or has at most as many different values as there are slices. -/
def _root_.Direpack.Spec.SlicesCover (cont : Bool) (y : Fin n → ℝ) (s : ℕ) : Prop := cont = true ∨ (Finset.univ.image y).card ≤ s

lemma slicesCover_labels {cont : Bool} {y : Fin n → ℝ} {s : ℕ} (h : SlicesCover cont y s) (hn : 0 < n) {yd : Fin n → ℝ}
    (hy : sliceResponse cont y s = .ok yd) : numLabels yd ≤ s := by
  unfold sliceResponse at hy
  cases cont
  · simp only [Bool.false_eq_true, if_false, Except.ok.injEq] at hy
    subst hy
    rcases h with h | h
    · exact absurd h (by simp)
    · exact h
  · simp only [if_true] at hy
    cases hd : discretize y s with
    | error e => rw [hd] at hy; exact absurd hy (by simp)
    | ok l =>
      rw [hd] at hy
      cases hy
      exact numLabels_discretize y hn s hd

/-! ### The methods on reordered cases -/

lemma sdrRoot_perm (eigh : Eigh) (scale : Bool) (X : Fin n → Fin p → ℝ) (σ : Equiv.Perm (Fin n)) :
    sdrRoot eigh scale (fun c => X (σ c)) = sdrRoot eigh scale X := by
  unfold sdrRoot; rw [covMat_perm]

lemma sdrZ_perm (center scale : Bool) (X : Fin n → Fin p → ℝ) (S : Matrix (Fin p) (Fin p) ℝ) (σ : Equiv.Perm (Fin n)) :
    sdrScale scale (sdrCentre center fun c => X (σ c)) S = fun c => sdrScale scale (sdrCentre center X) S (σ c) := by
  have h : (sdrCentre center fun c => X (σ c)) = fun c => sdrCentre center X (σ c) := by
    cases center
    · rfl
    · funext c j
      simp only [sdrCentre, if_true]
      rw [mean_perm_fun σ fun i => X i j]
  rw [h]
  cases scale <;> rfl

lemma sliceMethod_perm (m : SdrMethod) (eigh : Eigh) (X : Fin n → Fin p → ℝ) (y : Fin n → ℝ) (s d : ℕ) (cont center scale : Bool)
    (hs : SlicesCover cont y s) (σ : Equiv.Perm (Fin n)) :
    sliceMethod m eigh (fun c => X (σ c)) (fun c => y (σ c)) s d cont center scale = sliceMethod m eigh X y s d cont center scale := by
  unfold sliceMethod
  rw [sdrRoot_perm, sliceResponse_perm]
  by_cases hn : n < 2 ∨ p < 2
  · rw [if_pos hn, if_pos hn]
  · rw [if_neg hn, if_neg hn]
    cases sdrRoot eigh scale X with
    | error e => rfl
    | ok S =>
      dsimp only
      cases hy : sliceResponse cont y s with
      | error e => rfl
      | ok yd =>
        simp only [Except.map]
        rcases sliceLabels_perm yd (by omega) s (slicesCover_labels hs (by omega) hy) σ with ⟨h1, h2⟩ | ⟨lab, τ, h1, h2⟩
        · rw [h1, h2]
        · rw [h1, h2]
          dsimp only
          rw [sdrZ_perm, kernel_perm m (sdrScale scale (sdrCentre center X) S) yd _ σ, kernel_relabel]

lemma phdMat_perm (X : Fin n → Fin p → ℝ) (y : Fin n → ℝ) (σ : Equiv.Perm (Fin n)) : phdMat (fun c => X (σ c)) (fun c => y (σ c)) = phdMat X y := by
  ext j k
  simp only [phdMat, Matrix.of_apply]
  rw [mean_perm_fun σ y]
  congr 1
  exact Equiv.sum_comp σ fun c => X c j * (y c - mean y) * X c k

lemma phd_perm (eigh : Eigh) (X : Fin n → Fin p → ℝ) (y : Fin n → ℝ) (d : ℕ) (center scale : Bool) (σ : Equiv.Perm (Fin n)) :
    phd eigh (fun c => X (σ c)) (fun c => y (σ c)) d center scale = phd eigh X y d center scale := by
  unfold phd
  rw [sdrRoot_perm]
  simp only [sdrZ_perm, phdMat_perm]

lemma ihtCols_perm (eigh : Eigh) (X : Fin n → Fin p → ℝ) (y : Fin n → ℝ) (σ : Equiv.Perm (Fin n)) :
    ihtCols eigh (fun c => X (σ c)) (fun c => y (σ c)) = ihtCols eigh X y := by
  have h : covXY (fun c => X (σ c)) (fun c => y (σ c)) = covXY X y := by
    funext j
    unfold covXY
    rw [mean_perm_fun σ y, mean_perm_fun σ fun i => X i j]
    congr 1
    exact Equiv.sum_comp σ fun c => (y c - mean y) * (X c j - mean fun i => X i j)
  unfold ihtCols
  rw [h, covMat_perm]

lemma iht_perm (eigh : Eigh) (X : Fin n → Fin p → ℝ) (y : Fin n → ℝ) (d : ℕ) (center scale : Bool) (σ : Equiv.Perm (Fin n)) :
    iht eigh (fun c => X (σ c)) (fun c => y (σ c)) d center scale = iht eigh X y d center scale := by
  unfold iht
  rw [sdrRoot_perm]
  simp only [sdrZ_perm, ihtCols_perm]

/-! ### The whole fit -/

/-- Preprocessed data of reordered cases. -/
def SdPre.reorder (q : SdPre n p) (σ : Equiv.Perm (Fin n)) : SdPre n p := { q with Xs := fun c => q.Xs (σ c) }

lemma sdPre_perm (ext : SdExt) (pr : SdParams) (hw : pr.whiten = false) (X : Fin n → Fin p → ℝ) (σ : Equiv.Perm (Fin n)) :
    sdPre ext pr (fun c => X (σ c)) = (sdPre ext pr X).map fun q => q.reorder σ := by
  have hmed : ∀ j, med (fun i => X (σ i) j) = med fun i => X i j := fun j => C05_median_perm σ fun i => X i j
  have hmad : ∀ j, mad (fun i => X (σ i) j) = mad fun i => X i j := fun j => C07_mad_perm σ fun i => X i j
  have hpm : ∀ j, ppMean pr.trimming (fun i => X (σ i) j) = ppMean pr.trimming fun i => X i j := fun j => ppMean_perm pr.trimming σ fun i => X i j
  unfold sdPre
  rw [covMat_perm]
  by_cases h1 : min n p < pr.nComp
  · rw [if_pos h1, if_pos h1]; rfl
  rw [if_neg h1, if_neg h1]
  by_cases h2 : n < 2 ∨ p < 2
  · rw [if_pos h2, if_pos h2]; rfl
  rw [if_neg h2, if_neg h2]
  cases ext.rootInv (covMat X) with
  | error e => rfl
  | ok N2 =>
    dsimp only
    by_cases h3 : ¬ trimOk pr.trimming n
    · rw [if_pos h3, if_pos h3]; rfl
    · rw [if_neg h3, if_neg h3]
      simp only [Except.map, Except.ok.injEq, sdWhitenStep, hw, Bool.false_eq_true, if_false]
      unfold sdScaleStep sdCentreStep SdPre.reorder
      cases pr.scaleData <;> cases pr.centerData <;> cases pr.center <;>
        simp only [if_true, if_false, Bool.false_eq_true, hmed, hmad, hpm, covMat_perm] <;> rfl

lemma addConstant_perm {h : ℕ} (T : Fin n → Fin h → ℝ) (σ : Equiv.Perm (Fin n)) :
    addConstant (fun c => T (σ c)) = ⟨(addConstant T).1, fun c => (addConstant T).2 (σ c)⟩ := by
  have hc : (∃ j, IsConstCol (fun c => T (σ c)) j) ↔ ∃ j, IsConstCol T j := by
    refine exists_congr fun j => ?_
    unfold IsConstCol
    refine and_congr ⟨fun h c c' => ?_, fun h c c' => h _ _⟩ ⟨fun h c => ?_, fun h c => h _⟩
    · simpa using h (σ.symm c) (σ.symm c')
    · simpa using h (σ.symm c)
  unfold addConstant
  by_cases h : ∃ j, IsConstCol T j
  · rw [if_pos h, if_pos (hc.mpr h)]
  · rw [if_neg h, if_neg fun h' => h (hc.mp h')]

/-- A fitted model for reordered cases: only the scores of the training data are reordered. -/
def SdFit.reorder (f : SdFit n p) (σ : Equiv.Perm (Fin n)) : SdFit n p := { f with T := fun c => f.T (σ c) }

/-- The least squares routine does not depend on the order of the cases. -/
def _root_.Direpack.Spec.OlsOrderFree (ols : {n k : ℕ} → (Fin n → Fin k → ℝ) → (Fin n → ℝ) → Fin k → ℝ) : Prop :=
  ∀ {n k : ℕ} (A : Fin n → Fin k → ℝ) (y : Fin n → ℝ) (σ : Equiv.Perm (Fin n)), ols (fun c => A (σ c)) (fun c => y (σ c)) = ols A y

lemma sdDirections_perm (ext : SdExt) (pr : SdParams) (hm : pr.meth.direct) {y : Fin n → ℝ}
    (hs : ∀ m, pr.meth = .slice m → SlicesCover pr.continuous y pr.nSlices) (st st' : SdState) (q : SdPre n p) (σ : Equiv.Perm (Fin n)) :
    sdDirections ext pr st' (q.reorder σ) (fun c => y (σ c)) = (sdDirections ext pr st q y).map fun r => (r.1, st') := by
  unfold sdDirections SdPre.reorder
  cases hmeth : pr.meth with
  | slice m =>
    dsimp only
    rw [sliceMethod_perm m ext.eigh q.Xs y pr.nSlices pr.nComp pr.continuous pr.centerData pr.scaleData (hs m hmeth) σ]
    cases sliceMethod m ext.eigh q.Xs y pr.nSlices pr.nComp pr.continuous pr.centerData pr.scaleData <;> rfl
  | phd =>
    dsimp only
    rw [phd_perm]
    cases phd ext.eigh q.Xs y pr.nComp pr.centerData pr.scaleData <;> rfl
  | iht =>
    dsimp only
    rw [iht_perm]
    cases iht ext.eigh q.Xs y pr.nComp pr.centerData pr.scaleData <;> rfl
  | dcov => rw [hmeth] at hm; exact hm.elim
  | opt o => rw [hmeth] at hm; exact hm.elim

/-- C122 (partial: methods that are not based on optimisation, slices that cover all cases, no whitening): a fit on the same cases in another order is the
same model; the scores of the training data are in the new order. -/
theorem C122_order_partial (ext : SdExt) (ho : OlsOrderFree ext.ols) (o : SdObj) (hm : o.params.meth.direct) (hw : o.params.whiten = false)
    (hc : o.params.copy = true) (X : Fin n → Fin p → ℝ) (y : Fin n → ℝ)
    (hs : ∀ m, o.params.meth = .slice m → SlicesCover o.params.continuous y o.params.nSlices) (σ : Equiv.Perm (Fin n)) :
    (o.fit ext (fun c => X (σ c)) fun c => y (σ c)).map Prod.snd = (o.fit ext X y).map fun r => r.2.reorder σ := by
  have hwp : o.params.whitened = o.params := by unfold SdParams.whitened; simp [hw]
  unfold SdObj.fit
  dsimp only
  rw [hwp, sdPre_perm ext o.params hw X σ]
  cases sdPre ext o.params X with
  | error e => rfl
  | ok q =>
    simp only [Except.map]
    rw [sdDirections_perm ext o.params hm hs (o.state.setX0 o.params.copy X) (o.state.setX0 o.params.copy fun c => X (σ c)) q σ]
    cases hd : sdDirections ext o.params (o.state.setX0 o.params.copy X) q y with
    | error e => rfl
    | ok r =>
      obtain ⟨L, st'⟩ := r
      have hx := sdDirections_x0 hd
      simp only [Except.map]
      cases projMat L.P with
      | error e => rfl
      | ok pm =>
        dsimp only
        have e1 : (o.state.setX0 o.params.copy fun c => X (σ c)).x0 = some ⟨n, p, fun c => X (σ c)⟩ := by rw [hc]; rfl
        have e2 : (o.state.setX0 o.params.copy X).x0 = some ⟨n, p, X⟩ := by rw [hc]; rfl
        rw [hx, e1, e2, sdScores_self, sdScores_self]
        dsimp only
        have e3 : (matX (fun c => X (σ c)) L.P) = fun c => matX X L.P (σ c) := rfl
        have e4 := ho (addConstant (matX X L.P)).2 y σ
        dsimp only at e4
        rw [e3, addConstant_perm]
        dsimp only
        rw [e4]
        by_cases hr : o.params.returnScaling = true ∧ o.params.center.isMean = false ∧ q.centring = false
        · have hr' : o.params.returnScaling = true ∧ o.params.center.isMean = false ∧ (q.reorder σ).centring = false := hr
          rw [if_pos hr, if_pos hr']
        · have hr' : ¬ (o.params.returnScaling = true ∧ o.params.center.isMean = false ∧ (q.reorder σ).centring = false) := hr
          rw [if_neg hr, if_neg hr']
          rfl

/-! ### Fewer slices than labels -/

/-- A fit whose loadings are orthonormal. -/
lemma SdObj.fit_intro {ext : SdExt} {o : SdObj} (hw : o.params.whiten = false) (hc : o.params.copy = true) (hr : o.params.returnScaling = false)
    (hm : o.params.meth.direct) {X : Fin n → Fin p → ℝ} {y : Fin n → ℝ} {q : SdPre n p} (hq : sdPre ext o.params X = .ok q) {L : SdLoad p}
    (hd : sdDirections ext o.params .init q y = .ok (L, .init)) (hL : L.P.transpose * L.P = 1) :
    ∃ o' f, o.fit ext X y = .ok (o', f) ∧ f.proj = L.P * L.P.transpose := by
  have hwp : o.params.whitened = o.params := by unfold SdParams.whitened; simp [hw]
  have hpm : projMat L.P = .ok (L.P * L.P.transpose) := by
    unfold projMat
    rw [hL, if_pos (by simp), inv_one, Matrix.mul_one]
  unfold SdObj.fit
  dsimp only
  rw [hwp, hq]
  dsimp only
  rw [sdDirections_direct hm, hd]
  simp only [Except.map]
  rw [hpm]
  dsimp only
  have e2 : (o.state.setX0 o.params.copy X).x0 = some ⟨n, p, X⟩ := by rw [hc]; rfl
  rw [e2, sdScores_self]
  dsimp only
  rw [if_neg (by rw [hr]; simp)]
  exact ⟨_, _, rfl, rfl⟩

/-- Sliced inverse regression with one slice and one component for a discrete response, raw data. -/
def oneSlice : SdParams where
  meth := .slice .sir
  nComp := 1
  trimming := 0
  centerData := false
  center := .mean
  scaleData := false
  whiten := false
  nSlices := 1
  copy := true
  continuous := false
  returnScaling := false

lemma sirMat_oneSlice {y : Fin n → ℝ} (hy : Function.Injective y) (X : Fin n → Fin p → ℝ) (hn : 1 ≤ n) :
    sirMat X y (fun i : Fin 1 => y (Fin.castLE hn i)) = (1 / n : ℝ) • outer (X ⟨0, hn⟩) := by
  have h0 : Fin.castLE hn 0 = (⟨0, hn⟩ : Fin n) := rfl
  rw [sirMat_sum, Fin.sum_univ_one, h0]
  unfold sliceProb
  have hm : sliceMean X y (y ⟨0, hn⟩) = X ⟨0, hn⟩ := by
    funext j
    unfold sliceMean
    rw [inSlice_inj hy]
    simp
  rw [hm, inSlice_inj hy]
  simp

lemma oneSlice_fit {ext : SdExt} {X : Fin 6 → Fin 2 → ℝ} {y : Fin 6 → ℝ} (hy : Function.Injective y) {N : Matrix (Fin 2) (Fin 2) ℝ}
    (hN : ext.rootInv (covMat X) = .ok N) (he : IsEigh ext.eigh) :
    ∃ o' f, (SdObj.new oneSlice).fit ext X y = .ok (o', f) ∧
      f.proj = leading ext.eigh ((1 / 6 : ℝ) • outer (X 0)) 1 * (leading ext.eigh ((1 / 6 : ℝ) • outer (X 0)) 1).transpose := by
  have hq : sdPre ext oneSlice X = .ok ⟨X, N, fun _ => 0, fun _ => 1, false⟩ := by
    rw [sdPre, if_neg (by decide), if_neg (by norm_num), hN]
    dsimp only
    rw [if_neg]
    · simp [sdWhitenStep, sdScaleStep, sdCentreStep, oneSlice]
    · rw [not_not]
      refine ⟨le_rfl, ?_, Or.inl rfl⟩
      simp only [oneSlice]
      norm_num
  have hB : sliceMethod .sir ext.eigh X y 1 1 false false false = .ok (leading ext.eigh ((1 / 6 : ℝ) • outer (X 0)) 1) := by
    rw [sliceMethod, if_neg (by norm_num)]
    simp only [sdrRoot, sliceResponse, Bool.false_eq_true, if_false]
    rw [sliceLabels_inj hy (by norm_num) (by norm_num)]
    dsimp only
    rw [if_neg (by norm_num)]
    simp only [SdrMethod.kernel, sdrScale, sdrCentre, sdrBack, Bool.false_eq_true, if_false]
    rw [sirMat_oneSlice hy X (by norm_num)]
    norm_num
  refine SdObj.fit_intro (o := SdObj.new oneSlice) rfl rfl rfl trivial (q := ⟨X, N, fun _ => 0, fun _ => 1, false⟩) hq (L := ⟨_, leading ext.eigh ((1 / 6 : ℝ) • outer (X 0)) 1⟩) ?_ ?_
  · unfold sdDirections
    simp only [SdObj.new, oneSlice]
    rw [hB]
    simp [sdMapBack]
  · exact leading_orth he (by rw [Matrix.transpose_smul, outer_symm]) 1

/-- C122 is violated for a discrete response with more different values than slices: only the values met first are used, so another order of the cases gives
another subspace. -/
theorem C122_few_slices_violated : ∃ (pr : SdParams) (X : Fin 6 → Fin 2 → ℝ) (y : Fin 6 → ℝ) (σ : Equiv.Perm (Fin 6)),
    pr.meth = .slice .sir ∧ pr.continuous = false ∧ pr.nSlices < (Finset.univ.image y).card ∧
    ∀ (ext : SdExt) (N : Matrix (Fin 2) (Fin 2) ℝ), IsEigh ext.eigh → ext.rootInv (covMat X) = .ok N →
      ∃ o f o' f', (SdObj.new pr).fit ext X y = .ok (o, f) ∧ (SdObj.new pr).fit ext (fun c => X (σ c)) (fun c => y (σ c)) = .ok (o', f') ∧
        f.proj ≠ f'.proj := by
  refine ⟨oneSlice, sixX 1, sixY, Equiv.swap 0 2, rfl, rfl, ?_, ?_⟩
  · rw [Finset.card_image_of_injective _ sixY_inj]
    simp [oneSlice]
  · intro ext N he hN
    obtain ⟨o, f, hf, hp⟩ := oneSlice_fit sixY_inj hN he
    obtain ⟨o', f', hf', hp'⟩ := oneSlice_fit (X := fun c => sixX 1 (Equiv.swap 0 2 c)) (y := fun c => sixY (Equiv.swap 0 2 c))
      (sixY_inj.comp (Equiv.injective _)) (by rw [covMat_perm]; exact hN) he
    refine ⟨o, f, o', f', hf, hf', ?_⟩
    have e1 : ((1 / 6 : ℝ) • outer (sixX 1 0) : Matrix (Fin 2) (Fin 2) ℝ) = Matrix.diagonal ![1 / 6, 0] := by
      ext j k
      fin_cases j <;> fin_cases k <;> simp [outer, sixX]
    have e2 : ((1 / 6 : ℝ) • outer (sixX 1 (Equiv.swap 0 2 0)) : Matrix (Fin 2) (Fin 2) ℝ) = Matrix.diagonal ![0, 1 / 6] := by
      rw [Equiv.swap_apply_left]
      ext j k
      fin_cases j <;> fin_cases k <;> simp [outer, sixX]
    rw [e1] at hp
    rw [e2] at hp'
    have h1 := leading_fst he (show (0 : ℝ) < 1 / 6 by norm_num) ⟨0, by norm_num⟩
    have h2 := fun k => (leading_snd he (show (0 : ℝ) < 1 / 6 by norm_num) k).1
    intro hc
    rw [hp, hp'] at hc
    have h3 := congrFun (congrFun hc 0) 0
    rw [Matrix.mul_apply, Matrix.mul_apply] at h3
    simp only [Matrix.transpose_apply, h2, mul_zero, Finset.sum_const_zero] at h3
    have h4 := (Finset.sum_eq_zero_iff_of_nonneg fun k _ => mul_self_nonneg _).mp h3 ⟨0, by norm_num⟩ (Finset.mem_univ _)
    exact h1.2 (mul_self_eq_zero.mp h4)

/-- External routines that meet the hypotheses of the theorems on the order of the cases. -/
example : ∃ (ext : SdExt) (N : Matrix (Fin 2) (Fin 2) ℝ), IsEigh ext.eigh ∧ IsRootInv ext.rootInv ∧ OlsOrderFree ext.ols ∧
    ext.rootInv (covMat (sixX 1)) = .ok N := by
  obtain ⟨eigh, he⟩ := exists_eigh
  refine ⟨exExt eigh, _, he, ?_, fun A y σ => rfl, by rw [sixX_cov]; exact invSqrt_const he (by norm_num)⟩
  intro p A N hA h
  exact invSqrt_spec he hA h

/-! ### C123: scale of the response -/

lemma divAt_mem (y : Fin n → ℝ) (h : ℕ) (hn : 0 < n) {i : ℕ} (hi : i < h - 1) : ordStat y ((i + 1) * (n / h)) = .ok (divAt y h i) := by
  have hl : (i + 1) * (n / h) < (sortL (List.ofFn y)).length := by rw [sortL_length, List.length_ofFn]; exact divIdx_lt hn hi
  unfold ordStat divAt
  rw [List.getElem?_eq_getElem hl, List.getD_eq_getElem _ _ hl]

/-- The slices of a response depend on its order only. -/
lemma discretize_mono (y : Fin n → ℝ) (g : ℝ → ℝ) (hg : ∀ c d, g (y c) ≤ g (y d) ↔ y c ≤ y d) (h : ℕ) :
    discretize (fun c => g (y c)) h = discretize y h := by
  rcases Nat.eq_zero_or_pos n with rfl | hn
  · congr 1
    exact Subsingleton.elim _ _
  by_cases hh : 2 ≤ h
  · rw [discretize_ok _ h hn hh, discretize_ok y h hn hh]
    congr 1
    funext c
    congr 1
    unfold divCount
    congr 1
    refine Finset.filter_congr fun i hi => ?_
    have hi' := Finset.mem_range.mp hi
    have h1 := divAt_mem y h hn hi'
    have h2 := divAt_mem (fun c => g (y c)) h hn hi'
    rw [ordStat_comp y g _ hg, h1] at h2
    simp only [Except.map, Except.ok.injEq] at h2
    obtain ⟨⟨j, hj⟩, -⟩ := ordStat_isKth h1
    rw [← h2, ← hj]
    exact hg j c
  · have : h = 0 ∨ h = 1 := by omega
    rcases this with rfl | rfl
    · rfl
    · rfl

lemma labelLoop_map (g : ℝ → ℝ) : ∀ (fuel : ℕ) (l : List ℝ), (∀ a ∈ l, ∀ b ∈ l, g a = g b → a = b) →
    labelLoop fuel (l.map g) = ((labelLoop fuel l).1.map g, (labelLoop fuel l).2.map g)
  | 0, l, _ => rfl
  | fuel + 1, [], h => by
    rw [List.map_nil, labelLoop]
    split_ifs
    · rfl
    · have := labelLoop_map g fuel [] h
      rw [List.map_nil] at this
      exact this
  | fuel + 1, a :: r, h => by
    have hv : varL ((a :: r).map g) = 0 ↔ varL (a :: r) = 0 := by
      rw [varL_zero_iff_same (by simp), varL_zero_iff_same (by simp)]
      unfold AllSame
      constructor
      · intro hs x hx z hz
        exact h x hx z hz (hs _ (List.mem_map_of_mem hx) _ (List.mem_map_of_mem hz))
      · intro hs x hx z hz
        obtain ⟨x', hx', rfl⟩ := List.mem_map.mp hx
        obtain ⟨z', hz', rfl⟩ := List.mem_map.mp hz
        rw [hs x' hx' z' hz']
    rw [labelLoop.eq_def (fuel + 1) (a :: r), labelLoop.eq_def (fuel + 1) ((a :: r).map g)]
    dsimp only
    by_cases h0 : varL (a :: r) = 0
    · rw [if_neg (not_not.mpr h0), if_neg (not_not.mpr (hv.mpr h0))]
      exact labelLoop_map g fuel _ h
    · rw [if_pos h0, if_pos fun h' => h0 (hv.mp h')]
      simp only [List.map_cons]
      have hfil : (g a :: r.map g).filter (fun b => decide (b ≠ g a)) = ((a :: r).filter fun b => decide (b ≠ a)).map g := by
        rw [← List.map_cons, List.filter_map]
        congr 1
        refine List.filter_congr fun x hx => ?_
        simp only [Function.comp, ne_eq, decide_not, Bool.not_eq_eq_eq_not, Bool.not_not, decide_eq_decide]
        exact ⟨fun e => h x hx a (List.mem_cons_self ..) e, fun e => by rw [e]⟩
      rw [hfil, labelLoop_map g fuel _ fun x hx z hz => h x (List.mem_of_mem_filter hx) z (List.mem_of_mem_filter hz)]

lemma sliceLabels_map (y : Fin n → ℝ) (g : ℝ → ℝ) (hg : ∀ c d, g (y c) = g (y d) → y c = y d) (s : ℕ) :
    sliceLabels (fun c => g (y c)) s = (sliceLabels y s).map fun lab i => g (lab i) := by
  have h := labelLoop_map g n (List.ofFn y) (by
    intro a ha b hb hab
    obtain ⟨c, rfl⟩ := (List.mem_ofFn' _ _).mp ha
    obtain ⟨d, rfl⟩ := (List.mem_ofFn' _ _).mp hb
    exact hg c d hab)
  rw [List.map_ofFn] at h
  have hy : yLabels (fun c => g (y c)) = (yLabels y).map fun l => l.map g := by
    unfold yLabels
    have h' : labelLoop n (List.ofFn fun c => g (y c)) = _ := h
    rw [h']
    generalize labelLoop n (List.ofFn y) = r
    obtain ⟨acc, rest⟩ := r
    cases rest with
    | nil => rfl
    | cons a l => simp [Except.map]
  unfold sliceLabels
  rw [hy]
  cases yLabels y with
  | error e => rfl
  | ok l =>
    dsimp only [Except.map]
    by_cases hs : s ≤ l.length
    · have hs' : s ≤ (l.map g).length := by simpa using hs
      rw [dif_pos hs, dif_pos hs']
      simp only [Except.ok.injEq]
      funext i
      simp only [List.get_eq_getElem, List.getElem_map]
      rfl
    · have hs' : ¬ s ≤ (l.map g).length := by simpa using hs
      rw [dif_neg hs, dif_neg hs']

lemma sliceLabels_mem {y : Fin n → ℝ} (hn : 0 < n) {s : ℕ} {lab : Fin s → ℝ} (h : sliceLabels y s = .ok lab) (i : Fin s) : ∃ d, y d = lab i := by
  rcases Nat.lt_or_ge (numLabels y) s with h' | h'
  · rw [C63_too_few_labels y hn s h'] at h
    exact absurd h (by simp)
  · obtain ⟨lab', h1, -, h2⟩ := C63_labels y hn s h'
    rw [h] at h1
    cases h1
    exact h2 i

lemma inSlice_map (y : Fin n → ℝ) (g : ℝ → ℝ) (hg : ∀ c d, g (y c) = g (y d) → y c = y d) {a : ℝ} (ha : ∃ d, y d = a) :
    inSlice (fun c => g (y c)) (g a) = inSlice y a := by
  obtain ⟨d, rfl⟩ := ha
  unfold inSlice
  exact Finset.filter_congr fun c _ => ⟨hg c d, fun e => congrArg g e⟩

/-- Two responses that a slicing method should not tell apart: the same order for a continuous response, the same groups for a discrete one. -/
def _root_.Direpack.Spec.SameResponse (cont : Bool) (y y' : Fin n → ℝ) : Prop :=
  if cont then ∀ c d, y' c ≤ y' d ↔ y c ≤ y d else ∀ c d, y' c = y' d ↔ y c = y d

lemma factor_response {y y' : Fin n → ℝ} (h : ∀ c d, y c = y d → y' c = y' d) : ∃ g : ℝ → ℝ, y' = fun c => g (y c) := by
  have hf : Function.FactorsThrough y' y := fun c d e => h c d e
  exact ⟨Function.extend y y' fun _ => 0, funext fun c => (hf.extend_apply _ c).symm⟩

lemma sliceMethod_response (m : SdrMethod) (eigh : Eigh) (X : Fin n → Fin p → ℝ) {y y' : Fin n → ℝ} (s d : ℕ) {cont : Bool} (center scale : Bool)
    (h : SameResponse cont y y') : sliceMethod m eigh X y' s d cont center scale = sliceMethod m eigh X y s d cont center scale := by
  cases cont with
  | true =>
    have h' : ∀ c d, y' c ≤ y' d ↔ y c ≤ y d := by simpa [SameResponse] using h
    obtain ⟨g, rfl⟩ := factor_response (y := y) (y' := y') fun c d e => le_antisymm ((h' c d).mpr e.le) ((h' d c).mpr e.ge)
    unfold sliceMethod sliceResponse
    simp only [if_true]
    rw [discretize_mono y g h' s]
  | false =>
    have h' : ∀ c d, y' c = y' d ↔ y c = y d := by simpa [SameResponse] using h
    obtain ⟨g, rfl⟩ := factor_response (y := y) (y' := y') fun c d e => (h' c d).mpr e
    unfold sliceMethod
    by_cases h1 : n < 2 ∨ p < 2
    · rw [if_pos h1, if_pos h1]
    · rw [if_neg h1, if_neg h1]
      cases sdrRoot eigh scale X with
      | error e => rfl
      | ok S =>
        simp only [sliceResponse, Bool.false_eq_true, if_false]
        rw [sliceLabels_map y g (fun c d => (h' c d).mp)]
        cases hl : sliceLabels y s with
        | error e => rfl
        | ok lab =>
          simp only [Except.map]
          have hlab : ∀ i, ∃ d, y d = lab i := sliceLabels_mem (by omega) hl
          rw [kernel_congr m _ (y' := y) (lab' := lab) fun i => inSlice_map y g (fun c d => (h' c d).mp) (hlab i)]

/-- A fitted model without the regression on the scores. -/
def SdFit.subspace (f : SdFit n p) : SdFit n p := { f with coef := fun _ => 0 }

/-- C123: the slicing methods use only the order of a continuous response and only the groups of a discrete one: the loadings, the projection, the scores
and the location and scale of the predictors are the same; only the regression on the scores differs. -/
theorem C123_response (ext : SdExt) (o : SdObj) {m : SdrMethod} (hm : o.params.meth = .slice m) (X : Fin n → Fin p → ℝ) {y y' : Fin n → ℝ}
    (h : SameResponse o.params.continuous y y') :
    (o.fit ext X y').map (fun r => r.2.subspace) = (o.fit ext X y).map fun r => r.2.subspace := by
  have hmw : o.params.whitened.meth = .slice m := by unfold SdParams.whitened; split_ifs <;> exact hm
  have hcw : o.params.whitened.continuous = o.params.continuous := by unfold SdParams.whitened; split_ifs <;> rfl
  unfold SdObj.fit
  dsimp only
  cases sdPre ext o.params.whitened X with
  | error e => rfl
  | ok q =>
    dsimp only
    have hd : sdDirections ext o.params.whitened (o.state.setX0 o.params.whitened.copy X) q y' =
        sdDirections ext o.params.whitened (o.state.setX0 o.params.whitened.copy X) q y := by
      unfold sdDirections
      rw [hmw]
      dsimp only
      rw [sliceMethod_response m ext.eigh q.Xs _ _ _ _ (hcw ▸ h)]
    rw [hd]
    cases sdDirections ext o.params.whitened (o.state.setX0 o.params.whitened.copy X) q y with
    | error e => rfl
    | ok r =>
      obtain ⟨L, st'⟩ := r
      dsimp only
      cases projMat L.P with
      | error e => rfl
      | ok pm =>
        dsimp only
        cases sdScores st'.x0 n L with
        | error e => rfl
        | ok T =>
          dsimp only
          by_cases hr : o.params.whitened.returnScaling = true ∧ o.params.whitened.center.isMean = false ∧ q.centring = false
          · rw [if_pos hr, if_pos hr]
          · rw [if_neg hr, if_neg hr]
            rfl

/-- Increasing transformations keep the order, and other names for the groups keep the groups. -/
example : SameResponse true (fun c : Fin 4 => (c : ℝ)) (fun c => Real.exp c) ∧ SameResponse false ![0, 1, 1, 2] ![5, 3, 3, -1] := by
  constructor
  · simp only [SameResponse, if_true, Real.exp_le_exp]
    tauto
  · simp only [SameResponse, Bool.false_eq_true, if_false]
    intro c d
    fin_cases c <;> fin_cases d <;> norm_num

end Direpack
