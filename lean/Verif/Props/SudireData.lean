import Verif.Props.Stats
import Verif.Props.SudireHist

/-! Property C147: the data that `sudire` hands to the optimiser. -/

namespace Direpack

open scoped BigOperators
open Spec

variable {n p : ℕ}

/-- What a first fit of `dcov-sdr` leaves in `optimizer_arguments`. -/
lemma sdArgs_new {ext : SdExt} {pr : SdParams} (hm : pr.meth = .dcov) {X : Fin n → Fin p → ℝ} {y : Fin n → ℝ} {o : SdObj} {f : SdFit n p}
    (h : (SdObj.new pr).fit ext X y = .ok (o, f)) :
    ∃ q N2, trimOk pr.trimming n ∧ 2 ≤ n ∧ ext.rootInv (covMat X) = .ok N2 ∧
      q = sdWhitenStep ext pr.whitened (sdScaleStep pr.whitened X (sdCentreStep pr.whitened X N2)) ∧ f.loc = q.loc ∧ f.sca = q.sca ∧
      o.state.args = some (sdArgs pr.whitened q y) := by
  obtain ⟨q, L, st', pm, T, hq, hd, -, -, rfl, rfl⟩ := SdObj.fit_ok h
  simp only [SdObj.new] at hq hd ⊢
  have hm' : pr.whitened.meth = .dcov := by unfold SdParams.whitened; split <;> exact hm
  have htr : pr.whitened.trimming = pr.trimming := by unfold SdParams.whitened; split <;> rfl
  rw [sdDirections, hm'] at hd
  obtain ⟨start, cons, args, B, -, -, e3, -, -, -, -, ha, -, -⟩ := sdOptimise_ok hd
  have hst : (SdState.init.setX0 pr.whitened.copy X).args = none := by
    unfold SdState.setX0 SdState.init
    split <;> rfl
  rw [hst, Option.getD_none] at ha
  unfold sdPre at hq
  split at hq
  · exact absurd hq (by simp)
  · split at hq
    · exact absurd hq (by simp)
    · rename_i hnp
      split at hq
      · exact absurd hq (by simp)
      · rename_i N2 hN
        by_cases ht : ¬ trimOk pr.whitened.trimming n
        · rw [if_pos ht] at hq; exact absurd hq (by simp)
        · rw [if_neg ht] at hq
          simp only [Except.ok.injEq] at hq
          exact ⟨q, N2, htr ▸ not_not.mp ht, by omega, hN, hq.symm, rfl, rfl, by rw [e3, ha]⟩

/-- C147 for the median, and for data that are neither centred nor scaled: the data handed to the optimiser are the given data minus the published location, divided
by the published scale (a zero scale leaves the values undivided).  Missing: the mean (`C147_mean_violated`, `C147_scaled_violated`). -/
theorem C147_optimised_data_partial {ext : SdExt} {pr : SdParams} (hm : pr.meth = .dcov) (hw : pr.whiten = false) {X : Fin n → Fin p → ℝ} {y : Fin n → ℝ}
    {o : SdObj} {f : SdFit n p} (h : (SdObj.new pr).fit ext X y = .ok (o, f)) (hc : pr.center = .median ∨ pr.centerData = false ∧ pr.scaleData = false) :
    ∃ a, o.state.args = some a ∧ a.data = ⟨n, p, stdMat X f.loc f.sca⟩ := by
  obtain ⟨q, N2, -, -, -, rfl, hl, hs, ha⟩ := sdArgs_new hm h
  have hwp : pr.whitened = pr := by unfold SdParams.whitened; simp [hw]
  rw [hwp] at hl hs ha
  refine ⟨_, ha, ?_⟩
  rw [hl, hs, sdArgs]
  congr 1
  rcases hc with hc | ⟨hc, hsc⟩
  · cases hsc : pr.scaleData with
    | true => simp [sdWhitenStep, hw, sdScaleStep, hsc, hc]
    | false =>
      cases hcd : pr.centerData with
      | true =>
        simp only [sdWhitenStep, hw, sdScaleStep, hsc, sdCentreStep, hcd, hc, if_true, Bool.false_eq_true, if_false]
        congr 1
        funext c j
        simp [stdMat, std1]
      | false =>
        simp only [sdWhitenStep, hw, sdScaleStep, hsc, sdCentreStep, hcd, Bool.false_eq_true, if_false]
        congr 1
        funext c j
        simp [stdMat, std1]
  · simp only [sdWhitenStep, hw, sdScaleStep, hsc, sdCentreStep, hc, Bool.false_eq_true, if_false]
    congr 1
    funext c j
    simp [stdMat, std1]

/-- C147: centred at the mean and not scaled, the data handed to the optimiser are the deviations from the (trimmed) mean.  The published scale, which is not one, has not
been used: the property is violated for every value that differs from the mean in a column whose standard deviation is neither zero nor one. -/
theorem C147_mean_violated {ext : SdExt} {pr : SdParams} (hm : pr.meth = .dcov) (hw : pr.whiten = false) {X : Fin n → Fin p → ℝ} {y : Fin n → ℝ}
    {o : SdObj} {f : SdFit n p} (h : (SdObj.new pr).fit ext X y = .ok (o, f)) (hc : pr.center = .mean) (hcd : pr.centerData = true)
    (hs : pr.scaleData = false) :
    ∃ D : Fin n → Fin p → ℝ, (∃ a, o.state.args = some a ∧ a.data = ⟨n, p, D⟩) ∧
      (∀ j, IsLocation pr.center pr.trimming (fun i => X i j) (f.loc j)) ∧ (∀ c j, D c j = X c j - f.loc j) ∧
      ∀ c j, X c j ≠ f.loc j → f.sca j ≠ 0 → f.sca j ≠ 1 → D c j ≠ std1 (X c j) (f.loc j) (f.sca j) := by
  obtain ⟨q, N2, ht, hn, -, rfl, hl, hsc, ha⟩ := sdArgs_new hm h
  have hwp : pr.whitened = pr := by unfold SdParams.whitened; simp [hw]
  rw [hwp] at hl hsc ha
  have hD : ∀ c j, (sdWhitenStep ext pr (sdScaleStep pr X (sdCentreStep pr X N2))).Xs c j = X c j - f.loc j := by
    intro c j
    rw [hl]
    simp [sdWhitenStep, hw, sdScaleStep, hs, sdCentreStep, hcd, hc]
  refine ⟨_, ⟨_, ha, rfl⟩, (C136_sudire_partial h hw hcd).1, hD, fun c j hx h0 h1 => ?_⟩
  rw [hD, std1, if_neg h0]
  intro he
  have hd : X c j - f.loc j ≠ 0 := sub_ne_zero.mpr hx
  rw [eq_div_iff h0] at he
  exact h1 (mul_left_cancel₀ hd (by rw [he, mul_one]))

/-- C147: with the mean and scaling, the data handed to the optimiser are the (centred) data times the inverse square root of their covariance matrix, a change of all the
variables at once: the published scales are not used. -/
theorem C147_scaled_violated {ext : SdExt} {pr : SdParams} (hm : pr.meth = .dcov) (hw : pr.whiten = false) {X : Fin n → Fin p → ℝ} {y : Fin n → ℝ}
    {o : SdObj} {f : SdFit n p} (h : (SdObj.new pr).fit ext X y = .ok (o, f)) (hc : pr.center = .mean) (hs : pr.scaleData = true) :
    ∃ (D : Fin n → Fin p → ℝ) (N : Matrix (Fin p) (Fin p) ℝ), (∃ a, o.state.args = some a ∧ a.data = ⟨n, p, D⟩ ∧ HEq a.N2 N) ∧
      ext.rootInv (covMat X) = .ok N ∧ ∀ c j, D c j = ∑ k, (X c k - f.loc k) * N k j := by
  obtain ⟨q, N2, ht, hn, hN, rfl, hl, hsc, ha⟩ := sdArgs_new hm h
  have hwp : pr.whitened = pr := by unfold SdParams.whitened; simp [hw]
  rw [hwp] at hl hsc ha
  refine ⟨_, N2, ⟨_, ha, rfl, ?_⟩, hN, fun c j => ?_⟩
  · apply heq_of_eq
    cases hcd : pr.centerData <;> simp [sdArgs, sdWhitenStep, hw, sdScaleStep, hs, sdCentreStep, hc, hcd]
  · rw [hl]
    cases hcd : pr.centerData <;> simp [sdWhitenStep, hw, sdScaleStep, hs, sdCentreStep, hcd, hc, matX]

/-! ### An example -/

lemma sixX_med (j : Fin 2) : (med fun c => sixX 1 c j) = 0 := by
  have h1 : ∀ j : Fin 2, (med fun c => sixX 1 c j) ≤ 0 := by
    intro j
    apply medL_le_of_count
    fin_cases j <;> simp [sixX, List.ofFn_succ, List.countP_cons]
  have h2 : (med fun c => -1 * sixX 1 c j + 0) ≤ 0 := by
    apply medL_le_of_count
    fin_cases j <;> simp [sixX, List.ofFn_succ, List.countP_cons]
  rw [med_affine (by norm_num)] at h2
  have := h1 j
  linarith

lemma sdStartMat_center (ext : SdExt) (pr : SdParams) (b : Bool) (c : PpCentre) (m : SdrMethod) (s : ℕ) (q : SdPre n p) (t : Bool) (y : Fin n → ℝ) :
    sdStartMat ext { pr with centerData := b, center := c } m s { q with centring := t } y = sdStartMat ext pr m s q y := by
  unfold sdStartMat
  cases h : sliceMethod m ext.eigh q.Xs y s pr.nComp false pr.scaleData true <;> simp only [h]

lemma sdRun_center (ext : SdExt) (pr : SdParams) (b : Bool) (c : PpCentre) (q : SdPre n p) (t : Bool) (o : SdObjective) (st : List ℝ) (a : SdArgs)
    (l : List SdCons) : sdRun ext { pr with centerData := b, center := c } { q with centring := t } o st a l = sdRun ext pr q o st a l := by
  unfold sdRun
  cases h : ext.solve o st a l with
  | error e => rfl
  | ok x =>
    dsimp only
    cases h : reshapeF p pr.nComp x <;> simp only [h]

lemma sdStart_center (ext : SdExt) (pr : SdParams) (b : Bool) (c : PpCentre) (q : SdPre n p) (t : Bool) (y : Fin n → ℝ) :
    sdStart ext { pr with centerData := b, center := c } { q with centring := t } y = sdStart ext pr q y := by
  unfold sdStart
  rw [sdStartMat_center ext pr b c .save 3 q t y]
  cases sdStartMat ext pr .save 3 q y with
  | error e => rfl
  | ok b1 =>
    dsimp only
    rw [sdStartMat_center ext pr b c .sir 6 q t y]
    cases sdStartMat ext pr .sir 6 q y with
    | error e => rfl
    | ok b2 =>
      dsimp only
      rw [sdStartMat_center ext pr b c .dr 6 q t y]
      cases sdStartMat ext pr .dr 6 q y <;> rfl

/-- The directions of `dcov-sdr` depend on the centring only through the data. -/
lemma sdDirections_dcov_center (ext : SdExt) {pr : SdParams} (hm : pr.meth = .dcov) (b : Bool) (c : PpCentre) (st : SdState) (q : SdPre n p) (y : Fin n → ℝ)
    (t : Bool) : sdDirections ext { pr with centerData := b, center := c } st { q with centring := t } y = sdDirections ext pr st q y := by
  have hopt : sdOptimise ext { pr with centerData := b, center := c } st { q with centring := t } y none = sdOptimise ext pr st q y none := by
    unfold sdOptimise
    rw [sdStart_center ext pr b c q t y]
    have hA : sdArgs { pr with centerData := b, center := c } { q with centring := t } y = sdArgs pr q y := rfl
    have hC : sdCons { pr with centerData := b, center := c } { q with centring := t } = sdCons pr q := rfl
    rw [hA, hC]
    cases st.start with
    | some v =>
      dsimp only
      rw [sdRun_center ext pr b c q t .dcov v _ _]
      cases sdRun ext pr q .dcov v (st.args.getD (sdArgs pr q y)) (st.cons.getD (sdCons pr q)) <;> rfl
    | none =>
      dsimp only
      cases sdStart ext pr q y with
      | error e => rfl
      | ok v =>
        dsimp only
        rw [sdRun_center ext pr b c q t .dcov v _ _]
        cases sdRun ext pr q .dcov v (st.args.getD (sdArgs pr q y)) (st.cons.getD (sdCons pr q)) <;> rfl
  have h2 : ∀ pr' : SdParams, pr'.meth = .dcov → ∀ q' : SdPre n p, sdDirections ext pr' st q' y = sdOptimise ext pr' st q' y none := by
    intro pr' hm' q'
    rw [sdDirections, hm']
  rw [h2 _ hm, h2 { pr with centerData := b, center := c } hm, hopt]

/-- A fit that is centred at the median. -/
lemma exFitMedian {eigh : Eigh} (he : IsEigh eigh) :
    ∃ o f, (SdObj.new { exParams with centerData := true, center := .median }).fit (exExt eigh) (sixX 1) sixY = .ok (o, f) := by
  obtain ⟨o, f, hf, -⟩ := exFit he (a := 1) one_ne_zero
  obtain ⟨q, L, st', pm, T, hq, hd, hp, hT, -, -⟩ := SdObj.fit_ok hf
  have hw : exParams.whitened = exParams := rfl
  simp only [SdObj.new, hw] at hq hd
  unfold sdPre at hq
  split at hq
  · exact absurd hq (by simp)
  · split at hq
    · exact absurd hq (by simp)
    · rename_i hn1 hnp
      split at hq
      · exact absurd hq (by simp)
      · rename_i N2 hN
        by_cases ht : ¬ trimOk exParams.trimming 6
        · rw [if_pos ht] at hq; exact absurd hq (by simp)
        · rw [if_neg ht] at hq
          simp only [Except.ok.injEq] at hq
          subst hq
          rw [SdObj.fit]
          have hw2 : SdParams.whitened { exParams with centerData := true, center := .median } = { exParams with centerData := true, center := .median } := rfl
          simp only [SdObj.new, hw2]
          have hq2 : sdPre (exExt eigh) { exParams with centerData := true, center := .median } (sixX 1) =
              .ok ⟨sixX 1, N2, fun _ => 0, fun _ => 1, true⟩ := by
            unfold sdPre
            rw [if_neg hn1, if_neg hnp, hN]
            dsimp only
            rw [if_neg ht]
            simp [sdWhitenStep, sdScaleStep, sdCentreStep, exParams, sixX_med]
          rw [hq2]
          dsimp only
          have hd2 : sdDirections (exExt eigh) { exParams with centerData := true, center := .median } (SdState.init.setX0 exParams.copy (sixX 1))
              (⟨sixX 1, N2, fun _ => 0, fun _ => 1, true⟩ : SdPre 6 2) sixY = .ok (L, st') := by
            rw [← hd]
            have hq0 : sdWhitenStep (exExt eigh) exParams (sdScaleStep exParams (sixX 1) (sdCentreStep exParams (sixX 1) N2)) =
                ⟨sixX 1, N2, fun _ => 0, fun _ => 1, false⟩ := by
              simp [sdWhitenStep, sdScaleStep, sdCentreStep, exParams]
            rw [hq0]
            exact sdDirections_dcov_center (exExt eigh) (pr := exParams) rfl true .median _ (⟨sixX 1, N2, fun _ => 0, fun _ => 1, false⟩ : SdPre 6 2) _ true
          rw [hd2]
          dsimp only
          rw [hp]
          dsimp only
          rw [hT]
          dsimp only
          rw [if_neg (by simp)]
          exact ⟨_, _, rfl⟩

/-- The hypotheses can be met. -/
example : ∃ (ext : SdExt) (o : SdObj) (f : SdFit 6 2), (SdObj.new { exParams with centerData := true, center := .median }).fit ext (sixX 1) sixY = .ok (o, f) ∧
    ∃ a, o.state.args = some a ∧ a.data = ⟨6, 2, stdMat (sixX 1) f.loc f.sca⟩ := by
  obtain ⟨eigh, he⟩ := exists_eigh
  obtain ⟨o, f, hf⟩ := exFitMedian he
  exact ⟨_, o, f, hf, C147_optimised_data_partial rfl rfl hf (.inl rfl)⟩

end Direpack
