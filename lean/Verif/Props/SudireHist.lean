import Mathlib.Tactic.FinCases
import Verif.Props.Sudire
import Verif.Props.Phd

/-! Property C67 for the methods that are based on optimisation. -/

namespace Direpack

open scoped BigOperators
open Spec

variable {n p : ℕ}

lemma sdRun_noscale {ext : SdExt} {pr : SdParams} (hs : pr.scaleData = false) {n n' : ℕ} (q : SdPre n p) (q' : SdPre n' p) (o : SdObjective)
    (s : List ℝ) (a : SdArgs) (c : List SdCons) : sdRun ext pr q o s a c = sdRun ext pr q' o s a c := by
  unfold sdRun sdMapBack
  simp [hs]

/-- What `dcov-sdr` leaves on the object. -/
lemma sdOptimise_ok {ext : SdExt} {pr : SdParams} {st st' : SdState} {q : SdPre n p} {y : Fin n → ℝ} {L : SdLoad p}
    (h : sdOptimise ext pr st q y none = .ok (L, st')) :
    ∃ start cons args B, st'.start = some start ∧ st'.cons = some cons ∧ st'.args = some args ∧ st'.x0 = st.x0 ∧
      (∀ v, st.start = some v → start = v) ∧ (st.start = none → sdStart ext pr q y = .ok start) ∧
      cons = st.cons.getD (sdCons pr q) ∧ args = st.args.getD (sdArgs pr q y) ∧
      sdRun ext pr q .dcov start args cons = .ok B ∧ L = ⟨pr.nComp, B⟩ := by
  unfold sdOptimise at h
  cases hst : st.start with
  | some v =>
    rw [hst] at h
    dsimp only at h
    cases hr : sdRun ext pr q .dcov v (st.args.getD (sdArgs pr q y)) (st.cons.getD (sdCons pr q)) with
    | error e => rw [hr] at h; exact absurd h (by simp)
    | ok B =>
      rw [hr] at h
      simp only [Except.ok.injEq, Prod.mk.injEq] at h
      obtain ⟨rfl, rfl⟩ := h
      exact ⟨v, _, _, B, rfl, rfl, rfl, rfl, fun w hw => (Option.some.inj hw), fun h => absurd h (by simp), rfl, rfl, hr, rfl⟩
  | none =>
    rw [hst] at h
    dsimp only at h
    cases hs : sdStart ext pr q y with
    | error e => rw [hs] at h; exact absurd h (by simp)
    | ok v =>
      rw [hs] at h
      dsimp only at h
      cases hr : sdRun ext pr q .dcov v (st.args.getD (sdArgs pr q y)) (st.cons.getD (sdCons pr q)) with
      | error e => rw [hr] at h; exact absurd h (by simp)
      | ok B =>
        rw [hr] at h
        simp only [Except.ok.injEq, Prod.mk.injEq] at h
        obtain ⟨rfl, rfl⟩ := h
        exact ⟨v, _, _, B, rfl, rfl, rfl, rfl, fun w hw => absurd hw (by simp), fun _ => rfl, rfl, rfl, hr, rfl⟩

/-- C67 is violated for `dcov-sdr`: fitted again on other data (without scaling), an object gives the subspace of the first data, whatever the new data are:
start values, constraints and data are kept from the first fit.  So it differs from a new object whenever the two data sets have different subspaces. -/
theorem C67_refit_violated (ext : SdExt) (pr : SdParams) (hm : pr.meth = .dcov) (hs : pr.scaleData = false) (hw : pr.whiten = false) (hc : pr.copy = true)
    (X1 X2 : Fin n → Fin p → ℝ) (y1 y2 : Fin n → ℝ) (o1 o2 : SdObj) (f1 f2 : SdFit n p)
    (h1 : (SdObj.new pr).fit ext X1 y1 = .ok (o1, f1)) (h2 : (SdObj.new pr).fit ext X2 y2 = .ok (o2, f2)) :
    ∃ o3 f3, o1.fit ext X2 y2 = .ok (o3, f3) ∧ f3.proj = f1.proj ∧ (f1.proj ≠ f2.proj → f3.proj ≠ f2.proj) := by
  have hwp : pr.whitened = pr := by unfold SdParams.whitened; simp [hw]
  obtain ⟨q1, L1, st1, pm1, T1, hq1, hd1, hp1, hT1, rfl, rfl⟩ := SdObj.fit_ok h1
  obtain ⟨q2, L2, st2, pm2, T2, hq2, hd2, hp2, hT2, ho2, rfl⟩ := SdObj.fit_ok h2
  simp only [SdObj.new, hwp] at hq1 hd1 hq2 hd2 ⊢
  rw [sdDirections, hm] at hd1
  obtain ⟨start, cons, args, B, e1, e2, e3, e4, -, -, -, -, hr, rfl⟩ := sdOptimise_ok hd1
  have hscond : ¬ (pr.returnScaling = true ∧ pr.center.isMean = false ∧ q2.centring = false) := by
    intro hcond
    rw [SdObj.fit] at h2
    simp only [SdObj.new, hwp] at h2
    rw [hq2] at h2
    dsimp only at h2
    rw [hd2] at h2
    dsimp only at h2
    rw [hp2] at h2
    dsimp only at h2
    rw [hT2] at h2
    dsimp only at h2
    rw [if_pos hcond] at h2
    exact absurd h2 (by simp)
  have hfit : ∃ T st3, SdObj.fit ext ⟨pr, st1⟩ X2 y2 = .ok (⟨pr, st3⟩, ⟨pr.nComp, B, pm1, T, (addConstant T).1, ext.ols (addConstant T).2 y2, q2.loc, q2.sca⟩) := by
    rw [SdObj.fit]
    dsimp only
    rw [hwp, hq2]
    dsimp only
    have hst : (st1.setX0 pr.copy X2) = { st1 with x0 := some ⟨n, p, X2⟩ } := by rw [hc]; rfl
    rw [hst, sdDirections, hm]
    dsimp only
    have hopt : sdOptimise ext pr { st1 with x0 := some ⟨n, p, X2⟩ } q2 y2 none =
        .ok (⟨pr.nComp, B⟩, { st1 with x0 := some ⟨n, p, X2⟩, start := some start, cons := some cons, args := some args }) := by
      unfold sdOptimise
      dsimp only
      rw [e1, e2, e3]
      dsimp only [Option.getD_some]
      rw [sdRun_noscale hs q2 q1, hr]
    rw [hopt]
    dsimp only
    rw [hp1]
    dsimp only
    have hsc : ∃ T, sdScores (some ⟨n, p, X2⟩) n (⟨pr.nComp, B⟩ : SdLoad p) = .ok T := by
      unfold sdScores
      simp
    obtain ⟨T, hT⟩ := hsc
    rw [hT]
    dsimp only
    rw [if_neg hscond]
    exact ⟨T, _, rfl⟩
  obtain ⟨T, st3, hfit⟩ := hfit
  exact ⟨_, _, hfit, rfl, fun h => h⟩

/-- C67 is violated by `copy=False`: the scores of an object that was fitted before with `copy=True` are those of the earlier data. -/
theorem C67_stale_scores_violated (ext : SdExt) (o o' : SdObj) (hc : o.params.copy = false) (hm : o.params.meth.direct)
    (D : Fin n → Fin p → ℝ) (hD : o.state.x0 = some ⟨n, p, D⟩) (X : Fin n → Fin p → ℝ) (y : Fin n → ℝ) (f : SdFit n p)
    (h : o.fit ext X y = .ok (o', f)) : f.T = matX D f.P := by
  obtain ⟨q, L, st', pm, T, hq, hd, hp, hT, -, rfl⟩ := SdObj.fit_ok h
  rw [whitened_copy, hc] at hd
  rw [sdDirections_direct (by rw [whitened_meth]; exact hm)] at hd
  have hst : st' = o.state.setX0 false X := by
    cases hdd : sdDirections ext o.params.whitened .init q y with
    | error e => rw [hdd] at hd; exact absurd hd (by simp [Except.map])
    | ok r =>
      rw [hdd] at hd
      simp only [Except.map, Except.ok.injEq, Prod.mk.injEq] at hd
      exact hd.2.symm
  have hx : st'.x0 = some ⟨n, p, D⟩ := by rw [hst]; exact hD
  rw [hx] at hT
  unfold sdScores at hT
  simp only [Fin.cast_refl, id_eq, dite_true, Except.ok.injEq] at hT
  rw [← hT]
  rfl

/-! ### Data for which the hypotheses hold -/

/-- Six cases: four on the axes and two at the origin. -/
def sixX (a : ℝ) : Fin 6 → Fin 2 → ℝ := ![![a, 0], ![-a, 0], ![0, a], ![0, -a], ![0, 0], ![0, 0]]

/-- Six different responses. -/
def sixY : Fin 6 → ℝ := ![0, 1, 2, 3, 4, 5]

lemma sixX_mean (a : ℝ) (j : Fin 2) : (mean fun c => sixX a c j) = 0 := by
  rw [mean_eq]
  fin_cases j <;> simp [Fin.sum_univ_six, sixX]

lemma sixX_cov (a : ℝ) : covMat (sixX a) = (2 * a ^ 2 / 5 : ℝ) • 1 := by
  ext j k
  simp only [covMat, Matrix.of_apply, sixX_mean]
  fin_cases j <;> fin_cases k <;> simp [Fin.sum_univ_six, sixX] <;> ring

lemma sixX_centre (a : ℝ) (center : Bool) : sdrCentre center (sixX a) = sixX a := by
  cases center
  · rfl
  · funext c j
    simp only [sdrCentre, if_true]
    rw [sixX_mean, sub_zero]

lemma sixY_inj : Function.Injective sixY := by
  intro i j h
  fin_cases i <;> fin_cases j <;> simp_all [sixY]

lemma numLabels_inj {y : Fin n → ℝ} (hy : Function.Injective y) : numLabels y = n := by
  unfold numLabels
  rw [Finset.card_image_of_injective _ hy, Finset.card_univ, Fintype.card_fin]

/-- A slicing method succeeds on these data with any number of slices up to six. -/
lemma six_slice {eigh : Eigh} (he : IsEigh eigh) (m : SdrMethod) {a : ℝ} (ha : a ≠ 0) {s : ℕ} (hs : s ≤ 6) (hs0 : 0 < s) (d : ℕ) (center : Bool) :
    ∃ B, sliceMethod m eigh (sixX a) sixY s d false center true = .ok B := by
  have hpos : 0 < 2 * a ^ 2 / 5 := by positivity
  obtain ⟨lab, hlab, -⟩ := C63_labels sixY (by norm_num) s (by rw [numLabels_inj sixY_inj]; exact hs)
  rw [sliceMethod, if_neg (by norm_num)]
  have : sdrRoot eigh true (sixX a) = .ok ((1 / Real.sqrt (2 * a ^ 2 / 5)) • 1) := by
    simp only [sdrRoot, if_true]
    rw [sixX_cov]
    exact invSqrt_const he hpos
  rw [this]
  dsimp only
  simp only [sliceResponse, Bool.false_eq_true, if_false]
  rw [hlab]
  dsimp only
  rw [if_neg (by omega)]
  exact ⟨_, rfl⟩

/-- `dcov-sdr` with one component, no scaling. -/
def exParams : SdParams where
  meth := .dcov
  nComp := 1
  trimming := 0
  centerData := false
  center := .mean
  scaleData := false
  whiten := false
  nSlices := 6
  copy := true
  continuous := true
  returnScaling := true

/-- External routines: the solver gives the second axis when the value two is in its data and the first axis otherwise. -/
noncomputable def exExt (eigh : Eigh) : SdExt where
  eigh := eigh
  rootInv := fun A => invSqrt eigh A
  orth := fun {_ h} B => ⟨h, B⟩
  dcov2 := fun _ _ => 0
  solve := fun _ _ a _ => open Classical in if ∃ c k, a.data.X c k = 2 then .ok [0, 1] else .ok [1, 0]
  whitenK := fun _ => 1
  ols := fun _ _ _ => 0

/-- Start values for the example. -/
lemma exStart {eigh : Eigh} (he : IsEigh eigh) {a : ℝ} (ha : a ≠ 0) {q : SdPre 6 2} (hX : q.Xs = sixX a) :
    ∃ l, sdStart (exExt eigh) exParams q sixY = .ok l := by
  have hst : ∀ m s, s ≤ 6 → 0 < s → ∃ B, sdStartMat (exExt eigh) exParams m s q sixY = .ok B := by
    intro m s hs hs0
    obtain ⟨B, hB⟩ := six_slice he m ha hs hs0 1 false
    rw [sdStartMat]
    have hB' : sliceMethod m (exExt eigh).eigh q.Xs sixY s exParams.nComp false exParams.scaleData true = .ok B := by rw [hX]; exact hB
    rw [hB']
    exact ⟨_, rfl⟩
  obtain ⟨b1, h1⟩ := hst .save 3 (by norm_num) (by norm_num)
  obtain ⟨b2, h2⟩ := hst .sir 6 (by norm_num) (by norm_num)
  obtain ⟨b3, h3⟩ := hst .dr 6 (by norm_num) (by norm_num)
  rw [sdStart, h1, h2, h3]
  exact ⟨_, rfl⟩

lemma exFit {eigh : Eigh} (he : IsEigh eigh) {a : ℝ} (ha : a ≠ 0) :
    ∃ o f, (SdObj.new exParams).fit (exExt eigh) (sixX a) sixY = .ok (o, f) ∧
      f.proj = if ∃ c k, sixX a c k = 2 then Matrix.diagonal ![0, 1] else Matrix.diagonal ![1, 0] := by
  have hpos : 0 < 2 * a ^ 2 / 5 := by positivity
  have hw : exParams.whitened = exParams := rfl
  set q : SdPre 6 2 := ⟨sixX a, (1 / Real.sqrt (2 * a ^ 2 / 5)) • 1, fun _ => 0, fun _ => 1, false⟩ with hqdef
  have hq : sdPre (exExt eigh) exParams (sixX a) = .ok q := by
    rw [sdPre, if_neg (by decide), if_neg (by norm_num)]
    have : (exExt eigh).rootInv (covMat (sixX a)) = .ok ((1 / Real.sqrt (2 * a ^ 2 / 5)) • 1) := by
      rw [sixX_cov]
      exact invSqrt_const he hpos
    rw [this]
    dsimp only
    rw [if_neg]
    · simp [sdWhitenStep, sdScaleStep, sdCentreStep, exParams, hqdef]
    · rw [not_not]
      refine ⟨le_rfl, ?_, Or.inl rfl⟩
      simp only [exParams]
      norm_num
  obtain ⟨start, hstart⟩ := exStart he ha (q := q) rfl
  set v : List ℝ := if ∃ c k, sixX a c k = 2 then [0, 1] else [1, 0] with hv
  set B : Matrix (Fin 2) (Fin 1) ℝ := Matrix.of fun k j => v.getD (j.1 * 2 + k.1) 0 with hB
  have hrun : sdRun (exExt eigh) exParams q .dcov start (sdArgs exParams q sixY) (sdCons exParams q) = .ok B := by
    have hsol : (exExt eigh).solve .dcov start (sdArgs exParams q sixY) (sdCons exParams q) = .ok v := by
      simp only [exExt, sdArgs, hv, hqdef]
      split <;> rfl
    rw [sdRun, hsol]
    dsimp only
    have hlen : v.length = 2 := by rw [hv]; split <;> rfl
    have hres : reshapeF 2 exParams.nComp v = .ok B := by
      rw [reshapeF, if_pos ⟨by decide, by rw [hlen]; rfl⟩]
      rfl
    rw [hres]
    rfl
  have hBB : B.transpose * B = 1 := by
    ext i j
    fin_cases i
    fin_cases j
    rw [Matrix.mul_apply, Fin.sum_univ_two]
    simp only [Matrix.transpose_apply, hB, Matrix.of_apply, hv]
    split <;> simp
  have hpm : projMat B = .ok (B * B.transpose) := by
    unfold projMat
    rw [if_pos (by rw [hBB]; simp), hBB, inv_one, Matrix.mul_one]
  have hdir : sdDirections (exExt eigh) exParams (SdState.init.setX0 exParams.copy (sixX a)) q sixY =
      .ok (⟨exParams.nComp, B⟩, ⟨some start, some (sdCons exParams q), some (sdArgs exParams q sixY), some ⟨6, 2, sixX a⟩⟩) := by
    rw [sdDirections]
    change sdOptimise (exExt eigh) exParams ⟨none, none, none, some ⟨6, 2, sixX a⟩⟩ q sixY none = _
    unfold sdOptimise
    dsimp only [Option.getD_none]
    rw [hstart]
    dsimp only
    rw [hrun]
  have hsc : ∃ T, sdScores (some ⟨6, 2, sixX a⟩) 6 (⟨exParams.nComp, B⟩ : SdLoad 2) = .ok T := by
    unfold sdScores
    simp
  obtain ⟨T, hT⟩ := hsc
  rw [SdObj.fit]
  simp only [SdObj.new, hw]
  rw [hq]
  dsimp only
  rw [hdir]
  dsimp only
  have hpm' : @projMat 2 exParams.nComp B = .ok (B * B.transpose) := hpm
  rw [hpm']
  dsimp only
  rw [hT]
  dsimp only
  rw [if_neg (by simp [exParams, PpCentre.isMean])]
  refine ⟨_, _, rfl, ?_⟩
  dsimp only
  ext i j
  rw [Matrix.mul_apply]
  simp only [Matrix.transpose_apply, hB, Matrix.of_apply, hv]
  by_cases hc : ∃ c k, sixX a c k = 2
  · simp only [if_pos hc]
    fin_cases i <;> fin_cases j <;> simp
  · simp only [if_neg hc]
    fin_cases i <;> fin_cases j <;> simp

/-- The hypotheses of `C67_refit_violated` can be met with different subspaces. -/
example : ∃ (ext : SdExt) (o1 o2 : SdObj) (f1 f2 : SdFit 6 2), (SdObj.new exParams).fit ext (sixX 1) sixY = .ok (o1, f1) ∧
    (SdObj.new exParams).fit ext (sixX 2) sixY = .ok (o2, f2) ∧ f1.proj ≠ f2.proj := by
  obtain ⟨eigh, he⟩ := exists_eigh
  obtain ⟨o1, f1, h1, e1⟩ := exFit he (a := 1) one_ne_zero
  obtain ⟨o2, f2, h2, e2⟩ := exFit he (a := 2) two_ne_zero
  refine ⟨_, o1, o2, f1, f2, h1, h2, ?_⟩
  rw [e1, e2, if_neg, if_pos]
  · intro h
    have := congrFun (congrFun h 0) 0
    simp at this
  · exact ⟨0, 0, by simp [sixX]⟩
  · rintro ⟨c, k, h⟩
    fin_cases c <;> fin_cases k <;> simp [sixX] at h <;> norm_num at h

end Direpack
