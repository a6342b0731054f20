import Verif.Props.SniplsNaN2
import Verif.Props.Scaler
import Verif.Props.SPRMExample

/-! Property C157: the origin of the predictors, with missing cells. -/

namespace Direpack

open scoped BigOperators
open Spec

/-- Constants added to the predictors. -/
def Spec.shiftN {n p : ℕ} (a : Fin p → ℝ) (X : NMat ℝ n p) : NMat ℝ n p := fun i j => (X i j).map (· + a j)

lemma available_shift {n p : ℕ} (a : Fin p → ℝ) (X : NMat ℝ n p) (j : Fin p) : available (shiftN a X) j = (available X j).map fun v => 1 * v + a j := by
  unfold available shiftN
  rw [map_ofFn' (fun o : Option ℝ => o.map (· + a j)) (fun i => X i j), List.filterMap_map, List.map_filterMap]
  apply List.filterMap_congr
  intro o _
  cases o <;> simp

lemma centre_shift {n p : ℕ} {c : NCentre} (hc : c ≠ .noneOpt) (a : Fin p → ℝ) (X : NMat ℝ n p) (j : Fin p) : c.run (shiftN a X) j = (c.run X j).map (· + a j) := by
  by_cases hne : available X j = []
  · have h1 : available (shiftN a X) j = [] := by rw [available_shift, hne]; rfl
    cases c with
    | noneOpt => exact absurd rfl hc
    | mean =>
      show meanNaN _ _ = (meanNaN _ _).map _
      rw [C12_mean_missing, C12_mean_missing]; unfold onAvailable; rw [if_pos h1, if_pos hne]; rfl
    | median =>
      show medianNaN _ _ = (medianNaN _ _).map _
      rw [C12_median_missing, C12_median_missing]; unfold onAvailable; rw [if_pos h1, if_pos hne]; rfl
  · have h1 : available (shiftN a X) j ≠ [] := by rw [available_shift]; simpa using hne
    cases c with
    | noneOpt => exact absurd rfl hc
    | mean =>
      show meanNaN _ _ = (meanNaN _ _).map _
      rw [C12_mean_missing, C12_mean_missing]; unfold onAvailable
      rw [if_neg h1, if_neg hne, available_shift, meanL_map_affine _ _ hne, one_mul]; rfl
    | median =>
      show medianNaN _ _ = (medianNaN _ _).map _
      rw [C12_median_missing, C12_median_missing]; unfold onAvailable
      rw [if_neg h1, if_neg hne, available_shift, medL_map_affine _ _ hne, one_mul]; rfl

lemma madL_shift (b : ℝ) {l : List ℝ} (hl : l ≠ []) : madL (l.map fun v => 1 * v + b) = madL l := by
  unfold madL
  rw [medL_map_affine _ _ hl, List.map_map]
  congr 2
  apply List.map_congr_left
  intro v _
  simp

lemma scale_shift {n p : ℕ} (s : NScale) (a : Fin p → ℝ) (X : NMat ℝ n p) (j : Fin p) : s.run (shiftN a X) j = s.run X j := by
  by_cases hne : available X j = []
  · have h1 : available (shiftN a X) j = [] := by rw [available_shift, hne]; rfl
    cases s with
    | noneOpt => rfl
    | std =>
      show stdNaN _ _ _ = stdNaN _ _ _
      rw [C12_std_missing, C12_std_missing]; unfold onAvailable; rw [if_pos h1, if_pos hne]
    | mad =>
      show madNaN _ _ = madNaN _ _
      rw [C12_mad_missing, C12_mad_missing]; unfold onAvailable; rw [if_pos h1, if_pos hne]
  · have h1 : available (shiftN a X) j ≠ [] := by rw [available_shift]; simpa using hne
    cases s with
    | noneOpt => rfl
    | std =>
      show stdNaN _ _ _ = stdNaN _ _ _
      rw [C12_std_missing, C12_std_missing]; unfold onAvailable
      rw [if_neg h1, if_neg hne, available_shift]
      dsimp only
      rw [varL_map_affine _ _ hne]
      simp
    | mad =>
      show madNaN _ _ = madNaN _ _
      rw [C12_mad_missing, C12_mad_missing]; unfold onAvailable
      rw [if_neg h1, if_neg hne, available_shift, madL_shift _ hne]

lemma scaled_shift {n p : ℕ} {c : NCentre} (hc : c ≠ .noneOpt) (s : NScale) (a : Fin p → ℝ) (X : NMat ℝ n p) :
    scaleMatN (shiftN a X) (c.run (shiftN a X)) (s.run (shiftN a X)) = scaleMatN X (c.run X) (s.run X) := by
  funext i j
  unfold scaleMatN
  rw [centre_shift hc, scale_shift]
  unfold shiftN
  cases X i j with
  | none => rfl
  | some v =>
    cases c.run X j with
    | none => rfl
    | some m =>
      cases s.run X j with
      | none => rfl
      | some s =>
        show some _ = some _
        congr 2
        ring

/-! ### Making and taking apart a fit -/

/-- The data that the component loop sees. -/
noncomputable def nX0 (pr : SnParamsN) {n p : ℕ} (X : NMat ℝ n p) : NMat ℝ n p := scaleMatN X (pr.centre.run X) (pr.scale.run X)

/-- The responses that it sees. -/
noncomputable def ny0 (pr : SnParamsN) {n : ℕ} (y : Fin n → Option ℝ) : Fin n → Option ℝ :=
  fun i => scaleCell (y i) (pr.centre.run (asColN y) 0) (pr.scale.run (asColN y) 0)

lemma snFitBranch_inv {pr : SnParamsN} {n p : ℕ} {X : NMat ℝ n p} {y : Fin n → Option ℝ} {f : SnFitN n p} (h : snFitBranch pr X y = .ok f) :
    snLoopN pr.eta pr.nComponents (nX0 pr X) (ny0 pr y) ∅ = .ok f.comps ∧ snCoefN (nX0 pr X) (ny0 pr y) f.comps = .ok (f.R, f.coefScaled) ∧
    (∀ j, rescaledN (pr.scale.run (asColN y) 0) (pr.scale.run X) f.coefScaled j = some (f.coef j)) ∧
    snInterceptN pr.centre (fun i => (y i).map (· - nandot X (fun j => some (f.coef j)) i)) = some f.intercept ∧
    (∀ i, f.fitted i = nandot X (fun j => some (f.coef j)) i + f.intercept) ∧ (∀ i, f.residuals i = (y i).map (· - f.fitted i)) := by
  unfold snFitBranch at h
  dsimp only at h
  generalize hL : snLoopN pr.eta pr.nComponents _ _ ∅ = L at h
  cases L with
  | error e => cases h
  | ok l =>
    dsimp only at h
    generalize hC : snCoefN _ _ l = C at h
    cases C with
    | error e => cases h
    | ok RB =>
      obtain ⟨R, B⟩ := RB
      dsimp only at h
      by_cases hr : ∃ j, rescaledN (pr.scale.run (asColN y) 0) (pr.scale.run X) B j = none
      · rw [if_pos hr] at h; cases h
      · rw [if_neg hr] at h
        have hr' : ∀ j, rescaledN (pr.scale.run (asColN y) 0) (pr.scale.run X) B j = some ((rescaledN (pr.scale.run (asColN y) 0) (pr.scale.run X) B j).getD 0) := by
          intro j
          cases hj : rescaledN (pr.scale.run (asColN y) 0) (pr.scale.run X) B j with
          | none => exact absurd ⟨j, hj⟩ hr
          | some v => rfl
        generalize hI : snInterceptN pr.centre _ = I at h
        cases I with
        | none => cases h
        | some b0 =>
          cases h
          exact ⟨hL, hC, hr', hI, fun _ => rfl, fun _ => rfl⟩

lemma snFitBranch_mk (pr : SnParamsN) {n p : ℕ} (X : NMat ℝ n p) (y : Fin n → Option ℝ) {l : List (SnComp n p)} {R : Matrix (Fin p) (Fin l.length) ℝ} {B b : Fin p → ℝ}
    {b0 : ℝ} (hL : snLoopN pr.eta pr.nComponents (nX0 pr X) (ny0 pr y) ∅ = .ok l) (hC : snCoefN (nX0 pr X) (ny0 pr y) l = .ok (R, B))
    (hb : ∀ j, rescaledN (pr.scale.run (asColN y) 0) (pr.scale.run X) B j = some (b j))
    (hI : snInterceptN pr.centre (fun i => (y i).map (· - nandot X (fun j => some (b j)) i)) = some b0) :
    ∃ f, snFitBranch pr X y = .ok f ∧ f.comps = l ∧ f.coefScaled = B ∧ f.coef = b ∧ f.intercept = b0 ∧
      (∀ i, f.fitted i = nandot X (fun j => some (b j)) i + b0) := by
  unfold nX0 ny0 at hL hC
  unfold snFitBranch
  dsimp only
  rw [hL]
  dsimp only
  rw [hC]
  dsimp only
  rw [if_neg (by rintro ⟨j, h⟩; rw [hb] at h; cases h)]
  simp only [hb, Option.getD_some]
  rw [hI]
  exact ⟨_, rfl, rfl, rfl, rfl, rfl, fun _ => rfl⟩

lemma intercept_some (c : NCentre) {n : ℕ} {y : Fin n → Option ℝ} {r : Fin n → ℝ} {v : ℝ} (h : snInterceptN c (fun i => (y i).map (· - r i)) = some v)
    (r' : Fin n → ℝ) : ∃ v', snInterceptN c (fun i => (y i).map (· - r' i)) = some v' := by
  have key : ∀ g : List ℝ → ℝ, npNanReduce g (List.ofFn fun i => (y i).map (· - r i)) = some v → ∃ v', npNanReduce g (List.ofFn fun i => (y i).map (· - r' i)) = some v' := by
    intro g h
    unfold npNanReduce at h ⊢
    by_cases h0 : (List.ofFn fun i => (y i).map (· - r i)).filterMap id = []
    · rw [if_pos h0] at h; cases h
    · rw [if_neg]
      · exact ⟨_, rfl⟩
      · intro h1
        apply h0
        rw [List.filterMap_eq_nil_iff] at h1 ⊢
        intro o ho
        obtain ⟨i, rfl⟩ := (List.mem_ofFn' _ _).mp ho
        have := h1 _ ((List.mem_ofFn' _ _).mpr ⟨i, rfl⟩)
        simp only [id, Option.map_eq_none_iff] at this ⊢
        exact this
  cases c with
  | mean => exact key _ h
  | median => exact key _ h
  | noneOpt => exact ⟨0, rfl⟩

/-- C157, the part that holds for all patterns of missing cells: constants added to the predictors do not change components and coefficients.  Missing: the fitted values
(`C157_shift_violated`). -/
theorem C157_coef_partial {n p : ℕ} (hn : 0 < n) (pr : SnParamsN) (hc : pr.centre ≠ .noneOpt) (a : Fin p → ℝ) (X : NMat ℝ n p) (y : Fin n → Option ℝ) (f : SnFitN n p)
    (hf : snFitNaN pr X y = .ok f) : ∃ f', snFitNaN pr (shiftN a X) y = .ok f' ∧ f'.comps = f.comps ∧ f'.coef = f.coef ∧ f'.coefScaled = f.coefScaled := by
  rw [snFitNaN_eq hn] at hf ⊢
  obtain ⟨h1, h2, h3, h4, -⟩ := snFitBranch_inv hf
  have hX : nX0 pr (shiftN a X) = nX0 pr X := scaled_shift hc _ _ _
  have hs : pr.scale.run (shiftN a X) = pr.scale.run X := funext fun j => scale_shift _ _ _ _
  obtain ⟨b0, hb0⟩ := intercept_some pr.centre h4 (nandot (shiftN a X) fun j => some (f.coef j))
  obtain ⟨f', g1, g2, g3, g4, -⟩ := snFitBranch_mk pr (shiftN a X) y (by rw [hX]; exact h1) (by rw [hX]; exact h2) (by rw [hs]; exact h3) hb0
  exact ⟨f', g1, g2, g4, g3⟩

lemma nanmean_shift {n : ℕ} {y : Fin n → Option ℝ} {r : Fin n → ℝ} {d : ℝ} {c : NCentre} (hc : c ≠ .noneOpt) {v : ℝ} (h : snInterceptN c (fun i => (y i).map (· - r i)) = some v) :
    snInterceptN c (fun i => (y i).map (· - (r i + d))) = some (v - d) := by
  have hl : (List.ofFn fun i => (y i).map (· - (r i + d))).filterMap id = ((List.ofFn fun i => (y i).map (· - r i)).filterMap id).map fun v => 1 * v + -d := by
    have : (fun i => (y i).map (· - (r i + d))) = fun i => ((y i).map (· - r i)).map (fun v => 1 * v + -d) := by
      funext i
      cases y i with
      | none => rfl
      | some w => simp; ring
    rw [this, map_ofFn' (fun o : Option ℝ => o.map fun v => 1 * v + -d) (fun i => (y i).map (· - r i)), List.filterMap_map, List.map_filterMap]
    apply List.filterMap_congr
    intro o _
    cases o <;> simp
  have key : ∀ g : List ℝ → ℝ, (∀ l, l ≠ [] → g (l.map fun v => 1 * v + -d) = 1 * g l + -d) → npNanReduce g (List.ofFn fun i => (y i).map (· - r i)) = some v →
      npNanReduce g (List.ofFn fun i => (y i).map (· - (r i + d))) = some (v - d) := by
    intro g hg h
    unfold npNanReduce at h ⊢
    rw [hl]
    by_cases h0 : (List.ofFn fun i => (y i).map (· - r i)).filterMap id = []
    · rw [if_pos h0] at h; cases h
    · rw [if_neg h0] at h
      rw [if_neg (by simpa using h0), hg _ h0]
      cases h
      congr 1
      ring
  cases c with
  | mean => exact key _ (fun l hl => meanL_map_affine _ _ hl) h
  | median => exact key _ (fun l hl => medL_map_affine _ _ hl) h
  | noneOpt => exact absurd rfl hc

/-- C157 for complete predictors (the responses may be missing): the fitted values are the same as well. -/
theorem C157_fitted_partial {n p : ℕ} (hn : 0 < n) (pr : SnParamsN) (hc : pr.centre ≠ .noneOpt) (a : Fin p → ℝ) (X : Fin n → Fin p → ℝ) (y : Fin n → Option ℝ)
    (f : SnFitN n p) (hf : snFitNaN pr (complete X) y = .ok f) : ∃ f', snFitNaN pr (shiftN a (complete X)) y = .ok f' ∧ f'.comps = f.comps ∧ f'.coef = f.coef ∧
      f'.intercept = f.intercept - ∑ j, a j * f.coef j ∧ f'.fitted = f.fitted := by
  rw [snFitNaN_eq hn] at hf ⊢
  obtain ⟨h1, h2, h3, h4, h5, -⟩ := snFitBranch_inv hf
  have hX : nX0 pr (shiftN a (complete X)) = nX0 pr (complete X) := scaled_shift hc _ _ _
  have hs : pr.scale.run (shiftN a (complete X)) = pr.scale.run (complete X) := funext fun j => scale_shift _ _ _ _
  have hyp : ∀ i, nandot (shiftN a (complete X)) (fun j => some (f.coef j)) i = nandot (complete X) (fun j => some (f.coef j)) i + ∑ j, a j * f.coef j := by
    intro i
    rw [nandot_eq, nandot_eq, ← Finset.sum_add_distrib]
    refine Finset.sum_congr rfl fun j _ => ?_
    simp only [shiftN, complete, zval, Option.map_some, Option.getD_some]
    ring
  have h4' := nanmean_shift (d := ∑ j, a j * f.coef j) hc h4
  obtain ⟨f', g1, g2, g3, g4, g5, g6⟩ := snFitBranch_mk pr (shiftN a (complete X)) y (by rw [hX]; exact h1) (by rw [hX]; exact h2) (by rw [hs]; exact h3)
    (b0 := f.intercept - ∑ j, a j * f.coef j) (by simp only [hyp]; exact h4')
  refine ⟨f', g1, g2, g4, g5, funext fun i => ?_⟩
  rw [g6, h5, hyp]
  ring

/-- C157 is violated by missing predictors: if a retained predictor is missing in the case `i2` and available in `i1`, adding `d` to it changes the difference between the fitted
values of both by `d` times the coefficient, so that any `d ≠ 0` changes the fitted values, without bound as `d` grows. -/
theorem C157_shift_violated {n p : ℕ} (hn : 0 < n) (pr : SnParamsN) (hc : pr.centre ≠ .noneOpt) (X : NMat ℝ n p) (y : Fin n → Option ℝ) (f : SnFitN n p)
    (hf : snFitNaN pr X y = .ok f) {i1 i2 : Fin n} {j0 : Fin p} (h1 : X i1 j0 ≠ none) (h2 : X i2 j0 = none) (hb : f.coef j0 ≠ 0) (d : ℝ) :
    ∃ f', snFitNaN pr (shiftN (fun j => if j = j0 then d else 0) X) y = .ok f' ∧ f'.coef = f.coef ∧
      f'.fitted i1 - f'.fitted i2 = f.fitted i1 - f.fitted i2 + d * f.coef j0 ∧ (d ≠ 0 → f'.fitted ≠ f.fitted) := by
  obtain ⟨f', hf', -, hco, -⟩ := C157_coef_partial hn pr hc (fun j => if j = j0 then d else 0) X y f hf
  refine ⟨f', hf', hco, ?_⟩
  rw [snFitNaN_eq hn] at hf hf'
  obtain ⟨-, -, -, -, k1, -⟩ := snFitBranch_inv hf
  obtain ⟨-, -, -, -, k2, -⟩ := snFitBranch_inv hf'
  have e1 : nandot (shiftN (fun j => if j = j0 then d else 0) X) (fun j => some (f.coef j)) i1 = nandot X (fun j => some (f.coef j)) i1 + d * f.coef j0 := by
    rw [nandot_eq, nandot_eq, ← Finset.sum_erase_add _ _ (Finset.mem_univ j0), ← Finset.sum_erase_add (a := j0) Finset.univ _ (Finset.mem_univ j0)]
    obtain ⟨v, hv⟩ := Option.ne_none_iff_exists'.mp h1
    have e : zval (shiftN (fun j => if j = j0 then d else 0) X i1 j0) = v + d := by simp [shiftN, hv, zval]
    have e' : zval (X i1 j0) = v := by simp [hv, zval]
    rw [e, e']
    have : ∑ k ∈ Finset.univ.erase j0, zval (shiftN (fun j => if j = j0 then d else 0) X i1 k) * zval (some (f.coef k)) =
        ∑ k ∈ Finset.univ.erase j0, zval (X i1 k) * zval (some (f.coef k)) := by
      refine Finset.sum_congr rfl fun k hk => ?_
      have : k ≠ j0 := Finset.ne_of_mem_erase hk
      congr 1
      unfold shiftN
      simp only [if_neg this]
      cases X i1 k <;> simp
    rw [this]
    simp only [zval, Option.getD_some]
    ring
  have e2 : nandot (shiftN (fun j => if j = j0 then d else 0) X) (fun j => some (f.coef j)) i2 = nandot X (fun j => some (f.coef j)) i2 := by
    rw [nandot_eq, nandot_eq]
    refine Finset.sum_congr rfl fun k _ => ?_
    congr 1
    unfold shiftN
    by_cases hk : k = j0
    · subst hk; rw [h2]; rfl
    · simp only [if_neg hk]
      cases X i2 k <;> simp
  have hdiff : f'.fitted i1 - f'.fitted i2 = f.fitted i1 - f.fitted i2 + d * f.coef j0 := by
    rw [k2, k2, k1, k1, hco, e1, e2]
    ring
  refine ⟨hdiff, fun hd he => ?_⟩
  rw [he] at hdiff
  have : d * f.coef j0 = 0 := by linarith
  rcases mul_eq_zero.mp this with h | h
  · exact hd h
  · exact hb h

/-! ### The hypotheses can be met -/

/-- Three complete cases and one without any data. -/
noncomputable def exN : NMat ℝ 4 1 := fun i j => if h : (i : ℕ) < 3 then some (spXs ⟨i, h⟩ j) else none
/-- Their responses. -/
noncomputable def exNy : Fin 4 → Option ℝ := fun i => if h : (i : ℕ) < 3 then some (spYs ⟨i, h⟩) else none

lemma exN_fit : ∃ f, snFitNaN ⟨0, 1, .mean, .noneOpt⟩ exN exNy = .ok f ∧ f.coef 0 = 1 := by
  obtain ⟨g, c, hg, -, -, hres⟩ := sp_snfit
  have hX : (fun i => exN ((Fin.last 3).succAbove i)) = complete spXs := by
    funext i j
    rw [Fin.succAbove_last]
    simp [exN, complete]
  have hy : (fun i => exNy ((Fin.last 3).succAbove i)) = completeV spYs := by
    funext i
    rw [Fin.succAbove_last]
    simp [exNy, completeV]
  obtain ⟨b1, b2⟩ := C156_blank_case (n := 3) (by norm_num) ⟨0, 1, .mean, .noneOpt⟩ (Fin.last 3) exN exNy (fun j => by simp [exN]) (by simp [exNy])
  rw [hX, hy, (C156_complete (by norm_num) _ _ _).2] at b1 b2
  have hgb : snFitBody (SnParamsN.full ⟨0, 1, .mean, .noneOpt⟩) spXs spYs = .ok g := by
    have := hg
    unfold snFit at this
    rw [if_neg (by norm_num)] at this
    exact this
  rw [hgb] at b1 b2
  cases hF : snFitNaN ⟨0, 1, .mean, .noneOpt⟩ exN exNy with
  | error e => have := b1 e hF; cases this
  | ok f =>
    refine ⟨f, rfl, ?_⟩
    obtain ⟨f', h1, h2, -⟩ := b2 f hF
    cases h1
    rw [← h2]
    obtain ⟨-, -, -, -, -, -, -, -, -, -, hfit, -⟩ := snFit_inv hg
    have hm := madC_pos
    have r0 := hres 0
    have r2 := hres 2
    rw [hfit] at r0 r2
    simp [spXs, spYs, lin] at r0 r2
    show g.coef 0 = 1
    have : madConst * (g.coef 0 - 1) = 0 := by linarith
    rcases mul_eq_zero.mp this with h | h
    · exact absurd h hm.ne'
    · linarith

example : ∃ f, snFitNaN ⟨0, 1, .mean, .noneOpt⟩ exN exNy = .ok f ∧ exN 0 0 ≠ none ∧ exN 3 0 = none ∧ f.coef 0 ≠ 0 := by
  obtain ⟨f, h1, h2⟩ := exN_fit
  exact ⟨f, h1, by simp [exN], by simp [exN], by rw [h2]; norm_num⟩

/-! ### C158: predictions for the training cases -/

/-- C158 for a training case without missing predictors: its prediction is its fitted value.  Missing: cases with missing predictors (`C158_missing_violated`). -/
theorem C158_predict_partial {n p : ℕ} (hn : 0 < n) (pr : SnParamsN) (X : NMat ℝ n p) (y : Fin n → Option ℝ) (f : SnFitN n p) (hf : snFitNaN pr X y = .ok f) (i : Fin n)
    (hi : ∀ j, X i j ≠ none) : f.predict (X i) = some (f.fitted i) ∧ f.residuals i = (y i).map (· - f.fitted i) := by
  rw [snFitNaN_eq hn] at hf
  obtain ⟨-, -, -, -, k1, k2⟩ := snFitBranch_inv hf
  refine ⟨?_, k2 i⟩
  unfold SnFitN.predict
  rw [if_neg (by rintro ⟨j, h⟩; exact hi j h), k1, nandot_eq]
  rfl

/-- C158 is violated for every training case with a missing predictor, even one that the model does not use: `predict` gives NaN; the fitted value is the number that one gets by
putting zeros for the missing cells, whatever the origin of the predictors is. -/
theorem C158_missing_violated {n p : ℕ} (hn : 0 < n) (pr : SnParamsN) (X : NMat ℝ n p) (y : Fin n → Option ℝ) (f : SnFitN n p) (hf : snFitNaN pr X y = .ok f) (i : Fin n)
    (j : Fin p) (hi : X i j = none) : f.predict (X i) = none ∧ some (f.fitted i) = f.predict (fun k => some ((X i k).getD 0)) := by
  rw [snFitNaN_eq hn] at hf
  obtain ⟨-, -, -, -, k1, k2⟩ := snFitBranch_inv hf
  unfold SnFitN.predict
  rw [if_pos ⟨j, hi⟩, if_neg (by rintro ⟨j, h⟩; cases h), k1, nandot_eq]
  exact ⟨rfl, rfl⟩

example : ∃ f, snFitNaN ⟨0, 1, .mean, .noneOpt⟩ exN exNy = .ok f ∧ (∀ j, exN 0 j ≠ none) ∧ exN 3 0 = none := by
  obtain ⟨f, h1, h2⟩ := exN_fit
  exact ⟨f, h1, fun j => by simp [exN], by simp [exN]⟩

example : ∃ f : SnFit 3 1, snFit (SnParamsN.full ⟨0, 1, .mean, .noneOpt⟩) spXs spYs = .ok f := by
  obtain ⟨g, -, hg, -⟩ := sp_snfit
  exact ⟨g, hg⟩

example : ∃ f, snFitNaN ⟨0, 1, .mean, .noneOpt⟩ (complete spXs) (completeV spYs) = .ok f := by
  obtain ⟨g, -, hg, -⟩ := sp_snfit
  unfold snFit at hg
  rw [if_neg (by norm_num)] at hg
  refine ⟨g.toN, ?_⟩
  rw [(C156_complete (by norm_num) _ _ _).2]
  show (snFitBody ⟨0, 1, .mean, .noneOpt⟩ spXs spYs).map SnFit.toN = _
  rw [hg]
  rfl

end Direpack
