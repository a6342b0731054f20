import Verif.Props.Constant
import Verif.Props.Rotate4
import Verif.Props.SpatialMedian
import Verif.Props.GSSPP
import Verif.Props.DicomoDist2

/-!
Property C169, continued: robust M regression, distance statistics, spatial signs and the spatial median.
-/

namespace Direpack

open scoped BigOperators
open Spec

variable {n p q : ℕ}

/-! ### Robust M regression -/

/-- The same fit with zero coefficients for additional predictors; `m` are the locations. -/
noncomputable def RmFit.pad (e : Fin p ↪ Fin q) (m : Fin q → ℝ) (f : RmFit n p) : RmFit n q :=
  { coef := Direpack.pad e f.coef, intercept := f.intercept, coefScaled := Direpack.pad e f.coefScaled, interceptScaled := f.interceptScaled
    residuals := f.residuals, fitted := f.fitted, xCaseweights := f.xCaseweights, yCaseweights := f.yCaseweights, caseweights := f.caseweights
    xLoc := m, yLoc := f.yLoc, xSca := fun _ => 1, ySca := f.ySca, trainCols := f.trainCols.map fun _ => q, fits := f.fits }

lemma rss_padMat (e : Fin p ↪ Fin q) (A : Fin n → Fin p → ℝ) (z : Fin n → ℝ) (b : Fin q → ℝ) : rss (padMat e A) z b = rss A z fun j => b (e j) := by
  unfold rss padMat
  simp only [sum_pad]

lemma minNorm_pad (e : Fin p ↪ Fin q) {A : Fin n → Fin p → ℝ} {z : Fin n → ℝ} {b : Fin p → ℝ} (hb : IsMinNormLS A z b) : IsMinNormLS (padMat e A) z (pad e b) := by
  have h0 : rss (padMat e A) z (pad e b) = rss A z b := by rw [rss_padMat]; simp only [pad_apply]
  constructor
  · intro b'
    rw [h0, rss_padMat]
    exact hb.1 _
  · intro b' hb'
    rw [sum_pad_sq]
    refine (hb.2 (fun j => b' (e j)) fun b'' => ?_).trans ?_
    · have := hb' (pad e b'')
      rw [rss_padMat, rss_padMat] at this
      simpa only [pad_apply] using this
    · calc ∑ j, b' (e j) ^ 2 = ∑ j ∈ Finset.univ.map e, b' j ^ 2 := by rw [Finset.sum_map]
        _ ≤ ∑ j, b' j ^ 2 := Finset.sum_le_sum_of_subset_of_nonneg (Finset.subset_univ _) fun _ _ _ => sq_nonneg _

lemma weightRows_pad (e : Fin p ↪ Fin q) (X : Fin n → Fin p → ℝ) (we : Fin n → ℝ) : weightRows (padMat e X) we = padMat e (weightRows X we) := by
  funext i
  refine eq_pad e _ _ (fun j => ?_) fun j hj => ?_
  · simp only [weightRows, padMat, pad_apply]
  · simp only [weightRows, padMat, pad_out e _ hj, zero_mul]

lemma rowDistances_pad (e : Fin p ↪ Fin q) (X : Fin n → Fin p → ℝ) : rowDistances (padMat e X) = rowDistances X := by
  unfold rowDistances padMat
  simp only [sum_pad_sq]

lemma rmStep_pad (e : Fin p ↪ Fin q) {ext : RmExt} (hls : ∀ {k : ℕ} (A : Fin n → Fin k → ℝ) (z : Fin n → ℝ), IsMinNormLS A z (ext.lstsq A z)) (fn : WFun) (cy : ℝ × ℝ × ℝ)
    (Xs : Fin n → Fin p → ℝ) (ys wx we : Fin n → ℝ) :
    rmStep ext fn cy (padMat e Xs) ys wx we = (rmStep ext fn cy Xs ys wx we).map fun q => (pad e q.1, q.2.1, q.2.2.1, q.2.2.2) := by
  have h : ext.lstsq (weightRows (padMat e Xs) we) (fun i => ys i * Real.sqrt (we i)) = pad e (ext.lstsq (weightRows Xs we) fun i => ys i * Real.sqrt (we i)) := by
    rw [weightRows_pad]
    exact IsMinNormLS.unique (hls _ _) (minNorm_pad e (hls _ _))
  unfold rmStep
  simp only [h, sum_pad_sq, padMat, sum_pad']
  cases scaleRes fun i => ys i - ∑ j, Xs i j * ext.lstsq (weightRows Xs we) (fun i => ys i * Real.sqrt (we i)) j with
  | error e => rfl
  | ok d => rfl

lemma scaleMat_adds {c : Centre} (hc : c = .mean ∨ c = .median) (hn : 0 < n) {e : Fin p ↪ Fin q} {X : Fin n → Fin p → ℝ} {X' : Fin n → Fin q → ℝ} (hX : AddsConstants e X X') :
    scaleMat X' (c.run X') (ScaleOpt.noneOpt.run X') = padMat e (scaleMat X (c.run X) (ScaleOpt.noneOpt.run X)) := by
  rw [scaleMat_eq, scaleMat_eq]
  exact stdMat_adds hc (.inr (.inr rfl)) hn hX

/-- C169: RM without scaling and with cutoffs that do not refer to the number of predictors ignores constant predictors: the same exception, or the same coefficients, with zeros for the
constant predictors, and the same intercepts, fitted values, residuals, case weights and number of iterations.  With scaling see `C169_rm_violated`; not covered are the
cutoffs of `start_cutoff_mode='specific'`, whose degrees of freedom are the number of columns. -/
theorem C169_rm_partial {ext : RmExt} {pr : RmParams} (hc : pr.centre = .mean ∨ pr.centre = .median) (hs : pr.scale = .noneOpt) (hp : pr.specific = false) (hn : 0 < n)
    (hls : ∀ {k : ℕ} (A : Fin n → Fin k → ℝ) (z : Fin n → ℝ), IsMinNormLS A z (ext.lstsq A z)) {e : Fin p ↪ Fin q} {X : Fin n → Fin p → ℝ} {X' : Fin n → Fin q → ℝ}
    (hX : AddsConstants e X X') (y : Fin n → ℝ) :
    rmFit ext pr X' y = (rmFit ext pr X y).map (RmFit.pad e (pr.centre.run X')) := by
  unfold rmFit
  rw [hs, hp]
  have hcut : ∀ k, cutX ext false k pr.probp1 pr.probp2 pr.probp3 = cutY ext pr.probp1 pr.probp2 pr.probp3 := fun _ => rfl
  cases checkProbs pr.fn pr.probp1 pr.probp2 pr.probp3 with
  | error e => rfl
  | ok _ =>
    simp only [scaleMat_adds hc hn hX, rowDistances_pad, hcut]
    set Xs := scaleMat X (pr.centre.run X) (ScaleOpt.noneOpt.run X) with hXs
    set ys : Fin n → ℝ := fun i => scaleMat (asCol y) (pr.centre.run (asCol y)) (ScaleOpt.noneOpt.run (asCol y)) i 0 with hys
    cases rowDistances Xs with
    | error e => rfl
    | ok dx =>
      simp only
      cases startY pr.centre .noneOpt ys y with
      | error e => rfl
      | ok dy =>
        simp only
        set cy := cutY ext pr.probp1 pr.probp2 pr.probp3 with hcy
        have hl := repeats_id.rwLoop (pad e) (fun we => rmStep_pad e hls pr.fn cy Xs ys (pr.fn.run dx cy) we) pr.tol pr.maxit (pr.maxit.toNat + 1) 1 (1 / 100000) (pr.tol < 1)
          (clipW fun i => pr.fn.run dx cy i * pr.fn.run dy cy i) none
        have hl2 : rwLoop (rmStep ext pr.fn cy (padMat e Xs) ys (pr.fn.run dx cy)) pr.tol pr.maxit (pr.maxit.toNat + 1) 1 (1 / 100000) (pr.tol < 1)
            (clipW fun i => pr.fn.run dx cy i * pr.fn.run dy cy i) none = _ := hl
        rw [hl2]
        cases rwLoop (rmStep ext pr.fn cy Xs ys (pr.fn.run dx cy)) pr.tol pr.maxit (pr.maxit.toNat + 1) 1 (1 / 100000) (pr.tol < 1)
            (clipW fun i => pr.fn.run dx cy i * pr.fn.run dy cy i) none with
        | none => rfl
        | some z =>
          cases z with
          | error e => rfl
          | ok o =>
            cases o with
            | none => rfl
            | some o =>
              simp only [Option.map, Except.map, RwOut.rep_id]
              unfold rmFinish
              simp only
              have h1 : ∀ {N q : ℕ} (Z : Fin N → Fin q → ℝ), ¬ ∃ j, ScaleOpt.noneOpt.run Z j = 0 := fun Z => by simp [ScaleOpt.run]
              rw [if_neg (h1 _), if_neg (h1 _)]
              have e1 : ∀ j, ScaleOpt.noneOpt.run (asCol y) 0 / ScaleOpt.noneOpt.run X j = 1 := fun j => by simp [ScaleOpt.run]
              have e2 : ∀ j, ScaleOpt.noneOpt.run (asCol y) 0 / ScaleOpt.noneOpt.run X' j = 1 := fun j => by simp [ScaleOpt.run]
              have e3 : ∀ (b : Fin p → ℝ) i, ∑ j, X' i j * pad e b j = ∑ j, X i j * b j := fun b i => congrFun (pad_lin e X X' hX.1 b) i
              have e4 : ∀ (b : Fin p → ℝ) i0, rmIntercepts pr.centre pr.scale X' y (padMat e Xs) ys (pad e b) i0 = rmIntercepts pr.centre pr.scale X y Xs ys b i0 := by
                intro b i0
                unfold rmIntercepts
                simp only [e3, padMat, sum_pad']
              simp only [e1, e2, one_mul, e3, e4]
              cases rmIntercepts pr.centre pr.scale X y Xs ys o.b _ with
              | error e => rfl
              | ok q =>
                simp only [RmFit.pad]
                cases pr.copy <;> rfl

/-- C169 does not hold with scaling: there is never a usable model with a constant predictor. -/
theorem C169_rm_violated {ext : RmExt} {pr : RmParams} (hs : pr.scale = .std ∨ pr.scale = .mad) (hn : 0 < n) (X : Fin n → Fin p → ℝ) (y : Fin n → ℝ) {j : Fin p} {c : ℝ} (h : ∀ i, X i j = c) :
    ∀ f, rmFit ext pr X y ≠ .ok f := by
  intro f hf
  obtain ⟨-, -, a2, -, -, a5, -⟩ := rmFit_inv hf
  exact a5 j (by rw [a2]; exact ScaleOpt.run_const hs hn h)

/-! ### Distance statistics -/

lemma edist_adds {e : Fin p ↪ Fin q} {X : Fin n → Fin p → ℝ} {X' : Fin n → Fin q → ℝ} (hX : AddsConstants e X X') : edist X' = edist X := by
  funext i k
  unfold edist
  congr 1
  symm
  refine Fintype.sum_of_injective e e.injective _ _ (fun j hj => ?_) fun j => by rw [hX.1, hX.1]
  obtain ⟨c, hc⟩ := hX.2 j hj
  rw [hc i, hc k]; ring

/-- C169: no distance statistic depends on constant columns: every mode, location, trimming, order and algorithm. -/
theorem C169_distance (hn : 0 < n) (m : Mode) (c : Loc) (a : FitArgs) {e : Fin p ↪ Fin q} {X : Fin n → Fin p → ℝ} {X' : Fin n → Fin q → ℝ} (hX : AddsConstants e X X') {k : ℕ}
    (y : Fin n → Fin k → ℝ) : run .distance m c a (dmat X') (dmat y) = run .distance m c a (dmat X) (dmat y) := by
  have hx := edist_adds hX
  rw [run_eq, run_eq, compute_distance_all hn m _ a, compute_distance_all hn m _ a, fastStage_congr hn _ a hx rfl,
    naiveStage_congr hn _ _ _ _ a hx rfl, mddStage_congr hn _ _ a hx rfl]

/-! ### Spatial signs -/

/-- C169: the plain spatial signs of centred data (`fun='ss'`) do not depend on constant columns, whose signs are zero.  For the other functions see `C169_signs_violated`. -/
theorem C169_signs_partial {c : Centre} (hc : c = .mean ∨ c = .median) (hn : 0 < n) {e : Fin p ↪ Fin q} {X : Fin n → Fin p → ℝ} {X' : Fin n → Fin q → ℝ} (hX : AddsConstants e X X') :
    ∃ Y Y', gssFitTransform c.run .ss X = .ok Y ∧ gssFitTransform c.run .ss X' = .ok Y' ∧ (∀ i j, Y' i (e j) = Y i j) ∧ ∀ i j, j ∉ Set.range e → Y' i j = 0 := by
  obtain ⟨h1, h2⟩ := Centre.run_adds hc hn hX
  have hX' : centreBy c.run X' = padMat e (centreBy c.run X) := by
    funext i
    refine eq_pad e _ _ (fun j => ?_) fun j hj => ?_
    · simp only [centreBy, h1, hX.1]
    · simp only [centreBy, ← h2 j hj i, sub_self]
  have hr : rowNorms (padMat e (centreBy c.run X)) = rowNorms (centreBy c.run X) := by
    unfold rowNorms padMat
    simp only [sum_pad_sq]
  refine ⟨_, _, rfl, rfl, fun i j => ?_, fun i j hj => ?_⟩
  · simp only [GSSState.transform, hX', hr, padMat, pad_apply]
  · simp only [GSSState.transform, hX', padMat, pad_out e _ hj, zero_mul]

/-- C169 does not hold for the other functions: they read the distance quantile number `⌊(n+p+1)/2⌋`, where `p` counts the constant columns; with a constant column that makes the table
wider than long there is no transform. -/
theorem C169_signs_violated (f : Radial) (hf : f ≠ .ss) : ∃ (e : Fin 2 ↪ Fin 3) (X : Fin 2 → Fin 2 → ℝ) (X' : Fin 2 → Fin 3 → ℝ), AddsConstants e X X' ∧
    (∃ Y, gsspp f (centreBy Centre.mean.run X) = .ok Y) ∧ gsspp f (centreBy Centre.mean.run X') = .error .indexError := by
  refine ⟨Fin.castSuccEmb, ![![0, 1], ![2, 0]], ![![0, 1, 7], ![2, 0, 7]], ⟨?_, ?_⟩, ?_, ?_⟩
  · intro i j; fin_cases i <;> fin_cases j <;> rfl
  · intro j hj
    refine ⟨7, fun i => ?_⟩
    have : j = 2 := by
      fin_cases j
      · exact absurd ⟨0, rfl⟩ hj
      · exact absurd ⟨1, rfl⟩ hj
      · rfl
    subst this
    fin_cases i <;> rfl
  · exact (C23_gss_defined (by norm_num) f hf _).1 (by norm_num)
  · exact (C23_gss_defined (by norm_num) f hf _).2 (by norm_num)

/-! ### The spatial median -/

lemma sumDist_adds [NeZero n] {e : Fin p ↪ Fin q} {X : Fin n → Fin p → ℝ} {X' : Fin n → Fin q → ℝ} (hX : AddsConstants e X X') (a : Fin q → ℝ) :
    sumDist X' a = ∑ i, Real.sqrt (∑ j, (X i j - a (e j)) ^ 2 + ∑ j ∈ (Finset.univ.map e)ᶜ, (X' 0 j - a j) ^ 2) := by
  unfold sumDist
  refine Finset.sum_congr rfl fun i _ => ?_
  congr 1
  rw [← Finset.sum_add_sum_compl (Finset.univ.map e) fun j => (X' i j - a j) ^ 2, Finset.sum_map]
  congr 1
  · exact Finset.sum_congr rfl fun j _ => by rw [hX.1]
  · refine Finset.sum_congr rfl fun j hj => ?_
    obtain ⟨c, hc⟩ := hX.2 j (by
      rintro ⟨k, rfl⟩
      exact (Finset.mem_compl.1 hj) (Finset.mem_map_of_mem e (Finset.mem_univ k)))
    rw [hc i, hc 0]

/-- C169: the spatial medians of a table with constant columns are those of the table without them, with the constants in their places. -/
theorem C169_median [NeZero n] {e : Fin p ↪ Fin q} {X : Fin n → Fin p → ℝ} {X' : Fin n → Fin q → ℝ} (hX : AddsConstants e X X') (a : Fin q → ℝ) :
    IsSpatialMedian X' a ↔ IsSpatialMedian X (fun j => a (e j)) ∧ ∀ j, j ∉ Set.range e → ∀ i, X' i j = a j := by
  have hmem : ∀ j, j ∈ (Finset.univ.map e)ᶜ ↔ j ∉ Set.range e := fun j => by simp
  -- the constants in their places
  have hext : ∀ b : Fin p → ℝ, ∃ b' : Fin q → ℝ, (∀ j, b' (e j) = b j) ∧ (∀ j, j ∉ Set.range e → b' j = X' 0 j) := fun b =>
    ⟨Function.extend e b (X' 0), fun j => e.injective.extend_apply _ _ _, fun j hj => Function.extend_apply' _ _ _ hj⟩
  have hval : ∀ (b : Fin q → ℝ), (∀ j, j ∉ Set.range e → b j = X' 0 j) → sumDist X' b = sumDist X fun j => b (e j) := by
    intro b hb
    rw [sumDist_adds hX]
    unfold sumDist
    refine Finset.sum_congr rfl fun i _ => ?_
    have h0 : ∑ j ∈ (Finset.univ.map e)ᶜ, (X' 0 j - b j) ^ 2 = 0 := Finset.sum_eq_zero fun j hj => by rw [hb j ((hmem j).1 hj)]; ring
    rw [h0, add_zero]
  have hle : ∀ b : Fin q → ℝ, (sumDist X fun j => b (e j)) ≤ sumDist X' b := by
    intro b
    rw [sumDist_adds hX]
    unfold sumDist
    exact Finset.sum_le_sum fun i _ => Real.sqrt_le_sqrt (le_add_of_nonneg_right (Finset.sum_nonneg fun j _ => sq_nonneg _))
  have hlt : ∀ b : Fin q → ℝ, (∃ j, j ∉ Set.range e ∧ X' 0 j ≠ b j) → (sumDist X fun j => b (e j)) < sumDist X' b := by
    rintro b ⟨j, hj, hne⟩
    have hpos : 0 < ∑ j ∈ (Finset.univ.map e)ᶜ, (X' 0 j - b j) ^ 2 :=
      Finset.sum_pos' (fun j _ => sq_nonneg _) ⟨j, (hmem j).2 hj, by have := sub_ne_zero.2 hne; positivity⟩
    rw [sumDist_adds hX]
    unfold sumDist
    exact Finset.sum_lt_sum_of_nonempty Finset.univ_nonempty fun i _ => Real.sqrt_lt_sqrt (Finset.sum_nonneg fun j _ => sq_nonneg _) (lt_add_of_pos_right _ hpos)
  have hconst : ∀ j, j ∉ Set.range e → ∀ i, X' i j = X' 0 j := by
    intro j hj i
    obtain ⟨c, hc⟩ := hX.2 j hj
    rw [hc, hc]
  constructor
  · intro ha
    have hplace : ∀ j, j ∉ Set.range e → a j = X' 0 j := by
      by_contra hcon
      push Not at hcon
      obtain ⟨j, hj, hne⟩ := hcon
      obtain ⟨b', hb1, hb2⟩ := hext fun j => a (e j)
      have h1 := ha b'
      rw [hval b' hb2] at h1
      simp only [hb1] at h1
      exact absurd (hlt a ⟨j, hj, fun h => hne h.symm⟩) (not_lt.2 h1)
    refine ⟨fun b => ?_, fun j hj i => by rw [hconst j hj i, hplace j hj]⟩
    obtain ⟨b', hb1, hb2⟩ := hext b
    have h1 := ha b'
    rw [hval b' hb2, hval a hplace] at h1
    simpa only [hb1] using h1
  · rintro ⟨h1, h2⟩ b
    rw [hval a fun j hj => (h2 j hj 0).symm]
    exact (h1 _).trans (hle b)

/-! ### Examples -/

lemma addsConst_last {N k : ℕ} (X : Fin N → Fin k → ℝ) (c : ℝ) : AddsConstants Fin.castSuccEmb X fun i => Fin.snoc (X i) c := by
  refine ⟨fun i j => ?_, fun j hj => ⟨c, fun i => ?_⟩⟩
  · simp [Fin.coe_castSuccEmb]
  · have : j = Fin.last k := by
      by_contra h
      exact hj ⟨j.castPred h, by simp⟩
    subst this
    simp

/-- Non-vacuity of `C169_rm_partial`: five cases with a third predictor that is always 7. -/
example : ∃ f f', rmFit rmExt1 ⟨.huber, 95 / 100, 975 / 1000, 999 / 1000, .mean, .noneOpt, false, 2, 1 / 100, true⟩ rotRmX rotRmY = .ok f ∧
    rmFit rmExt1 ⟨.huber, 95 / 100, 975 / 1000, 999 / 1000, .mean, .noneOpt, false, 2, 1 / 100, true⟩ (fun i => Fin.snoc (rotRmX i) 7) rotRmY = .ok f' ∧
    f'.caseweights = f.caseweights ∧ f'.coef 2 = 0 := by
  obtain ⟨f, hf⟩ := rotRm_model
  refine ⟨f, f.pad Fin.castSuccEmb (Centre.mean.run fun i => Fin.snoc (rotRmX i) 7), hf, ?_, rfl, ?_⟩
  · rw [C169_rm_partial (.inl rfl) rfl rfl (by norm_num) rmExt1_min (addsConst_last rotRmX 7), hf]
    rfl
  · refine pad_out _ _ ?_
    rintro ⟨j, hj⟩
    have := congrArg Fin.val hj
    simp at this
    omega

/-- C169 does not hold with scaling, on an example: two cases and two predictors give a model with standardised variables; with a third predictor that is always 7 there is none. -/
theorem C169_scaled_violated : ∃ (e : Fin 2 ↪ Fin 3) (X : Fin 2 → Fin 2 → ℝ) (X' : Fin 2 → Fin 3 → ℝ) (y : Fin 2 → ℝ), AddsConstants e X X' ∧
    (∃ f, snFit ⟨0, 1, .mean, .std⟩ X y = .ok f) ∧ ∀ f', snFit ⟨0, 1, .mean, .std⟩ X' y ≠ .ok f' := by
  refine ⟨Fin.castSuccEmb, ![![0, 1], ![2, 0]], fun i => Fin.snoc ((![![0, 1], ![2, 0]] : Fin 2 → Fin 2 → ℝ) i) 7, ![0, 2], addsConst_last _ 7, ?_, ?_⟩
  · refine C44_one_component_total ⟨0, 1, .mean, .std⟩ (![![0, 1], ![2, 0]] : Fin 2 → Fin 2 → ℝ) ![0, 2] (le_refl 0) one_pos rfl ?_
    intro j
    have : 0 < var fun i => (![![0, 1], ![2, 0]] : Fin 2 → Fin 2 → ℝ) i j := by
      fin_cases j <;> simp [var, varL, List.ofFn_succ, meanL] <;> norm_num
    simp only [ScaleOpt.run]
    exact (Real.sqrt_pos.2 this).ne'
  · exact C169_snipls_violated (.inl rfl) (by norm_num) _ _ (j := Fin.last 2) (c := 7) fun i => Fin.snoc_last (α := fun _ => ℝ) _ _

/-- Non-vacuity of `C169_snipls_partial`. -/
example : ∃ f f', snFit ⟨0, 1, .mean, .noneOpt⟩ (![![0, 1], ![2, 0]] : Fin 2 → Fin 2 → ℝ) ![0, 2] = .ok f ∧
    snFit ⟨0, 1, .mean, .noneOpt⟩ (fun i => Fin.snoc ((![![0, 1], ![2, 0]] : Fin 2 → Fin 2 → ℝ) i) 7) ![0, 2] = .ok f' ∧ f'.coef 1 = f.coef 1 ∧ f'.coef (Fin.last 2) = 0 := by
  obtain ⟨f, hf⟩ := C44_one_component_total ⟨0, 1, .mean, .noneOpt⟩ (![![0, 1], ![2, 0]] : Fin 2 → Fin 2 → ℝ) ![0, 2] (le_refl 0) one_pos rfl (fun j => one_ne_zero)
  obtain ⟨h1, h2⟩ := C169_snipls_partial (pr := ⟨0, 1, .mean, .noneOpt⟩) (.inl rfl) rfl (by norm_num) (addsConst_last (![![0, 1], ![2, 0]] : Fin 2 → Fin 2 → ℝ) 7) ![0, 2]
  obtain ⟨f', hf'⟩ := h1.1 ⟨f, hf⟩
  obtain ⟨a, b, -⟩ := h2 f f' hf hf'
  refine ⟨f, f', hf, hf', a 1, b _ ?_⟩
  rintro ⟨j, hj⟩
  exact absurd hj (Fin.castSucc_ne_last j)

/-- Non-vacuity of `C169_distance` and `C169_median`: any table with one constant column added. -/
example : AddsConstants Fin.castSuccEmb (![![0, 1], ![2, 0], ![5, 5]] : Fin 3 → Fin 2 → ℝ) fun i => Fin.snoc ((![![0, 1], ![2, 0], ![5, 5]] : Fin 3 → Fin 2 → ℝ) i) 7 :=
  addsConst_last _ 7

end Direpack
