import Mathlib.Tactic.Linarith
import Mathlib.Tactic.FieldSimp
import Mathlib.Tactic.Ring
import Verif.Props.ExactFit

/-! Property C145: when robust M regression returns a model. -/

set_option linter.unusedSectionVars false

namespace Direpack

open scoped BigOperators
open Spec

variable {n p : ℕ}

/-- The scaled residuals exist unless all residuals vanish. -/
lemma scaleRes_iff (r : Fin n → ℝ) : (∃ d, scaleRes r = .ok d) ↔ ∃ i, r i ≠ 0 := by
  constructor
  · rintro ⟨d, hd⟩
    by_contra h
    push Not at h
    exact scaleRes_zero r d h hd
  · rintro ⟨i, hi⟩
    unfold scaleRes
    dsimp only
    split
    · exact ⟨_, rfl⟩
    · split
      · rename_i h
        rw [List.map_eq_nil_iff, List.filter_eq_nil_iff] at h
        have := h (r i) ((List.mem_ofFn' _ _).mpr ⟨i, rfl⟩)
        simp [hi] at this
      · exact ⟨_, rfl⟩

/-- The reweighting loop has a result if its body has one for all weights that occur and if it is entered. -/
lemma rwLoop_total {β : Type} (step : (Fin n → ℝ) → Except Err (β × ℝ × (Fin n → ℝ) × (Fin n → ℝ))) (tol : ℝ) (maxit : ℤ)
    (hst : ∀ we, (∀ i, wMin ≤ we i) → ∃ t, step we = .ok t) (fuel : ℕ) :
    ∀ (loops : ℤ) (rold : ℝ) (go : Prop) (we : Fin n → ℝ) (out : Option (RwOut β n)), (∀ i, wMin ≤ we i) → (maxit - loops < fuel) →
      0 < fuel → (out ≠ none ∨ (go ∧ loops < maxit)) → ∃ o, rwLoop step tol maxit fuel loops rold go we out = some (.ok (some o)) := by
  induction fuel with
  | zero => intro loops rold go we out _ _ h0; omega
  | succ fuel ih =>
    intro loops rold go we out hwe hfuel _ hout
    rw [rwLoop]
    split
    · rename_i hgo
      obtain ⟨⟨b, b2, wye, wte⟩, ht⟩ := hst we hwe
      rw [ht]
      dsimp only
      split
      · exact ⟨_, rfl⟩
      · refine ih _ _ _ _ _ (fun i => ?_) (by push_cast at hfuel; omega) (by push_cast at hfuel; omega) (Or.inl (by simp))
        split
        · exact le_rfl
        · rename_i h; exact not_lt.mp h
    · rename_i hgo
      rcases hout with h | h
      · cases out with
        | none => exact absurd rfl h
        | some o => exact ⟨o, rfl⟩
      · exact absurd h hgo

/-- A weighted least squares fit leaves no residuals exactly if the response is a linear function of the predictors. -/
lemma lstsq_exact_iff (lstsq : (Fin n → Fin p → ℝ) → (Fin n → ℝ) → (Fin p → ℝ)) (hls : ∀ X y, IsLeastSquares X y (lstsq X y))
    (Z : Fin n → Fin p → ℝ) (ys we : Fin n → ℝ) (hwe : ∀ i, wMin ≤ we i) :
    (∀ i, ys i - ∑ j, Z i j * lstsq (weightRows Z we) (fun i => ys i * Real.sqrt (we i)) j = 0) ↔ ∃ γ : Fin p → ℝ, ∀ i, ys i = ∑ j, Z i j * γ j := by
  constructor
  · intro h
    exact ⟨_, fun i => sub_eq_zero.mp (h i)⟩
  · rintro ⟨γ, hγ⟩ i
    have hmin := isLeastSquares_min (hls (weightRows Z we) (fun i => ys i * Real.sqrt (we i))) γ
    set b := lstsq (weightRows Z we) (fun i => ys i * Real.sqrt (we i)) with hbdef
    have hex : ∀ i, ys i * Real.sqrt (we i) - ∑ j, weightRows Z we i j * γ j = 0 := by
      intro i
      rw [hγ i]
      simp only [weightRows, Finset.sum_mul]
      rw [← Finset.sum_sub_distrib]
      exact Finset.sum_eq_zero fun j _ => by ring
    have h1 : ∑ i, (ys i * Real.sqrt (we i) - ∑ j, weightRows Z we i j * b j) ^ 2 ≤ 0 := by
      refine hmin.trans (le_of_eq (Finset.sum_eq_zero fun i _ => ?_))
      rw [hex i]; ring
    have h2 := (Finset.sum_eq_zero_iff_of_nonneg fun i _ => sq_nonneg (ys i * Real.sqrt (we i) - ∑ j, weightRows Z we i j * b j)).mp
      (le_antisymm h1 (Finset.sum_nonneg fun i _ => sq_nonneg _)) i (Finset.mem_univ _)
    have h3 := pow_eq_zero_iff two_ne_zero |>.mp h2
    have h4 : ys i * Real.sqrt (we i) - ∑ j, weightRows Z we i j * b j = Real.sqrt (we i) * (ys i - ∑ j, Z i j * b j) := by
      rw [mul_sub, Finset.mul_sum]
      congr 1
      · ring
      · exact Finset.sum_congr rfl fun j _ => by simp only [weightRows]; ring
    rw [h4] at h3
    have h5 : 0 < Real.sqrt (we i) := Real.sqrt_pos.mpr (by have := hwe i; unfold wMin at this; linarith)
    exact (mul_eq_zero.mp h3).resolve_left h5.ne'

/-- A standardised response is a linear function of the standardised predictors exactly if the centred response is one of the centred predictors. -/
lemma std_exact_iff (X : Fin n → Fin p → ℝ) (y : Fin n → ℝ) (m s : Fin p → ℝ) (my sy : ℝ) (hs : ∀ j, s j ≠ 0) :
    (∃ γ : Fin p → ℝ, ∀ i, stdVec y my sy i = ∑ j, stdMat X m s i j * γ j) ↔ ∃ β : Fin p → ℝ, ∀ i, y i - my = ∑ j, (X i j - m j) * β j := by
  obtain ⟨t, ht, hst⟩ : ∃ t : ℝ, t ≠ 0 ∧ ∀ i, y i - my = t * stdVec y my sy i := by
    by_cases h : sy = 0
    · exact ⟨1, one_ne_zero, fun i => by simp [stdVec, std1, h]⟩
    · exact ⟨sy, h, fun i => by simp only [stdVec, std1, if_neg h]; field_simp⟩
  have hZ : ∀ i j, stdMat X m s i j = (X i j - m j) / s j := fun i j => by simp [stdMat, std1, hs j]
  constructor
  · rintro ⟨γ, hγ⟩
    refine ⟨fun j => t * γ j / s j, fun i => ?_⟩
    rw [hst i, hγ i, Finset.mul_sum]
    refine Finset.sum_congr rfl fun j _ => ?_
    rw [hZ]; have := hs j; field_simp
  · rintro ⟨β, hβ⟩
    refine ⟨fun j => β j * s j / t, fun i => ?_⟩
    have : stdVec y my sy i = (∑ j, (X i j - m j) * β j) / t := by rw [← hβ i, hst i]; field_simp
    rw [this, Finset.sum_div]
    refine Finset.sum_congr rfl fun j _ => ?_
    rw [hZ]; have := hs j; field_simp

/-- What the parameters must satisfy for robust M regression to fit anything. -/
structure Spec.RmParamsOk (pr : RmParams) : Prop where
  /-- the probabilities pass the checks -/
  probs : 0 < pr.probp1 ∧ pr.probp1 ≤ 1 ∧ (pr.fn = .hampel → pr.probp1 < pr.probp2 ∧ pr.probp2 < pr.probp3 ∧ pr.probp3 ≤ 1)
  /-- the loop is entered -/
  loop : pr.tol < 1 ∧ 2 ≤ pr.maxit
  /-- without scaling the centre must be the mean -/
  unscaled : pr.scale = .noneOpt → pr.centre = .mean

/-- What the data must satisfy. -/
structure Spec.RmDataOk (pr : RmParams) (X : Fin n → Fin p → ℝ) (y : Fin n → ℝ) : Prop where
  /-- no predictor has scale zero -/
  scales : ∀ j, pr.scale.run X j ≠ 0
  /-- the median of the distances of the standardised cases from the origin is not zero -/
  distances : med (fun i => Real.sqrt (∑ j, ((X i j - pr.centre.run X j) / pr.scale.run X j) ^ 2)) ≠ 0
  /-- the median absolute deviation of the response is not zero, unless centre and scale are median and mad -/
  response : (pr.centre = .median ∧ pr.scale = .mad) ∨ med (fun i => |y i - med y|) ≠ 0
  /-- the centred response is not a linear function of the centred predictors -/
  inexact : ¬ ∃ β : Fin p → ℝ, ∀ i, y i - pr.centre.run (asCol y) 0 = ∑ j, (X i j - pr.centre.run X j) * β j

/-- C145: robust M regression returns a model exactly if the parameters and the data are as in `Spec.RmParamsOk` and `Spec.RmDataOk`: for all data, weight functions, tuning,
estimators of location and scale, and solvers of the least squares problem. -/
theorem C145_rm_model_iff (ext : RmExt) (hls : ∀ {n p : ℕ} (X : Fin n → Fin p → ℝ) (y : Fin n → ℝ), IsLeastSquares X y (ext.lstsq X y)) (pr : RmParams)
    (X : Fin n → Fin p → ℝ) (y : Fin n → ℝ) : (∃ f, rmFit ext pr X y = .ok f) ↔ RmParamsOk pr ∧ RmDataOk pr X y := by
  have hZ : ∀ (hs : ∀ j, pr.scale.run X j ≠ 0), (fun i => Real.sqrt (∑ j, stdMat X (pr.centre.run X) (pr.scale.run X) i j ^ 2)) =
      fun i => Real.sqrt (∑ j, ((X i j - pr.centre.run X j) / pr.scale.run X j) ^ 2) := by
    intro hs
    funext i
    congr 1
    exact Finset.sum_congr rfl fun j _ => by simp [stdMat, std1, hs j]
  constructor
  · rintro ⟨f, hf⟩
    obtain ⟨h1, e1, e2, e3, e4, hs, dx, dy, o, hdx, hdy, hl, -, -, -, hi, -⟩ := rmFit_inv hf
    rw [e1, e2] at hdx
    rw [e2] at hs
    have hgo : pr.tol < 1 ∧ 1 < pr.maxit := by
      by_contra hg
      rw [rwLoop, if_neg hg] at hl
      simp at hl
    refine ⟨⟨h1, ⟨hgo.1, by omega⟩, fun hn => ?_⟩, hs, ?_, ?_, ?_⟩
    · unfold rmIntercepts at hi
      rw [hn] at hi
      simp only [ScaleOpt.isNone, if_true] at hi
      split at hi
      · rename_i hm
        unfold Centre.isMean at hm
        split at hm
        · assumption
        · simp at hm
      · simp at hi
    · rw [← hZ hs]
      intro h0
      unfold rowDistances at hdx
      simp [h0] at hdx
    · by_cases hmm : pr.centre = .median ∧ pr.scale = .mad
      · exact Or.inl hmm
      · refine Or.inr fun h0 => ?_
        have := ((startY_spec hdy).2 hmm).1
        rw [h0] at this
        simp at this
    · intro hex
      obtain ⟨we, b2, hwe, hst⟩ := (rwLoop_pass _ _ _ _ _ _ _ _ _ _ (clip_ge _) (by simp) hl o rfl).last
      unfold rmStep at hst
      dsimp only at hst
      rw [e1, e2, e3, e4] at hst
      have hz := (lstsq_exact_iff ext.lstsq hls (stdMat X (pr.centre.run X) (pr.scale.run X)) (stdVec y (pr.centre.run (asCol y) 0) (pr.scale.run (asCol y) 0)) we hwe).mpr
        ((std_exact_iff X y _ _ _ _ hs).mpr hex)
      split at hst
      · simp at hst
      · rename_i r hr
        exact scaleRes_zero _ _ hz hr
  · rintro ⟨⟨⟨hp1, hp2, hp3⟩, ⟨ht, hm⟩, hu⟩, hs, hd, hr, hex⟩
    have hchk : checkProbs pr.fn pr.probp1 pr.probp2 pr.probp3 = .ok () := by
      unfold checkProbs
      rw [if_neg (by push Not; exact ⟨hp2, hp1⟩), if_neg (by rintro ⟨h, h'⟩; exact h' (hp3 h))]
    have hy : (fun i => scaleMat (asCol y) (pr.centre.run (asCol y)) (pr.scale.run (asCol y)) i 0)
        = stdVec y (pr.centre.run (asCol y) 0) (pr.scale.run (asCol y) 0) := by
      rw [scaleMat_eq]; rfl
    unfold rmFit
    rw [hchk]
    simp only [hy]
    simp only [scaleMat_eq]
    set Z := stdMat X (pr.centre.run X) (pr.scale.run X) with hZdef
    set ys := stdVec y (pr.centre.run (asCol y) 0) (pr.scale.run (asCol y) 0) with hysdef
    obtain ⟨dx, hdx⟩ : ∃ dx, rowDistances Z = .ok dx := by
      unfold rowDistances
      dsimp only
      rw [if_neg (by rw [hZ hs]; exact hd)]
      exact ⟨_, rfl⟩
    obtain ⟨dy, hdy⟩ : ∃ dy, startY pr.centre pr.scale ys y = .ok dy := by
      unfold startY
      split
      · exact ⟨_, rfl⟩
      · rename_i hmm
        rcases hr with hr | hr
        · rw [hr.1, hr.2] at hmm; simp [isMedianMad] at hmm
        · dsimp only
          rw [if_neg (mul_ne_zero (by norm_num) hr)]
          exact ⟨_, rfl⟩
    rw [hdx]
    simp only [hdy]
    have hstep : ∀ we, (∀ i, wMin ≤ we i) → ∃ t, rmStep ext pr.fn (cutY ext pr.probp1 pr.probp2 pr.probp3) Z ys
        (pr.fn.run dx (cutX ext pr.specific p pr.probp1 pr.probp2 pr.probp3)) we = .ok t := by
      intro we hwe
      have hne : ∃ i, ys i - ∑ j, Z i j * ext.lstsq (weightRows Z we) (fun i => ys i * Real.sqrt (we i)) j ≠ 0 := by
        by_contra h
        push Not at h
        exact hex ((std_exact_iff X y _ _ _ _ hs).mp ((lstsq_exact_iff ext.lstsq hls Z ys we hwe).mp h))
      obtain ⟨d, hd⟩ := (scaleRes_iff _).mpr hne
      unfold rmStep
      dsimp only
      rw [hd]
      exact ⟨_, rfl⟩
    obtain ⟨o, ho⟩ := rwLoop_total _ pr.tol pr.maxit hstep (pr.maxit.toNat + 1) 1 (1 / 100000) (pr.tol < 1)
      (clipW fun i => pr.fn.run dx (cutX ext pr.specific p pr.probp1 pr.probp2 pr.probp3) i * pr.fn.run dy (cutY ext pr.probp1 pr.probp2 pr.probp3) i) none
      (clip_ge _) (by push_cast; omega) (by omega) (Or.inr ⟨ht, by omega⟩)
    rw [ho]
    dsimp only
    unfold rmFinish
    dsimp only
    rw [if_neg (by push Not; exact hs)]
    have hint : ∀ b i, ∃ q, rmIntercepts pr.centre pr.scale X y Z ys b i = .ok q := by
      intro b i
      unfold rmIntercepts
      dsimp only
      split
      · rename_i hn
        have hn' : pr.scale = .noneOpt := by
          unfold ScaleOpt.isNone at hn
          split at hn
          · assumption
          · simp at hn
        rw [if_pos (by rw [hu hn']; rfl)]
        exact ⟨_, rfl⟩
      · exact ⟨_, rfl⟩
    obtain ⟨⟨q1, q2⟩, hq⟩ := hint o.b (rmIntercept pr.centre fun i => y i - ∑ j, X i j * (pr.scale.run (asCol y) 0 / pr.scale.run X j * o.b j))
    rw [hq]
    exact ⟨_, rfl⟩

/-- The example of `Verif.Props.RMExample` satisfies the conditions. -/
example : RmParamsOk (rmPr true) ∧ RmDataOk (rmPr true) rmX rmY :=
  (C145_rm_model_iff rmExt0 rmExt0_lstsq (rmPr true) rmX rmY).mp (by
    obtain ⟨f, hf, -⟩ := rmExFit rmExt0 rmExt0_lstsq (by simp only [rmExt0]; norm_num) (by simp only [rmExt0]; norm_num) true
    exact ⟨f, hf⟩)

end Direpack
