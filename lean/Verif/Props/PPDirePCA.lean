import Mathlib.Analysis.Normed.Group.Basic
import Mathlib.Topology.Order.Compact
import Verif.PPIndex
import Verif.Spec.Pca
import Verif.Props.PPDireHist
import Verif.Props.DicomoOrder

/-!
Projection pursuit with the variance as projection index and an optimiser that finds the best direction is principal component analysis (C126).
-/

namespace Direpack

open scoped BigOperators
open Spec

variable {n p : ℕ}

/-! ### The index -/

lemma sum_proj_zero {E : Fin n → Fin p → ℝ} (hE : ∀ k, ∑ i, E i k = 0) (v : Fin p → ℝ) : ∑ i, projE E v i = 0 := by
  unfold projE
  rw [Finset.sum_comm]
  refine Finset.sum_eq_zero fun k _ => ?_
  rw [← Finset.sum_mul, hE, zero_mul]

lemma momFactor_two_pos (hn : 2 ≤ n) (b : Bool) : 0 < momFactor n 0 2 b := by
  rw [momFactor_two]
  have : (2 : ℝ) ≤ n := by exact_mod_cast hn
  split_ifs
  · apply div_pos <;> linarith
  · norm_num

lemma avg_of_sum_zero {x : Fin n → ℝ} (h : ∑ i, x i = 0) : avg x = 0 := by
  unfold avg
  rw [h, zero_div]

lemma fit_history {d : Dicomo} {a : FitArgs} {x : DMat} {v : ℝ} (h : ((Dicomo.mk d.est d.mode d.center none).fit a x).2 = .ok v) :
    (d.fit a x).2 = .ok v := by
  unfold Dicomo.fit at h ⊢
  dsimp only at h ⊢
  cases hc : Dicomo.compute d.est d.mode (if forcesMean d.mode = true then Loc.mean else d.center) a x with
  | error e => rw [hc] at h; simp at h
  | ok o =>
    rw [hc] at h
    cases o with
    | none => simp at h
    | some w => simpa using h

/-- The variance of centred values. -/
lemma dicomoIndex_var (hn : 2 ≤ n) {d : Dicomo} (he : d.est = .arithmetic) (hm : d.mode = .var) (hc : d.center = .mean) {a : FitArgs}
    (ht : a.trimming = 0) (hy : a.y = none) {t : Fin n → ℝ} (h0 : ∑ i, t i = 0) :
    dicomoIndex d a t = (momFactor n 0 2 a.biascorr / n) * ∑ i, t i ^ 2 := by
  have h1 : Dicomo.compute .arithmetic .var .mean { a with y := none } (colMat t) = Dicomo.compute .arithmetic .var .mean { a with y := some (colMat t) } (colMat t) :=
    compute_alone _ _ _ rfl _ _
  have h2 := run_var (n := n) (by omega) .mean a t t
  rw [ht, trimMom_mean0 _ _ _ (le_refl 2)] at h2
  have ha : { a with y := none } = a := by cases a; cases hy; rfl
  rw [ha] at h1
  have h3 : ((Dicomo.mk d.est d.mode d.center none).fit a (colMat t)).2 = run .arithmetic .var .mean a (colMat t) (colMat t) := by
    unfold run Dicomo.fit
    rw [he, hm, hc]
    dsimp only
    have e : (if forcesMean Mode.var = true then Loc.mean else Loc.mean) = Loc.mean := by split <;> rfl
    rw [e, h1]
  unfold dicomoIndex
  have : (⟨n, 1, fun i _ => t i⟩ : DMat) = colMat t := rfl
  rw [this, fit_history (h3.trans h2)]
  dsimp only
  unfold cmom
  simp only [exps, lt_irrefl, if_false, pow_one, avg_of_sum_zero h0, sub_zero]
  unfold avg
  simp only [← sq]
  ring

/-! ### The best direction is an eigenvector -/

lemma spread_nonneg (E : Fin n → Fin p → ℝ) (v : Fin p → ℝ) : 0 ≤ spread E v := Finset.sum_nonneg fun _ _ => sq_nonneg _

lemma spread_le {E : Fin n → Fin p → ℝ} {w : Fin p → ℝ} (hmax : ∀ v, UnitLen v → spread E v ≤ spread E w) (z : Fin p → ℝ) :
    spread E z ≤ spread E w * ∑ k, z k ^ 2 := by
  rcases (Finset.sum_nonneg fun k _ => sq_nonneg (z k) : 0 ≤ ∑ k, z k ^ 2).eq_or_lt with h0 | h0
  · have hz : ∀ k, z k = 0 := by
      intro k
      have := (Finset.sum_eq_zero_iff_of_nonneg fun k _ => sq_nonneg (z k)).mp h0.symm k (Finset.mem_univ k)
      exact pow_eq_zero_iff (two_ne_zero) |>.mp this
    rw [← h0, mul_zero]
    unfold spread projectOn
    simp [hz]
  · have hu : UnitLen fun k => z k / Real.sqrt (∑ k, z k ^ 2) := by
      unfold UnitLen
      simp only [div_pow, ← Finset.sum_div]
      rw [Real.sq_sqrt h0.le]
      exact div_self h0.ne'
    have h1 := hmax _ hu
    have h2 : spread E (fun k => z k / Real.sqrt (∑ k, z k ^ 2)) = spread E z / ∑ k, z k ^ 2 := by
      unfold spread projectOn
      rw [Finset.sum_div]
      refine Finset.sum_congr rfl fun i _ => ?_
      simp only [← mul_div_assoc, ← Finset.sum_div]
      rw [div_pow, Real.sq_sqrt h0.le]
    rw [h2, div_le_iff₀ h0] at h1
    exact h1

lemma eigen_of_max {E : Fin n → Fin p → ℝ} {w : Fin p → ℝ} (hw : UnitLen w) (hmax : ∀ v, UnitLen v → spread E v ≤ spread E w) (k : Fin p) :
    ∑ i, E i k * projectOn E w i = spread E w * w k := by
  set lam := spread E w with hlam
  have hl0 : 0 ≤ lam := spread_nonneg E w
  set r : Fin p → ℝ := fun k => (∑ i, E i k * projectOn E w i) - lam * w k with hr
  set R := ∑ k, r k ^ 2 with hR
  set ε := 1 / (lam + 1) with hε
  have hε0 : 0 < ε := by positivity
  have h1 := spread_le hmax fun k => w k + ε * r k
  -- the squared length
  have e1 : ∑ k, (w k + ε * r k) ^ 2 = 1 + 2 * ε * (∑ k, w k * r k) + ε ^ 2 * R := by
    have : ∀ k, (w k + ε * r k) ^ 2 = w k ^ 2 + 2 * ε * (w k * r k) + ε ^ 2 * r k ^ 2 := fun k => by ring
    simp only [this, Finset.sum_add_distrib, ← Finset.mul_sum]
    rw [show ∑ k, w k ^ 2 = 1 from hw]
  have e2 : spread E (fun k => w k + ε * r k) = lam + 2 * ε * (∑ i, projectOn E w i * projectOn E r i) + ε ^ 2 * spread E r := by
    have h2 : ∀ i, projectOn E (fun k => w k + ε * r k) i = projectOn E w i + ε * projectOn E r i := by
      intro i
      unfold projectOn
      rw [Finset.mul_sum, ← Finset.sum_add_distrib]
      exact Finset.sum_congr rfl fun k _ => by ring
    unfold spread at hlam ⊢
    have : ∀ i, projectOn E (fun k => w k + ε * r k) i ^ 2 = projectOn E w i ^ 2 + 2 * ε * (projectOn E w i * projectOn E r i) + ε ^ 2 * projectOn E r i ^ 2 :=
      fun i => by rw [h2]; ring
    simp only [this, Finset.sum_add_distrib, ← Finset.mul_sum]
    rw [hlam]
  have e3 : ∑ i, projectOn E w i * projectOn E r i = lam * (∑ k, w k * r k) + R := by
    have h2 : ∑ i, projectOn E w i * projectOn E r i = ∑ k, (∑ i, E i k * projectOn E w i) * r k := by
      have : ∀ i, projectOn E w i * projectOn E r i = ∑ k, E i k * projectOn E w i * r k := by
        intro i
        conv_lhs => rw [show projectOn E r i = ∑ k, E i k * r k from rfl]
        rw [Finset.mul_sum]
        exact Finset.sum_congr rfl fun k _ => by ring
      simp only [this]
      rw [Finset.sum_comm]
      exact Finset.sum_congr rfl fun k _ => by rw [Finset.sum_mul]
    rw [h2, hR, Finset.mul_sum, ← Finset.sum_add_distrib]
    refine Finset.sum_congr rfl fun k _ => ?_
    simp only [hr]
    ring
  rw [e1, e2, e3] at h1
  have h4 := spread_nonneg E r
  have hR0 : 0 ≤ R := Finset.sum_nonneg fun k _ => sq_nonneg _
  have h5 : 2 * ε * R ≤ lam * ε ^ 2 * R := by nlinarith [mul_nonneg (sq_nonneg ε) h4]
  have h6 : lam * ε < 1 := by
    rw [hε, mul_one_div, div_lt_one (by positivity)]
    linarith
  have h7 : R = 0 := by
    by_contra hne
    have hpos : 0 < R := lt_of_le_of_ne hR0 (Ne.symm hne)
    have : ε * R * (2 - lam * ε) ≤ 0 := by nlinarith
    have h8 : 0 < ε * R * (2 - lam * ε) := mul_pos (mul_pos hε0 hpos) (by linarith)
    linarith
  have h8 := (Finset.sum_eq_zero_iff_of_nonneg fun k _ => sq_nonneg (r k)).mp h7 k (Finset.mem_univ k)
  have h9 : r k = 0 := pow_eq_zero_iff two_ne_zero |>.mp h8
  simp only [hr] at h9
  linarith

/-! ### The loop -/

/-- The direction that an exact optimiser gives, when the index is a positive multiple of the spread. -/
lemma ppDirection_max {find : {n p : ℕ} → (Fin n → Fin p → ℝ) → (Fin p → ℝ)} {φ : (Fin n → ℝ) → ℝ} {κ : ℝ} (hκ : 0 < κ) {sq : Bool}
    {E : Fin n → Fin p → ℝ} (hE : ∀ k, ∑ i, E i k = 0) (hφ : ∀ t : Fin n → ℝ, ∑ i, t i = 0 → φ t = κ * ∑ i, t i ^ 2)
    (hf : SolvesOnSphere (ppObjective φ E) (find E)) {w : Fin p → ℝ} {o : ℝ} (h : ppDirection (.ext find) φ sq E = .ok (w, o)) :
    w = find E ∧ ∀ v, UnitLen v → spread E v ≤ spread E w := by
  unfold ppDirection at h
  dsimp only at h
  have h1 : Real.sqrt (∑ k, find E k ^ 2) = 1 := by rw [show ∑ k, find E k ^ 2 = 1 from hf.1, Real.sqrt_one]
  rw [h1, if_neg one_ne_zero] at h
  simp only [div_one, Except.ok.injEq, Prod.mk.injEq] at h
  obtain ⟨rfl, -⟩ := h
  refine ⟨rfl, fun v hv => ?_⟩
  have h2 := hf.2 v hv
  unfold ppObjective at h2
  rw [hφ _ (sum_proj_zero hE _), hφ _ (sum_proj_zero hE _)] at h2
  have h3 : κ * ∑ i, projE E v i ^ 2 ≤ κ * ∑ i, projE E (find E) i ^ 2 := by linarith
  exact le_of_mul_le_mul_left h3 hκ

lemma pca_loop {find : {n p : ℕ} → (Fin n → Fin p → ℝ) → (Fin p → ℝ)} {φ : (Fin n → ℝ) → ℝ} {κ : ℝ} (hκ : 0 < κ) {sq : Bool}
    {reg : (Fin n → ℝ) → ℝ} (hφ : ∀ t : Fin n → ℝ, ∑ i, t i = 0 → φ t = κ * ∑ i, t i ^ 2)
    (hf : ∀ E : Fin n → Fin p → ℝ, (∀ k, ∑ i, E i k = 0) → SolvesOnSphere (ppObjective φ E) (find E)) :
    ∀ (h : ℕ) (E : Fin n → Fin p → ℝ) (l : List (PpComp n p)), (∀ k, ∑ i, E i k = 0) → ppLoop (.ext find) φ sq reg h E = .ok l →
      (∀ c ∈ l, c.load = c.w ∧ c.t = projectOn E c.w ∧ ∀ k, ∑ i, E i k * c.t i = spread E c.w * c.w k) ∧
      ∀ (a : Fin l.length) v, UnitLen v → (∀ b < a, ∑ k, v k * (l.get b).w k = 0) → spread E v ≤ spread E (l.get a).w := by
  intro h
  induction h with
  | zero =>
    intro E l _ hl
    simp only [ppLoop, Except.ok.injEq] at hl
    subst hl
    exact ⟨by simp, fun a => absurd a.2 (by simp)⟩
  | succ h ih =>
    intro E l hE hl
    obtain ⟨hlen, hI⟩ := ppLoop_inv _ _ _ hl
    obtain ⟨c, l', rfl, ⟨o, hd, -⟩, ht, hnz, hload, -, -, hl'⟩ := ppLoop_cons hl
    have hu := ppDirection_unit hd
    obtain ⟨-, hmax⟩ := ppDirection_max hκ hE hφ (hf E hE) hd
    have heig := eigen_of_max hu hmax
    have hsp : ∑ i, c.t i ^ 2 = spread E c.w := by rw [ht]; rfl
    have hlw : c.load = c.w := by
      funext k
      rw [hload, hsp, ht, heig, mul_div_cancel_left₀]
      rw [← hsp]; exact hnz
    rw [hlw] at hl'
    have hE' : ∀ k, ∑ i, (E i k - c.t i * c.w k) = 0 := by
      intro k
      rw [Finset.sum_sub_distrib, hE, ← Finset.sum_mul, ht]
      have := sum_proj_zero hE c.w
      rw [show ∑ i, projectOn E c.w i = 0 from this]
      ring
    obtain ⟨h1, h2⟩ := ih _ l' hE' hl'
    obtain ⟨-, hI'⟩ := ppLoop_inv _ _ _ hl'
    have hproj : ∀ v, (∑ k, c.w k * v k = 0) → projectOn (fun i k => E i k - c.t i * c.w k) v = projectOn E v := by
      intro v hv
      funext i
      unfold projectOn
      have : ∀ k, (E i k - c.t i * c.w k) * v k = E i k * v k - c.t i * (c.w k * v k) := fun k => by ring
      simp only [this, Finset.sum_sub_distrib, ← Finset.mul_sum, hv, mul_zero, sub_zero]
    have hker : ∀ i, ∑ k, (E i k - c.t i * c.w k) * c.w k = 0 := by
      intro i
      have : ∀ k, (E i k - c.t i * c.w k) * c.w k = E i k * c.w k - c.t i * c.w k ^ 2 := fun k => by ring
      simp only [this, Finset.sum_sub_distrib, ← Finset.mul_sum]
      rw [show ∑ k, c.w k ^ 2 = 1 from hu, ht]
      unfold projectOn
      ring
    have horth : ∀ d ∈ l', ∑ k, c.w k * d.w k = 0 := by
      intro d hd'
      have h3 := hI'.right c.w hker d hd'
      rw [(h1 d hd').1] at h3
      rw [← h3]
      exact Finset.sum_congr rfl fun k _ => mul_comm _ _
    refine ⟨?_, ?_⟩
    · intro d hd'
      rcases List.mem_cons.mp hd' with rfl | hd'
      · exact ⟨hlw, ht, fun k => by rw [ht]; exact heig k⟩
      · obtain ⟨h3, h4, h5⟩ := h1 d hd'
        have h6 : d.t = projectOn E d.w := by rw [h4, hproj _ (horth d hd')]
        refine ⟨h3, h6, fun k => ?_⟩
        have h7 := h5 k
        have h8 : spread (fun i k => E i k - c.t i * c.w k) d.w = spread E d.w := by
          unfold spread
          rw [hproj _ (horth d hd')]
        rw [h8] at h7
        rw [← h7]
        have h9 : ∑ i, c.t i * d.t i = 0 := (List.pairwise_cons.mp hI.orth).1 d hd'
        have : ∀ i, (E i k - c.t i * c.w k) * d.t i = E i k * d.t i - c.w k * (c.t i * d.t i) := fun i => by ring
        simp only [this, Finset.sum_sub_distrib, ← Finset.mul_sum, h9, mul_zero, sub_zero]
    · intro a v hv hb
      refine Fin.cases ?_ (fun a' => ?_) a (motive := fun a => (∀ b < a, ∑ k, v k * ((c :: l').get b).w k = 0) → spread E v ≤ spread E ((c :: l').get a).w) hb
      · intro _
        exact hmax v hv
      · intro hb
        have h0 : ∑ k, c.w k * v k = 0 := by
          have := hb 0 (Fin.succ_pos a')
          rw [← this]
          exact Finset.sum_congr rfl fun k _ => mul_comm _ _
        have h3 := h2 a' v hv fun b hba => hb b.succ (Fin.succ_lt_succ_iff.mpr hba)
        have h4 : spread (fun i k => E i k - c.t i * c.w k) v = spread E v := by
          unfold spread; rw [hproj _ h0]
        have h5 : spread (fun i k => E i k - c.t i * c.w k) (l'.get a').w = spread E (l'.get a').w := by
          unfold spread; rw [hproj _ (horth _ (List.get_mem _ _))]
        rw [h4, h5] at h3
        exact h3

lemma ppStd_zero (x : Fin n → ℝ) : ppStd 0 x = Real.sqrt (var x) := by
  simp [ppStd, stdT, var]

/-! ### C126 -/

/-- C126: projection pursuit with the variance as index, `center='mean'` without trimming, and an optimiser that finds the best direction of unit
length, is principal component analysis: with `Z` the centred (and scaled, if so requested) data, the weights are the principal axes of `Z`, loadings and
rotation are equal to the weights, and the scores are the projections on the axes. -/
theorem C126_pca (hn : 2 ≤ n) (pr : PpParams) (hcen : pr.centre = .mean) (htr : pr.trimming = 0) (hcd : pr.centerData = true)
    (find : {n p : ℕ} → (Fin n → Fin p → ℝ) → (Fin p → ℝ)) (hopt : pr.optimizer = .ext find) (pinv : Pinv) (hp : IsGenInverse pinv)
    (d : Dicomo) (he : d.est = .arithmetic) (hm : d.mode = .var) (hc : d.center = .mean) (a : FitArgs) (ht : a.trimming = 0) (hy : a.y = none)
    (hf : ∀ E : Fin n → Fin p → ℝ, (∀ k, ∑ i, E i k = 0) → SolvesOnSphere (ppObjective (dicomoIndex d a) E) (find E))
    (X : Fin n → Fin p → ℝ) (f : PpFit1 n p) (h : ppFit1 pr pinv (dicomoIndex d a) X = .ok f) :
    PrincipalAxes (stdMat X f.xLoc f.xSca) (ppW f.comps) ∧ f.comps.length = pr.nComponents ∧
      ppP f.comps = ppW f.comps ∧ f.rot = ppW f.comps ∧
      (∀ i b, ppT f.comps i b = projectOn (stdMat X f.xLoc f.xSca) (fun k => ppW f.comps k b) i) ∧
      (∀ k, f.xLoc k = avg fun i => X i k) ∧
      ∀ k, f.xSca k = if pr.scaleData then Real.sqrt (avg fun i => (X i k - avg fun i => X i k) ^ 2) else 1 := by
  obtain ⟨l, hl, hco, hrot, -, hloc, hsca⟩ := ppFit1_inv h
  simp only [hcd, if_true, hcen, htr, PpCentre.loc, ppMean_zero] at hl hloc hsca
  rw [scaleMat_eq, hopt] at hl
  set Z := stdMat X f.xLoc f.xSca with hZ
  have hZ0 : ∀ k, ∑ i, Z i k = 0 := by
    intro k
    rw [hZ]
    unfold stdMat std1
    rw [hloc]
    by_cases hs : f.xSca k = 0
    · simp only [hs, if_true, pp_sum_center]
    · simp only [hs, if_false, ← Finset.sum_div, pp_sum_center, zero_div]
  have hn' : (0 : ℝ) < n := by exact_mod_cast (by omega : 0 < n)
  have hκ : 0 < momFactor n 0 2 a.biascorr / n := div_pos (momFactor_two_pos hn _) hn'
  obtain ⟨h1, h2⟩ := pca_loop hκ (fun t h0 => dicomoIndex_var hn he hm hc ht hy h0) hf _ _ _ hZ0 hl
  obtain ⟨hlen, hI⟩ := ppLoop_inv _ _ _ hl
  have hI' := hI.map_crit
  rw [← hco] at hI'
  have h1' : ∀ c ∈ f.comps, c.load = c.w ∧ c.t = projectOn Z c.w ∧ ∀ k, ∑ i, Z i k * c.t i = spread Z c.w * c.w k := by
    intro c hcm
    rw [hco] at hcm
    obtain ⟨e, hem, rfl⟩ := List.mem_map.mp hcm
    exact h1 e hem
  have h2' : ∀ (b : Fin f.comps.length) v, UnitLen v → (∀ e < b, ∑ k, v k * (f.comps.get e).w k = 0) → spread Z v ≤ spread Z (f.comps.get b).w := by
    rw [hco]
    intro b v hv hb
    have hb' : b.1 < l.length := by have := b.2; simpa using this
    have := h2 ⟨b.1, hb'⟩ v hv fun e hlt => by
      have := hb ⟨e.1, by simpa using e.2⟩ hlt
      simpa using this
    simpa using this
  have hPW : ppP f.comps = ppW f.comps := by
    ext k b
    exact congrFun (h1' _ (List.get_mem _ _)).1 k
  have hort : ∀ b e : Fin f.comps.length, b < e → ∑ k, (f.comps.get e).w k * (f.comps.get b).w k = 0 := by
    intro b e hbe
    have := List.pairwise_iff_get.mp hI'.tri b e hbe
    rw [(h1' _ (List.get_mem _ _)).1] at this
    exact this
  have hort2 : ∀ b e : Fin f.comps.length, b ≠ e → ∑ k, ppW f.comps k b * ppW f.comps k e = 0 := by
    intro b e hbe
    rcases lt_or_gt_of_ne hbe with hlt | hgt
    · rw [← hort b e hlt]
      exact Finset.sum_congr rfl fun k _ => mul_comm _ _
    · exact hort e b hgt
  have hone : (ppP f.comps).transpose * ppW f.comps = 1 := by
    ext b e
    rw [hPW, Matrix.mul_apply, Matrix.one_apply]
    simp only [Matrix.transpose_apply]
    split_ifs with hbe
    · subst hbe
      have := hI'.unit _ (List.get_mem f.comps b)
      rw [← this]
      exact Finset.sum_congr rfl fun k _ => (sq _).symm
    · exact hort2 b e hbe
  refine ⟨⟨fun b => hI'.unit _ (List.get_mem _ _), hort2, h2', ?_, ?_⟩, by rw [hco, List.length_map, hlen], hPW, ?_, ?_, ?_, ?_⟩
  · intro b k
    have h3 := (h1' _ (List.get_mem f.comps b)).2.2 k
    rw [(h1' _ (List.get_mem f.comps b)).2.1] at h3
    have : ∑ j, (∑ i, Z i k * Z i j) * ppW f.comps j b = ∑ i, Z i k * projectOn Z (f.comps.get b).w i := by
      unfold projectOn
      simp only [Finset.sum_mul, Finset.mul_sum]
      rw [Finset.sum_comm]
      exact Finset.sum_congr rfl fun i _ => Finset.sum_congr rfl fun j _ => by
        show Z i k * Z i j * (f.comps.get b).w j = _
        ring
    rw [this, h3]
    rfl
  · intro b e hbe
    rcases hbe.eq_or_lt with rfl | hlt
    · exact le_refl _
    · exact h2' b _ (hI'.unit _ (List.get_mem f.comps e)) fun e' he' => hort e' e (he'.trans hlt)
  · rw [hrot]
    unfold ppR
    have hpi : pinv ((ppP f.comps).transpose * ppW f.comps) = 1 := by
      rw [hone]
      have := hp (1 : Matrix (Fin f.comps.length) (Fin f.comps.length) ℝ)
      simpa using this
    show ppW f.comps * pinv ((ppP f.comps).transpose * ppW f.comps) = ppW f.comps
    rw [hpi, Matrix.mul_one]
  · intro i b
    exact congrFun (h1' _ (List.get_mem f.comps b)).2.1 i
  · intro k
    rw [hloc]
    exact mean_eq _
  · intro k
    rw [hsca]
    unfold PpCentre.sca
    dsimp only
    split_ifs
    · rw [ppStd_zero, var, varL]
      have : meanL (List.map (fun v => (v - meanL (List.ofFn fun i => X i k)) ^ 2) (List.ofFn fun i => X i k)) =
          avg fun i => (X i k - avg fun i => X i k) ^ 2 := by
        rw [meanL_ofFn, List.map_ofFn, meanL_ofFn]
        rfl
      rw [this]
    · rfl

/-! ### The hypotheses can be met -/

lemma exists_max_unit (F : (Fin (p + 1) → ℝ) → ℝ) (hcont : Continuous F) : ∃ w, UnitLen w ∧ ∀ v, UnitLen v → F v ≤ F w := by
  have hcomp : IsCompact {v : Fin (p + 1) → ℝ | UnitLen v} := by
    refine Metric.isCompact_of_isClosed_isBounded ?_ ?_
    · refine isClosed_eq (f := fun v : Fin (p + 1) → ℝ => ∑ k, v k ^ 2) (by fun_prop) continuous_const
    · refine (Metric.isBounded_iff_subset_closedBall 0).mpr ⟨1, fun v hv => ?_⟩
      rw [mem_closedBall_zero_iff, pi_norm_le_iff_of_nonneg zero_le_one]
      intro k
      have h1 : v k ^ 2 ≤ ∑ k, v k ^ 2 := Finset.single_le_sum (f := fun k => v k ^ 2) (fun k _ => sq_nonneg _) (Finset.mem_univ k)
      rw [show ∑ k, v k ^ 2 = 1 from hv] at h1
      rw [Real.norm_eq_abs]
      exact abs_le_one_iff_mul_self_le_one.mpr (by rw [← sq]; exact h1)
  have hne : {v : Fin (p + 1) → ℝ | UnitLen v}.Nonempty := by
    refine ⟨fun k => if k = 0 then 1 else 0, ?_⟩
    show ∑ k : Fin (p + 1), (if k = 0 then (1 : ℝ) else 0) ^ 2 = 1
    simp [Fin.sum_univ_succ]
  obtain ⟨w, hw, hmax⟩ := hcomp.exists_isMaxOn hne hcont.continuousOn
  exact ⟨w, hw, fun v hv => hmax hv⟩

lemma exists_max_spread (E : Fin n → Fin (p + 1) → ℝ) : ∃ w, UnitLen w ∧ ∀ v, UnitLen v → spread E v ≤ spread E w :=
  exists_max_unit (fun v => spread E v) (by unfold spread projectOn; fun_prop)

/-- The variance, without bias correction. -/
def varObj : Dicomo := ⟨.arithmetic, .var, .mean, none⟩

open Classical in
/-- An optimiser that finds the best direction where there is one. -/
noncomputable def bestFind (φ : {n : ℕ} → (Fin n → ℝ) → ℝ) {n p : ℕ} (E : Fin n → Fin p → ℝ) : Fin p → ℝ :=
  if h : ∃ w, SolvesOnSphere (ppObjective φ E) w then h.choose else 0

lemma bestFind_solves {φ : {n : ℕ} → (Fin n → ℝ) → ℝ} {E : Fin n → Fin p → ℝ} (h : ∃ w, SolvesOnSphere (ppObjective φ E) w) :
    SolvesOnSphere (ppObjective φ E) (bestFind φ E) := by
  unfold bestFind
  rw [dif_pos h]
  exact h.choose_spec

lemma varObj_solves (hn : 2 ≤ n) (E : Fin n → Fin (p + 1) → ℝ) (hE : ∀ k, ∑ i, E i k = 0) :
    SolvesOnSphere (ppObjective (dicomoIndex varObj {}) E) (bestFind (dicomoIndex varObj {}) E) := by
  obtain ⟨w, hw, hmax⟩ := exists_max_spread E
  refine bestFind_solves ⟨w, hw, fun v hv => ?_⟩
  unfold ppObjective
  rw [dicomoIndex_var hn rfl rfl rfl rfl rfl (sum_proj_zero hE _), dicomoIndex_var hn rfl rfl rfl rfl rfl (sum_proj_zero hE _)]
  have hn' : (0 : ℝ) < n := by exact_mod_cast (by omega : 0 < n)
  exact neg_le_neg (mul_le_mul_of_nonneg_left (hmax v hv) (div_pos (momFactor_two_pos hn _) hn').le)

lemma spread_unit_coord (E : Fin n → Fin p → ℝ) (k : Fin p) :
    UnitLen (fun j => if j = k then (1 : ℝ) else 0) ∧ spread E (fun j => if j = k then (1 : ℝ) else 0) = ∑ i, E i k ^ 2 := by
  constructor
  · show ∑ j, (if j = k then (1 : ℝ) else 0) ^ 2 = 1
    simp
  · unfold spread projectOn
    simp

/-- One pass of the loop with an optimiser that returns a unit vector with nonzero scores. -/
lemma ppLoop_ext_ok {find : {n p : ℕ} → (Fin n → Fin p → ℝ) → (Fin p → ℝ)} {φ : (Fin n → ℝ) → ℝ} {sq : Bool} {reg : (Fin n → ℝ) → ℝ} {h : ℕ}
    {E : Fin n → Fin p → ℝ} (hu : UnitLen (find E)) (hs : spread E (find E) ≠ 0)
    (hr : ∃ l, ppLoop (.ext find) φ sq reg h (fun i k => E i k - projE E (find E) i * ((∑ i, E i k * projE E (find E) i) / ∑ i, projE E (find E) i ^ 2)) = .ok l) :
    ∃ l, ppLoop (.ext find) φ sq reg (h + 1) E = .ok l := by
  obtain ⟨l, hl⟩ := hr
  have hd : ∃ o, ppDirection (.ext find) φ sq E = .ok (find E, o) := by
    unfold ppDirection
    dsimp only
    have h1 : Real.sqrt (∑ k, find E k ^ 2) = 1 := by rw [show ∑ k, find E k ^ 2 = 1 from hu, Real.sqrt_one]
    simp only [h1, one_ne_zero, if_false, div_one]
    exact ⟨_, rfl⟩
  obtain ⟨o, hd⟩ := hd
  rw [ppLoop, hd]
  dsimp only
  rw [if_neg (show ∑ i, projE E (find E) i ^ 2 ≠ 0 from hs), hl]
  exact ⟨_, rfl⟩

lemma spread_best_ne {E : Fin n → Fin p → ℝ} {w : Fin p → ℝ}
    (hmax : ∀ v, UnitLen v → spread E v ≤ spread E w) {i : Fin n} {k : Fin p} (h : E i k ≠ 0) : spread E w ≠ 0 := by
  have h1 := spread_unit_coord E k
  have h2 := hmax _ h1.1
  rw [h1.2] at h2
  have h3 : E i k ^ 2 ≤ ∑ i, E i k ^ 2 := Finset.single_le_sum (f := fun i => E i k ^ 2) (fun i _ => sq_nonneg _) (Finset.mem_univ i)
  have h4 : 0 < E i k ^ 2 := by positivity
  exact ne_of_gt (by linarith)

lemma varObj_max (hn : 2 ≤ n) (E : Fin n → Fin (p + 1) → ℝ) (hE : ∀ k, ∑ i, E i k = 0) :
    ∀ v, UnitLen v → spread E v ≤ spread E (bestFind (dicomoIndex varObj {}) E) := by
  intro v hv
  have h := (varObj_solves hn E hE).2 v hv
  unfold ppObjective at h
  rw [dicomoIndex_var hn rfl rfl rfl rfl rfl (sum_proj_zero hE _), dicomoIndex_var hn rfl rfl rfl rfl rfl (sum_proj_zero hE _)] at h
  have hn' : (0 : ℝ) < n := by exact_mod_cast (by omega : 0 < n)
  exact le_of_mul_le_mul_left (neg_le_neg_iff.mp h) (div_pos (momFactor_two_pos hn _) hn')

/-- Two principal components of three cases. -/
noncomputable def pcaPr : PpParams :=
  { nComponents := 2, trimming := 0, optimizer := .ext (bestFind (dicomoIndex varObj {})), centre := .mean, centerData := true, scaleData := false,
    squarePi := false }

theorem pcaExFit (pinv : Pinv) : ∃ f, ppFit1 pcaPr pinv (dicomoIndex varObj {}) ppExX = .ok f := by
  unfold ppFit1
  rw [if_neg (by simp [pcaPr]), if_neg (by simp [pcaPr, trimOk]; norm_num)]
  dsimp only
  have hm : ∀ k, ppMean 0 (fun i => ppExX i k) = 0 := by
    intro k
    rw [ppMean_zero, mean_eq]
    fin_cases k <;> simp [ppExX, Fin.sum_univ_succ]
    norm_num
  have hX : (if pcaPr.centerData = true then
        scaleMat ppExX (fun k => if pcaPr.centerData = true then pcaPr.centre.loc pcaPr.trimming fun i => ppExX i k else 0) fun k =>
          if pcaPr.centerData = true then pcaPr.centre.sca pcaPr.scaleData pcaPr.trimming fun i => ppExX i k else 1
      else ppExX) = ppExX := by
    split
    · funext i k
      simp only [scaleMat]
      simp [pcaPr, PpCentre.loc, PpCentre.sca, hm]
    · rfl
  rw [hX]
  have h0 : ∀ k, ∑ i, ppExX i k = 0 := by
    intro k
    fin_cases k <;> simp [ppExX, Fin.sum_univ_succ]
    norm_num
  have hl : ∃ l, ppLoop pcaPr.optimizer (dicomoIndex varObj {}) pcaPr.squarePi (fun _ => 0) 2 ppExX = .ok l := by
    refine ppLoop_ext_ok (find := bestFind (dicomoIndex varObj {})) (varObj_solves (by norm_num) _ h0).1
      (spread_best_ne (varObj_max (by norm_num) _ h0) (i := 0) (k := 0) (by simp [ppExX])) ?_
    set w := bestFind (dicomoIndex varObj {}) ppExX with hw
    have hu : UnitLen w := (varObj_solves (by norm_num) _ h0).1
    have heig := eigen_of_max hu (varObj_max (by norm_num) _ h0)
    have hne : spread ppExX w ≠ 0 := spread_best_ne (varObj_max (by norm_num) _ h0) (i := 0) (k := 0) (by simp [ppExX])
    have hload : ∀ k, (∑ i, ppExX i k * projE ppExX w i) / ∑ i, projE ppExX w i ^ 2 = w k := by
      intro k
      rw [show ∑ i, ppExX i k * projE ppExX w i = spread ppExX w * w k from heig k]
      exact mul_div_cancel_left₀ _ hne
    simp only [hload]
    have h0' : ∀ k, ∑ i, (ppExX i k - projE ppExX w i * w k) = 0 := by
      intro k
      rw [Finset.sum_sub_distrib, h0, ← Finset.sum_mul, sum_proj_zero h0, zero_mul, sub_zero]
    -- the data are not of rank one
    have hr : ∃ i k, ppExX i k - projE ppExX w i * w k ≠ 0 := by
      by_contra hcon
      push Not at hcon
      have a := hcon 1 0
      have b := hcon 1 1
      have c := hcon 0 0
      simp [ppExX] at a b c
      rcases a with a | a
      · rw [a] at b; norm_num at b
      · rw [a] at c; norm_num at c
    obtain ⟨i, k, hik⟩ := hr
    exact ppLoop_ext_ok (find := bestFind (dicomoIndex varObj {})) (varObj_solves (by norm_num) _ h0').1 (spread_best_ne (varObj_max (by norm_num) _ h0') hik) ⟨[], rfl⟩
  obtain ⟨l, hl⟩ := hl
  have hl' : ppLoop pcaPr.optimizer (dicomoIndex varObj {}) pcaPr.squarePi (fun _ => 0) pcaPr.nComponents ppExX = .ok l := hl
  rw [hl']
  exact ⟨_, rfl⟩

/-- The hypotheses of C126 can be met: two principal components of data of rank two. -/
example : ∃ (pinv : Pinv) (f : PpFit1 3 2), ppFit1 pcaPr pinv (dicomoIndex varObj {}) ppExX = .ok f ∧ f.comps.length = 2 ∧
    PrincipalAxes (stdMat ppExX f.xLoc f.xSca) (ppW f.comps) := by
  obtain ⟨pinv, hp⟩ := exists_pinv
  obtain ⟨f, hf⟩ := pcaExFit pinv
  have h := C126_pca (by norm_num) pcaPr rfl rfl rfl (bestFind (dicomoIndex varObj {})) rfl pinv hp varObj rfl rfl rfl {} rfl rfl
    (fun E hE => varObj_solves (by norm_num) E hE) ppExX f hf
  exact ⟨pinv, f, hf, h.2.1, h.1⟩

end Direpack
