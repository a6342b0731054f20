import Verif.SniplsLemmas
import Verif.NumLemmas
import Verif.Spec.Regress

/-!
Properties C42 to C47 of the sparse PLS estimator `snipls`.
-/

namespace Direpack

open scoped BigOperators
open Matrix Spec

variable {n p : ℕ}

theorem scaleMat_eq (X : Fin n → Fin p → ℝ) (m s : Fin p → ℝ) : scaleMat X m s = stdMat X m s := by
  funext i j
  unfold scaleMat stdMat std1
  split <;> simp

/-- What a successful fit consists of. -/
theorem snFit_inv {pr : SnParams} {X : Fin n → Fin p → ℝ} {y : Fin n → ℝ} {f : SnFit n p}
    (h : snFit pr X y = .ok f) :
    (0 ≤ pr.eta ∧ pr.eta < 1 ∧ 0 < pr.nComponents) ∧
    f.xLoc = pr.centre.run X ∧ f.xSca = pr.scale.run X ∧
    f.yLoc = pr.centre.run (asCol y) 0 ∧ f.ySca = pr.scale.run (asCol y) 0 ∧
    (∀ j, f.xSca j ≠ 0) ∧
    snLoop pr.eta pr.nComponents (stdMat X f.xLoc f.xSca) (stdVec y f.yLoc f.ySca) ∅ = .ok f.comps ∧
    snCoef (stdMat X f.xLoc f.xSca) (stdVec y f.yLoc f.ySca) f.comps = .ok (f.R, f.coefScaled) ∧
    (∀ j, f.coef j = f.ySca / f.xSca j * f.coefScaled j) ∧
    f.intercept = snIntercept pr.centre (fun i => y i - lin X f.coef i) ∧
    (∀ i, f.fitted i = lin X f.coef i + f.intercept) ∧
    (∀ i, f.residuals i = y i - f.fitted i) := by
  unfold snFit snFitBody at h
  split at h
  · simp at h
  · rename_i hpar
    push Not at hpar
    have hy : (fun i => scaleMat (asCol y) (pr.centre.run (asCol y)) (pr.scale.run (asCol y)) i 0)
        = stdVec y (pr.centre.run (asCol y) 0) (pr.scale.run (asCol y) 0) := by
      rw [scaleMat_eq]; rfl
    simp only [hy] at h
    simp only [scaleMat_eq] at h
    split at h
    · simp at h
    · rename_i l hl
      split at h
      · simp at h
      · rename_i R B hc
        split at h
        · simp at h
        · rename_i hs
          push Not at hs
          simp only [Except.ok.injEq] at h
          subst h
          exact ⟨⟨hpar.1.1, hpar.1.2, Nat.pos_of_ne_zero hpar.2⟩, rfl, rfl, rfl, rfl, hs, hl, hc, fun _ => rfl, rfl, fun _ => rfl, fun _ => rfl⟩

theorem snFit_run {pr : SnParams} {X : Fin n → Fin p → ℝ} {y : Fin n → ℝ} {f : SnFit n p}
    (h : snFit pr X y = .ok f) :
    SnRun pr.eta (Matrix.of (stdMat X f.xLoc f.xSca)) (stdVec y f.yLoc f.ySca) ∅ f.comps :=
  (snLoop_run _ _ _ _ _ _ (snFit_inv h).2.2.2.2.2.2.1).1

/-- **C42.** The score vectors of a fitted model are mutually orthogonal. -/
theorem C42_scores_orthogonal {pr : SnParams} {X : Fin n → Fin p → ℝ} {y : Fin n → ℝ} {f : SnFit n p}
    (h : snFit pr X y = .ok f) (a b : Fin f.comps.length) (hab : a ≠ b) :
    dot (fun i => compT f.comps i a) (fun i => compT f.comps i b) = 0 := by
  have hg := congrFun (congrFun (snFit_run h).T_gram a) b
  rw [Matrix.diagonal_apply_ne _ hab, Matrix.mul_apply] at hg
  exact hg

/-- **C42**, additionally: no score vector vanishes. -/
theorem C42_scores_nonzero {pr : SnParams} {X : Fin n → Fin p → ℝ} {y : Fin n → ℝ} {f : SnFit n p}
    (h : snFit pr X y = .ok f) (a : Fin f.comps.length) : ∃ i, compT f.comps i a ≠ 0 := by
  by_contra hcon
  push Not at hcon
  refine (snFit_run h).nz _ (List.get_mem f.comps a) ?_
  simp only [dotProduct]
  refine Finset.sum_eq_zero fun i _ => ?_
  have : (f.comps.get a).t i = 0 := hcon i
  rw [this, zero_mul]

theorem mem_last_good {eta : ℝ} {X : Matrix (Fin n) (Fin p) ℝ} {y : Fin n → ℝ} {l : List (SnComp n p)}
    (h : SnRun eta X y ∅ l) (j : Fin p) (hj : ∀ s, colret l = some s → j ∉ s) :
    ∀ c ∈ l, j ∉ c.good := by
  intro c hc
  have hne : l ≠ [] := List.ne_nil_of_mem hc
  have hlast : colret l = some (l.getLast hne).good := by
    simp [colret, List.getLast?_eq_some_getLast hne]
  have h1 := hj _ hlast
  intro hjc
  apply h1
  have hp := List.pairwise_iff_get.1 h.support.2
  obtain ⟨a, rfl⟩ := List.get_of_mem hc
  have hla : l.getLast hne = l.get ⟨l.length - 1, by have := a.2; omega⟩ := by
    simp [List.getLast_eq_getElem]
  rw [hla]
  by_cases hal : a = ⟨l.length - 1, by have := a.2; omega⟩
  · rw [← hal]; exact hjc
  · refine hp a _ ?_ hjc
    have : a.1 ≠ l.length - 1 := fun hh => hal (Fin.ext hh)
    have := a.2
    exact Fin.lt_def.2 (by simp only; omega)

/-- **C43.** A variable that is not reported in `colret_` (in particular every variable when
`colret_` is `None`) has coefficient, weights and loadings exactly zero. -/
theorem C43_zero_outside_retained {pr : SnParams} {X : Fin n → Fin p → ℝ} {y : Fin n → ℝ} {f : SnFit n p}
    (h : snFit pr X y = .ok f) (j : Fin p) (hj : ∀ s, colret f.comps = some s → j ∉ s) :
    f.coef j = 0 ∧ f.coefScaled j = 0 ∧
      ∀ a, compW f.comps j a = 0 ∧ compP f.comps j a = 0 := by
  have hr := snFit_run h
  have hgood := mem_last_good hr j hj
  have hWP : ∀ a, compW f.comps j a = 0 ∧ compP f.comps j a = 0 := fun a =>
    (hr.support.1 _ (List.get_mem _ a)).2.2 j (hgood _ (List.get_mem _ _))
  obtain ⟨_, _, _, _, _, _, _, hc, hco, _⟩ := snFit_inv h
  have hB : f.coefScaled j = 0 := by
    rw [snCoef_ok hr] at hc
    simp only [Except.ok.injEq] at hc
    split at hc
    · have := congrArg Prod.snd hc; simp only at this; rw [← this]
    · have := congrArg Prod.snd hc; simp only at this; rw [← this, ← Matrix.mulVec_mulVec]
      simp only [Matrix.mulVec, dotProduct]
      exact Finset.sum_eq_zero fun a _ => by rw [(hWP a).1, zero_mul]
  exact ⟨by rw [hco, hB, mul_zero], hB, hWP⟩

/-- **C43.** The set of retained variables does not shrink when components are added. -/
theorem C43_retained_grow {pr : SnParams} {X : Fin n → Fin p → ℝ} {y : Fin n → ℝ} {f g : SnFit n p}
    (k : ℕ) (hk : pr.nComponents ≤ k) (h : snFit pr X y = .ok f)
    (h' : snFit { pr with nComponents := k } X y = .ok g) (s : Finset (Fin p))
    (hs : colret f.comps = some s) : ∃ s', colret g.comps = some s' ∧ s ⊆ s' := by
  obtain ⟨_, e1, e2, e3, e4, _, hl, _⟩ := snFit_inv h
  obtain ⟨_, e1', e2', e3', e4', _, hl', _⟩ := snFit_inv h'
  simp only at e1' e2' e3' e4' hl'
  rw [e1', e2', e3', e4', ← e1, ← e2, ← e3, ← e4] at hl'
  have hpre := snLoop_prefix _ _ hk _ _ _ _ _ hl hl'
  have hrun := (snLoop_run _ _ _ _ _ _ hl').1
  have hfne : f.comps ≠ [] := by intro h0; rw [h0] at hs; simp [colret] at hs
  have hgne : g.comps ≠ [] := by
    intro h0; rw [h0] at hpre; exact hfne (List.prefix_nil.1 hpre)
  refine ⟨(g.comps.getLast hgne).good, by simp [colret, List.getLast?_eq_some_getLast hgne], ?_⟩
  intro j hj
  by_contra hcon
  have := mem_last_good hrun j (fun s' hs' => by
    simp only [colret, List.getLast?_eq_some_getLast hgne, Option.map_some, Option.some.injEq] at hs'
    rw [← hs']; exact hcon)
  have hmem : f.comps.getLast hfne ∈ g.comps := hpre.subset (List.getLast_mem hfne)
  apply this _ hmem
  simp only [colret, List.getLast?_eq_some_getLast hfne, Option.map_some, Option.some.injEq] at hs
  rw [hs]; exact hj

/-! ### C44: the sparsity parameter -/

theorem snWeights_good (eta : ℝ) (h0 : 0 ≤ eta) (X : Fin n → Fin p → ℝ) (y : Fin n → ℝ)
    (hcov : ¬ ∀ j, ∑ i, X i j * y i = 0) (j : Fin p) :
    0 < (snWeights eta X y).1 j ↔ ∀ k, eta * |∑ i, X i k * y i| < |∑ i, X i j * y i| := by
  have hnp : 0 < Real.sqrt (∑ j, (∑ i, X i j * y i) ^ 2) := by
    apply Real.sqrt_pos.2
    push Not at hcov
    obtain ⟨k, hk⟩ := hcov
    exact lt_of_lt_of_le (by positivity) (Finset.single_le_sum (f := fun j => (∑ i, X i j * y i) ^ 2)
      (fun j _ => sq_nonneg _) (Finset.mem_univ k))
  simp only [snWeights]
  generalize Real.sqrt (∑ j, (∑ i, X i j * y i) ^ 2) = nrm at hnp
  obtain ⟨k0, hk0, hpos⟩ := maxAbs_attained (fun j => (∑ i, X i j * y i) / nrm) (by
    push Not at hcov
    obtain ⟨k, hk⟩ := hcov
    exact ⟨k, div_ne_zero hk hnp.ne'⟩)
  have habs : ∀ k, |(∑ i, X i k * y i) / nrm| = |∑ i, X i k * y i| / nrm := fun k => by
    rw [abs_div, abs_of_pos hnp]
  constructor
  · intro h k
    have h1 := abs_le_maxAbs (fun j => (∑ i, X i j * y i) / nrm) k
    have h2 : eta * |(∑ i, X i k * y i) / nrm| < |(∑ i, X i j * y i) / nrm| := by
      have := mul_le_mul_of_nonneg_left h1 h0
      linarith
    rw [habs, habs, ← mul_div_assoc] at h2
    exact (div_lt_div_iff_of_pos_right hnp).1 h2
  · intro h
    have := h k0
    rw [← hk0]
    rw [habs, habs, sub_pos, ← mul_div_assoc]
    exact (div_lt_div_iff_of_pos_right hnp).2 this

/-- The covariances vanish or the first weights give a nonzero score. -/
theorem first_score_pos (eta : ℝ) (h0 : 0 ≤ eta) (h1 : eta < 1) (X : Fin n → Fin p → ℝ) (y : Fin n → ℝ)
    (hcov : ¬ ∀ j, ∑ i, X i j * y i = 0) (good : Finset (Fin p))
    (hg : ∀ j, j ∈ good ↔ 0 < (snWeights eta X y).1 j) :
    good ≠ ∅ ∧ 0 < ∑ i, y i * ∑ j, X i j * (if j ∈ good then (snWeights eta X y).2 j else 0) := by
  have hcov' := hcov
  push Not at hcov'
  obtain ⟨k, hk⟩ := hcov'
  have hch := snWeights_good eta h0 X y hcov
  obtain ⟨k0, hk0, hpos⟩ := maxAbs_attained (fun j => ∑ i, X i j * y i) ⟨k, hk⟩
  have hk0g : k0 ∈ good := by
    rw [hg, hch]
    intro m
    have h2 := abs_le_maxAbs (fun j => ∑ i, X i j * y i) m
    rw [← hk0] at h2 hpos
    calc eta * |∑ i, X i m * y i| ≤ eta * |∑ i, X i k0 * y i| := mul_le_mul_of_nonneg_left h2 h0
      _ < 1 * |∑ i, X i k0 * y i| := mul_lt_mul_of_pos_right h1 hpos
      _ = _ := one_mul _
  refine ⟨fun h => by rw [h] at hk0g; simp at hk0g, ?_⟩
  have hsw : ∑ i, y i * ∑ j, X i j * (if j ∈ good then (snWeights eta X y).2 j else 0)
      = ∑ j, (∑ i, X i j * y i) * (if j ∈ good then (snWeights eta X y).2 j else 0) := by
    simp only [Finset.mul_sum, Finset.sum_mul]
    rw [Finset.sum_comm]
    exact Finset.sum_congr rfl fun j _ => Finset.sum_congr rfl fun i _ => by ring
  rw [hsw]
  have hnp : 0 < Real.sqrt (∑ j, (∑ i, X i j * y i) ^ 2) := by
    apply Real.sqrt_pos.2
    exact lt_of_lt_of_le (by positivity) (Finset.single_le_sum (f := fun j => (∑ i, X i j * y i) ^ 2)
      (fun j _ => sq_nonneg _) (Finset.mem_univ k))
  have hterm : ∀ j, j ∈ good → 0 < (∑ i, X i j * y i) * (snWeights eta X y).2 j := by
    intro j hj
    have hgj := (hg j).1 hj
    have hsj : (∑ i, X i j * y i) ≠ 0 := by
      intro h
      have := (hch j).1 hgj k
      rw [h, abs_zero] at this
      exact absurd this (not_lt.2 (mul_nonneg h0 (abs_nonneg _)))
    have hw2 : (snWeights eta X y).2 j = (snWeights eta X y).1 j *
        npSign ((∑ i, X i j * y i) / Real.sqrt (∑ j, (∑ i, X i j * y i) ^ 2)) := rfl
    rw [hw2]
    unfold npSign
    rcases lt_or_gt_of_ne hsj with hlt | hgt
    · rw [if_neg (not_lt.2 (div_nonpos_of_nonpos_of_nonneg hlt.le hnp.le)), if_pos (div_neg_of_neg_of_pos hlt hnp)]
      nlinarith
    · rw [if_pos (div_pos hgt hnp)]
      nlinarith
  refine Finset.sum_pos' (fun j _ => ?_) ⟨k0, Finset.mem_univ _, ?_⟩
  · by_cases hj : j ∈ good
    · rw [if_pos hj]; exact (hterm j hj).le
    · rw [if_neg hj, mul_zero]
  · rw [if_pos hk0g]; exact hterm k0 hk0g

theorem snLoop_head {eta : ℝ} {h : ℕ} {X : Fin n → Fin p → ℝ} {y : Fin n → ℝ} {l : List (SnComp n p)}
    (h0 : 0 ≤ eta) (h1 : eta < 1)
    (hl : snLoop eta (h + 1) X y ∅ = .ok l) (hcov : ¬ ∀ j, ∑ i, X i j * y i = 0) :
    ∃ c l', l = c :: l' ∧ l'.length ≤ h ∧
      ∀ j, j ∈ c.good ↔ ∀ k, eta * |∑ i, X i k * y i| < |∑ i, X i j * y i| := by
  obtain ⟨hr, hlen⟩ := snLoop_run _ _ _ _ _ _ hl
  cases hr with
  | stop =>
    exfalso
    simp only [snLoop] at hl
    rw [if_neg hcov, if_neg] at hl
    · split at hl
      · simp at hl
      · split at hl <;> simp at hl
    · exact (first_score_pos eta h0 h1 X y hcov _ (fun j => by simp)).1
  | step _ _ _ good w t c ld l hcov hg hne hw ht hnz hc hld hrun =>
    refine ⟨_, l, rfl, by simpa using hlen, fun j => ?_⟩
    simp only
    rw [hg]
    simp only [Finset.empty_union, Finset.mem_filter, Finset.mem_univ, true_and]
    exact snWeights_good eta h0 X y hcov j

/-- **C44.** Exactly which variables the first component retains: those whose covariance with the
response exceeds, in absolute value, `eta` times every other covariance.  (Nothing is retained, and
`colret_` is `None`, only if all covariances vanish.) -/
theorem C44_first_component {pr : SnParams} {X : Fin n → Fin p → ℝ} {y : Fin n → ℝ} {f : SnFit n p}
    (h : snFit pr X y = .ok f) (h1 : pr.nComponents = 1)
    (cov : Fin p → ℝ)
    (hc : ∀ j, cov j = dot (fun i => stdMat X f.xLoc f.xSca i j) (stdVec y f.yLoc f.ySca)) :
    ((∀ j, cov j = 0) → colret f.comps = none) ∧
    ((∃ j, cov j ≠ 0) → ∃ s, colret f.comps = some s ∧ s.Nonempty ∧
      ∀ j, j ∈ s ↔ ∀ k, pr.eta * |cov k| < |cov j|) := by
  obtain ⟨⟨h0, hlt, _⟩, _, _, _, _, _, hl, _⟩ := snFit_inv h
  rw [h1] at hl
  have hc' : ∀ j, cov j = ∑ i, stdMat X f.xLoc f.xSca i j * stdVec y f.yLoc f.ySca i := hc
  constructor
  · intro hz
    simp only [snLoop] at hl
    rw [if_pos (fun j => by rw [← hc' j]; exact hz j)] at hl
    simp only [if_true, Except.ok.injEq] at hl
    rw [← hl]; rfl
  · rintro ⟨j0, hj0⟩
    have hcov : ¬ ∀ j, ∑ i, stdMat X f.xLoc f.xSca i j * stdVec y f.yLoc f.ySca i = 0 :=
      fun hh => hj0 (by rw [hc']; exact hh j0)
    obtain ⟨c, l', hcl, hlen, hmem⟩ := snLoop_head h0 hlt hl hcov
    have hl' : l' = [] := List.length_eq_zero_iff.1 (by omega)
    refine ⟨c.good, by rw [hcl, hl']; rfl, ?_, fun j => by simp only [hc']; exact hmem j⟩
    obtain ⟨k0, hk0, hpos⟩ := maxAbs_attained cov ⟨j0, hj0⟩
    refine ⟨k0, (hmem k0).2 fun m => ?_⟩
    simp only [← hc']
    have h2 := abs_le_maxAbs cov m
    rw [← hk0] at h2 hpos
    calc pr.eta * |cov m| ≤ pr.eta * |cov k0| := mul_le_mul_of_nonneg_left h2 h0
      _ < 1 * |cov k0| := mul_lt_mul_of_pos_right hlt hpos
      _ = _ := one_mul _

/-- **C44.** With `eta = 0` the first component retains exactly the variables with nonzero
covariance. -/
theorem C44_eta_zero {pr : SnParams} {X : Fin n → Fin p → ℝ} {y : Fin n → ℝ} {f : SnFit n p}
    (h : snFit pr X y = .ok f) (h1 : pr.nComponents = 1) (he : pr.eta = 0) (j : Fin p) :
    (∃ s, colret f.comps = some s ∧ j ∈ s) ↔
      dot (fun i => stdMat X f.xLoc f.xSca i j) (stdVec y f.yLoc f.ySca) ≠ 0 := by
  obtain ⟨ha, hb⟩ := C44_first_component h h1 _ (fun j => rfl)
  constructor
  · rintro ⟨s, hs, hj⟩
    by_cases hz : ∀ j, dot (fun i => stdMat X f.xLoc f.xSca i j) (stdVec y f.yLoc f.ySca) = 0
    · rw [ha hz] at hs; simp at hs
    · push Not at hz
      obtain ⟨s', hs', _, hm⟩ := hb hz
      rw [hs] at hs'
      obtain rfl := Option.some.inj hs'
      have := (hm j).1 hj j
      rw [he, zero_mul] at this
      exact abs_pos.1 this
  · intro hne
    obtain ⟨s', hs', _, hm⟩ := hb ⟨j, hne⟩
    exact ⟨s', hs', (hm j).2 fun k => by rw [he, zero_mul]; exact abs_pos.2 hne⟩

/-- **C44.** A larger `eta` retains a subset in the first component. -/
theorem C44_antitone {pr : SnParams} {X : Fin n → Fin p → ℝ} {y : Fin n → ℝ} {f g : SnFit n p}
    (eta' : ℝ) (he : pr.eta ≤ eta') (h1 : pr.nComponents = 1) (h : snFit pr X y = .ok f)
    (h' : snFit { pr with eta := eta' } X y = .ok g) (s' : Finset (Fin p))
    (hs' : colret g.comps = some s') : ∃ s, colret f.comps = some s ∧ s' ⊆ s := by
  obtain ⟨ha, hb⟩ := C44_first_component h h1 _ (fun j => rfl)
  obtain ⟨ha', hb'⟩ := C44_first_component h' h1 _ (fun j => rfl)
  obtain ⟨_, e1, e2, e3, e4, _⟩ := snFit_inv h
  obtain ⟨_, e1', e2', e3', e4', _⟩ := snFit_inv h'
  simp only at e1' e2' e3' e4'
  rw [e1', e2', e3', e4', ← e1, ← e2, ← e3, ← e4] at ha' hb'
  by_cases hz : ∀ j, dot (fun i => stdMat X f.xLoc f.xSca i j) (stdVec y f.yLoc f.ySca) = 0
  · rw [ha' hz] at hs'; simp at hs'
  · push Not at hz
    obtain ⟨s, hs, _, hm⟩ := hb hz
    obtain ⟨s2, hs2, _, hm2⟩ := hb' hz
    rw [hs'] at hs2
    obtain rfl := Option.some.inj hs2
    refine ⟨s, hs, fun j hj => (hm j).2 fun k => lt_of_le_of_lt ?_ ((hm2 j).1 hj k)⟩
    exact mul_le_mul_of_nonneg_right he (abs_nonneg _)

/-- **C44.** For every number of components, at least one variable is retained unless all
covariances of the predictors with the response vanish. -/
theorem C44_nonempty {pr : SnParams} {X : Fin n → Fin p → ℝ} {y : Fin n → ℝ} {f : SnFit n p}
    (h : snFit pr X y = .ok f) :
    (∃ j, dot (fun i => stdMat X f.xLoc f.xSca i j) (stdVec y f.yLoc f.ySca) ≠ 0) ↔
      ∃ s, colret f.comps = some s ∧ s.Nonempty := by
  obtain ⟨⟨h0, hlt, hn⟩, _, _, _, _, _, hl, _⟩ := snFit_inv h
  obtain ⟨k, hk⟩ : ∃ k, pr.nComponents = k + 1 := ⟨pr.nComponents - 1, by omega⟩
  rw [hk] at hl
  constructor
  · rintro ⟨j0, hj0⟩
    obtain ⟨c, l', hcl, hlen, hmem⟩ := snLoop_head h0 hlt hl (fun hh => hj0 (hh j0))
    have hne : f.comps ≠ [] := by rw [hcl]; simp
    refine ⟨(f.comps.getLast hne).good, by simp [colret, List.getLast?_eq_some_getLast hne], ?_⟩
    exact Finset.nonempty_iff_ne_empty.2 ((snFit_run h).support.1 _ (List.getLast_mem hne)).2.1
  · rintro ⟨s, hs, _⟩
    by_contra hcon
    push Not at hcon
    simp only [snLoop] at hl
    have hcon' : ∀ j, ∑ i, stdMat X f.xLoc f.xSca i j * stdVec y f.yLoc f.ySca i = 0 := hcon
    rw [if_pos hcon'] at hl
    simp only [if_true, Except.ok.injEq] at hl
    rw [← hl] at hs
    simp [colret] at hs

/-- A fit succeeds when its component loop does and no predictor has scale zero: the matrices that
are inverted are never singular. -/
theorem snFit_of_loop (pr : SnParams) (X : Fin n → Fin p → ℝ) (y : Fin n → ℝ)
    (h0 : 0 ≤ pr.eta) (h1 : pr.eta < 1) (hn : 0 < pr.nComponents) (hs : ∀ j, pr.scale.run X j ≠ 0)
    (l : List (SnComp n p))
    (hl : snLoop pr.eta pr.nComponents (stdMat X (pr.centre.run X) (pr.scale.run X))
      (stdVec y (pr.centre.run (asCol y) 0) (pr.scale.run (asCol y) 0)) ∅ = .ok l) :
    ∃ f, snFit pr X y = .ok f ∧ f.comps = l := by
  have hy : (fun i => scaleMat (asCol y) (pr.centre.run (asCol y)) (pr.scale.run (asCol y)) i 0)
      = stdVec y (pr.centre.run (asCol y) 0) (pr.scale.run (asCol y) 0) := by
    rw [scaleMat_eq]; rfl
  have hr := (snLoop_run _ _ _ _ _ _ hl).1
  have hc := snCoef_ok (y0 := stdVec y (pr.centre.run (asCol y) 0) (pr.scale.run (asCol y) 0)) hr
  unfold snFit snFitBody
  rw [if_neg (by push Not; exact ⟨⟨h0, h1⟩, hn.ne'⟩)]
  simp only [hy]
  simp only [scaleMat_eq]
  rw [hl]
  simp only
  rw [hc]
  simp only
  rw [if_neg (by push Not; exact hs)]
  exact ⟨_, rfl, rfl⟩

/-- **C44.** With one component the fit succeeds for every data set whose predictors have nonzero
scale: no score vanishes and no singular matrix is inverted. -/
theorem C44_one_component_total (pr : SnParams) (X : Fin n → Fin p → ℝ) (y : Fin n → ℝ)
    (h0 : 0 ≤ pr.eta) (h1 : pr.eta < 1) (hn : pr.nComponents = 1) (hs : ∀ j, pr.scale.run X j ≠ 0) :
    ∃ f, snFit pr X y = .ok f := by
  have : ∃ l, snLoop pr.eta pr.nComponents (stdMat X (pr.centre.run X) (pr.scale.run X))
      (stdVec y (pr.centre.run (asCol y) 0) (pr.scale.run (asCol y) 0)) ∅ = .ok l := by
    generalize stdMat X (pr.centre.run X) (pr.scale.run X) = X0
    generalize stdVec y (pr.centre.run (asCol y) 0) (pr.scale.run (asCol y) 0) = y0
    rw [hn]
    simp only [snLoop]
    by_cases hcov : ∀ j, ∑ i, X0 i j * y0 i = 0
    · rw [if_pos hcov]; exact ⟨_, rfl⟩
    · rw [if_neg hcov]
      obtain ⟨hg, hp⟩ := first_score_pos pr.eta h0 h1 X0 y0 hcov
        (∅ ∪ Finset.univ.filter fun j => 0 < (snWeights pr.eta X0 y0).1 j) (fun j => by simp)
      rw [if_neg hg, if_neg]
      · exact ⟨_, rfl⟩
      · intro hz
        have ht : ∀ i, (∑ j, X0 i j * (if j ∈ (∅ ∪ Finset.univ.filter fun j => 0 < (snWeights pr.eta X0 y0).1 j) then
            (snWeights pr.eta X0 y0).2 j else 0)) = 0 := by
          intro i
          have := (Finset.sum_eq_zero_iff_of_nonneg (fun i _ => sq_nonneg _)).1 hz i (Finset.mem_univ _)
          exact pow_eq_zero_iff (two_ne_zero) |>.1 this
        rw [Finset.sum_eq_zero (fun i _ => by rw [ht i, mul_zero])] at hp
        exact lt_irrefl _ hp
  obtain ⟨l, hl⟩ := this
  obtain ⟨f, hf, _⟩ := snFit_of_loop pr X y h0 h1 (by omega) hs l hl
  exact ⟨f, hf⟩

/-! ### C45: normal equations -/

theorem lin_eq_mulVec (X : Fin n → Fin p → ℝ) (b : Fin p → ℝ) : lin X b = Matrix.of X *ᵥ b := rfl

/-- **C45.** On the standardised data, the residual `y - X coef_scaled_` is orthogonal to every score
vector, and `X coef_scaled_` is a linear combination of the score vectors: it is the orthogonal
projection of the response on the span of the scores. -/
theorem C45_normal_equations {pr : SnParams} {X : Fin n → Fin p → ℝ} {y : Fin n → ℝ} {f : SnFit n p}
    (h : snFit pr X y = .ok f) :
    (∀ a, dot (fun i => stdVec y f.yLoc f.ySca i - lin (stdMat X f.xLoc f.xSca) f.coefScaled i)
      (fun i => compT f.comps i a) = 0) ∧
    ∃ q : Fin f.comps.length → ℝ, ∀ i,
      lin (stdMat X f.xLoc f.xSca) f.coefScaled i = ∑ a, compT f.comps i a * q a := by
  have hr := snFit_run h
  obtain ⟨_, _, _, _, _, _, _, hc, _⟩ := snFit_inv h
  rw [snCoef_ok hr] at hc
  simp only [Except.ok.injEq] at hc
  generalize hX0 : stdMat X f.xLoc f.xSca = X0 at *
  generalize hy0 : stdVec y f.yLoc f.ySca = y0 at *
  by_cases hlen : f.comps.length = 0
  · rw [if_pos hlen] at hc
    have hB := congrArg Prod.snd hc
    simp only at hB
    refine ⟨fun a => absurd a.2 (by omega), fun _ => 0, fun i => ?_⟩
    rw [← hB]
    simp [lin]
  · rw [if_neg hlen] at hc
    have hB := congrArg Prod.snd hc
    simp only at hB
    set W := compW f.comps with hW
    set M := W.transpose * ((Matrix.of X0).transpose * Matrix.of X0) * W with hM
    have hdet : M.det ≠ 0 := by
      have e1 : M = (Matrix.of X0 * W).transpose * (Matrix.of X0 * W) := by
        rw [hM, Matrix.transpose_mul]; simp only [Matrix.mul_assoc]
      have e2 : M = (snQ (Matrix.of X0) f.comps).transpose * ((compT f.comps).transpose * compT f.comps) *
          snQ (Matrix.of X0) f.comps := by
        rw [e1, hr.mul_W, Matrix.transpose_mul]; simp only [Matrix.mul_assoc]
      rw [e2, Matrix.det_mul, Matrix.det_mul, Matrix.det_transpose, hr.det_Q]
      simpa using hr.det_gram
    constructor
    · intro a
      have key : (W.transpose * (Matrix.of X0).transpose) *ᵥ (y0 - Matrix.of X0 *ᵥ f.coefScaled) = 0 := by
        rw [Matrix.mulVec_sub, ← hB]
        simp only [Matrix.mulVec_mulVec]
        have : W.transpose * (Matrix.of X0).transpose * Matrix.of X0 * (W * (M⁻¹ * W.transpose) * (Matrix.of X0).transpose)
            = W.transpose * (Matrix.of X0).transpose := by
          calc _ = M * M⁻¹ * W.transpose * (Matrix.of X0).transpose := by
                rw [hM]; simp only [Matrix.mul_assoc]
            _ = _ := by
              rw [Matrix.mul_nonsing_inv _ (isUnit_iff_ne_zero.2 hdet), Matrix.one_mul]
        have h2 : Matrix.of X0 * (W * (M⁻¹ * W.transpose) * (Matrix.of X0).transpose) =
          Matrix.of X0 * (W * (M⁻¹ * W.transpose) * (Matrix.of X0).transpose) := rfl
        simp only [← Matrix.mul_assoc] at this ⊢
        rw [this, sub_self]
      have hall : ∀ c ∈ f.comps, (y0 - Matrix.of X0 *ᵥ f.coefScaled) ⬝ᵥ (Matrix.of X0 *ᵥ c.w) = 0 := by
        intro c hcm
        obtain ⟨b, rfl⟩ := List.get_of_mem hcm
        have := congrFun key b
        rw [← Matrix.transpose_mul] at this
        rw [dotProduct_comm]
        exact this
      exact hr.resid _ hall _ (List.get_mem _ a)
    · refine ⟨(snQ (Matrix.of X0) f.comps * (M⁻¹ * W.transpose)) *ᵥ ((Matrix.of X0).transpose *ᵥ y0), fun i => ?_⟩
      rw [lin_eq_mulVec, ← hB]
      have : Matrix.of X0 *ᵥ ((W * (M⁻¹ * W.transpose)) *ᵥ ((Matrix.of X0).transpose *ᵥ y0)) =
          compT f.comps *ᵥ ((snQ (Matrix.of X0) f.comps * (M⁻¹ * W.transpose)) *ᵥ ((Matrix.of X0).transpose *ᵥ y0)) := by
        simp only [Matrix.mulVec_mulVec, ← Matrix.mul_assoc]
        rw [hr.mul_W]
      rw [this]
      rfl

/-! ### C46: predictions -/

/-- **C46.** `predict` on the training data returns `fitted_`, and `residuals_ = y - fitted_`. -/
theorem C46_predict_train {pr : SnParams} {X : Fin n → Fin p → ℝ} {y : Fin n → ℝ} {f : SnFit n p}
    (h : snFit pr X y = .ok f) :
    f.predict X = .ok f.fitted ∧ ∀ i, y i = f.fitted i + f.residuals i := by
  obtain ⟨_, _, _, _, _, _, _, _, _, _, hf, hres⟩ := snFit_inv h
  refine ⟨?_, fun i => by rw [hres]; ring⟩
  unfold SnFit.predict
  rw [dif_pos rfl]
  congr 1
  funext i
  rw [hf]; rfl

/-- **C46.** `predict` accepts exactly the arrays with as many columns as the training data, and is
then the affine function with slope `coef_` and offset `intercept_`. -/
theorem C46_predict_affine (f : SnFit n p) {m q : ℕ} (Xn : Fin m → Fin q → ℝ) :
    (q ≠ p → f.predict Xn = .error .valueError) ∧
    (∀ Xp : Fin m → Fin p → ℝ, f.predict Xp = .ok fun i => lin Xp f.coef i + f.intercept) := by
  constructor
  · intro hq; unfold SnFit.predict; rw [dif_neg hq]
  · intro Xp; unfold SnFit.predict; rw [dif_pos rfl]; rfl

theorem Matrix_lin_rescale (X : Fin n → Fin p → ℝ) (m s B : Fin p → ℝ) (sy : ℝ) (hs : ∀ j, s j ≠ 0) (i : Fin n) :
    ∑ j, X i j * (sy / s j * B j) = sy * lin (stdMat X m s) B i + ∑ j, m j * (sy / s j * B j) := by
  unfold lin stdMat std1
  rw [Finset.mul_sum, ← Finset.sum_add_distrib]
  refine Finset.sum_congr rfl fun j _ => ?_
  rw [if_neg (hs j)]
  field_simp [hs j]
  ring

/-- **C46.** With mean centring, or without centring, the coefficients and intercept on the original
scale describe the same function as those on the standardised scale:
`fitted_ = y_loc_ + y_sca_ * (standardised X) coef_scaled_`. -/
theorem C46_original_scale {pr : SnParams} {X : Fin n → Fin p → ℝ} {y : Fin n → ℝ} {f : SnFit n p}
    (hn : 0 < n) (h : snFit pr X y = .ok f) (hc : pr.centre = .mean ∨ pr.centre = .noneOpt) (i : Fin n) :
    f.fitted i = f.yLoc + f.ySca * lin (stdMat X f.xLoc f.xSca) f.coefScaled i := by
  obtain ⟨_, e1, e2, e3, e4, hs, hl, _, hco, hint, hf, _⟩ := snFit_inv h
  have hcoef : f.coef = fun j => f.ySca / f.xSca j * f.coefScaled j := funext hco
  have hlin : ∀ i, lin X f.coef i = f.ySca * lin (stdMat X f.xLoc f.xSca) f.coefScaled i +
      ∑ j, f.xLoc j * f.coef j := by
    intro i
    rw [hcoef]
    exact Matrix_lin_rescale X f.xLoc f.xSca f.coefScaled f.ySca hs i
  rcases hc with hc | hc
  · rw [hf, hlin, hint, hc]
    simp only [snIntercept]
    have hn' : (n : ℝ) ≠ 0 := by positivity
    have hx : ∀ j, f.xLoc j = (∑ i, X i j) / n := by
      intro j; rw [e1, hc]; simp only [Centre.run]; rw [mean_eq]
    have hy : f.yLoc = (∑ i, y i) / n := by
      rw [e3, hc]; simp only [Centre.run, asCol]; rw [mean_eq]
    rw [mean_eq, Finset.sum_sub_distrib, sub_div, ← hy]
    have : (∑ i, lin X f.coef i) / n = ∑ j, f.xLoc j * f.coef j := by
      unfold lin
      rw [Finset.sum_comm, Finset.sum_div]
      refine Finset.sum_congr rfl fun j _ => ?_
      rw [hx j, ← Finset.sum_mul]; ring
    rw [this]; ring
  · rw [hf, hlin, hint, hc]
    simp only [snIntercept]
    have hx : ∀ j, f.xLoc j = 0 := by intro j; rw [e1, hc]; rfl
    have hy : f.yLoc = 0 := by rw [e3, hc]; rfl
    rw [hy]
    simp [hx]

/-- **C45** in terms of `fitted_` and `residuals_`: with mean centring or without centring, and a
response of nonzero scale, `residuals_` is orthogonal to every score vector and `fitted_` is the
location of the response plus a linear combination of the score vectors. -/
theorem C45_residuals {pr : SnParams} {X : Fin n → Fin p → ℝ} {y : Fin n → ℝ} {f : SnFit n p}
    (hn : 0 < n) (h : snFit pr X y = .ok f) (hc : pr.centre = .mean ∨ pr.centre = .noneOpt)
    (hsy : f.ySca ≠ 0) :
    (∀ a, dot f.residuals (fun i => compT f.comps i a) = 0) ∧
    ∃ q : Fin f.comps.length → ℝ, ∀ i, f.fitted i = f.yLoc + ∑ a, compT f.comps i a * q a := by
  obtain ⟨h1, q, h2⟩ := C45_normal_equations h
  have hfit := C46_original_scale hn h hc
  obtain ⟨_, _, _, _, _, _, _, _, _, _, _, hres⟩ := snFit_inv h
  constructor
  · intro a
    have hr : ∀ i, f.residuals i = f.ySca *
        (stdVec y f.yLoc f.ySca i - lin (stdMat X f.xLoc f.xSca) f.coefScaled i) := by
      intro i
      rw [hres, hfit]
      unfold stdVec std1
      rw [if_neg hsy]
      field_simp
      ring
    have := h1 a
    unfold dot at this ⊢
    have e : ∀ i, f.residuals i * compT f.comps i a = f.ySca *
        ((stdVec y f.yLoc f.ySca i - lin (stdMat X f.xLoc f.xSca) f.coefScaled i) * compT f.comps i a) := by
      intro i; rw [hr]; ring
    rw [Finset.sum_congr rfl fun i _ => e i, ← Finset.mul_sum, this, mul_zero]
  · refine ⟨fun a => f.ySca * q a, fun i => ?_⟩
    rw [hfit, h2, Finset.mul_sum]
    congr 1
    exact Finset.sum_congr rfl fun a _ => by ring

/-! ### C47: transform of the training data -/

theorem transform_train {X : Fin n → Fin p → ℝ} (f : SnFit n p) :
    f.transform X = .ok (Matrix.of (stdMat X f.xLoc f.xSca) * f.R) := by
  unfold SnFit.transform
  rw [dif_pos rfl]
  simp only [scaleMat_eq]
  rfl

theorem R_eq {pr : SnParams} {X : Fin n → Fin p → ℝ} {y : Fin n → ℝ} {f : SnFit n p}
    (h : snFit pr X y = .ok f) (hlen : f.comps.length ≠ 0) :
    f.R = compW f.comps * ((compP f.comps).transpose * compW f.comps)⁻¹ := by
  obtain ⟨_, _, _, _, _, _, _, hc, _⟩ := snFit_inv h
  rw [snCoef_ok (snFit_run h), if_neg hlen] at hc
  simp only [Except.ok.injEq] at hc
  exact (congrArg Prod.fst hc).symm

/-- **C47**, exact condition: `transform` of the training data gives `x_scores_` if and only if, for
all components `a`, `b`, the part of the full loading of `a` that belongs to variables not retained at
`a` is orthogonal to the weights of `b`. -/
theorem C47_transform_iff {pr : SnParams} {X : Fin n → Fin p → ℝ} {y : Fin n → ℝ} {f : SnFit n p}
    (h : snFit pr X y = .ok f) :
    f.transform X = .ok (compT f.comps) ↔
      ∀ a b : Fin f.comps.length, (∑ j ∈ Finset.univ.filter (fun j => j ∉ (f.comps.get a).good),
        dot (fun i => compT f.comps i a) (fun i => stdMat X f.xLoc f.xSca i j) * compW f.comps j b) = 0 := by
  have hr := snFit_run h
  rw [transform_train f, Except.ok.injEq]
  set X0 := Matrix.of (stdMat X f.xLoc f.xSca) with hX0
  by_cases hlen : f.comps.length = 0
  · constructor
    · intro _ a; exact absurd a.2 (by omega)
    · intro _; ext i a; exact absurd a.2 (by omega)
  rw [R_eq h hlen]
  set PW := (compP f.comps).transpose * compW f.comps with hPW
  have hdet : PW.det ≠ 0 := by rw [hPW, hr.det_PW]; norm_num
  have hstep : (X0 * (compW f.comps * PW⁻¹) = compT f.comps) ↔ snQ X0 f.comps = PW := by
    rw [← Matrix.mul_assoc, hr.mul_W, Matrix.mul_assoc]
    constructor
    · intro he
      have h1 : (compT f.comps).transpose * compT f.comps * (snQ X0 f.comps * PW⁻¹) =
          (compT f.comps).transpose * compT f.comps * 1 := by
        rw [Matrix.mul_assoc, he, Matrix.mul_one]
      have h2 : snQ X0 f.comps * PW⁻¹ = 1 := by
        have hg := isUnit_iff_ne_zero.2 hr.det_gram
        have := congrArg (fun M => ((compT f.comps).transpose * compT f.comps)⁻¹ * M) h1
        simp only [← Matrix.mul_assoc, Matrix.nonsing_inv_mul _ hg] at this
        simpa using this
      have h3 := congrArg (fun M => M * PW) h2
      simp only [Matrix.mul_assoc, Matrix.nonsing_inv_mul _ (isUnit_iff_ne_zero.2 hdet), Matrix.one_mul,
        Matrix.mul_one] at h3
      exact h3
    · intro he
      rw [he, Matrix.mul_nonsing_inv _ (isUnit_iff_ne_zero.2 hdet), Matrix.mul_one]
  rw [hstep]
  constructor
  · intro he a b
    have h1 := hr.PW_apply a b
    rw [he] at h1
    have h2 : (∑ j ∈ Finset.univ.filter (fun j => j ∉ (f.comps.get a).good),
      ((f.comps.get a).t ᵥ* X0) j * (f.comps.get b).w j) / ((f.comps.get a).t ⬝ᵥ (f.comps.get a).t) = 0 := by
      rw [← hPW] at h1; linarith
    exact (div_eq_zero_iff.1 h2).resolve_right (hr.nz _ (List.get_mem _ _))
  · intro he
    ext a b
    have h1 := hr.PW_apply a b
    have h2 : (∑ j ∈ Finset.univ.filter (fun j => j ∉ (f.comps.get a).good),
      ((f.comps.get a).t ᵥ* X0) j * (f.comps.get b).w j) = 0 := he a b
    rw [h2, zero_div, add_zero] at h1
    exact h1.symm

/-- **C47 (partial).** If every component retains the same variables (in particular with a single
component), `transform` of the training data gives `x_scores_`.  Missing: the retained set may grow from one component
to the next, and then the claim can fail (`C47_transform_violated`). -/
theorem C47_transform_partial {pr : SnParams} {X : Fin n → Fin p → ℝ} {y : Fin n → ℝ} {f : SnFit n p}
    (h : snFit pr X y = .ok f) (hsame : ∀ c ∈ f.comps, ∀ d ∈ f.comps, c.good = d.good) :
    f.transform X = .ok (compT f.comps) := by
  rw [C47_transform_iff h]
  intro a b
  refine Finset.sum_eq_zero fun j hj => ?_
  have hj' := (Finset.mem_filter.1 hj).2
  rw [hsame _ (List.get_mem _ a) _ (List.get_mem _ b)] at hj'
  have : compW f.comps j b = 0 := (((snFit_run h).support.1 _ (List.get_mem _ b)).2.2 j hj').1
  rw [this, mul_zero]

/-- **C47 (partial)**, one component. -/
theorem C47_one_component_partial {pr : SnParams} {X : Fin n → Fin p → ℝ} {y : Fin n → ℝ} {f : SnFit n p}
    (h : snFit pr X y = .ok f) (h1 : pr.nComponents = 1) : f.transform X = .ok (compT f.comps) := by
  refine C47_transform_partial h ?_
  obtain ⟨_, _, _, _, _, _, hl, _⟩ := snFit_inv h
  have hlen := (snLoop_run _ _ _ _ _ _ hl).2
  rw [h1] at hlen
  intro c hc d hd
  obtain ⟨a, rfl⟩ := List.get_of_mem hc
  obtain ⟨b, rfl⟩ := List.get_of_mem hd
  have : a = b := Fin.ext (by have := a.2; have := b.2; omega)
  rw [this]

/-! ### Concrete data -/

/-- Two cases, two predictors. -/
def snX : Fin 2 → Fin 2 → ℝ := ![![1, 1], ![0, 1]]

/-- Response for `snX`. -/
def snY : Fin 2 → ℝ := ![4, -1]

/-- Two components, no centring or scaling, `eta = 3/4`. -/
noncomputable def snPr : SnParams := ⟨3 / 4, 2, .noneOpt, .noneOpt⟩

theorem maxAbs_two (v : Fin 2 → ℝ) : maxAbs v = max |v 0| (max |v 1| 0) := by
  simp [maxAbs, List.ofFn_succ]

theorem snExWeights1 : snWeights (3 / 4) snX snY = (![1 / 5, 0], ![1 / 5, 0]) := by
  have hs : ∀ j, ∑ i, snX i j * snY i = ![4, 3] j := by
    intro j; fin_cases j <;> simp [snX, snY, Fin.sum_univ_two]; norm_num
  have hn : Real.sqrt (∑ j : Fin 2, (![4, 3] j : ℝ) ^ 2) = 5 := by
    rw [Fin.sum_univ_two, show ((![4, 3] : Fin 2 → ℝ) 0) ^ 2 + (![4, 3] : Fin 2 → ℝ) 1 ^ 2 = 5 ^ 2 by
      simp; norm_num]
    exact Real.sqrt_sq (by norm_num)
  have hm : maxAbs (fun j => (![4, 3] j : ℝ) / 5) = 4 / 5 := by
    rw [maxAbs_two]
    norm_num [abs_of_pos, max_eq_left, max_eq_right]
  simp only [snWeights, hs, hn, hm]
  refine Prod.ext ?_ ?_ <;> funext j <;> fin_cases j <;>
    norm_num [abs_of_pos, npSign]

open Classical in
/-- One pass of the loop with the intermediate results given. -/
theorem snLoop_step {eta : ℝ} {h : ℕ} {X X' : Fin n → Fin p → ℝ} {y y' : Fin n → ℝ} {old good : Finset (Fin p)}
    {g v w ph : Fin p → ℝ} {t : Fin n → ℝ} {q c : ℝ} {l : List (SnComp n p)}
    (hcov : ¬ ∀ j, ∑ i, X i j * y i = 0) (hgw : snWeights eta X y = (g, v))
    (hgood : old ∪ Finset.univ.filter (fun j => 0 < g j) = good) (hne : good ≠ ∅)
    (hw : (fun j => if j ∈ good then v j else 0) = w) (ht : (fun i => ∑ j, X i j * w j) = t)
    (hq : ∑ i, t i ^ 2 = q) (hq0 : q ≠ 0) (hc : (∑ i, y i * t i) / q = c)
    (hph : (fun j => (∑ i, X i j * t i) / q) = ph)
    (hX' : (fun i j => X i j - t i * ph j) = X') (hy' : (fun i => y i - t i * c) = y')
    (hl : snLoop eta h X' y' good = .ok l) :
    snLoop eta (h + 1) X y old = .ok (⟨w, fun j => if j ∈ good then ph j else 0, c, t, good⟩ :: l) := by
  subst hgood hw ht hq hc hph hX' hy'
  simp only [snLoop, hgw]
  rw [if_neg hcov, if_neg hne, if_neg hq0, hl]

theorem snExLoop : snLoop (3 / 4) 2 snX snY ∅ = .ok
    [⟨![1 / 5, 0], ![5, 0], 20, ![1 / 5, 0], {0}⟩, ⟨![0, -(1 / 4)], ![0, -4], 4, ![0, -(1 / 4)], {0, 1}⟩] := by
  have hw2 : snWeights (3 / 4) (![![0, 0], ![0, 1]] : Fin 2 → Fin 2 → ℝ) ![0, -1] =
      (![-(3 / 4), 1 / 4], ![0, -(1 / 4)]) := by
    have hs : ∀ j, ∑ i, (![![0, 0], ![0, 1]] : Fin 2 → Fin 2 → ℝ) i j * (![0, -1] : Fin 2 → ℝ) i = ![0, -1] j := by
      intro j; fin_cases j <;> simp [Fin.sum_univ_two]
    have hn : Real.sqrt (∑ j : Fin 2, (![0, -1] j : ℝ) ^ 2) = 1 := by
      rw [Fin.sum_univ_two]; simp
    have hm : maxAbs (fun j => (![0, -1] j : ℝ) / 1) = 1 := by
      rw [maxAbs_two]; simp
    simp only [snWeights, hs, hn, hm]
    refine Prod.ext ?_ ?_ <;> funext j <;> fin_cases j <;> norm_num [npSign]
  have h2 := snLoop_step (eta := 3 / 4) (h := 0) (X := ![![0, 0], ![0, 1]]) (y := ![0, -1]) (old := {0})
    (good := {0, 1}) (w := ![0, -(1 / 4)]) (t := ![0, -(1 / 4)]) (q := 1 / 16) (c := 4) (ph := ![0, -4]) (l := [])
    (X' := fun _ _ => 0) (y' := fun _ => 0)
    (by intro h; have := h 1; simp [Fin.sum_univ_two] at this) hw2
    (by ext j; fin_cases j <;> simp) (by simp)
    (by funext j; fin_cases j <;> simp)
    (by funext i; fin_cases i <;> simp [Fin.sum_univ_two])
    (by simp [Fin.sum_univ_two]; norm_num) (by norm_num) (by simp [Fin.sum_univ_two]; norm_num)
    (by funext j; fin_cases j <;> simp [Fin.sum_univ_two]; norm_num)
    (by funext i j; fin_cases i <;> fin_cases j <;> simp)
    (by funext i; fin_cases i <;> simp) rfl
  have h1 := snLoop_step (eta := 3 / 4) (h := 1) (X := snX) (y := snY) (old := ∅)
    (good := {0}) (w := ![1 / 5, 0]) (t := ![1 / 5, 0]) (q := 1 / 25) (c := 20) (ph := ![5, 5])
    (X' := ![![0, 0], ![0, 1]]) (y' := ![0, -1])
    (by intro h; have := h 0; simp [snX, snY, Fin.sum_univ_two] at this) snExWeights1
    (by ext j; fin_cases j <;> simp) (by simp)
    (by funext j; fin_cases j <;> simp)
    (by funext i; fin_cases i <;> simp [snX, Fin.sum_univ_two])
    (by simp [Fin.sum_univ_two]; norm_num) (by norm_num) (by simp [snY, Fin.sum_univ_two]; norm_num)
    (by funext j; fin_cases j <;> simp [snX, Fin.sum_univ_two] <;> norm_num)
    (by funext i j; fin_cases i <;> fin_cases j <;> simp [snX])
    (by funext i; fin_cases i <;> simp [snY]; norm_num) h2
  rw [h1]
  simp only [Except.ok.injEq, List.cons.injEq, SnComp.mk.injEq, true_and, and_true]
  constructor <;> funext j <;> fin_cases j <;> simp

theorem snExFit : ∃ f, snFit snPr snX snY = .ok f ∧
    f.comps = [⟨![1 / 5, 0], ![5, 0], 20, ![1 / 5, 0], {0}⟩, ⟨![0, -(1 / 4)], ![0, -4], 4, ![0, -(1 / 4)], {0, 1}⟩] := by
  refine snFit_of_loop snPr snX snY (by norm_num [snPr]) (by norm_num [snPr]) (by simp [snPr])
    (fun j => by simp [snPr, ScaleOpt.run]) _ ?_
  have e1 : stdMat snX (snPr.centre.run snX) (snPr.scale.run snX) = snX := by
    funext i j; simp [stdMat, std1, snPr, Centre.run, ScaleOpt.run]
  have e2 : stdVec snY (snPr.centre.run (asCol snY) 0) (snPr.scale.run (asCol snY) 0) = snY := by
    funext i; simp [stdVec, std1, snPr, Centre.run, ScaleOpt.run]
  rw [e1, e2]
  exact snExLoop

/-- **C47 (violated).** On these data the second component retains a further variable, and `transform`
of the training data differs from `x_scores_`. -/
theorem C47_transform_violated :
    ∃ f, snFit snPr snX snY = .ok f ∧ f.transform snX ≠ .ok (compT f.comps) := by
  obtain ⟨f, hf, hc⟩ := snExFit
  refine ⟨f, hf, fun hcon => ?_⟩
  rw [C47_transform_iff hf] at hcon
  obtain ⟨_, e1, e2, _⟩ := snFit_inv hf
  have e : stdMat snX f.xLoc f.xSca = snX := by
    rw [e1, e2]; funext i j; simp [stdMat, std1, snPr, Centre.run, ScaleOpt.run]
  rw [e] at hcon
  generalize f.comps = l at hc hcon
  subst hc
  have := hcon 0 1
  simp [compT, compW, dot, snX, Finset.sum_filter, Fin.sum_univ_two] at this

/-- Non-vacuity of C42, C43, C45, C46: these data are fitted with two components. -/
example : ∃ f, snFit snPr snX snY = .ok f ∧ f.comps.length = 2 ∧ f.ySca ≠ 0 ∧
    colret f.comps = some {0, 1} := by
  obtain ⟨f, hf, hc⟩ := snExFit
  obtain ⟨_, _, _, _, e4, _⟩ := snFit_inv hf
  exact ⟨f, hf, by rw [hc]; rfl, by rw [e4]; simp [snPr, ScaleOpt.run], by rw [hc]; rfl⟩

/-- Non-vacuity of C43 and C44: one component retains only the first of the two predictors. -/
example : ∃ f, snFit { snPr with nComponents := 1 } snX snY = .ok f ∧ colret f.comps = some {0} := by
  obtain ⟨f, hf⟩ := C44_one_component_total { snPr with nComponents := 1 } snX snY (by norm_num [snPr])
    (by norm_num [snPr]) rfl (fun j => by simp [snPr, ScaleOpt.run])
  refine ⟨f, hf, ?_⟩
  obtain ⟨_, e1, e2, e3, e4, _⟩ := snFit_inv hf
  obtain ⟨_, hb⟩ := C44_first_component hf rfl ![4, 3] (fun j => by
    rw [e1, e2, e3, e4]
    fin_cases j <;>
      simp [dot, stdMat, stdVec, std1, snPr, snX, snY, Centre.run, ScaleOpt.run, Fin.sum_univ_two]
    norm_num)
  obtain ⟨s, hs, _, hm⟩ := hb ⟨0, by simp⟩
  rw [hs]
  congr 1
  ext j
  rw [hm]
  fin_cases j
  · simp [snPr, Fin.forall_fin_two]; norm_num
  · simp [snPr, Fin.forall_fin_two]

end Direpack
