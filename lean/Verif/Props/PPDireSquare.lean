import Verif.Props.PPDirePLS

/-! C129: the parameter `square_pi` of `ppdire`. -/

namespace Direpack

open scoped BigOperators
open Spec

variable {n p : ℕ}

lemma evalIdx_square (φ : (Fin n → ℝ) → ℝ) : evalIdx φ true = evalIdx (fun t => φ t ^ 2) false := rfl

lemma gridplane_square (φ : (Fin n → ℝ) → ℝ) (ndir : ℕ) (X : Fin n → Fin 2 → ℝ) :
    gridplane φ true ndir X = gridplane (fun t => φ t ^ 2) false ndir X := rfl

lemma gridplane2_square (φ : (Fin n → ℝ) → ℝ) (ndir : ℕ) (q : ℝ) (X : Fin n → Fin 2 → ℝ) :
    gridplane2 φ true ndir q X = gridplane2 (fun t => φ t ^ 2) false ndir q X := rfl

lemma gridLoop_square (φ : (Fin n → ℝ) → ℝ) (ndir : ℕ) (E : Fin n → Fin p → ℝ) (left : ℕ) : ∀ objfold objf st,
    gridLoop φ true ndir E left objfold objf st = gridLoop (fun t => φ t ^ 2) false ndir E left objfold objf st := by
  induction left with
  | zero => intro _ _ _; rfl
  | succ left ih =>
    intro objfold objf st
    have hs : gridSweep φ true ndir E st = gridSweep (fun t => φ t ^ 2) false ndir E st := rfl
    rw [gridLoop, gridLoop, hs]
    split
    · split
      · rfl
      · exact ih _ _ _
    · rfl

lemma gridDirection_square (φ : (Fin n → ℝ) → ℝ) (ndir maxiter : ℕ) (E : Fin n → Fin p → ℝ) :
    gridDirection φ true ndir maxiter E = gridDirection (fun t => φ t ^ 2) false ndir maxiter E := by
  match p, E with
  | 0, _ => rfl
  | 1, _ => rfl
  | 2, _ => rfl
  | m + 3, E =>
    have hs : gridStage1 φ true ndir E = gridStage1 (fun t => φ t ^ 2) false ndir E := rfl
    rw [gridDirection, gridDirection, hs]
    split
    · rfl
    · split
      · rfl
      · exact gridLoop_square φ ndir E _ _ _ _

lemma ppLoop_square (ndir maxiter : ℕ) (φ : (Fin n → ℝ) → ℝ) (reg : (Fin n → ℝ) → ℝ) (h : ℕ) : ∀ E : Fin n → Fin p → ℝ,
    ppLoop (.grid ndir maxiter) φ true reg h E = ppLoop (.grid ndir maxiter) (fun t => φ t ^ 2) false reg h E := by
  induction h with
  | zero => intro E; rfl
  | succ h ih =>
    intro E
    have hd : ppDirection (.grid ndir maxiter) φ true E = ppDirection (.grid ndir maxiter) (fun t => φ t ^ 2) false E :=
      gridDirection_square φ ndir maxiter E
    rw [ppLoop, ppLoop, hd]
    split
    · rfl
    · dsimp only
      split
      · rfl
      · rw [ih]
        rfl

/-- C129 (partial: the grid optimiser).  With `optimizer='grid'`, `square_pi=True` is the same as using the square of the projection index: the whole
fitted model is the same, directions, reported optima and regression, or both fits fail in the same way.  Missing: the other optimisers
(`C129_optimiser_violated`, `C129_nonneg_partial`). -/
theorem C129_grid_partial (pr : PpParams) (ndir maxiter : ℕ) (ho : pr.optimizer = .grid ndir maxiter) (pinv : Pinv) (rg : PpReg)
    (φ : (Fin n → ℝ) → (Fin n → ℝ) → ℝ) (X : Fin n → Fin p → ℝ) (y : Fin n → ℝ) :
    ppFit { pr with squarePi := true } pinv rg φ X y = ppFit { pr with squarePi := false } pinv rg (fun ys t => φ ys t ^ 2) X y := by
  unfold ppFit
  simp only [ho, ppLoop_square]

/-- The same for fits without a response. -/
theorem C129_grid_one_block_partial (pr : PpParams) (ndir maxiter : ℕ) (ho : pr.optimizer = .grid ndir maxiter) (pinv : Pinv)
    (φ : (Fin n → ℝ) → ℝ) (X : Fin n → Fin p → ℝ) :
    ppFit1 { pr with squarePi := true } pinv φ X = ppFit1 { pr with squarePi := false } pinv (fun t => φ t ^ 2) X := by
  unfold ppFit1
  simp only [ho, ppLoop_square]

/-- C129 (partial: nonnegative indices).  An optimiser that solves the problem it is given exactly returns a direction for which also the
squared index is the largest, if the index of every direction is nonnegative. -/
theorem C129_nonneg_partial (φ : (Fin n → ℝ) → ℝ) (E : Fin n → Fin p → ℝ) (find : {n p : ℕ} → (Fin n → Fin p → ℝ) → (Fin p → ℝ))
    (hs : SolvesOnSphere (ppObjective φ E) (find E)) (h0 : ∀ v, UnitLen v → 0 ≤ φ (projectOn E v))
    (w : Fin p → ℝ) (o : ℝ) (h : ppDirection (.ext find) φ true E = .ok (w, o)) (v : Fin p → ℝ) (hv : UnitLen v) :
    criterion φ true (projectOn E v) ≤ criterion φ true (projectOn E w) := by
  have h1 : Real.sqrt (∑ k, find E k ^ 2) = 1 := by rw [show ∑ k, find E k ^ 2 = 1 from hs.1, Real.sqrt_one]
  unfold ppDirection at h
  simp only [h1, one_ne_zero, if_false, div_one, Except.ok.injEq, Prod.mk.injEq] at h
  rw [← h.1]
  have h2 := hs.2 v hv
  unfold ppObjective at h2
  unfold criterion
  simp only [if_true]
  exact pow_le_pow_left₀ (h0 v hv) (neg_le_neg_iff.mp h2) 2

/-- The hypotheses are met by the sum of squares and the direction of the longer variable. -/
example : ∃ find : {n p : ℕ} → (Fin n → Fin p → ℝ) → (Fin p → ℝ),
    SolvesOnSphere (ppObjective (fun t : Fin 2 → ℝ => ∑ i, t i ^ 2) ![![3, 0], ![0, (1 : ℝ)]]) (find ![![3, 0], ![0, (1 : ℝ)]]) ∧
    ∀ v : Fin 2 → ℝ, UnitLen v → 0 ≤ (fun t : Fin 2 → ℝ => ∑ i, t i ^ 2) (projectOn ![![3, 0], ![0, (1 : ℝ)]] v) := by
  refine ⟨fun {n p} _ (k : Fin p) => if k.1 = 0 then 1 else 0, ⟨by unfold UnitLen; rw [Fin.sum_univ_two]; simp, fun v hv => ?_⟩,
    fun v _ => Finset.sum_nonneg fun i _ => sq_nonneg _⟩
  unfold UnitLen at hv
  rw [Fin.sum_univ_two] at hv
  simp [ppObjective, projE, Fin.sum_univ_two]
  nlinarith [sq_nonneg (v 1)]

/-- What the fit with another optimiser reports: `Maxobjf_` is the index itself, `crit_values_` its square. -/
lemma ppLoop_ext_reports {find : {n p : ℕ} → (Fin n → Fin p → ℝ) → (Fin p → ℝ)} {φ : (Fin n → ℝ) → ℝ} {reg : (Fin n → ℝ) → ℝ} (h : ℕ) :
    ∀ (E : Fin n → Fin p → ℝ) (l : List (PpComp n p)), ppLoop (.ext find) φ true reg h E = .ok l → ∀ c ∈ l, c.maxobj = φ c.t ∧ c.crit = φ c.t ^ 2 := by
  induction h with
  | zero => intro E l hl c hc; simp only [ppLoop, Except.ok.injEq] at hl; rw [← hl] at hc; simp at hc
  | succ h ih =>
    intro E l hl c hc
    rw [ppLoop] at hl
    split at hl
    · simp at hl
    · rename_i w o hd
      dsimp only at hl
      split at hl
      · simp at hl
      · split at hl
        · simp at hl
        · rename_i l' hl'
          simp only [Except.ok.injEq] at hl
          rw [← hl] at hc
          rcases List.mem_cons.mp hc with rfl | hc
          · unfold ppDirection at hd
            dsimp only at hd
            split at hd
            · simp at hd
            · simp only [Except.ok.injEq, Prod.mk.injEq] at hd
              obtain ⟨rfl, rfl⟩ := hd
              exact ⟨rfl, rfl⟩
          · exact ih _ _ hl' c hc

/-- With an optimiser other than the grid, the two numbers that a fit with `square_pi=True` reports for a component disagree: `Maxobjf_` is the
index and `crit_values_` its square. -/
theorem C129_reported_optimum (pr : PpParams) (hsq : pr.squarePi = true) (find : {n p : ℕ} → (Fin n → Fin p → ℝ) → (Fin p → ℝ))
    (ho : pr.optimizer = .ext find) (pinv : Pinv) (rg : PpReg) (φ : (Fin n → ℝ) → (Fin n → ℝ) → ℝ) (X : Fin n → Fin p → ℝ) (y : Fin n → ℝ)
    (f : PpFit n p) (h : ppFit pr pinv rg φ X y = .ok f) : ∀ c ∈ f.comps, c.crit = c.maxobj ^ 2 := by
  obtain ⟨Xs, ys, -, -, -, -, -, -, -, -, hl, -⟩ := ppFit_inv h
  rw [ho, hsq] at hl
  intro c hc
  obtain ⟨h1, h2⟩ := ppLoop_ext_reports _ _ _ hl c hc
  rw [h1, h2]

/-! ### A co-skewness that is negative in one direction -/

/-- Co-skewness without standardisation. -/
def m3Obj : Dicomo := ⟨.arithmetic, .m3, .mean, none⟩

lemma run_m3 (hn : 0 < n) (c : Loc) (a : FitArgs) (hb : a.biascorr = false) (x y : Fin n → ℝ) :
    run .arithmetic .m3 c a (colMat x) (colMat y) = trimMom .mean x y 3 a.trimming a.option false := by
  rw [run_eq, show forcesMean .m3 = true from rfl, compute_arith hn]
  unfold arithCol arithXY finalStage
  rw [show modeTable .m3 a.order = (.com, 3) from rfl]
  simp only [isCoMode, bind, Except.bind, reduceCtorEq, if_false, if_true, Bool.false_eq_true, false_and, or_self, hb,
    decide_false, show (2 : ℕ) < 3 from by norm_num]
  cases trimMom .mean x y 3 a.trimming a.option false <;> rfl

lemma dicomoIndex2_m3 (hn : 0 < n) (ys t : Fin n → ℝ) (hy : ∑ i, ys i = 0) (ht : ∑ i, t i = 0) :
    dicomoIndex2 m3Obj {} ys t = (∑ i, t i ^ 2 * ys i) / n := by
  have h2 := run_m3 (n := n) hn .mean {} rfl t ys
  rw [show ({} : FitArgs).trimming = 0 from rfl, trimMom_mean0 _ _ _ (by norm_num), momFactor_false] at h2
  have h3 : (m3Obj.fit { ({} : FitArgs) with y := some (colMat ys) } (colMat t)).2 = run .arithmetic .m3 .mean {} (colMat t) (colMat ys) := rfl
  unfold dicomoIndex2 dicomoIndex
  have e1 : (⟨n, 1, fun i _ => t i⟩ : DMat) = colMat t := rfl
  have e2 : (⟨n, 1, fun i _ => ys i⟩ : DMat) = colMat ys := rfl
  rw [e1, e2, h3.trans h2]
  dsimp only
  unfold cmom
  simp only [exps, show (2 : ℕ) < 3 from by norm_num, if_true, show ({} : FitArgs).option = 1 from rfl, pow_one, avg_of_sum_zero ht,
    avg_of_sum_zero hy, sub_zero, mul_one, show 3 - 1 = 2 from rfl]
  rfl

def sqX : Fin 4 → Fin 2 → ℝ := ![![2, 0], ![-2, 0], ![0, 1], ![0, -1]]
def sqY : Fin 4 → ℝ := ![-1, -1, 1, 1]

lemma sqIndex (v : Fin 2 → ℝ) : dicomoIndex2 m3Obj {} sqY (projE sqX v) = (v 1 ^ 2 - 4 * v 0 ^ 2) / 2 := by
  rw [dicomoIndex2_m3 (by norm_num)]
  · simp [sqX, sqY, projE, Fin.sum_univ_succ]
    ring
  · simp [sqY, Fin.sum_univ_succ]
  · simp [sqX, projE, Fin.sum_univ_succ]

noncomputable def sqPr (find : {n p : ℕ} → (Fin n → Fin p → ℝ) → (Fin p → ℝ)) : PpParams :=
  { nComponents := 1, trimming := 0, optimizer := .ext find, centre := .mean, centerData := true, scaleData := false, squarePi := true }

/-- C129 is violated by the optimisers other than the grid, however good they are.  With the third co-moment as projection index, `square_pi=True` and
*any* optimiser that solves the problem that it is given exactly, the fit of these data succeeds, and the square of the index in
the direction found is 1/4, whereas it is 4 in the direction of the first variable. -/
theorem C129_optimiser_violated (find : {n p : ℕ} → (Fin n → Fin p → ℝ) → (Fin p → ℝ))
    (hs : SolvesOnSphere (ppObjective (dicomoIndex2 m3Obj {} sqY) sqX) (find sqX)) (pinv : Pinv) :
    ∃ (f : PpFit 4 2) (c : PpComp 4 2), ppFit (sqPr find) pinv .ols (dicomoIndex2 m3Obj {}) sqX sqY = .ok f ∧ f.comps = [c] ∧
      criterion (dicomoIndex2 m3Obj {} sqY) true (projectOn sqX c.w) = 1 / 4 ∧
      UnitLen (![1, 0] : Fin 2 → ℝ) ∧ criterion (dicomoIndex2 m3Obj {} sqY) true (projectOn sqX ![1, 0]) = 4 := by
  have hm : ∀ k, ppMean 0 (fun i => sqX i k) = 0 := by
    intro k
    rw [ppMean_zero, mean_eq]
    fin_cases k <;> simp [sqX, Fin.sum_univ_succ]
  have hmy : ppMean 0 sqY = 0 := by
    rw [ppMean_zero, mean_eq]
    simp [sqY, Fin.sum_univ_succ]
  set w := find sqX with hw
  have hu : w 0 ^ 2 + w 1 ^ 2 = 1 := by
    have := hs.1
    unfold UnitLen at this
    rwa [Fin.sum_univ_two] at this
  have h1 := hs.2 ![0, 1] (by simp [UnitLen, Fin.sum_univ_succ])
  unfold ppObjective at h1
  rw [sqIndex, sqIndex] at h1
  simp at h1
  have hw0 : w 0 = 0 := by
    have : w 0 ^ 2 = 0 := le_antisymm (by nlinarith [sq_nonneg (w 0)]) (sq_nonneg _)
    exact pow_eq_zero_iff two_ne_zero |>.mp this
  have hw1 : w 1 ^ 2 = 1 := by rw [hw0] at hu; linarith
  have hn1 : Real.sqrt (∑ k, w k ^ 2) = 1 := by rw [Fin.sum_univ_two, hu, Real.sqrt_one]
  have hd : ppDirection (.ext find) (dicomoIndex2 m3Obj {} sqY) true sqX = .ok (w, dicomoIndex2 m3Obj {} sqY (projE sqX w)) := by
    unfold ppDirection
    simp only [← hw, hn1, one_ne_zero, if_false, div_one]
  have hsp : ∑ i, projE sqX w i ^ 2 = 2 := by
    simp [projE, sqX, Fin.sum_univ_succ, hw0, hw1]
    norm_num
  have hX : (if (sqPr find).centerData = true then
        scaleMat sqX (fun k => if (sqPr find).centerData = true then (sqPr find).centre.loc (sqPr find).trimming fun i => sqX i k else 0) fun k =>
          if (sqPr find).centerData = true then (sqPr find).centre.sca (sqPr find).scaleData (sqPr find).trimming fun i => sqX i k else 1
      else sqX) = sqX := by
    split
    · funext i k
      simp only [scaleMat]
      simp [sqPr, PpCentre.loc, PpCentre.sca, hm]
    · rfl
  have hY : (if (sqPr find).centerData = true then (fun i => scaleMat (asCol sqY) (fun _ => if (sqPr find).centerData = true then (sqPr find).centre.loc (sqPr find).trimming sqY else 0)
      (fun _ => if (sqPr find).centerData = true then (sqPr find).centre.sca (sqPr find).scaleData (sqPr find).trimming sqY else 1) i 0) else sqY) = sqY := by
    split
    · funext i
      simp only [scaleMat]
      simp [sqPr, PpCentre.loc, PpCentre.sca, hmy, asCol]
    · rfl
  have hl : ppLoop (sqPr find).optimizer (dicomoIndex2 m3Obj {} sqY) (sqPr find).squarePi (PpReg.ols.run sqY sqY) (sqPr find).nComponents sqX =
      .ok [⟨w, fun k => (∑ i, sqX i k * projE sqX w i) / ∑ i, projE sqX w i ^ 2, projE sqX w, PpReg.ols.run sqY sqY (projE sqX w),
        dicomoIndex2 m3Obj {} sqY (projE sqX w), evalIdx (dicomoIndex2 m3Obj {} sqY) true (projE sqX w)⟩] := by
    show ppLoop (.ext find) (dicomoIndex2 m3Obj {} sqY) true (PpReg.ols.run sqY sqY) (0 + 1) sqX = _
    rw [ppLoop, hd]
    dsimp only
    rw [if_neg (by rw [hsp]; norm_num), ppLoop]
  unfold ppFit
  rw [if_neg (by simp [sqPr]), if_neg (by simp [sqPr, trimOk]; norm_num)]
  dsimp only
  rw [hX, hY, hl]
  dsimp only
  rw [if_neg (by simp [sqPr, PpCentre.sca])]
  refine ⟨_, _, rfl, rfl, ?_, by simp [UnitLen, Fin.sum_univ_succ], ?_⟩
  · show (if true then dicomoIndex2 m3Obj {} sqY (projE sqX w) ^ 2 else _) = _
    rw [if_pos rfl, sqIndex, hw0, hw1]
    norm_num
  · show (if true then dicomoIndex2 m3Obj {} sqY (projE sqX ![1, 0]) ^ 2 else _) = _
    rw [if_pos rfl, sqIndex]
    simp
    norm_num

/-- There is such an optimiser. -/
example : ∃ find : {n p : ℕ} → (Fin n → Fin p → ℝ) → (Fin p → ℝ), SolvesOnSphere (ppObjective (dicomoIndex2 m3Obj {} sqY) sqX) (find sqX) := by
  refine ⟨fun {n p} _ (k : Fin p) => if k.1 = 1 then 1 else 0, by unfold UnitLen; rw [Fin.sum_univ_two]; simp, fun v hv => ?_⟩
  unfold ppObjective
  rw [sqIndex, sqIndex]
  unfold UnitLen at hv
  rw [Fin.sum_univ_two] at hv
  simp
  nlinarith [sq_nonneg (v 0)]

end Direpack
