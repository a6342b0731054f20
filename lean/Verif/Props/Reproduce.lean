import Mathlib.LinearAlgebra.Matrix.Rank
import Verif.Spec.Reproduce
import Verif.Props.PPDireCCA
import Verif.Props.Krylov
import Verif.Props.PPDireHist

/-! Properties C186 and C187: scores and loadings reproduce the predictors; with all components nothing is lost. -/

namespace Direpack

open scoped BigOperators
open Spec

variable {n p : ℕ}

/-! ### Orthogonal scores -/

/-- What the least squares coefficients leave over, compared with any other coefficients. -/
lemma orth_split {h : ℕ} {T : Fin n → Fin h → ℝ} (ho : PairwiseOrthogonal T) (hnz : ∀ a, ∑ i, T i a ^ 2 ≠ 0) (z : Fin n → ℝ) {q : Fin h → ℝ}
    (hq : ∀ a, q a = (∑ i, z i * T i a) / ∑ i, T i a ^ 2) (b : Fin h → ℝ) :
    ∑ i, (z i - ∑ a, T i a * b a) ^ 2 = ∑ i, (z i - ∑ a, T i a * q a) ^ 2 + ∑ a, (q a - b a) ^ 2 * ∑ i, T i a ^ 2 := by
  have hres : ∀ a, ∑ i, (z i - ∑ c, T i c * q c) * T i a = 0 := by
    intro a
    have h1 : ∑ i, (z i - ∑ c, T i c * q c) * T i a = ∑ i, z i * T i a - ∑ c, q c * ∑ i, T i c * T i a := by
      simp only [sub_mul, Finset.sum_sub_distrib, Finset.sum_mul, Finset.mul_sum]
      congr 1
      rw [Finset.sum_comm]
      exact Finset.sum_congr rfl fun c _ => Finset.sum_congr rfl fun i _ => by ring
    rw [h1, Finset.sum_eq_single a (fun c _ hc => by rw [ho c a hc, mul_zero]) (by simp), hq a]
    simp only [← pow_two]
    rw [div_mul_cancel₀ _ (hnz a), sub_self]
  have hsq : ∑ i, (∑ a, T i a * (q a - b a)) ^ 2 = ∑ a, (q a - b a) ^ 2 * ∑ i, T i a ^ 2 := by
    have h1 : ∑ i, (∑ a, T i a * (q a - b a)) ^ 2 = ∑ a, ∑ c, (q a - b a) * (q c - b c) * ∑ i, T i a * T i c := by
      calc ∑ i, (∑ a, T i a * (q a - b a)) ^ 2 = ∑ i, ∑ a, ∑ c, T i a * (q a - b a) * (T i c * (q c - b c)) :=
            Finset.sum_congr rfl fun i _ => by rw [pow_two, Finset.sum_mul_sum]
        _ = ∑ a, ∑ i, ∑ c, T i a * (q a - b a) * (T i c * (q c - b c)) := Finset.sum_comm
        _ = _ := Finset.sum_congr rfl fun a _ => by
            rw [Finset.sum_comm]
            exact Finset.sum_congr rfl fun c _ => by rw [Finset.mul_sum]; exact Finset.sum_congr rfl fun i _ => by ring
    rw [h1]
    refine Finset.sum_congr rfl fun a _ => ?_
    rw [Finset.sum_eq_single a (fun c _ hc => by rw [ho a c hc.symm, mul_zero]) (by simp)]
    simp only [pow_two]
  have e : ∀ i, z i - ∑ a, T i a * b a = (z i - ∑ a, T i a * q a) + ∑ a, T i a * (q a - b a) := by
    intro i
    simp only [mul_sub, Finset.sum_sub_distrib]
    ring
  have hx : ∑ i, (z i - ∑ a, T i a * q a) * ∑ a, T i a * (q a - b a) = 0 := by
    simp only [Finset.mul_sum]
    rw [Finset.sum_comm]
    refine Finset.sum_eq_zero fun a _ => ?_
    calc ∑ i, (z i - ∑ c, T i c * q c) * (T i a * (q a - b a)) = (∑ i, (z i - ∑ c, T i c * q c) * T i a) * (q a - b a) := by
          rw [Finset.sum_mul]; exact Finset.sum_congr rfl fun i _ => by ring
      _ = 0 := by rw [hres, zero_mul]
  rw [← hsq]
  calc ∑ i, (z i - ∑ a, T i a * b a) ^ 2 = ∑ i, ((z i - ∑ a, T i a * q a) ^ 2 + (∑ a, T i a * (q a - b a)) ^ 2 + 2 * ((z i - ∑ a, T i a * q a) * ∑ a, T i a * (q a - b a))) :=
        Finset.sum_congr rfl fun i _ => by rw [e i]; ring
    _ = _ := by rw [Finset.sum_add_distrib, Finset.sum_add_distrib, ← Finset.mul_sum, hx]; ring

lemma orth_rank {h : ℕ} {T : Fin n → Fin h → ℝ} (ho : PairwiseOrthogonal T) (hnz : ∀ a, ∑ i, T i a ^ 2 ≠ 0) : (Matrix.of T).rank = h := by
  have h1 := Matrix.rank_transpose_mul_self (Matrix.of T)
  have hd : (Matrix.of T).transpose * Matrix.of T = Matrix.diagonal fun a => ∑ i, T i a ^ 2 := by
    ext a c
    rw [Matrix.mul_apply]
    by_cases hac : a = c
    · subst hac
      simp [pow_two]
    · rw [Matrix.diagonal_apply_ne _ hac]
      exact ho a c hac
  have hu : IsUnit ((Matrix.of T).transpose * Matrix.of T) := by
    rw [Matrix.isUnit_iff_isUnit_det, hd, Matrix.det_diagonal]
    exact isUnit_iff_ne_zero.mpr (Finset.prod_ne_zero_iff.mpr fun a _ => hnz a)
  rw [← h1, Matrix.rank_of_isUnit _ hu, Fintype.card_fin]

/-- As many independent combinations of the columns as the rank give the columns back. -/
lemma cols_of_rank {h : ℕ} {T : Fin n → Fin h → ℝ} {Z : Fin n → Fin p → ℝ} (hT : (Matrix.of T).rank = h) {V : Matrix (Fin p) (Fin h) ℝ} (hV : Matrix.of Z * V = Matrix.of T) :
    h ≤ (Matrix.of Z).rank ∧ ((Matrix.of Z).rank ≤ h → ∀ j, ∃ u : Fin h → ℝ, ∀ i, Z i j = ∑ a, T i a * u a) := by
  have hle : LinearMap.range (Matrix.of T).mulVecLin ≤ LinearMap.range (Matrix.of Z).mulVecLin := by
    rintro v ⟨u, rfl⟩
    exact ⟨V.mulVec u, by simp only [Matrix.mulVecLin_apply, Matrix.mulVec_mulVec, hV]⟩
  have h1 : h ≤ (Matrix.of Z).rank := by
    rw [← hT]
    unfold Matrix.rank
    exact Submodule.finrank_mono hle
  refine ⟨h1, fun hr j => ?_⟩
  have heq : LinearMap.range (Matrix.of T).mulVecLin = LinearMap.range (Matrix.of Z).mulVecLin := by
    apply Submodule.eq_of_le_of_finrank_le hle
    unfold Matrix.rank at hr hT
    rw [hT]
    exact hr
  have hmem : (Matrix.of Z).mulVec (Pi.single j 1) ∈ LinearMap.range (Matrix.of T).mulVecLin := by rw [heq]; exact ⟨_, rfl⟩
  obtain ⟨u, hu⟩ := hmem
  refine ⟨u, fun i => ?_⟩
  have := congrFun hu i
  rw [Matrix.mulVec_single_one] at this
  simp only [Matrix.mulVecLin_apply, Matrix.mulVec, dotProduct] at this
  exact this.symm

/-! ### The component loop of ppdire -/

/-- Loadings in terms of the data the loop started from. -/
lemma ppLoop_load {opt : PpOptimizer} {φ : (Fin n → ℝ) → ℝ} {sq : Bool} {reg : (Fin n → ℝ) → ℝ} :
    ∀ (h : ℕ) (E : Fin n → Fin p → ℝ) (l : List (PpComp n p)), ppLoop opt φ sq reg h E = .ok l →
      ∀ c ∈ l, ∀ k, c.load k = (∑ i, E i k * c.t i) / ∑ i, c.t i ^ 2 := by
  intro h
  induction h with
  | zero =>
    intro E l hl
    simp only [ppLoop, Except.ok.injEq] at hl
    subst hl
    simp
  | succ h ih =>
    intro E l hl
    have hI := (ppLoop_inv _ _ _ hl).2
    obtain ⟨c, l', rfl, -, -, -, hload, -, -, hrest⟩ := ppLoop_cons hl
    intro d hd k
    rcases List.mem_cons.mp hd with rfl | hd
    · exact hload k
    · rw [ih _ _ hrest d hd k]
      congr 1
      have h0 : ∑ i, c.t i * d.t i = 0 := (List.pairwise_cons.mp hI.orth).1 d hd
      calc ∑ i, (E i k - c.t i * c.load k) * d.t i = ∑ i, E i k * d.t i - c.load k * ∑ i, c.t i * d.t i := by
            rw [Finset.mul_sum, ← Finset.sum_sub_distrib]; exact Finset.sum_congr rfl fun i _ => by ring
        _ = _ := by rw [h0, mul_zero, sub_zero]

lemma PpInv.orthT {E : Fin n → Fin p → ℝ} {reg : (Fin n → ℝ) → ℝ} {l : List (PpComp n p)} (hI : PpInv E reg l) : PairwiseOrthogonal fun i a => ppT l i a := by
  intro a b hab
  rcases lt_or_gt_of_ne hab with hlt | hgt
  · exact List.pairwise_iff_get.mp hI.orth a b hlt
  · have := List.pairwise_iff_get.mp hI.orth b a hgt
    rw [← this]
    exact Finset.sum_congr rfl fun i _ => mul_comm _ _

/-- Everything about scores and loadings that the loop gives. -/
lemma PpInv.reproduce {reg : (Fin n → ℝ) → ℝ} {E : Fin n → Fin p → ℝ} {l : List (PpComp n p)} (hI : PpInv E reg l)
    (hld : ∀ c ∈ l, ∀ k, c.load k = (∑ i, E i k * c.t i) / ∑ i, c.t i ^ 2) :
    (∀ j b, leftOver E (fun i a => ppT l i a) j b = leftOver E (fun i a => ppT l i a) j (fun a => ppP l j a) + ∑ a, (ppP l j a - b a) ^ 2 * ∑ i, ppT l i a ^ 2) ∧
      l.length ≤ (Matrix.of E).rank ∧ ((Matrix.of E).rank ≤ l.length → ∀ j, ∃ u : Fin l.length → ℝ, ∀ i, E i j = ∑ a, ppT l i a * u a) := by
  have hnz : ∀ a, ∑ i, ppT l i a ^ 2 ≠ 0 := fun a => hI.nz _ (List.get_mem _ _)
  refine ⟨fun j b => orth_split hI.orthT hnz _ (fun a => hld _ (List.get_mem l a) j) b, ?_⟩
  obtain ⟨pinv, hp⟩ := exists_pinv
  exact cols_of_rank (orth_rank hI.orthT hnz) (V := ppR pinv l) (ppScores_eq hp hI)

lemma ppLoop_reproduce {opt : PpOptimizer} {φ : (Fin n → ℝ) → ℝ} {sq : Bool} {reg : (Fin n → ℝ) → ℝ} {h : ℕ} {E : Fin n → Fin p → ℝ} {l : List (PpComp n p)}
    (hl : ppLoop opt φ sq reg h E = .ok l) :
    (∀ j b, leftOver E (fun i a => ppT l i a) j b = leftOver E (fun i a => ppT l i a) j (fun a => ppP l j a) + ∑ a, (ppP l j a - b a) ^ 2 * ∑ i, ppT l i a ^ 2) ∧
      l.length ≤ (Matrix.of E).rank ∧ ((Matrix.of E).rank ≤ l.length → ∀ j, ∃ u : Fin l.length → ℝ, ∀ i, E i j = ∑ a, ppT l i a * u a) :=
  (ppLoop_inv _ _ _ hl).2.reproduce (ppLoop_load _ _ _ hl)

/-! ### C186: ppdire -/

lemma ppFit_loop {pr : PpParams} {pinv : Pinv} {rg : PpReg} {φ : (Fin n → ℝ) → (Fin n → ℝ) → ℝ} {X : Fin n → Fin p → ℝ} {y : Fin n → ℝ} {f : PpFit n p}
    (h : ppFit pr pinv rg φ X y = .ok f) : ∃ φ' reg, ppLoop pr.optimizer φ' pr.squarePi reg pr.nComponents (stdMat X f.xLoc f.xSca) = .ok f.comps := by
  obtain ⟨Xs, ys, hXs, -, hmX, hsX, -, -, -, -, hl, -⟩ := ppFit_inv h
  have e : Xs = stdMat X f.xLoc f.xSca := by
    rw [hXs]
    by_cases hc : pr.centerData = true
    · rw [if_pos hc, scaleMat_eq]
    · rw [if_neg hc, hmX, hsX]
      funext i k
      simp [stdMat, std1, hc]
  rw [← e]
  exact ⟨_, _, hl⟩

/-- **C186.** Scores times loadings of a ppdire model are the best approximation of the standardised predictors by combinations of the scores, variable by variable, for
every optimiser, index and regression. -/
theorem C186_ppdire (pr : PpParams) (pinv : Pinv) (rg : PpReg) (φ : (Fin n → ℝ) → (Fin n → ℝ) → ℝ) (X : Fin n → Fin p → ℝ) (y : Fin n → ℝ) (f : PpFit n p)
    (h : ppFit pr pinv rg φ X y = .ok f) (j : Fin p) (b : Fin f.comps.length → ℝ) :
    leftOver (stdMat X f.xLoc f.xSca) (fun i a => ppT f.comps i a) j (fun a => ppP f.comps j a) ≤ leftOver (stdMat X f.xLoc f.xSca) (fun i a => ppT f.comps i a) j b := by
  obtain ⟨φ', reg, hl⟩ := ppFit_loop h
  rw [(ppLoop_reproduce hl).1 j b]
  exact le_add_of_nonneg_right (Finset.sum_nonneg fun a _ => mul_nonneg (sq_nonneg _) (Finset.sum_nonneg fun i _ => sq_nonneg _))

/-- **C186**, parts: the sum of squares of a standardised variable is the sum of what the components explain of it and what is left over. -/
theorem C186_ppdire_parts (pr : PpParams) (pinv : Pinv) (rg : PpReg) (φ : (Fin n → ℝ) → (Fin n → ℝ) → ℝ) (X : Fin n → Fin p → ℝ) (y : Fin n → ℝ) (f : PpFit n p)
    (h : ppFit pr pinv rg φ X y = .ok f) (j : Fin p) :
    ∑ i, stdMat X f.xLoc f.xSca i j ^ 2 = (∑ a, ppP f.comps j a ^ 2 * ∑ i, ppT f.comps i a ^ 2) +
      leftOver (stdMat X f.xLoc f.xSca) (fun i a => ppT f.comps i a) j (fun a => ppP f.comps j a) := by
  obtain ⟨φ', reg, hl⟩ := ppFit_loop h
  have := (ppLoop_reproduce hl).1 j 0
  have e : leftOver (stdMat X f.xLoc f.xSca) (fun i a => ppT f.comps i a) j 0 = ∑ i, stdMat X f.xLoc f.xSca i j ^ 2 := by simp [leftOver]
  rw [← e, this, add_comm]
  simp

/-- A smallest sum of squares that is zero. -/
lemma leftOver_zero {h : ℕ} {Z : Fin n → Fin p → ℝ} {T : Fin n → Fin h → ℝ} {j : Fin p} {q u : Fin h → ℝ} (hle : leftOver Z T j q ≤ leftOver Z T j u)
    (hu : ∀ i, Z i j = ∑ a, T i a * u a) (i : Fin n) : Z i j = ∑ a, T i a * q a := by
  have h0 : leftOver Z T j u = 0 := Finset.sum_eq_zero fun i _ => by rw [← hu, sub_self]; ring
  have h1 : leftOver Z T j q = 0 := le_antisymm (h0 ▸ hle) (Finset.sum_nonneg fun i _ => sq_nonneg _)
  have := (Finset.sum_eq_zero_iff_of_nonneg fun i _ => sq_nonneg _).mp h1 i (Finset.mem_univ i)
  exact sub_eq_zero.mp (pow_eq_zero_iff two_ne_zero |>.mp this)

/-- **C186**, all components: there are never more components than the rank of the standardised predictors, and with that many the predictors are reproduced exactly. -/
theorem C186_ppdire_full (pr : PpParams) (pinv : Pinv) (rg : PpReg) (φ : (Fin n → ℝ) → (Fin n → ℝ) → ℝ) (X : Fin n → Fin p → ℝ) (y : Fin n → ℝ) (f : PpFit n p)
    (h : ppFit pr pinv rg φ X y = .ok f) :
    pr.nComponents ≤ (Matrix.of (stdMat X f.xLoc f.xSca)).rank ∧
      (pr.nComponents = (Matrix.of (stdMat X f.xLoc f.xSca)).rank → ∀ i j, stdMat X f.xLoc f.xSca i j = ∑ a, ppT f.comps i a * ppP f.comps j a) := by
  obtain ⟨φ', reg, hl⟩ := ppFit_loop h
  have hlen := (ppLoop_inv _ _ _ hl).1
  obtain ⟨-, h2, h3⟩ := ppLoop_reproduce hl
  refine ⟨hlen ▸ h2, fun hr i j => ?_⟩
  obtain ⟨u, hu⟩ := h3 (by rw [hlen, hr]) j
  exact leftOver_zero (C186_ppdire pr pinv rg φ X y f h j u) hu i

/-- **C186** for fits without a response. -/
theorem C186_ppdire_one_block (pr : PpParams) (pinv : Pinv) (φ : (Fin n → ℝ) → ℝ) (X : Fin n → Fin p → ℝ) (f : PpFit1 n p) (h : ppFit1 pr pinv φ X = .ok f) :
    (∀ j b, leftOver (stdMat X f.xLoc f.xSca) (fun i a => ppT f.comps i a) j (fun a => ppP f.comps j a) ≤ leftOver (stdMat X f.xLoc f.xSca) (fun i a => ppT f.comps i a) j b) ∧
      pr.nComponents ≤ (Matrix.of (stdMat X f.xLoc f.xSca)).rank ∧
      (pr.nComponents = (Matrix.of (stdMat X f.xLoc f.xSca)).rank → ∀ i j, stdMat X f.xLoc f.xSca i j = ∑ a, ppT f.comps i a * ppP f.comps j a) := by
  obtain ⟨l, hl, hco, -, -, hloc, hsca⟩ := ppFit1_inv h
  have e : (if pr.centerData then scaleMat X f.xLoc f.xSca else X) = stdMat X f.xLoc f.xSca := by
    by_cases hc : pr.centerData = true
    · rw [if_pos hc, scaleMat_eq]
    · rw [if_neg hc, hloc, hsca]
      funext i k
      simp [stdMat, std1, hc]
  rw [e] at hl
  obtain ⟨hlen, hI⟩ := ppLoop_inv _ _ _ hl
  have hI' := hI.map_crit
  rw [← hco] at hI'
  have hld : ∀ c ∈ f.comps, ∀ k, c.load k = (∑ i, stdMat X f.xLoc f.xSca i k * c.t i) / ∑ i, c.t i ^ 2 := by
    intro c hc k
    rw [hco] at hc
    obtain ⟨d, hd, rfl⟩ := List.mem_map.mp hc
    exact ppLoop_load _ _ _ hl d hd k
  have hlen' : f.comps.length = pr.nComponents := by rw [hco, List.length_map, hlen]
  obtain ⟨h1, h2, h3⟩ := hI'.reproduce hld
  have hle : ∀ j b, leftOver (stdMat X f.xLoc f.xSca) (fun i a => ppT f.comps i a) j (fun a => ppP f.comps j a) ≤
      leftOver (stdMat X f.xLoc f.xSca) (fun i a => ppT f.comps i a) j b := by
    intro j b
    rw [h1 j b]
    exact le_add_of_nonneg_right (Finset.sum_nonneg fun a _ => mul_nonneg (sq_nonneg _) (Finset.sum_nonneg fun i _ => sq_nonneg _))
  refine ⟨hle, hlen' ▸ h2, fun hr i j => ?_⟩
  obtain ⟨u, hu⟩ := h3 (by rw [hlen', hr]) j
  exact leftOver_zero (hle j u) hu i

/-- The hypotheses can be met: two components for a table of rank two. -/
example : ∃ (pinv : Pinv) (f : PpFit 3 2), ppFit (ppExPr true) pinv .ols (fun _ t => t 0) ppExX ![1, 5, 2] = .ok f ∧
    (ppExPr true).nComponents = (Matrix.of (stdMat ppExX f.xLoc f.xSca)).rank := by
  obtain ⟨pinv, -⟩ := exists_pinv
  obtain ⟨f, hf⟩ := ppExFit true pinv .ols (fun _ t => t 0) ![1, 5, 2]
  refine ⟨pinv, f, hf, le_antisymm (C186_ppdire_full _ _ _ _ _ _ _ hf).1 ?_⟩
  exact (Matrix.rank_le_width _).trans (by simp [ppExPr])

/-! ### C186: SNIPLS -/

lemma snT_orth {eta : ℝ} {Z : Fin n → Fin p → ℝ} {v : Fin n → ℝ} {l : List (SnComp n p)} (h : SnRun eta (Matrix.of Z) v ∅ l) :
    PairwiseOrthogonal (fun i a => compT l i a) ∧ ∀ a, ∑ i, compT l i a ^ 2 ≠ 0 := by
  constructor
  · intro a b hab
    have hg := congrFun (congrFun h.T_gram a) b
    rw [Matrix.diagonal_apply_ne _ hab, Matrix.mul_apply] at hg
    exact hg
  · intro a
    have := h.nz _ (List.get_mem l a)
    simp only [dotProduct, ← pow_two] at this
    exact this

/-- **C186** for SNIPLS (partial: variables that are retained from the first component on): scores times loadings are the best approximation of the standardised variable. -/
theorem C186_snipls_partial {pr : SnParams} {X : Fin n → Fin p → ℝ} {y : Fin n → ℝ} {f : SnFit n p} (h : snFit pr X y = .ok f) (j : Fin p)
    (hj : ∀ c ∈ f.comps, j ∈ c.good) (b : Fin f.comps.length → ℝ) :
    leftOver (stdMat X f.xLoc f.xSca) (fun i a => compT f.comps i a) j (fun a => compP f.comps j a) ≤ leftOver (stdMat X f.xLoc f.xSca) (fun i a => compT f.comps i a) j b := by
  have hrun := snFit_run h
  obtain ⟨ho, hnz⟩ := snT_orth hrun
  have hq : ∀ a, compP f.comps j a = (∑ i, stdMat X f.xLoc f.xSca i j * compT f.comps i a) / ∑ i, compT f.comps i a ^ 2 := by
    intro a
    have := hrun.load_eq _ (List.get_mem f.comps a) j (hj _ (List.get_mem f.comps a))
    change (f.comps.get a).load j = _
    rw [this]
    simp only [Matrix.vecMul, dotProduct, Matrix.of_apply, ← pow_two]
    congr 1
    exact Finset.sum_congr rfl fun i _ => mul_comm _ _
  unfold leftOver
  rw [orth_split ho hnz (fun i => stdMat X f.xLoc f.xSca i j) hq b]
  exact le_add_of_nonneg_right (Finset.sum_nonneg fun a _ => mul_nonneg (sq_nonneg _) (Finset.sum_nonneg fun i _ => sq_nonneg _))

/-- **C186** for SNIPLS with as many components as the rank (partial in the same way): the variable is reproduced exactly. -/
theorem C186_snipls_full_partial {pr : SnParams} {X : Fin n → Fin p → ℝ} {y : Fin n → ℝ} {f : SnFit n p} (h : snFit pr X y = .ok f) (j : Fin p)
    (hj : ∀ c ∈ f.comps, j ∈ c.good) (hr : (Matrix.of (stdMat X f.xLoc f.xSca)).rank ≤ f.comps.length) (i : Fin n) :
    stdMat X f.xLoc f.xSca i j = ∑ a, compT f.comps i a * compP f.comps j a := by
  have hrun := snFit_run h
  obtain ⟨ho, hnz⟩ := snT_orth hrun
  have hV : Matrix.of (stdMat X f.xLoc f.xSca) * (compW f.comps * (snQ (Matrix.of (stdMat X f.xLoc f.xSca)) f.comps)⁻¹) = Matrix.of fun i a => compT f.comps i a := by
    rw [← Matrix.mul_assoc, hrun.mul_W, Matrix.mul_assoc, Matrix.mul_nonsing_inv _ (isUnit_iff_ne_zero.2 (by rw [hrun.det_Q]; exact one_ne_zero)), Matrix.mul_one]
    rfl
  obtain ⟨u, hu⟩ := (cols_of_rank (orth_rank ho hnz) hV).2 hr j
  exact leftOver_zero (C186_snipls_partial h j hj u) hu i

/-- The hypotheses can be met: two components, both variables retained in both. -/
example : ∃ f : SnFit 2 2, snFit ⟨0, 2, .noneOpt, .noneOpt⟩ (![![2, 0], ![0, 1]] : Fin 2 → Fin 2 → ℝ) ![2, 3] = .ok f ∧ (∀ j, ∀ c ∈ f.comps, j ∈ c.good) ∧
    (Matrix.of (stdMat (![![2, 0], ![0, 1]] : Fin 2 → Fin 2 → ℝ) f.xLoc f.xSca)).rank ≤ f.comps.length := by
  obtain ⟨f, hf, hc⟩ := snFit_of_loop ⟨0, 2, .noneOpt, .noneOpt⟩ (![![2, 0], ![0, 1]] : Fin 2 → Fin 2 → ℝ) ![2, 3] (by norm_num) (by norm_num) (by simp)
    (fun j => by simp [ScaleOpt.run]) _ (by
      have e1 : stdMat (![![2, 0], ![0, 1]] : Fin 2 → Fin 2 → ℝ) (Centre.noneOpt.run ![![2, 0], ![0, 1]]) (ScaleOpt.noneOpt.run ![![2, 0], ![0, 1]]) =
          ![![2, 0], ![0, 1]] := by
        funext i j; simp [stdMat, std1, Centre.run, ScaleOpt.run]
      have e2 : stdVec (![2, 3] : Fin 2 → ℝ) (Centre.noneOpt.run (asCol ![2, 3]) 0) (ScaleOpt.noneOpt.run (asCol ![2, 3]) 0) = ![2, 3] := by
        funext i; simp [stdVec, std1, Centre.run, ScaleOpt.run]
      rw [e1, e2]; exact sdLoop_pls)
  refine ⟨f, hf, ?_, (Matrix.rank_le_width _).trans (by rw [hc]; simp)⟩
  intro j c hcm
  rw [hc] at hcm
  fin_cases j <;> rcases List.mem_cons.mp hcm with rfl | hcm <;> first | (rcases List.mem_singleton.mp hcm with rfl; simp) | simp

/-- A variable that is uncorrelated with the response, but not with the other variable. -/
def lateX : Fin 2 → Fin 2 → ℝ := ![![1, 1], ![0, 1]]
def lateY : Fin 2 → ℝ := ![1, -1]

theorem lateLoop : snLoop 0 2 lateX lateY ∅ = .ok
    [⟨![1, 0], ![1, 0], 1, ![1, 0], {0}⟩, ⟨![0, -1], ![0, -1], 1, ![0, -1], {0, 1}⟩] := by
  have hw1 : snWeights 0 lateX lateY = (![1, 0], ![1, 0]) := by
    have hs : ∀ j, ∑ i, lateX i j * lateY i = ![1, 0] j := by
      intro j; fin_cases j <;> simp [Fin.sum_univ_two, lateX, lateY]
    have hn : Real.sqrt (∑ j : Fin 2, (![1, 0] j : ℝ) ^ 2) = 1 := by simp [Fin.sum_univ_two]
    simp only [snWeights, hs, hn]
    refine Prod.ext ?_ ?_ <;> funext j <;> fin_cases j <;> norm_num [abs_of_pos, npSign]
  have hw2 : snWeights 0 (![![0, 0], ![0, 1]] : Fin 2 → Fin 2 → ℝ) ![0, -1] = (![0, 1], ![0, -1]) := by
    have hs : ∀ j, ∑ i, (![![0, 0], ![0, 1]] : Fin 2 → Fin 2 → ℝ) i j * (![0, -1] : Fin 2 → ℝ) i = ![0, -1] j := by
      intro j; fin_cases j <;> simp [Fin.sum_univ_two]
    have hn : Real.sqrt (∑ j : Fin 2, (![0, -1] j : ℝ) ^ 2) = 1 := by simp [Fin.sum_univ_two]
    simp only [snWeights, hs, hn]
    refine Prod.ext ?_ ?_ <;> funext j <;> fin_cases j <;> norm_num [abs_of_pos, abs_of_neg, npSign]
  have h2 := snLoop_step (eta := 0) (h := 0) (X := ![![0, 0], ![0, 1]]) (y := ![0, -1]) (old := {0})
    (good := {0, 1}) (w := ![0, -1]) (t := ![0, -1]) (q := 1) (c := 1)
    (ph := ![0, -1]) (l := []) (X' := fun _ _ => 0) (y' := fun _ => 0)
    (by intro h; have := h 1; simp [Fin.sum_univ_two] at this) hw2
    (by ext j; fin_cases j <;> simp) (by simp)
    (by funext j; fin_cases j <;> simp)
    (by funext i; fin_cases i <;> simp [Fin.sum_univ_two])
    (by simp [Fin.sum_univ_two]) (by norm_num) (by simp [Fin.sum_univ_two])
    (by funext j; fin_cases j <;> simp [Fin.sum_univ_two])
    (by funext i j; fin_cases i <;> fin_cases j <;> simp)
    (by funext i; fin_cases i <;> simp) rfl
  have h1 := snLoop_step (eta := 0) (h := 1) (X := lateX) (y := lateY) (old := ∅)
    (good := {0}) (w := ![1, 0]) (t := ![1, 0]) (q := 1) (c := 1) (ph := ![1, 1])
    (X' := ![![0, 0], ![0, 1]]) (y' := ![0, -1])
    (by intro h; have := h 0; simp [Fin.sum_univ_two, lateX, lateY] at this) hw1
    (by ext j; fin_cases j <;> simp) (by simp)
    (by funext j; fin_cases j <;> simp)
    (by funext i; fin_cases i <;> simp [Fin.sum_univ_two, lateX])
    (by simp [Fin.sum_univ_two]) (by norm_num) (by simp [Fin.sum_univ_two, lateY])
    (by funext j; fin_cases j <;> simp [Fin.sum_univ_two, lateX])
    (by funext i j; fin_cases i <;> fin_cases j <;> simp [lateX])
    (by funext i; fin_cases i <;> simp [lateY]) h2
  rw [h1]
  refine congrArg Except.ok ?_
  congr! 2
  · congr 1
    funext j; fin_cases j <;> simp
  · congr 1
    funext j; fin_cases j <;> simp

/-- **C186** is violated for SNIPLS, even without sparsity: the second variable enters with the second component and its loading on the first is set to zero, although the
deflation has used another one.  With two components for two variables the table is not reproduced, although combinations of the scores give it exactly. -/
theorem C186_snipls_violated : ∃ f : SnFit 2 2, snFit ⟨0, 2, .noneOpt, .noneOpt⟩ lateX lateY = .ok f ∧ f.comps.length = 2 ∧
    stdMat lateX f.xLoc f.xSca 0 1 ≠ ∑ a, compT f.comps 0 a * compP f.comps 1 a ∧
    ∃ b, leftOver (stdMat lateX f.xLoc f.xSca) (fun i a => compT f.comps i a) 1 b <
      leftOver (stdMat lateX f.xLoc f.xSca) (fun i a => compT f.comps i a) 1 (fun a => compP f.comps 1 a) := by
  obtain ⟨f, hf, hc⟩ := snFit_of_loop ⟨0, 2, .noneOpt, .noneOpt⟩ lateX lateY (by norm_num) (by norm_num) (by simp)
    (fun j => by simp [ScaleOpt.run]) _ (by
      have e1 : stdMat lateX (Centre.noneOpt.run lateX) (ScaleOpt.noneOpt.run lateX) = lateX := by
        funext i j; simp [stdMat, std1, Centre.run, ScaleOpt.run]
      have e2 : stdVec lateY (Centre.noneOpt.run (asCol lateY) 0) (ScaleOpt.noneOpt.run (asCol lateY) 0) = lateY := by
        funext i; simp [stdVec, std1, Centre.run, ScaleOpt.run]
      rw [e1, e2]; exact lateLoop)
  obtain ⟨-, e1, e2, -⟩ := snFit_inv hf
  have e : stdMat lateX f.xLoc f.xSca = lateX := by
    rw [e1, e2]; funext i j; simp [stdMat, std1, Centre.run, ScaleOpt.run]
  refine ⟨f, hf, by rw [hc]; rfl, ?_⟩
  rw [e]
  clear hf e1 e2 e
  obtain ⟨comps, R, _, _, _, _, _, _, _, _, _⟩ := f
  dsimp only at hc
  subst hc
  refine ⟨?_, ![1, -1], ?_⟩
  · simp [compT, compP, lateX, Fin.sum_univ_two]
  · simp [leftOver, compT, compP, lateX, Fin.sum_univ_two]

end Direpack
