import Mathlib.LinearAlgebra.Matrix.NonsingularInverse
import Mathlib.Tactic.Linarith
import Verif.Spec.Nested
import Verif.Props.Snipls
import Verif.Props.PPDireExample
import Verif.Props.PPDireHist

/-! Properties C140 and C141: asking for more components keeps the earlier ones (SNIPLS and ppdire) and does not worsen the fit to the training data. -/

namespace Direpack

open scoped BigOperators
open Spec

variable {n p : ℕ}

/-! ### Lists and triangular systems -/

lemma prefix_get {α : Type} {l1 l2 : List α} (h : l1 <+: l2) (a : Fin l1.length) : l1.get a = l2.get (Fin.castLE h.length_le a) := by
  obtain ⟨t, rfl⟩ := h
  simp [List.getElem_append_left]

/-- The solution of an upper triangular system: the first columns depend only on the first columns. -/
lemma triangular_first {k m : ℕ} (R W : Matrix (Fin p) (Fin (k + m)) ℝ) (A : Matrix (Fin (k + m)) (Fin (k + m)) ℝ)
    (hA : ∀ a b, b < a → A a b = 0) (hR : R * A = W) (Rk Wk : Matrix (Fin p) (Fin k) ℝ) (Ak : Matrix (Fin k) (Fin k) ℝ)
    (hAk : ∀ a b, Ak a b = A (Fin.castAdd m a) (Fin.castAdd m b)) (hWk : ∀ i a, Wk i a = W i (Fin.castAdd m a)) (hRk : Rk * Ak = Wk)
    (hdet : IsUnit Ak.det) (i : Fin p) (a : Fin k) : Rk i a = R i (Fin.castAdd m a) := by
  have h : (Matrix.of fun i a => R i (Fin.castAdd m a)) * Ak = Wk := by
    ext i b
    rw [hWk, ← hR, Matrix.mul_apply, Matrix.mul_apply, Fin.sum_univ_add]
    have h0 : ∑ c : Fin m, R i (Fin.natAdd k c) * A (Fin.natAdd k c) (Fin.castAdd m b) = 0 := by
      refine Finset.sum_eq_zero fun c _ => ?_
      rw [hA _ _ (by rw [Fin.lt_def]; simp only [Fin.val_castAdd, Fin.val_natAdd]; omega), mul_zero]
    rw [h0, add_zero]
    exact Finset.sum_congr rfl fun c _ => by rw [hAk]; rfl
  have h2 : Rk = Matrix.of fun i a => R i (Fin.castAdd m a) := by
    rw [← hRk] at h
    calc Rk = Rk * Ak * Ak⁻¹ := (Matrix.mul_nonsing_inv_cancel_right _ _ hdet).symm
      _ = (Matrix.of fun i a => R i (Fin.castAdd m a)) * Ak * Ak⁻¹ := by rw [h]
      _ = _ := Matrix.mul_nonsing_inv_cancel_right _ _ hdet
  rw [h2]; rfl

lemma triangular_firstLE {k h : ℕ} (hk : k ≤ h) (R W : Matrix (Fin p) (Fin h) ℝ) (A : Matrix (Fin h) (Fin h) ℝ)
    (hA : ∀ a b, b < a → A a b = 0) (hR : R * A = W) (Rk Wk : Matrix (Fin p) (Fin k) ℝ) (Ak : Matrix (Fin k) (Fin k) ℝ)
    (hAk : ∀ a b, Ak a b = A (Fin.castLE hk a) (Fin.castLE hk b)) (hWk : ∀ i a, Wk i a = W i (Fin.castLE hk a)) (hRk : Rk * Ak = Wk)
    (hdet : IsUnit Ak.det) (i : Fin p) (a : Fin k) : Rk i a = R i (Fin.castLE hk a) := by
  obtain ⟨m, rfl⟩ := Nat.exists_eq_add_of_le hk
  exact triangular_first R W A hA hR Rk Wk Ak hAk hWk hRk hdet i a

/-- Multiplying from the left keeps the relation. -/
lemma firstColumns_mul {m q k h : ℕ} {A : Matrix (Fin q) (Fin k) ℝ} {B : Matrix (Fin q) (Fin h) ℝ} (H : FirstColumns A B) (Z : Matrix (Fin m) (Fin q) ℝ) :
    FirstColumns (Z * A) (Z * B) := by
  obtain ⟨hk, e⟩ := H
  exact ⟨hk, fun i a => by rw [Matrix.mul_apply, Matrix.mul_apply]; exact Finset.sum_congr rfl fun j _ => by rw [e]⟩

/-! ### SNIPLS -/

lemma snLoop_take {eta : ℝ} (h1 h2 : ℕ) (hh : h1 ≤ h2) (X : Fin n → Fin p → ℝ) (y : Fin n → ℝ) (old : Finset (Fin p))
    (l : List (SnComp n p)) (e : snLoop eta h2 X y old = .ok l) : snLoop eta h1 X y old = .ok (l.take h1) := by
  induction h1 generalizing h2 X y old l with
  | zero => simp [snLoop]
  | succ h1 ih =>
    obtain ⟨h2, rfl⟩ : ∃ k, h2 = k + 1 := ⟨h2 - 1, by omega⟩
    simp only [snLoop] at e ⊢
    split at e
    · rename_i hc
      rw [if_pos hc]
      split at e
      · rename_i h0
        rw [if_pos h0]
        simp only [Except.ok.injEq] at e; subst e; rfl
      · simp at e
    · rename_i hc
      rw [if_neg hc]
      split at e
      · rename_i hg
        rw [if_pos hg]
        simp only [Except.ok.injEq] at e; subst e; rfl
      · rename_i hg
        rw [if_neg hg]
        split at e
        · simp at e
        · rename_i hnz
          rw [if_neg hnz]
          split at e
          · simp at e
          · rename_i l' hl'
            simp only [Except.ok.injEq] at e
            subst e
            rw [ih h2 (by omega) _ _ _ _ hl']
            rfl

/-- The rotations of a SNIPLS model solve the triangular system of its weights and loadings. -/
lemma snFit_rot {pr : SnParams} {X : Fin n → Fin p → ℝ} {y : Fin n → ℝ} {f : SnFit n p} (h : snFit pr X y = .ok f) :
    f.R * ((compP f.comps).transpose * compW f.comps) = compW f.comps ∧ IsUnit ((compP f.comps).transpose * compW f.comps).det ∧
    ∀ a b, b < a → ((compP f.comps).transpose * compW f.comps) a b = 0 := by
  have hr := snFit_run h
  obtain ⟨_, _, _, _, _, _, _, hc, _⟩ := snFit_inv h
  rw [snCoef_ok hr] at hc
  have hu : IsUnit ((compP f.comps).transpose * compW f.comps).det := by rw [hr.det_PW]; exact isUnit_one
  refine ⟨?_, hu, ?_⟩
  · by_cases hlen : f.comps.length = 0
    · ext i a
      exact absurd a.2 (by omega)
    · rw [if_neg hlen] at hc
      simp only [Except.ok.injEq, Prod.mk.injEq] at hc
      rw [← hc.1, Matrix.mul_assoc, Matrix.nonsing_inv_mul _ hu, Matrix.mul_one]
  · intro a b hab
    rw [hr.PW_eq_of a b ((List.pairwise_iff_get.1 hr.support.2) b a hab)]
    simp only [snQ, Matrix.of_apply]
    rw [(List.pairwise_iff_get.1 hr.tri.1) b a hab, zero_div]

/-- C140 (SNIPLS): a model with fewer components exists whenever the larger one does; its weights, loadings, scores and rotations are the first columns of
those of the larger model, and so are the scores it gives to any data. -/
theorem C140_snipls {pr : SnParams} {X : Fin n → Fin p → ℝ} {y : Fin n → ℝ} {f : SnFit n p} (h : snFit pr X y = .ok f) (k : ℕ) (hk0 : 0 < k)
    (hk : k ≤ pr.nComponents) :
    ∃ g, snFit { pr with nComponents := k } X y = .ok g ∧ g.comps.length = min k f.comps.length ∧
      FirstColumns (compW g.comps) (compW f.comps) ∧ FirstColumns (compP g.comps) (compP f.comps) ∧ FirstColumns (compT g.comps) (compT f.comps) ∧
      (FirstEntries (fun a => (g.comps.get a).c) fun a => (f.comps.get a).c) ∧ FirstColumns g.R f.R ∧
      ∀ {m : ℕ} (Xn : Fin m → Fin p → ℝ), ∃ Tg Tf, g.transform Xn = .ok Tg ∧ f.transform Xn = .ok Tf ∧ FirstColumns Tg Tf := by
  obtain ⟨⟨he0, he1, -⟩, e1, e2, e3, e4, hs, hl, -⟩ := snFit_inv h
  have hl' := snLoop_take k pr.nComponents hk _ _ _ _ hl
  rw [e1, e2, e3, e4] at hl'
  obtain ⟨g, hg, hgc⟩ := snFit_of_loop { pr with nComponents := k } X y he0 he1 hk0 (by rw [e2] at hs; exact hs) _ hl'
  have hpre : g.comps <+: f.comps := by rw [hgc]; exact List.take_prefix _ _
  have hget := prefix_get hpre
  have hle := hpre.length_le
  obtain ⟨-, e1', e2', -⟩ := snFit_inv hg
  have hR : FirstColumns g.R f.R := by
    obtain ⟨a1, a2, a3⟩ := snFit_rot h
    obtain ⟨b1, b2, b3⟩ := snFit_rot hg
    refine ⟨hle, triangular_firstLE hle _ _ _ a3 a1 _ _ _ ?_ ?_ b1 b2⟩
    · intro a b
      rw [Matrix.mul_apply, Matrix.mul_apply]
      refine Finset.sum_congr rfl fun j _ => ?_
      simp only [Matrix.transpose_apply, compP, compW, Matrix.of_apply, hget]
    · intro i a
      simp only [compW, Matrix.of_apply, hget]
  refine ⟨g, hg, by rw [hgc, List.length_take], ⟨hle, fun i a => ?_⟩, ⟨hle, fun i a => ?_⟩, ⟨hle, fun i a => ?_⟩, ⟨hle, fun a => ?_⟩, hR, ?_⟩
  · simp only [compW, Matrix.of_apply, hget]
  · simp only [compP, Matrix.of_apply, hget]
  · simp only [compT, Matrix.of_apply, hget]
  · simp only [hget]
  · intro m Xn
    unfold SnFit.transform
    simp only [dite_true]
    refine ⟨_, _, rfl, rfl, ?_⟩
    have hloc : g.xLoc = f.xLoc := by rw [e1', e1]
    have hsca : g.xSca = f.xSca := by rw [e2', e2]
    rw [hloc, hsca]
    exact firstColumns_mul hR _

/-- Residuals orthogonal to the columns of `T` cannot be made smaller by adding a combination of the columns. -/
lemma rss_le_of_orth {h : ℕ} (T : Fin n → Fin h → ℝ) (r d : Fin n → ℝ) (q : Fin h → ℝ) (hr : ∀ a, ∑ i, r i * T i a = 0)
    (hd : ∀ i, d i = ∑ a, T i a * q a) : sumSquares r ≤ sumSquares fun i => r i + d i := by
  unfold sumSquares
  have h0 : ∑ i, r i * d i = 0 := by
    simp only [hd, Finset.mul_sum]
    rw [Finset.sum_comm]
    refine Finset.sum_eq_zero fun a _ => ?_
    have := hr a
    calc ∑ i, r i * (T i a * q a) = (∑ i, r i * T i a) * q a := by
          rw [Finset.sum_mul]; exact Finset.sum_congr rfl fun i _ => by ring
      _ = 0 := by rw [this, zero_mul]
  have h1 : ∑ i, (r i + d i) ^ 2 = ∑ i, r i ^ 2 + 2 * ∑ i, r i * d i + ∑ i, d i ^ 2 := by
    rw [Finset.mul_sum, ← Finset.sum_add_distrib, ← Finset.sum_add_distrib]
    exact Finset.sum_congr rfl fun i _ => by ring
  rw [h1, h0]
  have : 0 ≤ ∑ i, d i ^ 2 := Finset.sum_nonneg fun i _ => sq_nonneg _
  linarith

/-- A combination of the first columns is a combination of all columns. -/
lemma firstColumns_combination {m k h : ℕ} {A : Fin m → Fin k → ℝ} {B : Fin m → Fin h → ℝ} (H : FirstColumns A B) (q : Fin k → ℝ) :
    ∃ q' : Fin h → ℝ, ∀ i, ∑ a, A i a * q a = ∑ a, B i a * q' a := by
  obtain ⟨hk, e⟩ := H
  obtain ⟨m', rfl⟩ := Nat.exists_eq_add_of_le hk
  refine ⟨Fin.append q fun _ => 0, fun i => ?_⟩
  rw [Fin.sum_univ_add]
  simp only [Fin.append_left, Fin.append_right, mul_zero, Finset.sum_const_zero, add_zero]
  exact Finset.sum_congr rfl fun a _ => by rw [e]; rfl

/-- C141 (SNIPLS): with the mean as centre, or without centring, the residual sum of squares on the training data does not increase with the number of components. -/
theorem C141_snipls {pr : SnParams} (hc : pr.centre = .mean ∨ pr.centre = .noneOpt) (hn : 0 < n) {X : Fin n → Fin p → ℝ} {y : Fin n → ℝ} {f : SnFit n p}
    (h : snFit pr X y = .ok f) (k : ℕ) (hk0 : 0 < k) (hk : k ≤ pr.nComponents) :
    ∃ g, snFit { pr with nComponents := k } X y = .ok g ∧ sumSquares f.residuals ≤ sumSquares g.residuals := by
  obtain ⟨g, hg, -, -, -, hT, -, -, -⟩ := C140_snipls h k hk0 hk
  refine ⟨g, hg, ?_⟩
  obtain ⟨hf1, qf, hf2⟩ := C45_normal_equations h
  obtain ⟨-, qg, hg2⟩ := C45_normal_equations hg
  have hff := C46_original_scale hn h hc
  have hgf := C46_original_scale hn hg hc
  obtain ⟨-, e1, e2, e3, e4, -, -, -, -, -, -, hrf⟩ := snFit_inv h
  obtain ⟨-, e1', e2', e3', e4', -, -, -, -, -, -, hrg⟩ := snFit_inv hg
  have a1 : g.xLoc = f.xLoc := by rw [e1', e1]
  have a2 : g.xSca = f.xSca := by rw [e2', e2]
  have a3 : g.yLoc = f.yLoc := by rw [e3', e3]
  have a4 : g.ySca = f.ySca := by rw [e4', e4]
  rw [a1, a2] at hg2 hgf
  rw [a3, a4] at hgf
  by_cases hz : f.ySca = 0
  · have : f.residuals = g.residuals := by
      funext i
      rw [hrf, hrg, hff, hgf, hz, zero_mul, zero_mul]
    rw [this]
  · obtain ⟨q', hq'⟩ := firstColumns_combination hT qg
    have hr : ∀ i, f.residuals i = f.ySca * (stdVec y f.yLoc f.ySca i - lin (stdMat X f.xLoc f.xSca) f.coefScaled i) := by
      intro i
      rw [hrf, hff]
      simp only [stdVec, std1, if_neg hz]
      field_simp
      ring
    have hgr : g.residuals = fun i => f.residuals i + f.ySca * (∑ a, compT f.comps i a * (qf a - q' a)) := by
      funext i
      have : ∑ a, compT f.comps i a * (qf a - q' a) = lin (stdMat X f.xLoc f.xSca) f.coefScaled i - lin (stdMat X f.xLoc f.xSca) g.coefScaled i := by
        rw [hf2, hg2, hq', ← Finset.sum_sub_distrib]
        exact Finset.sum_congr rfl fun a _ => by ring
      rw [this, hrg, hgf, hrf, hff]
      ring
    rw [hgr]
    refine rss_le_of_orth (fun i a => compT f.comps i a) _ _ (fun a => f.ySca * (qf a - q' a)) (fun a => ?_) fun i => ?_
    · have := hf1 a
      unfold dot at this
      simp only [hr, mul_assoc, ← Finset.mul_sum]
      rw [this, mul_zero]
    · rw [Finset.mul_sum]
      exact Finset.sum_congr rfl fun a _ => by ring

/-! ### ppdire -/

lemma ppLoop_take {opt : PpOptimizer} {φ : (Fin n → ℝ) → ℝ} {sq : Bool} {reg : (Fin n → ℝ) → ℝ} (h1 h2 : ℕ) (hh : h1 ≤ h2) (E : Fin n → Fin p → ℝ)
    (l : List (PpComp n p)) (e : ppLoop opt φ sq reg h2 E = .ok l) : ppLoop opt φ sq reg h1 E = .ok (l.take h1) := by
  induction h1 generalizing h2 E l with
  | zero => simp [ppLoop]
  | succ h1 ih =>
    obtain ⟨h2, rfl⟩ : ∃ k, h2 = k + 1 := ⟨h2 - 1, by omega⟩
    rw [ppLoop] at e ⊢
    split at e
    · simp at e
    · rename_i w o hw
      dsimp only at e
      dsimp only
      split at e
      · simp at e
      · rename_i hn
        rw [if_neg hn]
        split at e
        · simp at e
        · rename_i l' hl'
          simp only [Except.ok.injEq] at e
          subst e
          rw [ih h2 (by omega) _ _ hl']
          rfl

/-- The rotations of a list of components solve the triangular system of its weights and loadings. -/
lemma ppR_rot {pinv : Pinv} (hp : IsGenInverse pinv) {E : Fin n → Fin p → ℝ} {reg : (Fin n → ℝ) → ℝ} {l : List (PpComp n p)} (hI : PpInv E reg l) :
    ppR pinv l * ((ppP l).transpose * ppW l) = ppW l ∧ IsUnit ((ppP l).transpose * ppW l).det ∧ ∀ a b, b < a → ((ppP l).transpose * ppW l) a b = 0 := by
  have hu : IsUnit ((ppP l).transpose * ppW l).det := by rw [ppPW_det hI]; exact isUnit_one
  refine ⟨?_, hu, fun a b hab => ?_⟩
  · rw [ppR, pinv_of_det hp (ppPW_det hI), Matrix.mul_assoc, Matrix.nonsing_inv_mul _ hu, Matrix.mul_one]
  · have := List.pairwise_iff_get.mp hI.tri b a hab
    simpa [Matrix.mul_apply, ppP, ppW] using this

lemma ppR_first {pinv : Pinv} (hp : IsGenInverse pinv) {E : Fin n → Fin p → ℝ} {reg : (Fin n → ℝ) → ℝ} {l1 l2 : List (PpComp n p)} (h1 : PpInv E reg l1)
    (h2 : PpInv E reg l2) (hpre : l1 <+: l2) : FirstColumns (ppR pinv l1) (ppR pinv l2) := by
  have hget := prefix_get hpre
  have hle := hpre.length_le
  obtain ⟨a1, a2, a3⟩ := ppR_rot hp h2
  obtain ⟨b1, b2, b3⟩ := ppR_rot hp h1
  refine ⟨hle, triangular_firstLE hle _ _ _ a3 a1 _ _ _ ?_ ?_ b1 b2⟩
  · intro a b
    rw [Matrix.mul_apply, Matrix.mul_apply]
    refine Finset.sum_congr rfl fun j _ => ?_
    simp only [Matrix.transpose_apply, ppP, ppW, Matrix.of_apply, hget]
  · intro i a
    simp only [ppW, Matrix.of_apply, hget]

/-- A two-block fit with fewer components, from the larger one. -/
lemma ppFit_take {pr : PpParams} {pinv : Pinv} {rg : PpReg} {φ : (Fin n → ℝ) → (Fin n → ℝ) → ℝ} {X : Fin n → Fin p → ℝ} {y : Fin n → ℝ} {f : PpFit n p}
    (h : ppFit pr pinv rg φ X y = .ok f) (k : ℕ) (hk : k ≤ pr.nComponents) :
    ∃ g, ppFit { pr with nComponents := k } pinv rg φ X y = .ok g ∧ g.comps = f.comps.take k := by
  unfold ppFit at h ⊢
  split at h
  · simp at h
  · rename_i hn
    rw [if_neg (by simp only; omega)]
    split at h
    · simp at h
    · rename_i ht
      rw [if_neg ht]
      dsimp only at h ⊢
      split at h
      · simp at h
      · rename_i l hl
        have hl' := ppLoop_take k _ hk _ _ hl
        rw [hl']
        by_cases hs : ∃ k, (if pr.centerData = true then pr.centre.sca pr.scaleData pr.trimming fun i => X i k else 1) = 0
        · rw [if_pos hs] at h
          simp at h
        · rw [if_neg hs] at h
          simp only [Except.ok.injEq] at h
          subst h
          dsimp only
          rw [if_neg hs]
          exact ⟨_, rfl, rfl⟩

/-- C140 (ppdire with a response): for every deterministic optimiser and every regression method a model with fewer components exists whenever the larger one
does; its weights, loadings, scores, loadings of the response, values of the index and rotations are the first ones of the larger model; and column `k - 1`
of the coefficients stored by the larger model are the coefficients of the smaller one. -/
theorem C140_ppdire {pr : PpParams} {pinv : Pinv} (hp : IsGenInverse pinv) {rg : PpReg} {φ : (Fin n → ℝ) → (Fin n → ℝ) → ℝ} {X : Fin n → Fin p → ℝ}
    {y : Fin n → ℝ} {f : PpFit n p} (h : ppFit pr pinv rg φ X y = .ok f) (k : ℕ) (hk : k ≤ pr.nComponents) :
    ∃ g, ppFit { pr with nComponents := k } pinv rg φ X y = .ok g ∧ g.comps.length = k ∧
      FirstColumns (ppW g.comps) (ppW f.comps) ∧ FirstColumns (ppP g.comps) (ppP f.comps) ∧ FirstColumns (ppT g.comps) (ppT f.comps) ∧
      FirstEntries (ppC g.comps) (ppC f.comps) ∧ (FirstEntries (fun a => (g.comps.get a).crit) fun a => (f.comps.get a).crit) ∧
      (FirstEntries (fun a => (g.comps.get a).maxobj) fun a => (f.comps.get a).maxobj) ∧ FirstColumns g.rot f.rot ∧
      (0 < k → g.coef = f.coefColumn pinv (k - 1) ∧ g.coefScaled = f.coefScaledColumn pinv (k - 1)) := by
  obtain ⟨g, hg, hgc⟩ := ppFit_take h k hk
  obtain ⟨Xs, ys, hXs, hys, f1, f2, f3, f4, -, -, hl, -, hrf, -⟩ := ppFit_inv h
  obtain ⟨Xs', ys', hXs', hys', g1, g2, g3, g4, -, -, hl', -, hrg, hcs, hco, -⟩ := ppFit_inv hg
  obtain ⟨hlen, hI⟩ := ppLoop_inv _ _ _ hl
  obtain ⟨hlen', hI'⟩ := ppLoop_inv _ _ _ hl'
  simp only at g1 g2 g3 g4 hXs' hys'
  have hX : Xs' = Xs := by rw [hXs', hXs, g1, g2, f1, f2]
  have hY : ys' = ys := by rw [hys', hys, g3, g4, f3, f4]
  rw [hX, hY] at hI'
  have hpre : g.comps <+: f.comps := by rw [hgc]; exact List.take_prefix _ _
  have hget := prefix_get hpre
  have hle := hpre.length_le
  refine ⟨g, hg, hlen', ⟨hle, fun i a => ?_⟩, ⟨hle, fun i a => ?_⟩, ⟨hle, fun i a => ?_⟩, ⟨hle, fun a => ?_⟩, ⟨hle, fun a => ?_⟩, ⟨hle, fun a => ?_⟩, ?_, ?_⟩
  · simp only [ppW, Matrix.of_apply, hget]
  · simp only [ppP, Matrix.of_apply, hget]
  · simp only [ppT, Matrix.of_apply, hget]
  · simp only [ppC, hget]
  · simp only [hget]
  · simp only [hget]
  · rw [hrf, hrg]
    exact ppR_first hp hI' hI hpre
  · intro hk0
    have hcs2 : g.coefScaled = (ppR pinv (f.comps.take k)).mulVec (ppC (f.comps.take k)) := by
      rw [hcs, hrg]
      rw [← hgc]
    have hk1 : k - 1 + 1 = k := by omega
    constructor
    · rw [hco, hcs2]
      unfold PpFit.coefColumn
      rw [hk1, g4, g2, f4, f2]
    · rw [hcs2]
      unfold PpFit.coefScaledColumn
      rw [hk1]

/-- C140 (ppdire without a response). -/
theorem C140_one_block {pr : PpParams} {pinv : Pinv} (hp : IsGenInverse pinv) {φ : (Fin n → ℝ) → ℝ} {X : Fin n → Fin p → ℝ} {f : PpFit1 n p}
    (h : ppFit1 pr pinv φ X = .ok f) (k : ℕ) (hk : k ≤ pr.nComponents) :
    ∃ g, ppFit1 { pr with nComponents := k } pinv φ X = .ok g ∧ g.comps.length = k ∧
      FirstColumns (ppW g.comps) (ppW f.comps) ∧ FirstColumns (ppP g.comps) (ppP f.comps) ∧ FirstColumns (ppT g.comps) (ppT f.comps) ∧
      (FirstEntries (fun a => (g.comps.get a).maxobj) fun a => (f.comps.get a).maxobj) ∧ FirstColumns g.rot f.rot := by
  obtain ⟨l, hl, hfc, hrf, -, f1, f2⟩ := ppFit1_inv h
  have hl' := ppLoop_take k _ hk _ _ hl
  have hg : ∃ g, ppFit1 { pr with nComponents := k } pinv φ X = .ok g ∧ g.comps = f.comps.take k ∧ g.rot = ppR pinv g.comps := by
    rw [f1, f2] at hl'
    unfold ppFit1 at h ⊢
    split at h
    · simp at h
    · rename_i hn
      rw [if_neg (by simp only; omega)]
      split at h
      · simp at h
      · rename_i ht
        rw [if_neg ht]
        dsimp only
        rw [hl']
        exact ⟨_, rfl, by rw [hfc, List.map_take], rfl⟩
  obtain ⟨g, hg, hgc, hrg⟩ := hg
  obtain ⟨hlen, hI⟩ := ppLoop_inv _ _ _ hl
  obtain ⟨hlen', hI'⟩ := ppLoop_inv _ _ _ hl'
  have hI := hI.map_crit
  have hI' := hI'.map_crit
  rw [← hfc] at hI
  rw [List.map_take, ← hfc, ← hgc] at hI'
  have hpre : g.comps <+: f.comps := by rw [hgc]; exact List.take_prefix _ _
  have hget := prefix_get hpre
  have hle := hpre.length_le
  refine ⟨g, hg, ?_, ⟨hle, fun i a => ?_⟩, ⟨hle, fun i a => ?_⟩, ⟨hle, fun i a => ?_⟩, ⟨hle, fun a => ?_⟩, ?_⟩
  · rw [hgc, hfc, ← List.map_take, List.length_map, hlen']
  · simp only [ppW, Matrix.of_apply, hget]
  · simp only [ppP, Matrix.of_apply, hget]
  · simp only [ppT, Matrix.of_apply, hget]
  · simp only [hget]
  · rw [hrf, hrg]
    exact ppR_first hp hI' hI hpre

/-- The last column of `coef_` is what `predict` uses. -/
theorem C140_last_column {pr : PpParams} {pinv : Pinv} {rg : PpReg} {φ : (Fin n → ℝ) → (Fin n → ℝ) → ℝ} {X : Fin n → Fin p → ℝ}
    {y : Fin n → ℝ} {f : PpFit n p} (h : ppFit pr pinv rg φ X y = .ok f) (hk : 0 < pr.nComponents) :
    f.coef = f.coefColumn pinv (pr.nComponents - 1) ∧ f.coefScaled = f.coefScaledColumn pinv (pr.nComponents - 1) := by
  obtain ⟨Xs, ys, -, -, -, -, -, -, -, -, hl, -, hrf, hcs, hco, -⟩ := ppFit_inv h
  obtain ⟨hlen, -⟩ := ppLoop_inv _ _ _ hl
  have ht : f.comps.take (pr.nComponents - 1 + 1) = f.comps := by
    rw [List.take_of_length_le]; omega
  have h2 : f.coefScaled = f.coefScaledColumn pinv (pr.nComponents - 1) := by
    unfold PpFit.coefScaledColumn
    rw [ht, hcs, hrf]
  refine ⟨?_, h2⟩
  rw [hco, h2]
  rfl

/-- C141 (ppdire): with least squares, the mean as centre and no trimming, the residual sum of squares on the training data does not increase with the number of
components, for every projection index and every deterministic optimiser. -/
theorem C141_ppdire {pr : PpParams} {pinv : Pinv} (hp : IsGenInverse pinv) {φ : (Fin n → ℝ) → (Fin n → ℝ) → ℝ} {X : Fin n → Fin p → ℝ} {y : Fin n → ℝ}
    {f : PpFit n p} (hm : pr.centre = .mean) (ht : pr.trimming = 0) (hc : pr.centerData = true) (h : ppFit pr pinv .ols φ X y = .ok f) (k : ℕ)
    (hk : k ≤ pr.nComponents) :
    ∃ g, ppFit { pr with nComponents := k } pinv .ols φ X y = .ok g ∧ sumSquares f.residuals ≤ sumSquares g.residuals := by
  obtain ⟨g, hg, -, -, -, hT, -⟩ := C140_ppdire hp h k hk
  refine ⟨g, hg, ?_⟩
  obtain ⟨-, -, -, hmin⟩ := C83_least_squares pr pinv hp φ X y f h hm ht hc
  obtain ⟨-, -, ⟨b0, b, hgf⟩, -⟩ := C83_least_squares _ pinv hp φ X y g hg hm ht hc
  obtain ⟨b', hb'⟩ := firstColumns_combination hT b
  obtain ⟨-, -, -, -, -, -, -, -, -, -, -, -, -, -, -, -, -, hrf, -⟩ := ppFit_inv h
  obtain ⟨-, -, -, -, -, -, -, -, -, -, -, -, -, -, -, -, -, hrg, -⟩ := ppFit_inv hg
  unfold sumSquares
  rw [hrf, hrg]
  refine (hmin b0 b').trans (le_of_eq (Finset.sum_congr rfl fun i _ => ?_))
  dsimp only
  rw [hgf i]
  have := hb' i
  simp only [affine]
  rw [this]

/-- A SNIPLS model with two components, of which one can be asked for. -/
example : ∃ f : SnFit 2 2, snFit snPr snX snY = .ok f ∧ f.comps.length = 2 ∧ 1 ≤ snPr.nComponents ∧ (snPr.centre = .mean ∨ snPr.centre = .noneOpt) := by
  obtain ⟨f, hf, hc⟩ := snExFit
  exact ⟨f, hf, by rw [hc]; rfl, by simp [snPr], .inr rfl⟩

/-- A ppdire model with two components that meets the hypotheses of C140 and C141. -/
example : ∃ (pinv : Pinv) (f : PpFit 3 2), IsGenInverse pinv ∧ (ppExPr true).centre = .mean ∧ (ppExPr true).trimming = 0 ∧ (ppExPr true).centerData = true ∧
    1 ≤ (ppExPr true).nComponents ∧ ppFit (ppExPr true) pinv .ols (fun _ t => t 0) ppExX ![1, 5, 2] = .ok f := by
  obtain ⟨pinv, h⟩ := exists_pinv
  obtain ⟨f, hf⟩ := ppExFit true pinv .ols (fun _ t => t 0) ![1, 5, 2]
  exact ⟨pinv, f, h, rfl, rfl, rfl, by simp [ppExPr], hf⟩

end Direpack
