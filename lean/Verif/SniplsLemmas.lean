import Mathlib.Tactic.Linarith
import Mathlib.Tactic.Ring
import Mathlib.Tactic.FieldSimp
import Mathlib.LinearAlgebra.Matrix.DotProduct
import Mathlib.Algebra.BigOperators.Field
import Mathlib.LinearAlgebra.Matrix.Block
import Verif.Snipls

/-!
The component loop of `snipls` as a relation, and its invariants.
-/

namespace Direpack

open scoped BigOperators
open Matrix

/-- One run of the component loop from deflated data `X`, `y` with `old` retained variables. -/
inductive SnRun {n p : ℕ} (eta : ℝ) :
    Matrix (Fin n) (Fin p) ℝ → (Fin n → ℝ) → Finset (Fin p) → List (SnComp n p) → Prop
  | stop (X : Matrix (Fin n) (Fin p) ℝ) (y old) : SnRun eta X y old []
  | step (X : Matrix (Fin n) (Fin p) ℝ) (y : Fin n → ℝ) (old : Finset (Fin p)) (good : Finset (Fin p)) (w : Fin p → ℝ) (t : Fin n → ℝ) (c : ℝ) (ld : Fin p → ℝ)
      (l : List (SnComp n p))
      (hcov : ¬ ∀ j, ∑ i, X i j * y i = 0)
      (hg : good = old ∪ Finset.univ.filter fun j => 0 < (snWeights eta X y).1 j)
      (hne : good ≠ ∅)
      (hw : w = fun j => if j ∈ good then (snWeights eta X y).2 j else 0)
      (ht : t = X *ᵥ w) (hnz : t ⬝ᵥ t ≠ 0)
      (hc : c = (y ⬝ᵥ t) / (t ⬝ᵥ t))
      (hld : ld = fun j => if j ∈ good then (t ᵥ* X) j / (t ⬝ᵥ t) else 0)
      (hrun : SnRun eta (X - vecMulVec t (fun j => (t ᵥ* X) j / (t ⬝ᵥ t))) (y - c • t) good l) :
      SnRun eta X y old (⟨w, ld, c, t, good⟩ :: l)

theorem snLoop_run {n p : ℕ} (eta : ℝ) (h : ℕ) (X : Fin n → Fin p → ℝ) (y : Fin n → ℝ)
    (old : Finset (Fin p)) (l : List (SnComp n p)) (hl : snLoop eta h X y old = .ok l) :
    SnRun eta (Matrix.of X) y old l ∧ l.length ≤ h := by
  induction h generalizing X y old l with
  | zero =>
    simp only [snLoop, Except.ok.injEq] at hl
    subst hl
    exact ⟨.stop _ _ _, le_refl _⟩
  | succ h ih =>
    simp only [snLoop] at hl
    split at hl
    · split at hl
      · simp only [Except.ok.injEq] at hl; subst hl; exact ⟨.stop _ _ _, by simp⟩
      · simp at hl
    · rename_i hcov
      split at hl
      · simp only [Except.ok.injEq] at hl; subst hl; exact ⟨.stop _ _ _, by simp⟩
      · rename_i hne
        split at hl
        · simp at hl
        · rename_i hnz
          split at hl
          · simp at hl
          · rename_i l' hl'
            simp only [Except.ok.injEq] at hl
            obtain ⟨hr, hlen⟩ := ih _ _ _ _ hl'
            subst hl
            refine ⟨?_, by simpa using hlen⟩
            have hnz2 : ∀ t : Fin n → ℝ, t ⬝ᵥ t = ∑ i, t i ^ 2 := by
              intro t; simp only [dotProduct, sq]
            have hvm : ∀ (t : Fin n → ℝ) (j : Fin p), (t ᵥ* (Matrix.of X)) j = ∑ i, X i j * t i := by
              intro t j; simp only [vecMul, dotProduct, Matrix.of_apply, mul_comm]
            refine SnRun.step _ _ _ _ _ _ _ _ _ hcov rfl hne rfl rfl ?_ ?_ ?_ ?_
            · rw [hnz2]; exact hnz
            · rw [hnz2]; rfl
            · simp only [hnz2, hvm]
            · convert hr using 1
              · ext i j
                simp only [Matrix.sub_apply, vecMulVec_apply, hvm, hnz2, Matrix.of_apply]
              · ext i
                simp only [Pi.sub_apply, Pi.smul_apply, smul_eq_mul, mul_comm]

variable {n p : ℕ} {eta : ℝ}

/-- A vector orthogonal to every column of the data is orthogonal to every score. -/
theorem SnRun.orth_of {X : Matrix (Fin n) (Fin p) ℝ} {y : Fin n → ℝ} {old : Finset (Fin p)}
    {l : List (SnComp n p)} (h : SnRun eta X y old l) :
    ∀ u : Fin n → ℝ, u ᵥ* X = 0 → ∀ c ∈ l, u ⬝ᵥ c.t = 0 := by
  induction h with
  | stop => intro u _ c hc; simp at hc
  | step X y old good w t c ld l hcov hg hne hw ht hnz hc hld hrun ih =>
    intro u hu d hd
    have hut : u ⬝ᵥ t = 0 := by rw [ht, dotProduct_mulVec, hu, zero_dotProduct]
    rcases List.mem_cons.1 hd with rfl | hd
    · exact hut
    · refine ih u ?_ d hd
      rw [vecMul_sub, hu, zero_sub, neg_eq_zero]
      ext j
      simp only [vecMul, dotProduct, vecMulVec_apply, Pi.zero_apply]
      simp only [dotProduct] at hut
      simp only [← mul_assoc]
      rw [← Finset.sum_mul, hut, zero_mul]

/-- The new score is orthogonal to the deflated data. -/
theorem defl_orth (X : Matrix (Fin n) (Fin p) ℝ) (t : Fin n → ℝ) (hnz : t ⬝ᵥ t ≠ 0) :
    t ᵥ* (X - vecMulVec t (fun j => (t ᵥ* X) j / (t ⬝ᵥ t))) = 0 := by
  ext j
  rw [vecMul_sub]
  have : (t ᵥ* vecMulVec t (fun j => (t ᵥ* X) j / (t ⬝ᵥ t))) j = (t ⬝ᵥ t) * ((t ᵥ* X) j / (t ⬝ᵥ t)) := by
    simp only [vecMul, dotProduct, vecMulVec_apply, ← mul_assoc]
    rw [← Finset.sum_mul]
  simp only [Pi.sub_apply, this, Pi.zero_apply]
  field_simp
  ring

/-- Scores are nonzero. -/
theorem SnRun.nz {X : Matrix (Fin n) (Fin p) ℝ} {y : Fin n → ℝ} {old : Finset (Fin p)}
    {l : List (SnComp n p)} (h : SnRun eta X y old l) : ∀ c ∈ l, c.t ⬝ᵥ c.t ≠ 0 := by
  induction h with
  | stop => intro c hc; simp at hc
  | step X y old good w t c ld l hcov hg hne hw ht hnz hc hld hrun ih =>
    intro d hd
    rcases List.mem_cons.1 hd with rfl | hd
    · exact hnz
    · exact ih d hd

/-- Scores are mutually orthogonal. -/
theorem SnRun.pairwise {X : Matrix (Fin n) (Fin p) ℝ} {y : Fin n → ℝ} {old : Finset (Fin p)}
    {l : List (SnComp n p)} (h : SnRun eta X y old l) :
    l.Pairwise fun a b => a.t ⬝ᵥ b.t = 0 := by
  induction h with
  | stop => exact List.Pairwise.nil
  | step X y old good w t c ld l hcov hg hne hw ht hnz hc hld hrun ih =>
    exact List.Pairwise.cons (fun d hd => hrun.orth_of _ (defl_orth X t hnz) d hd) ih

/-- Retained sets grow; weights and loadings vanish outside the retained set. -/
theorem SnRun.support {X : Matrix (Fin n) (Fin p) ℝ} {y : Fin n → ℝ} {old : Finset (Fin p)}
    {l : List (SnComp n p)} (h : SnRun eta X y old l) :
    (∀ c ∈ l, old ⊆ c.good ∧ c.good ≠ ∅ ∧ ∀ j, j ∉ c.good → c.w j = 0 ∧ c.load j = 0) ∧
      l.Pairwise fun a b => a.good ⊆ b.good := by
  induction h with
  | stop => exact ⟨fun c hc => by simp at hc, List.Pairwise.nil⟩
  | step X y old good w t c ld l hcov hg hne hw ht hnz hc hld hrun ih =>
    have hsub : old ⊆ good := by rw [hg]; exact Finset.subset_union_left
    refine ⟨fun d hd => ?_, List.Pairwise.cons (fun d hd => (ih.1 d hd).1) ih.2⟩
    rcases List.mem_cons.1 hd with rfl | hd
    · refine ⟨hsub, hne, fun j hj => ?_⟩
      simp only at hj
      simp [hw, hld, hj]
    · exact ⟨hsub.trans (ih.1 d hd).1, (ih.1 d hd).2⟩

/-- A score is orthogonal to the part of the data removed by later deflation, so projecting on it
gives the same result before and after deflation by another score. -/
theorem vecMul_defl {X : Matrix (Fin n) (Fin p) ℝ} {u t : Fin n → ℝ} {q : Fin p → ℝ}
    (h : u ⬝ᵥ t = 0) : u ᵥ* (X - vecMulVec t q) = u ᵥ* X := by
  rw [vecMul_sub]
  ext j
  have : (u ᵥ* vecMulVec t q) j = 0 := by
    simp only [vecMul, dotProduct, vecMulVec_apply, ← mul_assoc]
    simp only [dotProduct] at h
    rw [← Finset.sum_mul, h, zero_mul]
  simp [this]

theorem mulVec_defl (X : Matrix (Fin n) (Fin p) ℝ) (t : Fin n → ℝ) (q w : Fin p → ℝ) (i : Fin n) :
    ((X - vecMulVec t q) *ᵥ w) i = (X *ᵥ w) i - t i * (q ⬝ᵥ w) := by
  rw [sub_mulVec]
  have : (vecMulVec t q *ᵥ w) i = t i * (q ⬝ᵥ w) := by
    simp only [mulVec, dotProduct, vecMulVec_apply, mul_assoc]
    rw [Finset.mul_sum]
  simp [this]

/-- Expansion of `X w_c` in the orthogonal scores. -/
theorem SnRun.expand {X : Matrix (Fin n) (Fin p) ℝ} {y : Fin n → ℝ} {old : Finset (Fin p)}
    {l : List (SnComp n p)} (h : SnRun eta X y old l) :
    ∀ c ∈ l, ∀ i, (X *ᵥ c.w) i =
      (l.map fun b => b.t i * ((b.t ⬝ᵥ (X *ᵥ c.w)) / (b.t ⬝ᵥ b.t))).sum := by
  induction h with
  | stop => intro c hc; simp at hc
  | step X y old good w t c ld l hcov hg hne hw ht hnz hc hld hrun ih =>
    have horth : ∀ b ∈ l, t ⬝ᵥ b.t = 0 := fun b hb => hrun.orth_of _ (defl_orth X t hnz) b hb
    intro d hd i
    rcases List.mem_cons.1 hd with rfl | hd
    · simp only [List.map_cons, List.sum_cons]
      rw [← ht, div_self hnz, mul_one]
      have : (l.map fun b => b.t i * ((b.t ⬝ᵥ t) / (b.t ⬝ᵥ b.t))).sum = 0 := by
        apply List.sum_eq_zero
        intro x hx
        obtain ⟨b, hb, rfl⟩ := List.mem_map.1 hx
        rw [dotProduct_comm, horth b hb]; simp
      rw [this, add_zero]
    · simp only [List.map_cons, List.sum_cons]
      have h1 := ih d hd i
      rw [mulVec_defl] at h1
      have h2 : (l.map fun b => b.t i * ((b.t ⬝ᵥ ((X - vecMulVec t (fun j => (t ᵥ* X) j / (t ⬝ᵥ t))) *ᵥ d.w)) / (b.t ⬝ᵥ b.t))).sum
          = (l.map fun b => b.t i * ((b.t ⬝ᵥ (X *ᵥ d.w)) / (b.t ⬝ᵥ b.t))).sum := by
        congr 1
        apply List.map_congr_left
        intro b hb
        rw [dotProduct_mulVec, vecMul_defl (by rw [dotProduct_comm]; exact horth b hb), ← dotProduct_mulVec]
      rw [h2] at h1
      have h3 : (fun j => (t ᵥ* X) j / (t ⬝ᵥ t)) ⬝ᵥ d.w = (t ⬝ᵥ (X *ᵥ d.w)) / (t ⬝ᵥ t) := by
        rw [dotProduct_mulVec]
        simp only [dotProduct]
        rw [Finset.sum_div]
        exact Finset.sum_congr rfl fun j _ => by ring
      rw [h3] at h1
      linarith

/-- Stored loadings in terms of the data the run started from. -/
theorem SnRun.load_eq {X : Matrix (Fin n) (Fin p) ℝ} {y : Fin n → ℝ} {old : Finset (Fin p)}
    {l : List (SnComp n p)} (h : SnRun eta X y old l) :
    ∀ c ∈ l, ∀ j ∈ c.good, c.load j = (c.t ᵥ* X) j / (c.t ⬝ᵥ c.t) := by
  induction h with
  | stop => intro c hc; simp at hc
  | step X y old good w t c ld l hcov hg hne hw ht hnz hc hld hrun ih =>
    intro d hd j hj
    rcases List.mem_cons.1 hd with rfl | hd
    · simp only at hj
      simp [hld, hj]
    · rw [ih d hd j hj, vecMul_defl]
      rw [dotProduct_comm]
      exact hrun.orth_of _ (defl_orth X t hnz) d hd

/-- A vector orthogonal to all `X w_c` is orthogonal to all scores. -/
theorem SnRun.resid {X : Matrix (Fin n) (Fin p) ℝ} {y : Fin n → ℝ} {old : Finset (Fin p)}
    {l : List (SnComp n p)} (h : SnRun eta X y old l) :
    ∀ r : Fin n → ℝ, (∀ c ∈ l, r ⬝ᵥ (X *ᵥ c.w) = 0) → ∀ c ∈ l, r ⬝ᵥ c.t = 0 := by
  induction h with
  | stop => intro r _ c hc; simp at hc
  | step X y old good w t c ld l hcov hg hne hw ht hnz hc hld hrun ih =>
    intro r hr d hd
    have hrt : r ⬝ᵥ t = 0 := by
      have := hr _ (List.mem_cons_self ..)
      rw [ht]; exact this
    rcases List.mem_cons.1 hd with rfl | hd
    · exact hrt
    · refine ih r (fun b hb => ?_) d hd
      rw [dotProduct_mulVec, vecMul_defl hrt, ← dotProduct_mulVec]
      exact hr b (List.mem_cons_of_mem _ hb)

/-! ### Maximum of absolute values, soft thresholding -/

theorem foldr_max_le (l : List ℝ) (b : ℝ) (hb : 0 ≤ b) (h : ∀ x ∈ l, x ≤ b) : l.foldr max 0 ≤ b := by
  induction l with
  | nil => simpa
  | cons a l ih =>
    simp only [List.foldr_cons]
    exact max_le (h a (by simp)) (ih fun x hx => h x (by simp [hx]))

theorem le_foldr_max (l : List ℝ) (x : ℝ) (h : x ∈ l) : x ≤ l.foldr max 0 := by
  induction l with
  | nil => simp at h
  | cons a l ih =>
    simp only [List.foldr_cons]
    rcases List.mem_cons.1 h with rfl | h
    · exact le_max_left _ _
    · exact (ih h).trans (le_max_right _ _)

theorem abs_le_maxAbs {p : ℕ} (v : Fin p → ℝ) (j : Fin p) : |v j| ≤ maxAbs v :=
  le_foldr_max _ _ (List.mem_ofFn' _ _ |>.mpr ⟨j, rfl⟩)

theorem foldr_max_mem (l : List ℝ) : l.foldr max 0 = 0 ∨ l.foldr max 0 ∈ l := by
  induction l with
  | nil => simp
  | cons a l ih =>
    simp only [List.foldr_cons]
    rcases le_total a (l.foldr max 0) with h | h
    · rw [max_eq_right h]
      rcases ih with ih | ih
      · exact Or.inl ih
      · exact Or.inr (List.mem_cons_of_mem _ ih)
    · rw [max_eq_left h]; exact Or.inr (List.mem_cons_self ..)

theorem maxAbs_nonneg {p : ℕ} (v : Fin p → ℝ) : 0 ≤ maxAbs v := by
  unfold maxAbs
  induction (List.ofFn fun j => |v j|) with
  | nil => simp
  | cons a l ih => simp only [List.foldr_cons]; exact ih.trans (le_max_right _ _)

/-- The maximum is attained, if the vector is not zero. -/
theorem maxAbs_attained {p : ℕ} (v : Fin p → ℝ) (h : ∃ j, v j ≠ 0) :
    ∃ j, |v j| = maxAbs v ∧ 0 < maxAbs v := by
  obtain ⟨j0, hj0⟩ := h
  have hpos : 0 < maxAbs v := lt_of_lt_of_le (abs_pos.2 hj0) (abs_le_maxAbs v j0)
  rcases foldr_max_mem (List.ofFn fun j => |v j|) with h | h
  · exfalso; unfold maxAbs at hpos; rw [h] at hpos; exact lt_irrefl _ hpos
  · obtain ⟨j, hj⟩ := (List.mem_ofFn' _ _).mp h
    exact ⟨j, hj, hpos⟩

end Direpack

namespace Direpack

open scoped BigOperators
open Matrix

variable {n p : ℕ} {eta : ℝ}

/-- Later scores are orthogonal to `X w` of earlier components, and `t·(X w) = t·t` within a
component. -/
theorem SnRun.tri {X : Matrix (Fin n) (Fin p) ℝ} {y : Fin n → ℝ} {old : Finset (Fin p)}
    {l : List (SnComp n p)} (h : SnRun eta X y old l) :
    (l.Pairwise fun a b => b.t ⬝ᵥ (X *ᵥ a.w) = 0) ∧ ∀ c ∈ l, c.t ⬝ᵥ (X *ᵥ c.w) = c.t ⬝ᵥ c.t := by
  induction h with
  | stop => exact ⟨List.Pairwise.nil, fun c hc => by simp at hc⟩
  | step X y old good w t c ld l hcov hg hne hw ht hnz hc hld hrun ih =>
    have horth : ∀ b ∈ l, b.t ⬝ᵥ t = 0 := fun b hb => by
      rw [dotProduct_comm]; exact hrun.orth_of _ (defl_orth X t hnz) b hb
    have key : ∀ b ∈ l, ∀ v, b.t ⬝ᵥ ((X - vecMulVec t (fun j => (t ᵥ* X) j / (t ⬝ᵥ t))) *ᵥ v)
        = b.t ⬝ᵥ (X *ᵥ v) := by
      intro b hb v
      rw [dotProduct_mulVec, vecMul_defl (horth b hb), ← dotProduct_mulVec]
    constructor
    · refine List.Pairwise.cons (fun b hb => ?_) ?_
      · simp only
        rw [← ht]; exact horth b hb
      · refine ih.1.imp_of_mem ?_
        intro a b _ hb hab
        rw [← key b hb]; exact hab
    · intro d hd
      rcases List.mem_cons.1 hd with rfl | hd
      · simp only; rw [← ht]
      · rw [← key d hd]; exact ih.2 d hd

theorem sum_map_get {α : Type} (l : List α) (f : α → ℝ) : (l.map f).sum = ∑ a : Fin l.length, f (l.get a) := by
  conv_lhs => rw [← List.ofFn_get l]
  rw [List.map_ofFn, List.sum_ofFn]
  rfl

/-- Coordinates of `X W` in the scores. -/
noncomputable def snQ (X : Matrix (Fin n) (Fin p) ℝ) (l : List (SnComp n p)) :
    Matrix (Fin l.length) (Fin l.length) ℝ :=
  Matrix.of fun b a => ((l.get b).t ⬝ᵥ (X *ᵥ (l.get a).w)) / ((l.get b).t ⬝ᵥ (l.get b).t)

theorem SnRun.mul_W {X : Matrix (Fin n) (Fin p) ℝ} {y : Fin n → ℝ} {old : Finset (Fin p)}
    {l : List (SnComp n p)} (h : SnRun eta X y old l) : X * compW l = compT l * snQ X l := by
  ext i a
  have := h.expand (l.get a) (List.get_mem _ _) i
  rw [sum_map_get] at this
  rw [Matrix.mul_apply, Matrix.mul_apply]
  exact this

theorem SnRun.T_gram {X : Matrix (Fin n) (Fin p) ℝ} {y : Fin n → ℝ} {old : Finset (Fin p)}
    {l : List (SnComp n p)} (h : SnRun eta X y old l) :
    (compT l).transpose * compT l = Matrix.diagonal fun a => (l.get a).t ⬝ᵥ (l.get a).t := by
  ext a b
  rw [Matrix.mul_apply]
  have hp := List.pairwise_iff_get.1 h.pairwise
  by_cases hab : a = b
  · subst hab; rw [Matrix.diagonal_apply_eq]; rfl
  · rw [Matrix.diagonal_apply_ne _ hab]
    rcases lt_or_gt_of_ne hab with h1 | h1
    · exact hp a b h1
    · have := hp b a h1
      rw [dotProduct_comm] at this
      exact this

theorem SnRun.det_gram {X : Matrix (Fin n) (Fin p) ℝ} {y : Fin n → ℝ} {old : Finset (Fin p)}
    {l : List (SnComp n p)} (h : SnRun eta X y old l) :
    ((compT l).transpose * compT l).det ≠ 0 := by
  rw [h.T_gram, Matrix.det_diagonal]
  exact Finset.prod_ne_zero_iff.2 fun a _ => h.nz _ (List.get_mem _ _)

theorem SnRun.det_Q {X : Matrix (Fin n) (Fin p) ℝ} {y : Fin n → ℝ} {old : Finset (Fin p)}
    {l : List (SnComp n p)} (h : SnRun eta X y old l) : (snQ X l).det = 1 := by
  rw [Matrix.det_of_isUpperTriangular]
  · apply Finset.prod_eq_one
    intro a _
    simp only [snQ, Matrix.of_apply]
    rw [h.tri.2 _ (List.get_mem _ _), div_self (h.nz _ (List.get_mem _ _))]
  · intro b a hab
    simp only [snQ, Matrix.of_apply]
    rw [(List.pairwise_iff_get.1 h.tri.1) a b hab, zero_div]

/-- Entry of `Pᵀ W`: only the retained variables of the component contribute. -/
theorem SnRun.PW_apply {X : Matrix (Fin n) (Fin p) ℝ} {y : Fin n → ℝ} {old : Finset (Fin p)}
    {l : List (SnComp n p)} (h : SnRun eta X y old l) (b a : Fin l.length) :
    ((compP l).transpose * compW l) b a + (∑ j ∈ Finset.univ.filter (fun j => j ∉ (l.get b).good),
      ((l.get b).t ᵥ* X) j * (l.get a).w j) / ((l.get b).t ⬝ᵥ (l.get b).t) = snQ X l b a := by
  rw [Matrix.mul_apply]
  simp only [snQ, Matrix.of_apply, compP, compW, Matrix.transpose_apply]
  rw [dotProduct_mulVec]
  simp only [dotProduct]
  rw [Finset.sum_div, Finset.sum_div, Finset.sum_filter, ← Finset.sum_add_distrib]
  apply Finset.sum_congr rfl
  intro j _
  by_cases hj : j ∈ (l.get b).good
  · rw [h.load_eq _ (List.get_mem _ _) j hj]
    simp only [hj, not_true_eq_false, if_false, add_zero, dotProduct]
    ring
  · rw [((h.support.1 _ (List.get_mem _ _)).2.2 j hj).2]
    simp only [hj, not_false_eq_true, if_true, zero_mul, zero_add]

theorem SnRun.PW_eq_of {X : Matrix (Fin n) (Fin p) ℝ} {y : Fin n → ℝ} {old : Finset (Fin p)}
    {l : List (SnComp n p)} (h : SnRun eta X y old l) (b a : Fin l.length)
    (hsub : (l.get a).good ⊆ (l.get b).good) :
    ((compP l).transpose * compW l) b a = snQ X l b a := by
  have := h.PW_apply b a
  rw [Finset.sum_eq_zero, zero_div, add_zero] at this
  · exact this
  · intro j hj
    have hj' := (Finset.mem_filter.1 hj).2
    rw [((h.support.1 (l.get a) (List.get_mem _ _)).2.2 j (fun hh => hj' (hsub hh))).1, mul_zero]

theorem SnRun.det_PW {X : Matrix (Fin n) (Fin p) ℝ} {y : Fin n → ℝ} {old : Finset (Fin p)}
    {l : List (SnComp n p)} (h : SnRun eta X y old l) :
    ((compP l).transpose * compW l).det = 1 := by
  have hle : ∀ a b : Fin l.length, a < b → (l.get a).good ⊆ (l.get b).good :=
    fun a b hab => (List.pairwise_iff_get.1 h.support.2) a b hab
  rw [Matrix.det_of_isUpperTriangular]
  · apply Finset.prod_eq_one
    intro a _
    rw [h.PW_eq_of a a (Finset.Subset.refl _)]
    simp only [snQ, Matrix.of_apply]
    rw [h.tri.2 _ (List.get_mem _ _), div_self (h.nz _ (List.get_mem _ _))]
  · intro b a hab
    rw [h.PW_eq_of b a (hle a b hab)]
    simp only [snQ, Matrix.of_apply]
    rw [(List.pairwise_iff_get.1 h.tri.1) a b hab, zero_div]

/-- The two matrix inversions never meet a singular matrix. -/
theorem snCoef_ok {X : Fin n → Fin p → ℝ} {y y0 : Fin n → ℝ} {old : Finset (Fin p)}
    {l : List (SnComp n p)} (h : SnRun eta (Matrix.of X) y old l) :
    snCoef X y0 l = .ok (if l.length = 0 then (0, fun _ => 0) else
      (compW l * ((compP l).transpose * compW l)⁻¹,
       (compW l * (((compW l).transpose * ((Matrix.of X).transpose * Matrix.of X) * compW l)⁻¹ *
        (compW l).transpose)) *ᵥ ((Matrix.of X).transpose *ᵥ y0))) := by
  have hS : (Matrix.of fun j k => ∑ i, X i j * X i k) = (Matrix.of X).transpose * Matrix.of X := by
    ext j k; rw [Matrix.mul_apply]; rfl
  have hs : (fun j => ∑ i, X i j * y0 i) = (Matrix.of X).transpose *ᵥ y0 := by
    ext j; rfl
  unfold snCoef
  simp only [hS, hs]
  split
  · rfl
  · have h1 : ((compP l).transpose * compW l).det ≠ 0 := by rw [h.det_PW]; norm_num
    have hG : (compW l).transpose * ((Matrix.of X).transpose * Matrix.of X) * compW l
        = (snQ (Matrix.of X) l).transpose * ((compT l).transpose * compT l) * snQ (Matrix.of X) l := by
      have e1 : (compW l).transpose * ((Matrix.of X).transpose * Matrix.of X) * compW l
          = (Matrix.of X * compW l).transpose * (Matrix.of X * compW l) := by
        rw [Matrix.transpose_mul]; simp only [Matrix.mul_assoc]
      rw [e1, h.mul_W, Matrix.transpose_mul]; simp only [Matrix.mul_assoc]
    have h2 : ((compW l).transpose * ((Matrix.of X).transpose * Matrix.of X) * compW l).det ≠ 0 := by
      rw [hG, Matrix.det_mul, Matrix.det_mul, Matrix.det_transpose, h.det_Q]
      simpa using h.det_gram
    simp only [npInv, h1, h2, if_false, bind, Except.bind]

/-- More components extend the list of components. -/
theorem snLoop_prefix {eta : ℝ} (h1 h2 : ℕ) (hh : h1 ≤ h2) (X : Fin n → Fin p → ℝ) (y : Fin n → ℝ)
    (old : Finset (Fin p)) (l1 l2 : List (SnComp n p)) (e1 : snLoop eta h1 X y old = .ok l1)
    (e2 : snLoop eta h2 X y old = .ok l2) : l1 <+: l2 := by
  induction h1 generalizing h2 X y old l1 l2 with
  | zero => simp only [snLoop, Except.ok.injEq] at e1; subst e1; exact List.nil_prefix
  | succ h1 ih =>
    obtain ⟨h2, rfl⟩ : ∃ k, h2 = k + 1 := ⟨h2 - 1, by omega⟩
    simp only [snLoop] at e1 e2
    split at e1
    · rename_i hc
      split at e1
      · simp only [Except.ok.injEq] at e1; subst e1; exact List.nil_prefix
      · simp at e1
    · rename_i hc
      rw [if_neg hc] at e2
      split at e1
      · simp only [Except.ok.injEq] at e1; subst e1; exact List.nil_prefix
      · rename_i hg
        rw [if_neg hg] at e2
        split at e1
        · simp at e1
        · rename_i hnz
          rw [if_neg hnz] at e2
          split at e1
          · simp at e1
          · rename_i l1' hl1
            split at e2
            · simp at e2
            · rename_i l2' hl2
              simp only [Except.ok.injEq] at e1 e2
              subst e1; subst e2
              exact (List.cons_prefix_cons).2 ⟨rfl, ih h2 (by omega) _ _ _ _ _ hl1 hl2⟩

end Direpack
