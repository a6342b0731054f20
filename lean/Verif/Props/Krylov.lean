import Mathlib.Tactic.Linarith
import Mathlib.Tactic.FieldSimp
import Mathlib.Tactic.Ring
import Mathlib.LinearAlgebra.Matrix.Rank
import Mathlib.LinearAlgebra.FiniteDimensional.Lemmas
import Verif.Props.FullRank

/-! Property C160: SNIPLS without sparsity is partial least squares, and when it gives a model. -/

set_option linter.unusedSectionVars false

namespace Direpack

open scoped BigOperators
open Matrix Spec

variable {n p : ℕ}

/-- Cross products of the columns of `Z`. -/
def Spec.crossProd (Z : Fin n → Fin p → ℝ) : Matrix (Fin p) (Fin p) ℝ := (Matrix.of Z).transpose * Matrix.of Z

/-- Cross products of the columns of `Z` with `v`. -/
def Spec.crossVec (Z : Fin n → Fin p → ℝ) (v : Fin n → ℝ) : Fin p → ℝ := fun j => ∑ i, Z i j * v i

/-- The space spanned by `s, S s, ..., S ^ (k - 1) s`, for the cross products `S` of the predictors and `s` of the predictors with the response. -/
def Spec.krylov (Z : Fin n → Fin p → ℝ) (v : Fin n → ℝ) (k : ℕ) : Submodule ℝ (Fin p → ℝ) :=
  Submodule.span ℝ {u | ∃ m, m < k ∧ u = (crossProd Z ^ m) *ᵥ crossVec Z v}

/-- The space spanned by all `S ^ m s`. -/
def Spec.krylovAll (Z : Fin n → Fin p → ℝ) (v : Fin n → ℝ) : Submodule ℝ (Fin p → ℝ) :=
  Submodule.span ℝ (Set.range fun m : ℕ => (crossProd Z ^ m) *ᵥ crossVec Z v)

section krylov

variable (Z : Fin n → Fin p → ℝ) (v : Fin n → ℝ)

lemma krylov_mono {a b : ℕ} (h : a ≤ b) : krylov Z v a ≤ krylov Z v b :=
  Submodule.span_mono fun _ ⟨m, hm, hu⟩ => ⟨m, lt_of_lt_of_le hm h, hu⟩

lemma krylov_le_all (k : ℕ) : krylov Z v k ≤ krylovAll Z v :=
  Submodule.span_mono fun _ ⟨m, _, hu⟩ => ⟨m, hu.symm⟩

lemma crossVec_mem_krylov {k : ℕ} (hk : 0 < k) : crossVec Z v ∈ krylov Z v k :=
  Submodule.subset_span ⟨0, hk, by simp⟩

lemma map_krylov (k : ℕ) : (krylov Z v k).map (crossProd Z).mulVecLin ≤ krylov Z v (k + 1) := by
  unfold Spec.krylov
  rw [Submodule.map_span_le]
  rintro _ ⟨m, hm, rfl⟩
  refine Submodule.subset_span ⟨m + 1, by omega, ?_⟩
  rw [mulVecLin_apply, mulVec_mulVec, ← pow_succ']

lemma mulVec_mem_krylov {k : ℕ} {u : Fin p → ℝ} (hu : u ∈ krylov Z v k) : crossProd Z *ᵥ u ∈ krylov Z v (k + 1) :=
  map_krylov Z v k ⟨u, hu, rfl⟩

lemma krylov_eq_range (k : ℕ) : krylov Z v k = Submodule.span ℝ (Set.range fun m : Fin k => (crossProd Z ^ (m : ℕ)) *ᵥ crossVec Z v) := by
  unfold Spec.krylov
  congr 1
  ext u
  constructor
  · rintro ⟨m, hm, rfl⟩; exact ⟨⟨m, hm⟩, rfl⟩
  · rintro ⟨m, rfl⟩; exact ⟨m, m.2, rfl⟩

lemma finrank_krylov_le (k : ℕ) : Module.finrank ℝ (krylov Z v k) ≤ k := by
  rw [krylov_eq_range]
  refine (finrank_range_le_card _).trans (by simp)

/-- If `s = S x` with `x` in the `k`-th space, then the spaces do not grow beyond the `k`-th. -/
lemma krylovAll_le_of_solution {k : ℕ} {x : Fin p → ℝ} (hx : x ∈ krylov Z v k) (hs : crossProd Z *ᵥ x = crossVec Z v) :
    krylovAll Z v ≤ krylov Z v k := by
  set S := (crossProd Z).mulVecLin with hS
  set V := krylov Z v k with hV
  have h1 : V ≤ V.map S := by
    rw [hV]
    conv_lhs => unfold Spec.krylov
    rw [Submodule.span_le]
    rintro _ ⟨m, hm, rfl⟩
    rcases Nat.eq_zero_or_pos m with h0 | h0
    · subst h0
      exact ⟨x, hx, by simp [hS, hs]⟩
    · refine ⟨(crossProd Z ^ (m - 1)) *ᵥ crossVec Z v, Submodule.subset_span ⟨m - 1, by omega, rfl⟩, ?_⟩
      rw [hS, mulVecLin_apply, mulVec_mulVec, ← pow_succ']
      congr 2
      omega
  have h2 : V = V.map S := Submodule.eq_of_le_of_finrank_le h1 (Submodule.finrank_map_le S V)
  unfold Spec.krylovAll
  rw [Submodule.span_le]
  rintro _ ⟨m, rfl⟩
  show (crossProd Z ^ m) *ᵥ crossVec Z v ∈ V
  induction m with
  | zero => rw [h2]; exact ⟨x, hx, by simp [hS, hs]⟩
  | succ m ih => rw [h2]; exact ⟨_, ih, by rw [hS, mulVecLin_apply, mulVec_mulVec, ← pow_succ']⟩

end krylov

/-- Without sparsity the weights are proportional to the covariances. -/
lemma snWeights_pls (X : Fin n → Fin p → ℝ) (r : Fin n → ℝ) (hcov : ¬ ∀ j, ∑ i, X i j * r i = 0) (good : Finset (Fin p))
    (hg : ∀ j, 0 < (snWeights 0 X r).1 j → j ∈ good) :
    ∃ c : ℝ, 0 < c ∧ (fun j => if j ∈ good then (snWeights 0 X r).2 j else 0) = c • crossVec X r := by
  obtain ⟨nrm, hn, hw⟩ := snWeights_cov 0 X r hcov
  refine ⟨nrm⁻¹, by positivity, ?_⟩
  funext j
  have hd : dot (fun i => X i j) r = crossVec X r j := rfl
  have h1 := (hw j).1
  have h2 := (hw j).2
  rw [zero_mul, sub_zero, hd] at h1 h2
  have hsg : |crossVec X r j| * npSign (crossVec X r j) = crossVec X r j := by
    unfold npSign
    split
    · rename_i h; rw [abs_of_pos h, mul_one]
    · split
      · rename_i h; rw [abs_of_neg h]; ring
      · rename_i h h'; have : crossVec X r j = 0 := le_antisymm (not_lt.mp h) (not_lt.mp h'); rw [this]; simp
  rw [hsg] at h2
  simp only [Pi.smul_apply, smul_eq_mul]
  rw [← h2, ← mul_assoc, inv_mul_cancel₀ hn.ne', one_mul]
  split
  · rfl
  · rename_i hj
    have h3 : ¬ 0 < (snWeights 0 X r).1 j := fun h => hj (hg j h)
    have h4 : |crossVec X r j| ≤ 0 := by rw [← h1]; exact mul_nonpos_of_nonneg_of_nonpos hn.le (not_lt.mp h3)
    have h5 : crossVec X r j = 0 := abs_nonpos_iff.mp h4
    rw [h5] at h2
    rcases mul_eq_zero.mp h2 with h | h
    · exact absurd h hn.ne'
    · exact h.symm

lemma vecMul_crossVec (X : Matrix (Fin n) (Fin p) ℝ) (r : Fin n → ℝ) : r ᵥ* X = crossVec X r := by
  funext j
  simp only [vecMul, dotProduct, Spec.crossVec, mul_comm]

lemma crossVec_mulVec (Z : Fin n → Fin p → ℝ) (x : Fin p → ℝ) : crossVec Z (Matrix.of Z *ᵥ x) = crossProd Z *ᵥ x := by
  unfold Spec.crossProd
  rw [← mulVec_mulVec]
  rfl

lemma crossVec_sub (Z : Fin n → Fin p → ℝ) (a b : Fin n → ℝ) : crossVec Z (a - b) = crossVec Z a - crossVec Z b := by
  funext j
  simp only [Spec.crossVec, Pi.sub_apply, mul_sub, Finset.sum_sub_distrib]

/-- The part of the response explained by scores in the image of the `k`-th space. -/
lemma unexplained_krylov (Z : Fin n → Fin p → ℝ) (v : Fin n → ℝ) (k : ℕ) (l : List (SnComp n p)) (h : ∀ a ∈ l, ∃ x ∈ krylov Z v k, a.t = Matrix.of Z *ᵥ x) :
    ∃ x ∈ krylov Z v k, unexplained v l = v - Matrix.of Z *ᵥ x := by
  induction l with
  | nil => exact ⟨0, Submodule.zero_mem _, by funext i; simp [unexplained]⟩
  | cons a l ih =>
    obtain ⟨x, hx, hxe⟩ := ih fun b hb => h b (List.mem_cons_of_mem _ hb)
    obtain ⟨z, hz, hze⟩ := h a (List.mem_cons_self ..)
    refine ⟨x + a.c • z, Submodule.add_mem _ hx (Submodule.smul_mem _ _ hz), ?_⟩
    rw [mulVec_add, mulVec_smul, ← hze]
    funext i
    have := congrFun hxe i
    simp only [unexplained, Pi.sub_apply, Pi.add_apply, Pi.smul_apply, smul_eq_mul, List.map_cons, List.sum_cons] at this ⊢
    linarith

/-- Weights and scores of a run without sparsity are in the spaces of powers. -/
lemma SnRun.krylov {Z : Fin n → Fin p → ℝ} {v : Fin n → ℝ} {l : List (SnComp n p)} (h : SnRun 0 (Matrix.of Z) v ∅ l) :
    ∀ b : Fin l.length, (l.get b).w ∈ Spec.krylov Z v (b + 1) ∧ ∃ x ∈ Spec.krylov Z v (b + 1), (l.get b).t = Matrix.of Z *ᵥ x := by
  intro b
  obtain ⟨b, hb⟩ := b
  induction b using Nat.strong_induction_on with
  | _ b ih =>
    have hget : l[b]? = some (l.get ⟨b, hb⟩) := by simp [hb]
    obtain ⟨prev, -, -, hcov, hgood, hw⟩ := h.direction b _ hget
    obtain ⟨x, hx, hxe⟩ := unexplained_krylov Z v b (l.take b) (by
      intro a ha
      obtain ⟨i, hi, rfl⟩ := List.mem_take_iff_getElem.mp ha
      obtain ⟨z, hz, hze⟩ := (ih i (by omega) (by omega)).2
      exact ⟨z, krylov_mono Z v (by simp only; omega) hz, hze⟩)
    have hwmem : (l.get ⟨b, hb⟩).w ∈ Spec.krylov Z v (b + 1) := by
      obtain ⟨c, -, hc⟩ := snWeights_pls Z (unexplained v (l.take b)) hcov (l.get ⟨b, hb⟩).good (by
        intro j hj
        rw [hgood]
        exact Finset.mem_union_right _ (Finset.mem_filter.mpr ⟨Finset.mem_univ _, hj⟩))
      have e : (l.get ⟨b, hb⟩).w = c • crossVec Z (unexplained v (l.take b)) := hw.trans hc
      rw [e, hxe, crossVec_sub, crossVec_mulVec]
      exact Submodule.smul_mem _ _ (Submodule.sub_mem _ (crossVec_mem_krylov Z v (by omega)) (mulVec_mem_krylov Z v hx))
    refine ⟨hwmem, ?_⟩
    -- the score is `Z w` minus a combination of the earlier scores
    have hcol : ∀ i, (Matrix.of Z *ᵥ (l.get ⟨b, hb⟩).w) i = ∑ a : Fin l.length, (l.get a).t i * snQ (Matrix.of Z) l a ⟨b, hb⟩ := by
      intro i
      have := congrFun (congrFun h.mul_W i) ⟨b, hb⟩
      simp only [Matrix.mul_apply] at this
      exact this
    have hdiag : snQ (Matrix.of Z) l ⟨b, hb⟩ ⟨b, hb⟩ = 1 := by
      simp only [snQ, Matrix.of_apply]
      rw [h.tri.2 _ (List.get_mem _ _), div_self (h.nz _ (List.get_mem _ _))]
    have hlow : ∀ a : Fin l.length, b < a → snQ (Matrix.of Z) l a ⟨b, hb⟩ = 0 := by
      intro a hab
      simp only [snQ, Matrix.of_apply]
      rw [(List.pairwise_iff_get.1 h.tri.1) ⟨b, hb⟩ a hab, zero_div]
    have hex : ∀ a : Fin l.length, ∃ z ∈ Spec.krylov Z v (b + 1), (a : ℕ) < b → (l.get a).t = Matrix.of Z *ᵥ z := by
      intro a
      by_cases hab : (a : ℕ) < b
      · obtain ⟨z, hz, hze⟩ := (ih a hab a.2).2
        exact ⟨z, krylov_mono Z v (by simp only; omega) hz, fun _ => hze⟩
      · exact ⟨0, Submodule.zero_mem _, fun h => absurd h hab⟩
    choose z hz hze using hex
    refine ⟨(l.get ⟨b, hb⟩).w - ∑ a : Fin l.length, (if (a : ℕ) < b then snQ (Matrix.of Z) l a ⟨b, hb⟩ else 0) • z a,
      Submodule.sub_mem _ hwmem (Submodule.sum_mem _ fun a _ => Submodule.smul_mem _ _ (hz a)), ?_⟩
    rw [mulVec_sub, mulVec_sum]
    funext i
    rw [Pi.sub_apply, hcol, Finset.sum_apply, ← Finset.sum_sub_distrib, Finset.sum_eq_single ⟨b, hb⟩]
    · rw [hdiag]; simp
    · intro a _ hne
      rcases lt_trichotomy (a : ℕ) b with hab | hab | hab
      · rw [if_pos hab, mulVec_smul, ← hze a hab, Pi.smul_apply, smul_eq_mul]; ring
      · exact absurd (Fin.ext hab) hne
      · rw [hlow a hab, if_neg (by omega)]; simp
    · intro hn; exact absurd (Finset.mem_univ _) hn

/-- The weights of a run are linearly independent. -/
lemma SnRun.indep_W {eta : ℝ} {X : Matrix (Fin n) (Fin p) ℝ} {y : Fin n → ℝ} {old : Finset (Fin p)} {l : List (SnComp n p)} (h : SnRun eta X y old l) :
    LinearIndependent ℝ fun a : Fin l.length => (l.get a).w := by
  rw [Fintype.linearIndependent_iff]
  intro g hg
  have h0 : compW l *ᵥ g = 0 := by
    funext j
    have := congrFun hg j
    simp only [Finset.sum_apply, Pi.smul_apply, smul_eq_mul] at this
    simp only [mulVec, dotProduct, compW, Matrix.of_apply]
    rw [← this]
    exact Finset.sum_congr rfl fun a _ => mul_comm _ _
  have hdet : (compT l).transpose * (X * compW l) = (compT l).transpose * compT l * snQ X l := by
    rw [h.mul_W, Matrix.mul_assoc]
  have h1 : ((compT l).transpose * compT l * snQ X l) *ᵥ g = 0 := by
    rw [← hdet, ← mulVec_mulVec, ← mulVec_mulVec, h0]; simp
  have h2 : ((compT l).transpose * compT l * snQ X l).det ≠ 0 := by
    rw [Matrix.det_mul, h.det_Q, mul_one]; exact h.det_gram
  have h3 : g = 0 := Matrix.eq_zero_of_mulVec_eq_zero h2 h1
  exact fun a => congrFun h3 a

/-- Without sparsity the first `k` weights span the `k`-th space. -/
lemma SnRun.span_W {Z : Fin n → Fin p → ℝ} {v : Fin n → ℝ} {l : List (SnComp n p)} (h : SnRun 0 (Matrix.of Z) v ∅ l) :
    Submodule.span ℝ (Set.range fun a : Fin l.length => (l.get a).w) = Spec.krylov Z v l.length := by
  apply Submodule.eq_of_le_of_finrank_le
  · rw [Submodule.span_le]
    rintro _ ⟨a, rfl⟩
    exact krylov_mono Z v (by omega) (h.krylov a).1
  · rw [finrank_span_eq_card h.indep_W, Fintype.card_fin]
    exact finrank_krylov_le Z v _

lemma sum_unexplained_orth {t y : Fin n → ℝ} {l : List (SnComp n p)} (hy : t ⬝ᵥ y = 0) (hl : ∀ b ∈ l, t ⬝ᵥ b.t = 0) :
    t ⬝ᵥ unexplained y l = 0 := by
  induction l with
  | nil =>
    have : unexplained y ([] : List (SnComp n p)) = y := by funext i; simp [unexplained]
    rw [this]; exact hy
  | cons a l ih =>
    have h1 := ih fun b hb => hl b (List.mem_cons_of_mem _ hb)
    have h2 := hl a (List.mem_cons_self ..)
    have : unexplained y (a :: l) = unexplained y l - a.c • a.t := by
      funext i
      simp only [unexplained, List.map_cons, List.sum_cons, Pi.sub_apply, Pi.smul_apply, smul_eq_mul]
      ring
    rw [this, dotProduct_sub, dotProduct_smul, h1, h2]
    simp

lemma unexplained_cons (y : Fin n → ℝ) (a : SnComp n p) (l : List (SnComp n p)) : unexplained y (a :: l) = unexplained (fun i => y i - a.t i * a.c) l := by
  funext i
  simp only [unexplained, List.map_cons, List.sum_cons]
  ring

/-- The unexplained part is orthogonal to the scores. -/
lemma SnRun.unexplained_orth {eta : ℝ} {X : Matrix (Fin n) (Fin p) ℝ} {y : Fin n → ℝ} {old : Finset (Fin p)} {l : List (SnComp n p)} (h : SnRun eta X y old l) :
    ∀ a ∈ l, a.t ⬝ᵥ unexplained y l = 0 := by
  induction h with
  | stop => intro a ha; simp at ha
  | step X y old good w t c ld l hcov hg hne hw ht hnz hc hld hrun ih =>
    have hr : unexplained y (⟨w, ld, c, t, good⟩ :: l : List (SnComp n p)) = unexplained (y - c • t) l := by
      funext i
      simp only [unexplained, List.map_cons, List.sum_cons, Pi.sub_apply, Pi.smul_apply, smul_eq_mul]
      ring
    rw [hr]
    intro a ha
    rcases List.mem_cons.1 ha with rfl | ha
    · refine sum_unexplained_orth ?_ (hrun.orth_of t (defl_orth X t hnz))
      rw [dotProduct_sub, dotProduct_smul, hc, smul_eq_mul, div_mul_cancel₀ _ hnz, dotProduct_comm, sub_self]
    · exact ih a ha

/-- Without sparsity the loop can be continued as long as the unexplained part is correlated with a predictor. -/
lemma snLoop_pls_succ : ∀ (k : ℕ) (X : Fin n → Fin p → ℝ) (y : Fin n → ℝ) (old : Finset (Fin p)) (l : List (SnComp n p)),
    snLoop 0 k X y old = .ok l → l.length = k → (¬ ∀ j, ∑ i, X i j * unexplained y l i = 0) → ∃ l', snLoop 0 (k + 1) X y old = .ok l'
  | 0, X, y, old, l, hl, hlen, hc => by
    have : l = [] := List.length_eq_zero_iff.mp hlen
    subst this
    have hy : unexplained y ([] : List (SnComp n p)) = y := by funext i; simp [unexplained]
    rw [hy] at hc
    rw [snLoop, if_neg hc]
    dsimp only
    obtain ⟨c, hcp, hw⟩ := snWeights_pls X y hc (old ∪ Finset.univ.filter fun j => 0 < (snWeights 0 X y).1 j)
      (fun j hj => Finset.mem_union_right _ (Finset.mem_filter.mpr ⟨Finset.mem_univ _, hj⟩))
    split
    · exact ⟨_, rfl⟩
    · split
      · rename_i hz
        exfalso
        have ht : Matrix.of X *ᵥ (c • crossVec X y) = 0 := by
          rw [← hw]
          funext i
          have := (Finset.sum_eq_zero_iff_of_nonneg (fun i _ => sq_nonneg _)).1 hz i (Finset.mem_univ _)
          exact pow_eq_zero_iff (two_ne_zero) |>.1 this
        have h1 : y ⬝ᵥ (Matrix.of X *ᵥ (c • crossVec X y)) = 0 := by rw [ht, dotProduct_zero]
        rw [dotProduct_mulVec, vecMul_crossVec, dotProduct_smul, smul_eq_mul] at h1
        have h2 : crossVec X y ⬝ᵥ crossVec X y = 0 := by
          rcases mul_eq_zero.mp h1 with h | h
          · exact absurd h hcp.ne'
          · exact h
        exact hc fun j => congrFun (dotProduct_self_eq_zero.mp h2) j
      · rw [snLoop]; exact ⟨_, rfl⟩
  | k + 1, X, y, old, l, hl, hlen, hc => by
    have hrun := (snLoop_run _ _ _ _ _ _ hl).1
    rw [snLoop] at hl
    split at hl
    · split at hl
      · simp only [Except.ok.injEq] at hl
        subst hl
        simp at hlen
      · exact absurd hl (by simp)
    · rename_i hcov
      dsimp only at hl
      split at hl
      · simp only [Except.ok.injEq] at hl
        subst hl
        simp at hlen
      · rename_i hg
        split at hl
        · exact absurd hl (by simp)
        · rename_i hnz
          split at hl
          · exact absurd hl (by simp)
          · rename_i l' hl'
            simp only [Except.ok.injEq] at hl
            subst hl
            rw [snLoop, if_neg hcov]
            dsimp only
            rw [if_neg hg, if_neg hnz]
            have hu := hrun.unexplained_orth _ (List.mem_cons_self ..)
            dsimp only at hu
            simp only [unexplained_cons] at hc hu
            obtain ⟨l2, hl2⟩ := snLoop_pls_succ k _ _ _ _ hl' (by simpa using hlen) (by
              intro hall
              apply hc
              intro j
              have := hall j
              simp only [sub_mul, Finset.sum_sub_distrib] at this
              rw [sub_eq_zero] at this
              rw [this]
              have e : ∀ a b c : ℝ, a * b * c = b * (a * c) := fun a b c => by ring
              simp only [e]
              rw [← Finset.mul_sum]
              exact mul_eq_zero_of_right _ hu)
            rw [hl2]
            exact ⟨_, rfl⟩

/-- When the loop without sparsity gives the components that are asked for. -/
lemma snLoop_pls_iff (Z : Fin n → Fin p → ℝ) (v : Fin n → ℝ) {h : ℕ} (hh : 0 < h) :
    (∃ l, snLoop 0 h Z v ∅ = .ok l) ↔ crossVec Z v = 0 ∨ h ≤ Module.finrank ℝ (krylovAll Z v) := by
  constructor
  · rintro ⟨l, hl⟩
    rcases snLoop_length (le_refl 0) one_pos h Z v ∅ l hl with hlen | ⟨-, -, hz⟩
    · right
      have hrun := (snLoop_run _ _ _ _ _ _ hl).1
      rw [← hlen, ← Fintype.card_fin l.length, ← finrank_span_eq_card hrun.indep_W]
      apply Submodule.finrank_mono
      rw [hrun.span_W]
      exact krylov_le_all Z v _
    · exact .inl (funext hz)
  · rintro (hz | hD)
    · obtain ⟨m, rfl⟩ : ∃ m, h = m + 1 := ⟨h - 1, by omega⟩
      rw [snLoop, if_pos (show ∀ j, ∑ i, Z i j * v i = 0 from fun j => congrFun hz j), if_pos rfl]
      exact ⟨_, rfl⟩
    · have hne : crossVec Z v ≠ 0 := by
        intro h0
        have : krylovAll Z v = ⊥ := by
          unfold Spec.krylovAll
          rw [Submodule.span_eq_bot]
          rintro _ ⟨m, rfl⟩
          simp [h0]
        rw [this, finrank_bot] at hD
        omega
      have key : ∀ k, k ≤ h → ∃ l, snLoop 0 k Z v ∅ = .ok l ∧ l.length = k := by
        intro k
        induction k with
        | zero => intro _; exact ⟨[], rfl, rfl⟩
        | succ k ih =>
          intro hk
          obtain ⟨l, hl, hlen⟩ := ih (by omega)
          have hrun := (snLoop_run _ _ _ _ _ _ hl).1
          obtain ⟨l', hl'⟩ := snLoop_pls_succ k Z v ∅ l hl hlen (by
            intro hall
            obtain ⟨x, hx, hxe⟩ := unexplained_krylov Z v k l (by
              intro a ha
              obtain ⟨b, rfl⟩ := List.get_of_mem ha
              obtain ⟨z, hz, hze⟩ := (hrun.krylov b).2
              exact ⟨z, krylov_mono Z v (by omega) hz, hze⟩)
            have h0 : crossVec Z (unexplained v l) = 0 := funext hall
            rw [hxe, crossVec_sub, crossVec_mulVec, sub_eq_zero] at h0
            have := (Submodule.finrank_mono (krylovAll_le_of_solution Z v hx h0.symm)).trans (finrank_krylov_le Z v k)
            omega)
          refine ⟨l', hl', ?_⟩
          rcases snLoop_length (le_refl 0) one_pos (k + 1) Z v ∅ l' hl' with h1 | ⟨-, -, hz⟩
          · exact h1
          · exact absurd (funext hz) hne
      obtain ⟨l, hl, -⟩ := key h (le_refl h)
      exact ⟨l, hl⟩

/-- **C160.** Without sparsity, the weights of the extracted components span the space generated by `s, S s, ..., S ^ (h - 1) s`, where `S` are the cross products of the standardised
predictors and `s` their cross products with the standardised response. -/
theorem C160_weights {pr : SnParams} {X : Fin n → Fin p → ℝ} {y : Fin n → ℝ} {f : SnFit n p} (h : snFit pr X y = .ok f) (he : pr.eta = 0) :
    Submodule.span ℝ (Set.range fun a : Fin f.comps.length => fun j => compW f.comps j a) =
      krylov (stdMat X f.xLoc f.xSca) (stdVec y f.yLoc f.ySca) f.comps.length := by
  have hrun := snFit_run h
  rw [he] at hrun
  exact hrun.span_W

/-- **C160.** Without sparsity, the scaled coefficients are in that space, and no other coefficients in it have a smaller residual sum of squares: SNIPLS is partial least squares. -/
theorem C160_pls {pr : SnParams} {X : Fin n → Fin p → ℝ} {y : Fin n → ℝ} {f : SnFit n p} (h : snFit pr X y = .ok f) (he : pr.eta = 0) :
    f.coefScaled ∈ krylov (stdMat X f.xLoc f.xSca) (stdVec y f.yLoc f.ySca) f.comps.length ∧
      ∀ β ∈ krylov (stdMat X f.xLoc f.xSca) (stdVec y f.yLoc f.ySca) f.comps.length,
        ∑ i, (stdVec y f.yLoc f.ySca i - lin (stdMat X f.xLoc f.xSca) f.coefScaled i) ^ 2 ≤
          ∑ i, (stdVec y f.yLoc f.ySca i - lin (stdMat X f.xLoc f.xSca) β i) ^ 2 := by
  have hrun := snFit_run h
  obtain ⟨hne, -⟩ := C45_normal_equations h
  obtain ⟨_, _, _, _, _, _, _, hc, _⟩ := snFit_inv h
  rw [snCoef_ok hrun] at hc
  simp only [Except.ok.injEq] at hc
  rw [he] at hrun
  set Z := stdMat X f.xLoc f.xSca with hZ
  set v := stdVec y f.yLoc f.ySca with hv
  have hmem : f.coefScaled ∈ Spec.krylov Z v f.comps.length := by
    have hB := congrArg Prod.snd hc
    split at hB
    · simp only at hB
      rw [← hB]
      exact Submodule.zero_mem _
    · simp only at hB
      have hgen : ∀ u : Fin f.comps.length → ℝ, compW f.comps *ᵥ u ∈ Submodule.span ℝ (Set.range fun a : Fin f.comps.length => (f.comps.get a).w) := by
        intro u
        have : compW f.comps *ᵥ u = ∑ a, u a • (f.comps.get a).w := by
          funext j
          simp only [mulVec, dotProduct, compW, Matrix.of_apply, Finset.sum_apply, Pi.smul_apply, smul_eq_mul]
          exact Finset.sum_congr rfl fun a _ => mul_comm _ _
        rw [this]
        exact Submodule.sum_mem _ fun a _ => Submodule.smul_mem _ _ (Submodule.subset_span ⟨a, rfl⟩)
      rw [← hB, ← hrun.span_W, ← mulVec_mulVec]
      exact hgen _
  refine ⟨hmem, fun β hβ => ?_⟩
  set r : Fin n → ℝ := fun i => v i - lin Z f.coefScaled i with hr
  have horth : ∀ u ∈ Spec.krylov Z v f.comps.length, r ⬝ᵥ (Matrix.of Z *ᵥ u) = 0 := by
    intro u hu
    rw [← hrun.span_W] at hu
    induction hu using Submodule.span_induction with
    | mem u hu =>
      obtain ⟨a, rfl⟩ := hu
      have hcol : Matrix.of Z *ᵥ (f.comps.get a).w = ∑ b, snQ (Matrix.of Z) f.comps b a • fun i => compT f.comps i b := by
        funext i
        have := congrFun (congrFun hrun.mul_W i) a
        simp only [Matrix.mul_apply] at this
        rw [Finset.sum_apply]
        simp only [Pi.smul_apply, smul_eq_mul]
        refine Eq.trans this (Finset.sum_congr rfl fun b _ => mul_comm _ _)
      simp only
      rw [hcol, dotProduct_sum]
      refine Finset.sum_eq_zero fun b _ => ?_
      rw [dotProduct_smul]
      have := hne b
      rw [show r ⬝ᵥ (fun i => compT f.comps i b) = 0 from this, smul_zero]
    | zero => simp
    | add x z _ _ hx hz => rw [mulVec_add, dotProduct_add, hx, hz, add_zero]
    | smul c x _ hx => rw [mulVec_smul, dotProduct_smul, hx, smul_zero]
  have h0 := horth (f.coefScaled - β) (Submodule.sub_mem _ hmem hβ)
  have hex : ∀ i, v i - lin Z β i = r i + (Matrix.of Z *ᵥ (f.coefScaled - β)) i := by
    intro i
    rw [mulVec_sub, Pi.sub_apply, ← lin_eq_mulVec, ← lin_eq_mulVec, hr]
    ring
  calc ∑ i, r i ^ 2 ≤ ∑ i, r i ^ 2 + ∑ i, ((Matrix.of Z *ᵥ (f.coefScaled - β)) i) ^ 2 := le_add_of_nonneg_right (Finset.sum_nonneg fun i _ => sq_nonneg _)
    _ = ∑ i, (r i ^ 2 + ((Matrix.of Z *ᵥ (f.coefScaled - β)) i) ^ 2) + 2 * (r ⬝ᵥ (Matrix.of Z *ᵥ (f.coefScaled - β))) := by
        rw [h0, mul_zero, add_zero, Finset.sum_add_distrib]
    _ = ∑ i, (v i - lin Z β i) ^ 2 := by
        simp only [dotProduct, hex]
        rw [Finset.mul_sum, ← Finset.sum_add_distrib]
        exact Finset.sum_congr rfl fun i _ => by ring

/-- **C160.** Without sparsity, and with predictors of nonzero scale, `fit` gives a model exactly if no more components are asked for than the dimension of the space generated by all
`S ^ m s`, or if no predictor is correlated with the response. -/
theorem C160_total (pr : SnParams) (X : Fin n → Fin p → ℝ) (y : Fin n → ℝ) (he : pr.eta = 0) (hh : 0 < pr.nComponents) (hs : ∀ j, pr.scale.run X j ≠ 0)
    (Z : Fin n → Fin p → ℝ) (hZ : Z = stdMat X (pr.centre.run X) (pr.scale.run X)) (v : Fin n → ℝ)
    (hv : v = stdVec y (pr.centre.run (asCol y) 0) (pr.scale.run (asCol y) 0)) :
    (∃ f, snFit pr X y = .ok f) ↔ crossVec Z v = 0 ∨ pr.nComponents ≤ Module.finrank ℝ (krylovAll Z v) := by
  rw [← snLoop_pls_iff Z v hh]
  constructor
  · rintro ⟨f, hf⟩
    obtain ⟨-, e1, e2, e3, e4, -, hl, -⟩ := snFit_inv hf
    rw [he] at hl
    refine ⟨f.comps, ?_⟩
    rw [hZ, hv, ← e1, ← e2, ← e3, ← e4]
    exact hl
  · rintro ⟨l, hl⟩
    obtain ⟨f, hf, -⟩ := snFit_of_loop pr X y (by rw [he]) (by rw [he]; exact one_pos) hh hs l (by rw [he, ← hZ, ← hv]; exact hl)
    exact ⟨f, hf⟩

/-- **C160.** Uncorrelated standardised predictors of equal variance allow a single component, whatever their number and rank: asking for a second one gives no model. -/
theorem C160_uncorrelated (pr : SnParams) (X : Fin n → Fin p → ℝ) (y : Fin n → ℝ) (he : pr.eta = 0) (hh : 0 < pr.nComponents) (hs : ∀ j, pr.scale.run X j ≠ 0)
    (Z : Fin n → Fin p → ℝ) (hZ : Z = stdMat X (pr.centre.run X) (pr.scale.run X)) (v : Fin n → ℝ)
    (hv : v = stdVec y (pr.centre.run (asCol y) 0) (pr.scale.run (asCol y) 0)) (c : ℝ) (hc : crossProd Z = c • (1 : Matrix (Fin p) (Fin p) ℝ)) (hne : crossVec Z v ≠ 0) :
    (∃ f, snFit pr X y = .ok f) ↔ pr.nComponents = 1 := by
  rw [C160_total pr X y he hh hs Z hZ v hv]
  have hspan : krylovAll Z v = Submodule.span ℝ {crossVec Z v} := by
    unfold Spec.krylovAll
    apply le_antisymm
    · rw [Submodule.span_le]
      rintro _ ⟨m, rfl⟩
      simp only [SetLike.mem_coe, hc, smul_pow, one_pow, smul_mulVec, one_mulVec]
      exact Submodule.smul_mem _ _ (Submodule.mem_span_singleton_self _)
    · rw [Submodule.span_le, Set.singleton_subset_iff]
      exact Submodule.subset_span ⟨0, by simp⟩
  rw [hspan, finrank_span_singleton hne]
  constructor
  · rintro (h | h)
    · exact absurd h hne
    · omega
  · intro h; exact .inr (by omega)

/-- Two uncorrelated predictors, both of them correlated with the response: the hypotheses of `C160_uncorrelated` are met and the model with two components does not exist. -/
example : (¬ ∃ f, snFit ⟨0, 2, .noneOpt, .noneOpt⟩ (![![1, 0], ![0, 1]] : Fin 2 → Fin 2 → ℝ) ![1, 2] = .ok f) ∧
    (∃ f, snFit ⟨0, 1, .noneOpt, .noneOpt⟩ (![![1, 0], ![0, 1]] : Fin 2 → Fin 2 → ℝ) ![1, 2] = .ok f) := by
  have e1 : (![![1, 0], ![0, 1]] : Fin 2 → Fin 2 → ℝ) = stdMat (![![1, 0], ![0, 1]] : Fin 2 → Fin 2 → ℝ) (Centre.noneOpt.run ![![1, 0], ![0, 1]]) (ScaleOpt.noneOpt.run ![![1, 0], ![0, 1]]) := by
    funext i j; simp [stdMat, std1, Centre.run, ScaleOpt.run]
  have e2 : (![1, 2] : Fin 2 → ℝ) = stdVec (![1, 2] : Fin 2 → ℝ) (Centre.noneOpt.run (asCol ![1, 2]) 0) (ScaleOpt.noneOpt.run (asCol ![1, 2]) 0) := by
    funext i; simp [stdVec, std1, Centre.run, ScaleOpt.run]
  have e3 : crossProd (![![1, 0], ![0, 1]] : Fin 2 → Fin 2 → ℝ) = (1 : ℝ) • (1 : Matrix (Fin 2) (Fin 2) ℝ) := by
    ext i j; fin_cases i <;> fin_cases j <;> simp [crossProd, Matrix.mul_apply, Fin.sum_univ_two]
  have e4 : crossVec (![![1, 0], ![0, 1]] : Fin 2 → Fin 2 → ℝ) ![1, 2] ≠ 0 := by
    intro h
    have := congrFun h 0
    simp [crossVec, Fin.sum_univ_two] at this
  constructor
  · rw [C160_uncorrelated ⟨0, 2, .noneOpt, .noneOpt⟩ _ _ rfl (by norm_num) (fun j => by simp [ScaleOpt.run]) _ e1 _ e2 1 e3 e4]
    norm_num
  · rw [C160_uncorrelated ⟨0, 1, .noneOpt, .noneOpt⟩ _ _ rfl (by norm_num) (fun j => by simp [ScaleOpt.run]) _ e1 _ e2 1 e3 e4]

/-- A model without sparsity that has two components (`sdLoop_pls`): the hypotheses of `C160_weights` and `C160_pls` are met, and the space has dimension 2. -/
example : ∃ f : SnFit 2 2, snFit ⟨0, 2, .noneOpt, .noneOpt⟩ (![![2, 0], ![0, 1]] : Fin 2 → Fin 2 → ℝ) ![2, 3] = .ok f ∧ f.comps.length = 2 ∧
    Module.finrank ℝ (krylov (stdMat (![![2, 0], ![0, 1]] : Fin 2 → Fin 2 → ℝ) f.xLoc f.xSca) (stdVec ![2, 3] f.yLoc f.ySca) 2) = 2 := by
  obtain ⟨f, hf, hc⟩ := snFit_of_loop ⟨0, 2, .noneOpt, .noneOpt⟩ (![![2, 0], ![0, 1]] : Fin 2 → Fin 2 → ℝ) ![2, 3] (by norm_num) (by norm_num) (by simp)
    (fun j => by simp [ScaleOpt.run]) _ (by
      have e1 : stdMat (![![2, 0], ![0, 1]] : Fin 2 → Fin 2 → ℝ) (Centre.noneOpt.run ![![2, 0], ![0, 1]]) (ScaleOpt.noneOpt.run ![![2, 0], ![0, 1]]) =
          ![![2, 0], ![0, 1]] := by
        funext i j; simp [stdMat, std1, Centre.run, ScaleOpt.run]
      have e2 : stdVec (![2, 3] : Fin 2 → ℝ) (Centre.noneOpt.run (asCol ![2, 3]) 0) (ScaleOpt.noneOpt.run (asCol ![2, 3]) 0) = ![2, 3] := by
        funext i; simp [stdVec, std1, Centre.run, ScaleOpt.run]
      rw [e1, e2]; exact sdLoop_pls)
  have hlen : f.comps.length = 2 := by rw [hc]; rfl
  refine ⟨f, hf, hlen, ?_⟩
  have h1 := C160_weights hf rfl
  have h2 : Module.finrank ℝ (krylov (stdMat (![![2, 0], ![0, 1]] : Fin 2 → Fin 2 → ℝ) f.xLoc f.xSca) (stdVec ![2, 3] f.yLoc f.ySca) f.comps.length) = f.comps.length := by
    rw [← h1]
    exact (finrank_span_eq_card (snFit_run hf).indep_W).trans (Fintype.card_fin _)
  rwa [hlen] at h2

end Direpack
