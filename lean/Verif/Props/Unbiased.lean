import Verif.Props.DicomoDist3
import Verif.Props.SudireObj
import Mathlib.Data.Fintype.CardEmbedding

/-! C180: bias corrected distance statistics. -/

namespace Direpack

open scoped BigOperators
open Spec

variable {n m p q : ℕ}

/-! ### U-centred sums of products -/

/-- Row sums of a U-centred matrix against any function of the row. -/
lemma sum_ucen_mul_row (hn : 3 ≤ n) (a : Fin n → Fin n → ℝ) (ha : ∀ i j, a i j = a j i) (h0 : ∀ i, a i i = 0) (w : Fin n → ℝ) :
    ∑ i, ∑ j, ucen a i j * w i = 0 := by
  refine Finset.sum_eq_zero fun i _ => ?_
  rw [← Finset.sum_mul, ucen_row hn a ha h0, zero_mul]

lemma sum_ucen_mul_col (hn : 3 ≤ n) (a : Fin n → Fin n → ℝ) (ha : ∀ i j, a i j = a j i) (h0 : ∀ i, a i i = 0) (w : Fin n → ℝ) :
    ∑ i, ∑ j, ucen a i j * w j = 0 := by
  rw [Finset.sum_comm, ← sum_ucen_mul_row hn a ha h0 w]
  refine Finset.sum_congr rfl fun i _ => Finset.sum_congr rfl fun j _ => ?_
  rw [ucen_symm a ha]

/-- The sum of the products of two U-centred matrices in terms of the sums of the matrices themselves. -/
lemma sum_ucen_ucen (hn : 3 ≤ n) (a b : Fin n → Fin n → ℝ) (ha : ∀ i j, a i j = a j i) (hb : ∀ i j, b i j = b j i) (ha0 : ∀ i, a i i = 0)
    (hb0 : ∀ i, b i i = 0) :
    ∑ i, ∑ j, ucen a i j * ucen b i j = (∑ i, ∑ j, a i j * b i j) - 2 / ((n : ℝ) - 2) * (∑ i, (∑ j, a i j) * ∑ j, b i j)
      + (∑ i, ∑ j, a i j) * (∑ i, ∑ j, b i j) / (((n : ℝ) - 1) * ((n : ℝ) - 2)) := by
  have cb : ∀ j, ∑ k, b k j = ∑ k, b j k := fun j => Finset.sum_congr rfl fun k _ => hb k j
  have ca : ∀ j, ∑ k, a k j = ∑ k, a j k := fun j => Finset.sum_congr rfl fun k _ => ha k j
  have e1 : ∀ i j, ucen a i j * ucen b i j = ucen a i j * b i j - ucen a i j * ((∑ k, b i k) / ((n : ℝ) - 2)) - ucen a i j * ((∑ k, b j k) / ((n : ℝ) - 2))
      + ucen a i j * ((fun _ : Fin n => (∑ k, ∑ l, b k l) / (((n : ℝ) - 1) * ((n : ℝ) - 2))) i) := by
    intro i j
    by_cases h : i = j
    · subst h
      simp [ucen]
    · rw [show ucen b i j = _ from rfl]
      unfold ucen
      rw [if_neg h, cb]
      simp only [if_neg h]
      ring
  have e2 : ∀ i j, ucen a i j * b i j = a i j * b i j - (∑ k, a i k) / ((n : ℝ) - 2) * b i j - (∑ k, a j k) / ((n : ℝ) - 2) * b j i
      + (∑ k, ∑ l, a k l) / (((n : ℝ) - 1) * ((n : ℝ) - 2)) * b i j := by
    intro i j
    by_cases h : i = j
    · subst h
      simp [hb0]
    · unfold ucen
      rw [if_neg h, ca, hb j i]
      ring
  have hs : ∑ i, ∑ j, ucen a i j * ucen b i j = ∑ i, ∑ j, ucen a i j * b i j := by
    simp only [e1, Finset.sum_add_distrib, Finset.sum_sub_distrib]
    rw [sum_ucen_mul_row hn a ha ha0 fun i => (∑ k, b i k) / ((n : ℝ) - 2), sum_ucen_mul_col hn a ha ha0 fun i => (∑ k, b i k) / ((n : ℝ) - 2),
      sum_ucen_mul_row hn a ha ha0]
    ring
  rw [hs]
  simp only [e2, Finset.sum_add_distrib, Finset.sum_sub_distrib]
  have f1 : ∑ i, ∑ j, (∑ k, a i k) / ((n : ℝ) - 2) * b i j = 1 / ((n : ℝ) - 2) * ∑ i, (∑ j, a i j) * ∑ j, b i j := by
    rw [Finset.mul_sum]
    refine Finset.sum_congr rfl fun i _ => ?_
    rw [← Finset.mul_sum]
    ring
  have f2 : ∑ i, ∑ j, (∑ k, a j k) / ((n : ℝ) - 2) * b j i = 1 / ((n : ℝ) - 2) * ∑ i, (∑ j, a i j) * ∑ j, b i j := by
    rw [Finset.sum_comm, f1]
  have f3 : ∑ i, ∑ j, (∑ k, ∑ l, a k l) / (((n : ℝ) - 1) * ((n : ℝ) - 2)) * b i j
      = (∑ i, ∑ j, a i j) * (∑ i, ∑ j, b i j) / (((n : ℝ) - 1) * ((n : ℝ) - 2)) := by
    simp only [← Finset.mul_sum]
    ring
  rw [f1, f2, f3]
  ring

/-! ### Leaving out one case -/

lemma sum_succAbove (f : Fin (n + 1) → ℝ) (k : Fin (n + 1)) : ∑ i, f (k.succAbove i) = (∑ i, f i) - f k := by
  rw [Fin.sum_univ_succAbove f k]
  ring

/-- The sum of products of U-centred matrices, divided by `n (n - 3)`. -/
noncomputable def uprod {n : ℕ} (a b : Fin n → Fin n → ℝ) : ℝ := (∑ i, ∑ j, ucen a i j * ucen b i j) / ((n : ℝ) * ((n : ℝ) - 3))

/-- The average over all ways to leave out one case. -/
lemma uprod_leave (hn : 4 ≤ n) (a b : Fin (n + 1) → Fin (n + 1) → ℝ) (ha : ∀ i j, a i j = a j i) (hb : ∀ i j, b i j = b j i) (ha0 : ∀ i, a i i = 0)
    (hb0 : ∀ i, b i i = 0) :
    ∑ k : Fin (n + 1), uprod (fun i j => a (k.succAbove i) (k.succAbove j)) (fun i j => b (k.succAbove i) (k.succAbove j)) = (n + 1) * uprod a b := by
  have hr : (4 : ℝ) ≤ n := by exact_mod_cast hn
  set T1 := ∑ i, ∑ j, a i j * b i j with hT1
  set T2 := ∑ i, (∑ j, a i j) * ∑ j, b i j with hT2
  set A := ∑ i, ∑ j, a i j with hA
  set B := ∑ i, ∑ j, b i j with hB
  have rowA : ∀ k i : Fin (n + 1), ∑ j, a i (k.succAbove j) = (∑ j, a i j) - a i k := fun k i => sum_succAbove (fun j => a i j) k
  have rowB : ∀ k i : Fin (n + 1), ∑ j, b i (k.succAbove j) = (∑ j, b i j) - b i k := fun k i => sum_succAbove (fun j => b i j) k
  have ca : ∀ j, ∑ k, a k j = ∑ k, a j k := fun j => Finset.sum_congr rfl fun k _ => ha k j
  have cb : ∀ j, ∑ k, b k j = ∑ k, b j k := fun j => Finset.sum_congr rfl fun k _ => hb k j
  have t1 : ∀ k : Fin (n + 1), ∑ i, ∑ j, a (k.succAbove i) (k.succAbove j) * b (k.succAbove i) (k.succAbove j) = T1 - 2 * ∑ j, a k j * b k j := by
    intro k
    have e : ∀ i : Fin (n + 1), ∑ j, a i (k.succAbove j) * b i (k.succAbove j) = (∑ j, a i j * b i j) - a i k * b i k :=
      fun i => sum_succAbove (fun j => a i j * b i j) k
    simp only [e]
    rw [sum_succAbove (fun i => (∑ j, a i j * b i j) - a i k * b i k) k, Finset.sum_sub_distrib, ha0]
    have : ∑ i, a i k * b i k = ∑ j, a k j * b k j := Finset.sum_congr rfl fun i _ => by rw [ha, hb]
    rw [this]
    ring
  have tA : ∀ k : Fin (n + 1), ∑ i, ∑ j, a (k.succAbove i) (k.succAbove j) = A - 2 * ∑ j, a k j := by
    intro k
    simp only [rowA]
    rw [sum_succAbove (fun i => (∑ j, a i j) - a i k) k, Finset.sum_sub_distrib, ha0, ca]
    ring
  have tB : ∀ k : Fin (n + 1), ∑ i, ∑ j, b (k.succAbove i) (k.succAbove j) = B - 2 * ∑ j, b k j := by
    intro k
    simp only [rowB]
    rw [sum_succAbove (fun i => (∑ j, b i j) - b i k) k, Finset.sum_sub_distrib, hb0, cb]
    ring
  have t2 : ∀ k : Fin (n + 1), ∑ i, (∑ j, a (k.succAbove i) (k.succAbove j)) * (∑ j, b (k.succAbove i) (k.succAbove j)) =
      T2 - (∑ i, (∑ j, a i j) * b i k) - (∑ i, a i k * (∑ j, b i j)) + (∑ i, a i k * b i k) - (∑ j, a k j) * (∑ j, b k j) := by
    intro k
    simp only [rowA, rowB]
    rw [sum_succAbove (fun i => ((∑ j, a i j) - a i k) * ((∑ j, b i j) - b i k)) k, ha0, hb0, hT2, ← Finset.sum_sub_distrib, ← Finset.sum_sub_distrib,
      ← Finset.sum_add_distrib]
    congr 1
    · refine Finset.sum_congr rfl fun i _ => ?_
      ring
    · ring
  have s1 : ∑ k : Fin (n + 1), ∑ i, ∑ j, a (k.succAbove i) (k.succAbove j) * b (k.succAbove i) (k.succAbove j) = ((n : ℝ) - 1) * T1 := by
    simp only [t1]
    rw [Finset.sum_sub_distrib, ← Finset.mul_sum, Finset.sum_const, Finset.card_univ, Fintype.card_fin, nsmul_eq_mul]
    push_cast
    ring
  have s2 : ∑ k : Fin (n + 1), ∑ i, (∑ j, a (k.succAbove i) (k.succAbove j)) * (∑ j, b (k.succAbove i) (k.succAbove j)) = ((n : ℝ) - 2) * T2 + T1 := by
    simp only [t2]
    rw [Finset.sum_sub_distrib, Finset.sum_add_distrib, Finset.sum_sub_distrib, Finset.sum_sub_distrib, Finset.sum_const, Finset.card_univ, Fintype.card_fin,
      nsmul_eq_mul]
    have g1 : ∑ k, ∑ i, (∑ j, a i j) * b i k = T2 := by
      rw [Finset.sum_comm]
      exact Finset.sum_congr rfl fun i _ => by rw [← Finset.mul_sum]
    have g2 : ∑ k, ∑ i, a i k * (∑ j, b i j) = T2 := by
      rw [Finset.sum_comm]
      exact Finset.sum_congr rfl fun i _ => by rw [← Finset.sum_mul]
    have g3 : ∑ k, ∑ i, a i k * b i k = T1 := Finset.sum_comm
    rw [g1, g2, g3, ← hT2]
    push_cast
    ring
  have s3 : ∑ k : Fin (n + 1), (∑ i, ∑ j, a (k.succAbove i) (k.succAbove j)) * (∑ i, ∑ j, b (k.succAbove i) (k.succAbove j)) =
      ((n : ℝ) - 3) * (A * B) + 4 * T2 := by
    simp only [tA, tB]
    have e : ∀ k : Fin (n + 1), (A - 2 * ∑ j, a k j) * (B - 2 * ∑ j, b k j) =
        A * B - 2 * A * (∑ j, b k j) - 2 * B * (∑ j, a k j) + 4 * ((∑ j, a k j) * ∑ j, b k j) := fun k => by ring
    simp only [e]
    rw [Finset.sum_add_distrib, Finset.sum_sub_distrib, Finset.sum_sub_distrib, Finset.sum_const, Finset.card_univ, Fintype.card_fin, nsmul_eq_mul,
      ← Finset.mul_sum, ← Finset.mul_sum, ← Finset.mul_sum, ← hA, ← hB, ← hT2]
    push_cast
    ring
  unfold uprod
  have eU : ∀ k : Fin (n + 1), _ := fun k => sum_ucen_ucen (n := n) (by omega) (fun i j => a (k.succAbove i) (k.succAbove j)) (fun i j => b (k.succAbove i) (k.succAbove j))
    (fun i j => ha _ _) (fun i j => hb _ _) (fun i => ha0 _) (fun i => hb0 _)
  simp only [eU]
  rw [sum_ucen_ucen (by omega) a b ha hb ha0 hb0, ← Finset.sum_div, Finset.sum_add_distrib, Finset.sum_sub_distrib, ← Finset.mul_sum, ← Finset.sum_div,
    s1, s2, s3, ← hT1, ← hT2, ← hA, ← hB]
  have h1 : (n : ℝ) - 1 ≠ 0 := by linarith
  have h2 : (n : ℝ) - 2 ≠ 0 := by linarith
  have h3 : (n : ℝ) - 3 ≠ 0 := by linarith
  have h0 : (n : ℝ) ≠ 0 := by linarith
  have h4 : (n : ℝ) + 1 ≠ 0 := by linarith
  push_cast
  have k1 : (n : ℝ) + 1 - 1 ≠ 0 := by linarith
  have k2 : (n : ℝ) + 1 - 2 ≠ 0 := by linarith
  have k3 : (n : ℝ) + 1 - 3 ≠ 0 := by linarith
  field_simp
  ring

/-! ### Subsamples of any size -/

/-- Summing over the case left out and the subsamples of the others counts each subsample once for each case not in it. -/
lemma sum_emb_succAbove (g : (Fin m ↪ Fin (n + 1)) → ℝ) :
    ∑ k : Fin (n + 1), ∑ f : Fin m ↪ Fin n, g (f.trans (Fin.succAboveEmb k)) = ((n + 1 - m : ℕ) : ℝ) * ∑ f, g f := by
  classical
  have h1 : ∀ k : Fin (n + 1), ∑ f : Fin m ↪ Fin n, g (f.trans (Fin.succAboveEmb k)) = ∑ f : Fin m ↪ Fin (n + 1), if k ∈ Finset.univ.map f then 0 else g f := by
    intro k
    rw [Finset.sum_ite, Finset.sum_const_zero, zero_add]
    refine Finset.sum_nbij (fun f => f.trans (Fin.succAboveEmb k)) ?_ ?_ ?_ fun _ _ => rfl
    · intro f _
      simp [Fin.succAbove_ne]
    · intro f _ f' _ h
      ext i
      have := congrArg (fun e : Fin m ↪ Fin (n + 1) => e i) h
      exact congrArg Fin.val (Fin.succAbove_right_injective this)
    · intro f hf
      have hf' : ∀ i, f i ≠ k := by
        simpa using hf
      choose z hz using fun i => Fin.exists_succAbove_eq (hf' i)
      refine ⟨⟨z, fun i j h => f.injective ?_⟩, by simp, ?_⟩
      · rw [← hz i, ← hz j, h]
      · ext i
        exact congrArg Fin.val (hz i)
  simp only [h1]
  rw [Finset.sum_comm, Finset.mul_sum]
  refine Finset.sum_congr rfl fun f _ => ?_
  rw [Finset.sum_ite, Finset.sum_const_zero, zero_add, Finset.sum_const, nsmul_eq_mul]
  congr 2
  have : (Finset.univ.filter fun k => k ∉ Finset.univ.map f) = (Finset.univ.map f)ᶜ := by
    ext k
    simp
  rw [this, Finset.card_compl, Finset.card_map, Finset.card_univ, Fintype.card_fin, Fintype.card_fin]

lemma ucen_reindex (σ : Equiv.Perm (Fin n)) (a : Fin n → Fin n → ℝ) (i j : Fin n) : ucen (fun i j => a (σ i) (σ j)) i j = ucen a (σ i) (σ j) := by
  unfold ucen
  simp only [EmbeddingLike.apply_eq_iff_eq]
  rw [Equiv.sum_comp σ fun k => a (σ i) k, Equiv.sum_comp σ fun k => a k (σ j), Equiv.sum_comp σ fun k => ∑ l, a k (σ l)]
  simp only [fun k => Equiv.sum_comp σ fun l => a k l]

lemma uprod_reindex (σ : Equiv.Perm (Fin n)) (a b : Fin n → Fin n → ℝ) :
    uprod (fun i j => a (σ i) (σ j)) (fun i j => b (σ i) (σ j)) = uprod a b := by
  unfold uprod
  simp only [ucen_reindex]
  rw [Equiv.sum_comp σ fun i => ∑ j, ucen a i (σ j) * ucen b i (σ j)]
  simp only [fun i => Equiv.sum_comp σ fun j => ucen a i j * ucen b i j]

/-- The average over all subsamples of `m` cases. -/
lemma uprod_subsamples (hm : 4 ≤ m) (d : ℕ) (a b : Fin (m + d) → Fin (m + d) → ℝ) (ha : ∀ i j, a i j = a j i) (hb : ∀ i j, b i j = b j i) (ha0 : ∀ i, a i i = 0)
    (hb0 : ∀ i, b i i = 0) :
    ∑ f : Fin m ↪ Fin (m + d), uprod (fun i j => a (f i) (f j)) (fun i j => b (f i) (f j)) = Fintype.card (Fin m ↪ Fin (m + d)) * uprod a b := by
  induction d with
  | zero =>
    have : ∀ f : Fin m ↪ Fin (m + 0), uprod (fun i j => a (f i) (f j)) (fun i j => b (f i) (f j)) = uprod a b := fun f =>
      uprod_reindex (Equiv.ofBijective f (Finite.injective_iff_bijective.mp f.injective)) a b
    simp only [this, Finset.sum_const, Finset.card_univ, nsmul_eq_mul]
  | succ d ih =>
    have h1 := sum_emb_succAbove (n := m + d) (m := m) fun f => uprod (fun i j => a (f i) (f j)) (fun i j => b (f i) (f j))
    have h2 := sum_emb_succAbove (n := m + d) (m := m) fun _ => 1
    have h3 : ∀ k : Fin (m + d + 1), _ := fun k => ih (fun i j => a (k.succAbove i) (k.succAbove j)) (fun i j => b (k.succAbove i) (k.succAbove j))
      (fun _ _ => ha _ _) (fun _ _ => hb _ _) (fun _ => ha0 _) (fun _ => hb0 _)
    simp only [Function.Embedding.trans_apply, Fin.succAboveEmb_apply, h3] at h1
    rw [← Finset.mul_sum, uprod_leave (n := m + d) (by omega) a b ha hb ha0 hb0] at h1
    simp only [Finset.sum_const, Finset.card_univ, nsmul_eq_mul, mul_one, Fintype.card_fin] at h2
    have hd : ((m + d + 1 - m : ℕ) : ℝ) = d + 1 := by
      rw [show m + d + 1 - m = d + 1 by omega]
      push_cast
      ring
    rw [hd] at h1 h2
    have hd0 : (d : ℝ) + 1 ≠ 0 := by positivity
    apply mul_left_cancel₀ hd0
    refine h1.symm.trans ?_
    have h2' : (d + 1 : ℝ) * (Fintype.card (Fin m ↪ Fin (m + (d + 1))) : ℝ) = ((m + d + 1 : ℕ) : ℝ) * (Fintype.card (Fin m ↪ Fin (m + d)) : ℝ) := h2.symm
    rw [← mul_assoc (d + 1 : ℝ), h2']
    push_cast
    ring

/-! ### All pairings -/

/-- A matrix with zero diagonal and zero row sums, summed over all reorderings of its rows and columns. -/
lemma sum_perm_zero (b : Fin n → Fin n → ℝ) (h0 : ∀ i, b i i = 0) (hr : ∀ i, ∑ j, b i j = 0) (i j : Fin n) :
    ∑ σ : Equiv.Perm (Fin n), b (σ i) (σ j) = 0 := by
  classical
  by_cases hij : i = j
  · subst hij
    simp [h0]
  have heq : ∀ k, i ≠ k → ∑ σ : Equiv.Perm (Fin n), b (σ i) (σ k) = ∑ σ : Equiv.Perm (Fin n), b (σ i) (σ j) := by
    intro k hk
    rw [← Equiv.sum_comp (Equiv.mulRight (Equiv.swap j k))]
    refine Finset.sum_congr rfl fun σ _ => ?_
    simp [Equiv.swap_apply_of_ne_of_ne hij hk]
  have hs : ∑ k, ∑ σ : Equiv.Perm (Fin n), b (σ i) (σ k) = 0 := by
    rw [Finset.sum_comm]
    refine Finset.sum_eq_zero fun σ _ => ?_
    rw [Equiv.sum_comp σ fun k => b (σ i) k, hr]
  have hs' : ∑ k, ∑ σ : Equiv.Perm (Fin n), b (σ i) (σ k) = ∑ k, if i = k then 0 else ∑ σ : Equiv.Perm (Fin n), b (σ i) (σ j) := by
    refine Finset.sum_congr rfl fun k _ => ?_
    by_cases hk : i = k
    · subst hk
      simp [h0]
    · rw [if_neg hk, heq k hk]
  rw [hs, Finset.sum_ite, Finset.sum_const_zero, zero_add, Finset.sum_const, nsmul_eq_mul] at hs'
  rcases mul_eq_zero.mp hs'.symm with h | h
  · exfalso
    have : (Finset.univ.filter fun k => ¬ i = k) = ∅ := by
      exact_mod_cast Finset.card_eq_zero.mp (by exact_mod_cast h)
    have hj : j ∈ (Finset.univ.filter fun k => ¬ i = k) := by simp [hij]
    rw [this] at hj
    simp at hj
  · exact h

lemma uprod_pairings (hn : 3 ≤ n) (a b : Fin n → Fin n → ℝ) (hb : ∀ i j, b i j = b j i) (hb0 : ∀ i, b i i = 0) :
    ∑ σ : Equiv.Perm (Fin n), uprod a (fun i j => b (σ i) (σ j)) = 0 := by
  unfold uprod
  simp only [ucen_reindex]
  rw [← Finset.sum_div, Finset.sum_comm]
  rw [Finset.sum_eq_zero, zero_div]
  intro i _
  rw [Finset.sum_comm]
  refine Finset.sum_eq_zero fun j _ => ?_
  rw [← Finset.mul_sum, sum_perm_zero _ (by simp [ucen]) (ucen_row hn b hb hb0), mul_zero]

/-! ### C180 -/

lemma unbiasedDcov2_uprod (x : Fin n → Fin p → ℝ) (y : Fin n → Fin q → ℝ) :
    unbiasedDcov2 x y = uprod (edist x) (edist y) := rfl

lemma umdd2_uprod (x : Fin n → Fin p → ℝ) (y : Fin n → ℝ) :
    umdd2 x y = uprod (edist x) fun i j => (y i - y j) ^ 2 / 2 := rfl

/-- C180: with `biascorr=True` the function `difference_divergence` gives a number for all data, and the average of these numbers over all subsamples (ordered, without
replacement) of any size from four up is the number for all the data.  So for data drawn from a population the squared martingale difference divergence is
estimated without bias, at every sample size. -/
theorem C180_mdd_subsamples {N : ℕ} (hm : 4 ≤ m) (hN : m ≤ N) (x : Fin N → Fin p → ℝ) (y : Fin N → ℝ) :
    ∃ (U : ℝ) (u : (Fin m ↪ Fin N) → ℝ), differenceDivergence .mean 0 true x y = .ok U ∧
      (∀ f : Fin m ↪ Fin N, differenceDivergence .mean 0 true (fun i => x (f i)) (fun i => y (f i)) = .ok (u f)) ∧
      (∑ f, u f) / Fintype.card (Fin m ↪ Fin N) = U := by
  obtain ⟨d, rfl⟩ := Nat.exists_eq_add_of_le hN
  refine ⟨_, fun f => umdd2 (fun i => x (f i)) (fun i => y (f i)), differenceDivergence_biascorr (by omega) x y, fun f => differenceDivergence_biascorr (by omega) _ _, ?_⟩
  have hc : (Fintype.card (Fin m ↪ Fin (m + d)) : ℝ) ≠ 0 := by
    have : Nonempty (Fin m ↪ Fin (m + d)) := ⟨Fin.castAddEmb d⟩
    exact_mod_cast Fintype.card_ne_zero
  rw [div_eq_iff hc, mul_comm, umdd2_uprod, ← uprod_subsamples hm d]
  · rfl
  · exact edist_symm x
  · intro i j; ring
  · exact edist_self x
  · intro i; ring

/-- C180: the average over all ways to pair the responses with the predictors is zero, as it should be if there is no relation between them. -/
theorem C180_mdd_pairings (hn : 3 ≤ n) (x : Fin n → Fin p → ℝ) (y : Fin n → ℝ) :
    ∃ u : Equiv.Perm (Fin n) → ℝ, (∀ σ : Equiv.Perm (Fin n), differenceDivergence .mean 0 true x (fun i => y (σ i)) = .ok (u σ)) ∧ ∑ σ, u σ = 0 := by
  refine ⟨fun σ => umdd2 x fun i => y (σ i), fun σ => differenceDivergence_biascorr (by omega) _ _, ?_⟩
  exact uprod_pairings hn (edist x) (fun i j => (y i - y j) ^ 2 / 2) (fun i j => by ring) (fun i => by ring)

/-- The numbers are not all zero: for these four cases the divergence is positive. -/
example : ∃ (x : Fin 4 → Fin 1 → ℝ) (y : Fin 4 → ℝ) (v : ℝ), 0 < v ∧ differenceDivergence .mean 0 true x y = .ok v := by
  refine ⟨pairsX, pairsY, _, ?_, differenceDivergence_biascorr (by norm_num) _ _⟩
  unfold umdd2
  rw [pairs_dist]
  simp [ucen, Fin.sum_univ_four, pairsY]
  norm_num

/-- C180 (partial: distance covariance by the fast algorithm, where no subsample gives NaN): if `dicomo` gives a number for each subsample of `m` cases, then it gives a number for
all the data, and the average of the squares over the subsamples is the square of that number. -/
theorem C180_dcov_subsamples_partial {N : ℕ} (hm : 4 ≤ m) (hN : m ≤ N) (a : FitArgs) (ht : a.trimming = 0) (hb : a.biascorr = true) (hy : a.y1d = false)
    (hf : a.fast = true) (x : Fin N → Fin p → ℝ) (y : Fin N → Fin q → ℝ) (v : (Fin m ↪ Fin N) → ℝ)
    (hv : ∀ f : Fin m ↪ Fin N, run .distance .cov .mean a (dmat fun i => x (f i)) (dmat fun i => y (f i)) = .ok (v f)) :
    ∃ V, run .distance .cov .mean a (dmat x) (dmat y) = .ok V ∧ (∑ f, v f ^ 2) / Fintype.card (Fin m ↪ Fin N) = V ^ 2 := by
  obtain ⟨d, rfl⟩ := Nat.exists_eq_add_of_le hN
  have ea : ({ a with fast := true } : FitArgs) = a := by rw [← hf]
  have hc : (0 : ℝ) < (Fintype.card (Fin m ↪ Fin (m + d)) : ℝ) := by
    have : Nonempty (Fin m ↪ Fin (m + d)) := ⟨Fin.castAddEmb d⟩
    exact_mod_cast Fintype.card_pos
  have hu : ∀ f : Fin m ↪ Fin (m + d), v f ^ 2 = uprod (fun i j => edist x (f i) (f j)) (fun i j => edist y (f i) (f j)) := by
    intro f
    have h1 := (C36_biascorr_cov_partial hm a ht hb hy (fun i => x (f i)) (fun i => y (f i))).1
    rw [ea, hv f] at h1
    by_cases hneg : unbiasedDcov2 (fun i => x (f i)) (fun i => y (f i)) < 0
    · rw [if_pos hneg] at h1
      cases h1
    · rw [if_neg hneg] at h1
      have h2 := Except.ok.inj h1
      rw [h2, Real.sq_sqrt (not_lt.mp hneg)]
      rfl
  have hs := uprod_subsamples hm d (edist x) (edist y) (edist_symm x) (edist_symm y) (edist_self x) (edist_self y)
  simp only [← hu] at hs
  rw [← unbiasedDcov2_uprod] at hs
  have hU : unbiasedDcov2 x y = (∑ f, v f ^ 2) / Fintype.card (Fin m ↪ Fin (m + d)) := by
    rw [eq_div_iff hc.ne', mul_comm]
    exact hs.symm
  have h0 : 0 ≤ unbiasedDcov2 x y := by
    rw [hU]
    exact div_nonneg (Finset.sum_nonneg fun _ _ => sq_nonneg _) hc.le
  have h1 := (C36_biascorr_cov_partial (by omega : 4 ≤ m + d) a ht hb hy x y).1
  rw [ea, if_neg (not_lt.mpr h0)] at h1
  exact ⟨_, h1, by rw [Real.sq_sqrt h0, hU]⟩

/-- C180 is violated by the distance covariance of the fast algorithm: for any data, either the covariance is zero for every pairing of the responses with the predictors, or it is
NaN for some pairing. -/
theorem C180_dcov_fast_violated (hn : 4 ≤ n) (a : FitArgs) (ht : a.trimming = 0) (hb : a.biascorr = true) (hy : a.y1d = false) (hf : a.fast = true)
    (x : Fin n → Fin p → ℝ) (y : Fin n → Fin q → ℝ) :
    (∀ σ : Equiv.Perm (Fin n), run .distance .cov .mean a (dmat x) (dmat fun i => y (σ i)) = .ok 0) ∨
      ∃ σ : Equiv.Perm (Fin n), run .distance .cov .mean a (dmat x) (dmat fun i => y (σ i)) = .error .other := by
  have ea : ({ a with fast := true } : FitArgs) = a := by rw [← hf]
  have hr : ∀ σ : Equiv.Perm (Fin n), _ := fun σ => (C36_biascorr_cov_partial hn a ht hb hy x fun i => y (σ i)).1
  rw [ea] at hr
  have hs : ∑ σ : Equiv.Perm (Fin n), unbiasedDcov2 x (fun i => y (σ i)) = 0 :=
    uprod_pairings (by omega) (edist x) (edist y) (edist_symm y) (edist_self y)
  by_cases hneg : ∃ σ : Equiv.Perm (Fin n), unbiasedDcov2 x (fun i => y (σ i)) < 0
  · obtain ⟨σ, hσ⟩ := hneg
    exact Or.inr ⟨σ, by rw [hr σ, if_pos hσ]⟩
  · push Not at hneg
    refine Or.inl fun σ => ?_
    rw [hr σ, if_neg (not_lt.mpr (hneg σ)), (Finset.sum_eq_zero_iff_of_nonneg fun τ _ => hneg τ).mp hs σ (Finset.mem_univ σ), Real.sqrt_zero]

/-- C180 is violated by the distance covariance of the naive algorithm: it always gives a number, but unless it is zero for every pairing, the average over all pairings is
positive, as if responses without relation to the predictors depended on them. -/
theorem C180_dcov_naive_violated (hn : 4 ≤ n) (a : FitArgs) (ht : a.trimming = 0) (hb : a.biascorr = true) (hy : a.y1d = false) (hf : a.fast = false)
    (x : Fin n → Fin p → ℝ) (y : Fin n → Fin q → ℝ) :
    ∃ v : Equiv.Perm (Fin n) → ℝ, (∀ σ : Equiv.Perm (Fin n), run .distance .cov .mean a (dmat x) (dmat fun i => y (σ i)) = .ok (v σ)) ∧
      ((∀ σ, v σ = 0) ∨ 0 < ∑ σ, v σ) := by
  have ea : ({ a with fast := false } : FitArgs) = a := by rw [← hf]
  have hr : ∀ σ : Equiv.Perm (Fin n), _ := fun σ => (C36_biascorr_cov_partial hn a ht hb hy x fun i => y (σ i)).2.1
  rw [ea] at hr
  refine ⟨_, hr, ?_⟩
  by_cases h : ∀ σ : Equiv.Perm (Fin n), √|unbiasedDcov2 x fun i => y (σ i)| = 0
  · exact Or.inl h
  · push Not at h
    obtain ⟨σ, hσ⟩ := h
    refine Or.inr (Finset.sum_pos' (fun τ _ => Real.sqrt_nonneg _) ⟨σ, Finset.mem_univ σ, lt_of_le_of_ne (Real.sqrt_nonneg _) hσ.symm⟩)

/-- The second alternatives do occur: the covariance of these data is not zero for the pairing given. -/
theorem C180_dcov_violated :
    ∃ x y : Fin 4 → Fin 1 → ℝ,
      (∃ σ : Equiv.Perm (Fin 4), run .distance .cov .mean { biascorr := true, fast := true } (dmat x) (dmat fun i => y (σ i)) = .error .other) ∧
      ∃ v : Equiv.Perm (Fin 4) → ℝ, (∀ σ : Equiv.Perm (Fin 4),
        run .distance .cov .mean { biascorr := true, fast := false } (dmat x) (dmat fun i => y (σ i)) = .ok (v σ)) ∧ 0 < ∑ σ, v σ := by
  obtain ⟨x, y, h1, h2⟩ := C36_biascorr_violated
  refine ⟨x, y, ⟨1, h1⟩, ?_⟩
  obtain ⟨v, hv, h⟩ := C180_dcov_naive_violated (by norm_num) { biascorr := true, fast := false } rfl rfl rfl rfl x y
  refine ⟨v, hv, h.resolve_left fun h0 => ?_⟩
  have e := hv 1
  rw [show (fun i => y ((1 : Equiv.Perm (Fin 4)) i)) = y from rfl, h2, h0] at e
  have := Except.ok.inj e
  rw [Real.sqrt_eq_zero'] at this
  norm_num at this

end Direpack
