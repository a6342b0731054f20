import Mathlib.Tactic.Linarith
import Mathlib.Tactic.Positivity
import Mathlib.Tactic.FieldSimp
import Mathlib.Tactic.Ring
import Mathlib.Algebra.Order.BigOperators.Group.List
import Mathlib.Algebra.BigOperators.Ring.List
import Mathlib.Algebra.BigOperators.Fin
import Mathlib.Data.List.FinRange
import Mathlib.Data.List.Count
import Mathlib.Data.List.GetD
import Mathlib.Algebra.BigOperators.Group.Finset.Basic
import Verif.Num

/-! Helper lemmas about the numpy primitives of `Verif.Num`. -/

set_option linter.unusedSectionVars false

namespace Direpack

variable {K : Type} [Field K] [LinearOrder K] [IsStrictOrderedRing K]

lemma sortL_perm (l : List K) : (sortL l).Perm l := List.perm_insertionSort _ l

lemma sortL_length (l : List K) : (sortL l).length = l.length := (sortL_perm l).length_eq

lemma sortL_sorted (l : List K) : (sortL l).Pairwise (· ≤ ·) :=
  List.pairwise_insertionSort _ l

lemma sortL_unique {l s : List K} (hp : s.Perm l) (hs : s.Pairwise (· ≤ ·)) : sortL l = s :=
  ((sortL_perm l).trans hp.symm).eq_of_pairwise' (sortL_sorted l) hs

lemma sortL_congr {l l' : List K} (hp : l.Perm l') : sortL l = sortL l' :=
  sortL_unique ((sortL_perm l').trans hp.symm) (sortL_sorted l')

lemma sortL_map_mono {f : K → K} (hf : Monotone f) (l : List K) :
    sortL (l.map f) = (sortL l).map f := by
  apply sortL_unique ((sortL_perm l).map f)
  rw [List.pairwise_map]
  exact (sortL_sorted l).imp (fun h => hf h)

lemma sortL_map_anti {f : K → K} (hf : Antitone f) (l : List K) :
    sortL (l.map f) = ((sortL l).map f).reverse := by
  apply sortL_unique
  · exact (List.reverse_perm _).trans ((sortL_perm l).map f)
  · rw [List.pairwise_reverse, List.pairwise_map]
    exact (sortL_sorted l).imp (fun h => hf h)

lemma sortL_mem {l : List K} {x : K} : x ∈ sortL l ↔ x ∈ l := (sortL_perm l).mem_iff

lemma sortL_getElem_le {l : List K} {i j : ℕ} (hij : i ≤ j) (hj : j < (sortL l).length) :
    (sortL l)[i]'(lt_of_le_of_lt hij hj) ≤ (sortL l)[j] := by
  rcases Nat.eq_or_lt_of_le hij with h | h
  · subst h; exact le_rfl
  · exact List.pairwise_iff_getElem.mp (sortL_sorted l) i j _ hj h

/-- If more than `k` entries are at most `b`, then so is the `k`-th smallest. -/
lemma sortL_getElem_le_of_count {l : List K} {k : ℕ} {b : K} (hk : k < (sortL l).length)
    (hc : k < l.countP (fun x => decide (x ≤ b))) : (sortL l)[k] ≤ b := by
  by_contra hcon
  push Not at hcon
  have hcount : (sortL l).countP (fun x => decide (x ≤ b)) ≤ k := by
    rw [← List.take_append_drop k (sortL l), List.countP_append]
    have h0 : ((sortL l).drop k).countP (fun x => decide (x ≤ b)) = 0 := by
      rw [List.countP_eq_zero]
      intro a ha
      simp only [decide_eq_true_eq, not_le]
      obtain ⟨i, hi, rfl⟩ := List.mem_iff_getElem.mp ha
      rw [List.getElem_drop]
      have hlen : k + i < (sortL l).length := by rw [List.length_drop] at hi; omega
      exact lt_of_lt_of_le hcon (sortL_getElem_le (Nat.le_add_right k i) hlen)
    rw [h0, add_zero]
    exact List.countP_le_length.trans (by simp)
  rw [(sortL_perm l).countP_eq] at hcount
  omega

/-- If at least `n - k` entries are at least `a`, then so is the `k`-th smallest. -/
lemma le_sortL_getElem_of_count {l : List K} {k : ℕ} {a : K} (hk : k < (sortL l).length)
    (hc : l.length < l.countP (fun x => decide (a ≤ x)) + (k + 1)) : a ≤ (sortL l)[k] := by
  by_contra hcon
  push Not at hcon
  have hcount : (sortL l).countP (fun x => decide (a ≤ x)) ≤ l.length - (k + 1) := by
    rw [← List.take_append_drop (k + 1) (sortL l), List.countP_append]
    have h0 : ((sortL l).take (k + 1)).countP (fun x => decide (a ≤ x)) = 0 := by
      rw [List.countP_eq_zero]
      intro b hb
      simp only [decide_eq_true_eq, not_le]
      obtain ⟨i, hi, rfl⟩ := List.mem_iff_getElem.mp hb
      rw [List.getElem_take]
      rw [List.length_take] at hi
      exact lt_of_le_of_lt (sortL_getElem_le (by omega) hk) hcon
    rw [h0, zero_add]
    refine List.countP_le_length.trans ?_
    rw [List.length_drop, sortL_length]
  rw [(sortL_perm l).countP_eq] at hcount
  rw [sortL_length] at hk
  omega

/-- The `k`-th smallest has at least `k+1` entries at or below it. -/
lemma count_le_sortL_getElem {l : List K} {k : ℕ} (hk : k < (sortL l).length) :
    k + 1 ≤ l.countP (fun x => decide (x ≤ (sortL l)[k])) := by
  rw [← (sortL_perm l).countP_eq]
  have : ((sortL l).take (k + 1)).countP (fun x => decide (x ≤ (sortL l)[k])) = k + 1 := by
    rw [List.countP_eq_length.mpr]
    · rw [List.length_take]; omega
    · intro a ha
      obtain ⟨i, hi, rfl⟩ := List.mem_iff_getElem.mp ha
      rw [List.getElem_take]
      rw [List.length_take] at hi
      exact decide_eq_true (sortL_getElem_le (by omega) hk)
  calc k + 1 = ((sortL l).take (k + 1)).countP (fun x => decide (x ≤ (sortL l)[k])) := this.symm
    _ ≤ _ := (List.take_sublist _ _).countP_le

/-- The `k`-th smallest has at least `n - k` entries at or above it. -/
lemma count_ge_sortL_getElem {l : List K} {k : ℕ} (hk : k < (sortL l).length) :
    l.length ≤ l.countP (fun x => decide ((sortL l)[k] ≤ x)) + k := by
  rw [← (sortL_perm l).countP_eq]
  have : ((sortL l).drop k).countP (fun x => decide ((sortL l)[k] ≤ x)) = l.length - k := by
    rw [List.countP_eq_length.mpr]
    · rw [List.length_drop, sortL_length]
    · intro a ha
      obtain ⟨i, hi, rfl⟩ := List.mem_iff_getElem.mp ha
      rw [List.getElem_drop]
      have hlen : k + i < (sortL l).length := by rw [List.length_drop] at hi; omega
      exact decide_eq_true (sortL_getElem_le (Nat.le_add_right k i) hlen)
  have h2 : ((sortL l).drop k).countP (fun x => decide ((sortL l)[k] ≤ x)) ≤
      (sortL l).countP (fun x => decide ((sortL l)[k] ≤ x)) := (List.drop_sublist _ _).countP_le
  rw [sortL_length] at hk
  omega

/-! ### median -/

lemma medL_congr {l l' : List K} (hp : l.Perm l') : medL l = medL l' := by
  unfold medL
  rw [sortL_congr hp, hp.length_eq]

/-- Median in terms of in-range reads only. -/
lemma medL_eq {l : List K} (hl : l ≠ []) :
    medL l = ((sortL l)[(l.length - 1) / 2]'(by
        rw [sortL_length]; have := List.length_pos_of_ne_nil hl; omega) +
      (sortL l)[l.length / 2]'(by
        rw [sortL_length]; have := List.length_pos_of_ne_nil hl; omega)) / 2 := by
  have hpos := List.length_pos_of_ne_nil hl
  unfold medL
  split_ifs with h
  · have e : (l.length - 1) / 2 = l.length / 2 := by omega
    rw [List.getD_eq_getElem _ _ (by rw [sortL_length]; omega)]
    simp only [e]
    ring
  · have e : (l.length - 1) / 2 = l.length / 2 - 1 := by omega
    rw [List.getD_eq_getElem _ _ (by rw [sortL_length]; omega),
      List.getD_eq_getElem _ _ (by rw [sortL_length]; omega)]
    simp only [e]

lemma medL_map_mono_affine {a b : K} (ha : 0 ≤ a) {l : List K} (hl : l ≠ []) :
    medL (l.map fun x => a * x + b) = a * medL l + b := by
  have hf : Monotone (fun x : K => a * x + b) := fun x y h => by
    have := mul_le_mul_of_nonneg_left h ha
    simp only; linarith
  rw [medL_eq (by simpa using hl), medL_eq hl]
  simp only [sortL_map_mono hf, List.length_map, List.getElem_map]
  ring

lemma medL_map_anti_affine {a b : K} (ha : a ≤ 0) {l : List K} (hl : l ≠ []) :
    medL (l.map fun x => a * x + b) = a * medL l + b := by
  have hpos := List.length_pos_of_ne_nil hl
  have hf : Antitone (fun x : K => a * x + b) := fun x y h => by
    have := mul_le_mul_of_nonpos_left h ha
    simp only; linarith
  rw [medL_eq (by simpa using hl), medL_eq hl]
  simp only [sortL_map_anti hf, List.length_map, List.getElem_reverse, List.getElem_map,
    sortL_length]
  have e1 : l.length - 1 - (l.length - 1) / 2 = l.length / 2 := by omega
  have e2 : l.length - 1 - l.length / 2 = (l.length - 1) / 2 := by omega
  simp only [e1, e2]
  ring

lemma medL_map_affine (a b : K) {l : List K} (hl : l ≠ []) :
    medL (l.map fun x => a * x + b) = a * medL l + b := by
  rcases le_total 0 a with h | h
  · exact medL_map_mono_affine h hl
  · exact medL_map_anti_affine h hl

/-- If more than half of the entries are at most `b`, so is the median. -/
lemma medL_le_of_count {l : List K} {b : K}
    (hc : l.length < 2 * l.countP (fun x => decide (x ≤ b))) : medL l ≤ b := by
  have hl : l ≠ [] := by rintro rfl; simp at hc
  have hpos := List.length_pos_of_ne_nil hl
  rw [medL_eq hl]
  have h1 := sortL_getElem_le_of_count (l := l) (k := (l.length - 1) / 2) (b := b)
    (by rw [sortL_length]; omega) (by omega)
  have h2 := sortL_getElem_le_of_count (l := l) (k := l.length / 2) (b := b)
    (by rw [sortL_length]; omega) (by omega)
  linarith

/-- If more than half of the entries are at least `a`, so is the median. -/
lemma le_medL_of_count {l : List K} {a : K}
    (hc : l.length < 2 * l.countP (fun x => decide (a ≤ x))) : a ≤ medL l := by
  have hl : l ≠ [] := by rintro rfl; simp at hc
  have hpos := List.length_pos_of_ne_nil hl
  rw [medL_eq hl]
  have h1 := le_sortL_getElem_of_count (l := l) (k := (l.length - 1) / 2) (a := a)
    (by rw [sortL_length]; omega) (by omega)
  have h2 := le_sortL_getElem_of_count (l := l) (k := l.length / 2) (a := a)
    (by rw [sortL_length]; omega) (by omega)
  linarith

lemma medL_le_of_forall {l : List K} (hl : l ≠ []) {b : K} (h : ∀ x ∈ l, x ≤ b) :
    medL l ≤ b := by
  apply medL_le_of_count
  rw [List.countP_eq_length.mpr (fun a ha => decide_eq_true (h a ha))]
  have := List.length_pos_of_ne_nil hl
  omega

lemma le_medL_of_forall {l : List K} (hl : l ≠ []) {a : K} (h : ∀ x ∈ l, a ≤ x) :
    a ≤ medL l := by
  apply le_medL_of_count
  rw [List.countP_eq_length.mpr (fun b hb => decide_eq_true (h b hb))]
  have := List.length_pos_of_ne_nil hl
  omega

lemma ofFn_ne_nil {α : Type} {n : ℕ} (hn : 0 < n) (x : Fin n → α) : List.ofFn x ≠ [] := by
  intro h
  have := congrArg List.length h
  simp at this
  omega

lemma map_ofFn' {α β : Type} {n : ℕ} (f : α → β) (x : Fin n → α) :
    List.ofFn (fun i => f (x i)) = (List.ofFn x).map f := by
  rw [List.map_ofFn]; rfl

lemma med_affine {n : ℕ} (hn : 0 < n) (a b : K) (x : Fin n → K) :
    med (fun i => a * x i + b) = a * med x + b := by
  unfold med
  rw [map_ofFn' (fun v => a * v + b) x]
  exact medL_map_affine a b (ofFn_ne_nil hn x)

lemma med_perm {n : ℕ} (σ : Equiv.Perm (Fin n)) (x : Fin n → K) : med (x ∘ σ) = med x :=
  medL_congr (σ.ofFn_comp_perm x)

lemma med_const {n : ℕ} (hn : 0 < n) (v : K) : med (fun _ : Fin n => v) = v := by
  have := med_affine hn (0 : K) v (fun _ : Fin n => v)
  simpa using this

lemma countP_ofFn {α : Type} {n : ℕ} (x : Fin n → α) (q : α → Prop) [DecidablePred q] :
    (List.ofFn x).countP (fun v => decide (q v)) =
      (Finset.univ.filter fun i => q (x i)).card := by
  rw [Finset.card_filter]
  induction n with
  | zero => simp
  | succ n ih =>
    rw [List.ofFn_succ, List.countP_cons, ih (fun i => x i.succ), Fin.sum_univ_succ]
    simp only [decide_eq_true_eq]
    omega

/-! ### mean -/

lemma mean_eq {n : ℕ} (x : Fin n → K) : mean x = (∑ i, x i) / n := by
  unfold mean meanL
  rw [List.sum_ofFn, List.length_ofFn]

lemma mean_affine {n : ℕ} (hn : 0 < n) (a b : K) (x : Fin n → K) :
    mean (fun i => a * x i + b) = a * mean x + b := by
  rw [mean_eq, mean_eq, Finset.sum_add_distrib, ← Finset.mul_sum]
  have : (n : K) ≠ 0 := by exact_mod_cast hn.ne'
  simp
  field_simp

lemma mean_perm {n : ℕ} (σ : Equiv.Perm (Fin n)) (x : Fin n → K) : mean (x ∘ σ) = mean x := by
  rw [mean_eq, mean_eq]
  congr 1
  exact Equiv.sum_comp σ x

lemma mean_const {n : ℕ} (hn : 0 < n) (v : K) : mean (fun _ : Fin n => v) = v := by
  have := mean_affine hn (0 : K) v (fun _ : Fin n => v)
  simpa using this

lemma var_eq {n : ℕ} (x : Fin n → K) : var x = mean (fun i => (x i - mean x) ^ 2) := by
  unfold var varL mean
  rw [map_ofFn' (fun v => (v - meanL (List.ofFn x)) ^ 2) x]

lemma var_affine {n : ℕ} (hn : 0 < n) (a b : K) (x : Fin n → K) :
    var (fun i => a * x i + b) = a ^ 2 * var x := by
  rw [var_eq, var_eq, mean_affine hn]
  have : (fun i => (a * x i + b - (a * mean x + b)) ^ 2) =
      fun i => a ^ 2 * (x i - mean x) ^ 2 + 0 := by
    funext i; ring
  rw [this, mean_affine hn, add_zero]

lemma var_nonneg {n : ℕ} (x : Fin n → K) : 0 ≤ var x := by
  rw [var_eq, mean_eq]
  apply div_nonneg
  · exact Finset.sum_nonneg (fun i _ => sq_nonneg _)
  · exact Nat.cast_nonneg n

lemma var_eq_zero_iff {n : ℕ} (hn : 0 < n) (x : Fin n → K) :
    var x = 0 ↔ ∀ i, x i = mean x := by
  have hnK : (n : K) ≠ 0 := by exact_mod_cast hn.ne'
  rw [var_eq, mean_eq, div_eq_zero_iff, or_iff_left hnK,
    Finset.sum_eq_zero_iff_of_nonneg (fun i _ => sq_nonneg _)]
  simp [sub_eq_zero]

end Direpack
