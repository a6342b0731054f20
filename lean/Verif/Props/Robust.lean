import Mathlib.Tactic.NormNum
import Mathlib.Tactic.FieldSimp
import Mathlib.Algebra.Order.BigOperators.Ring.Finset
import Mathlib.Algebra.BigOperators.Field
import Mathlib.Data.Fin.VecNotation
import Mathlib.Analysis.SpecialFunctions.Trigonometric.DerivHyp
import Verif.Props.Preproc
import Verif.Robust
import Verif.Spec.Robust

/-!
Properties C13 (spatial median), C14 (k-step LTS), C15 and C16 (tau scale), C17 and C18
(wrapping).
-/

set_option linter.unusedSectionVars false

namespace Direpack

open scoped BigOperators
open Spec (sumDist IsMinHSum sqDist IsMeanOf)

/-! ### C13 -/

lemma l1mObjective_eq {n p : ℕ} (a : Fin p → ℝ) (X : Fin n → Fin p → ℝ) :
    l1mObjective a X = sumDist X a := rfl

lemma dist_subgradient {p : ℕ} (x a b : Fin p → ℝ) :
    Real.sqrt (∑ j, (x j - a j) ^ 2) +
      ∑ j, -((x j - a j) / (if Real.sqrt (∑ j, (x j - a j) ^ 2) = 0 then 1
        else Real.sqrt (∑ j, (x j - a j) ^ 2))) * (b j - a j) ≤
    Real.sqrt (∑ j, (x j - b j) ^ 2) := by
  set d := Real.sqrt (∑ j, (x j - a j) ^ 2) with hd
  have hnn : (0 : ℝ) ≤ ∑ j, (x j - a j) ^ 2 := Finset.sum_nonneg fun j _ => sq_nonneg _
  by_cases h0 : d = 0
  · have hz : ∑ j, (x j - a j) ^ 2 = 0 := (Real.sqrt_eq_zero hnn).mp h0
    have hzj : ∀ j, x j - a j = 0 := by
      intro j
      have := (Finset.sum_eq_zero_iff_of_nonneg (fun j _ => sq_nonneg (x j - a j))).mp hz j
        (Finset.mem_univ j)
      exact pow_eq_zero_iff (two_ne_zero) |>.mp this
    simp only [h0, if_true]
    simp only [hzj]
    simp [Real.sqrt_nonneg]
  · simp only [h0, if_false]
    have hdpos : 0 < d := lt_of_le_of_ne (Real.sqrt_nonneg _) (Ne.symm h0)
    have hsq : d * d = ∑ j, (x j - a j) ^ 2 := Real.mul_self_sqrt hnn
    have hcs : ∑ j, (x j - a j) * (x j - b j) ≤ d * Real.sqrt (∑ j, (x j - b j) ^ 2) :=
      Real.sum_mul_le_sqrt_mul_sqrt Finset.univ (fun j => x j - a j) (fun j => x j - b j)
    have hsum : ∑ j, -((x j - a j) / d) * (b j - a j) =
        (∑ j, (x j - a j) * (x j - b j) - ∑ j, (x j - a j) ^ 2) / d := by
      rw [← Finset.sum_sub_distrib, Finset.sum_div]
      apply Finset.sum_congr rfl
      intro j _
      field_simp; ring
    rw [hsum, ← hsq, sub_div, mul_div_assoc, div_self h0, mul_one]
    have : (∑ j, (x j - a j) * (x j - b j)) / d ≤ Real.sqrt (∑ j, (x j - b j) ^ 2) := by
      rw [div_le_iff₀ hdpos]; linarith
    linarith

/-- C13: the gradient function handed to the optimiser is a subgradient of the sum of distances at every
point `a`, also when `a` coincides with data points: the sum of distances lies above the corresponding
tangent plane everywhere. -/
theorem C13_l1median_subgradient {n p : ℕ} (X : Fin n → Fin p → ℝ) (a b : Fin p → ℝ) :
    sumDist X a + ∑ j, l1mJacobian a X j * (b j - a j) ≤ sumDist X b := by
  have h : ∑ j, l1mJacobian a X j * (b j - a j) = ∑ i, ∑ j,
      -((X i j - a j) / (if Real.sqrt (∑ j, (X i j - a j) ^ 2) = 0 then 1
        else Real.sqrt (∑ j, (X i j - a j) ^ 2))) * (b j - a j) := by
    rw [Finset.sum_comm]
    apply Finset.sum_congr rfl
    intro j _
    simp only [l1mJacobian, diffmat, euclidnorm]
    rw [← Finset.sum_neg_distrib, Finset.sum_mul]
    rfl
  rw [h]
  unfold sumDist
  rw [← Finset.sum_add_distrib]
  exact Finset.sum_le_sum fun i _ => dist_subgradient (X i) a b

/-- C13: the objective handed to the optimiser is the sum of Euclidean distances. -/
theorem C13_l1median_objective {n p : ℕ} (X : Fin n → Fin p → ℝ) (a : Fin p → ℝ) :
    l1mObjective a X = sumDist X a := rfl

/-- C13: a point at which the gradient function vanishes is a spatial median: it minimises the sum of
distances over all points. -/
theorem C13_l1median_global {n p : ℕ} (X : Fin n → Fin p → ℝ) (a : Fin p → ℝ)
    (h : ∀ j, l1mJacobian a X j = 0) : ∀ b, sumDist X a ≤ sumDist X b := by
  intro b
  have := C13_l1median_subgradient X a b
  simpa [h] using this

/-- C13: for a single column `l1median` is the ordinary median whatever the optimiser does. -/
theorem C13_l1median_univariate {n : ℕ} (opt : (Fin n → Fin 1 → ℝ) → (Fin 1 → ℝ) → (Fin 1 → ℝ))
    (X : Fin n → Fin 1 → ℝ) : l1median opt X = fun _ => med (fun i => X i 0) := by
  funext j
  fin_cases j
  simp [l1median]

/-- The hypothesis of `C13_l1median_global` is met at the centre of a cross of four points and a fifth
one at the centre itself. -/
example : ∀ j, l1mJacobian (![0, 0] : Fin 2 → ℝ)
    (![![1, 0], ![-1, 0], ![0, 2], ![0, -2], ![0, 0]] : Fin 5 → Fin 2 → ℝ) j = 0 := by
  have h4 : Real.sqrt 4 = 2 := by rw [show (4 : ℝ) = 2 ^ 2 by norm_num]; exact Real.sqrt_sq (by norm_num)
  intro j
  fin_cases j <;>
    simp [l1mJacobian, diffmat, euclidnorm, Fin.sum_univ_succ] <;> norm_num [h4]

/-! ### C14 -/

section
variable {K : Type} [Field K] [LinearOrder K] [IsStrictOrderedRing K]

lemma ltsDists_eq {n p : ℕ} (X : Fin n → Fin p → K) (m : Fin p → K) :
    ltsDists X m = sqDist X m := rfl

lemma ltsSubset_card {n p : ℕ} (hn : 0 < n) (X : Fin n → Fin p → K) (m : Fin p → K) :
    (n + 1) / 2 ≤ (ltsSubset X m).card := by
  unfold ltsSubset
  have hlen : (n + 1) / 2 - 1 < (sortL (List.ofFn (ltsDists X m))).length := by
    rw [sortL_length, List.length_ofFn]; omega
  have := count_le_sortL_getElem hlen
  rw [countP_ofFn (ltsDists X m) (fun v => v ≤ _)] at this
  simp only [List.getD_eq_getElem _ _ hlen]
  omega

lemma ltsStep_isMean {n p : ℕ} (hn : 0 < n) (X : Fin n → Fin p → K) (m : Fin p → K) :
    IsMeanOf X (ltsSubset X m) (ltsStep X m) := by
  intro j
  have hc := ltsSubset_card hn X m
  have : ((ltsSubset X m).card : K) ≠ 0 := by
    rw [Nat.cast_ne_zero]; omega
  unfold ltsStep
  field_simp

/-- Averages minimise sums of squared distances. -/
lemma mean_minimises {n p : ℕ} (X : Fin n → Fin p → K) (H : Finset (Fin n)) (m c : Fin p → K)
    (hm : IsMeanOf X H m) : ∑ i ∈ H, sqDist X m i ≤ ∑ i ∈ H, sqDist X c i := by
  unfold sqDist
  rw [Finset.sum_comm, Finset.sum_comm (s := H)]
  apply Finset.sum_le_sum
  intro j _
  have h1 : ∑ i ∈ H, (X i j - c j) ^ 2 =
      ∑ i ∈ H, (X i j - m j) ^ 2 + H.card * (m j - c j) ^ 2 +
        2 * (m j - c j) * (∑ i ∈ H, X i j - H.card * m j) := by
    rw [← nsmul_eq_mul, ← nsmul_eq_mul, ← Finset.sum_const, ← Finset.sum_const,
      ← Finset.sum_add_distrib, ← Finset.sum_sub_distrib, Finset.mul_sum, ← Finset.sum_add_distrib]
    apply Finset.sum_congr rfl
    intro i _; ring
  rw [h1, ← hm j, sub_self, mul_zero, add_zero]
  have : (0 : K) ≤ H.card * (m j - c j) ^ 2 := by positivity
  linarith

lemma ltsTrace_length {n p : ℕ} (X : Fin n → Fin p → K) (tol : K) (k : ℕ) (m : Fin p → K) :
    (ltsTrace X tol k m).length ≤ k := by
  induction k generalizing m with
  | zero => simp [ltsTrace]
  | succ k ih =>
    unfold ltsTrace
    simp only
    split_ifs
    · simp only [List.length_cons]; have := ih (ltsStep X m); omega
    · simp

/-- C14: at most `maxit` concentration steps are made. -/
theorem C14_lts_bounded {n p : ℕ} (X : Fin n → Fin p → K) (tol : K) (maxit : ℕ) (m : Fin p → K) :
    (ltsTrace X tol maxit m).length ≤ maxit := ltsTrace_length X tol maxit m

lemma ltsTrace_chain {n p : ℕ} (X : Fin n → Fin p → K) (tol : K) (k : ℕ) (m : Fin p → K) :
    List.IsChain (fun a b => b = ltsStep X a) (m :: ltsTrace X tol k m) := by
  induction k generalizing m with
  | zero => simp [ltsTrace]
  | succ k ih =>
    unfold ltsTrace
    simp only
    split_ifs
    · exact List.IsChain.cons_cons rfl (ih _)
    · exact List.IsChain.cons_cons rfl (List.isChain_singleton _)

/-- C14: every concentration step returns the mean of at least half of the cases, and the squared distances of
those cases to the new centre sum to no more than those to the old centre. -/
theorem C14_lts_step {n p : ℕ} (hn : 0 < n) (X : Fin n → Fin p → K) (tol : K) (maxit : ℕ)
    (m : Fin p → K) :
    List.IsChain (fun a b => ∃ H : Finset (Fin n), n ≤ 2 * H.card ∧ IsMeanOf X H b ∧
      (∀ i ∈ H, ∀ i', i' ∉ H → sqDist X a i ≤ sqDist X a i') ∧
      ∑ i ∈ H, sqDist X b i ≤ ∑ i ∈ H, sqDist X a i) (m :: ltsTrace X tol maxit m) := by
  refine List.IsChain.imp ?_ (ltsTrace_chain X tol maxit m)
  rintro a b rfl
  refine ⟨ltsSubset X a, ?_, ltsStep_isMean hn X a, ?_, mean_minimises X _ _ _ (ltsStep_isMean hn X a)⟩
  · have := ltsSubset_card hn X a; omega
  · intro i hi i' hi'
    simp only [ltsSubset, Finset.mem_filter, Finset.mem_univ, true_and, not_le] at hi hi'
    exact hi.trans hi'.le

/-- C14: the estimate that is returned is one of the centres of the trace, hence (for `maxit ≥ 1`) the mean of
at least half of the cases. -/
theorem C14_lts_result {n p : ℕ} (hn : 0 < n) (X : Fin n → Fin p → K) (tol : K) (maxit : ℕ)
    (hmax : 0 < maxit) (m : Fin p → K) :
    ∃ H : Finset (Fin n), n ≤ 2 * H.card ∧ IsMeanOf X H (kstepLTS X m maxit tol) := by
  obtain ⟨k, rfl⟩ : ∃ k, maxit = k + 1 := ⟨maxit - 1, by omega⟩
  have key : ∀ (k : ℕ) (m d : Fin p → K), ∃ H : Finset (Fin n), n ≤ 2 * H.card ∧
      IsMeanOf X H ((ltsTrace X tol (k + 1) m).getLastD d) := by
    intro k
    induction k with
    | zero =>
      intro m d
      refine ⟨ltsSubset X m, by have := ltsSubset_card hn X m; omega, ?_⟩
      have : (ltsTrace X tol 1 m).getLastD d = ltsStep X m := by
        unfold ltsTrace; simp only; split_ifs <;> simp [ltsTrace]
      rw [this]; exact ltsStep_isMean hn X m
    | succ k ih =>
      intro m d
      rw [ltsTrace]
      split_ifs
      · rw [List.getLastD_cons]; exact ih _ _
      · refine ⟨ltsSubset X m, by have := ltsSubset_card hn X m; omega, ?_⟩
        simpa using ltsStep_isMean hn X m
  exact key k m m

/-- C14: the iteration stops before `maxit` steps only when the last step moved no coordinate of the centre by more than `tol`, and it
goes on only while some coordinate moved by more. -/
theorem C14_lts_stops {n p : ℕ} (X : Fin n → Fin p → K) (tol : K) (maxit : ℕ) (m : Fin p → K) (k : ℕ) (a b : Fin p → K)
    (ha : (m :: ltsTrace X tol maxit m)[k]? = some a) (hb : (m :: ltsTrace X tol maxit m)[k + 1]? = some b) :
    ((ltsTrace X tol maxit m).length = k + 1 → k + 1 < maxit → ∀ j, |a j - b j| ≤ tol) ∧
    (k + 1 < (ltsTrace X tol maxit m).length → ∃ j, tol < |a j - b j|) := by
  induction maxit generalizing m k with
  | zero => simp [ltsTrace] at hb
  | succ M ih =>
    unfold ltsTrace at hb ha ⊢
    simp only at hb ha ⊢
    by_cases h : ∃ j, tol < |m j - ltsStep X m j|
    · simp only [if_pos h] at hb ha ⊢
      cases k with
      | zero =>
        simp only [List.getElem?_cons_zero, List.getElem?_cons_succ, Option.some.injEq] at ha hb
        subst ha; subst hb
        refine ⟨fun h1 h2 => ?_, fun _ => h⟩
        exfalso
        obtain ⟨M', rfl⟩ : ∃ M', M = M' + 1 := ⟨M - 1, by omega⟩
        unfold ltsTrace at h1
        simp only at h1
        split_ifs at h1 <;> simp at h1
      | succ k =>
        obtain ⟨h1, h2⟩ := ih (ltsStep X m) k ha hb
        simp only [List.length_cons, Nat.add_right_cancel_iff, Nat.add_lt_add_iff_right]
        exact ⟨fun h3 h4 => h1 h3 h4, fun h3 => h2 h3⟩
    · simp only [if_neg h] at hb ha ⊢
      cases k with
      | zero =>
        simp only [List.getElem?_cons_zero, List.getElem?_cons_succ, Option.some.injEq] at ha hb
        subst ha; subst hb
        push Not at h
        exact ⟨fun _ _ => h, fun h3 => absurd h3 (by simp)⟩
      | succ k => simp at hb

/-- C14, partial: when there are no ties at the cut-off distance (exactly `h = ⌊(n+1)/2⌋` cases are kept), a
concentration step does not increase the sum of the `h` smallest squared distances.  Missing: the case of
ties, where the claim is false (`C14_lts_objective_violated`). -/
theorem C14_lts_objective_partial {n p : ℕ} (hn : 0 < n) (X : Fin n → Fin p → K) (m : Fin p → K)
    (hties : (ltsSubset X m).card = (n + 1) / 2) (q q' : K)
    (hq : IsMinHSum ((n + 1) / 2) (sqDist X m) q)
    (hq' : IsMinHSum ((n + 1) / 2) (sqDist X (ltsStep X m)) q') : q' ≤ q := by
  obtain ⟨⟨H0, hH0, rfl⟩, _⟩ := hq
  set H := ltsSubset X m with hH
  refine (hq'.2 H hties).trans ((mean_minimises X H _ m (ltsStep_isMean hn X m)).trans ?_)
  -- exchange argument
  set c := (sortL (List.ofFn (ltsDists X m))).getD ((n + 1) / 2 - 1) 0
  have hin : ∀ i ∈ H \ H0, sqDist X m i ≤ c := by
    intro i hi
    have := (Finset.mem_sdiff.mp hi).1
    simp only [hH, ltsSubset, Finset.mem_filter, Finset.mem_univ, true_and] at this
    exact this
  have hout : ∀ i ∈ H0 \ H, c ≤ sqDist X m i := by
    intro i hi
    have := (Finset.mem_sdiff.mp hi).2
    simp only [hH, ltsSubset, Finset.mem_filter, Finset.mem_univ, true_and, not_le] at this
    exact this.le
  have h1 : ∑ i ∈ H \ H0, sqDist X m i ≤ (H \ H0).card • c := Finset.sum_le_card_nsmul _ _ _ hin
  have h2 : (H0 \ H).card • c ≤ ∑ i ∈ H0 \ H, sqDist X m i := Finset.card_nsmul_le_sum _ _ _ hout
  have h3 : (H \ H0).card = (H0 \ H).card :=
    Finset.card_sdiff_comm (hties.trans hH0.symm)
  have e1 := Finset.sum_inter_add_sum_sdiff H H0 (sqDist X m)
  have e2 := Finset.sum_inter_add_sum_sdiff H0 H (sqDist X m)
  rw [Finset.inter_comm] at e2
  rw [← e1, ← e2]
  rw [h3] at h1
  linarith

end

/-- A data set with exactly `h` cases kept: the hypothesis of `C14_lts_objective_partial` is met. -/
example : (ltsSubset (![![0, 0], ![1, 0], ![0, 2], ![7, 7], ![-9, 3]] : Fin 5 → Fin 2 → ℚ)
    ![0, 0]).card = (5 + 1) / 2 := by decide +kernel

/-- The data of the counterexample: eleven zeros, eleven times -1, two times +1. -/
def ltsTies : Fin 24 → Fin 1 → ℚ := fun i _ => if i.val < 11 then 0 else if i.val < 22 then -1 else 1

/-- C14, violated for tied distances: starting at the median of `ltsTies` the sum of the `h = 12` smallest
squared distances is 1, and after one concentration step it exceeds 1. -/
theorem C14_lts_objective_violated :
    (fun _ => med (fun i => ltsTies i 0)) = (fun _ => 0 : Fin 1 → ℚ) ∧
    (∃ H : Finset (Fin 24), H.card = (24 + 1) / 2 ∧ ∑ i ∈ H, sqDist ltsTies (fun _ => 0) i = 1) ∧
    ∀ H : Finset (Fin 24), H.card = (24 + 1) / 2 →
      1 < ∑ i ∈ H, sqDist ltsTies (ltsStep ltsTies (fun _ => 0)) i := by
  have hstep : ltsStep ltsTies (fun _ => 0) = fun _ => -3 / 8 := by decide +kernel
  refine ⟨by decide +kernel, ⟨Finset.univ.filter fun i => i.val < 12, by decide +kernel, by decide +kernel⟩, ?_⟩
  intro H hH
  rw [hstep]
  have h : ∀ i ∈ H, (9 / 64 : ℚ) ≤ sqDist ltsTies (fun _ => -3 / 8) i := by
    intro i _
    have : ∀ i, (9 / 64 : ℚ) ≤ sqDist ltsTies (fun _ => -3 / 8) i := by decide +kernel
    exact this i
  have := Finset.card_nsmul_le_sum H _ _ h
  rw [hH] at this
  refine lt_of_lt_of_le ?_ this
  norm_num

/-! ### C15, C16 -/

section
variable {K : Type} [Field K] [LinearOrder K] [IsStrictOrderedRing K]

/-- The raw spread of column `j`: the median absolute deviation without consistency factor. -/
def rawMad {n p : ℕ} (x : Fin n → Fin p → K) (j : Fin p) : K :=
  med (fun i => |x i j - med (fun i => x i j)|)

/-- Weights of the cells (proof helper). -/
def tauW {n p : ℕ} (x : Fin n → Fin p → K) (i : Fin n) (j : Fin p) : K :=
  ((|1 - (|x i j - med (fun i => x i j)| / (rawMad x j * (9 / 2))) ^ 2| +
    (1 - (|x i j - med (fun i => x i j)| / (rawMad x j * (9 / 2))) ^ 2)) / 2) ^ 2

/-- The overall location (proof helper). -/
def tauMu {n p : ℕ} (x : Fin n → Fin p → K) : K :=
  (∑ i, ∑ j, x i j * tauW x i j) / ∑ i, ∑ j, tauW x i j

/-- The overall sum (proof helper). -/
def tauSum {n p : ℕ} (x : Fin n → Fin p → K) : K :=
  ∑ i, ∑ j, if ∃ j', (3 : K) ^ 2 < ((x i j' - tauMu x) / rawMad x j') ^ 2 then (3 : K) ^ 2
    else ((x i j - tauMu x) / rawMad x j) ^ 2

lemma scaleTau2_eq {n p : ℕ} (sq : K → K) (nEs2 : K) (x : Fin n → Fin p → K) :
    scaleTau2 sq nEs2 x = if ∃ j, rawMad x j = 0 then none
      else some fun j => rawMad x j * sq (tauSum x / nEs2) := rfl

lemma rawMad_nonneg {n p : ℕ} (hn : 0 < n) (x : Fin n → Fin p → K) (j : Fin p) : 0 ≤ rawMad x j :=
  (C05_median_between hn _ 0 (∑ i, |x i j - med (fun i => x i j)|) fun i =>
      ⟨abs_nonneg _, Finset.single_le_sum (f := fun i => |x i j - med (fun i => x i j)|)
        (fun i _ => abs_nonneg _) (Finset.mem_univ i)⟩).1

lemma rawMad_affine {n p : ℕ} (hn : 0 < n) (x : Fin n → Fin p → K) (a b : K) (j : Fin p) :
    rawMad (fun i j => a * x i j + b) j = |a| * rawMad x j := by
  unfold rawMad
  rw [med_affine hn]
  have : (fun i => |a * x i j + b - (a * med (fun i => x i j) + b)|) =
      fun i => |a| * |x i j - med (fun i => x i j)| + 0 := by
    funext i
    rw [add_zero, ← abs_mul]
    congr 1; ring
  rw [this, med_affine hn, add_zero]

lemma rawMad_perm {n p : ℕ} (x : Fin n → Fin p → K) (σ : Equiv.Perm (Fin n)) (j : Fin p) :
    rawMad (fun i => x (σ i)) j = rawMad x j := by
  unfold rawMad
  rw [C05_median_perm σ (fun i => x i j)]
  exact C05_median_perm σ (fun i => |x i j - med (fun i => x i j)|)

lemma tauW_nonneg {n p : ℕ} (x : Fin n → Fin p → K) (i : Fin n) (j : Fin p) : 0 ≤ tauW x i j :=
  sq_nonneg _

lemma tauW_pos_exists {n p : ℕ} (hn : 0 < n) (x : Fin n → Fin p → K) (j : Fin p) 
    (h : rawMad x j ≠ 0) : ∃ i, 0 < tauW x i j := by
  have hpos : 0 < rawMad x j := lt_of_le_of_ne (rawMad_nonneg hn x j) (Ne.symm h)
  have hs := (C05_median_splits hn (fun i => |x i j - med (fun i => x i j)|)).1
  obtain ⟨i, hi⟩ : (Finset.univ.filter fun i => |x i j - med (fun i => x i j)| ≤
      med (fun i => |x i j - med (fun i => x i j)|)).Nonempty := by
    rw [← Finset.card_pos]; omega
  simp only [Finset.mem_filter, Finset.mem_univ, true_and] at hi
  refine ⟨i, ?_⟩
  unfold tauW
  set r := |x i j - med (fun i => x i j)| / (rawMad x j * (9 / 2)) with hr
  have hr0 : 0 ≤ r := by positivity
  have hr1 : r ≤ 2 / 9 := by
    rw [hr, div_le_iff₀ (by positivity)]
    have : |x i j - med (fun i => x i j)| ≤ rawMad x j := hi
    linarith
  have : 0 < 1 - r ^ 2 := by nlinarith
  have h2 : 0 < |1 - r ^ 2| + (1 - r ^ 2) := by positivity
  positivity

lemma tauW_sum_pos {n p : ℕ} (hn : 0 < n) (x : Fin n → Fin p → K) (j : Fin p) 
    (h : rawMad x j ≠ 0) : 0 < ∑ i, ∑ j, tauW x i j := by
  obtain ⟨i, hi⟩ := tauW_pos_exists hn x j h
  apply Finset.sum_pos' (fun i _ => Finset.sum_nonneg fun j _ => tauW_nonneg x i j)
  exact ⟨i, Finset.mem_univ _, Finset.sum_pos' (fun j _ => tauW_nonneg x i j) ⟨j, Finset.mem_univ _, hi⟩⟩

lemma tauW_affine {n p : ℕ} (hn : 0 < n) (x : Fin n → Fin p → K) (a b : K) (ha : a ≠ 0) (i : Fin n)
    (j : Fin p) : tauW (fun i j => a * x i j + b) i j = tauW x i j := by
  unfold tauW
  rw [rawMad_affine hn, med_affine hn]
  have : |a * x i j + b - (a * med (fun i => x i j) + b)| / (|a| * rawMad x j * (9 / 2)) =
      |x i j - med (fun i => x i j)| / (rawMad x j * (9 / 2)) := by
    rw [show a * x i j + b - (a * med (fun i => x i j) + b) = a * (x i j - med (fun i => x i j)) by ring,
      abs_mul, mul_assoc, mul_div_mul_left _ _ (abs_pos.mpr ha).ne']
  rw [this]

lemma tauMu_affine {n p : ℕ} (hn : 0 < n) (x : Fin n → Fin p → K) (a b : K) (ha : a ≠ 0) (j : Fin p)
    (h : rawMad x j ≠ 0) : tauMu (fun i j => a * x i j + b) = a * tauMu x + b := by
  have hpos := tauW_sum_pos hn x j h
  unfold tauMu
  simp only [tauW_affine hn x a b ha]
  rw [div_eq_iff hpos.ne', add_mul, mul_assoc, div_mul_cancel₀ _ hpos.ne', Finset.mul_sum, Finset.mul_sum,
    ← Finset.sum_add_distrib]
  apply Finset.sum_congr rfl; intro i _
  rw [Finset.mul_sum, Finset.mul_sum, ← Finset.sum_add_distrib]
  apply Finset.sum_congr rfl; intro j _
  ring

lemma tauSum_affine {n p : ℕ} (hn : 0 < n) (x : Fin n → Fin p → K) (a b : K) (ha : a ≠ 0)
    (h : ∀ j, rawMad x j ≠ 0) : tauSum (fun i j => a * x i j + b) = tauSum x := by
  unfold tauSum
  have key : ∀ (i : Fin n) (j : Fin p), ((a * x i j + b - tauMu (fun i j => a * x i j + b)) /
      rawMad (fun i j => a * x i j + b) j) ^ 2 = ((x i j - tauMu x) / rawMad x j) ^ 2 := by
    intro i j
    rw [tauMu_affine hn x a b ha j (h j), rawMad_affine hn,
      show a * x i j + b - (a * tauMu x + b) = a * (x i j - tauMu x) by ring, div_pow, div_pow, mul_pow,
      mul_pow, sq_abs, mul_div_mul_left _ _ (pow_ne_zero 2 ha)]
  simp only [key]

lemma tauSum_nonneg {n p : ℕ} (x : Fin n → Fin p → K) : 0 ≤ tauSum x := by
  unfold tauSum
  apply Finset.sum_nonneg; intro i _
  apply Finset.sum_nonneg; intro j' _
  split_ifs <;> positivity

lemma tauW_perm {n p : ℕ} (x : Fin n → Fin p → K) (σ : Equiv.Perm (Fin n)) (i : Fin n) (j : Fin p) :
    tauW (fun i => x (σ i)) i j = tauW x (σ i) j := by
  unfold tauW
  rw [rawMad_perm, C05_median_perm σ (fun i => x i j)]

lemma tauMu_perm {n p : ℕ} (x : Fin n → Fin p → K) (σ : Equiv.Perm (Fin n)) :
    tauMu (fun i => x (σ i)) = tauMu x := by
  unfold tauMu
  simp only [tauW_perm]
  rw [Equiv.sum_comp σ (fun i => ∑ j, x i j * tauW x i j), Equiv.sum_comp σ (fun i => ∑ j, tauW x i j)]

lemma tauSum_perm {n p : ℕ} (x : Fin n → Fin p → K) (σ : Equiv.Perm (Fin n)) :
    tauSum (fun i => x (σ i)) = tauSum x := by
  unfold tauSum
  simp only [tauMu_perm, rawMad_perm]
  exact Equiv.sum_comp σ (fun i => ∑ j, if ∃ j', (3 : K) ^ 2 < ((x i j' - tauMu x) / rawMad x j') ^ 2
    then (3 : K) ^ 2 else ((x i j - tauMu x) / rawMad x j) ^ 2)

/-- C15: the result is not a number exactly when some column has zero MAD. -/
theorem C15_tau_zero_mad {n p : ℕ} (sq : K → K) (nEs2 : K) (x : Fin n → Fin p → K) :
    scaleTau2 sq nEs2 x = none ↔ ∃ j, mad (fun i => x i j) = 0 := by
  have hc : (madConst : K) ≠ 0 := madConst_pos.ne'
  have : (∃ j, mad (fun i => x i j) = 0) ↔ ∃ j, rawMad x j = 0 := by
    simp only [mad_eq, div_eq_zero_iff, hc, or_false, rawMad]
  rw [this, scaleTau2_eq]
  split_ifs with h <;> simp [h]

/-- C15: the tau scale is nonnegative. -/
theorem C15_tau_nonneg {n p : ℕ} (hn : 0 < n) (sq : K → K) (hsq : ∀ v, 0 ≤ v → 0 ≤ sq v) (nEs2 : K)
    (hE : 0 < nEs2) (x : Fin n → Fin p → K) (t : Fin p → K) (h : scaleTau2 sq nEs2 x = some t) :
    ∀ j, 0 ≤ t j := by
  intro j
  rw [scaleTau2_eq] at h
  split_ifs at h with h0
  rw [Option.some.injEq] at h
  subst h
  exact mul_nonneg (rawMad_nonneg hn x j) (hsq _ (div_nonneg (tauSum_nonneg x) hE.le))

/-- C15: the order of the cases is irrelevant. -/
theorem C15_tau_perm {n p : ℕ} (sq : K → K) (nEs2 : K) (x : Fin n → Fin p → K)
    (σ : Equiv.Perm (Fin n)) : scaleTau2 sq nEs2 (fun i => x (σ i)) = scaleTau2 sq nEs2 x := by
  rw [scaleTau2_eq, scaleTau2_eq]
  simp only [tauSum_perm, rawMad_perm]

/-- C15: shift invariance and scale equivariance of the tau scale: the same affine map `v ↦ a v + b` applied to
all cells multiplies every tau scale by `|a|` (in particular for a single column). -/
theorem C15_tau_affine {n p : ℕ} (hn : 0 < n) (sq : K → K) (nEs2 : K) (x : Fin n → Fin p → K) (a b : K)
    (ha : a ≠ 0) : scaleTau2 sq nEs2 (fun i j => a * x i j + b) =
      (scaleTau2 sq nEs2 x).map fun t j => |a| * t j := by
  rw [scaleTau2_eq, scaleTau2_eq]
  have ha' : |a| ≠ 0 := (abs_pos.mpr ha).ne'
  have hiff : (∃ j, rawMad (fun i j => a * x i j + b) j = 0) ↔ ∃ j, rawMad x j = 0 := by
    simp only [rawMad_affine hn, mul_eq_zero, ha', false_or]
  by_cases h0 : ∃ j, rawMad x j = 0
  · rw [if_pos (hiff.mpr h0), if_pos h0]; rfl
  · rw [if_neg (fun h => h0 (hiff.mp h)), if_neg h0]
    have hne : ∀ j, rawMad x j ≠ 0 := fun j hj => h0 ⟨j, hj⟩
    simp only [Option.map_some, rawMad_affine hn, tauSum_affine hn x a b ha hne, mul_assoc]

/-- C16, partial: within one call all columns get the same multiple of their MAD.  Missing: that this multiple
is the one the column would get on its own, which is false (`C16_tau_columnwise_violated`). -/
theorem C16_tau_common_factor_partial {n p : ℕ} (sq : K → K) (nEs2 : K)
    (x : Fin n → Fin p → K) (t : Fin p → K) (h : scaleTau2 sq nEs2 x = some t) :
    ∃ c, ∀ j, t j = c * mad (fun i => x i j) := by
  rw [scaleTau2_eq] at h
  split_ifs at h with h0
  rw [Option.some.injEq] at h
  subst h
  refine ⟨madConst * sq (tauSum x / nEs2), fun j => ?_⟩
  rw [mad_eq]
  have hc : (madConst : K) ≠ 0 := madConst_pos.ne'
  show med _ * _ = _
  field_simp

lemma sortL_of_sorted {l : List K} (h : l.Pairwise (· ≤ ·)) : sortL l = l :=
  List.Pairwise.insertionSort_eq h

lemma med_three (a b c : K) (hab : a ≤ b) (hbc : b ≤ c) : med ![a, b, c] = b := by
  have hl : List.ofFn ![a, b, c] = [a, b, c] := by simp [List.ofFn_succ]
  have hs : sortL [a, b, c] = [a, b, c] := sortL_of_sorted (by simp [hab, hbc, hab.trans hbc])
  unfold med
  rw [hl, medL_eq (by simp)]
  simp [hs]

end

/-- Two columns with the same shape around different centres. -/
def tauTwo : Fin 3 → Fin 2 → ℝ := fun i j => ![-1, 0, 1] i + ![0, 100] j

/-- C16, violated: the tau scale of a column of a matrix differs from the tau scale of that column on its own,
for every positive value of the consistency denominator. -/
theorem C16_tau_columnwise_violated (nEs2 : ℝ) (hE : 0 < nEs2) :
    ∃ t t', scaleTau2 Real.sqrt nEs2 tauTwo = some t ∧
      scaleTau2 Real.sqrt nEs2 (fun i (_ : Fin 1) => tauTwo i 0) = some t' ∧ t 0 ≠ t' 0 := by
  have hm0 : med (fun i => tauTwo i 0) = 0 := by
    have : (fun i => tauTwo i 0) = ![-1, 0, 1] := by funext i; fin_cases i <;> simp [tauTwo]
    rw [this]; exact med_three _ _ _ (by norm_num) (by norm_num)
  have hm1 : med (fun i => tauTwo i 1) = 100 := by
    have : (fun i => tauTwo i 1) = ![99, 100, 101] := by
      funext i; fin_cases i <;> simp [tauTwo] <;> norm_num
    rw [this]; exact med_three _ _ _ (by norm_num) (by norm_num)
  have hm101 : med (![1, 0, 1] : Fin 3 → ℝ) = 1 := by
    have := C06_median_breakdown (![1, 0, 1] : Fin 3 → ℝ) {0, 2} (by decide) 1 1 (by
      intro i hi
      simp only [Finset.mem_insert, Finset.mem_singleton] at hi
      rcases hi with rfl | rfl <;> simp)
    exact le_antisymm this.2 this.1
  have hr : ∀ j, rawMad tauTwo j = 1 := by
    intro j
    unfold rawMad
    fin_cases j
    · show med (fun i => |tauTwo i 0 - med (fun i => tauTwo i 0)|) = 1
      rw [hm0, ← hm101]; congr 1; funext i; fin_cases i <;> simp [tauTwo]
    · show med (fun i => |tauTwo i 1 - med (fun i => tauTwo i 1)|) = 1
      rw [hm1, ← hm101]; congr 1; funext i; fin_cases i <;> simp [tauTwo]
  have hr' : ∀ j : Fin 1, rawMad (fun i (_ : Fin 1) => tauTwo i 0) j = 1 := fun _ => hr 0
  obtain ⟨w, hw0, hW⟩ : ∃ w : ℝ, 0 ≤ w ∧ ∀ j, tauW tauTwo 0 j = w ∧ tauW tauTwo 1 j = 1 ∧
      tauW tauTwo 2 j = w := by
    refine ⟨((|1 - (|1| / (1 * (9 / 2))) ^ 2| + (1 - (|1| / (1 * (9 / 2))) ^ 2)) / 2) ^ 2, sq_nonneg _, ?_⟩
    intro j
    have h0 : ∀ j, |tauTwo 0 j - med (fun i => tauTwo i j)| = |1| := by
      intro j; fin_cases j
      · show |tauTwo 0 0 - med (fun i => tauTwo i 0)| = _
        rw [hm0]; simp [tauTwo]
      · show |tauTwo 0 1 - med (fun i => tauTwo i 1)| = _
        rw [hm1]; simp [tauTwo]
    have h1 : ∀ j, |tauTwo 1 j - med (fun i => tauTwo i j)| = 0 := by
      intro j; fin_cases j
      · show |tauTwo 1 0 - med (fun i => tauTwo i 0)| = _
        rw [hm0]; simp [tauTwo]
      · show |tauTwo 1 1 - med (fun i => tauTwo i 1)| = _
        rw [hm1]; simp [tauTwo]
    have h2 : ∀ j, |tauTwo 2 j - med (fun i => tauTwo i j)| = |1| := by
      intro j; fin_cases j
      · show |tauTwo 2 0 - med (fun i => tauTwo i 0)| = _
        rw [hm0]; simp [tauTwo]
      · show |tauTwo 2 1 - med (fun i => tauTwo i 1)| = _
        rw [hm1]; simp [tauTwo]
    unfold tauW
    rw [hr, h0, h1, h2]
    refine ⟨rfl, by simp, rfl⟩
  have hW' : ∀ i (j : Fin 1), tauW (fun i (_ : Fin 1) => tauTwo i 0) i j = tauW tauTwo i 0 := fun _ _ => rfl
  have hmu : tauMu tauTwo = 50 := by
    unfold tauMu
    simp only [Fin.sum_univ_succ, Fin.sum_univ_zero]
    simp only [Fin.succ_zero_eq_one, Fin.succ_one_eq_two, hW]
    rw [div_eq_iff (by positivity)]
    simp [tauTwo]; ring
  have hmu' : tauMu (fun i (_ : Fin 1) => tauTwo i 0) = 0 := by
    unfold tauMu
    simp only [Fin.sum_univ_succ, Fin.sum_univ_zero, hW']
    simp only [Fin.succ_zero_eq_one, Fin.succ_one_eq_two, hW]
    simp [tauTwo]
  have hS : tauSum tauTwo = 54 := by
    unfold tauSum
    rw [hmu]
    have : ∀ i : Fin 3, ∃ j', (3 : ℝ) ^ 2 < ((tauTwo i j' - 50) / rawMad tauTwo j') ^ 2 := by
      intro i
      refine ⟨0, ?_⟩
      rw [hr]
      fin_cases i <;> simp [tauTwo] <;> norm_num
    simp only [this, if_true]
    simp; norm_num
  have hS' : tauSum (fun i (_ : Fin 1) => tauTwo i 0) = 2 := by
    unfold tauSum
    rw [hmu']
    have : ∀ i : Fin 3, ¬ ∃ j' : Fin 1, (3 : ℝ) ^ 2 < ((tauTwo i 0 - 0) /
        rawMad (fun i (_ : Fin 1) => tauTwo i 0) j') ^ 2 := by
      rintro i ⟨j', hj⟩
      rw [hr'] at hj
      fin_cases i <;> simp [tauTwo] at hj <;> norm_num at hj
    simp only [this, if_false, hr']
    simp [tauTwo, Fin.sum_univ_succ]; norm_num
  refine ⟨fun j => rawMad tauTwo j * Real.sqrt (tauSum tauTwo / nEs2),
    fun j => rawMad (fun i (_ : Fin 1) => tauTwo i 0) j *
      Real.sqrt (tauSum (fun i (_ : Fin 1) => tauTwo i 0) / nEs2), ?_, ?_, ?_⟩
  · rw [scaleTau2_eq, if_neg]; simp [hr]
  · rw [scaleTau2_eq, if_neg]; simp [hr']
  · simp only [hr, hr', hS, hS', one_mul]
    intro h
    have h1 : Real.sqrt (2 / nEs2) < Real.sqrt (54 / nEs2) :=
      Real.sqrt_lt_sqrt (by positivity) (by gcongr; norm_num)
    exact h1.ne h.symm

/-! ### C17, C18 -/

section
variable {K : Type} [Field K] [LinearOrder K] [IsStrictOrderedRing K]

lemma wrapPsi_bound (th : K → K) (hth : ∀ z, |th z| ≤ 1) (z : K) : |wrapPsi th z| ≤ 1540793 / 1000000 := by
  unfold wrapPsi
  simp only
  split_ifs with h1 h2
  · have hz : z ≠ 0 := by
      rintro rfl
      rw [abs_zero] at h1
      norm_num at h1
    have hz' : |z| ≠ 0 := (abs_pos.mpr hz).ne'
    rw [abs_div, abs_mul, abs_mul, abs_abs, mul_div_assoc, div_self hz', mul_one,
      abs_of_pos (by norm_num : (0 : K) < 1540793 / 1000000)]
    have := hth (8622731 / 10000000 * (4 - |z|))
    nlinarith
  · rw [abs_zero]; norm_num
  · have : |z| < 3 / 2 := by
      by_contra h
      push Not at h h1 h2
      rcases lt_or_ge |z| 4 with h4 | h4
      · exact absurd (h1 h4) (not_lt.mpr h)
      · exact absurd h2 (not_lt.mpr h4)
    have h3 : (3 / 2 : K) ≤ 1540793 / 1000000 := by norm_num
    linarith

lemma wrapPsi_neg (th : K → K) (z : K) : wrapPsi th (-z) = -wrapPsi th z := by
  unfold wrapPsi
  simp only [abs_neg]
  split_ifs
  · rw [div_neg]
  · simp
  · rfl

lemma wrapPsi_centre (th : K → K) (z : K) (h : |z| < 3 / 2) : wrapPsi th z = z := by
  unfold wrapPsi
  have h4 : |z| < 4 := h.trans (by norm_num)
  simp only
  rw [if_neg (by rintro ⟨_, h'⟩; exact absurd h (not_lt.mpr h')), if_neg (not_le.mpr h4)]

lemma wrapPsi_tail (th : K → K) (z : K) (h : 4 ≤ |z|) : wrapPsi th z = 0 := by
  unfold wrapPsi
  simp only
  rw [if_neg (by rintro ⟨h', _⟩; exact absurd h' (not_lt.mpr h)), if_pos h]

/-- C17: a value at least 4 scale units from the location is replaced by the location. -/
theorem C17_wrap_tail {n p : ℕ} (th : K → K) (s : WrapperState K p) (X : Fin n → Fin p → K)
    (i : Fin n) (j : Fin p) (hs : 0 < mad (fun i => X i j))
    (h : 4 * mad (fun i => X i j) ≤ |X i j - med (fun i => X i j)|) :
    s.predict th X i j = some (med (fun i => X i j)) := by
  show wrapCell _ _ _ _ = _
  unfold wrapCell
  rw [if_neg hs.ne', wrapPsi_tail, zero_mul, zero_add]
  rw [abs_div, abs_of_pos hs, le_div_iff₀ hs]
  exact h

/-- C17: a value less than 1.5 scale units from the location is unchanged. -/
theorem C17_wrap_centre {n p : ℕ} (th : K → K) (s : WrapperState K p) (X : Fin n → Fin p → K)
    (i : Fin n) (j : Fin p) (hs : 0 < mad (fun i => X i j))
    (h : |X i j - med (fun i => X i j)| < 3 / 2 * mad (fun i => X i j)) :
    s.predict th X i j = some (X i j) := by
  show wrapCell _ _ _ _ = _
  unfold wrapCell
  rw [if_neg hs.ne', wrapPsi_centre]
  · rw [div_mul_cancel₀ _ hs.ne', sub_add_cancel]
  · rw [abs_div, abs_of_pos hs, div_lt_iff₀ hs]
    exact h

/-- C17: every wrapped value lies within 1.55 scale units of the location. -/
theorem C17_wrap_bounded {n p : ℕ} (th : K → K) (hth : ∀ z, |th z| ≤ 1) (s : WrapperState K p)
    (X : Fin n → Fin p → K) (i : Fin n) (j : Fin p) (hs : 0 < mad (fun i => X i j)) :
    ∃ y, s.predict th X i j = some y ∧
      |y - med (fun i => X i j)| ≤ 155 / 100 * mad (fun i => X i j) := by
  refine ⟨wrapPsi th ((X i j - med (fun i => X i j)) / mad (fun i => X i j)) * mad (fun i => X i j) +
    med (fun i => X i j), ?_, ?_⟩
  · show wrapCell _ _ _ _ = _
    unfold wrapCell
    rw [if_neg hs.ne']
  · rw [add_sub_cancel_right, abs_mul, abs_of_pos hs]
    apply mul_le_mul_of_nonneg_right _ hs.le
    refine (wrapPsi_bound th hth _).trans (by norm_num)

/-- C17: a wrapped value stays on the same side of the location (for a function that is nonnegative on
nonnegative numbers, such as the hyperbolic tangent). -/
theorem C17_wrap_side {n p : ℕ} (th : K → K) (hth : ∀ z, 0 ≤ z → 0 ≤ th z) (s : WrapperState K p)
    (X : Fin n → Fin p → K) (i : Fin n) (j : Fin p) (hs : 0 < mad (fun i => X i j)) :
    ∃ y, s.predict th X i j = some y ∧
      0 ≤ (y - med (fun i => X i j)) * (X i j - med (fun i => X i j)) := by
  refine ⟨wrapPsi th ((X i j - med (fun i => X i j)) / mad (fun i => X i j)) * mad (fun i => X i j) +
    med (fun i => X i j), ?_, ?_⟩
  · show wrapCell _ _ _ _ = _
    unfold wrapCell
    rw [if_neg hs.ne']
  · rw [add_sub_cancel_right]
    set d := X i j - med (fun i => X i j)
    set m := mad (fun i => X i j)
    have key : 0 ≤ wrapPsi th (d / m) * (d / m) := by
      unfold wrapPsi
      simp only
      split_ifs with h1 h2
      · have hz : d / m ≠ 0 := by
          intro h0
          rw [h0, abs_zero] at h1
          norm_num at h1
        rw [div_mul_cancel₀ _ hz]
        apply mul_nonneg (mul_nonneg (by norm_num) (hth _ _)) (abs_nonneg _)
        have := h1.1
        apply mul_nonneg (by norm_num)
        linarith
      · simp
      · exact mul_self_nonneg _
    have : wrapPsi th (d / m) * m * d = (wrapPsi th (d / m) * (d / m)) * m ^ 2 := by
      field_simp
    rw [this]
    positivity

/-- C17: wrapping commutes with every change of units `v ↦ a v + b`, in particular it is odd (`a = -1`). -/
theorem C17_wrap_affine {n p : ℕ} (hn : 0 < n) (th : K → K) (s s' : WrapperState K p)
    (X : Fin n → Fin p → K) (a b : K) (ha : a ≠ 0) (i : Fin n) (j : Fin p) :
    s'.predict th (fun i j => a * X i j + b) i j = (s.predict th X i j).map fun y => a * y + b := by
  show wrapCell th (med fun i => a * X i j + b) (mad fun i => a * X i j + b) (a * X i j + b) =
    (wrapCell th (med fun i => X i j) (mad fun i => X i j) (X i j)).map _
  rw [med_affine hn, C07_mad_affine hn]
  unfold wrapCell
  have ha' : |a| ≠ 0 := (abs_pos.mpr ha).ne'
  by_cases hs : mad (fun i => X i j) = 0
  · simp [hs, ha]
    split_ifs <;> simp
  · rw [if_neg (mul_ne_zero ha' hs), if_neg hs, Option.map_some]
    congr 1
    rw [show a * X i j + b - (a * med (fun i => X i j) + b) = a * (X i j - med (fun i => X i j)) by ring]
    rcases lt_or_gt_of_ne ha with h | h
    · rw [abs_of_neg h]
      rw [show a * (X i j - med (fun i => X i j)) / (-a * mad (fun i => X i j)) =
        -((X i j - med (fun i => X i j)) / mad (fun i => X i j)) by field_simp, wrapPsi_neg]
      ring
    · rw [abs_of_pos h, mul_div_mul_left _ _ h.ne']
      ring

/-- C18, partial: on data with the training columns the wrapping is the one with the location and scale of
the training data.  Missing: new data, for which the claim is false (`C18_wrapper_predict_violated`). -/
theorem C18_wrapper_train_partial {n p : ℕ} (th : K → K) (X : Fin n → Fin p → K) (i : Fin n) (j : Fin p)
    (hs : (WrapperState.fit X).scale j ≠ 0) :
    (WrapperState.fit X).predict th X i j =
      some (wrapPsi th ((X i j - (WrapperState.fit X).center j) / (WrapperState.fit X).scale j) *
        (WrapperState.fit X).scale j + (WrapperState.fit X).center j) := by
  show wrapCell _ _ _ _ = _
  unfold wrapCell
  exact if_neg hs

/-- C18, violated: the result does not depend on the training data at all; the same new case is returned
unchanged in one batch and moved to another value in another batch; and a new case on its own gives NaN. -/
theorem C18_wrapper_predict_violated :
    (∀ {K : Type} [Field K] [LinearOrder K] {n p : ℕ} (th : K → K) (s s' : WrapperState K p)
      (X : Fin n → Fin p → K), s.predict th X = s'.predict th X) ∧
    (∀ (th : ℚ → ℚ) (s : WrapperState ℚ 1),
      s.predict th (![![0], ![1], ![2]] : Fin 3 → Fin 1 → ℚ) 2 0 = some 2 ∧
      s.predict th (![![101], ![100], ![2]] : Fin 3 → Fin 1 → ℚ) 2 0 = some 100) ∧
    (∀ (th : ℚ → ℚ) (s : WrapperState ℚ 1) (v : ℚ), s.predict th (fun (_ : Fin 1) (_ : Fin 1) => v) 0 0 = none) := by
  refine ⟨fun _ _ _ _ => rfl, ?_, ?_⟩
  · intro th s
    constructor
    · have hm : med (fun i => (![![0], ![1], ![2]] : Fin 3 → Fin 1 → ℚ) i 0) = 1 := by decide +kernel
      have hs : mad (fun i => (![![0], ![1], ![2]] : Fin 3 → Fin 1 → ℚ) i 0) = 1 / madConst := by
        decide +kernel
      refine C17_wrap_centre th s _ 2 0 ?_ ?_ <;> rw [hs] <;> [skip; rw [hm]] <;>
        simp [madConst] <;> norm_num
    · have hm : med (fun i => (![![101], ![100], ![2]] : Fin 3 → Fin 1 → ℚ) i 0) = 100 := by
        decide +kernel
      have hs : mad (fun i => (![![101], ![100], ![2]] : Fin 3 → Fin 1 → ℚ) i 0) = 1 / madConst := by
        decide +kernel
      refine (C17_wrap_tail th s _ 2 0 ?_ ?_).trans (congrArg some hm) <;> rw [hs] <;> [skip; rw [hm]] <;>
        simp [madConst] <;> norm_num
  · intro th s v
    have hm : med (fun _ : Fin 1 => v) = v := med_const (by norm_num) v
    show wrapCell th (med fun _ : Fin 1 => v) (mad fun _ : Fin 1 => v) v = none
    have : mad (fun _ : Fin 1 => v) = 0 := (C07_mad_zero_iff (by norm_num) _).mpr ⟨v, by simp⟩
    unfold wrapCell
    rw [this, hm]; simp

end

/-- The hypotheses on `th` in C17 are those of the hyperbolic tangent. -/
example : (∀ z, |Real.tanh z| ≤ 1) ∧ ∀ z : ℝ, 0 ≤ z → 0 ≤ Real.tanh z := by
  refine ⟨fun z => (Real.abs_tanh_lt_one z).le, fun z hz => ?_⟩
  rw [Real.tanh_eq_sinh_div_cosh]
  exact div_nonneg (Real.sinh_nonneg_iff.mpr hz) (Real.cosh_pos z).le

/-- A column with positive MAD, one case in the centre and one in the tail. -/
example : 0 < mad (![0, 1, 2, 3, 1000] : Fin 5 → ℚ) ∧
    |(1 : ℚ) - med ![0, 1, 2, 3, 1000]| < 3 / 2 * mad (![0, 1, 2, 3, 1000] : Fin 5 → ℚ) ∧
    4 * mad (![0, 1, 2, 3, 1000] : Fin 5 → ℚ) ≤ |(1000 : ℚ) - med ![0, 1, 2, 3, 1000]| := by
  decide +kernel

/-- A column to which C15 applies. -/
example : scaleTau2 (fun v : ℚ => v) 3 (![![0], ![1], ![2], ![3], ![1000]] : Fin 5 → Fin 1 → ℚ) ≠ none := by
  decide +kernel

end Direpack
