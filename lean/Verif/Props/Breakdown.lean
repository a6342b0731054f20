import Mathlib.Analysis.InnerProductSpace.PiL2
import Verif.Spec.Breakdown
import Verif.Props.Robust

/-! Property C148: the spatial median, the k-step LTS and the tau scale resist any minority of outliers. -/

namespace Direpack

open scoped BigOperators
open Spec (Resists)

variable {n p : ℕ}

lemma euclidnorm_eq (x : Fin p → ℝ) : euclidnorm x = ‖WithLp.toLp 2 x‖ := by
  simp [EuclideanSpace.norm_eq, euclidnorm]

lemma euclidnorm_nonneg (x : Fin p → ℝ) : 0 ≤ euclidnorm x := Real.sqrt_nonneg _

lemma euclidnorm_add_le (x y : Fin p → ℝ) : euclidnorm (fun j => x j + y j) ≤ euclidnorm x + euclidnorm y := by
  rw [euclidnorm_eq, euclidnorm_eq, euclidnorm_eq]
  exact norm_add_le (WithLp.toLp 2 x) (WithLp.toLp 2 y)

lemma abs_le_euclidnorm (x : Fin p → ℝ) (j : Fin p) : |x j| ≤ euclidnorm x := by
  rw [← Real.sqrt_sq_eq_abs]
  exact Real.sqrt_le_sqrt (Finset.single_le_sum (f := fun j => x j ^ 2) (fun _ _ => sq_nonneg _) (Finset.mem_univ j))

lemma euclidnorm_le {x : Fin p → ℝ} {A : ℝ} (hA : 0 ≤ A) (h : ∀ j, |x j| ≤ A) : euclidnorm x ≤ Real.sqrt p * A := by
  have : ∑ j, x j ^ 2 ≤ p * A ^ 2 := by
    calc ∑ j, x j ^ 2 ≤ ∑ _j : Fin p, A ^ 2 := Finset.sum_le_sum fun j _ => sq_le_sq' (abs_le.mp (h j)).1 (abs_le.mp (h j)).2
      _ = p * A ^ 2 := by simp
  calc euclidnorm x ≤ Real.sqrt (p * A ^ 2) := Real.sqrt_le_sqrt this
    _ = Real.sqrt p * A := by rw [Real.sqrt_mul (by positivity), Real.sqrt_sq hA]

/-- A point whose sum of distances is not larger than that of `c` is close to `c` if most of the cases are. -/
lemma l1_near {X : Fin n → Fin p → ℝ} {m c : Fin p → ℝ} (h : l1mObjective m X ≤ l1mObjective c X) (G : Finset (Fin n)) {M : ℝ}
    (hG : ∀ i ∈ G, euclidnorm (fun j => X i j - c j) ≤ M) :
    (2 * (G.card : ℝ) - n) * euclidnorm (fun j => m j - c j) ≤ 2 * M * G.card := by
  set d := euclidnorm (fun j => m j - c j) with hd
  have h1 : ∀ i ∈ G, d - 2 * M ≤ euclidnorm (diffmat m X i) - euclidnorm (diffmat c X i) := by
    intro i hi
    have ht : d ≤ euclidnorm (diffmat m X i) + euclidnorm (diffmat c X i) := by
      have h0 := euclidnorm_add_le (fun j => -(diffmat m X i j)) (diffmat c X i)
      have e1 : (fun j => -(diffmat m X i j) + diffmat c X i j) = fun j => m j - c j := by
        funext j; simp [diffmat]
      have e2 : euclidnorm (fun j => -(diffmat m X i j)) = euclidnorm (diffmat m X i) := by
        simp [euclidnorm]
      rw [e1, e2] at h0
      exact h0
    have := hG i hi
    have e3 : euclidnorm (diffmat c X i) ≤ M := this
    linarith
  have h2 : ∀ i, -d ≤ euclidnorm (diffmat m X i) - euclidnorm (diffmat c X i) := by
    intro i
    have h0 := euclidnorm_add_le (diffmat m X i) (fun j => m j - c j)
    have e1 : (fun j => diffmat m X i j + (m j - c j)) = diffmat c X i := by
      funext j; simp [diffmat]
    rw [e1] at h0
    linarith
  have hs : ∑ i, (euclidnorm (diffmat m X i) - euclidnorm (diffmat c X i)) ≤ 0 := by
    rw [Finset.sum_sub_distrib]
    unfold l1mObjective at h
    linarith
  rw [← Finset.sum_add_sum_compl G] at hs
  have s1 := Finset.sum_le_sum h1
  have s2 := Finset.sum_le_sum (s := Gᶜ) fun i _ => h2 i
  rw [Finset.sum_const, nsmul_eq_mul] at s1 s2
  have hc : ((Gᶜ.card : ℕ) : ℝ) = n - G.card := by
    rw [Finset.card_compl, Fintype.card_fin, Nat.cast_sub (by simpa using Finset.card_le_univ G)]
  rw [hc] at s2
  nlinarith

/-- Bounds for the clean cases. -/
lemma clean_bound (X : Fin n → Fin p → ℝ) : ∃ A : ℝ, 0 ≤ A ∧ ∀ i j, |X i j| ≤ A :=
  ⟨∑ i, ∑ j, |X i j|, Finset.sum_nonneg fun _ _ => Finset.sum_nonneg fun _ _ => abs_nonneg _, fun i j =>
    (Finset.single_le_sum (f := fun j => |X i j|) (fun _ _ => abs_nonneg _) (Finset.mem_univ j)).trans
      (Finset.single_le_sum (f := fun i => ∑ j, |X i j|) (fun _ _ => Finset.sum_nonneg fun _ _ => abs_nonneg _) (Finset.mem_univ i))⟩

/-- The spatial median stays within bounds that depend on the clean cases only. -/
lemma l1median_bound {opt : (Fin n → Fin p → ℝ) → (Fin p → ℝ) → (Fin p → ℝ)}
    (hopt : ∀ X x0, l1mObjective (opt X x0) X ≤ l1mObjective x0 X) (G : Finset (Fin n)) (hG : n < 2 * G.card) {A : ℝ} (hA : 0 ≤ A)
    {X : Fin n → Fin p → ℝ} (hX : ∀ i ∈ G, ∀ j, |X i j| ≤ A) (j : Fin p) :
    |l1median opt X j| ≤ A + 2 * (Real.sqrt p * (2 * A)) * G.card := by
  have hmed : ∀ j, |med fun i => X i j| ≤ A := by
    intro j
    have := C06_median_breakdown (fun i => X i j) G hG (-A) A fun i hi => abs_le.mp (hX i hi j)
    exact abs_le.mpr this
  have hpos : 0 ≤ 2 * (Real.sqrt p * (2 * A)) * G.card := by positivity
  unfold l1median
  split_ifs with hp
  · have := hmed j
    linarith
  · set x0 : Fin p → ℝ := fun j => med fun i => X i j with hx0
    have h := l1_near (hopt X x0) G (M := Real.sqrt p * (2 * A)) fun i hi => euclidnorm_le (by positivity) fun j => by
      have h1 := hX i hi j
      have h2 := hmed j
      have := abs_sub (X i j) (x0 j)
      have h3 : |X i j - x0 j| ≤ |X i j| + |x0 j| := by simpa using this
      have h4 : |x0 j| ≤ A := h2
      linarith
    have h1 : (1 : ℝ) ≤ 2 * (G.card : ℝ) - n := by
      have : (n : ℝ) + 1 ≤ 2 * (G.card : ℝ) := by exact_mod_cast hG
      linarith
    have hd : euclidnorm (fun j => opt X x0 j - x0 j) ≤ 2 * (Real.sqrt p * (2 * A)) * G.card := by
      have h0 := euclidnorm_nonneg fun j => opt X x0 j - x0 j
      nlinarith
    have h2 := abs_le_euclidnorm (fun j => opt X x0 j - x0 j) j
    have h3 : |x0 j| ≤ A := hmed j
    have h4 := abs_add_le (opt X x0 j - x0 j) (x0 j)
    rw [sub_add_cancel] at h4
    linarith

/-- C148: the spatial median resists any minority of outliers, provided that the optimiser does not return a point that is worse than the point from which
it started (the column medians). -/
theorem C148_l1median (opt : (Fin n → Fin p → ℝ) → (Fin p → ℝ) → (Fin p → ℝ))
    (hopt : ∀ X x0, l1mObjective (opt X x0) X ≤ l1mObjective x0 X) (j : Fin p) : Resists (fun X => l1median opt X) fun m => |m j| := by
  intro X G hG
  obtain ⟨A, hA, hX⟩ := clean_bound X
  exact ⟨_, fun X' h => l1median_bound hopt G hG hA (fun i hi j => by rw [h i hi]; exact hX i j) j⟩

/-- One concentration step. -/
lemma ltsStep_bound (G : Finset (Fin n)) (hG : n < 2 * G.card) {A D : ℝ} (hA : 0 ≤ A) (hD : 0 ≤ D) {X : Fin n → Fin p → ℝ}
    (hX : ∀ i ∈ G, ∀ j, |X i j| ≤ A) {m : Fin p → ℝ} (hm : ∀ j, |m j| ≤ D) (j : Fin p) :
    |ltsStep X m j| ≤ D + Real.sqrt p * (A + D) := by
  have hn : 0 < n := by
    rcases Nat.eq_zero_or_pos n with rfl | h
    · have := Finset.card_le_univ G
      simp at this
      simp [this] at hG
    · exact h
  have hlen : (n + 1) / 2 - 1 < (sortL (List.ofFn (ltsDists X m))).length := by
    rw [sortL_length, List.length_ofFn]; omega
  have hd : ∀ i ∈ G, ltsDists X m i ≤ p * (A + D) ^ 2 := by
    intro i hi
    calc ltsDists X m i ≤ ∑ _j : Fin p, (A + D) ^ 2 := Finset.sum_le_sum fun j _ => by
          have h1 := abs_le.mp (hX i hi j)
          have h2 := abs_le.mp (hm j)
          exact sq_le_sq' (by linarith) (by linarith)
      _ = p * (A + D) ^ 2 := by simp
  have hcut : (sortL (List.ofFn (ltsDists X m))).getD ((n + 1) / 2 - 1) 0 ≤ p * (A + D) ^ 2 := by
    rw [List.getD_eq_getElem _ _ hlen]
    apply sortL_getElem_le_of_count hlen
    rw [countP_ofFn (ltsDists X m) (fun v => v ≤ p * (A + D) ^ 2)]
    have : G.card ≤ (Finset.univ.filter fun i => ltsDists X m i ≤ p * (A + D) ^ 2).card :=
      Finset.card_le_card fun i hi => by simp [hd i hi]
    omega
  have hkept : ∀ i ∈ ltsSubset X m, |X i j| ≤ D + Real.sqrt p * (A + D) := by
    intro i hi
    have h1 : ltsDists X m i ≤ p * (A + D) ^ 2 := by
      simp only [ltsSubset, Finset.mem_filter] at hi
      exact hi.2.trans hcut
    have h2 : |X i j - m j| ≤ Real.sqrt p * (A + D) := by
      have h3 := (abs_le_euclidnorm (fun j => X i j - m j) j).trans (Real.sqrt_le_sqrt h1)
      rwa [Real.sqrt_mul (by positivity), Real.sqrt_sq (by positivity)] at h3
    have h4 := abs_add_le (X i j - m j) (m j)
    rw [sub_add_cancel] at h4
    have := hm j
    linarith
  have hc : 0 < ((ltsSubset X m).card : ℝ) := by
    have := ltsSubset_card hn X m
    exact_mod_cast (by omega : 0 < (ltsSubset X m).card)
  unfold ltsStep
  rw [abs_div, abs_of_pos hc, div_le_iff₀ hc]
  calc |∑ i ∈ ltsSubset X m, X i j| ≤ ∑ i ∈ ltsSubset X m, |X i j| := Finset.abs_sum_le_sum_abs _ _
    _ ≤ ∑ _i ∈ ltsSubset X m, (D + Real.sqrt p * (A + D)) := Finset.sum_le_sum hkept
    _ = (D + Real.sqrt p * (A + D)) * (ltsSubset X m).card := by rw [Finset.sum_const, nsmul_eq_mul, mul_comm]

/-- All concentration steps. -/
lemma kstepLTS_bound (G : Finset (Fin n)) (hG : n < 2 * G.card) {A : ℝ} (hA : 0 ≤ A) (tol : ℝ) (maxit : ℕ) (D : ℝ) (hD : 0 ≤ D) :
    ∃ B, 0 ≤ B ∧ ∀ X : Fin n → Fin p → ℝ, (∀ i ∈ G, ∀ j, |X i j| ≤ A) → ∀ m d : Fin p → ℝ, (∀ j, |m j| ≤ D) → (∀ j, |d j| ≤ D) →
      ∀ j, |(ltsTrace X tol maxit m).getLastD d j| ≤ B := by
  induction maxit generalizing D with
  | zero => exact ⟨D, hD, fun X hX m d hm hd j => by simpa [ltsTrace] using hd j⟩
  | succ k ih =>
    obtain ⟨B, hB, h⟩ := ih (D + Real.sqrt p * (A + D)) (by positivity)
    refine ⟨max B (D + Real.sqrt p * (A + D)), le_max_of_le_left hB, fun X hX m d hm hd j => ?_⟩
    have hs := ltsStep_bound G hG hA hD hX hm
    unfold ltsTrace
    dsimp only
    split_ifs with hc
    · rw [List.getLastD_cons]
      exact (h X hX _ _ hs hs j).trans (le_max_left _ _)
    · simp only [List.getLastD_cons, List.getLastD_nil]
      exact (hs j).trans (le_max_right _ _)

/-- C148: the k-step LTS estimator, started at the spatial median, resists any minority of outliers. -/
theorem C148_kstepLTS (opt : (Fin n → Fin p → ℝ) → (Fin p → ℝ) → (Fin p → ℝ))
    (hopt : ∀ X x0, l1mObjective (opt X x0) X ≤ l1mObjective x0 X) (maxit : ℕ) (tol : ℝ) (j : Fin p) :
    Resists (fun X => kstepLTS X (l1median opt X) maxit tol) fun m => |m j| := by
  intro X G hG
  obtain ⟨A, hA, hX⟩ := clean_bound X
  obtain ⟨B, -, hB⟩ := kstepLTS_bound (p := p) G hG hA tol maxit (A + 2 * (Real.sqrt p * (2 * A)) * G.card) (by positivity)
  refine ⟨B, fun X' h => ?_⟩
  have hX' : ∀ i ∈ G, ∀ j, |X' i j| ≤ A := fun i hi j => by rw [h i hi]; exact hX i j
  exact hB X' hX' _ _ (l1median_bound hopt G hG hA hX') (l1median_bound hopt G hG hA hX') j

/-- C148: the tau scale resists any minority of outliers: whenever it is a number, it is bounded. -/
theorem C148_scaleTau2 {nEs2 : ℝ} (hE : 0 < nEs2) (j : Fin p) :
    Resists (n := n) (fun X : Fin n → Fin p → ℝ => scaleTau2 Real.sqrt nEs2 X) fun r => (r.map fun s => |s j|).getD 0 := by
  intro X G hG
  obtain ⟨A, hA, hX⟩ := clean_bound X
  refine ⟨2 * A * Real.sqrt ((n * p * 9) / nEs2), fun X' h => ?_⟩
  have hpos : 0 ≤ 2 * A * Real.sqrt ((n * p * 9) / nEs2) := by positivity
  unfold scaleTau2
  dsimp only
  split_ifs with h0
  · simpa using hpos
  · simp only [Option.map_some, Option.getD_some]
    have hX' : ∀ i ∈ G, ∀ j, |X' i j| ≤ A := fun i hi j => by rw [h i hi]; exact hX i j
    have hm := C06_median_breakdown (fun i => X' i j) G hG (-A) A fun i hi => abs_le.mp (hX' i hi j)
    have hs := C06_median_breakdown (fun i => |X' i j - med fun i => X' i j|) G hG 0 (2 * A) (fun i hi => by
      refine ⟨abs_nonneg _, abs_le.mpr ?_⟩
      have := abs_le.mp (hX' i hi j)
      constructor <;> linarith [hm.1, hm.2])
    rw [abs_mul, abs_of_nonneg hs.1, abs_of_nonneg (Real.sqrt_nonneg _)]
    refine mul_le_mul hs.2 (Real.sqrt_le_sqrt ?_) (Real.sqrt_nonneg _) (by positivity)
    rw [div_le_div_iff_of_pos_right hE]
    calc _ ≤ ∑ _i : Fin n, ∑ _j : Fin p, (9 : ℝ) := Finset.sum_le_sum fun i _ => Finset.sum_le_sum fun j _ => by
          split_ifs with hc
          · norm_num
          · push Not at hc
            have := hc j
            norm_num at this ⊢
            exact this
      _ = n * p * 9 := by simp; ring

/-- An optimiser that meets the requirement: it returns a given point if that is better than the start. -/
noncomputable example : { opt : (Fin 5 → Fin 2 → ℝ) → (Fin 2 → ℝ) → (Fin 2 → ℝ) // (∀ X x0, l1mObjective (opt X x0) X ≤ l1mObjective x0 X) ∧ ∃ X x0, opt X x0 ≠ x0 } := by
  classical
  refine ⟨fun X x0 => if l1mObjective (fun _ => 0) X ≤ l1mObjective x0 X then fun _ => 0 else x0, fun X x0 => ?_, fun _ _ => 0, fun _ => 1, ?_⟩
  · dsimp only
    split_ifs with h
    · exact h
    · exact le_rfl
  · have h : l1mObjective (fun _ => 0) (fun (_ : Fin 5) (_ : Fin 2) => (0 : ℝ)) ≤ l1mObjective (fun _ => 1) (fun (_ : Fin 5) (_ : Fin 2) => (0 : ℝ)) := by
      refine Finset.sum_le_sum fun i _ => ?_
      have : euclidnorm (diffmat (fun _ => 0) (fun (_ : Fin 5) (_ : Fin 2) => (0 : ℝ)) i) = 0 := by simp [euclidnorm, diffmat]
      rw [this]
      exact euclidnorm_nonneg _
    dsimp only
    rw [if_pos h]
    intro e
    exact zero_ne_one (congrFun e 0)

/-- The mean does not resist one outlier among three cases. -/
example : ¬ Resists (n := 3) (fun x : Fin 3 → ℝ => (∑ i, x i) / 3) fun m => |m| := by
  intro h
  obtain ⟨B, hB⟩ := h (fun _ => 0) {0, 1} (by decide)
  have := hB ![0, 0, 3 * (|B| + 1)] (by simp)
  simp only [Fin.sum_univ_three, Matrix.cons_val_zero, Matrix.cons_val_one, Matrix.cons_val_two, Matrix.tail_cons, Matrix.head_cons] at this
  have e : (0 + 0 + 3 * (|B| + 1)) / 3 = |B| + 1 := by ring
  rw [e, abs_of_nonneg (by positivity)] at this
  linarith [le_abs_self B]

end Direpack
