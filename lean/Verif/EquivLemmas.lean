import Verif.Snipls
import Verif.SniplsLemmas
import Verif.Props.Preproc
import Verif.Spec.Units
import Verif.Spec.Regress

/-!
Location and scale estimators and the component loop of `snipls` under changes of units and of order.
-/

namespace Direpack

open scoped BigOperators
open Spec

variable {n p : ℕ}

/-! ### Estimators of location and scale -/

theorem Centre.run_units {c : Centre} (hc : c = .mean ∨ c = .median) (hn : 0 < n) (a b : Fin p → ℝ) (X : Fin n → Fin p → ℝ) (j : Fin p) :
    c.run (newUnits a b X) j = a j * c.run X j + b j := by
  rcases hc with rfl | rfl
  · exact mean_affine hn (a j) (b j) fun i => X i j
  · exact med_affine hn (a j) (b j) fun i => X i j

theorem ScaleOpt.run_units {s : ScaleOpt} (hs : s = .std ∨ s = .mad) (hn : 0 < n) (a b : Fin p → ℝ) (X : Fin n → Fin p → ℝ) (j : Fin p) :
    s.run (newUnits a b X) j = |a j| * s.run X j := by
  rcases hs with rfl | rfl
  · change Real.sqrt (var fun i => a j * X i j + b j) = _
    rw [var_affine hn (a j) (b j) fun i => X i j, Real.sqrt_mul (sq_nonneg _), Real.sqrt_sq_eq_abs]
    rfl
  · exact C07_mad_affine hn (a j) (b j) fun i => X i j

theorem mean_perm' (σ : Equiv.Perm (Fin n)) (x : Fin n → ℝ) : Direpack.mean (fun i => x (σ i)) = Direpack.mean x := by
  rw [mean_eq, mean_eq, Equiv.sum_comp σ x]

theorem Centre.run_reorder {c : Centre} (hc : c = .mean ∨ c = .median ∨ c = .noneOpt) (σ : Equiv.Perm (Fin n)) (τ : Equiv.Perm (Fin p))
    (X : Fin n → Fin p → ℝ) (j : Fin p) : c.run (reorder σ τ X) j = c.run X (τ j) := by
  rcases hc with rfl | rfl | rfl
  · exact mean_perm' σ fun i => X i (τ j)
  · exact C05_median_perm σ fun i => X i (τ j)
  · rfl

theorem ScaleOpt.run_reorder {s : ScaleOpt} (hs : s = .std ∨ s = .mad ∨ s = .noneOpt) (σ : Equiv.Perm (Fin n)) (τ : Equiv.Perm (Fin p))
    (X : Fin n → Fin p → ℝ) (j : Fin p) : s.run (reorder σ τ X) j = s.run X (τ j) := by
  rcases hs with rfl | rfl | rfl
  · change Real.sqrt (var fun i => X (σ i) (τ j)) = Real.sqrt (var fun i => X i (τ j))
    rw [var_eq, var_eq, mean_perm' σ fun i => X i (τ j), mean_perm' σ fun i => (X i (τ j) - Direpack.mean fun i => X i (τ j)) ^ 2]
  · exact C07_mad_perm σ fun i => X i (τ j)
  · rfl

theorem snIntercept_affine {c : Centre} (hc : c ≠ .noneOpt) (hn : 0 < n) (a b : ℝ) (r : Fin n → ℝ) :
    snIntercept c (fun i => a * r i + b) = a * snIntercept c r + b := by
  cases c with
  | mean => exact mean_affine hn a b r
  | median => exact med_affine hn a b r
  | noneOpt => exact absurd rfl hc
  | other f => exact med_affine hn a b r

theorem snIntercept_perm (c : Centre) (σ : Equiv.Perm (Fin n)) (r : Fin n → ℝ) :
    snIntercept c (fun i => r (σ i)) = snIntercept c r := by
  cases c with
  | mean => exact mean_perm' σ r
  | median => exact C05_median_perm σ r
  | noneOpt => rfl
  | other f => exact C05_median_perm σ r

/-! ### The component loop -/

/-- Sign of a number that is not zero. -/
noncomputable def sg (k : ℝ) : ℝ := k / |k|

theorem sg_mul_self {k : ℝ} (hk : k ≠ 0) : sg k * sg k = 1 := by
  unfold sg
  rw [div_mul_div_comm, abs_mul_abs_self, div_self (mul_ne_zero hk hk)]

theorem sg_mul_abs {k : ℝ} (hk : k ≠ 0) : sg k * |k| = k := div_mul_cancel₀ _ (abs_ne_zero.2 hk)

theorem sg_cases {k : ℝ} (hk : k ≠ 0) : sg k = 1 ∨ sg k = -1 := by
  unfold sg
  rcases lt_or_gt_of_ne hk with h | h
  · right; rw [abs_of_neg h, div_neg, div_self hk]
  · left; rw [abs_of_pos h, div_self hk]

theorem mul_sg {k : ℝ} (hk : k ≠ 0) : k * sg k = |k| := by
  rcases lt_or_gt_of_ne hk with h | h
  · rw [sg, abs_of_neg h, div_neg, div_self hk]; ring
  · rw [sg, abs_of_pos h, div_self hk]; ring

theorem npSign_sg (e x : ℝ) (he : e = 1 ∨ e = -1) : npSign (e * x) = e * npSign x := by
  unfold npSign
  rcases he with rfl | rfl
  · simp
  · rcases lt_trichotomy x 0 with h | h | h
    · simp [h, not_lt.2 h.le]
    · simp [h]
    · simp [h, not_lt.2 h.le]

theorem maxAbs_congr {q : ℕ} (u : Fin q → ℝ) (v : Fin p → ℝ) (τ : Fin q ≃ Fin p) (h : ∀ j, |u j| = |v (τ j)|) : maxAbs u = maxAbs v := by
  apply le_antisymm
  · refine foldr_max_le _ _ (maxAbs_nonneg v) fun x hx => ?_
    obtain ⟨j, rfl⟩ := (List.mem_ofFn' _ _).mp hx
    simp only [h]
    exact abs_le_maxAbs v _
  · refine foldr_max_le _ _ (maxAbs_nonneg u) fun x hx => ?_
    obtain ⟨j, rfl⟩ := (List.mem_ofFn' _ _).mp hx
    have := h (τ.symm j)
    rw [Equiv.apply_symm_apply] at this
    simp only [← this]
    exact abs_le_maxAbs u _

/-- The component found for data in another order, with some predictors negated and the response multiplied by `k`. -/
noncomputable def relComp {q : ℕ} (σ : Equiv.Perm (Fin n)) (τ : Fin q ≃ Fin p) (D : Fin q → ℝ) (k : ℝ) (c : SnComp n p) : SnComp n q :=
  ⟨fun j => sg k * D j * c.w (τ j), fun j => sg k * D j * c.load (τ j), |k| * c.c, fun i => sg k * c.t (σ i), c.good.map τ.symm.toEmbedding⟩

/-! ### Estimators that follow the order of cases and variables -/

theorem mean_scaled (hn : 0 < n) (σ : Equiv.Perm (Fin n)) (e : ℝ) (x : Fin n → ℝ) :
    Direpack.mean (fun i => e * x (σ i)) = e * Direpack.mean x := by
  have := mean_affine hn e 0 (fun i => x (σ i))
  simp only [add_zero] at this
  rw [this, mean_perm' σ x]

/-- An estimator of location that follows the order of cases and variables and the reversal of variables. -/
def Centre.Follows (c : Centre) (σ : Equiv.Perm (Fin n)) : Prop :=
  ∀ {q k : ℕ} (τ : Fin q ≃ Fin k) (D : Fin q → ℝ), (∀ j, D j = 1 ∨ D j = -1) → ∀ (T : Fin n → Fin k → ℝ) (j : Fin q),
    c.run (fun i j => D j * T (σ i) (τ j)) j = D j * c.run T (τ j)

/-- An estimator of scale that follows the order of cases and variables and ignores the reversal of variables. -/
def ScaleOpt.Follows (s : ScaleOpt) (σ : Equiv.Perm (Fin n)) : Prop :=
  ∀ {q k : ℕ} (τ : Fin q ≃ Fin k) (D : Fin q → ℝ), (∀ j, D j = 1 ∨ D j = -1) → ∀ (T : Fin n → Fin k → ℝ) (j : Fin q),
    s.run (fun i j => D j * T (σ i) (τ j)) j = s.run T (τ j)

theorem Centre.follows {c : Centre} (hc : c = .mean ∨ c = .median ∨ c = .noneOpt) (hn : 0 < n) (σ : Equiv.Perm (Fin n)) : c.Follows σ := by
  intro q k τ D _ T j
  rcases hc with rfl | rfl | rfl
  · exact mean_scaled hn σ (D j) fun i => T i (τ j)
  · have := med_affine hn (D j) 0 fun i => T (σ i) (τ j)
    simp only [add_zero] at this
    change med (fun i => D j * T (σ i) (τ j)) = D j * med fun i => T i (τ j)
    rw [this, C05_median_perm σ fun i => T i (τ j)]
  · exact (mul_zero (D j)).symm

theorem ScaleOpt.follows {s : ScaleOpt} (hs : s = .std ∨ s = .mad ∨ s = .noneOpt) (hn : 0 < n) (σ : Equiv.Perm (Fin n)) : s.Follows σ := by
  intro q k τ D hD T j
  have hea : |D j| = 1 := by rcases hD j with h | h <;> rw [h] <;> norm_num
  have h3 : newUnits D (fun _ => 0) (fun i j => T (σ i) (τ j)) = fun i j => D j * T (σ i) (τ j) := by
    funext i j; simp [newUnits]
  rcases hs with rfl | rfl | rfl
  · have h1 := ScaleOpt.run_units (s := .std) (.inl rfl) hn D (fun _ => 0) (fun i j => T (σ i) (τ j)) j
    have h2 := ScaleOpt.run_reorder (s := .std) (.inl rfl) σ (Equiv.refl (Fin q)) (fun i j => T i (τ j)) j
    rw [h3, hea, one_mul] at h1
    rw [h1]
    exact h2
  · have h1 := ScaleOpt.run_units (s := .mad) (.inr rfl) hn D (fun _ => 0) (fun i j => T (σ i) (τ j)) j
    have h2 := ScaleOpt.run_reorder (s := .mad) (.inr (.inl rfl)) σ (Equiv.refl (Fin q)) (fun i j => T i (τ j)) j
    rw [h3, hea, one_mul] at h1
    rw [h1]
    exact h2
  · rfl

section
variable {q : ℕ} (σ : Equiv.Perm (Fin n)) (τ : Fin q ≃ Fin p) (D : Fin q → ℝ) (k : ℝ)

theorem relCov (X : Fin n → Fin p → ℝ) (y : Fin n → ℝ) (j : Fin q) :
    ∑ i, (D j * X (σ i) (τ j)) * (k * y (σ i)) = D j * k * ∑ i, X i (τ j) * y i := by
  rw [← Equiv.sum_comp σ (fun i => X i (τ j) * y i), Finset.mul_sum]
  exact Finset.sum_congr rfl fun i _ => by ring

theorem relWeights (hD : ∀ j, D j = 1 ∨ D j = -1) (hk : k ≠ 0) (eta : ℝ) (X : Fin n → Fin p → ℝ) (y : Fin n → ℝ) (j : Fin q) :
    (snWeights eta (fun i j => D j * X (σ i) (τ j)) (fun i => k * y (σ i))).1 j = (snWeights eta X y).1 (τ j) ∧
    (snWeights eta (fun i j => D j * X (σ i) (τ j)) (fun i => k * y (σ i))).2 j = sg k * D j * (snWeights eta X y).2 (τ j) := by
  have hDD : ∀ j, D j * D j = 1 := fun j => by rcases hD j with h | h <;> rw [h] <;> norm_num
  have hDabs : ∀ j, |D j| = 1 := fun j => by rcases hD j with h | h <;> rw [h] <;> norm_num
  have hsabs : |sg k| = 1 := by rcases sg_cases hk with h | h <;> rw [h] <;> norm_num
  simp only [snWeights, relCov σ τ D k]
  have hn : Real.sqrt (∑ j, (D j * k * ∑ i, X i (τ j) * y i) ^ 2) = |k| * Real.sqrt (∑ j, (∑ i, X i j * y i) ^ 2) := by
    rw [← Equiv.sum_comp τ (fun j => (∑ i, X i j * y i) ^ 2), ← Real.sqrt_sq_eq_abs, ← Real.sqrt_mul (sq_nonneg _), Finset.mul_sum]
    congr 1
    refine Finset.sum_congr rfl fun j _ => ?_
    have := hDD j
    calc _ = (D j * D j) * (k ^ 2 * (∑ i, X i (τ j) * y i) ^ 2) := by ring
      _ = _ := by rw [this, one_mul]
  set N := Real.sqrt (∑ j, (∑ i, X i j * y i) ^ 2) with hN
  have hw : ∀ j, (D j * k * ∑ i, X i (τ j) * y i) / (|k| * N) = (sg k * D j) * ((∑ i, X i (τ j) * y i) / N) := by
    intro j
    rw [mul_div_mul_comm, sg]
    ring
  simp only [hn, hw]
  have hm : maxAbs (fun j => (sg k * D j) * ((∑ i, X i (τ j) * y i) / N)) = maxAbs fun j => (∑ i, X i j * y i) / N := by
    refine maxAbs_congr _ _ τ fun j => ?_
    rw [abs_mul, abs_mul, hsabs, hDabs, one_mul, one_mul]
  have he : sg k * D j = 1 ∨ sg k * D j = -1 := by
    rcases sg_cases hk with h | h <;> rcases hD j with h' | h' <;> rw [h, h'] <;> norm_num
  have ha : |sg k * D j| = 1 := by rcases he with h | h <;> rw [h] <;> norm_num
  simp only [hm]
  rw [abs_mul, ha, one_mul, npSign_sg _ _ he]
  exact ⟨rfl, by ring⟩

theorem snLoop_rel (hD : ∀ j, D j = 1 ∨ D j = -1) (hk : k ≠ 0) (eta : ℝ) (h : ℕ) :
    ∀ (X : Fin n → Fin p → ℝ) (y : Fin n → ℝ) (old : Finset (Fin p)),
    snLoop eta h (fun i j => D j * X (σ i) (τ j)) (fun i => k * y (σ i)) (old.map τ.symm.toEmbedding) =
      (snLoop eta h X y old).map fun l => l.map (relComp σ τ D k) := by
  have hDD : ∀ j, D j * D j = 1 := fun j => by rcases hD j with h | h <;> rw [h] <;> norm_num
  have hDne : ∀ j, D j ≠ 0 := fun j => by rcases hD j with h | h <;> rw [h] <;> norm_num
  have hss := sg_mul_self hk
  induction h with
  | zero => intro X y old; rfl
  | succ h ih =>
    intro X y old
    simp only [snLoop]
    have hcov : (∀ j, ∑ i, (D j * X (σ i) (τ j)) * (k * y (σ i)) = 0) ↔ ∀ j, ∑ i, X i j * y i = 0 := by
      simp only [relCov σ τ D k]
      constructor
      · intro hh j
        have := hh (τ.symm j)
        rw [Equiv.apply_symm_apply] at this
        exact (mul_eq_zero.1 this).resolve_left (mul_ne_zero (hDne _) hk)
      · intro hh j; rw [hh, mul_zero]
    have hold : old.map τ.symm.toEmbedding = ∅ ↔ old = ∅ := by simp
    by_cases hc : ∀ j, ∑ i, X i j * y i = 0
    · rw [if_pos hc, if_pos (hcov.2 hc)]
      by_cases ho : old = ∅
      · rw [if_pos ho, if_pos (hold.2 ho)]; rfl
      · rw [if_neg ho, if_neg (fun e => ho (hold.1 e))]; rfl
    · rw [if_neg hc, if_neg (fun e => hc (hcov.1 e))]
      set good := old ∪ Finset.univ.filter fun j => 0 < (snWeights eta X y).1 j with hgood
      have hg : old.map τ.symm.toEmbedding ∪ Finset.univ.filter (fun j => 0 <
          (snWeights eta (fun i j => D j * X (σ i) (τ j)) (fun i => k * y (σ i))).1 j) = good.map τ.symm.toEmbedding := by
        ext j
        simp only [Finset.mem_union, Finset.mem_filter, Finset.mem_univ, true_and, (relWeights σ τ D k hD hk eta X y j).1,
          Finset.mem_map_equiv, Equiv.symm_symm, hgood]
      rw [hg]
      have hgm : ∀ j, j ∈ good.map τ.symm.toEmbedding ↔ τ j ∈ good := fun j => by
        rw [Finset.mem_map_equiv, Equiv.symm_symm]
      have hge : good.map τ.symm.toEmbedding = ∅ ↔ good = ∅ := by simp
      by_cases hgn : good = ∅
      · rw [if_pos hgn, if_pos (hge.2 hgn)]; rfl
      · rw [if_neg hgn, if_neg (fun e => hgn (hge.1 e))]
        set w : Fin p → ℝ := fun j => if j ∈ good then (snWeights eta X y).2 j else 0 with hw
        have hwj : ∀ j, (if j ∈ good then (snWeights eta X y).2 j else 0) = w j := fun _ => rfl
        have hw' : ∀ j, (if j ∈ good.map τ.symm.toEmbedding then
            (snWeights eta (fun i j => D j * X (σ i) (τ j)) (fun i => k * y (σ i))).2 j else 0) =
            sg k * D j * w (τ j) := by
          intro j
          simp only [hgm, (relWeights σ τ D k hD hk eta X y j).2, hw]
          split <;> simp
        set t : Fin n → ℝ := fun i => ∑ j, X i j * w j with ht
        have htj : ∀ i, ∑ j, X i j * w j = t i := fun _ => rfl
        have ht' : ∀ i, ∑ j, (D j * X (σ i) (τ j)) * (sg k * D j * w (τ j)) = sg k * t (σ i) := by
          intro i
          rw [← htj, ← Equiv.sum_comp τ (fun j => X (σ i) j * w j), Finset.mul_sum]
          refine Finset.sum_congr rfl fun j _ => ?_
          calc _ = (D j * D j) * (sg k * (X (σ i) (τ j) * w (τ j))) := by ring
            _ = _ := by rw [hDD, one_mul]
        simp only [hw', hwj, ht', htj]
        have hn2 : ∑ i, (sg k * t (σ i)) ^ 2 = ∑ i, t i ^ 2 := by
          rw [← Equiv.sum_comp σ (fun i => t i ^ 2)]
          refine Finset.sum_congr rfl fun i _ => ?_
          rw [mul_pow, sq, hss, one_mul]
        rw [hn2]
        by_cases hz : ∑ i, t i ^ 2 = 0
        · rw [if_pos hz, if_pos hz]; rfl
        · rw [if_neg hz, if_neg hz]
          have hcc : (∑ i, (k * y (σ i)) * (sg k * t (σ i))) / (∑ i, t i ^ 2) = |k| * ((∑ i, y i * t i) / ∑ i, t i ^ 2) := by
            rw [← Equiv.sum_comp σ (fun i => y i * t i), ← mul_div_assoc, Finset.mul_sum]
            congr 1
            refine Finset.sum_congr rfl fun i _ => ?_
            rw [← mul_sg hk]; ring
          have hph : ∀ j, (∑ i, (D j * X (σ i) (τ j)) * (sg k * t (σ i))) / (∑ i, t i ^ 2) =
              sg k * D j * ((∑ i, X i (τ j) * t i) / ∑ i, t i ^ 2) := by
            intro j
            rw [← Equiv.sum_comp σ (fun i => X i (τ j) * t i), ← mul_div_assoc, Finset.mul_sum]
            congr 1
            exact Finset.sum_congr rfl fun i _ => by ring
          simp only [hcc, hph]
          set c := (∑ i, y i * t i) / ∑ i, t i ^ 2 with hcdef
          set ph : Fin p → ℝ := fun j => (∑ i, X i j * t i) / ∑ i, t i ^ 2 with hphdef
          have hX' : (fun i j => D j * X (σ i) (τ j) - (sg k * t (σ i)) * (sg k * D j * ((∑ i, X i (τ j) * t i) / ∑ i, t i ^ 2))) =
              fun i j => D j * (fun i j => X i j - t i * ph j) (σ i) (τ j) := by
            funext i j
            calc _ = D j * X (σ i) (τ j) - (sg k * sg k) * (D j * (t (σ i) * ph (τ j))) := by simp only [hphdef]; ring
              _ = _ := by rw [hss]; ring
          have hy' : (fun i => k * y (σ i) - (sg k * t (σ i)) * (|k| * c)) = fun i => k * (fun i => y i - t i * c) (σ i) := by
            funext i
            calc _ = k * y (σ i) - (sg k * |k|) * (t (σ i) * c) := by ring
              _ = _ := by rw [sg_mul_abs hk]; ring
          rw [hX', hy', ih (fun i j => X i j - t i * ph j) (fun i => y i - t i * c) good]
          have hld : (fun j => if j ∈ good.map τ.symm.toEmbedding then sg k * D j * ((∑ i, X i (τ j) * t i) / ∑ i, t i ^ 2) else 0) =
              fun j => sg k * D j * (if τ j ∈ good then ph (τ j) else 0) := by
            funext j
            simp only [hgm, hphdef]
            split <;> simp
          cases hrec : snLoop eta h (fun i j => X i j - t i * ph j) (fun i => y i - t i * c) good with
          | error e => rfl
          | ok l =>
            simp only [Except.map, List.map_cons, hld]
            rfl

end

end Direpack
