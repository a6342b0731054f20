import Mathlib.Tactic.Linarith
import Mathlib.Tactic.Positivity
import Mathlib.Tactic.FieldSimp
import Mathlib.Tactic.Ring
import Mathlib.Tactic.NormNum
import Mathlib.Tactic.Push
import Mathlib.Algebra.Order.BigOperators.Group.Finset
import Mathlib.Algebra.Order.BigOperators.Ring.Finset
import Mathlib.Algebra.BigOperators.Field
import Mathlib.Order.Interval.Finset.Fin
import Mathlib.Data.Rat.Defs
import Mathlib.Algebra.Field.Rat
import Mathlib.Algebra.Order.Ring.Rat
import Mathlib.Data.Fin.VecNotation
import Verif.MSupport
import Verif.Spec.MSupport

/-!
Properties C01-C04 (weight functions, broken stick), C52 (robust loss) and
C76 (cross-validation table).
-/

set_option linter.unusedSectionVars false

namespace Direpack

open scoped BigOperators

section
variable {K : Type} [Field K] [LinearOrder K] [IsStrictOrderedRing K]

/-! ### C01 Fair weights -/

/-- C01: every Fair weight lies in (0,1]. -/
theorem C01_fair_range {n : ℕ} (x : Fin n → K) (c : K) (i : Fin n) :
    0 < fair x c i ∧ fair x c i ≤ 1 := by
  unfold fair
  have h : 0 ≤ |x i / (c * 2)| := abs_nonneg _
  constructor
  · positivity
  · rw [div_le_one (by positivity)]
    nlinarith

/-- C01: with a positive cutoff only a case at distance exactly 0 gets weight 1. -/
theorem C01_fair_eq_one_iff {n : ℕ} (x : Fin n → K) (c : K) (hc : 0 < c) (i : Fin n) :
    fair x c i = 1 ↔ x i = 0 := by
  unfold fair
  have h : 0 ≤ |x i / (c * 2)| := abs_nonneg _
  rw [div_eq_one_iff_eq (by positivity)]
  constructor
  · intro e
    have h0 : |x i / (c * 2)| = 0 := by nlinarith
    have := abs_eq_zero.mp h0
    rcases div_eq_zero_iff.mp this with h1 | h1
    · exact h1
    · exfalso; linarith
  · intro e; simp [e]

/-- C01: a case at least as far away (in absolute value) never gets a larger weight, in
the same or in another data set; in particular the weight ignores the sign and the other cases. -/
theorem C01_fair_antitone {n m : ℕ} (x : Fin n → K) (y : Fin m → K) (c : K)
    (i : Fin n) (j : Fin m) (h : |x i| ≤ |y j|) : fair y c j ≤ fair x c i := by
  unfold fair
  have h2 : |x i / (c * 2)| ≤ |y j / (c * 2)| := by
    rw [abs_div, abs_div]
    exact div_le_div_of_nonneg_right h (abs_nonneg _)
  have h3 : 0 ≤ |x i / (c * 2)| := abs_nonneg _
  apply one_div_le_one_div_of_le (by positivity)
  apply pow_le_pow_left₀ (by positivity)
  linarith

/-- C01: strictly farther means strictly smaller weight. -/
theorem C01_fair_strictAnti {n m : ℕ} (x : Fin n → K) (y : Fin m → K) (c : K) (hc : 0 < c)
    (i : Fin n) (j : Fin m) (h : |x i| < |y j|) : fair y c j < fair x c i := by
  unfold fair
  have h2 : |x i / (c * 2)| < |y j / (c * 2)| := by
    rw [abs_div, abs_div]
    exact div_lt_div_of_pos_right h (abs_pos.mpr (by positivity))
  have h3 : 0 ≤ |x i / (c * 2)| := abs_nonneg _
  apply one_div_lt_one_div_of_lt (by positivity)
  apply pow_lt_pow_left₀ (by linarith) (by positivity) (by norm_num)

/-! ### C02 Huber weights -/

/-- C02 (partial: the full claim is for every positive cutoff; it is proved for cutoffs at
least 1 and refuted below 1 by `C02_huber_violated`).  The Huber weights are the
textbook ones (distances are nonnegative in RM and SPRM; a negative entry counts as inside). -/
theorem C02_huber_correct_partial {n : ℕ} (x : Fin n → K) (c : K) (hc : 1 ≤ c) : huber x c = fun i => Spec.huberWeight c (x i) := by
  funext i
  unfold huber Spec.huberWeight maskSet
  dsimp only
  by_cases h : x i ≤ c
  · simp [h, not_lt.mpr hc]
  · have h' : c < x i := not_le.mp h
    simp [h, h', abs_of_pos (show 0 < x i by linarith)]

/-- C02 (partial, see above): weights in (0,1], and farther cases never get larger weights. -/
theorem C02_huber_range_partial {n : ℕ} (x : Fin n → K) (c : K) (hc : 1 ≤ c) :
    (∀ i, 0 < huber x c i ∧ huber x c i ≤ 1) ∧
    (∀ i j, x i ≤ x j → huber x c j ≤ huber x c i) := by
  rw [C02_huber_correct_partial x c hc]
  have key : ∀ i, 0 < Spec.huberWeight c (x i) ∧ Spec.huberWeight c (x i) ≤ 1 := by
    intro i
    unfold Spec.huberWeight
    split_ifs with h
    · exact ⟨one_pos, le_rfl⟩
    · have h' : c < x i := not_le.mp h
      have hx0 : 0 < x i := by linarith
      exact ⟨div_pos (by linarith) hx0, (div_le_one hx0).mpr h'.le⟩
  refine ⟨key, ?_⟩
  intro i j hij
  by_cases hi : x i ≤ c
  · have : Spec.huberWeight c (x i) = 1 := by simp [Spec.huberWeight, hi]
    simp only [this]
    exact (key j).2
  · have hi' : c < x i := not_le.mp hi
    have hj : ¬ x j ≤ c := by linarith [not_le.mp hi] |> not_le.mpr
    simp only [Spec.huberWeight, hi, hj, if_false]
    exact div_le_div_of_nonneg_left (by linarith) (by linarith) hij

/-- C02: what the code computes for a cutoff below 1: a case *inside* the cutoff gets weight `c`,
less than a case just outside. -/
theorem C02_huber_small_cutoff {n : ℕ} (x : Fin n → K) (c : K) (hc : c < 1)
    (hx : ∀ i, 0 ≤ x i) :
    huber x c = fun i => if x i ≤ c then c else c / x i := by
  funext i
  unfold huber maskSet
  dsimp only
  by_cases h : x i ≤ c
  · simp [h, hc]
  · have h' : c < x i := not_le.mp h
    simp [h, h', abs_of_nonneg (hx i)]

/-! ### C03 Hampel weights -/

/-- C03 (partial: the full claim is for all positive ordered cutoffs; proved for `1 ≤ a`,
refuted below by `C03_hampel_violated`).  The Hampel weights
are the textbook three-part ones (a negative entry counts as inside). -/
theorem C03_hampel_correct_partial {n : ℕ} (x : Fin n → K) (a b r : K) (ha : 1 ≤ a)
    (hab : a ≤ b) (hbr : b < r) :
    hampel x a b r = fun i => Spec.hampelWeight a b r (x i) := by
  funext i
  unfold hampel Spec.hampelWeight maskSet
  dsimp only
  have h1b : ¬ (b < 1) := by linarith |> not_lt.mpr
  have h1r : ¬ (r < 1) := by linarith |> not_lt.mpr
  by_cases h : x i ≤ a
  · simp [h, not_lt.mpr ha, h1b, h1r]
  · have h' : a < x i := not_le.mp h
    have hx0 : 0 < x i := by linarith
    by_cases hb : x i ≤ b
    · have hw : a / x i < 1 := (div_lt_one hx0).mpr h'
      have hwb : ¬ b < a / x i := not_lt.mpr (by linarith)
      have hwr : ¬ r < a / x i := not_lt.mpr (by linarith)
      simp [h, h', hb, abs_of_pos hx0, hwb, hwr]
    · have hb' : b < x i := not_le.mp hb
      by_cases hr : x i ≤ r
      · have hw : a * (r - x i) / ((r - b) * x i) ≤ 1 := by
          rw [div_le_one (mul_pos (by linarith) hx0)]
          nlinarith [mul_nonneg (sub_nonneg.mpr hr) (sub_nonneg.mpr h'.le)]
        have hwr : ¬ r < a * (r - x i) / ((r - b) * x i) := not_lt.mpr (by linarith)
        have e : a * (r - x i) / ((r - b) * x i) = a * (r - x i) / (x i * (r - b)) := by
          rw [mul_comm (r - b)]
        simp [h, h', hb, hb', hr, abs_of_pos hx0, e]
        intro h3
        exact absurd h3 (by rw [← e]; exact hwr)
      · have hr' : r < x i := not_le.mp hr
        simp [h, hb, hr, hr']

/-- C03 (partial, see above): weights in [0,1], farther cases never get larger weights. -/
theorem C03_hampel_range_partial {n : ℕ} (x : Fin n → K) (a b r : K) (ha : 1 ≤ a)
    (hab : a ≤ b) (hbr : b < r) (hx : ∀ i, 0 ≤ x i) :
    (∀ i, 0 ≤ hampel x a b r i ∧ hampel x a b r i ≤ 1) ∧
    (∀ i j, x i ≤ x j → hampel x a b r j ≤ hampel x a b r i) := by
  rw [C03_hampel_correct_partial x a b r ha hab hbr]
  have a0 : 0 < a := by linarith
  -- antitonicity of the specification in the distance
  have key : ∀ s t : K, 0 ≤ s → s ≤ t → Spec.hampelWeight a b r t ≤ Spec.hampelWeight a b r s := by
    intro s t hs hst
    unfold Spec.hampelWeight
    by_cases hta : t ≤ a
    · simp [hta, hst.trans hta]
    · have ht0 : 0 < t := by linarith [not_le.mp hta]
      have ht1 : a < t := not_le.mp hta
      have c2 : a / t ≤ 1 := (div_le_one ht0).mpr ht1.le
      by_cases hsa : s ≤ a
      · simp only [hta, hsa, if_true, if_false]
        split_ifs with h1 h2
        · exact c2
        · by_cases hb : t ≤ b
          · exact absurd hb h1
          · have hb' := not_le.mp hb
            rw [div_le_one (mul_pos ht0 (by linarith))]
            nlinarith [mul_nonneg (sub_nonneg.mpr h2) (sub_nonneg.mpr ht1.le)]
        · exact zero_le_one
      · have hsa' := not_le.mp hsa
        have hs0 : 0 < s := by linarith
        simp only [hta, hsa, if_false]
        by_cases htb : t ≤ b
        · simp only [htb, hst.trans htb, if_true]
          exact div_le_div_of_nonneg_left a0.le hs0 hst
        · have htb' := not_le.mp htb
          simp only [htb, if_false]
          by_cases htr : t ≤ r
          · simp only [htr, if_true]
            by_cases hsb : s ≤ b
            · simp only [hsb, if_true]
              rw [div_le_div_iff₀ (mul_pos ht0 (by linarith)) hs0]
              have : (r - t) * s ≤ t * (r - b) := by nlinarith
              nlinarith [mul_le_mul_of_nonneg_left this a0.le]
            · have hsb' := not_le.mp hsb
              have hsr : s ≤ r := hst.trans htr
              simp only [hsb, hsr, if_true, if_false]
              have hrb : 0 < r - b := by linarith
              rw [div_le_div_iff₀ (mul_pos ht0 hrb) (mul_pos hs0 hrb)]
              have : (r - t) * s ≤ (r - s) * t := by nlinarith
              nlinarith [mul_le_mul_of_nonneg_left this (mul_pos a0 hrb).le]
          · simp only [htr, if_false]
            split_ifs with h1 h2
            · positivity
            · apply div_nonneg
              · exact mul_nonneg a0.le (by linarith)
              · exact mul_nonneg hs0.le (by linarith)
            · exact le_rfl
  refine ⟨fun i => ⟨?_, ?_⟩, fun i j h => key _ _ (hx i) h⟩
  · show 0 ≤ Spec.hampelWeight a b r (x i)
    unfold Spec.hampelWeight
    split_ifs with h1 h2 h3
    · exact zero_le_one
    · exact div_nonneg a0.le (hx i)
    · exact div_nonneg (mul_nonneg a0.le (by linarith)) (mul_nonneg (hx i) (by linarith))
    · exact le_rfl
  · calc Spec.hampelWeight a b r (x i) ≤ Spec.hampelWeight a b r 0 := key 0 _ le_rfl (hx i)
      _ = 1 := by simp [Spec.hampelWeight, a0.le]

/-! ### C04 broken stick -/

private lemma brokenstick_eq (k : ℕ) (i : Fin k) :
    (brokenstick k i : K) = (∑ j ∈ Finset.univ.filter (fun j : Fin k => i ≤ j),
      (1 / ((j : ℕ) + 1 : K))) / k := by
  unfold brokenstick
  rw [Finset.sum_filter]
  congr 1
  apply Finset.sum_congr rfl
  intro j _
  split_ifs <;> simp

/-- C04: all thresholds are positive. -/
theorem C04_brokenstick_pos (k : ℕ) (i : Fin k) : 0 < (brokenstick k i : K) := by
  rw [brokenstick_eq]
  have hk : 0 < k := i.pos
  apply div_pos _ (by exact_mod_cast hk)
  apply Finset.sum_pos
  · intro j _; positivity
  · exact ⟨i, by simp⟩

/-- C04: the thresholds are strictly decreasing. -/
theorem C04_brokenstick_strictAnti (k : ℕ) (i j : Fin k) (h : i < j) :
    (brokenstick k j : K) < brokenstick k i := by
  rw [brokenstick_eq, brokenstick_eq]
  have hk : 0 < k := i.pos
  apply div_lt_div_of_pos_right _ (by exact_mod_cast hk)
  apply Finset.sum_lt_sum_of_subset (i := i)
  · intro l; simp only [Finset.mem_filter, Finset.mem_univ, true_and]; intro hl; exact h.le.trans hl
  · simp
  · simp [h]
  · positivity
  · intros; positivity

/-- C04: the thresholds sum to one. -/
theorem C04_brokenstick_sum (k : ℕ) (hk : 0 < k) : ∑ i, (brokenstick k i : K) = 1 := by
  unfold brokenstick
  rw [← Finset.sum_div, Finset.sum_comm]
  have hkK : (k : K) ≠ 0 := by exact_mod_cast hk.ne'
  rw [div_eq_one_iff_eq hkK]
  have : ∀ j : Fin k, ∑ i : Fin k, (if i ≤ j then (1 : K) else 0) * (1 / ((j : ℕ) + 1 : K)) = 1 := by
    intro j
    rw [← Finset.sum_mul, Finset.sum_ite]
    simp only [Finset.sum_const, nsmul_eq_mul, mul_one, mul_zero, add_zero]
    have hc : (Finset.univ.filter (fun i : Fin k => i ≤ j)).card = (j : ℕ) + 1 := by
      have : (Finset.univ.filter (fun i : Fin k => i ≤ j)) = Finset.Iic j := by ext; simp
      rw [this, Fin.card_Iic]
    rw [hc]
    push_cast
    have : ((j : ℕ) + 1 : K) ≠ 0 := by positivity
    field_simp
  rw [Finset.sum_congr rfl (fun j _ => this j)]
  simp

/-- C04: for every vector of `k ≥ 1` proportions that sums to one the search in `sprm.fit`
succeeds, and what it returns is at least 1 and at most `k`; if it returns `m > 1` then `m` is the (zero based)
position of the first proportion not exceeding its threshold. -/
theorem C04_relcomp_total (k : ℕ) (hk : 0 < k) (spc : Fin k → K) (hs : ∑ i, spc i = 1) :
    ∃ m, relcomp spc = .ok m ∧ 1 ≤ m ∧ m ≤ k ∧
      ∃ i : Fin k, spc i ≤ brokenstick k i ∧ (∀ j < i, brokenstick k j < spc j) ∧
        m = max (i : ℕ) 1 := by
  have hex : ∃ i : Fin k, spc i ≤ brokenstick k i := by
    by_contra hcon
    push Not at hcon
    have : ∑ i, (brokenstick k i : K) < ∑ i, spc i := by
      apply Finset.sum_lt_sum_of_nonempty
      · exact ⟨⟨0, hk⟩, Finset.mem_univ _⟩
      · intro i _; exact hcon i
    rw [C04_brokenstick_sum k hk, hs] at this
    exact lt_irrefl _ this
  unfold relcomp
  cases hf : (List.finRange k).find? (fun i => decide (spc i - brokenstick k i ≤ 0)) with
  | none =>
    exfalso
    obtain ⟨i, hi⟩ := hex
    have := List.find?_eq_none.mp hf i (List.mem_finRange i)
    simp at this
    exact absurd hi (not_le.mpr this)
  | some i =>
    refine ⟨max (i : ℕ) 1, rfl, le_max_right _ _, max_le i.2.le hk, i, ?_, ?_, rfl⟩
    · have := List.find?_some hf
      simpa using this
    · intro j hj
      obtain ⟨_, as, bs, hsplit, has⟩ := List.find?_eq_some_iff_append.mp hf
      have hlt : (List.finRange k).Pairwise (· < ·) := List.pairwise_lt_finRange k
      have hjmem : j ∈ as := by
        have hm : j ∈ List.finRange k := List.mem_finRange j
        rw [hsplit] at hm hlt
        rcases List.mem_append.mp hm with h | h
        · exact h
        · exfalso
          rw [List.pairwise_append] at hlt
          rcases List.mem_cons.mp h with h | h
          · exact absurd hj (by rw [h]; exact lt_irrefl _)
          · have := (List.pairwise_cons.mp hlt.2.1).1 j h
            exact absurd hj (not_lt.mpr this.le)
      have := has j hjmem
      simpa using this

/-! ### C52 robust loss -/

/-- C52 (partial: proved for the Fair weights; refuted for the default Hampel weights and for Huber by
`C52_robustLoss_violated`).  Exchanging observed and predicted values - i.e. negating every residual - leaves the
robust loss unchanged. -/
theorem C52_robustLoss_fair_symm_partial {n : ℕ} (y ypred : Fin n → K) (c b r : K) :
    robustLoss weightedMSE .fair y ypred c b r = robustLoss weightedMSE .fair ypred y c b r := by
  unfold robustLoss WFun.apply weightedMSE
  have hw : fair (fun i => y i - ypred i) c = fair (fun i => ypred i - y i) c := by
    funext i
    unfold fair
    rw [← abs_neg, ← neg_div, neg_sub]
  simp only [hw]
  congr 1
  apply Finset.sum_congr rfl
  intro i _
  ring

/-- C52: what the code does instead: under-predictions are weighted, but an over-prediction
(`y i ≤ ypred i`), however large, always has full weight 1. -/
theorem C52_robustLoss_negative_full_weight {n : ℕ} (res : Fin n → K) (c b r : K) (hc : 1 ≤ c)
    (hb : 1 ≤ b) (hr : 1 ≤ r) (i : Fin n) (hi : res i ≤ 0) :
    WFun.apply .huber res c b r i = 1 ∧ WFun.apply .hampel res c b r i = 1 := by
  have h : res i ≤ c := by linarith
  constructor
  · simp [WFun.apply, huber, maskSet, h, not_lt.mpr hc]
  · simp [WFun.apply, hampel, maskSet, h, not_lt.mpr hc, not_lt.mpr hb, not_lt.mpr hr]

/-- C52 (partial): for residuals that are all nonnegative the weights are the specified ones. -/
theorem C52_robustLoss_nonneg_partial {n : ℕ} (y ypred : Fin n → K) (a b r : K) (ha : 1 ≤ a)
    (hab : a ≤ b) (hbr : b < r) (hx : ∀ i, ypred i ≤ y i) :
    robustLoss weightedMSE .hampel y ypred a b r =
      (∑ i, Spec.hampelWeight a b r |y i - ypred i| * (y i - ypred i) ^ 2) /
        ∑ i, Spec.hampelWeight a b r |y i - ypred i| := by
  unfold robustLoss WFun.apply weightedMSE
  dsimp only
  rw [C03_hampel_correct_partial _ a b r ha hab hbr]
  have : ∀ i, |y i - ypred i| = y i - ypred i := fun i => abs_of_nonneg (sub_nonneg.mpr (hx i))
  simp only [this]

end

/-! ### Witnesses: violations and non-vacuity, evaluated over the rationals -/

/-- C02 violated: with cutoff 1/2 the case at distance 0, inside the cutoff, gets weight 1/2
instead of 1, and less than the case at distance 3/5, outside the cutoff. -/
theorem C02_huber_violated :
    ∃ (c : ℚ) (x : Fin 2 → ℚ), 0 < c ∧ (∀ i, 0 ≤ x i) ∧ x 0 ≤ c ∧ huber x c 0 ≠ 1 ∧
      x 0 < x 1 ∧ huber x c 0 < huber x c 1 :=
  ⟨1/2, ![0, 3/5], by decide +kernel⟩

/-- C03 violated: with cutoffs 1/2 < 3/4 < 9/10 a case at distance 0 gets weight 0, i.e. is
discarded as an outlier, while the case at distance 3/5 keeps a positive weight. -/
theorem C03_hampel_violated :
    ∃ (a b r : ℚ) (x : Fin 2 → ℚ), 0 < a ∧ a ≤ b ∧ b < r ∧ (∀ i, 0 ≤ x i) ∧ x 0 ≤ a ∧
      hampel x a b r 0 = 0 ∧ x 0 < x 1 ∧ 0 < hampel x a b r 1 :=
  ⟨1/2, 3/4, 9/10, ![0, 3/5], by decide +kernel⟩

/-- C52 violated: negating all residuals changes the robust loss with the default weight
function (and with Huber). -/
theorem C52_robustLoss_violated :
    ∃ (y ypred : Fin 3 → ℚ) (a b r : ℚ), 1 ≤ a ∧ a ≤ b ∧ b < r ∧
      robustLoss weightedMSE .hampel y ypred a b r ≠ robustLoss weightedMSE .hampel ypred y a b r ∧
      robustLoss weightedMSE .huber y ypred a b r ≠ robustLoss weightedMSE .huber ypred y a b r :=
  ⟨![0, 1, 100], ![0, 0, 0], 2, 3, 4, by decide +kernel⟩

-- non-vacuity of the hypotheses of the C01-C04 theorems
example : (0:ℚ) < 2 ∧ fair (![0, 4, -4] : Fin 3 → ℚ) 2 = ![1, 1/4, 1/4] := by decide +kernel
example : (1:ℚ) ≤ 2 ∧ (∀ i, (0:ℚ) ≤ (![0, 1, 4] : Fin 3 → ℚ) i) ∧
    huber (![0, 1, 4] : Fin 3 → ℚ) 2 = ![1, 1, 1/2] := by decide +kernel
example : (1:ℚ) ≤ 2 ∧ (2:ℚ) ≤ 4 ∧ (4:ℚ) < 6 ∧
    hampel (![1, 4, 5, 7] : Fin 4 → ℚ) 2 4 6 = ![1, 1/2, 1/5, 0] := by decide +kernel
example : (brokenstick 3 : Fin 3 → ℚ) = ![11/18, 5/18, 1/9] := by decide +kernel
example : (∑ i, (![9/10, 1/20, 1/20] : Fin 3 → ℚ) i = 1) ∧
    relcomp (![9/10, 1/20, 1/20] : Fin 3 → ℚ) = .ok 1 := by
  decide +kernel
example : (∀ i, (![0, 0, 0] : Fin 3 → ℚ) i ≤ (![0, 1, 100] : Fin 3 → ℚ) i) := by decide +kernel

/-! ### C76 cross-validation table -/

/-- C76: when the search result has one score per setting, the table has one row per setting,
and row `i` carries the parameters and the score of setting `i`. -/
theorem C76_cvScoreTable {K : Type} (params : List (CvSetting K)) (score : List K)
    (h : score.length = params.length) :
    ∃ t, cvScoreTable params score = .ok t ∧ t.length = params.length ∧
      ∀ (i : ℕ) (hi : i < params.length) (hs : i < score.length) (ht : i < t.length),
        t[i].etas = params[i].eta ∧ t[i].nComponents = params[i].nComponents ∧
          t[i].score = score[i] := by
  unfold cvScoreTable
  rw [if_pos h]
  refine ⟨_, rfl, ?_, ?_⟩
  · simp [h]
  · intro i hi hs ht
    simp

/-- C76: otherwise the table constructor raises. -/
theorem C76_cvScoreTable_error {K : Type} (params : List (CvSetting K)) (score : List K)
    (h : score.length ≠ params.length) : cvScoreTable params score = .error .valueError := by
  simp [cvScoreTable, h]

example : cvScoreTable [⟨(0:ℚ), 1⟩, ⟨1/2, 2⟩] [10, 20] = .ok [⟨0, 1, 10⟩, ⟨1/2, 2, 20⟩] := by
  decide +kernel

end Direpack
