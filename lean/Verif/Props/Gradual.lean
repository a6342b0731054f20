import Verif.Spec.Stability
import Verif.Props.MSupport
import Verif.RM

/-!
# C194: case weights change gradually

A small change of a residual or a distance changes its weight by at most a constant times the change, so that cases just
inside and just outside a cutoff are treated almost alike.
-/

namespace Direpack

open Spec

/-- **C194** (Fair): a weight moves by at most the change of the distance divided by the cutoff. -/
theorem C194_fair {n m : ℕ} (x : Fin n → ℝ) (y : Fin m → ℝ) (c : ℝ) (hc : 0 < c) (i : Fin n) (j : Fin m) :
    |fair x c i - fair y c j| ≤ |x i - y j| / c := by
  have hu : |x i / (c * 2)| = |x i| / (2 * c) := by
    rw [abs_div, abs_of_pos (by positivity : 0 < c * 2)]; ring
  have hv : |y j / (c * 2)| = |y j| / (2 * c) := by
    rw [abs_div, abs_of_pos (by positivity : 0 < c * 2)]; ring
  unfold fair
  rw [hu, hv]
  set u := |x i| / (2 * c) with hud
  set v := |y j| / (2 * c) with hvd
  have hu0 : 0 ≤ u := by positivity
  have hv0 : 0 ≤ v := by positivity
  have huv : |v - u| ≤ |x i - y j| / (2 * c) := by
    rw [hud, hvd, ← sub_div, abs_div, abs_of_pos (by positivity : 0 < 2 * c)]
    refine div_le_div_of_nonneg_right ?_ (by positivity)
    rw [abs_sub_comm]
    exact abs_abs_sub_abs_le _ _
  have e : 1 / (1 + u) ^ 2 - 1 / (1 + v) ^ 2 = (v - u) * ((2 + u + v) / ((1 + u) ^ 2 * (1 + v) ^ 2)) := by
    field_simp; ring
  have hq : (2 + u + v) / ((1 + u) ^ 2 * (1 + v) ^ 2) ≤ 2 := by
    rw [div_le_iff₀ (by positivity)]
    have h1 : 1 ≤ (1 + u) * (1 + v) := by nlinarith [mul_nonneg hu0 hv0]
    nlinarith [mul_nonneg hu0 hv0]
  have hq0 : 0 ≤ (2 + u + v) / ((1 + u) ^ 2 * (1 + v) ^ 2) := by positivity
  rw [e, abs_mul, abs_of_nonneg hq0]
  calc |v - u| * ((2 + u + v) / ((1 + u) ^ 2 * (1 + v) ^ 2)) ≤ |x i - y j| / (2 * c) * 2 :=
        mul_le_mul huv hq hq0 (by positivity)
    _ = |x i - y j| / c := by field_simp

lemma huberWeight_eq {c : ℝ} (hc : 0 < c) (d : ℝ) : huberWeight c d = c / max d c := by
  unfold huberWeight
  split_ifs with h
  · rw [max_eq_right h, div_self hc.ne']
  · rw [max_eq_left (not_le.1 h).le]

lemma huberWeight_lip {c : ℝ} (hc : 0 < c) (d e : ℝ) : |huberWeight c d - huberWeight c e| ≤ |d - e| / c := by
  rw [huberWeight_eq hc, huberWeight_eq hc]
  have h1 : c ≤ max d c := le_max_right _ _
  have h2 : c ≤ max e c := le_max_right _ _
  have h3 : |max e c - max d c| ≤ |d - e| := by
    rw [abs_sub_comm d e]; exact abs_max_sub_max_le_abs _ _ _
  have p1 : 0 < max d c := lt_of_lt_of_le hc h1
  have p2 : 0 < max e c := lt_of_lt_of_le hc h2
  have e1 : c / max d c - c / max e c = c * (max e c - max d c) / (max d c * max e c) := by
    field_simp
  rw [e1, abs_div, abs_mul, abs_of_pos hc, abs_of_pos (mul_pos p1 p2), div_le_div_iff₀ (mul_pos p1 p2) hc]
  have h4 : c * c ≤ max d c * max e c := mul_le_mul h1 h2 hc.le p1.le
  calc c * |max e c - max d c| * c = |max e c - max d c| * (c * c) := by ring
    _ ≤ |d - e| * (max d c * max e c) := mul_le_mul h3 h4 (by positivity) (abs_nonneg _)

/-- **C194** (Huber), partial: a weight moves by at most the change of the distance divided by the cutoff, for cutoffs of at least 1.
Missing: smaller cutoffs (`C194_huber_violated`). -/
theorem C194_huber_partial {n m : ℕ} (x : Fin n → ℝ) (y : Fin m → ℝ) (c : ℝ) (hc : 1 ≤ c) (i : Fin n) (j : Fin m) :
    |huber x c i - huber y c j| ≤ |x i - y j| / c := by
  rw [C02_huber_correct_partial x c hc, C02_huber_correct_partial y c hc]
  exact huberWeight_lip (by linarith) _ _

lemma hampelWeight_eq {a b r : ℝ} (ha : 0 < a) (hab : a ≤ b) (hbr : b < r) (d : ℝ) :
    hampelWeight a b r d = huberWeight a d * max 0 (min 1 ((r - d) / (r - b))) := by
  have hrb : 0 < r - b := by linarith
  unfold hampelWeight huberWeight
  by_cases h1 : d ≤ a
  · have : 1 ≤ (r - d) / (r - b) := by rw [le_div_iff₀ hrb]; linarith
    simp [h1, min_eq_left this]
  · by_cases h2 : d ≤ b
    · have : 1 ≤ (r - d) / (r - b) := by rw [le_div_iff₀ hrb]; linarith
      simp [h1, h2, min_eq_left this]
    · have hd : 0 < d := by linarith
      have h5 : (r - d) / (r - b) ≤ 1 := by rw [div_le_one hrb]; linarith
      by_cases h3 : d ≤ r
      · have h4 : 0 ≤ (r - d) / (r - b) := div_nonneg (by linarith) hrb.le
        simp only [h1, h2, h3, if_true, if_false, min_eq_right h5, max_eq_right h4]
        field_simp
      · have h4 : (r - d) / (r - b) ≤ 0 := div_nonpos_of_nonpos_of_nonneg (by linarith) hrb.le
        simp [h1, h2, h3, min_eq_right h5, max_eq_left h4]

/-- **C194** (Hampel), partial: a weight moves by at most the change of the distance times the sum of the inverse first cutoff and the inverse of the distance between the second and
the third, for cutoffs of at least 1.  Missing: smaller cutoffs. -/
theorem C194_hampel_partial {n m : ℕ} (x : Fin n → ℝ) (y : Fin m → ℝ) (a b r : ℝ) (ha : 1 ≤ a) (hab : a ≤ b) (hbr : b < r)
    (i : Fin n) (j : Fin m) :
    |hampel x a b r i - hampel y a b r j| ≤ |x i - y j| * (1 / a + 1 / (r - b)) := by
  have ha0 : 0 < a := by linarith
  have hrb : 0 < r - b := by linarith
  rw [C03_hampel_correct_partial x a b r ha hab hbr, C03_hampel_correct_partial y a b r ha hab hbr]
  simp only [hampelWeight_eq ha0 hab hbr]
  set g := huberWeight a (x i)
  set g' := huberWeight a (y j)
  set h := max 0 (min 1 ((r - x i) / (r - b))) with hh
  set h' := max 0 (min 1 ((r - y j) / (r - b))) with hh'
  have hg : |g - g'| ≤ |x i - y j| / a := huberWeight_lip ha0 _ _
  have hg1 : 0 ≤ g' ∧ g' ≤ 1 := by
    simp only [g', huberWeight_eq ha0]
    have h2 : a ≤ max (y j) a := le_max_right _ _
    exact ⟨by positivity, (div_le_one (lt_of_lt_of_le ha0 h2)).2 h2⟩
  have hh1 : 0 ≤ h ∧ h ≤ 1 := ⟨le_max_left _ _, max_le zero_le_one (min_le_left _ _)⟩
  have hhl : |h - h'| ≤ |x i - y j| / (r - b) := by
    have e1 : |h - h'| ≤ |min 1 ((r - x i) / (r - b)) - min 1 ((r - y j) / (r - b))| := by
      rw [hh, hh', max_comm 0, max_comm 0]
      exact abs_max_sub_max_le_abs _ _ _
    have e2 : |min 1 ((r - x i) / (r - b)) - min 1 ((r - y j) / (r - b))| ≤ |(r - x i) / (r - b) - (r - y j) / (r - b)| := by
      have := abs_min_sub_min_le_max 1 ((r - x i) / (r - b)) 1 ((r - y j) / (r - b))
      simpa using this
    refine e1.trans (e2.trans (le_of_eq ?_))
    rw [← sub_div, abs_div, abs_of_pos hrb]
    congr 1
    rw [← abs_neg]; congr 1; ring
  have e : g * h - g' * h' = (g - g') * h + g' * (h - h') := by ring
  rw [e]
  calc |(g - g') * h + g' * (h - h')| ≤ |(g - g') * h| + |g' * (h - h')| := abs_add_le _ _
    _ ≤ |g - g'| + |h - h'| := by
        rw [abs_mul, abs_mul, abs_of_nonneg hh1.1, abs_of_nonneg hg1.1]
        exact add_le_add (mul_le_of_le_one_right (abs_nonneg _) hh1.2) (mul_le_of_le_one_left (abs_nonneg _) hg1.2)
    _ ≤ |x i - y j| / a + |x i - y j| / (r - b) := add_le_add hg hhl
    _ = |x i - y j| * (1 / a + 1 / (r - b)) := by ring

/-- **C194** is violated for Huber weights with a cutoff below 1 (`probp1` below 0.84): two cases as close together as one likes, on either side of the cutoff, get
weights that differ by more than half of what is missing to 1, and the inner one has the smaller weight. -/
theorem C194_huber_violated (c : ℝ) (hc : 0 < c) (hc1 : c < 1) (δ : ℝ) (hδ : 0 < δ) :
    ∃ x : Fin 2 → ℝ, 0 ≤ x 0 ∧ x 0 < x 1 ∧ x 1 - x 0 < δ ∧ (1 - c) / 2 < huber x c 1 - huber x c 0 := by
  set η := min (δ / 2) (c * (1 - c) / 4) with hη
  have hη0 : 0 < η := lt_min (by linarith) (by have := mul_pos hc (sub_pos.2 hc1); linarith)
  have hη1 : η ≤ δ / 2 := min_le_left _ _
  have hη2 : η ≤ c * (1 - c) / 4 := min_le_right _ _
  refine ⟨![c, c + η], by simpa using hc.le, by simpa using hη0, by simp; linarith, ?_⟩
  rw [C02_huber_small_cutoff _ c hc1 (by intro i; fin_cases i <;> simp <;> linarith)]
  have h2 : ¬ c + η ≤ c := by linarith
  simp only [Matrix.cons_val_one, Matrix.cons_val_zero, h2, if_false, le_refl, if_true]
  have : c / (c + η) - c - (1 - c) / 2 > 0 := by
    have hp : 0 < c + η := by linarith
    have e : c / (c + η) - c - (1 - c) / 2 = (c - (c + (1 - c) / 2) * (c + η)) / (c + η) := by field_simp; ring
    rw [e]
    apply div_pos _ hp
    nlinarith [mul_pos hc (sub_pos.2 hc1)]
  linarith

/-- Non-vacuity: a case at distance 2.9 and one at 3.1 have almost the same Hampel weight with the cutoffs 1.5, 3, 8. -/
example : |hampel (![2.9, 3.1] : Fin 2 → ℝ) 1.5 3 8 0 - hampel (![2.9, 3.1] : Fin 2 → ℝ) 1.5 3 8 1| ≤ 0.2 * (1 / 1.5 + 1 / 5) := by
  refine (C194_hampel_partial _ _ 1.5 3 8 (by norm_num) (by norm_num) (by norm_num) 0 1).trans ?_
  norm_num [abs_le]

end Direpack
