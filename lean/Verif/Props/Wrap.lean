import Verif.WrapperObj
import Verif.Props.Breakdown

/-! Property C191: wrapped data are numbers, resist any minority of outliers and do not depend on the order of the cases or on earlier fits. -/

namespace Direpack

open scoped BigOperators
open Spec (Resists)

variable {n p : ℕ}

/-- What `fit_transform` returns, for an object in any state. -/
lemma fitTransform_eq (th : ℝ → ℝ) (o : WrapperObj ℝ n p) (X : Fin n → Fin p → ℝ) :
    ∃ o', o.fitTransform th X = some (o', fun i j => wrapCell th (med fun i => X i j) (mad fun i => X i j) (X i j)) ∧ o'.fitted = some (WrapperState.fit X) :=
  ⟨_, rfl, rfl⟩

/-- The wrapped data, the result of `fit_transform` on an object in state `o`. -/
noncomputable def wrapped (th : ℝ → ℝ) (o : WrapperObj ℝ n p) (X : Fin n → Fin p → ℝ) (i : Fin n) (j : Fin p) : Option ℝ := (o.fitTransform th X).bind fun r => r.2 i j

lemma wrapped_eq (th : ℝ → ℝ) (o : WrapperObj ℝ n p) (X : Fin n → Fin p → ℝ) (i : Fin n) (j : Fin p) :
    wrapped th o X i j = wrapCell th (med fun i => X i j) (mad fun i => X i j) (X i j) := rfl

/-- **C191**, earlier fits: what `fit_transform` gives, and the published location and scale, do not depend on what the object was used for before, and `transform`
on a fitted object gives the same. -/
theorem C191_refit (th : ℝ → ℝ) (o o2 : WrapperObj ℝ n p) (X : Fin n → Fin p → ℝ) :
    ∃ o' o2' W, o.fitTransform th X = some (o', W) ∧ o2.fitTransform th X = some (o2', W) ∧ o'.fitted = o2'.fitted ∧
      (∃ o3, o'.transform th X = some (o3, W)) ∧ (WrapperObj.new (K := ℝ) (n := n) (p := p)).transform th X = none :=
  ⟨_, _, _, rfl, rfl, rfl, ⟨_, rfl⟩, rfl⟩

/-- **C191**, order of the cases. -/
theorem C191_order (th : ℝ → ℝ) (o o2 : WrapperObj ℝ n p) (X : Fin n → Fin p → ℝ) (σ : Equiv.Perm (Fin n)) (i : Fin n) (j : Fin p) :
    wrapped th o (fun i => X (σ i)) i j = wrapped th o2 X (σ i) j := by
  rw [wrapped_eq, wrapped_eq, C05_median_perm σ fun i => X i j, C07_mad_perm σ fun i => X i j]

/-- **C191**, variables: a wrapped variable depends on this variable only, whatever the others are and wherever it stands. -/
theorem C191_variable {q : ℕ} (th : ℝ → ℝ) (o : WrapperObj ℝ n p) (o2 : WrapperObj ℝ n q) (X : Fin n → Fin p → ℝ) (X2 : Fin n → Fin q → ℝ) (j : Fin p) (k : Fin q)
    (h : ∀ i, X i j = X2 i k) (i : Fin n) : wrapped th o X i j = wrapped th o2 X2 i k := by
  rw [wrapped_eq, wrapped_eq]
  simp only [h]

/-- **C191**, resistance: no wrapped value, of any case, good or bad, leaves bounds that depend on the clean majority only, if `th` is bounded by one (like the hyperbolic
tangent).  (A NaN counts as 0 here; see `C191_defined_partial` for when it occurs.) -/
theorem C191_resists (th : ℝ → ℝ) (hth : ∀ z, |th z| ≤ 1) (o : WrapperObj ℝ n p) (i : Fin n) (j : Fin p) :
    Resists (fun X : Fin n → Fin p → ℝ => wrapped th o X i j) fun w => |w.getD 0| := by
  intro X G hG
  obtain ⟨A, hA, hX⟩ := clean_bound X
  refine ⟨A + 2 * (14827 / 10000 * (A - -A)), fun X' h => ?_⟩
  have hb : ∀ i ∈ G, -A ≤ X' i j ∧ X' i j ≤ A := fun i hi => by rw [h i hi]; exact abs_le.mp (hX i j)
  have hm := abs_le.mpr (C06_median_breakdown (fun i => X' i j) G hG (-A) A hb)
  have hs := C06_mad_breakdown (fun i => X' i j) G hG (-A) A hb
  dsimp only
  rw [wrapped_eq]
  unfold wrapCell
  split_ifs with h1 h2
  · simp only [Option.getD_none, abs_zero]; linarith
  · simp only [Option.getD_some]
    nlinarith [abs_nonneg (med fun i => X' i j)]
  · simp only [Option.getD_some]
    refine (abs_add_le _ _).trans ?_
    rw [abs_mul, abs_of_nonneg hs.1, add_comm]
    refine add_le_add hm (mul_le_mul ?_ hs.2 hs.1 (by norm_num))
    exact (wrapPsi_bound th hth _).trans (by norm_num)

/-- **C191**, a bad case carries no information: a value that is far enough out, beyond bounds that depend on the clean majority only, is replaced by the median. -/
theorem C191_outlier (th : ℝ → ℝ) (o : WrapperObj ℝ n p) (X : Fin n → Fin p → ℝ) (clean : Finset (Fin n)) (hc : n < 2 * clean.card) (j : Fin p) :
    ∃ B : ℝ, ∀ X' : Fin n → Fin p → ℝ, (∀ i ∈ clean, X' i = X i) → ∀ i, B < |X' i j| → wrapped th o X' i j = some (med fun i => X' i j) := by
  obtain ⟨A, hA, hX⟩ := clean_bound X
  refine ⟨A + 4 * (14827 / 10000 * (A - -A)), fun X' h i hi => ?_⟩
  have hb : ∀ i ∈ clean, -A ≤ X' i j ∧ X' i j ≤ A := fun i hi => by rw [h i hi]; exact abs_le.mp (hX i j)
  have hm := abs_le.mpr (C06_median_breakdown (fun i => X' i j) clean hc (-A) A hb)
  have hs := C06_mad_breakdown (fun i => X' i j) clean hc (-A) A hb
  have hd : 4 * (14827 / 10000 * (A - -A)) < |X' i j - med fun i => X' i j| := by
    have := abs_sub_abs_le_abs_sub (X' i j) (med fun i => X' i j)
    linarith
  rw [wrapped_eq]
  unfold wrapCell
  split_ifs with h1 h2
  · rw [h2, sub_self, abs_zero] at hd
    nlinarith
  · rfl
  · have hs0 : 0 < mad fun i => X' i j := lt_of_le_of_ne hs.1 (Ne.symm h1)
    rw [wrapPsi_tail, zero_mul, zero_add]
    rw [abs_div, abs_of_pos hs0, le_div_iff₀ hs0]
    linarith [hs.2]

/-- **C191**, partial: a wrapped value is a number unless the majority of the cases have this value.  Missing: a value that the majority shares, which becomes NaN
(`C191_majority_violated`). -/
theorem C191_defined_partial (th : ℝ → ℝ) (o : WrapperObj ℝ n p) (X : Fin n → Fin p → ℝ) (i : Fin n) (j : Fin p) :
    (∃ w, wrapped th o X i j = some w) ↔ ¬ n < 2 * (Finset.univ.filter fun i' => X i' j = X i j).card := by
  have hn : 0 < n := Fin.pos i
  have hmed : ∀ v, n < 2 * (Finset.univ.filter fun i' => X i' j = v).card → (med fun i => X i j) = v := by
    intro v hv
    have := C06_median_breakdown (fun i => X i j) _ hv v v fun i hi => by
      have h := (Finset.mem_filter.mp hi).2
      exact ⟨h.ge, h.le⟩
    exact le_antisymm this.2 this.1
  rw [wrapped_eq]
  unfold wrapCell
  constructor
  · rintro ⟨w, hw⟩ hmaj
    have h0 : (mad fun i => X i j) = 0 := (C07_mad_zero_iff hn _).mpr ⟨_, hmaj⟩
    rw [if_pos h0, if_pos (hmed _ hmaj).symm] at hw
    cases hw
  · intro hmaj
    split_ifs with h1 h2
    · obtain ⟨v, hv⟩ := (C07_mad_zero_iff hn _).mp h1
      have := hmed v hv
      exact absurd (by rw [h2, this]; exact hv) hmaj
    · exact ⟨_, rfl⟩
    · exact ⟨_, rfl⟩

/-- **C191** is violated: in every data set a value shared by the majority of the cases, good data for a variable with few distinct values, becomes NaN, while all other
values are replaced by it: so a constant variable becomes NaN altogether. -/
theorem C191_majority_violated (th : ℝ → ℝ) (o : WrapperObj ℝ n p) (X : Fin n → Fin p → ℝ) (v : ℝ) (j : Fin p)
    (h : n < 2 * (Finset.univ.filter fun i' => X i' j = v).card) (i : Fin n) : wrapped th o X i j = if X i j = v then none else some v := by
  have hn : 0 < n := Fin.pos i
  have hm : (med fun i => X i j) = v := by
    have := C06_median_breakdown (fun i => X i j) _ h v v fun i hi => by
      have h := (Finset.mem_filter.mp hi).2
      exact ⟨h.ge, h.le⟩
    exact le_antisymm this.2 this.1
  rw [wrapped_eq]
  unfold wrapCell
  rw [if_pos ((C07_mad_zero_iff hn _).mpr ⟨v, h⟩), hm]

/-- A column whose majority shares a value, and a majority of clean cases. -/
example : (3 : ℕ) < 2 * (Finset.univ.filter fun i' => (![![1], ![1], ![5]] : Fin 3 → Fin 1 → ℝ) i' 0 = 1).card ∧
    (3 : ℕ) < 2 * ({0, 1} : Finset (Fin 3)).card ∧ ∀ z, |Real.tanh z| ≤ 1 := by
  refine ⟨?_, by decide, fun z => (Real.abs_tanh_lt_one z).le⟩
  refine lt_of_lt_of_le (b := 2 * ({0, 1} : Finset (Fin 3)).card) (by decide) (Nat.mul_le_mul_left 2 (Finset.card_le_card ?_))
  intro i hi
  fin_cases i
  · simp
  · simp
  · exact absurd hi (by decide)

end Direpack
