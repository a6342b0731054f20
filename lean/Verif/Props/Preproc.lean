import Mathlib.Tactic.NormNum
import Mathlib.Data.Rat.Floor
import Mathlib.Data.Fin.VecNotation
import Verif.ScalerLemmas
import Verif.Missing
import Verif.Spec.Missing

/-!
Properties C05-C07 (median, MAD), C11 (trimmed mean) and C12 (missing values).
-/

set_option linter.unusedSectionVars false

namespace Direpack

open Spec (available onAvailable)

section
variable {K : Type} [Field K] [LinearOrder K] [IsStrictOrderedRing K]

/-! ### C05 median -/

/-- C05: affine equivariance, for every factor including negative ones. -/
theorem C05_median_affine {n : ℕ} (hn : 0 < n) (a b : K) (x : Fin n → K) :
    med (fun i => a * x i + b) = a * med x + b := med_affine hn a b x

/-- C05: the order of the cases is irrelevant. -/
theorem C05_median_perm {n : ℕ} (σ : Equiv.Perm (Fin n)) (x : Fin n → K) :
    med (fun i => x (σ i)) = med x := med_perm σ x

/-- C05: the median lies between any lower and any upper bound of the data. -/
theorem C05_median_between {n : ℕ} (hn : 0 < n) (x : Fin n → K) (lo hi : K)
    (h : ∀ i, lo ≤ x i ∧ x i ≤ hi) : lo ≤ med x ∧ med x ≤ hi := by
  constructor
  · apply le_medL_of_forall (ofFn_ne_nil hn x)
    intro v hv
    obtain ⟨i, rfl⟩ := (List.mem_ofFn' _ _).mp hv
    exact (h i).1
  · apply medL_le_of_forall (ofFn_ne_nil hn x)
    intro v hv
    obtain ⟨i, rfl⟩ := (List.mem_ofFn' _ _).mp hv
    exact (h i).2

/-- C05: it is a median: at least half of the cases are at or below it and at least half
are at or above it. -/
theorem C05_median_splits {n : ℕ} (hn : 0 < n) (x : Fin n → K) :
    n ≤ 2 * (Finset.univ.filter fun i => x i ≤ med x).card ∧
    n ≤ 2 * (Finset.univ.filter fun i => med x ≤ x i).card := by
  have hl := ofFn_ne_nil hn x
  have hlen : (List.ofFn x).length = n := by simp
  rw [← countP_ofFn x (fun v => v ≤ med x), ← countP_ofFn x (fun v => med x ≤ v)]
  have hk1 : (n - 1) / 2 < (sortL (List.ofFn x)).length := by rw [sortL_length, hlen]; omega
  have hk2 : n / 2 < (sortL (List.ofFn x)).length := by rw [sortL_length, hlen]; omega
  have hmed : med x = ((sortL (List.ofFn x))[(n - 1) / 2] + (sortL (List.ofFn x))[n / 2]) / 2 := by
    unfold med; rw [medL_eq hl]; simp only [hlen]
  have hle : (sortL (List.ofFn x))[(n - 1) / 2] ≤ (sortL (List.ofFn x))[n / 2] :=
    sortL_getElem_le (by omega) hk2
  constructor
  · have h1 := count_le_sortL_getElem hk1
    have h2 : (List.ofFn x).countP (fun v => decide (v ≤ (sortL (List.ofFn x))[(n - 1) / 2])) ≤
        (List.ofFn x).countP (fun v => decide (v ≤ med x)) := by
      apply List.countP_mono_left
      intro v _ hv
      have hv' := of_decide_eq_true hv
      apply decide_eq_true
      rw [hmed]; linarith
    omega
  · have h1 := count_ge_sortL_getElem hk2
    have h2 : (List.ofFn x).countP (fun v => decide ((sortL (List.ofFn x))[n / 2] ≤ v)) ≤
        (List.ofFn x).countP (fun v => decide (med x ≤ v)) := by
      apply List.countP_mono_left
      intro v _ hv
      have hv' := of_decide_eq_true hv
      apply decide_eq_true
      rw [hmed]; linarith
    rw [hlen] at h1
    omega

/-! ### C06 breakdown -/

lemma madConst_pos : (0 : K) < madConst := by unfold madConst; positivity

/-- C06: let `y` be the data, of which the cases in `S`, more than half, are clean (they lie between `lo`
and `hi`), the others being arbitrary.  Then the median of all the data still lies between `lo` and `hi`. -/
theorem C06_median_breakdown {n : ℕ} (y : Fin n → K) (S : Finset (Fin n)) (hS : n < 2 * S.card)
    (lo hi : K) (h : ∀ i ∈ S, lo ≤ y i ∧ y i ≤ hi) : lo ≤ med y ∧ med y ≤ hi := by
  constructor
  · apply le_medL_of_count
    rw [countP_ofFn y (fun v => lo ≤ v), List.length_ofFn]
    have : S.card ≤ (Finset.univ.filter fun i => lo ≤ y i).card := by
      apply Finset.card_le_card
      intro i hi'; simp [(h i hi').1]
    omega
  · apply medL_le_of_count
    rw [countP_ofFn y (fun v => v ≤ hi), List.length_ofFn]
    have : S.card ≤ (Finset.univ.filter fun i => y i ≤ hi).card := by
      apply Finset.card_le_card
      intro i hi'; simp [(h i hi').2]
    omega

lemma mad_eq {n : ℕ} (x : Fin n → K) : mad x = med (fun i => |x i - med x|) / madConst := by
  unfold mad madL med
  rw [map_ofFn' (fun v => |v - medL (List.ofFn x)|) x]

/-- C06: in the same situation the MAD of all the data is at most 1.4827 times the width of the
clean range (1.4826... is the inverse of the constant in the code). -/
theorem C06_mad_breakdown {n : ℕ} (y : Fin n → K) (S : Finset (Fin n)) (hS : n < 2 * S.card)
    (lo hi : K) (h : ∀ i ∈ S, lo ≤ y i ∧ y i ≤ hi) :
    0 ≤ mad y ∧ mad y ≤ 14827 / 10000 * (hi - lo) := by
  have hm := C06_median_breakdown y S hS lo hi h
  have h2 := C06_median_breakdown (fun i => |y i - med y|) S hS 0 (hi - lo) (by
    intro i hiS
    have := h i hiS
    refine ⟨abs_nonneg _, abs_le.mpr ⟨?_, ?_⟩⟩ <;> linarith)
  rw [mad_eq]
  have hc : (0 : K) < madConst := madConst_pos
  refine ⟨div_nonneg h2.1 hc.le, ?_⟩
  rw [div_le_iff₀ hc]
  have hw : 0 ≤ hi - lo := h2.1.trans h2.2
  have hcc : (1 : K) ≤ 14827 / 10000 * madConst := by
    unfold madConst; norm_num
  nlinarith [h2.2, mul_le_mul_of_nonneg_right hcc hw]

/-! ### C07 MAD -/

/-- C07: shift invariance and scale equivariance. -/
theorem C07_mad_affine {n : ℕ} (hn : 0 < n) (a b : K) (x : Fin n → K) :
    mad (fun i => a * x i + b) = |a| * mad x := by
  rw [mad_eq, mad_eq, med_affine hn]
  have : (fun i => |a * x i + b - (a * med x + b)|) = fun i => |a| * |x i - med x| + 0 := by
    funext i
    rw [add_zero, ← abs_mul]
    congr 1; ring
  rw [this, med_affine hn, add_zero, mul_div_assoc]

/-- C07: nonnegative. -/
theorem C07_mad_nonneg {n : ℕ} (hn : 0 < n) (x : Fin n → K) : 0 ≤ mad x := by
  rw [mad_eq]
  apply div_nonneg _ madConst_pos.le
  apply le_medL_of_forall (ofFn_ne_nil hn _)
  intro v hv
  obtain ⟨i, rfl⟩ := (List.mem_ofFn' _ _).mp hv
  exact abs_nonneg _

/-- C07: the order of the cases is irrelevant. -/
theorem C07_mad_perm {n : ℕ} (σ : Equiv.Perm (Fin n)) (x : Fin n → K) :
    mad (fun i => x (σ i)) = mad x := by
  rw [mad_eq, mad_eq, C05_median_perm]
  congr 1
  exact C05_median_perm σ (fun i => |x i - med x|)

/-- C07: the MAD is zero exactly when more than half of the cases share one value. -/
theorem C07_mad_zero_iff {n : ℕ} (hn : 0 < n) (x : Fin n → K) :
    mad x = 0 ↔ ∃ v, n < 2 * (Finset.univ.filter fun i => x i = v).card := by
  have hc : (madConst : K) ≠ 0 := madConst_pos.ne'
  constructor
  · intro h
    refine ⟨med x, ?_⟩
    rw [mad_eq, div_eq_zero_iff, or_iff_left hc] at h
    set d : Fin n → K := fun i => |x i - med x| with hd
    have hl := ofFn_ne_nil hn d
    have hlen : (List.ofFn d).length = n := by simp
    have hk1 : (n - 1) / 2 < (sortL (List.ofFn d)).length := by rw [sortL_length, hlen]; omega
    have hk2 : n / 2 < (sortL (List.ofFn d)).length := by rw [sortL_length, hlen]; omega
    have hmed : med d = ((sortL (List.ofFn d))[(n - 1) / 2] + (sortL (List.ofFn d))[n / 2]) / 2 := by
      unfold med; rw [medL_eq hl]; simp only [hlen]
    have hnn : ∀ (k : ℕ) (hk : k < (sortL (List.ofFn d)).length), 0 ≤ (sortL (List.ofFn d))[k] := by
      intro k hk
      have := sortL_mem.mp (List.getElem_mem hk)
      obtain ⟨i, hi⟩ := (List.mem_ofFn' _ _).mp this
      rw [← hi]; exact abs_nonneg _
    have h0 : (sortL (List.ofFn d))[n / 2] = 0 := by
      have a1 := hnn _ hk1
      have a2 := hnn _ hk2
      rw [h] at hmed
      linarith
    have hcount := count_le_sortL_getElem hk2
    rw [h0, countP_ofFn d (fun v => v ≤ 0)] at hcount
    have : (Finset.univ.filter fun i => d i ≤ 0) = Finset.univ.filter fun i => x i = med x := by
      ext i
      simp only [Finset.mem_filter, Finset.mem_univ, true_and, hd]
      rw [abs_nonpos_iff, sub_eq_zero]
    rw [this] at hcount
    omega
  · rintro ⟨v, hv⟩
    have hm := C06_median_breakdown x (Finset.univ.filter fun i => x i = v) hv v v (by
      intro i hi; simp at hi; simp [hi])
    have hmv : med x = v := le_antisymm hm.2 hm.1
    have h2 := C06_median_breakdown (fun i => |x i - med x|) (Finset.univ.filter fun i => x i = v)
      hv 0 0 (by intro i hi; simp at hi; simp [hi, hmv])
    rw [mad_eq, le_antisymm h2.2 h2.1, zero_div]

/-! ### C11 trimmed mean -/

variable [FloorSemiring K]

/-- C11: the location with trimming fraction `t = 0` is the mean. -/
theorem C11_trim_zero (l : List K) : meanT 0 l = .ok (meanL l) := by simp [meanT]

/-- C11: a fraction outside [0, 0.99] is rejected and one inside is accepted by the check. -/
theorem C11_checkTrimming (t : K) :
    checkTrimming t = .error .valueError ↔ (t < 0 ∨ 99 / 100 < t) := by
  unfold checkTrimming
  split_ifs with h
  · constructor
    · intro _; exact h.symm
    · intro _; rfl
  · constructor
    · intro h'; cases h'
    · intro h'; exact absurd h'.symm h

/-- C11: whenever a trimmed mean is returned, it is the average of what remains after dropping the
`int(t n)` smallest and the `int(t n)` largest values (`kept` is a sorted list between the dropped parts), at least one value
remains, and the result lies between any bounds of the data. -/
theorem C11_trim_value (l : List K) (t : K) (m : K) (ht : t ≠ 0) (h : meanT t l = .ok m) :
    ∃ lowest kept highest : List K,
      (lowest ++ kept ++ highest).Perm l ∧
      (lowest ++ kept ++ highest).Pairwise (· ≤ ·) ∧
      lowest.length = ⌊t * l.length⌋₊ ∧ highest.length = ⌊t * l.length⌋₊ ∧ kept ≠ [] ∧
      m = kept.sum / kept.length ∧
      ∀ lo hi, (∀ v ∈ l, lo ≤ v ∧ v ≤ hi) → lo ≤ m ∧ m ≤ hi := by
  unfold meanT at h
  rw [if_neg ht, trimMeanL_eq] at h
  set c := ⌊t * l.length⌋₊ with hc
  by_cases h1 : l.length < c + c
  · simp [h1, ofNaN] at h
  by_cases h2 : (keptL l t).length = 0
  · simp [h1, h2, ofNaN] at h
  rw [if_neg h1, if_neg h2] at h
  simp only [ofNaN, Except.ok.injEq] at h
  have hsplit : (sortL l).take c ++ keptL l t ++ (sortL l).drop (l.length - c) = sortL l := by
    unfold keptL
    rw [← hc, List.append_assoc]
    have e : (sortL l).drop (l.length - c) =
        ((sortL l).drop c).drop (l.length - c - c) := by
      rw [List.drop_drop]; congr 1; omega
    rw [e, List.take_append_drop, List.take_append_drop]
  refine ⟨(sortL l).take c, keptL l t, (sortL l).drop (l.length - c), ?_, ?_, ?_, ?_, ?_, ?_, ?_⟩
  · rw [hsplit]; exact sortL_perm l
  · rw [hsplit]; exact sortL_sorted l
  · rw [List.length_take, sortL_length]; omega
  · rw [List.length_drop, sortL_length]; omega
  · intro h0; simp [h0] at h2
  · rw [← h]; rfl
  · intro lo hi hb
    have hpos : (0 : K) < (keptL l t).length := by
      exact_mod_cast Nat.pos_of_ne_zero h2
    rw [← h]
    unfold meanL
    constructor
    · rw [le_div_iff₀ hpos, mul_comm]
      have := List.card_nsmul_le_sum (keptL l t) lo
        (fun v hv => (hb v (keptL_sublist_perm hv)).1)
      simpa [nsmul_eq_mul] using this
    · rw [div_le_iff₀ hpos, mul_comm]
      have := List.sum_le_card_nsmul (keptL l t) hi
        (fun v hv => (hb v (keptL_sublist_perm hv)).2)
      simpa [nsmul_eq_mul] using this

/-- C11: a number comes out exactly when something remains after trimming; otherwise the
call fails (ValueError when the two trimmed parts would overlap, NaN when nothing remains). -/
theorem C11_trim_defined_iff (l : List K) (t : K) (ht : t ≠ 0) :
    (∃ m, meanT t l = .ok m) ↔ 2 * ⌊t * l.length⌋₊ < l.length := by
  unfold meanT
  rw [if_neg ht, trimMeanL_eq, keptL_length]
  set c := ⌊t * l.length⌋₊ with hc
  split_ifs with h1 h2
  · simp only [ofNaN]
    constructor
    · rintro ⟨m, hm⟩; cases hm
    · intro; omega
  · simp only [ofNaN]
    constructor
    · rintro ⟨m, hm⟩; cases hm
    · intro; omega
  · simp only [ofNaN]
    constructor
    · intro; omega
    · intro; exact ⟨_, rfl⟩

/-- C11: affine equivariance of the trimmed mean (also for negative factors, and including
the failing cases). -/
theorem C11_trim_affine (l : List K) (hl : l ≠ []) (t a b : K) :
    meanT t (l.map fun v => a * v + b) = (meanT t l).map (fun m => a * m + b) := by
  unfold meanT
  split_ifs with h
  · rw [meanL_map_affine a b hl]; rfl
  · rw [trimMeanL_map_affine]
    cases trimMeanL l t with
    | error e => rfl
    | ok o => cases o <;> rfl

/-! ### C12 missing values -/

lemma npReduce_eq_nan {n p : ℕ} (x : NMat K n p) (hx : ¬ anyNaN x) (f : List K → K) (j : Fin p) :
    npReduce f (x.col j) = npNanReduce f (x.col j) := by
  have hall : ∀ o ∈ x.col j, o.isSome := by
    intro o ho
    obtain ⟨i, rfl⟩ := (List.mem_ofFn' _ _).mp ho
    cases h : x i j with
    | none => exact absurd ⟨i, j, h⟩ hx
    | some v => simp [h]
  have hany : ¬ ((x.col j).any Option.isNone = true) := by
    simp only [List.any_eq_true, not_exists, not_and]
    intro o ho
    have hs := hall o ho
    cases o
    · simp at hs
    · simp
  have hnil : x.col j = [] ↔ (x.col j).filterMap id = [] := by
    constructor
    · intro h; simp [h]
    · intro h
      by_contra hne
      obtain ⟨o, ho⟩ := List.exists_mem_of_ne_nil _ hne
      have hs := hall o ho
      obtain ⟨v, hv⟩ := Option.isSome_iff_exists.mp hs
      have : v ∈ (x.col j).filterMap id := by
        rw [List.mem_filterMap]; exact ⟨o, ho, by simp [hv]⟩
      rw [h] at this; cases this
  unfold npReduce npNanReduce
  by_cases h : x.col j = []
  · simp [h]
  · have h' : (x.col j).filterMap id ≠ [] := fun e => h (hnil.mpr e)
    rw [if_neg (by simp only [not_or]; exact ⟨hany, h⟩), if_neg h']

/-- C12: the median of a column is the median of its available values. -/
theorem C12_median_missing {n p : ℕ} (x : NMat K n p) (j : Fin p) :
    medianNaN x j = onAvailable medL x j := by
  unfold medianNaN
  split_ifs with h
  · rfl
  · rw [npReduce_eq_nan x h]; rfl

/-- C12: likewise the mean (no trimming). -/
theorem C12_mean_missing {n p : ℕ} (x : NMat K n p) (j : Fin p) :
    meanNaN x j = onAvailable meanL x j := by
  unfold meanNaN
  split_ifs with h
  · rfl
  · rw [npReduce_eq_nan x h]; rfl

/-- C12: likewise the standard deviation (no trimming), `sq` being the square root. -/
theorem C12_std_missing {n p : ℕ} (sq : K → K) (x : NMat K n p) (j : Fin p) :
    stdNaN sq x j = onAvailable (fun l => sq (varL l)) x j := by
  unfold stdNaN
  have key : (npNanReduce varL (x.col j)).map sq = onAvailable (fun l => sq (varL l)) x j := by
    unfold npNanReduce onAvailable available NMat.col
    split_ifs <;> rfl
  split_ifs with h
  · exact key
  · rw [npReduce_eq_nan x h]; exact key

/-- C12: likewise the MAD. -/
theorem C12_mad_missing {n p : ℕ} (x : NMat K n p) (j : Fin p) :
    madNaN x j = onAvailable madL x j := by
  unfold madNaN
  dsimp only
  rw [C12_median_missing]
  -- available values of the matrix of absolute deviations
  have hav : available (fun i j => nanAbsSub (x i j) (medianNaN x j)) j = (available x j).map (fun v => |v - medL (available x j)|) := by
    unfold available
    rw [List.map_filterMap]
    by_cases hne : (List.ofFn fun i => x i j).filterMap id = []
    · rw [hne]
      have hm : medianNaN x j = none := by
        rw [C12_median_missing]; unfold onAvailable available; rw [if_pos hne]
      simp only [hm]
      have : ∀ i, x i j = none := by
        intro i
        cases h : x i j with
        | none => rfl
        | some v =>
          have : v ∈ (List.ofFn fun i => x i j).filterMap id := by
            rw [List.mem_filterMap]
            exact ⟨some v, (List.mem_ofFn' _ _).mpr ⟨i, h⟩, rfl⟩
          rw [hne] at this; cases this
      simp only [this, nanAbsSub]
      rw [List.ofFn_const, List.filterMap_replicate, List.filterMap_replicate]
      simp
    · have hm : medianNaN x j = some (medL ((List.ofFn fun i => x i j).filterMap id)) := by
        rw [C12_median_missing]; unfold onAvailable available; rw [if_neg hne]
      simp only [hm]
      rw [map_ofFn' (fun o : Option K => nanAbsSub o
        (some (medL ((List.ofFn fun i => x i j).filterMap id)))) (fun i => x i j),
        List.filterMap_map]
      apply List.filterMap_congr
      intro o _
      cases o <;> rfl
  unfold onAvailable
  rw [hav]
  by_cases hne : available x j = []
  · simp [hne]
  · have : (available x j).map (fun v => |v - medL (available x j)|) ≠ [] := by simpa using hne
    rw [if_neg this, if_neg hne]
    rfl

/-- C12: on a column without missing cells the result is that of the complete column,
whatever is missing elsewhere. -/
theorem C12_complete_column {n p : ℕ} (hn : 0 < n) (x : NMat K n p) (j : Fin p) (v : Fin n → K)
    (hv : ∀ i, x i j = some (v i)) :
    medianNaN x j = some (med v) ∧ meanNaN x j = some (mean v) ∧ madNaN x j = some (mad v) := by
  have : available x j = List.ofFn v := by
    unfold available
    simp only [hv]
    rw [map_ofFn' (some : K → Option K) v, List.filterMap_map]
    simp
  rw [C12_median_missing, C12_mean_missing, C12_mad_missing]
  unfold onAvailable
  rw [this]
  have hne := ofFn_ne_nil hn v
  simp only [if_neg hne]
  exact ⟨rfl, rfl, rfl⟩

end

/-! ### Non-vacuity -/

example : med (![3, 1, 2, 10] : Fin 4 → ℚ) = 5/2 := by decide +kernel
-- five cases, three clean ones in [1,3], two arbitrary: the median is clean
example : (5 : ℕ) < 2 * ({0, 1, 2} : Finset (Fin 5)).card ∧
    (∀ i ∈ ({0, 1, 2} : Finset (Fin 5)), (1:ℚ) ≤ (![1, 2, 3, 1000, -500] : Fin 5 → ℚ) i ∧
      (![1, 2, 3, 1000, -500] : Fin 5 → ℚ) i ≤ 3) ∧
    med (![1, 2, 3, 1000, -500] : Fin 5 → ℚ) = 2 := by decide +kernel
example : mad (![1, 2, 3, 1000, -500] : Fin 5 → ℚ) = 1 / madConst := by decide +kernel
example : mad (![1, 1, 1, 7] : Fin 4 → ℚ) = 0 ∧ mad (![1, 1, 7, 7] : Fin 4 → ℚ) ≠ 0 := by
  decide +kernel
example : meanT (1/4 : ℚ) [10, 1, 2, 3] = .ok (5/2) := by decide +kernel
example : meanT (1/2 : ℚ) [10, 1, 2, 3] = .error .other := by decide +kernel
example : meanT (3/4 : ℚ) [10, 1, 2, 3] = .error .valueError := by decide +kernel
example : medianNaN (![![some (1:ℚ), none], ![some 5, some 4]] : NMat ℚ 2 2) 0 = some 3 ∧
    medianNaN (![![some (1:ℚ), none], ![some 5, some 4]] : NMat ℚ 2 2) 1 = some 4 := by
  decide +kernel

end Direpack
