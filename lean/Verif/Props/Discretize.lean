import Mathlib.Tactic.Linarith
import Verif.Slicing
import Verif.NumLemmas
import Verif.ScalerLemmas

/-! Property C61: slicing of the response. -/

namespace Direpack

open scoped BigOperators

variable {n : ℕ}

/-- The division points as a function. -/
noncomputable def divAt (y : Fin n → ℝ) (h : ℕ) (i : ℕ) : ℝ := (sortL (List.ofFn y)).getD ((i + 1) * (n / h)) 0

lemma divIdx_lt {h i : ℕ} (hn : 0 < n) (hi : i < h - 1) : (i + 1) * (n / h) < n := by
  have h0 : 0 < h := by omega
  have h1 : h * (n / h) ≤ n := Nat.mul_div_le n h
  rcases Nat.eq_zero_or_pos (n / h) with h2 | h2
  · rw [h2, mul_zero]; exact hn
  · have : (i + 1) * (n / h) < h * (n / h) := Nat.mul_lt_mul_of_pos_right (by omega) h2
    omega

lemma divPoints_ok (y : Fin n → ℝ) (h : ℕ) (hn : 0 < n) : divPoints y h = .ok ((List.range (h - 1)).map (divAt y h)) := by
  unfold divPoints
  apply mapE_ok
  intro i hi
  rw [List.mem_range] at hi
  have hlt := divIdx_lt hn hi
  have hl : (i + 1) * (n / h) < (sortL (List.ofFn y)).length := by rw [sortL_length, List.length_ofFn]; exact hlt
  unfold ordStat divAt
  rw [List.getElem?_eq_getElem hl, List.getD_eq_getElem _ _ hl]

lemma divAt_mono (y : Fin n → ℝ) (h : ℕ) (hn : 0 < n) {i j : ℕ} (hij : i ≤ j) (hj : j < h - 1) : divAt y h i ≤ divAt y h j := by
  have hl : (j + 1) * (n / h) < (sortL (List.ofFn y)).length := by
    rw [sortL_length, List.length_ofFn]; exact divIdx_lt hn hj
  have hij' : (i + 1) * (n / h) ≤ (j + 1) * (n / h) := Nat.mul_le_mul_right _ (by omega)
  unfold divAt
  rw [List.getD_eq_getElem _ _ hl, List.getD_eq_getElem _ _ (lt_of_le_of_lt hij' hl)]
  exact sortL_getElem_le hij' hl

lemma foldl_mask_none (mask : ℕ → Fin n → Prop) [∀ i, DecidablePred (mask i)] (acc : Fin n → ℕ) (c : Fin n) :
    ∀ k, (∀ i < k, ¬ mask i c) → (List.range k).foldl (fun a i => maskSet a (mask i) fun _ => i + 2) acc c = acc c
  | 0, _ => rfl
  | k + 1, h => by
    rw [List.range_succ, List.foldl_append, List.foldl_cons, List.foldl_nil]
    rw [maskSet, if_neg (h k (Nat.lt_succ_self k))]
    exact foldl_mask_none mask acc c k fun i hi => h i (Nat.lt_succ_of_lt hi)

lemma foldl_mask_one (mask : ℕ → Fin n → Prop) [∀ i, DecidablePred (mask i)] (acc : Fin n → ℕ) (c : Fin n) (t : ℕ) (ht : mask t c)
    (hu : ∀ i, t < i → ¬ mask i c) :
    ∀ k, t < k → (List.range k).foldl (fun a i => maskSet a (mask i) fun _ => i + 2) acc c = t + 2
  | 0, h => absurd h (Nat.not_lt_zero _)
  | k + 1, h => by
    rw [List.range_succ, List.foldl_append, List.foldl_cons, List.foldl_nil]
    rcases Nat.lt_or_ge t k with h1 | h1
    · rw [maskSet, if_neg (hu k h1)]
      exact foldl_mask_one mask acc c t ht hu k h1
    · have : k = t := by omega
      subst this
      rw [maskSet, if_pos ht]

/-- The number of division points at or below a value. -/
noncomputable def divCount (y : Fin n → ℝ) (h : ℕ) (v : ℝ) : ℕ := ((Finset.range (h - 1)).filter fun i => divAt y h i ≤ v).card

lemma divCount_eq (y : Fin n → ℝ) (h : ℕ) (hn : 0 < n) (v : ℝ) (t : ℕ) (ht : t ≤ h - 1) (h1 : ∀ i < t, divAt y h i ≤ v)
    (h2 : t < h - 1 → v < divAt y h t) : divCount y h v = t := by
  unfold divCount
  have : (Finset.range (h - 1)).filter (fun i => divAt y h i ≤ v) = Finset.range t := by
    ext i
    simp only [Finset.mem_filter, Finset.mem_range]
    constructor
    · rintro ⟨hi, hle⟩
      by_contra hc
      have hti : t ≤ i := by omega
      exact absurd hle (not_le.mpr (lt_of_lt_of_le (h2 (by omega)) (divAt_mono y h hn hti hi)))
    · intro hi
      exact ⟨by omega, h1 i hi⟩
  rw [this, Finset.card_range]

lemma divCount_mono (y : Fin n → ℝ) (h : ℕ) {v w : ℝ} (hvw : v ≤ w) : divCount y h v ≤ divCount y h w := by
  unfold divCount
  apply Finset.card_le_card
  intro i hi
  simp only [Finset.mem_filter] at hi ⊢
  exact ⟨hi.1, hi.2.trans hvw⟩

lemma divCount_le (y : Fin n → ℝ) (h : ℕ) (v : ℝ) : divCount y h v ≤ h - 1 := by
  unfold divCount
  refine (Finset.card_filter_le _ _).trans ?_
  rw [Finset.card_range]

/-- `v` has at most `j` division points at or below it iff it is below the `j`-th one. -/
lemma divCount_le_iff (y : Fin n → ℝ) (h : ℕ) (hn : 0 < n) (v : ℝ) (j : ℕ) (hj : j < h - 1) :
    divCount y h v ≤ j ↔ v < divAt y h j := by
  constructor
  · intro hc
    by_contra hlt
    push Not at hlt
    have : j + 1 ≤ divCount y h v := by
      unfold divCount
      calc j + 1 = (Finset.range (j + 1)).card := (Finset.card_range _).symm
        _ ≤ _ := Finset.card_le_card fun i hi => by
            rw [Finset.mem_range] at hi
            rw [Finset.mem_filter, Finset.mem_range]
            exact ⟨by omega, (divAt_mono y h hn (by omega) hj).trans hlt⟩
    omega
  · intro hlt
    unfold divCount
    calc _ ≤ (Finset.range j).card := Finset.card_le_card fun i hi => by
            rw [Finset.mem_filter, Finset.mem_range] at hi
            rw [Finset.mem_range]
            by_contra hc
            exact absurd hi.2 (not_le.mpr (lt_of_lt_of_le hlt (divAt_mono y h hn (by omega) hi.1)))
      _ = j := Finset.card_range _

/-- What `discretize` computes. -/
lemma discretize_ok (y : Fin n → ℝ) (h : ℕ) (hn : 0 < n) (hh : 2 ≤ h) :
    discretize y h = .ok fun c => divCount y h (y c) + 1 := by
  unfold discretize
  rw [if_neg (by omega), divPoints_ok y h hn]
  dsimp only
  have hne : (List.range (h - 1)).map (divAt y h) ≠ [] := by
    intro he
    have := congrArg List.length he
    simp at this
    omega
  rw [if_neg hne]
  have hget : ∀ i, i < h - 1 → ((List.range (h - 1)).map (divAt y h)).getD i 0 = divAt y h i := by
    intro i hi
    rw [List.getD_eq_getElem _ _ (by simpa using hi)]
    simp
  congr 1
  funext c
  set dp := (List.range (h - 1)).map (divAt y h) with hdp
  set mask : ℕ → Fin n → Prop := fun i c => y c ≥ dp.getD i 0 ∧ y c < dp.getD (i + 1) 0 with hmask
  by_cases hA : y c < divAt y h 0
  · -- below the first division point
    rw [foldl_mask_none mask]
    · rw [maskSet, if_neg, maskSet, if_pos]
      · rw [(divCount_eq y h hn (y c) 0 (Nat.zero_le _) (by simp) fun _ => hA)]
      · rw [hget 0 (by omega)]; exact hA
      · rw [hget (h - 2) (by omega)]
        exact not_le.mpr (lt_of_lt_of_le hA (divAt_mono y h hn (Nat.zero_le _) (by omega)))
    · intro i hi hm
      have := hm.1
      rw [hget i (by omega)] at this
      exact absurd this (not_le.mpr (lt_of_lt_of_le hA (divAt_mono y h hn (Nat.zero_le _) (by omega))))
  · push Not at hA
    by_cases hB : divAt y h (h - 2) ≤ y c
    · -- at or above the last division point
      rw [foldl_mask_none mask]
      · rw [maskSet, if_pos]
        · rw [(divCount_eq y h hn (y c) (h - 1) le_rfl
            (fun i hi => (divAt_mono y h hn (by omega) (by omega)).trans hB) (fun hc => absurd hc (lt_irrefl _)))]
          omega
        · rw [hget (h - 2) (by omega)]; exact hB
      · intro i hi hm
        have := hm.2
        rw [hget (i + 1) (by omega)] at this
        exact absurd this (not_lt.mpr ((divAt_mono y h hn (by omega) (by omega)).trans hB))
    · push Not at hB
      have hex : ∃ t, t < h - 1 ∧ y c < divAt y h t := ⟨h - 2, by omega, hB⟩
      classical
      set t := Nat.find hex with ht
      obtain ⟨ht1, ht2⟩ := Nat.find_spec hex
      have ht0 : t ≠ 0 := by
        intro h0
        rw [← ht, h0] at ht2
        exact absurd ht2 (not_lt.mpr hA)
      have hbelow : ∀ i < t, divAt y h i ≤ y c := by
        intro i hi
        by_contra hc
        push Not at hc
        exact Nat.find_min hex hi ⟨by omega, hc⟩
      have hcnt := divCount_eq y h hn (y c) t (by omega) hbelow fun _ => ht2
      rw [foldl_mask_one mask _ c (t - 1) ?_ ?_ (h - 2) (by omega), hcnt]
      · omega
      · refine ⟨?_, ?_⟩
        · rw [hget (t - 1) (by omega)]; exact hbelow _ (by omega)
        · rw [show t - 1 + 1 = t by omega, hget t (by omega)]; exact ht2
      · intro i hi hm
        by_cases hi' : i < h - 1
        · have := hm.1
          rw [hget i hi'] at this
          exact absurd this (not_le.mpr (lt_of_lt_of_le ht2 (divAt_mono y h hn (by omega) hi')))
        · -- beyond the last division point the default value is compared with itself
          have h1 : dp.getD i 0 = 0 := by
            rw [List.getD_eq_default]
            simp [hdp]; omega
          have h2 : dp.getD (i + 1) 0 = 0 := by
            rw [List.getD_eq_default]
            simp [hdp]; omega
          have := hm
          simp only [hmask, h1, h2] at this
          linarith [this.1, this.2]

/-- C61: every case gets a slice in 1 to `h`; a larger response never gets a smaller slice, equal responses get the same one. -/
theorem C61_labels (y : Fin n → ℝ) (h : ℕ) (hn : 0 < n) (hh : 2 ≤ h) :
    ∃ lab, discretize y h = .ok lab ∧ (∀ c, 1 ≤ lab c ∧ lab c ≤ h) ∧ (∀ c d, y c ≤ y d → lab c ≤ lab d) ∧
      ∀ c d, y c = y d → lab c = lab d := by
  refine ⟨_, discretize_ok y h hn hh, fun c => ⟨by omega, ?_⟩, fun c d hcd => ?_, fun c d hcd => by rw [hcd]⟩
  · have := divCount_le y h (y c)
    omega
  · have := divCount_mono y h hcd
    omega

lemma card_below (y : Fin n → ℝ) (hy : Function.Injective y) {k : ℕ} (hk : k < (sortL (List.ofFn y)).length) :
    (Finset.univ.filter fun c => y c < (sortL (List.ofFn y))[k]).card = k := by
  classical
  set v := (sortL (List.ofFn y))[k] with hv
  have h1 := count_le_sortL_getElem hk
  have h2 := count_ge_sortL_getElem hk
  rw [← hv, countP_ofFn] at h1 h2
  rw [List.length_ofFn] at h2
  have hmem : v ∈ List.ofFn y := sortL_mem.mp (List.getElem_mem hk)
  obtain ⟨c0, hc0⟩ := (List.mem_ofFn' _ _).mp hmem
  have e1 : (Finset.univ.filter fun c => y c ≤ v) = insert c0 (Finset.univ.filter fun c => y c < v) := by
    ext c
    simp only [Finset.mem_filter, Finset.mem_univ, true_and, Finset.mem_insert]
    rw [le_iff_lt_or_eq, or_comm]
    constructor
    · rintro (h | h)
      · exact Or.inl (hy (by rw [h, hc0]))
      · exact Or.inr h
    · rintro (h | h)
      · exact Or.inl (by rw [h, hc0])
      · exact Or.inr h
  have hni : c0 ∉ Finset.univ.filter fun c => y c < v := by simp [hc0]
  rw [e1, Finset.card_insert_of_notMem hni] at h1
  have e2 : (Finset.univ.filter fun c => v ≤ y c).card + (Finset.univ.filter fun c => y c < v).card = n := by
    have := Finset.card_filter_add_card_filter_not (s := (Finset.univ : Finset (Fin n))) (p := fun c => v ≤ y c)
    simp only [not_le, Finset.card_univ, Fintype.card_fin] at this
    exact this
  omega

/-- C61: for distinct responses every slice but the last has `floor(n/h)` members, the last one the rest. -/
theorem C61_sizes (y : Fin n → ℝ) (hy : Function.Injective y) (h : ℕ) (hn : 0 < n) (hh : 2 ≤ h) :
    ∃ lab, discretize y h = .ok lab ∧ (∀ s, 1 ≤ s → s < h → (Finset.univ.filter fun c => lab c = s).card = n / h) ∧
      (Finset.univ.filter fun c => lab c = h).card = n - (h - 1) * (n / h) := by
  refine ⟨_, discretize_ok y h hn hh, ?_⟩
  have hcum : ∀ j < h - 1, (Finset.univ.filter fun c => divCount y h (y c) ≤ j).card = (j + 1) * (n / h) := by
    intro j hj
    have hl : (j + 1) * (n / h) < (sortL (List.ofFn y)).length := by
      rw [sortL_length, List.length_ofFn]; exact divIdx_lt hn hj
    have : (Finset.univ.filter fun c => divCount y h (y c) ≤ j) =
        Finset.univ.filter fun c => y c < (sortL (List.ofFn y))[(j + 1) * (n / h)] := by
      ext c
      simp only [Finset.mem_filter, Finset.mem_univ, true_and]
      rw [divCount_le_iff y h hn _ j hj, divAt, List.getD_eq_getElem _ _ hl]
    rw [this]
    exact card_below y hy hl
  constructor
  · intro s hs1 hs2
    rcases Nat.eq_or_lt_of_le hs1 with rfl | hs1
    · have := hcum 0 (by omega)
      rw [zero_add, one_mul] at this
      rw [← this]
      congr 1
      ext c
      simp
    · have ha := hcum (s - 1) (by omega)
      have hb := hcum (s - 2) (by omega)
      have hsub : (Finset.univ.filter fun c => divCount y h (y c) ≤ s - 1) =
          (Finset.univ.filter fun c => divCount y h (y c) ≤ s - 2) ∪ Finset.univ.filter fun c => divCount y h (y c) + 1 = s := by
        ext c
        simp only [Finset.mem_filter, Finset.mem_univ, true_and, Finset.mem_union]
        omega
      have hdis : Disjoint (Finset.univ.filter fun c => divCount y h (y c) ≤ s - 2)
          (Finset.univ.filter fun c => divCount y h (y c) + 1 = s) := by
        rw [Finset.disjoint_left]
        intro c hc hc'
        simp only [Finset.mem_filter, Finset.mem_univ, true_and] at hc hc'
        omega
      rw [hsub, Finset.card_union_of_disjoint hdis, hb, show s - 1 + 1 = (s - 2 + 1) + 1 by omega,
        Nat.succ_mul (s - 2 + 1)] at ha
      omega
  · have ha := hcum (h - 2) (by omega)
    have e2 := Finset.card_filter_add_card_filter_not (s := (Finset.univ : Finset (Fin n)))
      (p := fun c => divCount y h (y c) ≤ h - 2)
    rw [ha, Finset.card_univ, Fintype.card_fin] at e2
    have e3 : (Finset.univ.filter fun c => ¬ divCount y h (y c) ≤ h - 2) = Finset.univ.filter fun c => divCount y h (y c) + 1 = h := by
      ext c
      simp only [Finset.mem_filter, Finset.mem_univ, true_and]
      have := divCount_le y h (y c)
      omega
    rw [e3] at e2
    have : h - 2 + 1 = h - 1 := by omega
    rw [this] at e2
    omega

/-- C61: with ties a slice never starts too late: at most `j * floor(n/h)` cases are in the first `j` slices. -/
theorem C61_cumulative (y : Fin n → ℝ) (h : ℕ) (hn : 0 < n) (hh : 2 ≤ h) :
    ∃ lab, discretize y h = .ok lab ∧ ∀ j, 1 ≤ j → j < h → (Finset.univ.filter fun c => lab c ≤ j).card ≤ j * (n / h) := by
  refine ⟨_, discretize_ok y h hn hh, fun j h1 h2 => ?_⟩
  have hj : j - 1 < h - 1 := by omega
  have hl : (j - 1 + 1) * (n / h) < (sortL (List.ofFn y)).length := by
    rw [sortL_length, List.length_ofFn]; exact divIdx_lt hn hj
  have e1 : (Finset.univ.filter fun c => divCount y h (y c) + 1 ≤ j) =
      Finset.univ.filter fun c => ¬ (sortL (List.ofFn y))[(j - 1 + 1) * (n / h)] ≤ y c := by
    ext c
    simp only [Finset.mem_filter, Finset.mem_univ, true_and, not_le]
    rw [← List.getD_eq_getElem _ 0 hl]
    have := divCount_le_iff y h hn (y c) (j - 1) hj
    rw [show divCount y h (y c) + 1 ≤ j ↔ divCount y h (y c) ≤ j - 1 by omega, this]
    rfl
  rw [e1]
  have h3 := count_ge_sortL_getElem hl
  rw [countP_ofFn, List.length_ofFn] at h3
  have e2 := Finset.card_filter_add_card_filter_not (s := (Finset.univ : Finset (Fin n)))
    (p := fun c => (sortL (List.ofFn y))[(j - 1 + 1) * (n / h)] ≤ y c)
  rw [Finset.card_univ, Fintype.card_fin] at e2
  have e3 : j - 1 + 1 = j := by omega
  simp only [e3] at h3 e2 ⊢
  omega

/-- C61: a single slice is outside the claim: the call fails. -/
theorem C61_one_slice (y : Fin n → ℝ) : discretize y 1 = .error .indexError := by
  simp [discretize, divPoints, mapE]

/-- The hypotheses are met: five distinct responses in two slices. -/
example : Function.Injective (fun c : Fin 5 => (c.1 : ℝ)) ∧ (0 : ℕ) < 5 ∧ 5 / 2 = 2 :=
  ⟨fun a b h => by simpa [Fin.ext_iff] using h, by norm_num, rfl⟩

end Direpack
