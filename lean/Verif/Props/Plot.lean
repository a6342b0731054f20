import Mathlib.Tactic.NormNum
import Mathlib.Tactic.Linarith
import Mathlib.Tactic.FinCases
import Mathlib.Data.List.Count
import Mathlib.Data.Fin.VecNotation
import Mathlib.Order.Interval.Finset.Fin
import Verif.Plot

/-! Properties C75, C98 and C99: what the SPRM plots show. -/

namespace Direpack

variable {n p : ℕ}

/-- The class of a case with weight `w` as documented: harsh for weight zero, moderate for weights between zero and one, regular for weight one. -/
def Spec.IsClass (w : ℝ) : OutlierClass → Prop
  | .regular => w = 1
  | .moderate => 0 < w ∧ w < 1
  | .harsh => w = 0

lemma mem_scatter (u v : Fin n → ℝ) (mask : Fin n → Prop) [DecidablePred mask] (k : OutlierClass) (q : PlotPoint n) :
    q ∈ scatter u v mask k ↔ mask q.case ∧ q = ⟨q.case, u q.case, v q.case, k⟩ := by
  unfold scatter
  simp only [List.mem_map, List.mem_filter, List.mem_finRange, true_and, decide_eq_true_eq]
  constructor
  · rintro ⟨c, hc, rfl⟩
    exact ⟨hc, rfl⟩
  · rintro ⟨h1, h2⟩
    exact ⟨q.case, h1, h2.symm⟩

lemma count_scatter (u v : Fin n → ℝ) (mask : Fin n → Prop) [DecidablePred mask] (k : OutlierClass) (c : Fin n) :
    (scatter u v mask k).countP (fun q => q.case = c) = if mask c then 1 else 0 := by
  unfold scatter
  rw [List.countP_map]
  have h1 : ((fun q : PlotPoint n => decide (q.case = c)) ∘ fun c => (⟨c, u c, v c, k⟩ : PlotPoint n)) = fun d => decide (d = c) := by
    funext d; rfl
  rw [h1, List.countP_filter]
  have h2 : (List.finRange n).countP (fun d => decide (d = c) && decide (mask d)) = if mask c then (List.finRange n).count c else 0 := by
    by_cases hm : mask c
    · rw [if_pos hm, List.count]
      refine List.countP_congr fun d _ => ?_
      constructor
      · intro h
        simp only [Bool.and_eq_true, decide_eq_true_eq] at h
        simpa using h.1
      · intro h
        have hd : d = c := by simpa using h
        subst hd
        simp [hm]
    · rw [if_neg hm, List.countP_eq_zero]
      intro d _ h
      simp only [Bool.and_eq_true, decide_eq_true_eq] at h
      exact hm (h.1 ▸ h.2)
  rw [h2]
  split
  · exact List.count_eq_one_of_mem (List.nodup_finRange n) (List.mem_finRange c)
  · rfl

/-- C75: every case with a weight in [0,1] is drawn exactly once. -/
theorem C75_once (u v w : Fin n → ℝ) (hw : ∀ c, 0 ≤ w c ∧ w c ≤ 1) (c : Fin n) : (plotPoints u v w).countP (fun q => q.case = c) = 1 := by
  unfold plotPoints
  rw [List.countP_append, List.countP_append, count_scatter, count_scatter, count_scatter]
  obtain ⟨h0, h1⟩ := hw c
  by_cases e0 : w c = 0
  · rw [if_neg (by rw [e0]; norm_num), if_neg (by rw [e0]; norm_num), if_pos e0]
  · by_cases e1 : w c = 1
    · rw [if_pos e1, if_neg (by rw [e1]; norm_num), if_neg e0]
    · rw [if_neg e1, if_pos ⟨lt_of_le_of_ne h0 (Ne.symm e0), lt_of_le_of_ne h1 e1⟩, if_neg e0]

/-- C75: a point is drawn at the coordinates of its case and in the class of the weight of its case. -/
theorem C75_class (u v w : Fin n → ℝ) (q : PlotPoint n) (hq : q ∈ plotPoints u v w) :
    Spec.IsClass (w q.case) q.cls ∧ q.x = u q.case ∧ q.y = v q.case := by
  unfold plotPoints at hq
  rw [List.mem_append, List.mem_append, mem_scatter, mem_scatter, mem_scatter] at hq
  rcases hq with (⟨h1, h2⟩ | ⟨h1, h2⟩) | ⟨h1, h2⟩
  · rw [h2]; exact ⟨h1, rfl, rfl⟩
  · rw [h2]; exact ⟨h1, rfl, rfl⟩
  · rw [h2]; exact ⟨h1, rfl, rfl⟩

/-- C75: the classes exclude one another. -/
theorem C75_exclusive (w : ℝ) (k k' : OutlierClass) (h : Spec.IsClass w k) (h' : Spec.IsClass w k') : k = k' := by
  cases k <;> cases k' <;> simp only [Spec.IsClass] at h h' <;> first | rfl | (exfalso; linarith [h.1, h.2, h']) | (exfalso; linarith [h, h'.1, h'.2]) |
    (exfalso; linarith)

/-- A regular, a moderate and a harsh case. -/
example : ∃ w : Fin 3 → ℝ, (∀ c, 0 ≤ w c ∧ w c ≤ 1) ∧ Spec.IsClass (w 0) .regular ∧ Spec.IsClass (w 1) .moderate ∧ Spec.IsClass (w 2) .harsh := by
  refine ⟨![1, 1 / 2, 0], ?_, ?_, ?_, ?_⟩
  · intro c; fin_cases c <;> norm_num
  · simp [Spec.IsClass]
  · norm_num [Spec.IsClass]
  · simp [Spec.IsClass]

/-! ### Names -/

lemma plotMapE_ok {α β : Type} {f : α → Except Err β} {g : α → β} (l : List α) (h : ∀ a ∈ l, f a = .ok (g a)) : mapE f l = .ok (l.map g) := by
  induction l with
  | nil => rfl
  | cons a l ih =>
    rw [mapE, h a List.mem_cons_self]
    dsimp only
    rw [ih fun b hb => h b (List.mem_cons_of_mem _ hb)]
    rfl

/-- C98 (partial: the names but the last, y against predicted y and score plots): they are drawn at the points of their cases. -/
theorem C98_points_partial (names : List String) (hn : names.length = n) (u v : Fin n → ℝ) :
    ∃ l, annotate names u v = .ok l ∧ ∀ i (hi : i + 1 < n), ⟨names[i], u ⟨i, by omega⟩, v ⟨i, by omega⟩⟩ ∈ l := by
  refine ⟨_, plotMapE_ok (g := fun i => if h : i < n then ⟨names.getD i "", u ⟨i, h⟩, v ⟨i, h⟩⟩ else ⟨"", 0, 0⟩) _ ?_, ?_⟩
  · intro i hi
    rw [List.mem_range] at hi
    rw [dif_pos (by omega), dif_pos (by omega)]
  · intro i hi
    refine List.mem_map.mpr ⟨i, List.mem_range.mpr (by omega), ?_⟩
    rw [dif_pos (by omega)]
    congr 1
    rw [List.getD_eq_getElem?_getD, List.getElem?_eq_getElem (by omega)]
    rfl

/-- C98 is violated: the last name is not drawn. -/
theorem C98_last_violated (names : List String) (hn : names.length = n) (hnd : names.Nodup) (hne : 0 < n) (u v : Fin n → ℝ) (l : List PlotText)
    (h : annotate names u v = .ok l) : ∀ t ∈ l, t.text ≠ names[n - 1] := by
  unfold annotate at h
  rw [plotMapE_ok (g := fun i => if h : i < n then ⟨names.getD i "", u ⟨i, h⟩, v ⟨i, h⟩⟩ else ⟨"", 0, 0⟩) _ (by
    intro i hi
    rw [List.mem_range] at hi
    rw [dif_pos (by omega), dif_pos (by omega)])] at h
  cases h
  intro t ht
  obtain ⟨i, hi, rfl⟩ := List.mem_map.mp ht
  rw [List.mem_range] at hi
  rw [dif_pos (by omega)]
  dsimp only
  rw [List.getD_eq_getElem?_getD, List.getElem?_eq_getElem (by omega)]
  intro hbad
  have := (List.Nodup.getElem_inj_iff hnd).mp (show names[i] = names[n - 1] from hbad)
  omega

/-- C98 is violated: in the plot of the case weights every name drawn is at the bar of the next case. -/
theorem C98_weights_violated (names : List String) (hn : names.length = n) (w : Fin n → ℝ) :
    ∃ l, annotateWeights n names w = .ok l ∧ l.length = n - 1 ∧ ∀ i (hi : i + 1 < n), ∃ t ∈ l, t.text = names[i] ∧ t.y = w ⟨i, by omega⟩ ∧
      t.x = ((weightBars w).getD (i + 1) (0, 0)).1 ∧ t.x ≠ ((weightBars w).getD i (0, 0)).1 := by
  refine ⟨_, plotMapE_ok (g := fun i => if h : i < n then ⟨names.getD i "", ((i + 1 : ℕ) : ℝ) + 1, w ⟨i, h⟩⟩ else ⟨"", 0, 0⟩) _ ?_, ?_, ?_⟩
  · intro i hi
    rw [List.mem_range] at hi
    rw [dif_pos (by omega), if_pos (by omega), dif_pos (by omega)]
  · simp [hn]
  · intro i hi
    refine ⟨_, List.mem_map.mpr ⟨i, List.mem_range.mpr (by omega), rfl⟩, ?_⟩
    have hb : ∀ k (hk : k < n), (weightBars w).getD k (0, 0) = ((k : ℝ) + 1, w ⟨k, hk⟩) := by
      intro k hk
      unfold weightBars
      rw [List.getD_eq_getElem?_getD, List.getElem?_ofFn]
      simp [hk]
    rw [hb (i + 1) hi, hb i (by omega), dif_pos (by omega)]
    dsimp only
    refine ⟨?_, rfl, rfl, ?_⟩
    · rw [List.getD_eq_getElem?_getD, List.getElem?_eq_getElem (by omega)]
      rfl
    · push_cast
      intro h
      linarith

/-! ### Coefficients -/

/-- Every bar has the height of the coefficient whose number it is labelled with. -/
def Spec.BarsMatch (b : Fin p → ℝ) (labels : List ℕ) (heights : List ℝ) : Prop :=
  labels.length = heights.length ∧ ∀ (i : ℕ) (k : Fin p), labels[i]? = some k.1 → heights[i]? = some (b k)

lemma filter_range_ends (p l : ℕ) (h : 2 * l ≤ p) :
    ((List.range p).filter fun i => i < l ∨ p - l ≤ i) = List.range l ++ (List.range l).map (p - l + ·) := by
  obtain ⟨q, rfl⟩ : ∃ q, p = l + (q + l) := ⟨p - 2 * l, by omega⟩
  rw [List.range_add, List.range_add, List.map_append, List.filter_append, List.filter_append]
  have e1 : ((List.range l).filter fun i => i < l ∨ l + (q + l) - l ≤ i) = List.range l := by
    rw [List.filter_eq_self]
    intro a ha
    simp [List.mem_range.mp ha]
  have e2 : (((List.range q).map (l + ·)).filter fun i => i < l ∨ l + (q + l) - l ≤ i) = [] := by
    rw [List.filter_eq_nil_iff]
    intro a ha
    obtain ⟨b, hb, rfl⟩ := List.mem_map.mp ha
    have := List.mem_range.mp hb
    simp only [decide_eq_true_eq]
    omega
  have e3 : ((((List.range l).map (q + ·)).map (l + ·)).filter fun i => i < l ∨ l + (q + l) - l ≤ i) = (List.range l).map (l + (q + l) - l + ·) := by
    rw [List.map_map, List.filter_eq_self.mpr]
    · refine List.map_congr_left fun a _ => ?_
      simp only [Function.comp]
      omega
    · intro a ha
      obtain ⟨b, hb, rfl⟩ := List.mem_map.mp ha
      simp only [Function.comp, decide_eq_true_eq]
      omega
  rw [e1, e2, e3, List.nil_append]

lemma filter_range_all (p l : ℕ) (h : p ≤ 2 * l) : ((List.range p).filter fun i => i < l ∨ p - l ≤ i) = List.range p := by
  rw [List.filter_eq_self]
  intro a ha
  have := List.mem_range.mp ha
  simp only [decide_eq_true_eq]
  omega

lemma union1d_ends (p l : ℕ) : union1d p ((List.range p).filter (· < l)) ((List.range p).filter (p - l ≤ ·)) =
    (List.range p).filter fun i => i < l ∨ p - l ≤ i := by
  unfold union1d
  refine List.filter_congr fun a ha => ?_
  simp [List.mem_range.mp ha]

lemma map_getD_range {α : Type*} (s : List α) (d : α) (k l : ℕ) (h : k + l ≤ s.length) :
    (List.range l).map (fun i => s.getD (k + i) d) = (s.drop k).take l := by
  refine List.ext_getElem (by simp; omega) fun i h1 h2 => ?_
  simp only [List.length_map, List.length_range] at h1
  simp only [List.getElem_map, List.getElem_range, List.getElem_take, List.getElem_drop]
  rw [List.getD_eq_getElem?_getD, List.getElem?_eq_getElem (by omega)]
  rfl

/-- The heights are the two ends of the sorted coefficients. -/
lemma coefHeights_eq (b : Fin p → ℝ) (t : ℝ) : coefHeights b t = if 2 * truncLeft p t ≤ p then
    (sortL (List.ofFn b)).take (truncLeft p t) ++ (sortL (List.ofFn b)).drop (p - truncLeft p t) else sortL (List.ofFn b) := by
  have hlen : (sortL (List.ofFn b)).length = p := by
    unfold sortL
    rw [List.length_insertionSort, List.length_ofFn]
  unfold coefHeights
  dsimp only
  rw [union1d_ends]
  generalize truncLeft p t = l
  generalize sortL (List.ofFn b) = s at hlen
  split
  · rename_i h
    rw [filter_range_ends p l h, List.map_append, List.map_map]
    have e1 := map_getD_range s 0 0 l (by omega)
    have e2 := map_getD_range s 0 (p - l) l (by omega)
    simp only [Nat.zero_add, List.drop_zero] at e1
    rw [e1]
    congr 1
    refine Eq.trans ?_ (e2.trans ?_)
    · rfl
    · rw [List.take_of_length_le]
      rw [List.length_drop]
      omega
  · rename_i h
    rw [filter_range_all p l (by omega)]
    have e1 := map_getD_range s 0 0 p (by omega)
    simp only [Nat.zero_add, List.drop_zero] at e1
    rw [e1, List.take_of_length_le (by omega)]

/-- `heights` are, in increasing order, the `m` smallest and the `m` largest coefficients, each once, and all coefficients if there are no more
than `2 m`: they are the values of different variables, and the value of a variable that is not drawn lies between the first `m` and the others. -/
def Spec.Extremes (b : Fin p → ℝ) (m : ℕ) (heights : List ℝ) : Prop :=
  heights.Pairwise (· ≤ ·) ∧ ∃ ks : List (Fin p), ks.Nodup ∧ heights = ks.map b ∧ ks.length = min p (2 * m) ∧
    ∀ k, k ∉ ks → (∀ h ∈ heights.take m, h ≤ b k) ∧ ∀ h ∈ heights.drop m, b k ≤ h

/-- C99 (partial: the heights only; for the labels see `C99_labels_partial` and `C99_labels_violated`): with truncation `t` the bars show half of
the fraction `t` of the coefficients, rounded up, at each end. -/
theorem C99_heights_partial (b : Fin p → ℝ) (t : ℝ) : Spec.Extremes b ⌈(p : ℝ) * (t / 2)⌉₊ (coefHeights b t) := by
  have hL : (sortL (List.ofFn b)).Pairwise (· ≤ ·) := List.pairwise_insertionSort _ _
  set ks0 := (List.finRange p).insertionSort (fun i j => b i ≤ b j) with hks0
  have hmap : ks0.map b = sortL (List.ofFn b) := by
    rw [hks0, List.map_insertionSort _ (· ≤ ·) b _ (fun _ _ _ _ => Iff.rfl), List.ofFn_eq_map]
    rfl
  have hperm : ks0.Perm (List.finRange p) := List.perm_insertionSort _ _
  have hnd : ks0.Nodup := hperm.nodup_iff.mpr (List.nodup_finRange p)
  have hlen : ks0.length = p := by rw [hperm.length_eq, List.length_finRange]
  have hall : ∀ k, k ∈ ks0 := fun k => hperm.mem_iff.mpr (List.mem_finRange k)
  rw [coefHeights_eq, ← hmap]
  change Spec.Extremes b (truncLeft p t) _
  rw [← hmap] at hL
  generalize truncLeft p t = l
  split
  · rename_i h
    have hsplit : ks0 = ks0.take l ++ ((ks0.drop l).take (p - l - l) ++ ks0.drop (p - l)) := by
      have e : ks0.drop (p - l) = (ks0.drop l).drop (p - l - l) := by rw [List.drop_drop]; congr 1; omega
      rw [e, List.take_append_drop, List.take_append_drop]
    have hsub : (ks0.take l ++ ks0.drop (p - l)).Sublist ks0 := by
      conv_rhs => rw [hsplit]
      exact List.Sublist.append (List.Sublist.refl _) (List.sublist_append_right _ _)
    have htl : (ks0.take l).length = l := by rw [List.length_take]; omega
    have hm2 : (ks0.map b).take l ++ (ks0.map b).drop (p - l) = (ks0.take l ++ ks0.drop (p - l)).map b := by
      rw [List.map_append, List.map_take, List.map_drop]
    rw [hm2]
    refine ⟨hL.sublist (hsub.map b), _, hnd.sublist hsub, rfl, ?_, fun k hk => ?_⟩
    · rw [List.length_append, htl, List.length_drop]; omega
    · have hmid : k ∈ (ks0.drop l).take (p - l - l) := by
        have := hall k
        rw [hsplit] at this
        simp only [List.mem_append] at this hk
        tauto
      rw [hsplit, List.map_append, List.map_append, List.pairwise_append, List.pairwise_append] at hL
      obtain ⟨-, ⟨-, -, h2⟩, h1⟩ := hL
      rw [List.map_append, List.take_left' (by rw [List.length_map, htl]), List.drop_left' (by rw [List.length_map, htl])]
      exact ⟨fun x hx => h1 x hx _ (List.mem_append_left _ (List.mem_map_of_mem hmid)), fun x hx => h2 _ (List.mem_map_of_mem hmid) x hx⟩
  · rename_i h
    exact ⟨hL, ks0, hnd, rfl, by omega, fun k hk => absurd (hall k) hk⟩

lemma rankOf_mono {b : Fin p → ℝ} (hb : Monotone b) (i : Fin p) : rankOf b i = i.1 := by
  unfold rankOf
  have : (Finset.univ.filter fun j => b j < b i ∨ (b j = b i ∧ j < i)) = Finset.Iio i := by
    ext j
    simp only [Finset.mem_filter, Finset.mem_univ, true_and, Finset.mem_Iio]
    constructor
    · rintro (h | h)
      · by_contra hji
        exact absurd (hb (not_lt.mp hji)) (not_le.mpr h)
      · exact h.2
    · intro h
      rcases (hb h.le).lt_or_eq with h1 | h1
      · exact .inl h1
      · exact .inr ⟨h1, h⟩
  rw [this, Fin.card_Iio]

/-- C99 (partial: the labels, if the variables happen to be in the order of their coefficients; missing: any other order, where the labels can be
wrong, see `C99_labels_violated`). -/
theorem C99_labels_partial {b : Fin p → ℝ} (hb : Monotone b) (t : ℝ) : Spec.BarsMatch b (coefLabels b t) (coefHeights b t) := by
  have hs : sortL (List.ofFn b) = List.ofFn b := by
    unfold sortL
    refine List.Pairwise.insertionSort_eq ?_
    rw [List.pairwise_ofFn]
    exact fun i j hij => hb hij.le
  have hlab : coefLabels b t = (List.range p).filter fun i => i < truncLeft p t ∨ p - truncLeft p t ≤ i := by
    unfold coefLabels
    dsimp only
    rw [show rankOf b = fun i => i.1 from funext (rankOf_mono hb)]
    unfold union1d
    refine List.filter_congr fun a ha => ?_
    have ha := List.mem_range.mp ha
    simp only [List.mem_map, List.mem_filter, List.mem_finRange, true_and, decide_eq_true_eq]
    congr 1
    refine propext (or_congr ?_ ?_)
    · exact ⟨fun ⟨x, hx, e⟩ => e ▸ hx, fun h => ⟨⟨a, ha⟩, h, rfl⟩⟩
    · exact ⟨fun ⟨x, hx, e⟩ => e ▸ hx, fun h => ⟨⟨a, ha⟩, h, rfl⟩⟩
  have hh : coefHeights b t = (coefLabels b t).map fun i => (List.ofFn b).getD i 0 := by
    rw [hlab, ← union1d_ends, ← hs]
    rfl
  rw [hh]
  refine ⟨(List.length_map _).symm, fun i k hk => ?_⟩
  rw [List.getElem?_map, hk, Option.map_some, List.getD_eq_getElem?_getD, List.getElem?_ofFn]
  simp

/-- Three coefficients in increasing order of which the first and the last are drawn, with their numbers. -/
example : Spec.BarsMatch ![(1 : ℝ), 2, 3] (coefLabels ![1, 2, 3] (1 / 2)) (coefHeights ![1, 2, 3] (1 / 2)) := by
  refine C99_labels_partial (fun i j h => ?_) _
  fin_cases i <;> fin_cases j <;> simp_all <;> norm_num

/-- Three coefficients of which the largest and the smallest are drawn. -/
def coefEx : Fin 3 → ℝ := ![2, 3, 1]

/-- C99 is violated: there are coefficients for which truncation labels bars with the wrong variables. -/
theorem C99_labels_violated : ∃ (b : Fin 3 → ℝ) (t : ℝ), 0 < t ∧ t < 1 ∧ Function.Injective b ∧ ¬ Spec.BarsMatch b (coefLabels b t) (coefHeights b t) := by
  refine ⟨coefEx, 1 / 2, by norm_num, by norm_num, ?_, ?_⟩
  · intro i j h
    fin_cases i <;> fin_cases j <;> simp_all [coefEx]
  · have hl : truncLeft 3 (1 / 2) = 1 := by
      unfold truncLeft
      rw [Nat.ceil_eq_iff (by norm_num)]
      norm_num
    have hr0 : rankOf coefEx 0 = 1 := by
      unfold rankOf
      have : (Finset.univ.filter fun j => coefEx j < coefEx 0 ∨ (coefEx j = coefEx 0 ∧ j < 0)) = {2} := by
        ext j; fin_cases j <;> norm_num [coefEx, Fin.ext_iff]
      rw [this, Finset.card_singleton]
    have hr2 : rankOf coefEx 2 = 0 := by
      unfold rankOf
      have : (Finset.univ.filter fun j => coefEx j < coefEx 2 ∨ (coefEx j = coefEx 2 ∧ j < 2)) = ∅ := by
        have h2 : coefEx 2 = 1 := rfl
        rw [Finset.filter_eq_empty_iff, h2]
        intro j _
        fin_cases j
        · norm_num [coefEx]
        · norm_num [coefEx]
        · have h3 : coefEx ⟨2, by norm_num⟩ = 1 := rfl
          rintro (h | ⟨-, h⟩)
          · exact absurd h (by simp only [h3]; norm_num)
          · exact absurd h (by decide)
      rw [this, Finset.card_empty]
    have hlab : coefLabels coefEx (1 / 2) = [0, 1] := by
      unfold coefLabels
      dsimp only
      rw [hl]
      have e1 : ((List.finRange 3).filter fun i => i.1 < 1) = [0] := by decide
      have e2 : ((List.finRange 3).filter fun i => 3 - 1 ≤ i.1) = [2] := by decide
      rw [e1, e2]
      simp only [List.map_cons, List.map_nil, hr0, hr2]
      decide
    have hh : coefHeights coefEx (1 / 2) = [1, 3] := by
      unfold coefHeights
      dsimp only
      rw [hl]
      have e : union1d 3 ((List.range 3).filter (· < 1)) ((List.range 3).filter (3 - 1 ≤ ·)) = [0, 2] := by decide
      have s : sortL (List.ofFn coefEx) = [1, 2, 3] := by
        unfold sortL
        norm_num [coefEx, List.ofFn_succ, List.insertionSort, List.orderedInsert]
      rw [e, s]
      rfl
    rw [hlab, hh]
    intro h
    have := h.2 0 0 rfl
    norm_num [coefEx] at this

end Direpack
