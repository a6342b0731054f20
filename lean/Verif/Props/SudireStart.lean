import Verif.Props.SudireFit

/-! Property C64: the start values of optimisation-based `sudire`. -/

namespace Direpack

open scoped BigOperators
open Spec

variable {n p : ℕ}

/-! ### Slices of a response without ties -/

lemma labelLoop_single (fuel : ℕ) (a : ℝ) : labelLoop fuel [a] = ([], [a]) := by
  induction fuel with
  | zero => rfl
  | succ k ih =>
    have hv : varL [a] = 0 := by
      rw [varL_zero_iff_same (by simp)]
      intro x hx z hz
      simp only [List.mem_singleton] at hx hz
      rw [hx, hz]
    rw [labelLoop, if_neg (by simpa using hv)]
    exact ih

lemma labelLoop_nodup (fuel : ℕ) (l : List ℝ) (a : ℝ) (hl : (l ++ [a]).Nodup) (hf : l.length ≤ fuel) : labelLoop fuel (l ++ [a]) = (l, [a]) := by
  induction l generalizing fuel with
  | nil => exact labelLoop_single fuel a
  | cons b r ih =>
    obtain ⟨k, rfl⟩ : ∃ k, fuel = k + 1 := ⟨fuel - 1, by simp at hf; omega⟩
    have hb : b ∉ r ++ [a] := (List.nodup_cons.mp hl).1
    have hv : varL (b :: (r ++ [a])) ≠ 0 := by
      rw [Ne, varL_zero_iff_same (by simp)]
      intro h
      have := h b (by simp) a (by simp)
      exact hb (by simp [this])
    rw [List.cons_append, labelLoop, if_pos hv]
    have hfil : (b :: (r ++ [a])).filter (fun x => x ≠ b) = r ++ [a] := by
      rw [List.filter_cons_of_neg (by simp), List.filter_eq_self]
      intro x hx
      simp only [ne_eq, decide_not, Bool.not_eq_eq_eq_not, Bool.not_true, decide_eq_false_iff_not]
      rintro rfl
      exact hb hx
    dsimp only
    rw [hfil, ih k (List.nodup_cons.mp hl).2 (by simp at hf; omega)]

lemma yLabels_inj {y : Fin n → ℝ} (hy : Function.Injective y) (hn : 0 < n) : yLabels y = .ok (List.ofFn y) := by
  have hne : List.ofFn y ≠ [] := by simp; omega
  have hnd : (List.ofFn y).Nodup := List.nodup_ofFn.mpr hy
  have e := List.dropLast_append_getLast hne
  unfold yLabels
  have : labelLoop n (List.ofFn y) = ((List.ofFn y).dropLast, [(List.ofFn y).getLast hne]) := by
    have h := labelLoop_nodup n (List.ofFn y).dropLast ((List.ofFn y).getLast hne) (by rw [e]; exact hnd) (by simp)
    rwa [e] at h
  rw [this]
  dsimp only
  rw [e]

lemma sliceLabels_inj {y : Fin n → ℝ} (hy : Function.Injective y) (hn : 0 < n) {s : ℕ} (hs : s ≤ n) :
    sliceLabels y s = .ok fun i => y (Fin.castLE hs i) := by
  unfold sliceLabels
  rw [yLabels_inj hy hn]
  dsimp only
  rw [dif_pos (by simpa using hs)]
  congr 1
  funext i
  simp
  rfl

lemma sliceLabels_inj_error {y : Fin n → ℝ} (hy : Function.Injective y) (hn : 0 < n) {s : ℕ} (hs : n < s) :
    sliceLabels y s = .error .indexError := by
  unfold sliceLabels
  rw [yLabels_inj hy hn]
  dsimp only
  rw [dif_neg (by simpa using hs)]

/-- The kernel depends on the response only through the sets of cases in the slices. -/
lemma kernel_congr (m : SdrMethod) {s : ℕ} (X : Fin n → Fin p → ℝ) {y y' : Fin n → ℝ} {lab lab' : Fin s → ℝ}
    (h : ∀ i, inSlice y (lab i) = inSlice y' (lab' i)) : m.kernel X y lab = m.kernel X y' lab' := by
  have hp : ∀ i, sliceProb y (lab i) = sliceProb y' (lab' i) := fun i => by unfold sliceProb; rw [h]
  have hm : ∀ i, sliceMean X y (lab i) = sliceMean X y' (lab' i) := fun i => by unfold sliceMean; rw [h]
  have hc : ∀ i, sliceCov X y (lab i) = sliceCov X y' (lab' i) := fun i => by unfold sliceCov; rw [h, hm]
  cases m with
  | sir => simp only [SdrMethod.kernel, sirMat, hp, hm]
  | save => simp only [SdrMethod.kernel, saveMat, hp, hc]
  | dr => simp only [SdrMethod.kernel, drMat, hp, hm, hc]

lemma inSlice_inj {y : Fin n → ℝ} (hy : Function.Injective y) (i : Fin n) : inSlice y (y i) = {i} := by
  ext c
  simp only [inSlice, Finset.mem_filter, Finset.mem_univ, true_and, Finset.mem_singleton]
  exact ⟨fun h => hy h, fun h => by rw [h]⟩

/-- A slicing method applied to a response without ties as if it were discrete does not use the response. -/
lemma sliceMethod_ignores (m : SdrMethod) (eigh : Eigh) (X : Fin n → Fin p → ℝ) {y y' : Fin n → ℝ} (hy : Function.Injective y)
    (hy' : Function.Injective y') (s d : ℕ) (center scale : Bool) :
    sliceMethod m eigh X y s d false center scale = sliceMethod m eigh X y' s d false center scale := by
  unfold sliceMethod
  by_cases h1 : n < 2 ∨ p < 2
  · rw [if_pos h1, if_pos h1]
  · rw [if_neg h1, if_neg h1]
    cases sdrRoot eigh scale X with
    | error e => rfl
    | ok S =>
      simp only [sliceResponse, Bool.false_eq_true, if_false]
      have hn : 0 < n := by omega
      by_cases hs : s ≤ n
      · rw [sliceLabels_inj hy hn hs, sliceLabels_inj hy' hn hs]
        dsimp only
        rw [kernel_congr m _ (y' := y') (lab' := fun i => y' (Fin.castLE hs i)) (fun i => by rw [inSlice_inj hy, inSlice_inj hy'])]
      · rw [sliceLabels_inj_error hy hn (by omega), sliceLabels_inj_error hy' hn (by omega)]

/-- C64: for a response without ties the start directions do not depend on the response at all. -/
theorem C64_ignores_response_violated (ext : SdExt) (pr : SdParams) (m : SdrMethod) (s : ℕ) (q : SdPre n p) (y y' : Fin n → ℝ)
    (hy : Function.Injective y) (hy' : Function.Injective y') : sdStartMat ext pr m s q y = sdStartMat ext pr m s q y' := by
  unfold sdStartMat
  rw [sliceMethod_ignores m ext.eigh q.Xs hy hy']

/-! ### The sliced response gives other directions -/

lemma leading_fst {eigh : Eigh} (he : IsEigh eigh) {a b : ℝ} (hab : b < a) (k : Fin (min 1 2)) :
    leading eigh (Matrix.diagonal ![a, b]) 1 1 k = 0 ∧ leading eigh (Matrix.diagonal ![a, b]) 1 0 k ≠ 0 := by
  have hM := Matrix.diagonal_transpose (![a, b] : Fin 2 → ℝ)
  have h1 := leading_max he hM k ![1, 0] (by simp [Fin.sum_univ_two]) (by
    intro l hl
    have := k.2
    have := l.2
    simp only [Fin.lt_def] at hl
    omega)
  have h2 := congrFun (congrFun (leading_orth he hM 1) k) k
  rw [Matrix.mul_apply, Fin.sum_univ_two, Matrix.one_apply_eq] at h2
  simp only [Matrix.transpose_apply] at h2
  rw [quad_two, quad_two] at h1
  simp only [Matrix.cons_val_zero, Matrix.cons_val_one] at h1
  have h3 : leading eigh (Matrix.diagonal ![a, b]) 1 1 k ^ 2 ≤ 0 := by
    set u := leading eigh (Matrix.diagonal ![a, b]) 1 0 k
    set w := leading eigh (Matrix.diagonal ![a, b]) 1 1 k
    have hu : u ^ 2 = 1 - w ^ 2 := by linarith
    rw [hu] at h1
    have h4 : 0 ≤ (a - b) * (-w ^ 2) := by linarith
    nlinarith [nonneg_of_mul_nonneg_right h4 (sub_pos.mpr hab)]
  have h4 : leading eigh (Matrix.diagonal ![a, b]) 1 1 k = 0 :=
    pow_eq_zero_iff (two_ne_zero) |>.mp (le_antisymm h3 (sq_nonneg _))
  refine ⟨h4, ?_⟩
  intro h0
  rw [h0, h4] at h2
  norm_num at h2

lemma leading_snd {eigh : Eigh} (he : IsEigh eigh) {a b : ℝ} (hab : a < b) (k : Fin (min 1 2)) :
    leading eigh (Matrix.diagonal ![a, b]) 1 0 k = 0 ∧ leading eigh (Matrix.diagonal ![a, b]) 1 1 k ≠ 0 := by
  have hM := Matrix.diagonal_transpose (![a, b] : Fin 2 → ℝ)
  have h1 := leading_max he hM k ![0, 1] (by simp [Fin.sum_univ_two]) (by
    intro l hl
    have := k.2
    have := l.2
    simp only [Fin.lt_def] at hl
    omega)
  have h2 := congrFun (congrFun (leading_orth he hM 1) k) k
  rw [Matrix.mul_apply, Fin.sum_univ_two, Matrix.one_apply_eq] at h2
  simp only [Matrix.transpose_apply] at h2
  rw [quad_two, quad_two] at h1
  simp only [Matrix.cons_val_zero, Matrix.cons_val_one] at h1
  have h3 : leading eigh (Matrix.diagonal ![a, b]) 1 0 k ^ 2 ≤ 0 := by
    set u := leading eigh (Matrix.diagonal ![a, b]) 1 1 k
    set w := leading eigh (Matrix.diagonal ![a, b]) 1 0 k
    have hu : u ^ 2 = 1 - w ^ 2 := by linarith
    rw [hu] at h1
    have h4 : 0 ≤ (b - a) * (-w ^ 2) := by linarith
    nlinarith [nonneg_of_mul_nonneg_right h4 (sub_pos.mpr hab)]
  have h4 : leading eigh (Matrix.diagonal ![a, b]) 1 0 k = 0 :=
    pow_eq_zero_iff (two_ne_zero) |>.mp (le_antisymm h3 (sq_nonneg _))
  refine ⟨h4, ?_⟩
  intro h0
  rw [h0, h4] at h2
  norm_num at h2

lemma sliceCov_pair (X : Fin n → Fin p → ℝ) (y : Fin n → ℝ) (a : ℝ) {i j : Fin n} (hij : i ≠ j) (h : inSlice y a = {i, j}) :
    sliceCov X y a = Matrix.of fun k l => (X i k - X j k) * (X i l - X j l) / 2 := by
  unfold sliceCov
  have hc : (inSlice y a).card = 2 := by rw [h]; exact Finset.card_pair hij
  rw [if_pos (by rw [hc]; norm_num)]
  ext k l
  simp only [Matrix.of_apply, sliceMean, hc]
  rw [h]
  simp only [Finset.sum_pair hij]
  push_cast
  ring

lemma sliceProb_pair (y : Fin 6 → ℝ) (a : ℝ) {i j : Fin 6} (hij : i ≠ j) (h : inSlice y a = {i, j}) : sliceProb y a = 1 / 3 := by
  unfold sliceProb
  rw [h, Finset.card_pair hij]
  norm_num

/-- Two responses and their slices. -/
def sixY1 : Fin 6 → ℝ := ![0, 1, 2, 4, 3, 5]
def sixY2 : Fin 6 → ℝ := ![2, 4, 0, 1, 3, 5]
def sixS1 : Fin 6 → ℕ := ![1, 1, 2, 3, 2, 3]
def sixS2 : Fin 6 → ℕ := ![2, 3, 1, 1, 2, 3]

lemma sixY1_inj : Function.Injective sixY1 := by
  intro i j h
  fin_cases i <;> fin_cases j <;> simp_all [sixY1]

lemma sixY2_inj : Function.Injective sixY2 := by
  intro i j h
  fin_cases i <;> fin_cases j <;> simp_all [sixY2]

lemma sixY1_sort : sortL (List.ofFn sixY1) = [0, 1, 2, 3, 4, 5] := by
  unfold sortL
  norm_num [sixY1, List.ofFn_succ, List.insertionSort, List.orderedInsert]

lemma sixY2_sort : sortL (List.ofFn sixY2) = [0, 1, 2, 3, 4, 5] := by
  unfold sortL
  norm_num [sixY2, List.ofFn_succ, List.insertionSort, List.orderedInsert]

lemma sixY1_disc : discretize sixY1 3 = .ok sixS1 := by
  rw [discretize_ok _ _ (by norm_num) (by norm_num)]
  congr 1
  funext c
  have h0 : divAt sixY1 3 0 = 2 := by unfold divAt; rw [sixY1_sort]; norm_num
  have h1 : divAt sixY1 3 1 = 4 := by unfold divAt; rw [sixY1_sort]; norm_num
  unfold divCount
  rw [show (3 - 1 : ℕ) = 2 from rfl, Finset.range_add_one, Finset.range_one, Finset.filter_insert, Finset.filter_singleton, h0, h1]
  fin_cases c <;> norm_num [sixY1, sixS1]

lemma sixY2_disc : discretize sixY2 3 = .ok sixS2 := by
  rw [discretize_ok _ _ (by norm_num) (by norm_num)]
  congr 1
  funext c
  have h0 : divAt sixY2 3 0 = 2 := by unfold divAt; rw [sixY2_sort]; norm_num
  have h1 : divAt sixY2 3 1 = 4 := by unfold divAt; rw [sixY2_sort]; norm_num
  unfold divCount
  rw [show (3 - 1 : ℕ) = 2 from rfl, Finset.range_add_one, Finset.range_one, Finset.filter_insert, Finset.filter_singleton, h0, h1]
  fin_cases c <;> norm_num [sixY2, sixS2]

lemma sixS1_labels : sliceLabels (fun c => (sixS1 c : ℝ)) 3 = .ok ![1, 2, 3] := by
  have : yLabels (fun c => (sixS1 c : ℝ)) = .ok [1, 2, 3] := by
    unfold yLabels
    norm_num [sixS1, List.ofFn_succ, labelLoop, varL, meanL]
  unfold sliceLabels
  rw [this]
  dsimp only
  rw [dif_pos (by simp)]
  congr 1
  funext i
  fin_cases i <;> rfl

lemma sixS2_labels : sliceLabels (fun c => (sixS2 c : ℝ)) 3 = .ok ![2, 3, 1] := by
  have : yLabels (fun c => (sixS2 c : ℝ)) = .ok [2, 3, 1] := by
    unfold yLabels
    norm_num [sixS2, List.ofFn_succ, labelLoop, varL, meanL]
  unfold sliceLabels
  rw [this]
  dsimp only
  rw [dif_pos (by simp)]
  congr 1
  funext i
  fin_cases i <;> rfl

lemma mem_inSlice (y : Fin n → ℝ) (a : ℝ) (c : Fin n) : c ∈ inSlice y a ↔ y c = a := by simp [inSlice]

lemma six_save1 {b : ℝ} (hb : b ^ 2 = 5 / 2) : saveMat (sixX b) (fun c => (sixS1 c : ℝ)) ![1, 2, 3] = Matrix.diagonal ![6, 3 / 8] := by
  have h1 : inSlice (fun c => (sixS1 c : ℝ)) 1 = {0, 1} := by ext c; rw [mem_inSlice]; fin_cases c <;> norm_num [sixS1, Fin.ext_iff]
  have h2 : inSlice (fun c => (sixS1 c : ℝ)) 2 = {2, 4} := by ext c; rw [mem_inSlice]; fin_cases c <;> norm_num [sixS1, Fin.ext_iff]
  have h3 : inSlice (fun c => (sixS1 c : ℝ)) 3 = {3, 5} := by ext c; rw [mem_inSlice]; fin_cases c <;> norm_num [sixS1, Fin.ext_iff]
  unfold saveMat
  rw [Fin.sum_univ_three]
  simp only [Matrix.cons_val_zero, Matrix.cons_val_one, Matrix.cons_val]
  rw [sliceCov_pair _ _ _ (by decide) h1, sliceCov_pair _ _ _ (by decide) h2, sliceCov_pair _ _ _ (by decide) h3,
    sliceProb_pair _ _ (by decide) h1, sliceProb_pair _ _ (by decide) h2, sliceProb_pair _ _ (by decide) h3]
  ext k l
  fin_cases k <;> fin_cases l <;> simp [Matrix.mul_apply, Fin.sum_univ_two, sixX, Matrix.one_apply] <;> ring_nf
  · rw [show b ^ 4 = (b ^ 2) ^ 2 by ring, hb]; norm_num
  · rw [show b ^ 4 = (b ^ 2) ^ 2 by ring, hb]; norm_num

lemma six_save2 {b : ℝ} (hb : b ^ 2 = 5 / 2) : saveMat (sixX b) (fun c => (sixS2 c : ℝ)) ![2, 3, 1] = Matrix.diagonal ![3 / 8, 6] := by
  have h1 : inSlice (fun c => (sixS2 c : ℝ)) 2 = {0, 4} := by ext c; rw [mem_inSlice]; fin_cases c <;> norm_num [sixS2, Fin.ext_iff]
  have h2 : inSlice (fun c => (sixS2 c : ℝ)) 3 = {1, 5} := by ext c; rw [mem_inSlice]; fin_cases c <;> norm_num [sixS2, Fin.ext_iff]
  have h3 : inSlice (fun c => (sixS2 c : ℝ)) 1 = {2, 3} := by ext c; rw [mem_inSlice]; fin_cases c <;> norm_num [sixS2, Fin.ext_iff]
  unfold saveMat
  rw [Fin.sum_univ_three]
  simp only [Matrix.cons_val_zero, Matrix.cons_val_one, Matrix.cons_val]
  rw [sliceCov_pair _ _ _ (by decide) h1, sliceCov_pair _ _ _ (by decide) h2, sliceCov_pair _ _ _ (by decide) h3,
    sliceProb_pair _ _ (by decide) h1, sliceProb_pair _ _ (by decide) h2, sliceProb_pair _ _ (by decide) h3]
  ext k l
  fin_cases k <;> fin_cases l <;> simp [Matrix.mul_apply, Fin.sum_univ_two, sixX, Matrix.one_apply] <;> ring_nf
  · rw [show b ^ 4 = (b ^ 2) ^ 2 by ring, hb]; norm_num
  · rw [show b ^ 4 = (b ^ 2) ^ 2 by ring, hb]; norm_num

/-- The scaled data. -/
lemma six_scale (a t : ℝ) (center : Bool) : sdrScale true (sdrCentre center (sixX a)) (t • 1) = sixX (a * t) := by
  rw [sixX_centre]
  funext c j
  simp only [sdrScale, if_true]
  fin_cases c <;> fin_cases j <;> simp [sixX, Fin.sum_univ_two]

/-- SAVE with three slices of the first response is along the first axis, of the second response along the second axis. -/
lemma six_sliced {eigh : Eigh} (he : IsEigh eigh) (center : Bool) : ∃ t : ℝ, 0 < t ∧
    sliceMethod .save eigh (sixX 1) sixY1 3 1 true center true = .ok ((t • (1 : Matrix (Fin 2) (Fin 2) ℝ)) * leading eigh (Matrix.diagonal ![6, 3 / 8]) 1) ∧
    sliceMethod .save eigh (sixX 1) sixY2 3 1 true center true = .ok ((t • (1 : Matrix (Fin 2) (Fin 2) ℝ)) * leading eigh (Matrix.diagonal ![3 / 8, 6]) 1) := by
  have hpos : (0 : ℝ) < 2 * 1 ^ 2 / 5 := by norm_num
  have hroot : sdrRoot eigh true (sixX 1) = .ok ((1 / Real.sqrt (2 * 1 ^ 2 / 5)) • 1) := by
    simp only [sdrRoot, if_true]
    rw [sixX_cov]
    exact invSqrt_const he hpos
  set t := 1 / Real.sqrt (2 * 1 ^ 2 / 5) with ht
  have ht2 : (1 * t) ^ 2 = 5 / 2 := by
    rw [one_mul, ht, div_pow, Real.sq_sqrt hpos.le]
    norm_num
  refine ⟨t, by rw [ht]; positivity, ?_, ?_⟩
  · rw [sliceMethod, if_neg (by norm_num), hroot]
    dsimp only
    simp only [sliceResponse, if_true, sixY1_disc]
    rw [sixS1_labels]
    dsimp only
    rw [if_neg (by norm_num), six_scale, SdrMethod.kernel, six_save1 ht2]
    rfl
  · rw [sliceMethod, if_neg (by norm_num), hroot]
    dsimp only
    simp only [sliceResponse, if_true, sixY2_disc]
    rw [sixS2_labels]
    dsimp only
    rw [if_neg (by norm_num), six_scale, SdrMethod.kernel, six_save2 ht2]
    rfl

/-- C64 is violated: there are data with a continuous response for which the SAVE start directions, with three slices, are not the SAVE directions with three
slices. -/
theorem C64_start_violated (ext : SdExt) (he : IsEigh ext.eigh) : ∃ (pr : SdParams) (q : SdPre 6 2) (y : Fin 6 → ℝ), Function.Injective y ∧
    pr.continuous = true ∧ (∃ B, sdStartMat ext pr .save 3 q y = .ok B) ∧
    sdStartMat ext pr .save 3 q y ≠ sliceMethod .save ext.eigh q.Xs y 3 pr.nComp true pr.scaleData true := by
  set q : SdPre 6 2 := ⟨sixX 1, 1, fun _ => 0, fun _ => 1, false⟩ with hq
  obtain ⟨t, ht, h1, h2⟩ := six_sliced he false
  have hsame := C64_ignores_response_violated ext exParams .save 3 q sixY1 sixY2 sixY1_inj sixY2_inj
  have hok : ∀ y : Fin 6 → ℝ, Function.Injective y → ∃ B, sdStartMat ext exParams .save 3 q y = .ok B := by
    intro y hy
    obtain ⟨B, hB⟩ := six_slice he .save (one_ne_zero) (s := 3) (by norm_num) (by norm_num) 1 false
    rw [C64_ignores_response_violated ext exParams .save 3 q y sixY hy sixY_inj]
    have hB' : sliceMethod .save ext.eigh q.Xs sixY 3 exParams.nComp false exParams.scaleData true = .ok B := hB
    rw [sdStartMat, hB']
    exact ⟨_, rfl⟩
  by_cases hc : sdStartMat ext exParams .save 3 q sixY1 = sliceMethod .save ext.eigh q.Xs sixY1 3 exParams.nComp true exParams.scaleData true
  · refine ⟨exParams, q, sixY2, sixY2_inj, rfl, hok _ sixY2_inj, ?_⟩
    rw [← hsame, hc]
    intro hbad
    have hbad' : sliceMethod .save ext.eigh (sixX 1) sixY1 3 1 true false true = sliceMethod .save ext.eigh (sixX 1) sixY2 3 1 true false true := hbad
    rw [h1, h2] at hbad'
    have e := Except.ok.inj hbad'
    have k : Fin (min 1 2) := ⟨0, by norm_num⟩
    have e1 := congrFun (congrFun e 0) k
    rw [smul_one_mul_apply, smul_one_mul_apply, (leading_snd he (a := 3 / 8) (b := 6) (by norm_num) k).1, mul_zero] at e1
    rcases mul_eq_zero.mp e1 with h | h
    · exact absurd h ht.ne'
    · exact (leading_fst he (by norm_num) k).2 h
  · exact ⟨exParams, q, sixY1, sixY1_inj, rfl, hok _ sixY1_inj, hc⟩

/-- C64 (partial: a response that is declared discrete): the start directions are those of the slicing method for that response, mapped to the scale of the
data. -/
theorem C64_discrete_partial (ext : SdExt) (pr : SdParams) (hd : pr.continuous = false) (m : SdrMethod) (s : ℕ) (q : SdPre n p) (y : Fin n → ℝ) :
    sdStartMat ext pr m s q y = (sliceMethod m ext.eigh q.Xs y s pr.nComp pr.continuous pr.scaleData true).map (sdMapBack pr.scaleData q.N2) := by
  unfold sdStartMat
  rw [hd]
  cases sliceMethod m ext.eigh q.Xs y s pr.nComp false pr.scaleData true <;> rfl

end Direpack
