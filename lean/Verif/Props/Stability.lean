import Mathlib.Algebra.Order.Chebyshev
import Verif.Spec.Stability
import Verif.ScalerLemmas
import Verif.Props.Preproc
import Verif.Snipls

/-!
# C193: locations and scales do not move faster than the data

Rounding the data, or measuring them with a small error, cannot change the locations and scales of the scaler by more than
a fixed multiple of the largest error.
-/

namespace Direpack

open Spec

/-! ### Lists -/

lemma close_count {ε : ℝ} {l l' : List ℝ} (h : Close ε l l') (b : ℝ) :
    l'.countP (fun x => decide (x ≤ b)) ≤ l.countP (fun x => decide (x ≤ b + ε)) := by
  induction h with
  | nil => simp
  | @cons a c l l' hac _ ih =>
    rw [List.countP_cons, List.countP_cons]
    have := (abs_le.1 hac).2
    by_cases hc : c ≤ b
    · have ha : a ≤ b + ε := by linarith
      simp only [hc, ha, decide_true, if_true]; omega
    · simp only [hc, decide_false, Bool.false_eq_true, if_false]
      omega

lemma close_symm {ε : ℝ} {l l' : List ℝ} (h : Close ε l l') : Close ε l' l := by
  induction h with
  | nil => exact .nil
  | cons hac _ ih => exact .cons (by rwa [abs_sub_comm]) ih

lemma close_sort_le {ε : ℝ} {l l' : List ℝ} (h : Close ε l l') {k : ℕ} (hk : k < (sortL l).length)
    (hk' : k < (sortL l').length) : (sortL l)[k] ≤ (sortL l')[k] + ε :=
  sortL_getElem_le_of_count hk (lt_of_lt_of_le (Nat.lt_of_succ_le (count_le_sortL_getElem hk')) (close_count h _))

/-- The sorted data move no more than the data. -/
lemma close_sort {ε : ℝ} {l l' : List ℝ} (h : Close ε l l') : Close ε (sortL l) (sortL l') := by
  have hlen : (sortL l).length = (sortL l').length := by
    rw [sortL_length, sortL_length, List.Forall₂.length_eq h]
  refine List.forall₂_iff_get.2 ⟨hlen, fun k hk hk' => ?_⟩
  have h1 := close_sort_le h hk hk'
  have h2 := close_sort_le (close_symm h) hk' hk
  simp only [List.get_eq_getElem]
  rw [abs_le]
  constructor <;> linarith

lemma close_map {ε δ : ℝ} {l l' : List ℝ} (h : Close ε l l') {f g : ℝ → ℝ}
    (hf : ∀ a b, |a - b| ≤ ε → |f a - g b| ≤ δ) : Close δ (l.map f) (l'.map g) := by
  induction h with
  | nil => exact .nil
  | cons hac _ ih => exact .cons (hf _ _ hac) ih

lemma close_sum {ε : ℝ} {l l' : List ℝ} (h : Close ε l l') : |l.sum - l'.sum| ≤ l.length * ε := by
  induction h with
  | nil => simp
  | @cons a c l l' hac _ ih =>
    simp only [List.sum_cons, List.length_cons, Nat.cast_add, Nat.cast_one]
    rw [abs_le] at *
    constructor <;> linarith [ih.1, ih.2, hac.1, hac.2]

lemma close_mean {ε : ℝ} (hε : 0 ≤ ε) {l l' : List ℝ} (h : Close ε l l') : |meanL l - meanL l'| ≤ ε := by
  unfold meanL
  rw [← List.Forall₂.length_eq h, ← sub_div]
  rcases Nat.eq_zero_or_pos l.length with h0 | h0
  · simp [h0, hε]
  · have hp : (0 : ℝ) < l.length := by exact_mod_cast h0
    rw [abs_div, abs_of_pos hp, div_le_iff₀ hp, mul_comm]
    exact close_sum h

lemma close_med {ε : ℝ} (hε : 0 ≤ ε) {l l' : List ℝ} (h : Close ε l l') : |medL l - medL l'| ≤ ε := by
  have hl := List.Forall₂.length_eq h
  by_cases h0 : l = []
  · subst h0
    have : l' = [] := by rw [← List.length_eq_zero_iff, ← hl]; rfl
    subst this
    simpa using hε
  have h0' : l' ≠ [] := fun h' => h0 (by rw [← List.length_eq_zero_iff, hl, h']; rfl)
  rw [medL_eq h0, medL_eq h0']
  have hs := List.forall₂_iff_get.1 (close_sort h)
  have hpos := List.length_pos_of_ne_nil h0
  have h1 := hs.2 ((l.length - 1) / 2) (by rw [sortL_length]; omega) (by rw [sortL_length]; omega)
  have h2 := hs.2 (l.length / 2) (by rw [sortL_length]; omega) (by rw [sortL_length]; omega)
  simp only [List.get_eq_getElem] at h1 h2
  simp only [← hl]
  rw [abs_le] at *
  constructor <;> linarith [h1.1, h1.2, h2.1, h2.2]

/-- **C193**: the median moves by at most the largest change of an observation. -/
theorem C193_median : MovesAtMost 1 medL := fun ε _ _ hε h => by
  rw [one_mul]; exact close_med hε h

/-- **C193**: the mean moves by at most the largest change of an observation. -/
theorem C193_mean : MovesAtMost 1 meanL := fun ε _ _ hε h => by
  rw [one_mul]; exact close_mean hε h

lemma close_madL {ε : ℝ} (hε : 0 ≤ ε) {l l' : List ℝ} (h : Close ε l l') : |madL l - madL l'| ≤ 2 / madConst * ε := by
  have hm : (0 : ℝ) < madConst := by unfold madConst; norm_num
  have h1 := close_med hε h
  have h2 : Close (2 * ε) (l.map fun v => |v - medL l|) (l'.map fun v => |v - medL l'|) := by
    refine close_map h fun a b hab => ?_
    refine (abs_abs_sub_abs_le _ _).trans ?_
    rw [abs_le] at *
    constructor <;> linarith [h1.1, h1.2, hab.1, hab.2]
  have h3 := close_med (by positivity) h2
  unfold madL
  rw [← sub_div, abs_div, abs_of_pos hm, div_le_iff₀ hm]
  calc _ ≤ 2 * ε := h3
    _ = 2 / madConst * ε * madConst := by field_simp

/-- **C193**: the MAD moves by at most `2/0.6745` times the largest change of an observation. -/
theorem C193_mad : MovesAtMost (2 / madConst) madL := fun _ _ _ hε h => close_madL hε h

/-! ### Trimmed means and standard deviations -/

lemma close_kept {ε : ℝ} {l l' : List ℝ} (h : Close ε l l') (t : ℝ) : Close ε (keptL l t) (keptL l' t) := by
  unfold keptL
  rw [← List.Forall₂.length_eq h]
  exact List.forall₂_take _ (List.forall₂_drop _ (close_sort h))

lemma close_trimmed {ε : ℝ} (hε : 0 ≤ ε) {l l' : List ℝ} (h : Close ε l l') {t a b : ℝ}
    (ha : ofNaN (trimMeanL l t) = .ok a) (hb : ofNaN (trimMeanL l' t) = .ok b) :
    a = meanL (keptL l t) ∧ b = meanL (keptL l' t) ∧ |a - b| ≤ ε := by
  have key : ∀ (l : List ℝ) a, ofNaN (trimMeanL l t) = .ok a → a = meanL (keptL l t) := by
    intro l a ha
    rw [trimMeanL_eq] at ha
    split_ifs at ha
    · simp [ofNaN] at ha
    · simp [ofNaN] at ha
    · simp only [ofNaN, Except.ok.injEq] at ha
      exact ha.symm
  have e1 := key l a ha
  have e2 := key l' b hb
  refine ⟨e1, e2, ?_⟩
  rw [e1, e2]
  exact close_mean hε (close_kept h t)

/-- **C193**: a trimmed mean moves by at most the largest change of an observation. -/
theorem C193_trimmed_mean (t ε : ℝ) (l l' : List ℝ) (hε : 0 ≤ ε) (h : Close ε l l') (a b : ℝ)
    (ha : meanT t l = .ok a) (hb : meanT t l' = .ok b) : |a - b| ≤ ε := by
  unfold meanT at ha hb
  split_ifs at ha hb
  · simp only [Except.ok.injEq] at ha hb
    rw [← ha, ← hb]
    exact close_mean hε h
  · exact (close_trimmed hε h ha hb).2.2

/-- Mean of absolute values against root mean square. -/
lemma meanL_abs_le (l : List ℝ) : meanL (l.map fun v => |v|) ≤ Real.sqrt (meanL (l.map fun v => v ^ 2)) := by
  apply Real.le_sqrt_of_sq_le
  unfold meanL
  rw [List.length_map, List.length_map]
  rcases Nat.eq_zero_or_pos l.length with h0 | h0
  · simp [h0]
  have hp : (0 : ℝ) < l.length := by exact_mod_cast h0
  have e : ∀ f : ℝ → ℝ, (l.map f).sum = ∑ i : Fin l.length, f (l.get i) := by
    intro f
    rw [← List.sum_ofFn, ← List.ofFn_get l]
    simp [List.map_ofFn, Function.comp_def]
  rw [e, e, div_pow, div_le_div_iff₀ (by positivity) hp]
  have := sq_sum_le_card_mul_sum_sq (s := (Finset.univ : Finset (Fin l.length))) (f := fun i => |l.get i|)
  simp only [Finset.card_univ, Fintype.card_fin, sq_abs] at this
  nlinarith

lemma rms_le {δ : ℝ} (hδ : 0 ≤ δ) {l l' : List ℝ} (h : Close δ l l') :
    Real.sqrt (meanL (l.map fun v => v ^ 2)) ≤ Real.sqrt (meanL (l'.map fun v => v ^ 2)) + δ := by
  have hB := Real.sqrt_nonneg (meanL (l'.map fun v => v ^ 2))
  have hnn : 0 ≤ meanL (l'.map fun v => v ^ 2) := by
    unfold meanL
    refine div_nonneg (List.sum_nonneg ?_) (Nat.cast_nonneg _)
    simp only [List.mem_map]
    rintro x ⟨a, _, rfl⟩; positivity
  apply Real.sqrt_le_iff.2
  refine ⟨by positivity, ?_⟩
  have hl := List.Forall₂.length_eq h
  have hsum : (l.map fun v => v ^ 2).sum ≤ (l'.map fun v => v ^ 2).sum + 2 * δ * (l'.map fun v => |v|).sum + l.length * δ ^ 2 := by
    clear hl hnn hB
    induction h with
    | nil => simp
    | @cons a c l l' hac _ ih =>
      simp only [List.map_cons, List.sum_cons, List.length_cons, Nat.cast_add, Nat.cast_one]
      have h1 : |a| ≤ |c| + δ := by
        have := abs_sub_abs_le_abs_sub a c
        linarith
      have h2 : a ^ 2 ≤ c ^ 2 + 2 * δ * |c| + δ ^ 2 := by
        rw [← sq_abs a, ← sq_abs c]
        nlinarith [abs_nonneg a, abs_nonneg c]
      linarith
  have hm := meanL_abs_le l'
  rcases Nat.eq_zero_or_pos l.length with h0 | h0
  · have : l = [] := List.length_eq_zero_iff.1 h0
    subst this
    simp [meanL]; positivity
  have hp : (0 : ℝ) < l.length := by exact_mod_cast h0
  have e1 : meanL (l.map fun v => v ^ 2) ≤ meanL (l'.map fun v => v ^ 2) + 2 * δ * meanL (l'.map fun v => |v|) + δ ^ 2 := by
    unfold meanL
    simp only [List.length_map, ← hl]
    rw [div_le_iff₀ hp]
    calc _ ≤ _ := hsum
      _ = _ := by field_simp
  have hs := Real.mul_self_sqrt hnn
  nlinarith

/-- The root mean square moves no more than the data. -/
lemma close_rms {δ : ℝ} (hδ : 0 ≤ δ) {l l' : List ℝ} (h : Close δ l l') :
    |Real.sqrt (meanL (l.map fun v => v ^ 2)) - Real.sqrt (meanL (l'.map fun v => v ^ 2))| ≤ δ := by
  have h1 := rms_le hδ h
  have h2 := rms_le hδ (close_symm h)
  rw [abs_le]
  constructor <;> linarith

lemma sortL_sq (l : List ℝ) : sortL (l.map fun v => v ^ 2) = (sortL (l.map fun v => |v|)).map fun v => v ^ 2 := by
  have hmono : Monotone fun v : ℝ => max v 0 ^ 2 := by
    intro a b hab
    exact pow_le_pow_left₀ (le_max_right _ _) (max_le_max_right _ hab) 2
  have e1 : (l.map fun v => v ^ 2) = (l.map fun v => |v|).map fun v => max v 0 ^ 2 := by
    rw [List.map_map]
    refine List.map_congr_left fun v _ => ?_
    simp
  rw [e1, sortL_map_mono hmono]
  refine List.map_congr_left fun v hv => ?_
  rw [sortL_mem] at hv
  obtain ⟨a, _, rfl⟩ := List.mem_map.1 hv
  simp

lemma keptL_sq (l : List ℝ) (t : ℝ) : keptL (l.map fun v => v ^ 2) t = (keptL (l.map fun v => |v|) t).map fun v => v ^ 2 := by
  unfold keptL
  rw [sortL_sq, List.length_map, List.length_map, List.map_take, List.map_drop]

/-- **C193**: the standard deviation, trimmed or not, moves by at most twice the largest change of an observation. -/
theorem C193_std (t ε : ℝ) (l l' : List ℝ) (hε : 0 ≤ ε) (h : Close ε l l') (a b : ℝ)
    (ha : stdT Real.sqrt t l = .ok a) (hb : stdT Real.sqrt t l' = .ok b) : |a - b| ≤ 2 * ε := by
  have hshift : ∀ m m' : ℝ, |m - m'| ≤ ε → Close (2 * ε) (l.map fun v => v - m) (l'.map fun v => v - m') := by
    intro m m' hm
    refine close_map h fun a b hab => ?_
    rw [abs_le] at *
    constructor <;> linarith [hm.1, hm.2, hab.1, hab.2]
  unfold stdT at ha hb
  split_ifs at ha hb with ht
  · simp only [Except.ok.injEq] at ha hb
    rw [← ha, ← hb]
    have := close_rms (by positivity) (hshift _ _ (close_mean hε h))
    simpa only [varL, List.map_map, Function.comp_def] using this
  · cases h1 : ofNaN (trimMeanL l t) with
    | error e => simp [h1] at ha
    | ok m =>
      cases h2 : ofNaN (trimMeanL l' t) with
      | error e => simp [h2] at hb
      | ok m' =>
        simp only [h1, h2] at ha hb
        have hc := hshift m m' (close_trimmed hε h h1 h2).2.2
        have hcl := close_map hc (f := fun v => |v|) (g := fun v => |v|) (δ := 2 * ε)
          fun a b hab => (abs_abs_sub_abs_le _ _).trans hab
        have key : ∀ (l : List ℝ) (m v : ℝ), ofNaN (trimMeanL (l.map fun v => (v - m) ^ 2) t) = .ok v →
            Real.sqrt v = Real.sqrt (meanL ((keptL ((l.map fun v => v - m).map fun v => |v|) t).map fun v => v ^ 2)) := by
          intro l m v h3
          rw [← keptL_sq, List.map_map]
          have := (close_trimmed (le_refl (0 : ℝ)) (l := l.map fun v => (v - m) ^ 2) (l' := l.map fun v => (v - m) ^ 2)
            (List.forall₂_same.2 (by simp)) h3 h3).1
          rw [this]; rfl
        cases h3 : ofNaN (trimMeanL (l.map fun v => (v - m) ^ 2) t) with
        | error e => simp [h3] at ha
        | ok v =>
          cases h4 : ofNaN (trimMeanL (l'.map fun v => (v - m') ^ 2) t) with
          | error e => simp [h4] at hb
          | ok v' =>
            simp only [h3, h4, Except.ok.injEq] at ha hb
            rw [← ha, ← hb, key l m v h3, key l' m' v' h4]
            exact close_rms (by positivity) (close_kept hcl t)

/-! ### The scaler -/

lemma close_col {ε : ℝ} {x x' : NDArray ℝ} (h : Close ε x.data x'.data) (n p j : ℕ) :
    Close ε (x.col n p j) (x'.col n p j) := by
  unfold NDArray.col
  have hl := List.Forall₂.length_eq h
  generalize List.range n = is
  induction is with
  | nil => exact .nil
  | cons i is ih =>
    by_cases hi : i * p + j < x.data.length
    · have hi' : i * p + j < x'.data.length := hl ▸ hi
      simp only [List.filterMap_cons, List.getElem?_eq_getElem hi, List.getElem?_eq_getElem hi']
      exact .cons (by simpa using (List.forall₂_iff_get.1 h).2 _ hi hi') ih
    · have hi' : ¬ i * p + j < x'.data.length := hl ▸ hi
      simp only [List.filterMap_cons, List.getElem?_eq_none (not_lt.1 hi), List.getElem?_eq_none (not_lt.1 hi')]
      exact ih

lemma close_mapE {δ : ℝ} {f g : ℕ → Except Err ℝ} {l : List ℕ} {r r' : List ℝ} (h : mapE f l = .ok r) (h' : mapE g l = .ok r')
    (hfg : ∀ j a b, f j = .ok a → g j = .ok b → |a - b| ≤ δ) : Close δ r r' := by
  obtain ⟨e1, k1⟩ := mapE_inv f l r h
  obtain ⟨e2, k2⟩ := mapE_inv g l r' h'
  refine List.forall₂_iff_get.2 ⟨e1.trans e2.symm, fun i hi hi' => ?_⟩
  exact hfg _ _ _ (k1 i (e1 ▸ hi) hi) (k2 i (e1 ▸ hi) hi')

lemma checkInput_close {ε : ℝ} {x x' : NDArray ℝ} (hs : x.shape = x'.shape) (h : Close ε x.data x'.data) {z z' : NDArray ℝ}
    (hz : checkInput x = .ok z) (hz' : checkInput x' = .ok z') : z.shape = z'.shape ∧ Close ε z.data z'.data := by
  have key : ∀ {x z : NDArray ℝ}, checkInput x = .ok z → z.data = x.data := by
    intro x z hz
    unfold checkInput at hz
    rcases hx : x.shape with _ | ⟨a, _ | ⟨b, _ | ⟨c, t⟩⟩⟩ <;> simp only [hx] at hz
    · cases hz
    · split_ifs at hz <;> simp only [Except.ok.injEq] at hz <;> subst hz <;> rfl
    · split_ifs at hz <;> simp only [Except.ok.injEq] at hz <;> subst hz <;> rfl
    · cases hz
  refine ⟨?_, by rw [key hz, key hz']; exact h⟩
  unfold checkInput at hz hz'
  rcases hx : x.shape with _ | ⟨a, _ | ⟨b, _ | ⟨c, t⟩⟩⟩ <;> have hx' := hs.symm.trans hx <;> simp only [hx, hx'] at hz hz'
  · cases hz
  · split_ifs at hz hz' <;> simp only [Except.ok.injEq] at hz hz' <;> subst hz <;> subst hz' <;> simp
  · split_ifs at hz hz' <;> simp only [Except.ok.injEq] at hz hz' <;> subst hz <;> subst hz' <;> simp [hx, hx']
  · cases hz

/-- **C193**: the fitted scaler.  If no entry of the data changes by more than `ε`, no published location changes by more than `ε` and no published scale by more than
`2 ε/0.6745`, for every choice of mean (trimmed or not), median or none, and standard deviation (trimmed or not), MAD or none. -/
theorem C193_fit (c : LocOpt ℝ) (s : ScaOpt ℝ) (t ε : ℝ) (hc : c = .mean ∨ c = .median ∨ c = .noneOpt)
    (hs : s = .std ∨ s = .mad ∨ s = .noneOpt) (x x' : NDArray ℝ) (hsh : x.shape = x'.shape) (hε : 0 ≤ ε)
    (h : Close ε x.data x'.data) (sc sc' : Scaler ℝ) (hf : Scaler.fit c s Real.sqrt t x = .ok sc)
    (hf' : Scaler.fit c s Real.sqrt t x' = .ok sc') :
    Close ε sc.center sc'.center ∧ Close (2 / madConst * ε) sc.scale sc'.scale := by
  unfold Scaler.fit at hf hf'
  cases hz : checkInput x with
  | error e => simp [hz, bind, Except.bind] at hf
  | ok z =>
    cases hz' : checkInput x' with
    | error e => simp [hz', bind, Except.bind] at hf'
    | ok z' =>
      cases ht : checkTrimming t with
      | error e => simp [hz, ht, bind, Except.bind] at hf
      | ok u =>
        obtain ⟨hzs, hzc⟩ := checkInput_close hsh h hz hz'
        simp only [hz, hz', ht, bind, Except.bind] at hf hf'
        rw [← hzs] at hf'
        rcases hx : z.shape with _ | ⟨n, _ | ⟨p, _ | ⟨d, l⟩⟩⟩ <;> simp only [hx] at hf hf'
        · cases hf
        · cases hf
        · cases h1 : c.run t z n p with
          | error e => simp [h1] at hf
          | ok m =>
            cases h1' : c.run t z' n p with
            | error e => simp [h1'] at hf'
            | ok m' =>
              cases h2 : s.run Real.sqrt t z n p with
              | error e => simp [h1, h2] at hf
              | ok v =>
                cases h2' : s.run Real.sqrt t z' n p with
                | error e => simp [h1', h2'] at hf'
                | ok v' =>
                  simp only [h1, h2, h1', h2', Except.ok.injEq] at hf hf'
                  subst hf; subst hf'
                  have hm : (0 : ℝ) < madConst := by unfold madConst; norm_num
                  have hm1 : (madConst : ℝ) ≤ 1 := by unfold madConst; norm_num
                  have h2m : 2 * ε ≤ 2 / madConst * ε := by
                    refine mul_le_mul_of_nonneg_right ?_ hε
                    rw [le_div_iff₀ hm]; linarith
                  constructor
                  · rcases hc with rfl | rfl | rfl
                    · exact close_mapE h1 h1' fun j a b ha hb => C193_trimmed_mean t ε _ _ hε (close_col hzc n p j) a b ha hb
                    · refine close_mapE h1 h1' fun j a b ha hb => ?_
                      simp only [Except.ok.injEq] at ha hb
                      rw [← ha, ← hb]; exact close_med hε (close_col hzc n p j)
                    · simp only [LocOpt.run, Except.ok.injEq] at h1 h1'
                      subst h1; subst h1'
                      exact List.forall₂_same.2 (by simpa using fun _ => hε)
                  · rcases hs with rfl | rfl | rfl
                    · exact close_mapE h2 h2' fun j a b ha hb =>
                        (C193_std t ε _ _ hε (close_col hzc n p j) a b ha hb).trans h2m
                    · refine close_mapE h2 h2' fun j a b ha hb => ?_
                      simp only [Except.ok.injEq] at ha hb
                      rw [← ha, ← hb]; exact close_madL hε (close_col hzc n p j)
                    · simp only [ScaOpt.run, Except.ok.injEq] at h2 h2'
                      subst h2; subst h2'
                      exact List.forall₂_same.2 (by simpa using fun _ => by positivity)
        · cases hf

/-- **C193**: the standardised data.  A standardised value `z` moves by at most `(2 + 3 |z|) ε/s`, where `s` is the scale of the variable. -/
theorem C193_standardised {n p : ℕ} (c : Centre) (s : ScaleOpt) (hc : c = .mean ∨ c = .median) (hs : s = .std ∨ s = .mad) (ε : ℝ)
    (X X' : Fin n → Fin p → ℝ) (h : ∀ i j, |X i j - X' i j| ≤ ε) (i : Fin n) (j : Fin p) (h0 : 0 < s.run X j)
    (h0' : 0 < s.run X' j) :
    |scaleMat X (c.run X) (s.run X) i j - scaleMat X' (c.run X') (s.run X') i j| ≤
      (2 + 3 * |scaleMat X' (c.run X') (s.run X') i j|) * ε / s.run X j := by
  have hε : 0 ≤ ε := (abs_nonneg _).trans (h i j)
  have hcl : Close ε (List.ofFn fun i => X i j) (List.ofFn fun i => X' i j) := by
    refine List.forall₂_iff_get.2 ⟨by simp, fun k hk hk' => ?_⟩
    simpa using h _ j
  have hm : (0 : ℝ) < madConst := by unfold madConst; norm_num
  have h3m : 2 / madConst ≤ (3 : ℝ) := by unfold madConst; norm_num
  have hloc : |c.run X j - c.run X' j| ≤ ε := by
    rcases hc with rfl | rfl
    · exact close_mean hε hcl
    · exact close_med hε hcl
  have hsca : |s.run X j - s.run X' j| ≤ 3 * ε := by
    rcases hs with rfl | rfl
    · refine (C193_std 0 ε _ _ hε hcl _ _ ?_ ?_).trans (by linarith)
      · simp [stdT]; rfl
      · simp [stdT]; rfl
    · exact (close_madL hε hcl).trans (mul_le_mul_of_nonneg_right h3m hε)
  set m := c.run X j
  set m' := c.run X' j
  set v := s.run X j
  set v' := s.run X' j
  have e1 : scaleMat X (c.run X) (s.run X) i j = (X i j - m) / v := by simp [scaleMat, m, v, h0.ne']
  have e2 : scaleMat X' (c.run X') (s.run X') i j = (X' i j - m') / v' := by simp [scaleMat, m', v', h0'.ne']
  rw [e1, e2]
  set z := (X' i j - m') / v' with hz
  have hzv : X' i j - m' = z * v' := by rw [hz]; field_simp
  have e3 : (X i j - m) / v - z = ((X i j - X' i j) - (m - m') - z * (v - v')) / v := by
    rw [eq_div_iff h0.ne', sub_mul, div_mul_cancel₀ _ h0.ne']
    linarith
  rw [e3, abs_div, abs_of_pos h0]
  refine div_le_div_of_nonneg_right ?_ h0.le
  have a1 := abs_sub (X i j - X' i j - (m - m')) (z * (v - v'))
  have a2 := abs_sub (X i j - X' i j) (m - m')
  have a3 : |z * (v - v')| ≤ |z| * (3 * ε) := by
    rw [abs_mul]; exact mul_le_mul_of_nonneg_left hsca (abs_nonneg _)
  have := h i j
  nlinarith

/-- Non-vacuity: data rounded to one decimal; the median and the MAD move by no more than the rounding error allows. -/
example : Close (1 / 20) [1.04, 2.46, -3.21] [1, 2.5, -3.2] ∧ |medL [(1.04 : ℝ), 2.46, -3.21] - medL [1, 2.5, -3.2]| ≤ 1 / 20 := by
  have h : Close (1 / 20) [1.04, 2.46, -3.21] [1, 2.5, -3.2] := by
    refine .cons ?_ (.cons ?_ (.cons ?_ .nil)) <;> norm_num [abs_le]
  exact ⟨h, by simpa using C193_median _ _ _ (by norm_num) h⟩

end Direpack
