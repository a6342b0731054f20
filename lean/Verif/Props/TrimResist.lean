import Mathlib.Tactic.Linarith
import Mathlib.Tactic.Positivity
import Verif.Props.DicomoDist2
import Verif.Props.Dicomo

/-! Property C173: trimming protects the moments and co-moments of `dicomo` against outliers. -/

set_option linter.unusedSectionVars false

namespace Direpack

open scoped BigOperators
open Spec

variable {n p q : ℕ}

/-- All cases except at most `k` have `x` between `lo` and `hi` and `y` between `lo'` and `hi'`; nothing is said about the others. -/
def Spec.CleanExcept (k : ℕ) (lo hi lo' hi' : ℝ) (x y : Fin n → ℝ) : Prop :=
  ∃ G : Finset (Fin n), n ≤ G.card + k ∧ ∀ i ∈ G, (lo ≤ x i ∧ x i ≤ hi) ∧ lo' ≤ y i ∧ y i ≤ hi'

/-! ### Trimmed means -/

/-- A trimmed mean lies between two bounds if no more values than are cut on either side lie outside. -/
lemma meanT_resist {l : List ℝ} {t m lo hi : ℝ} (hl : l ≠ []) (h : meanT t l = .ok m)
    (hc : l.length ≤ l.countP (fun v => decide (lo ≤ v ∧ v ≤ hi)) + ⌊t * l.length⌋₊) : lo ≤ m ∧ m ≤ hi := by
  have havg : ∀ k : List ℝ, k ≠ [] → (∀ v ∈ k, lo ≤ v ∧ v ≤ hi) → lo ≤ k.sum / k.length ∧ k.sum / k.length ≤ hi := by
    intro k hk hv
    have hpos : (0 : ℝ) < k.length := by exact_mod_cast List.length_pos_iff.mpr hk
    constructor
    · rw [le_div_iff₀ hpos, mul_comm, ← nsmul_eq_mul]
      exact List.card_nsmul_le_sum _ _ fun v h => (hv v h).1
    · rw [div_le_iff₀ hpos, mul_comm, ← nsmul_eq_mul]
      exact List.sum_le_card_nsmul _ _ fun v h => (hv v h).2
  by_cases ht : t = 0
  · subst ht
    simp only [zero_mul, Nat.floor_zero, add_zero] at hc
    have h1 := List.countP_eq_length.mp (le_antisymm List.countP_le_length hc)
    simp only [meanT, if_true, Except.ok.injEq] at h
    rw [← h]
    exact havg l hl fun v hv => by simpa using h1 v hv
  · obtain ⟨lowest, kept, highest, hp, hs, h1, h2, hk, rfl, -⟩ := C11_trim_value l t m ht h
    refine havg kept hk fun v hv => ?_
    have hlen := hp.length_eq
    have hcount := hp.countP_eq (fun v => decide (lo ≤ v ∧ v ≤ hi))
    simp only [List.length_append, List.countP_append] at hlen hcount
    rw [List.pairwise_append] at hs
    obtain ⟨hs1, hs2, hs3⟩ := hs
    rw [List.pairwise_append] at hs1
    have hkl : kept.countP (fun v => decide (lo ≤ v ∧ v ≤ hi)) + 1 ≤ kept.length ∨ (lo ≤ v ∧ v ≤ hi) := by
      by_cases hv' : lo ≤ v ∧ v ≤ hi
      · exact .inr hv'
      · left
        rw [Nat.succ_le_iff]
        refine lt_of_le_of_ne List.countP_le_length fun he => hv' ?_
        simpa using List.countP_eq_length.mp he v hv
    have hle1 := List.countP_le_length (p := fun v : ℝ => decide (lo ≤ v ∧ v ≤ hi)) (l := lowest)
    have hle2 := List.countP_le_length (p := fun v : ℝ => decide (lo ≤ v ∧ v ≤ hi)) (l := highest)
    rcases hkl with hkl | hkl
    · by_contra hcon
      rw [not_and_or, not_le, not_le] at hcon
      rcases hcon with hcon | hcon
      · have h0 : lowest.countP (fun v => decide (lo ≤ v ∧ v ≤ hi)) = 0 := by
          rw [List.countP_eq_zero]
          intro u hu
          have := hs1.2.2 u hu v hv
          simp only [decide_eq_true_eq, not_and_or, not_le]
          left; linarith
        omega
      · have h0 : highest.countP (fun v => decide (lo ≤ v ∧ v ≤ hi)) = 0 := by
          rw [List.countP_eq_zero]
          intro u hu
          have := hs3 v (List.mem_append_right _ hv) u hu
          simp only [decide_eq_true_eq, not_and_or, not_le]
          right; linarith
        omega
    · exact hkl

lemma countP_ofFn_ge (f : Fin n → ℝ) (P : ℝ → Bool) (G : Finset (Fin n)) (hG : ∀ i ∈ G, P (f i) = true) : G.card ≤ (List.ofFn f).countP P := by
  have : (List.ofFn f).countP P = (Finset.univ.filter fun i => P (f i) = true).card := by
    rw [List.ofFn_eq_map, List.countP_map, List.countP_eq_length_filter]
    rw [← List.toFinset_card_of_nodup ((List.nodup_finRange n).filter _)]
    congr 1
    ext i; simp
  rw [this]
  exact Finset.card_le_card fun i hi => by simp [hG i hi]

lemma countP_flat_ge (a : Fin n → Fin n → ℝ) (P : ℝ → Bool) (G : Finset (Fin n)) (hG : ∀ i ∈ G, ∀ j ∈ G, P (a i j) = true) : G.card ^ 2 ≤ (flat a).countP P := by
  have h1 : ∀ i, i ∈ G → G.card ≤ ((List.finRange n).map fun j => a i j).countP P := fun i hi => by
    rw [← List.ofFn_eq_map]
    exact countP_ofFn_ge _ _ _ fun j hj => hG i hi j hj
  unfold flat
  rw [List.countP_flatMap]
  have h2 : ((List.finRange n).map (List.countP P ∘ fun i => (List.finRange n).map fun j => a i j)).sum = ∑ i, ((List.finRange n).map fun j => a i j).countP P := by
    rw [← List.ofFn_eq_map, List.sum_ofFn]
    rfl
  rw [h2, sq]
  calc G.card * G.card = ∑ _i ∈ G, G.card := by simp
    _ ≤ ∑ i ∈ G, ((List.finRange n).map fun j => a i j).countP P := Finset.sum_le_sum h1
    _ ≤ _ := Finset.sum_le_sum_of_subset (Finset.subset_univ G)

/-- The trimmed mean of a column. -/
lemma meanT_col {x : Fin n → ℝ} {t m lo hi : ℝ} (hn : 0 < n) (h : meanT t (List.ofFn x) = .ok m) (G : Finset (Fin n)) (hG : n ≤ G.card + ⌊t * n⌋₊)
    (hx : ∀ i ∈ G, lo ≤ x i ∧ x i ≤ hi) : lo ≤ m ∧ m ≤ hi := by
  refine meanT_resist (fun h0 => ?_) h ?_
  · have := congrArg List.length h0; simp at this; omega
  · have := countP_ofFn_ge x (fun v => decide (lo ≤ v ∧ v ≤ hi)) G fun i hi => by simpa using hx i hi
    rw [List.length_ofFn]
    omega

/-- The trimmed mean of the entries of a matrix. -/
lemma meanT_flat {a : Fin n → Fin n → ℝ} {t m lo hi : ℝ} (hn : 0 < n) (h : meanT t (flat a) = .ok m) (G : Finset (Fin n)) (hG : n ^ 2 ≤ G.card ^ 2 + ⌊t * (n : ℝ) ^ 2⌋₊)
    (hx : ∀ i ∈ G, ∀ j ∈ G, lo ≤ a i j ∧ a i j ≤ hi) : lo ≤ m ∧ m ≤ hi := by
  refine meanT_resist (flat_ne_nil hn a) h ?_
  have := countP_flat_ge a (fun v => decide (lo ≤ v ∧ v ≤ hi)) G fun i hi j hj => by simpa using hx i hi j hj
  rw [flat_length]
  push_cast
  omega

/-! ### Product moments -/

lemma momMean_bound {x y : Fin n → ℝ} {s1 s2 order : ℕ} {t : ℝ} {b : Bool} {lo hi lo' hi' v : ℝ} (hn : 0 < n) (h : momMean x y s1 s2 order t b = .ok v)
    (hc : CleanExcept ⌊t * n⌋₊ lo hi lo' hi' x y) :
    ∃ c, v = c * momFactor n t order b ∧ |c| ≤ (hi - lo) ^ s1 * (hi' - lo') ^ s2 ∧ ((∀ i, x i = y i) → s1 = 1 → s2 = 1 → 0 ≤ c) := by
  obtain ⟨G, hG, hx⟩ := hc
  unfold momMean at h
  simp only [bind, Except.bind] at h
  cases h1 : meanT t (List.ofFn x) with
  | error e => rw [h1] at h; cases h
  | ok mx =>
    cases h2 : meanT t (List.ofFn y) with
    | error e => rw [h1, h2] at h; cases h
    | ok my =>
      rw [h1, h2] at h
      simp only at h
      cases h3 : meanT t (List.ofFn fun i => (x i - mx) ^ s1 * (y i - my) ^ s2) with
      | error e => rw [h3] at h; cases h
      | ok c =>
        rw [h3] at h
        simp only [Except.ok.injEq] at h
        have bx := meanT_col hn h1 G hG fun i hi => (hx i hi).1
        have by' := meanT_col hn h2 G hG fun i hi => (hx i hi).2
        refine ⟨c, h.symm, ?_, fun he e1 e2 => ?_⟩
        · have hb : ∀ i ∈ G, |(x i - mx) ^ s1 * (y i - my) ^ s2| ≤ (hi - lo) ^ s1 * (hi' - lo') ^ s2 := fun i hiG => by
            obtain ⟨⟨k1, k2⟩, k3, k4⟩ := hx i hiG
            rw [abs_mul, abs_pow, abs_pow]
            have a1 : |x i - mx| ≤ hi - lo := abs_le.mpr ⟨by linarith [bx.1, bx.2], by linarith [bx.1, bx.2]⟩
            have a2 : |y i - my| ≤ hi' - lo' := abs_le.mpr ⟨by linarith [by'.1, by'.2], by linarith [by'.1, by'.2]⟩
            exact mul_le_mul (pow_le_pow_left₀ (abs_nonneg _) a1 _) (pow_le_pow_left₀ (abs_nonneg _) a2 _) (by positivity)
              (pow_nonneg ((abs_nonneg _).trans a1) _)
          have := meanT_col hn h3 G hG fun i hi => abs_le.mp (hb i hi)
          exact abs_le.mpr this
        · subst e1 e2
          have hxy : x = y := funext he
          subst hxy
          obtain rfl : mx = my := by rw [h1] at h2; exact Except.ok.inj h2
          simp only [pow_one] at h3
          by_cases ht : t = 0
          · subst ht
            simp only [meanT, if_true, Except.ok.injEq, meanL] at h3
            rw [← h3]
            refine div_nonneg (List.sum_nonneg fun v hv => ?_) (Nat.cast_nonneg _)
            rw [List.mem_ofFn] at hv
            obtain ⟨i, rfl⟩ := hv
            exact mul_self_nonneg _
          · obtain ⟨lowest, kept, highest, hp, -, -, -, -, hk, -⟩ := C11_trim_value _ t c ht h3
            rw [hk]
            refine div_nonneg (List.sum_nonneg fun v hv => ?_) (Nat.cast_nonneg _)
            have : v ∈ List.ofFn fun i => (x i - mx) * (x i - mx) := hp.subset (by simp [hv])
            rw [List.mem_ofFn] at this
            obtain ⟨i, rfl⟩ := this
            exact mul_self_nonneg _

lemma trimMom_bound (order : ℕ) (t : ℝ) (opt : ℕ) (b : Bool) (lo hi lo' hi' : ℝ) (hn : 0 < n) :
    ∃ B, ∀ (x y : Fin n → ℝ) (v : ℝ), CleanExcept ⌊t * n⌋₊ lo hi lo' hi' x y → trimMom .mean x y order t opt b = .ok v → |v| ≤ B := by
  by_cases h0 : order = 0
  · exact ⟨0, fun x y v _ h => by simp [trimMom, h0] at h⟩
  by_cases h1 : order = 1
  · refine ⟨max |lo| |hi|, fun x y v hc h => ?_⟩
    subst h1
    simp only [trimMom, one_ne_zero, if_false, if_true] at h
    obtain ⟨G, hG, hx⟩ := hc
    have := meanT_col hn h G hG fun i hi => (hx i hi).1
    exact abs_le_max_abs_abs this.1 this.2
  · refine ⟨|hi - lo| ^ (if 2 < order then order - opt else 1) * |hi' - lo'| ^ (if 2 < order then opt else 1) * |momFactor n t order b|, fun x y v hc h => ?_⟩
    simp only [trimMom, h0, h1, if_false] at h
    obtain ⟨c, rfl, hb, -⟩ := momMean_bound hn h hc
    rw [abs_mul]
    refine mul_le_mul_of_nonneg_right (hb.trans ?_) (abs_nonneg _)
    rw [← abs_pow, ← abs_pow, ← abs_mul]
    exact le_abs_self _

/-- **C173.** The moments and co-moments of a fit with mean centring and trimming fraction `t` are bounded by a number that depends only on the settings and on the bounds of the
clean cases, whatever the values of up to `int(t n)` cases are. -/
theorem C173_arithmetic (m : Mode) (hm : m = .mom ∨ m = .var ∨ m = .com ∨ m = .cov) (a : FitArgs) (lo hi lo' hi' : ℝ) (hn : 0 < n) :
    ∃ B, ∀ (x y : Fin n → ℝ) (v : ℝ), CleanExcept ⌊a.trimming * n⌋₊ lo hi lo' hi' x y → run .arithmetic m .mean a (colMat x) (colMat y) = .ok v → |v| ≤ B := by
  have hxx : ∀ x y : Fin n → ℝ, CleanExcept ⌊a.trimming * n⌋₊ lo hi lo' hi' x y → CleanExcept ⌊a.trimming * n⌋₊ lo hi lo hi x x :=
    fun x y ⟨G, h1, h2⟩ => ⟨G, h1, fun i hi => ⟨(h2 i hi).1, (h2 i hi).1⟩⟩
  have hmom : m = .mom ∨ m = .var → ∃ B, ∀ (x y : Fin n → ℝ) (v : ℝ), CleanExcept ⌊a.trimming * n⌋₊ lo hi lo' hi' x y →
      run .arithmetic m .mean a (colMat x) (colMat y) = .ok v → |v| ≤ B := fun hm => by
    obtain ⟨B, hB⟩ := trimMom_bound (n := n) (modeTable m a.order).2 a.trimming (if 2 < (modeTable m a.order).2 then a.option else 0) a.biascorr lo hi lo hi hn
    refine ⟨B, fun x y v hc h => ?_⟩
    rw [run_mom hn m hm] at h
    exact hB x x v (hxx x y hc) h
  have hcom : m = .com ∨ m = .cov → ∃ B, ∀ (x y : Fin n → ℝ) (v : ℝ), CleanExcept ⌊a.trimming * n⌋₊ lo hi lo' hi' x y →
      run .arithmetic m .mean a (colMat x) (colMat y) = .ok v → |v| ≤ B := fun hm => by
    obtain ⟨B, hB⟩ := trimMom_bound (n := n) (modeTable m a.order).2 a.trimming (if 2 < (modeTable m a.order).2 then a.option else 0) a.biascorr lo hi lo' hi' hn
    refine ⟨B + B * |((pyRound (n * (1 - a.trimming)) : ℤ) : ℝ)|, fun x y v hc h => ?_⟩
    rw [run_com hn m hm] at h
    cases h1 : trimMom .mean x y (modeTable m a.order).2 a.trimming (if 2 < (modeTable m a.order).2 then a.option else 0) a.biascorr with
    | error e => rw [h1] at h; cases h
    | ok w =>
      rw [h1] at h
      simp only [Except.map, Except.ok.injEq] at h
      have hw := hB x y w hc h1
      have h0 := (abs_nonneg w).trans hw
      rw [← h]
      split_ifs
      · rw [abs_mul]
        nlinarith [abs_nonneg (((pyRound (n * (1 - a.trimming)) : ℤ) : ℝ)), mul_le_mul_of_nonneg_right hw (abs_nonneg (((pyRound (n * (1 - a.trimming)) : ℤ) : ℝ)))]
      · nlinarith [mul_nonneg h0 (abs_nonneg (((pyRound (n * (1 - a.trimming)) : ℤ) : ℝ)))]
  rcases hm with h | h | h | h
  · exact hmom (.inl h)
  · exact hmom (.inr h)
  · exact hcom (.inl h)
  · exact hcom (.inr h)

/-- **C173.** The trimmed location lies in the range of the clean cases, and the trimmed variance (without small sample correction) is at most the square of the width of that range. -/
theorem C173_values (a : FitArgs) (hb : a.biascorr = false) (lo hi : ℝ) (hn : 0 < n) (x y : Fin n → ℝ) (hc : CleanExcept ⌊a.trimming * n⌋₊ lo hi lo hi x x) :
    (∀ v, a.order = 1 → run .arithmetic .mom .mean a (colMat x) (colMat y) = .ok v → lo ≤ v ∧ v ≤ hi) ∧
      ∀ v, run .arithmetic .var .mean a (colMat x) (colMat y) = .ok v → 0 ≤ v ∧ v ≤ (hi - lo) ^ 2 := by
  constructor
  · intro v ho h
    rw [run_momk hn, ho] at h
    simp only [trimMom, one_ne_zero, if_false, if_true] at h
    obtain ⟨G, hG, hx⟩ := hc
    exact meanT_col hn h G hG fun i hi => (hx i hi).1
  · intro v h
    rw [run_var hn] at h
    simp only [trimMom, OfNat.ofNat_ne_zero, OfNat.ofNat_ne_one, if_false, lt_irrefl] at h
    obtain ⟨c, rfl, h1, h2⟩ := momMean_bound hn h hc
    rw [hb]
    simp only [momFactor, Bool.false_eq_true, if_false, mul_one]
    refine ⟨h2 (fun _ => rfl) rfl rfl, (le_abs_self c).trans (h1.trans (le_of_eq (by ring)))⟩

/-! ### Medians -/

lemma med_clean {x : Fin n → ℝ} {G : Finset (Fin n)} {k : ℕ} {lo hi : ℝ} (hk : 2 * k < n) (hG : n ≤ G.card + k) (hx : ∀ i ∈ G, lo ≤ x i ∧ x i ≤ hi) :
    lo ≤ med x ∧ med x ≤ hi := C06_median_breakdown x G (by omega) lo hi hx

lemma momMedian_bound (s1 s2 order : ℕ) {k : ℕ} (hk : 2 * k < n) (lo hi lo' hi' : ℝ) :
    ∃ B, ∀ x y : Fin n → ℝ, CleanExcept k lo hi lo' hi' x y → |momMedian x y s1 s2 order| ≤ B := by
  refine ⟨(|hi - lo| ^ s1 * |hi' - lo'| ^ s2) ^ ((1 : ℝ) / order) * 2 + |hi - lo| ^ s1 * |hi' - lo'| ^ s2, fun x y ⟨G, hG, hx⟩ => ?_⟩
  have bx := med_clean hk hG fun i hi => (hx i hi).1
  have by' := med_clean hk hG fun i hi => (hx i hi).2
  have hb : ∀ i ∈ G, |x i - med x| ^ s1 * |y i - med y| ^ s2 ≤ |hi - lo| ^ s1 * |hi' - lo'| ^ s2 := fun i hiG => by
    obtain ⟨⟨k1, k2⟩, k3, k4⟩ := hx i hiG
    have a1 : |x i - med x| ≤ |hi - lo| := (abs_le.mpr ⟨by linarith [bx.1, bx.2], by linarith [bx.1, bx.2]⟩ : |x i - med x| ≤ hi - lo).trans (le_abs_self _)
    have a2 : |y i - med y| ≤ |hi' - lo'| := (abs_le.mpr ⟨by linarith [by'.1, by'.2], by linarith [by'.1, by'.2]⟩ : |y i - med y| ≤ hi' - lo').trans (le_abs_self _)
    exact mul_le_mul (pow_le_pow_left₀ (abs_nonneg _) a1 _) (pow_le_pow_left₀ (abs_nonneg _) a2 _) (by positivity) (by positivity)
  have h0 : (0 : ℝ) ≤ |hi - lo| ^ s1 * |hi' - lo'| ^ s2 := by positivity
  have h0' : (0 : ℝ) ≤ (|hi - lo| ^ s1 * |hi' - lo'| ^ s2) ^ ((1 : ℝ) / order) := Real.rpow_nonneg h0 _
  unfold momMedian
  split_ifs with he h2
  · have := med_clean (x := fun i => (|x i - med x| ^ s1 * |y i - med y| ^ s2) ^ ((1 : ℝ) / order)) hk hG (lo := 0)
      (hi := (|hi - lo| ^ s1 * |hi' - lo'| ^ s2) ^ ((1 : ℝ) / order)) fun i hiG =>
        ⟨Real.rpow_nonneg (by positivity) _, Real.rpow_le_rpow (by positivity) (hb i hiG) (by positivity)⟩
    rw [abs_of_nonneg (mul_nonneg this.1 (by norm_num))]
    linarith [this.2]
  · have := med_clean (x := fun i => (|x i - med x| ^ s1 * |y i - med y| ^ s2) ^ ((1 : ℝ) / order)) hk hG (lo := 0)
      (hi := (|hi - lo| ^ s1 * |hi' - lo'| ^ s2) ^ ((1 : ℝ) / order)) fun i hiG =>
        ⟨Real.rpow_nonneg (by positivity) _, Real.rpow_le_rpow (by positivity) (hb i hiG) (by positivity)⟩
    rw [mul_one, abs_of_nonneg this.1]
    linarith [this.2]
  · have := med_clean (x := fun i => (x i - med x) ^ s1 * (y i - med y) ^ s2) hk hG (lo := -(|hi - lo| ^ s1 * |hi' - lo'| ^ s2))
      (hi := |hi - lo| ^ s1 * |hi' - lo'| ^ s2) fun i hiG => abs_le.mp (by rw [abs_mul, abs_pow, abs_pow]; exact hb i hiG)
    have h3 := abs_le.mpr this
    linarith

/-- **C173.** With median centring the moments and co-moments are bounded in the same way as long as fewer than half of the cases are arbitrary. -/
theorem C173_median (m : Mode) (hm : m = .mom ∨ m = .var ∨ m = .com ∨ m = .cov) (a : FitArgs) (lo hi lo' hi' : ℝ) {k : ℕ} (hk : 2 * k < n) :
    ∃ B, ∀ (x y : Fin n → ℝ) (v : ℝ), CleanExcept k lo hi lo' hi' x y → run .arithmetic m .median a (colMat x) (colMat y) = .ok v → |v| ≤ B := by
  have hn : 0 < n := by omega
  have key : ∀ (order opt : ℕ) (l h l' h' : ℝ), ∃ B, ∀ (x y : Fin n → ℝ) (v : ℝ), CleanExcept k l h l' h' x y →
      trimMom .median x y order a.trimming opt a.biascorr = .ok v → |v| ≤ B := by
    intro order opt l h l' h'
    by_cases h0 : order = 0
    · exact ⟨0, fun x y v _ h => by simp [trimMom, h0] at h⟩
    by_cases h1 : order = 1
    · refine ⟨max |l| |h|, fun x y v hc hv => ?_⟩
      subst h1
      simp only [trimMom, one_ne_zero, if_false, if_true] at hv
      split at hv
      · obtain ⟨G, hG, hx⟩ := hc
        have := med_clean hk hG fun i hi => (hx i hi).1
        rw [← Except.ok.inj hv]
        exact abs_le_max_abs_abs this.1 this.2
      · cases hv
    · obtain ⟨B, hB⟩ := momMedian_bound (n := n) (if 2 < order then order - opt else 1) (if 2 < order then opt else 1) order hk l h l' h'
      refine ⟨B, fun x y v hc hv => ?_⟩
      simp only [trimMom, h0, h1, if_false, Except.ok.injEq] at hv
      rw [← hv]
      exact hB x y hc
  have hxx : ∀ x y : Fin n → ℝ, CleanExcept k lo hi lo' hi' x y → CleanExcept k lo hi lo hi x x :=
    fun x y ⟨G, h1, h2⟩ => ⟨G, h1, fun i hi => ⟨(h2 i hi).1, (h2 i hi).1⟩⟩
  have hmom : m = .mom ∨ m = .var → ∃ B, ∀ (x y : Fin n → ℝ) (v : ℝ), CleanExcept k lo hi lo' hi' x y →
      run .arithmetic m .median a (colMat x) (colMat y) = .ok v → |v| ≤ B := fun hm => by
    obtain ⟨B, hB⟩ := key (modeTable m a.order).2 (if 2 < (modeTable m a.order).2 then a.option else 0) lo hi lo hi
    refine ⟨B, fun x y v hc h => ?_⟩
    rw [run_mom hn m hm] at h
    exact hB x x v (hxx x y hc) h
  have hcom : m = .com ∨ m = .cov → ∃ B, ∀ (x y : Fin n → ℝ) (v : ℝ), CleanExcept k lo hi lo' hi' x y →
      run .arithmetic m .median a (colMat x) (colMat y) = .ok v → |v| ≤ B := fun hm => by
    obtain ⟨B, hB⟩ := key (modeTable m a.order).2 (if 2 < (modeTable m a.order).2 then a.option else 0) lo hi lo' hi'
    refine ⟨B + B * |((pyRound (n * (1 - a.trimming)) : ℤ) : ℝ)|, fun x y v hc h => ?_⟩
    rw [run_com hn m hm] at h
    cases h1 : trimMom .median x y (modeTable m a.order).2 a.trimming (if 2 < (modeTable m a.order).2 then a.option else 0) a.biascorr with
    | error e => rw [h1] at h; cases h
    | ok w =>
      rw [h1] at h
      simp only [Except.map, Except.ok.injEq] at h
      have hw := hB x y w hc h1
      have h0 := (abs_nonneg w).trans hw
      rw [← h]
      split_ifs
      · rw [abs_mul]
        nlinarith [abs_nonneg (((pyRound (n * (1 - a.trimming)) : ℤ) : ℝ)), mul_le_mul_of_nonneg_right hw (abs_nonneg (((pyRound (n * (1 - a.trimming)) : ℤ) : ℝ)))]
      · nlinarith [mul_nonneg h0 (abs_nonneg (((pyRound (n * (1 - a.trimming)) : ℤ) : ℝ)))]
  rcases hm with h | h | h | h
  · exact hmom (.inl h)
  · exact hmom (.inr h)
  · exact hcom (.inl h)
  · exact hcom (.inr h)

/-! ### Distances -/

/-- All cases except at most `k` have all predictors between `-A` and `A` and all responses between `-B` and `B`. -/
def Spec.CleanRowsExcept (k : ℕ) (A B : ℝ) (x : Fin n → Fin p → ℝ) (y : Fin n → Fin q → ℝ) : Prop :=
  ∃ G : Finset (Fin n), n ≤ G.card + k ∧ ∀ i ∈ G, (∀ j, |x i j| ≤ A) ∧ ∀ j, |y i j| ≤ B

lemma edist_bound {x : Fin n → Fin p → ℝ} {A : ℝ} {i k : Fin n} (hi : ∀ j, |x i j| ≤ A) (hk : ∀ j, |x k j| ≤ A) : 0 ≤ edist x i k ∧ edist x i k ≤ Real.sqrt (p * (2 * A) ^ 2) := by
  refine ⟨Real.sqrt_nonneg _, Real.sqrt_le_sqrt ?_⟩
  calc ∑ j, (x i j - x k j) ^ 2 ≤ ∑ _j : Fin p, (2 * A) ^ 2 := Finset.sum_le_sum fun j _ => by
        have h1 := abs_le.mp (hi j)
        have h2 := abs_le.mp (hk j)
        exact sq_le_sq' (by linarith) (by linarith)
    _ = p * (2 * A) ^ 2 := by simp

/-- If the pairs of cases that involve an outlier are not more than what is cut on either side, so are the outliers. -/
lemma pairs_cases {g : ℕ} {t : ℝ} (hg : g ≤ n) (hn : 0 < n) (h : n ^ 2 ≤ g ^ 2 + ⌊t * (n : ℝ) ^ 2⌋₊) : n ≤ g + ⌊t * n⌋₊ := by
  by_cases h0 : n = g
  · omega
  have hlt : g < n := by omega
  have hpos : 0 < ⌊t * (n : ℝ) ^ 2⌋₊ := by nlinarith
  have h1 : ((⌊t * (n : ℝ) ^ 2⌋₊ : ℕ) : ℝ) ≤ t * (n : ℝ) ^ 2 := Nat.floor_le (by
    by_contra hc
    rw [not_le] at hc
    rw [Nat.floor_of_nonpos hc.le] at hpos
    omega)
  obtain ⟨k, rfl⟩ : ∃ k, n = g + k := ⟨n - g, by omega⟩
  have h2 : (((g + k : ℕ) : ℝ)) ^ 2 ≤ (g : ℝ) ^ 2 + ⌊t * (((g + k : ℕ) : ℝ)) ^ 2⌋₊ := by exact_mod_cast h
  have hnp : (0 : ℝ) < ((g + k : ℕ) : ℝ) := by exact_mod_cast hn
  have h3 : (k : ℝ) * ((g + k : ℕ) : ℝ) ≤ t * (((g + k : ℕ) : ℝ)) * ((g + k : ℕ) : ℝ) := by
    have : (k : ℝ) * ((g + k : ℕ) : ℝ) ≤ (((g + k : ℕ) : ℝ)) ^ 2 - (g : ℝ) ^ 2 := by
      push_cast
      nlinarith [mul_nonneg (Nat.cast_nonneg (α := ℝ) k) (Nat.cast_nonneg (α := ℝ) g)]
    nlinarith
  have h4 : (k : ℝ) ≤ t * ((g + k : ℕ) : ℝ) := le_of_mul_le_mul_right h3 hnp
  have := Nat.le_floor h4
  omega

/-- The centred distances of the clean cases are bounded. -/
lemma doubleCenter_bound {t : ℝ} {b : Bool} {a A : Fin n → Fin n → ℝ} {n1 D : ℝ} (hn : 0 < n) (ha : ∀ i j, a i j = a j i) (h : doubleCenter .mean t b a = .ok (A, n1))
    (G : Finset (Fin n)) (hG : n ^ 2 ≤ G.card ^ 2 + ⌊t * (n : ℝ) ^ 2⌋₊) (hb : ∀ i ∈ G, ∀ j ∈ G, 0 ≤ a i j ∧ a i j ≤ D) {i j : Fin n} (hi : i ∈ G) (hj : j ∈ G) :
    |A i j| ≤ 4 * D * (1 + |((pyRound (n * (1 - t)) : ℤ) : ℝ) / (((pyRound (n * (1 - t)) : ℤ) : ℝ) - 2)| +
      |((pyRound (n * (1 - t)) : ℤ) : ℝ) ^ 2 / ((((pyRound (n * (1 - t)) : ℤ) : ℝ) - 1) * (((pyRound (n * (1 - t)) : ℤ) : ℝ) - 2))|) := by
  obtain ⟨mu, r, hmu, hr, hn1, hA⟩ := doubleCenter_inv ha h
  have hrow := pairs_cases ((Finset.card_le_univ G).trans (by simp)) hn hG
  have b1 := meanT_flat hn hmu G hG hb
  have b2 := meanT_col hn (hr i) G hrow fun j hj => hb i hi j hj
  have b3 := meanT_col hn (hr j) G hrow fun i hi => hb j hj i hi
  have b4 := hb i hi j hj
  set m : ℝ := ((pyRound (n * (1 - t)) : ℤ) : ℝ) with hm
  have hD : 0 ≤ D := b4.1.trans b4.2
  set u := m / (m - 2) with hu
  set w := m ^ 2 / ((m - 1) * (m - 2)) with hw
  have hu0 := abs_nonneg u
  have hw0 := abs_nonneg w
  rw [hA]
  cases b with
  | false =>
    simp only [Bool.false_eq_true, if_false]
    have : |a i j - r i - r j + mu| ≤ 4 * D := abs_le.mpr ⟨by linarith, by linarith⟩
    nlinarith [mul_nonneg hD hu0, mul_nonneg hD hw0]
  | true =>
    simp only [if_true] at hn1 ⊢
    rw [hn1]
    split_ifs
    · rw [abs_zero]; positivity
    · have e1 : |r i * u| ≤ D * |u| := by rw [abs_mul, abs_of_nonneg b2.1]; exact mul_le_mul_of_nonneg_right b2.2 hu0
      have e2 : |r j * u| ≤ D * |u| := by rw [abs_mul, abs_of_nonneg b3.1]; exact mul_le_mul_of_nonneg_right b3.2 hu0
      have e3 : |mu * w| ≤ D * |w| := by rw [abs_mul, abs_of_nonneg b1.1]; exact mul_le_mul_of_nonneg_right b1.2 hw0
      have := abs_le.mp e1
      have := abs_le.mp e2
      have := abs_le.mp e3
      refine abs_le.mpr ⟨?_, ?_⟩ <;> nlinarith [mul_nonneg hD hu0, mul_nonneg hD hw0]

/-- Bounds for the centred distances of all data sets with the same clean box. -/
lemma distMat_bound (t : ℝ) (b : Bool) (A : ℝ) (p : ℕ) (hn : 0 < n) : ∃ K, 0 ≤ K ∧ ∀ (x : Fin n → Fin p → ℝ) (M : Fin n → Fin n → ℝ) (n1 : ℝ) (G : Finset (Fin n)),
    n ^ 2 ≤ G.card ^ 2 + ⌊t * (n : ℝ) ^ 2⌋₊ → (∀ i ∈ G, ∀ j, |x i j| ≤ A) → distMatCentered .mean t b x = .ok (M, n1) →
      (∀ i ∈ G, ∀ j ∈ G, |M i j| ≤ K) ∧ n1 = (if b then ((pyRound (n * (1 - t)) : ℤ) : ℝ) else n) := by
  refine ⟨4 * Real.sqrt (p * (2 * A) ^ 2) * (1 + |((pyRound (n * (1 - t)) : ℤ) : ℝ) / (((pyRound (n * (1 - t)) : ℤ) : ℝ) - 2)| +
      |((pyRound (n * (1 - t)) : ℤ) : ℝ) ^ 2 / ((((pyRound (n * (1 - t)) : ℤ) : ℝ) - 1) * (((pyRound (n * (1 - t)) : ℤ) : ℝ) - 2))|), by positivity,
    fun x M n1 G hG hx h => ⟨fun i hi j hj => ?_, ?_⟩⟩
  · exact doubleCenter_bound hn (edist_symm x) h G hG (fun i hi j hj => edist_bound (hx i hi) (hx j hj)) hi hj
  · obtain ⟨-, -, -, -, h1, -⟩ := doubleCenter_inv (edist_symm x) h
    exact h1

lemma pairs_card {G : Finset (Fin n)} {k f : ℕ} (hk : 2 * k * n ≤ k ^ 2 + f) (hkn : k ≤ n) (hG : n ≤ G.card + k) : n ^ 2 ≤ G.card ^ 2 + f := by
  obtain ⟨g, rfl⟩ : ∃ g, n = g + k := ⟨n - k, by omega⟩
  have h1 : g ≤ G.card := by omega
  have h2 : g ^ 2 ≤ G.card ^ 2 := Nat.pow_le_pow_left h1 2
  nlinarith

/-- **C173.** Distance variance and distance covariance with mean centring and trimming fraction `t > 0` are bounded by a number that depends only on the settings and the box of the
clean cases as long as the `2kn - k²` pairs of cases that involve one of `k` outliers are not more than the `int(t n²)` entries cut on either side.  (Missing: the promise for
`k = int(t n)` outliers, which is false, see `C173_distance_violated`.) -/
theorem C173_distance_partial (a : FitArgs) (ht : a.trimming ≠ 0) (hy : a.y1d = false) (A B : ℝ) (hn : 0 < n) {k : ℕ} (hkn : k ≤ n)
    (hk : 2 * k * n ≤ k ^ 2 + ⌊a.trimming * (n : ℝ) ^ 2⌋₊) :
    ∃ C, ∀ (x : Fin n → Fin p → ℝ) (y : Fin n → Fin q → ℝ), CleanRowsExcept k A B x y →
      (∀ v, run .distance .var .mean a (dmat x) (dmat y) = .ok v → |v| ≤ C) ∧ ∀ v, run .distance .cov .mean a (dmat x) (dmat y) = .ok v → |v| ≤ C := by
  obtain ⟨K, hK0, hK⟩ := distMat_bound (n := n) a.trimming a.biascorr A p hn
  obtain ⟨L, hL0, hL⟩ := distMat_bound (n := n) a.trimming a.biascorr B q hn
  have hf : ¬ (a.fast = true ∧ Loc.mean = .mean ∧ a.trimming = 0) := fun h => ht h.2.2
  set n1 : ℝ := if a.biascorr then ((pyRound (n * (1 - a.trimming)) : ℤ) : ℝ) else n with hn1
  refine ⟨√(K * K * |corr4bias n n1 a.trimming a.biascorr|) + √(K * L * |corr4bias n n a.trimming a.biascorr|), fun x y ⟨G, hG, hx⟩ => ?_⟩
  have hGG := pairs_card hk hkn hG
  have s1 := Real.sqrt_nonneg (K * K * |corr4bias n n1 a.trimming a.biascorr|)
  have s2 := Real.sqrt_nonneg (K * L * |corr4bias n n a.trimming a.biascorr|)
  constructor
  · intro v h
    rw [run_dvar_naive hn .mean a hf] at h
    cases hM : distMatCentered .mean a.trimming a.biascorr x with
    | error e => rw [hM] at h; cases h
    | ok r =>
      obtain ⟨M, m1⟩ := r
      obtain ⟨hb, rfl⟩ := hK x M m1 G hGG (fun i hi => (hx i hi).1) hM
      rw [hM] at h
      simp only [Except.bind] at h
      rw [distanceMoment_two'] at h
      cases hm : meanT a.trimming (flat fun i j => M i j * M i j) with
      | error e => rw [hm] at h; cases h
      | ok m =>
        rw [hm] at h
        cases h
        have h1 := abs_le.mpr (meanT_flat hn hm G hGG (lo := -(K * K)) (hi := K * K) fun i hi j hj => abs_le.mp (by
          rw [abs_mul]; exact mul_le_mul (hb i hi j hj) (hb i hi j hj) (abs_nonneg _) hK0))
        rw [abs_of_nonneg (Real.sqrt_nonneg _), abs_mul]
        have := Real.sqrt_le_sqrt (mul_le_mul_of_nonneg_right h1 (abs_nonneg (corr4bias n n1 a.trimming a.biascorr)))
        linarith
  · intro v h
    rw [run_dcov_naive hn .mean a hf hy] at h
    cases hM : distMatCentered .mean a.trimming a.biascorr x with
    | error e => rw [hM] at h; cases h
    | ok r =>
      obtain ⟨M, m1⟩ := r
      obtain ⟨hb, -⟩ := hK x M m1 G hGG (fun i hi => (hx i hi).1) hM
      rw [hM] at h
      cases hN : distMatCentered .mean a.trimming a.biascorr y with
      | error e => rw [hN] at h; cases h
      | ok r =>
        obtain ⟨N, m2⟩ := r
        obtain ⟨hb', -⟩ := hL y N m2 G hGG (fun i hi => (hx i hi).2) hN
        rw [hN] at h
        simp only [Except.bind] at h
        rw [distanceMoment_two'] at h
        cases hm : meanT a.trimming (flat fun i j => M i j * N i j) with
        | error e => rw [hm] at h; cases h
        | ok m =>
          rw [hm] at h
          cases h
          have h1 := abs_le.mpr (meanT_flat hn hm G hGG (lo := -(K * L)) (hi := K * L) fun i hi j hj => abs_le.mp (by
            rw [abs_mul]; exact mul_le_mul (hb i hi j hj) (hb' i hi j hj) (abs_nonneg _) hK0))
          rw [abs_of_nonneg (Real.sqrt_nonneg _), abs_mul]
          have := Real.sqrt_le_sqrt (mul_le_mul_of_nonneg_right h1 (abs_nonneg (corr4bias n n a.trimming a.biascorr)))
          linarith

/-! ### Distances: `int(t n)` outliers are too many -/

/-- Three equal points and one at distance 1. -/
def line4 : Fin 4 → Fin 1 → ℝ := fun i _ => if i = 3 then 1 else 0

def line4c : Fin 4 → Fin 4 → ℕ := fun i j => if decide (i = 3) = decide (j = 3) then 0 else 1

def line4d : Fin 4 → Fin 4 → ℕ := fun i j => if i = 3 ∧ j = 3 then 1 else 0

noncomputable def line4v : ℕ → ℝ := fun k => if k = 0 then 1 / 16 else 49 / 16

lemma line4v_mono : Monotone line4v := by
  intro i j h
  unfold line4v
  split_ifs <;> first | omega | norm_num

lemma line4_dist (i j : Fin 4) : edist line4 i j = ((line4c i j : ℕ) : ℝ) := by
  unfold edist line4 line4c
  simp only [Finset.univ_unique, Finset.sum_const, Finset.card_singleton, one_smul]
  by_cases h1 : i = 3 <;> by_cases h2 : j = 3 <;> simp [h1, h2]

lemma line4_row (i : Fin 4) : meanT (1 / 4) (List.ofFn fun j => edist line4 i j) = .ok (if i = 3 then 1 else 0) := by
  have e : (List.ofFn fun j => edist line4 i j) = (List.ofFn fun j => line4c i j).map fun k : ℕ => (k : ℝ) := by
    rw [List.map_ofFn]
    congr 1
    funext j
    rw [line4_dist]; rfl
  rw [e, meanT_map (f := fun k : ℕ => (k : ℝ)) (fun a b h => Nat.cast_le.mpr h) _
    (if i = 3 then [0, 1, 1, 1] else [0, 0, 0, 1]) (by clear e; revert i; decide) (by clear e; revert i; decide) (by norm_num) 1
    (by rw [List.length_ofFn, Nat.floor_eq_iff (by norm_num)]; norm_num) (by rw [List.length_ofFn]; norm_num)]
  by_cases h : i = 3
  · simp [h, meanL]
  · simp [h, meanL]

lemma line4_flat : meanT (1 / 4) (flat (edist line4)) = .ok (1 / 4) := by
  have e : edist line4 = fun i j => (fun k : ℕ => (k : ℝ)) (line4c i j) := by
    funext i j; exact line4_dist i j
  rw [e, flat_map, meanT_map (f := fun k : ℕ => (k : ℝ)) (fun a b h => Nat.cast_le.mpr h) _
    (List.replicate 10 0 ++ List.replicate 6 1) (by decide) (by decide) (by norm_num) 4
    (by rw [show (List.length _ : ℕ) = 16 from by decide, Nat.floor_eq_iff (by norm_num)]; norm_num) (by decide)]
  rw [show (List.length _ : ℕ) = 16 from by decide]
  simp [meanL, List.replicate]
  norm_num

lemma line4_sq : meanT (1 / 4) (flat fun i j => line4v (line4d i j)) = .ok (1 / 16) := by
  rw [flat_map, meanT_map line4v_mono _
    (List.replicate 15 0 ++ List.replicate 1 1) (by decide) (by decide) (by norm_num) 4
    (by rw [show (List.length _ : ℕ) = 16 from by decide, Nat.floor_eq_iff (by norm_num)]; norm_num) (by decide)]
  rw [show (List.length _ : ℕ) = 16 from by decide]
  simp [meanL, List.replicate, line4v]
  norm_num

lemma line4_centered : ∃ (A : Fin 4 → Fin 4 → ℝ) (m : ℝ), distMatCentered .mean (1 / 4) false line4 = .ok (A, m) ∧
    ∀ i j, A i j * A i j = line4v (line4d i j) := by
  have hcol : (fun j => meanT (1 / 4) (List.ofFn fun i => edist line4 i j)) = fun i => meanT (1 / 4) (List.ofFn fun j => edist line4 i j) := by
    funext j
    rw [show (fun i => edist line4 i j) = fun i => edist line4 j i from funext fun i => edist_symm _ i j]
  refine ⟨fun i j => edist line4 i j - (if i = 3 then 1 else 0) - (if j = 3 then 1 else 0) + 1 / 4, 4, ?_, ?_⟩
  · unfold distMatCentered doubleCenter
    simp only [hcol, line4_flat, line4_row, seqE_ok, bind, Except.bind, Bool.false_eq_true, if_false, false_and]
    norm_num
  · intro i j
    simp only [line4_dist]
    unfold line4c line4d line4v
    by_cases h1 : i = 3 <;> by_cases h2 : j = 3 <;> simp [h1, h2] <;> norm_num

lemma line4_var : run .distance .var .mean { trimming := 1 / 4 } (dmat line4) (dmat line4) = .ok (1 / 4) := by
  have hf : ¬ (({ trimming := 1 / 4 } : FitArgs).fast = true ∧ Loc.mean = .mean ∧ ({ trimming := 1 / 4 } : FitArgs).trimming = 0) := fun h => by
    have := h.2.2; norm_num at this
  obtain ⟨A, m, hA, hsq⟩ := line4_centered
  have hsq' : (fun i j => A i j * A i j) = fun i j => line4v (line4d i j) := by funext i j; exact hsq i j
  rw [run_dvar_naive (by norm_num) .mean _ hf]
  simp only [hA, Except.bind, distanceMoment_two', hsq', line4_sq, Except.map, corr4bias, Bool.false_eq_true, if_false, mul_one]
  rw [abs_of_pos (by norm_num), show (1 / 16 : ℝ) = (1 / 4) ^ 2 by norm_num, Real.sqrt_sq (by norm_num)]

/-- With four cases and a quarter trimmed on each side, `int(t n) = 1` outlier is enough to make the trimmed distance variance as large as one likes, although the trimmed variance of the
same data is zero. -/
theorem C173_distance_violated : ⌊(1 / 4 : ℝ) * (4 : ℕ)⌋₊ = 1 ∧ ∀ C : ℝ, ∃ x : Fin 4 → Fin 1 → ℝ, CleanRowsExcept 1 0 0 x x ∧
    ∃ v, run .distance .var .mean { trimming := 1 / 4 } (dmat x) (dmat x) = .ok v ∧ C < v := by
  refine ⟨by norm_num, fun C => ?_⟩
  have hr : (4 * |C| + 4 : ℝ) ≠ 0 := by positivity
  refine ⟨fun i j => (4 * |C| + 4) * line4 i j, ⟨{0, 1, 2}, by decide, fun i hi => ?_⟩, |4 * |C| + 4| * (1 / 4), ?_, ?_⟩
  · have : i ≠ 3 := by rintro rfl; revert hi; decide
    simp [line4, this]
  · rw [(C35_scale_mean_any (by norm_num) { trimming := 1 / 4 } rfl line4 line4 hr hr).2.1, line4_var]
    rfl
  · rw [abs_of_pos (by positivity)]
    linarith [le_abs_self C]

/-! ### Examples -/

/-- Ten cases, a fifth trimmed: two cases are wild and the rest lie in `[0, 1]`. -/
example : CleanExcept ⌊(1 / 5 : ℝ) * (10 : ℕ)⌋₊ 0 1 0 1 (![0, 1, 0, 1, 0, 1, 0, 1, 1000, -1000000] : Fin 10 → ℝ) ![0, 1, 1, 1, 0, 1, 0, 1, -5, 7] := by
  refine ⟨{0, 1, 2, 3, 4, 5, 6, 7}, ?_, fun i hi => ?_⟩
  · rw [show ⌊(1 / 5 : ℝ) * (10 : ℕ)⌋₊ = 2 from by rw [Nat.floor_eq_iff (by norm_num)]; norm_num]
    decide
  · fin_cases i <;> first | (revert hi; decide) | norm_num

/-- One outlier among ten cases is allowed for the distance statistics when a fifth is trimmed (19 pairs, 20 cut). -/
example : 2 * 1 * 10 ≤ 1 ^ 2 + ⌊(1 / 5 : ℝ) * ((10 : ℕ) : ℝ) ^ 2⌋₊ := by
  rw [show ⌊(1 / 5 : ℝ) * ((10 : ℕ) : ℝ) ^ 2⌋₊ = 20 from by rw [Nat.floor_eq_iff (by norm_num)]; norm_num]
  norm_num

/-- A fit that meets the hypotheses: three clean cases at zero and one at 1000, a quarter trimmed; the trimmed mean is 0. -/
example : run .arithmetic .mom .mean { trimming := 1 / 4, order := 1 } (colMat (![0, 0, 0, 1000] : Fin 4 → ℝ)) (colMat ![0, 0, 0, 1000]) = .ok 0 := by
  rw [run_mom (by norm_num) .mom (.inl rfl)]
  simp only [modeTable, trimMom, one_ne_zero, if_false, if_true]
  have e : (List.ofFn (![0, 0, 0, 1000] : Fin 4 → ℝ)) = [0, 0, 0, 1].map fun k : ℕ => 1000 * (k : ℝ) := by
    simp [List.ofFn_succ, Fin.succ]
  rw [e, meanT_map (f := fun k : ℕ => 1000 * (k : ℝ)) (fun a b h => by have : (a : ℝ) ≤ b := Nat.cast_le.mpr h; linarith) _
    [0, 0, 0, 1] (by decide) (by decide) (by norm_num) 1 (by norm_num) (by decide)]
  simp [meanL]

end Direpack
