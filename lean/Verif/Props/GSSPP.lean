import Mathlib.Tactic.NormNum
import Mathlib.Tactic.FieldSimp
import Mathlib.Data.Fin.VecNotation
import Mathlib.Algebra.BigOperators.Field
import Verif.NumLemmas
import Verif.GSSPP
import Verif.Spec.GSSPP

/-!
Properties C19-C25: generalised spatial sign pre-processing.
-/

set_option linter.unusedSectionVars false

namespace Direpack

open scoped BigOperators
open Spec (IsKthSmallest len half)

section
variable {K : Type} [Field K] [LinearOrder K] [IsStrictOrderedRing K]

lemma ordStat_isKth {n : ℕ} {x : Fin n → K} {k : ℕ} {v : K} (h : ordStat x k = .ok v) :
    IsKthSmallest x (k + 1) v := by
  unfold ordStat at h
  split at h
  · rename_i v' hv
    simp only [Except.ok.injEq] at h
    subst h
    obtain ⟨hk, rfl⟩ := List.getElem?_eq_some_iff.mp hv
    refine ⟨?_, ?_, ?_⟩
    · have := sortL_mem.mp (List.getElem_mem hk)
      exact (List.mem_ofFn' _ _).mp this
    · have := count_ge_sortL_getElem hk
      rw [countP_ofFn x (fun v => (sortL (List.ofFn x))[k] ≤ v), List.length_ofFn] at this
      have h2 := Finset.card_filter_add_card_filter_not (s := (Finset.univ : Finset (Fin n)))
        (fun i => x i < (sortL (List.ofFn x))[k])
      simp only [not_lt, Finset.card_univ, Fintype.card_fin] at h2
      omega
    · have := count_le_sortL_getElem hk
      rwa [countP_ofFn x (fun v => v ≤ _)] at this
  · simp at h

lemma isKth_unique {n : ℕ} {x : Fin n → K} {k : ℕ} {v w : K} (hv : IsKthSmallest x k v)
    (hw : IsKthSmallest x k w) : v = w := by
  by_contra hne
  wlog h : v < w generalizing v w
  · exact this hw hv (Ne.symm hne) (lt_of_le_of_ne (not_lt.mp h) (Ne.symm hne))
  have h1 := hw.2.1
  have h2 := hv.2.2
  have : (Finset.univ.filter fun i => x i ≤ v).card ≤ (Finset.univ.filter fun i => x i < w).card := by
    apply Finset.card_le_card
    intro i hi
    simp only [Finset.mem_filter, Finset.mem_univ, true_and] at hi ⊢
    exact lt_of_le_of_lt hi h
  omega

lemma ordStat_ok {n : ℕ} (x : Fin n → K) {k : ℕ} (hk : k < n) : ∃ v, ordStat x k = .ok v := by
  unfold ordStat
  rw [List.getElem?_eq_getElem (by rw [sortL_length, List.length_ofFn]; exact hk)]
  exact ⟨_, rfl⟩

lemma ordStat_err {n : ℕ} (x : Fin n → K) {k : ℕ} (hk : n ≤ k) : ordStat x k = .error .indexError := by
  unfold ordStat
  rw [List.getElem?_eq_none (by rw [sortL_length, List.length_ofFn]; exact hk)]

/-- Order statistics are characterised by the specification. -/
lemma ordStat_iff {n : ℕ} {x : Fin n → K} {k : ℕ} {v : K} :
    ordStat x k = .ok v ↔ IsKthSmallest x (k + 1) v := by
  refine ⟨ordStat_isKth, fun h => ?_⟩
  have hk : k < n := by
    have := h.2.2
    have h2 := Finset.card_le_univ (Finset.univ.filter fun i => x i ≤ v)
    rw [Fintype.card_fin] at h2
    omega
  obtain ⟨w, hw⟩ := ordStat_ok x hk
  rw [hw, isKth_unique (ordStat_isKth hw) h]

lemma isKth_comp {n : ℕ} {x y : Fin n → K} {k : ℕ} {i0 : Fin n}
    (h : ∀ i i', y i ≤ y i' ↔ x i ≤ x i') (hk : IsKthSmallest x k (x i0)) :
    IsKthSmallest y k (y i0) := by
  refine ⟨⟨i0, rfl⟩, ?_, ?_⟩
  · have : (Finset.univ.filter fun i => y i < y i0) = Finset.univ.filter fun i => x i < x i0 := by
      ext i; simp only [Finset.mem_filter, Finset.mem_univ, true_and, ← not_le, h]
    rw [this]; exact hk.2.1
  · simp only [h]; exact hk.2.2

lemma isKth_perm {n : ℕ} {x : Fin n → K} {k : ℕ} {v : K} (σ : Equiv.Perm (Fin n))
    (hk : IsKthSmallest x k v) : IsKthSmallest (fun i => x (σ i)) k v := by
  have hcard : ∀ (q : K → Prop) [DecidablePred q],
      (Finset.univ.filter fun i => q (x (σ i))).card = (Finset.univ.filter fun i => q (x i)).card := by
    intro q _
    apply Finset.card_bij (fun i _ => σ i)
    · intro i hi; simpa using hi
    · intro a _ b _ hab; exact σ.injective hab
    · intro b hb; exact ⟨σ.symm b, by simpa using hb, by simp⟩
  obtain ⟨⟨i, hi⟩, h1, h2⟩ := hk
  refine ⟨⟨σ.symm i, by simpa using hi⟩, ?_, ?_⟩
  · rw [hcard (fun a => a < v)]; exact h1
  · rw [hcard (fun a => a ≤ v)]; exact h2

lemma ordStat_perm {n : ℕ} (x : Fin n → K) (k : ℕ) (σ : Equiv.Perm (Fin n)) :
    ordStat (fun i => x (σ i)) k = ordStat x k := by
  by_cases hk : k < n
  · obtain ⟨v, hv⟩ := ordStat_ok x hk
    rw [hv]; exact ordStat_iff.mpr (isKth_perm σ (ordStat_isKth hv))
  · rw [ordStat_err x (by omega), ordStat_err _ (by omega)]

lemma ordStat_comp {n : ℕ} (x : Fin n → K) (f : K → K) (k : ℕ)
    (h : ∀ i i', f (x i) ≤ f (x i') ↔ x i ≤ x i') :
    ordStat (fun i => f (x i)) k = (ordStat x k).map f := by
  by_cases hk : k < n
  · obtain ⟨v, hv⟩ := ordStat_ok x hk
    rw [hv]
    have := ordStat_isKth hv
    obtain ⟨i, rfl⟩ := this.1
    exact ordStat_iff.mpr (isKth_comp h this)
  · rw [ordStat_err x (by omega), ordStat_err _ (by omega)]; rfl

lemma ordStat_mul {n : ℕ} (x : Fin n → K) (a : K) (ha : 0 < a) (k : ℕ) :
    ordStat (fun i => a * x i) k = (ordStat x k).map (a * ·) :=
  ordStat_comp x (a * ·) k fun _ _ => mul_le_mul_iff_right₀ ha

end

/-! ### powers -/

lemma p23_nonneg {v : ℝ} (h : 0 ≤ v) : 0 ≤ p23 v := Real.rpow_nonneg h _
lemma p32_nonneg {v : ℝ} (h : 0 ≤ v) : 0 ≤ p32 v := Real.rpow_nonneg h _

lemma p32_p23 {v : ℝ} (h : 0 ≤ v) : p32 (p23 v) = v := by
  unfold p32 p23
  rw [← Real.rpow_mul h]; norm_num

lemma p23_p32 {v : ℝ} (h : 0 ≤ v) : p23 (p32 v) = v := by
  unfold p32 p23
  rw [← Real.rpow_mul h]; norm_num

lemma p23_le {v w : ℝ} (hv : 0 ≤ v) (hw : 0 ≤ w) : p23 v ≤ p23 w ↔ v ≤ w :=
  Real.rpow_le_rpow_iff hv hw (by norm_num)

lemma p32_le {v w : ℝ} (hv : 0 ≤ v) (hw : 0 ≤ w) : p32 v ≤ p32 w ↔ v ≤ w :=
  Real.rpow_le_rpow_iff hv hw (by norm_num)

lemma p23_mul {a v : ℝ} (ha : 0 ≤ a) (hv : 0 ≤ v) : p23 (a * v) = p23 a * p23 v :=
  Real.mul_rpow ha hv

lemma p32_mul {a v : ℝ} (ha : 0 ≤ a) (hv : 0 ≤ v) : p32 (a * v) = p32 a * p32 v :=
  Real.mul_rpow ha hv

lemma p23_pos {a : ℝ} (ha : 0 < a) : 0 < p23 a := Real.rpow_pos_of_pos ha _

lemma ordStat_p23 {n : ℕ} (d : Fin n → ℝ) (hd : ∀ i, 0 ≤ d i) (k : ℕ) :
    ordStat (fun i => p23 (d i)) k = (ordStat d k).map p23 :=
  ordStat_comp d p23 k fun i i' => p23_le (hd i) (hd i')

lemma ordStat_nonneg {n : ℕ} {d : Fin n → ℝ} (hd : ∀ i, 0 ≤ d i) {k : ℕ} {v : ℝ}
    (h : ordStat d k = .ok v) : 0 ≤ v := by
  obtain ⟨⟨i, rfl⟩, _⟩ := ordStat_isKth h
  exact hd i

/-! ### explicit form of the radial functions -/

lemma rowNorms_eq {n p : ℕ} (X : Fin n → Fin p → ℝ) (i : Fin n) : rowNorms X i = len (X i) := rfl

lemma rowNorms_nonneg {n p : ℕ} (X : Fin n → Fin p → ℝ) (i : Fin n) : 0 ≤ rowNorms X i :=
  Real.sqrt_nonneg _

lemma len_smul {p : ℕ} (x : Fin p → ℝ) (c : ℝ) (hc : 0 ≤ c) : len (fun j => x j * c) = len x * c := by
  unfold len
  have : ∑ j, (x j * c) ^ 2 = (∑ j, x j ^ 2) * c ^ 2 := by
    rw [Finset.sum_mul]; exact Finset.sum_congr rfl fun j _ => by ring
  rw [this, Real.sqrt_mul (Finset.sum_nonneg fun j _ => sq_nonneg _), Real.sqrt_sq hc]

lemma hIdx_succ {n p : ℕ} (h : 0 < n + p) : hIdx n p + 1 = half n p := by
  unfold hIdx half; omega

lemma hIdx_lt {n p : ℕ} (hn : 0 < n) : hIdx n p < n ↔ p ≤ n := by
  unfold hIdx; omega

lemma quadF_eq {n : ℕ} {d : Fin n → ℝ} {p : ℕ} {h : ℝ} (hh : ordStat d (hIdx n p) = .ok h) :
    quadF d p = .ok fun i => if d i > h then (1 / d i ^ 2) * h ^ 2 else 1 := by
  unfold quadF; rw [hh]; rfl

lemma winsorF_eq {n : ℕ} {d : Fin n → ℝ} {p : ℕ} {h : ℝ} (hh : ordStat d (hIdx n p) = .ok h) :
    winsorF d p = .ok fun i => if d i > h then (1 / d i) * h else 1 := by
  unfold winsorF; rw [hh]; rfl

lemma ballF_eq {n : ℕ} {d : Fin n → ℝ} {p : ℕ} {h : ℝ} (hd : ∀ i, 0 ≤ d i)
    (hh : ordStat d (hIdx n p) = .ok h) :
    ballF d p = .ok fun i => if d i > h then 0 else 1 := by
  unfold ballF
  have hw : ordStat (fun i => p23 (d i)) (hIdx n p) = .ok (p23 h) := by rw [ordStat_p23 d hd, hh]; rfl
  simp only [hw]
  have h0 := ordStat_nonneg hd hh
  show Except.ok _ = _
  rw [p32_p23 h0]

/-- The median-type spread of the transformed distances. -/
def Hmad {n : ℕ} (d : Fin n → ℝ) (p : ℕ) (h m : ℝ) : Prop :=
  ordStat (fun i => |p23 (d i) - p23 h|) (hIdx n p) = .ok m

lemma shellF_eq {n : ℕ} {d : Fin n → ℝ} {p : ℕ} {h m : ℝ} (hd : ∀ i, 0 ≤ d i)
    (hh : ordStat d (hIdx n p) = .ok h) (hm : Hmad d p h m) :
    shellF d p = .ok fun i => if d i > p32 (p23 h + m) then 0
      else if d i < p32 (max 0 (p23 h - m)) then 0 else 1 := by
  unfold shellF
  have hw : ordStat (fun i => p23 (d i)) (hIdx n p) = .ok (p23 h) := by rw [ordStat_p23 d hd, hh]; rfl
  unfold Hmad at hm
  simp only [hw, bind, Except.bind, hm]

lemma lrF_eq {n : ℕ} {d : Fin n → ℝ} {p : ℕ} {h m : ℝ} (hd : ∀ i, 0 ≤ d i)
    (hh : ordStat d (hIdx n p) = .ok h) (hm : Hmad d p h m) :
    lrF d p = .ok fun i => if d i > p32 (p23 h + 14826 / 10000 * m) then 0
      else if d i > h ∧ d i ≤ p32 (p23 h + 14826 / 10000 * m) then
        1 - (d i - h) / (p32 (p23 h + 14826 / 10000 * m) - h) else 1 := by
  unfold lrF
  have hw : ordStat (fun i => p23 (d i)) (hIdx n p) = .ok (p23 h) := by rw [ordStat_p23 d hd, hh]; rfl
  unfold Hmad at hm
  simp only [hw, bind, Except.bind, hm]
  rw [p32_p23 (ordStat_nonneg hd hh)]

lemma hmad_nonneg {n : ℕ} {d : Fin n → ℝ} {p : ℕ} {h m : ℝ} (hm : Hmad d p h m) : 0 ≤ m :=
  ordStat_nonneg (fun _ => abs_nonneg _) hm

/-- Everything the radial functions other than `ss` need exists when there are at least as many cases as
variables. -/
lemma exists_hmed {n : ℕ} (d : Fin n → ℝ) {p : ℕ} (hn : 0 < n) (hp : p ≤ n) :
    ∃ h m, ordStat d (hIdx n p) = .ok h ∧ Hmad d p h m := by
  obtain ⟨h, hh⟩ := ordStat_ok d ((hIdx_lt hn).mpr hp)
  obtain ⟨m, hm⟩ := ordStat_ok (fun i => |p23 (d i) - p23 h|) ((hIdx_lt hn).mpr hp)
  exact ⟨h, m, hh, hm⟩

lemma radial_error {n : ℕ} (d : Fin n → ℝ) {p : ℕ} (hn : 0 < n) (hp : n < p) (f : Radial)
    (hf : f ≠ .ss) : f.apply d p = .error .indexError := by
  have hk : n ≤ hIdx n p := by unfold hIdx; omega
  cases f <;> first | exact absurd rfl hf | skip
  · simp [Radial.apply, quadF, ordStat_err _ hk, bind, Except.bind]
  · simp [Radial.apply, winsorF, ordStat_err _ hk, bind, Except.bind]
  · simp [Radial.apply, ballF, ordStat_err _ hk, bind, Except.bind]
  · simp [Radial.apply, shellF, ordStat_err _ hk, bind, Except.bind]
  · simp [Radial.apply, lrF, ordStat_err _ hk, bind, Except.bind]

/-- The value of a radial function as a single formula in the `h`-th smallest distance `h` and the spread
`m`. -/
noncomputable def radialVal (f : Radial) (h m d : ℝ) : ℝ :=
  match f with
  | .quad => if d > h then (1 / d ^ 2) * h ^ 2 else 1
  | .ss => 1 / max d (1 / 10 ^ 10)
  | .winsor => if d > h then (1 / d) * h else 1
  | .ball => if d > h then 0 else 1
  | .shell => if d > p32 (p23 h + m) then 0 else if d < p32 (max 0 (p23 h - m)) then 0 else 1
  | .linearRedescending => if d > p32 (p23 h + 14826 / 10000 * m) then 0
      else if d > h ∧ d ≤ p32 (p23 h + 14826 / 10000 * m) then
        1 - (d - h) / (p32 (p23 h + 14826 / 10000 * m) - h) else 1

lemma radial_eq {n : ℕ} {d : Fin n → ℝ} {p : ℕ} {h m : ℝ} (hd : ∀ i, 0 ≤ d i)
    (hh : ordStat d (hIdx n p) = .ok h) (hm : Hmad d p h m) (f : Radial) :
    f.apply d p = .ok fun i => radialVal f h m (d i) := by
  cases f
  · exact quadF_eq hh
  · rfl
  · exact winsorF_eq hh
  · exact ballF_eq hd hh
  · exact shellF_eq hd hh hm
  · exact lrF_eq hd hh hm

lemma gsspp_eq {n p : ℕ} {X : Fin n → Fin p → ℝ} {h m : ℝ}
    (hh : ordStat (rowNorms X) (hIdx n p) = .ok h) (hm : Hmad (rowNorms X) p h m) (f : Radial) :
    gsspp f X = .ok fun i j => X i j * radialVal f h m (len (X i)) := by
  unfold gsspp
  rw [radial_eq (rowNorms_nonneg X) hh hm]; rfl

lemma radialVal_mem {h m d : ℝ} (hh : 0 ≤ h) (hd : 0 ≤ d) (f : Radial) (hf : f ≠ .ss) :
    0 ≤ radialVal f h m d ∧ radialVal f h m d ≤ 1 := by
  cases f <;> first | exact absurd rfl hf | skip
  · simp only [radialVal]
    split_ifs with h1
    · have hd' : 0 < d := lt_of_le_of_lt hh h1
      refine ⟨by positivity, ?_⟩
      rw [one_div, inv_mul_le_iff₀ (by positivity), mul_one]
      nlinarith
    · norm_num
  · simp only [radialVal]
    split_ifs with h1
    · have hd' : 0 < d := lt_of_le_of_lt hh h1
      refine ⟨by positivity, ?_⟩
      rw [one_div, inv_mul_le_iff₀ (by positivity), mul_one]
      exact h1.le
    · norm_num
  · simp only [radialVal]
    split_ifs <;> norm_num
  · simp only [radialVal]
    split_ifs <;> norm_num
  · simp only [radialVal]
    split_ifs with h1 h2
    · norm_num
    · obtain ⟨h3, h4⟩ := h2
      set c := p32 (p23 h + 14826 / 10000 * m)
      have hpos : 0 < c - h := by linarith
      have : 0 ≤ (d - h) / (c - h) := div_nonneg (by linarith) hpos.le
      have h5 : (d - h) / (c - h) ≤ 1 := by rw [div_le_one hpos]; linarith
      constructor <;> linarith
    · norm_num

/-! ### C23 -/

/-- C23: with a distance-quantile function the transform succeeds exactly when there are at least as many cases as
variables, and otherwise raises an `IndexError`. -/
theorem C23_gss_defined {n p : ℕ} (hn : 0 < n) (f : Radial) (hf : f ≠ .ss) (X : Fin n → Fin p → ℝ) :
    (p ≤ n → ∃ Y, gsspp f X = .ok Y) ∧ (n < p → gsspp f X = .error .indexError) := by
  constructor
  · intro hp
    obtain ⟨h, m, hh, hm⟩ := exists_hmed (rowNorms X) hn hp
    exact ⟨_, gsspp_eq hh hm f⟩
  · intro hp
    unfold gsspp
    rw [radial_error _ hn hp f hf]; rfl

/-- C23: the distance quantile that is read is the `⌊(n+p+1)/2⌋`-th smallest distance. -/
theorem C23_gss_quantile {n p : ℕ} (hn : 0 < n) (d : Fin n → ℝ) (v : ℝ) :
    ordStat d (hIdx n p) = .ok v ↔ IsKthSmallest d (half n p) v := by
  rw [ordStat_iff, hIdx_succ (by omega)]

/-- C23: the plain spatial sign is defined for every shape. -/
theorem C23_ss_defined {n p : ℕ} (X : Fin n → Fin p → ℝ) : ∃ Y, gsspp .ss X = .ok Y := ⟨_, rfl⟩

/-! ### C19 -/

/-- C19: every centred case is multiplied by one number between 0 and 1 (for `ball` and `shell` by 0 or 1), so
that it keeps its direction and is never moved away from the centre. -/
theorem C19_gss_weights {n p : ℕ} (hn : 0 < n) (hp : p ≤ n) (f : Radial) (hf : f ≠ .ss)
    (X : Fin n → Fin p → ℝ) : ∃ (Y : Fin n → Fin p → ℝ) (xi : Fin n → ℝ), gsspp f X = .ok Y ∧
      (∀ i j, Y i j = xi i * X i j) ∧ (∀ i, 0 ≤ xi i ∧ xi i ≤ 1) ∧ (∀ i, len (Y i) ≤ len (X i)) ∧
      (f = .ball ∨ f = .shell → ∀ i, xi i = 0 ∨ xi i = 1) := by
  obtain ⟨h, m, hh, hm⟩ := exists_hmed (rowNorms X) hn hp
  have h0 := ordStat_nonneg (rowNorms_nonneg X) hh
  have hb : ∀ i, 0 ≤ radialVal f h m (len (X i)) ∧ radialVal f h m (len (X i)) ≤ 1 := fun i =>
    radialVal_mem h0 (rowNorms_nonneg X i) f hf
  refine ⟨_, fun i => radialVal f h m (len (X i)), gsspp_eq hh hm f, fun i j => mul_comm _ _, hb, ?_, ?_⟩
  · intro i
    rw [len_smul _ _ (hb i).1]
    exact mul_le_of_le_one_right (Real.sqrt_nonneg _) (hb i).2
  · rintro (rfl | rfl) i <;> simp only [radialVal] <;> split_ifs <;> simp

/-- C19: the plain spatial sign multiplies every case by one positive number. -/
theorem C19_ss_weights {n p : ℕ} (X : Fin n → Fin p → ℝ) :
    ∃ (Y : Fin n → Fin p → ℝ) (xi : Fin n → ℝ), gsspp .ss X = .ok Y ∧
      (∀ i j, Y i j = xi i * X i j) ∧ ∀ i, 0 < xi i := by
  refine ⟨_, fun i => 1 / max (len (X i)) (1 / 10 ^ 10), rfl, fun i j => mul_comm _ _, fun i => ?_⟩
  have : (0 : ℝ) < max (len (X i)) (1 / 10 ^ 10) := lt_max_of_lt_right (by positivity)
  positivity

/-! ### C20 -/

/-- C20: with `quad`, `winsor`, `ball` and `linear_redescending` at least `⌊(n+p+1)/2⌋` cases are returned exactly as
they were centred, namely all the cases that are not farther from the centre than the `⌊(n+p+1)/2⌋`-th
smallest distance. -/
theorem C20_gss_centre_kept {n p : ℕ} (hn : 0 < n) (hp : p ≤ n) (f : Radial) (hf : f ≠ .ss)
    (hf' : f ≠ .shell) (X Y : Fin n → Fin p → ℝ) (hY : gsspp f X = .ok Y) :
    ∃ v, IsKthSmallest (fun i => len (X i)) (half n p) v ∧ (∀ i, len (X i) ≤ v → Y i = X i) ∧
      half n p ≤ (Finset.univ.filter fun i => Y i = X i).card := by
  obtain ⟨h, m, hh, hm⟩ := exists_hmed (rowNorms X) hn hp
  have h0 := ordStat_nonneg (rowNorms_nonneg X) hh
  have hk : IsKthSmallest (fun i => len (X i)) (half n p) h := (C23_gss_quantile hn _ _).mp hh
  have hm0 := hmad_nonneg hm
  rw [gsspp_eq hh hm f, Except.ok.injEq] at hY
  have hkeep : ∀ i, len (X i) ≤ h → Y i = X i := by
    intro i hi
    have hone : radialVal f h m (len (X i)) = 1 := by
      cases f <;> first | exact absurd rfl hf | exact absurd rfl hf' | skip
      · simp [radialVal, not_lt.mpr hi]
      · simp [radialVal, not_lt.mpr hi]
      · simp [radialVal, not_lt.mpr hi]
      · have hc : h ≤ p32 (p23 h + 14826 / 10000 * m) := by
          conv_lhs => rw [← p32_p23 h0]
          rw [p32_le (p23_nonneg h0) (by have := p23_nonneg h0; positivity)]
          linarith
        simp only [radialVal]
        rw [if_neg (not_lt.mpr (hi.trans hc)), if_neg (by rintro ⟨h1, _⟩; exact absurd hi (not_le.mpr h1))]
    rw [← hY]; funext j
    show X i j * radialVal f h m (len (X i)) = X i j
    rw [hone, mul_one]
  refine ⟨h, hk, hkeep, hk.2.2.trans (Finset.card_le_card ?_)⟩
  intro i hi
  simp only [Finset.mem_filter, Finset.mem_univ, true_and] at hi ⊢
  exact hkeep i hi

/-! ### C21 -/

/-- C21: after the `winsor`, `ball` or `quad` transform no case is farther from the centre than the
`⌊(n+p+1)/2⌋`-th smallest distance. -/
theorem C21_gss_bounded {n p : ℕ} (hn : 0 < n) (hp : p ≤ n) (f : Radial)
    (hf : f = .winsor ∨ f = .ball ∨ f = .quad) (X Y : Fin n → Fin p → ℝ) (hY : gsspp f X = .ok Y) (v : ℝ)
    (hv : IsKthSmallest (fun i => len (X i)) (half n p) v) : ∀ i, len (Y i) ≤ v := by
  obtain ⟨h, m, hh, hm⟩ := exists_hmed (rowNorms X) hn hp
  have h0 := ordStat_nonneg (rowNorms_nonneg X) hh
  have hk : IsKthSmallest (fun i => len (X i)) (half n p) h := (C23_gss_quantile hn _ _).mp hh
  obtain rfl : v = h := isKth_unique hv hk
  rw [gsspp_eq hh hm f, Except.ok.injEq] at hY
  intro i
  have hd : 0 ≤ len (X i) := Real.sqrt_nonneg _
  have hb := radialVal_mem (m := m) h0 hd f (by rcases hf with rfl | rfl | rfl <;> decide)
  rw [← hY, len_smul _ _ hb.1]
  rcases hf with rfl | rfl | rfl
  · simp only [radialVal]
    split_ifs with h1
    · have : 0 < len (X i) := lt_of_le_of_lt h0 h1
      apply le_of_eq; field_simp
    · rw [mul_one]; exact not_lt.mp h1
  · simp only [radialVal]
    split_ifs with h1
    · rw [mul_zero]; exact h0
    · rw [mul_one]; exact not_lt.mp h1
  · simp only [radialVal]
    split_ifs with h1
    · have : 0 < len (X i) := lt_of_le_of_lt h0 h1
      have e : len (X i) * (1 / len (X i) ^ 2 * v ^ 2) = v * (v / len (X i)) := by field_simp
      rw [e]
      exact mul_le_of_le_one_right h0 ((div_le_one this).mpr h1.le)
    · rw [mul_one]; exact not_lt.mp h1

/-- C21: after the plain spatial sign every case has length at most 1, and exactly 1 if its distance to the
centre was at least 1e-10; a case at the centre stays there. -/
theorem C21_ss_bounded {n p : ℕ} (X Y : Fin n → Fin p → ℝ) (hY : gsspp .ss X = .ok Y) :
    ∀ i, len (Y i) ≤ 1 ∧ (1 / 10 ^ 10 ≤ len (X i) → len (Y i) = 1) ∧ ((∀ j, X i j = 0) → ∀ j, Y i j = 0) := by
  intro i
  have hY' : Y = fun i j => X i j * (1 / max (len (X i)) (1 / 10 ^ 10)) := by
    have : gsspp .ss X = .ok (fun i j => X i j * (1 / max (len (X i)) (1 / 10 ^ 10))) := rfl
    rw [this, Except.ok.injEq] at hY; exact hY.symm
  have hpos : (0 : ℝ) < max (len (X i)) (1 / 10 ^ 10) := lt_max_of_lt_right (by positivity)
  have hl : len (Y i) = len (X i) * (1 / max (len (X i)) (1 / 10 ^ 10)) := by
    rw [hY', len_smul _ _ (by positivity)]
  refine ⟨?_, ?_, ?_⟩
  · rw [hl, mul_one_div, div_le_one hpos]; exact le_max_left _ _
  · intro h
    rw [max_eq_left h] at hpos hl
    rw [hl, mul_one_div_cancel hpos.ne']
  · intro h j
    rw [hY']; simp [h j]

/-- C21: after the linear redescending transform no case is farther from the centre than the redescending cutoff
`((d_h)^(2/3) + 1.4826 m)^(3/2)`, where `d_h` and `m` are the `⌊(n+p+1)/2⌋`-th smallest distance and
deviation of the transformed distances; cases beyond the cutoff end up at the centre. -/
theorem C21_lr_bounded {n p : ℕ} (hn : 0 < n) (X Y : Fin n → Fin p → ℝ)
    (hY : gsspp .linearRedescending X = .ok Y) (v m : ℝ)
    (hv : IsKthSmallest (fun i => len (X i)) (half n p) v)
    (hm : IsKthSmallest (fun i => |len (X i) ^ ((2 : ℝ) / 3) - v ^ ((2 : ℝ) / 3)|) (half n p) m) :
    ∀ i, len (Y i) ≤ (v ^ ((2 : ℝ) / 3) + 1.4826 * m) ^ ((3 : ℝ) / 2) ∧
      ((v ^ ((2 : ℝ) / 3) + 1.4826 * m) ^ ((3 : ℝ) / 2) < len (X i) → ∀ j, Y i j = 0) := by
  have hh := (C23_gss_quantile hn _ _).mpr hv
  have hm' : Hmad (rowNorms X) p v m := (C23_gss_quantile hn _ _).mpr hm
  rw [gsspp_eq hh hm' _, Except.ok.injEq] at hY
  have h0 := ordStat_nonneg (rowNorms_nonneg X) hh
  have hc : (v ^ ((2 : ℝ) / 3) + 1.4826 * m) ^ ((3 : ℝ) / 2) = p32 (p23 v + 14826 / 10000 * m) := by
    unfold p32 p23; norm_num
  intro i
  rw [hc]
  have hd : 0 ≤ len (X i) := Real.sqrt_nonneg _
  have hb := radialVal_mem (m := m) h0 hd .linearRedescending (by decide)
  have hm0 := hmad_nonneg hm'
  constructor
  · rw [← hY, len_smul _ _ hb.1]
    by_cases h1 : len (X i) > p32 (p23 v + 14826 / 10000 * m)
    · simp only [radialVal]
      rw [if_pos h1, mul_zero]
      exact p32_nonneg (by have := p23_nonneg h0; positivity)
    · exact (mul_le_of_le_one_right hd hb.2).trans (not_lt.mp h1)
  · intro h1 j
    rw [← hY]
    show X i j * radialVal _ _ _ _ = 0
    simp only [radialVal]
    rw [if_pos h1, mul_zero]

/-! ### C22 -/

/-- C22: permuting the cases permutes the transformed cases, for every radial function and every centre that
does not depend on the order of the cases. -/
theorem C22_gss_perm {n p : ℕ} (center : (Fin n → Fin p → ℝ) → Fin p → ℝ) (f : Radial)
    (X : Fin n → Fin p → ℝ) (σ : Equiv.Perm (Fin n))
    (hc : center (fun i => X (σ i)) = center X) :
    gssFitTransform center f (fun i => X (σ i)) =
      (gssFitTransform center f X).map fun Y i => Y (σ i) := by
  have hcen : centreBy center (fun i => X (σ i)) = fun i => centreBy center X (σ i) := by
    funext i j; simp [centreBy, hc]
  have hn : rowNorms (centreBy center (fun i => X (σ i))) =
      fun i => rowNorms (centreBy center X) (σ i) := by rw [hcen]; rfl
  have hap : ∀ d : Fin n → ℝ, f.apply (fun i => d (σ i)) p = (f.apply d p).map fun xi i => xi (σ i) := by
    intro d
    cases f
    · simp only [Radial.apply, quadF, ordStat_perm d]
      cases ordStat d (hIdx n p) <;> rfl
    · rfl
    · simp only [Radial.apply, winsorF, ordStat_perm d]
      cases ordStat d (hIdx n p) <;> rfl
    · simp only [Radial.apply, ballF, ordStat_perm (fun i => p23 (d i))]
      cases ordStat (fun i => p23 (d i)) (hIdx n p) <;> rfl
    · simp only [Radial.apply, shellF, ordStat_perm (fun i => p23 (d i))]
      cases ordStat (fun i => p23 (d i)) (hIdx n p) with
      | error e => rfl
      | ok h =>
        simp only [bind, Except.bind, ordStat_perm (fun i => |p23 (d i) - h|)]
        cases ordStat (fun i => |p23 (d i) - h|) (hIdx n p) <;> rfl
    · simp only [Radial.apply, lrF, ordStat_perm (fun i => p23 (d i))]
      cases ordStat (fun i => p23 (d i)) (hIdx n p) with
      | error e => rfl
      | ok h =>
        simp only [bind, Except.bind, ordStat_perm (fun i => |p23 (d i) - h|)]
        cases ordStat (fun i => |p23 (d i) - h|) (hIdx n p) <;> rfl
  unfold gssFitTransform GSSState.fit
  simp only [hn, hap]
  cases f.apply (rowNorms (centreBy center X)) p with
  | error e => rfl
  | ok xi =>
    simp only [bind, Except.bind, Except.map, hcen]
    rfl

lemma len_mul_left {p : ℕ} (x : Fin p → ℝ) (a : ℝ) (ha : 0 ≤ a) : len (fun j => a * x j) = a * len x := by
  have := len_smul x a ha
  rw [mul_comm (len x)] at this
  rw [← this]; congr 1; funext j; ring

/-- The radial functions other than `ss` depend only on ratios of distances. -/
lemma radialVal_scale {h m d a : ℝ} (ha : 0 < a) (hh : 0 ≤ h) (hm : 0 ≤ m) (f : Radial)
    (hf : f ≠ .ss) : radialVal f (a * h) (p23 a * m) (a * d) = radialVal f h m d := by
  have hg := p23_pos ha
  have hgt : ∀ u w : ℝ, a * u > a * w ↔ u > w := fun u w => mul_lt_mul_iff_right₀ ha
  have hcut : ∀ c : ℝ, 0 ≤ c → p32 (p23 (a * h) + c * (p23 a * m)) = a * p32 (p23 h + c * m) := by
    intro c hc
    rw [p23_mul ha.le hh, show p23 a * p23 h + c * (p23 a * m) = p23 a * (p23 h + c * m) by ring,
      p32_mul hg.le (by have := p23_nonneg hh; positivity), p32_p23 ha.le]
  cases f <;> first | exact absurd rfl hf | skip
  · simp only [radialVal, hgt]
    split_ifs with h1
    · have hd' : d ≠ 0 := (lt_of_le_of_lt hh h1).ne'
      field_simp
    · rfl
  · simp only [radialVal, hgt]
    split_ifs with h1
    · have hd' : d ≠ 0 := (lt_of_le_of_lt hh h1).ne'
      field_simp
    · rfl
  · simp only [radialVal, hgt]
  · have h1 := hcut 1 zero_le_one
    rw [one_mul, one_mul] at h1
    have h2 : p32 (max 0 (p23 (a * h) - p23 a * m)) = a * p32 (max 0 (p23 h - m)) := by
      rw [p23_mul ha.le hh, ← mul_sub, show max 0 (p23 a * (p23 h - m)) = p23 a * max 0 (p23 h - m) by
        rw [mul_max_of_nonneg _ _ hg.le, mul_zero], p32_mul hg.le (le_max_left _ _), p32_p23 ha.le]
    simp only [radialVal, h1, h2, hgt]
  · have h1 := hcut (14826 / 10000) (by norm_num)
    have hle : ∀ u w : ℝ, a * u ≤ a * w ↔ u ≤ w := fun u w => mul_le_mul_iff_right₀ ha
    simp only [radialVal, h1, hgt, hle, ← mul_sub, mul_div_mul_left _ _ ha.ne']

/-- C22: multiplying all data by a positive number multiplies the transformed data by it, for every radial
function but the plain sign and every centre that follows the change of units. -/
theorem C22_gss_scale {n p : ℕ} (center : (Fin n → Fin p → ℝ) → Fin p → ℝ) (f : Radial) (hf : f ≠ .ss)
    (X : Fin n → Fin p → ℝ) (a : ℝ) (ha : 0 < a)
    (hc : center (fun i j => a * X i j) = fun j => a * center X j) :
    gssFitTransform center f (fun i j => a * X i j) =
      (gssFitTransform center f X).map fun Y i j => a * Y i j := by
  have hcen : centreBy center (fun i j => a * X i j) = fun i j => a * centreBy center X i j := by
    funext i j; simp only [centreBy, hc]; ring
  rcases Nat.eq_zero_or_pos n with rfl | hn
  · have hp1 : ∀ d : Fin 0 → ℝ, f.apply d p = .error .indexError := by
      intro d
      have hk : 0 ≤ hIdx 0 p := Nat.zero_le _
      cases f <;> first | exact absurd rfl hf | skip
      · simp [Radial.apply, quadF, ordStat_err _ hk, bind, Except.bind]
      · simp [Radial.apply, winsorF, ordStat_err _ hk, bind, Except.bind]
      · simp [Radial.apply, ballF, ordStat_err _ hk, bind, Except.bind]
      · simp [Radial.apply, shellF, ordStat_err _ hk, bind, Except.bind]
      · simp [Radial.apply, lrF, ordStat_err _ hk, bind, Except.bind]
    simp [gssFitTransform, GSSState.fit, hp1, bind, Except.bind, Except.map]
  have hrn : rowNorms (fun i j => a * centreBy center X i j) =
      fun i => a * rowNorms (centreBy center X) i := by
    funext i; exact len_mul_left _ a ha.le
  rcases le_or_gt p n with hp | hp
  · set d := rowNorms (centreBy center X) with hd
    have hdn : ∀ i, 0 ≤ d i := rowNorms_nonneg _
    obtain ⟨h, m, hh, hm⟩ := exists_hmed d hn hp
    have h0 := ordStat_nonneg hdn hh
    have hm0 := hmad_nonneg hm
    have hh' : ordStat (fun i => a * d i) (hIdx n p) = .ok (a * h) := by
      rw [ordStat_mul d a ha, hh]; rfl
    have hm' : Hmad (fun i => a * d i) p (a * h) (p23 a * m) := by
      unfold Hmad
      have : (fun i => |p23 (a * d i) - p23 (a * h)|) = fun i => p23 a * |p23 (d i) - p23 h| := by
        funext i
        rw [p23_mul ha.le (hdn i), p23_mul ha.le h0, ← mul_sub, abs_mul, abs_of_pos (p23_pos ha)]
      rw [this, ordStat_mul _ _ (p23_pos ha)]
      unfold Hmad at hm
      rw [hm]; rfl
    have hdn' : ∀ i, 0 ≤ a * d i := fun i => mul_nonneg ha.le (hdn i)
    unfold gssFitTransform GSSState.fit
    simp only [hcen, hrn, ← hd]
    rw [radial_eq hdn' hh' hm' f, radial_eq hdn hh hm f]
    simp only [bind, Except.bind, Except.map, GSSState.transform, radialVal_scale ha h0 hm0 f hf]
    congr 1; funext i j
    show a * centreBy center X i j * radialVal f h m (d i) = a * (centreBy center X i j * radialVal f h m (d i))
    ring
  · unfold gssFitTransform GSSState.fit
    simp only [radial_error _ hn hp f hf, bind, Except.bind, Except.map]

/-- C22: the plain spatial sign does not depend on the units, as long as all cases are at distance at least 1e-10
(or exactly 0) from the centre in both units. -/
theorem C22_ss_scale {n p : ℕ} (center : (Fin n → Fin p → ℝ) → Fin p → ℝ)
    (X : Fin n → Fin p → ℝ) (a : ℝ) (ha : 0 < a)
    (hc : center (fun i j => a * X i j) = fun j => a * center X j)
    (hprec : ∀ i, (∀ j, X i j = center X j) ∨ (1 / 10 ^ 10 ≤ len (fun j => X i j - center X j) ∧
      1 / 10 ^ 10 ≤ a * len (fun j => X i j - center X j))) :
    gssFitTransform center .ss (fun i j => a * X i j) = gssFitTransform center .ss X := by
  have hcen : centreBy center (fun i j => a * X i j) = fun i j => a * centreBy center X i j := by
    funext i j; simp only [centreBy, hc]; ring
  have hrn : rowNorms (fun i j => a * centreBy center X i j) =
      fun i => a * rowNorms (centreBy center X) i := by
    funext i; exact len_mul_left _ a ha.le
  unfold gssFitTransform GSSState.fit
  simp only [hcen, hrn, Radial.apply, ssF, bind, Except.bind]
  congr 1; funext i j
  show a * centreBy center X i j * (1 / max (a * rowNorms (centreBy center X) i) (1 / 10 ^ 10)) =
    centreBy center X i j * (1 / max (rowNorms (centreBy center X) i) (1 / 10 ^ 10))
  rcases hprec i with h | ⟨h1, h2⟩
  · have : centreBy center X i j = 0 := by simp [centreBy, h j]
    rw [this]; simp
  · have h1' : 1 / 10 ^ 10 ≤ rowNorms (centreBy center X) i := h1
    have h2' : 1 / 10 ^ 10 ≤ a * rowNorms (centreBy center X) i := h2
    have hpos : 0 < rowNorms (centreBy center X) i := lt_of_lt_of_le (by positivity) h1'
    rw [max_eq_left h1', max_eq_left h2']
    field_simp

/-! ### C24 -/

/-- C24, partial: `fit_transform(X)`, and `transform(X)` on the training data, are the sign transform of the centred
data.  Missing: `transform` of other data (`C24_transform_violated`). -/
theorem C24_fit_transform_partial {n p : ℕ} (center : (Fin n → Fin p → ℝ) → Fin p → ℝ) (f : Radial)
    (X : Fin n → Fin p → ℝ) : gssFitTransform center f X = gsspp f (fun i j => X i j - center X j) := by
  have hc : (fun i j => X i j - center X j) = centreBy center X := rfl
  rw [hc]
  unfold gssFitTransform GSSState.fit gsspp
  simp only [bind, Except.bind]
  cases f.apply (rowNorms (centreBy center X)) p <;> rfl

/-- C24, violated: a fitted pre-processor returns the same matrix whatever it is given; in particular a new case is
returned as the training case. -/
theorem C24_transform_violated :
    (∀ {n p n' : ℕ} (s : GSSState n p) (X X' : Fin n' → Fin p → ℝ), s.transform X = s.transform X') ∧
    ∃ (s : GSSState 1 1) (X' Y' : Fin 1 → Fin 1 → ℝ),
      GSSState.fit (fun _ _ => 0) .winsor (fun _ _ => 1) = .ok s ∧
      gsspp .winsor X' = .ok Y' ∧ s.transform X' ≠ Y' := by
  refine ⟨fun _ _ _ => rfl, ?_⟩
  have hk : ∀ v : ℝ, ordStat (fun _ : Fin 1 => v) (hIdx 1 1) = .ok v := fun v =>
    ordStat_iff.mpr ⟨⟨0, rfl⟩, by simp [hIdx], by simp [hIdx]⟩
  have hl : ∀ v : ℝ, 0 ≤ v → rowNorms (fun (_ : Fin 1) (_ : Fin 1) => v) = fun _ => v := by
    intro v hv; funext i; simp [rowNorms, Real.sqrt_sq hv]
  refine ⟨⟨fun _ => 1, fun _ _ => 1⟩, fun _ _ => 5, fun _ _ => 5, ?_, ?_, ?_⟩
  · unfold GSSState.fit
    have : centreBy (fun _ _ => 0) (fun (_ : Fin 1) (_ : Fin 1) => (1 : ℝ)) = fun _ _ => 1 := by
      funext i j; simp [centreBy]
    simp only [this, hl 1 zero_le_one, Radial.apply, winsorF, hk, bind, Except.bind]
    simp
  · unfold gsspp
    simp only [hl 5 (by norm_num), Radial.apply, winsorF, hk, bind, Except.bind]
    simp
  · intro h
    have := congrFun (congrFun h 0) 0
    simp [GSSState.transform] at this

/-! ### C25 -/

lemma bdim_comm (a b : ℕ) : bdim a b = bdim b a := by
  unfold bdim
  by_cases h : a = b
  · subst h; rfl
  · rw [if_neg h, if_neg (Ne.symm h)]
    by_cases ha : a = 1 <;> by_cases hb : b = 1 <;> simp [ha, hb]

lemma genSsCovmat_eq {n p : ℕ} {center : (Fin n → Fin p → ℝ) → Fin p → ℝ} {f : Radial}
    {X Y : Fin n → Fin p → ℝ} (hY : gsspp f (centreBy center X) = .ok Y) {r : ℕ} (hb : bdim n p = some r) :
    genSsCovmat center f X = .ok ⟨r, r, fun i j =>
      (toMat2 Y).e (if n = 1 then 0 else j) (if p = 1 then 0 else i) *
      (toMat2 Y).e (if n = 1 then 0 else i) (if p = 1 then 0 else j) / n⟩ := by
  have hr : bdim (toMat2 Y).T.rows (toMat2 Y).rows = some r := by
    show bdim p n = some r
    rw [bdim_comm]; exact hb
  have hc : bdim (toMat2 Y).T.cols (toMat2 Y).cols = some r := hb
  unfold genSsCovmat
  simp only [hY, bind, Except.bind, bmul, hr, hc]
  rfl

lemma genSsCovmat_err {n p : ℕ} {center : (Fin n → Fin p → ℝ) → Fin p → ℝ} {f : Radial}
    {X Y : Fin n → Fin p → ℝ} (hY : gsspp f (centreBy center X) = .ok Y) (hb : bdim n p = none) :
    genSsCovmat center f X = .error .valueError := by
  have hr : bdim (toMat2 Y).T.rows (toMat2 Y).rows = none := by
    show bdim p n = none
    rw [bdim_comm]; exact hb
  unfold genSsCovmat
  simp only [hY, bind, Except.bind, bmul, hr]

/-- C25, partial: whatever `gen_ss_covmat` returns is symmetric, and for one case of one variable it is the cross
product of the transformed cases divided by their number.  Missing: everything else, where the code fails or
returns something different (`C25_covmat_violated`, `C25_covmat_square_violated`). -/
theorem C25_covmat_partial {n p : ℕ} (center : (Fin n → Fin p → ℝ) → Fin p → ℝ) (f : Radial)
    (X Y : Fin n → Fin p → ℝ) (hY : gsspp f (fun i j => X i j - center X j) = .ok Y) (M : Mat2)
    (hM : genSsCovmat center f X = .ok M) :
    M.rows = M.cols ∧ (∀ i j, M.e i j = M.e j i) ∧
    (n = 1 → p = 1 → M.rows = 1 ∧ ∀ j : Fin p, M.e 0 0 = (∑ i, Y i j * Y i j) / n) := by
  have hY' : gsspp f (centreBy center X) = .ok Y := hY
  cases hb : bdim n p with
  | none => rw [genSsCovmat_err hY' hb] at hM; simp at hM
  | some r =>
    rw [genSsCovmat_eq hY' hb, Except.ok.injEq] at hM
    subst hM
    refine ⟨rfl, fun i j => ?_, ?_⟩
    · simp only
      congr 1
      exact mul_comm _ _
    · rintro rfl rfl
      refine ⟨?_, ?_⟩
      · simp [bdim] at hb; exact hb.symm
      · intro j
        fin_cases j
        simp [toMat2]

lemma bdim_none {a b : ℕ} (h : a ≠ b) (ha : a ≠ 1) (hb : b ≠ 1) : bdim a b = none := by
  simp [bdim, h, ha, hb]

/-- C25, violated: whenever there are at least two variables and the number of cases is neither one nor the number
of variables, the call fails with a `ValueError`; for a single variable the result has one row and column per
case instead of one per variable. -/
theorem C25_covmat_violated {n p : ℕ} (hn : 0 < n) (hp : p ≤ n)
    (center : (Fin n → Fin p → ℝ) → Fin p → ℝ) (f : Radial) (hf : f ≠ .ss) (X : Fin n → Fin p → ℝ) :
    (n ≠ p → p ≠ 1 → n ≠ 1 → genSsCovmat center f X = .error .valueError) ∧
    (p = 1 → ∃ M, genSsCovmat center f X = .ok M ∧ M.rows = n ∧ M.cols = n) := by
  obtain ⟨Y, hY⟩ := (C23_gss_defined hn f hf (centreBy center X)).1 hp
  constructor
  · intro h1 h2 h3
    exact genSsCovmat_err hY (bdim_none h1 h3 h2)
  · rintro rfl
    have hb : bdim n 1 = some n := by unfold bdim; split_ifs <;> simp_all
    exact ⟨_, genSsCovmat_eq hY hb, rfl, rfl⟩

/-- C25, violated also for as many cases as variables: the two centred cases (0,1) and (1,0), left alone by `winsor`,
have cross product matrix 1/2 times the identity; the code returns the matrix with zero diagonal and 1/2 off the
diagonal, which is not even positive semidefinite. -/
theorem C25_covmat_square_violated :
    ∃ (X : Fin 2 → Fin 2 → ℝ) (M : Mat2), gsspp .winsor X = .ok X ∧
      genSsCovmat (fun _ _ => 0) .winsor X = .ok M ∧ M.rows = 2 ∧ M.cols = 2 ∧
      M.e 0 0 = 0 ∧ (∑ i, X i 0 * X i 0) / 2 = 1 / 2 ∧
      M.e 0 0 * (1 * 1) + M.e 0 1 * (1 * -1) + M.e 1 0 * (-1 * 1) + M.e 1 1 * (-1 * -1) < 0 := by
  set X : Fin 2 → Fin 2 → ℝ := ![![0, 1], ![1, 0]] with hX
  have hl : rowNorms X = fun _ => 1 := by
    funext i; fin_cases i <;> simp [rowNorms, hX]
  have hk : ordStat (fun _ : Fin 2 => (1 : ℝ)) (hIdx 2 2) = .ok 1 :=
    ordStat_iff.mpr ⟨⟨0, rfl⟩, by simp [hIdx], by simp [hIdx]⟩
  have hg : gsspp .winsor X = .ok X := by
    unfold gsspp
    simp only [hl, Radial.apply, winsorF, hk, bind, Except.bind]
    simp
  have hc : centreBy (fun _ _ => 0) X = X := by funext i j; simp [centreBy]
  have hg' : gsspp .winsor (centreBy (fun _ _ => 0) X) = .ok X := by rw [hc, hg]
  refine ⟨X, _, hg, genSsCovmat_eq hg' (by simp [bdim]), rfl, rfl, ?_, ?_, ?_⟩
  · simp [toMat2, hX]
  · simp [hX]
  · simp [toMat2, hX]

/-! ### C77 -/

/-- C77, partial: the one-pass function and the class give the same result for every location estimator.  Missing:
the documented option `center='None'` of the function (`C77_gen_ss_pp_none_violated`). -/
theorem C77_gen_ss_pp_agrees_partial {n p : ℕ} (c : (Fin n → Fin p → ℝ) → Fin p → ℝ) (f : Radial)
    (X : Fin n → Fin p → ℝ) : genSsPp (.estimator c) f X = gssFitTransform c f X :=
  (C24_fit_transform_partial c f X).symm

/-- C77, violated: with the documented option `center='None'` the one-pass function always fails, while the class with
the zero centre transforms the data. -/
theorem C77_gen_ss_pp_none_violated {n p : ℕ} (hn : 0 < n) (hp : p ≤ n) (f : Radial) (X : Fin n → Fin p → ℝ) :
    genSsPp .noneString f X = .error .typeError ∧ ∃ Y, gssFitTransform (fun _ _ => 0) f X = .ok Y := by
  refine ⟨rfl, ?_⟩
  rw [C24_fit_transform_partial]
  by_cases hf : f = .ss
  · subst hf; exact ⟨_, rfl⟩
  · exact (C23_gss_defined hn f hf _).1 hp

/-- A data set with more cases than variables to which C19-C22 apply, with a centre (the mean) that ignores
the order of the cases and follows changes of units. -/
example : ∃ Y, gsspp .linearRedescending (![![1, 0], ![0, 2], ![-3, 1], ![50, 50]] : Fin 4 → Fin 2 → ℝ) = .ok Y :=
  (C23_gss_defined (by norm_num) _ (by decide) _).1 (by norm_num)

example {n p : ℕ} (X : Fin n → Fin p → ℝ) (σ : Equiv.Perm (Fin n)) (a : ℝ) :
    (fun j => (∑ i, X (σ i) j) / n) = (fun j => (∑ i, X i j) / (n : ℝ)) ∧
    (fun j => (∑ i, a * X i j) / n) = fun j => a * ((∑ i, X i j) / (n : ℝ)) := by
  constructor
  · funext j; rw [Equiv.sum_comp σ (fun i => X i j)]
  · funext j; rw [← Finset.mul_sum, mul_div_assoc]

end Direpack
