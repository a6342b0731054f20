import Mathlib.Tactic.Linarith
import Mathlib.Tactic.FieldSimp
import Mathlib.Tactic.Positivity
import Mathlib.LinearAlgebra.Matrix.NonsingularInverse
import Mathlib.Algebra.BigOperators.Field
import Verif.Spec.Sudire
import Verif.Props.Discretize

/-! Properties C62 and C63: the slicing methods. -/

namespace Direpack

open scoped BigOperators
open Spec

variable {n p : ℕ}

/-! ### Labels -/

lemma varL_eq_zero_iff {l : List ℝ} (hl : l ≠ []) : varL l = 0 ↔ ∀ a ∈ l, a = meanL l := by
  have hn : 0 < l.length := List.length_pos_iff.mpr hl
  have h := var_eq_zero_iff hn l.get
  have e1 : var l.get = varL l := by unfold var; rw [List.ofFn_get]
  have e2 : mean l.get = meanL l := by unfold mean; rw [List.ofFn_get]
  rw [e1, e2] at h
  rw [h]
  constructor
  · intro h a ha
    obtain ⟨i, rfl⟩ := List.mem_iff_get.mp ha
    exact h i
  · intro h i
    exact h _ (List.get_mem _ _)

/-- All entries are equal. -/
def AllSame (l : List ℝ) : Prop := ∀ a ∈ l, ∀ b ∈ l, a = b

lemma varL_zero_iff_same {l : List ℝ} (hl : l ≠ []) : varL l = 0 ↔ AllSame l := by
  rw [varL_eq_zero_iff hl]
  constructor
  · intro h a ha b hb
    rw [h a ha, h b hb]
  · intro h a ha
    have hn : (l.length : ℝ) ≠ 0 := by exact_mod_cast (List.length_pos_iff.mpr hl).ne'
    have : l = List.replicate l.length a := List.eq_replicate_iff.mpr ⟨rfl, fun b hb => h b hb a ha⟩
    have hs : l.sum = l.length * a := by
      conv_lhs => rw [this]
      rw [List.sum_replicate, nsmul_eq_mul]
    unfold meanL
    rw [hs]
    field_simp

/-- The labels collected so far and the rest. -/
lemma labelLoop_spec : ∀ (fuel : ℕ) (l : List ℝ), l ≠ [] → l.length ≤ fuel →
    (labelLoop fuel l).2 ≠ [] ∧ AllSame (labelLoop fuel l).2 ∧ (labelLoop fuel l).1.Nodup ∧
    (∀ a ∈ (labelLoop fuel l).1, a ∉ (labelLoop fuel l).2) ∧ (∀ a, a ∈ l ↔ a ∈ (labelLoop fuel l).1 ∨ a ∈ (labelLoop fuel l).2)
  | 0, l, hl, hf => by
    exact absurd (List.length_eq_zero_iff.mp (Nat.le_zero.mp hf)) hl
  | fuel + 1, [], hl, _ => absurd rfl hl
  | fuel + 1, a :: r, hl, hf => by
    by_cases hv : varL (a :: r) = 0
    · have hsame := (varL_zero_iff_same hl).mp hv
      have : ∀ f, labelLoop f (a :: r) = ([], a :: r) := by
        intro f
        induction f with
        | zero => rfl
        | succ f ih => rw [labelLoop, if_neg (not_not.mpr hv), ih]
      rw [this]
      exact ⟨by simp, hsame, by simp, by simp, by simp⟩
    · have hns : ¬ AllSame (a :: r) := fun h => hv ((varL_zero_iff_same hl).mpr h)
      have hne : (a :: r).filter (fun b => decide (b ≠ a)) ≠ [] := by
        intro he
        apply hns
        have h1 : ∀ b ∈ a :: r, b = a := by
          intro b hb
          by_contra hc
          have : b ∈ (a :: r).filter (fun b => decide (b ≠ a)) := List.mem_filter.mpr ⟨hb, by simpa using hc⟩
          rw [he] at this
          simp at this
        intro b hb c hc
        rw [h1 b hb, h1 c hc]
      have hlen : ((a :: r).filter (fun b => decide (b ≠ a))).length ≤ fuel := by
        have : ((a :: r).filter (fun b => decide (b ≠ a))) = r.filter (fun b => decide (b ≠ a)) := by
          rw [List.filter_cons]
          simp
        rw [this]
        have h2 := List.length_filter_le (fun b => decide (b ≠ a)) r
        simp only [List.length_cons] at hf
        omega
      obtain ⟨h1, h2, h3, h4, h5⟩ := labelLoop_spec fuel _ hne hlen
      rw [labelLoop, if_pos hv]
      dsimp only
      have hna1 : a ∉ (labelLoop fuel ((a :: r).filter fun b => decide (b ≠ a))).1 := by
        intro h
        have := (h5 a).mpr (Or.inl h)
        simp at this
      have hna2 : a ∉ (labelLoop fuel ((a :: r).filter fun b => decide (b ≠ a))).2 := by
        intro h
        have := (h5 a).mpr (Or.inr h)
        simp at this
      refine ⟨h1, h2, List.nodup_cons.mpr ⟨hna1, h3⟩, ?_, ?_⟩
      · intro b hb
        rcases List.mem_cons.mp hb with rfl | hb
        · exact hna2
        · exact h4 b hb
      · intro b
        by_cases hba : b = a
        · subst hba
          simp
        · have h6 := h5 b
          rw [List.mem_filter] at h6
          simp only [ne_eq, hba, not_false_eq_true, decide_true, and_true] at h6
          rw [h6, List.mem_cons, or_iff_right hba]

/-- Every observed label is used exactly once. -/
lemma yLabels_spec (y : Fin n → ℝ) (hn : 0 < n) : ∃ l, yLabels y = .ok l ∧ l.Nodup ∧ ∀ a, a ∈ l ↔ ∃ c, y c = a := by
  have hne := ofFn_ne_nil hn y
  obtain ⟨h1, h2, h3, h4, h5⟩ := labelLoop_spec n (List.ofFn y) hne (by simp)
  unfold yLabels
  generalize labelLoop n (List.ofFn y) = res at *
  obtain ⟨acc, rest⟩ := res
  cases rest with
  | nil => exact absurd rfl h1
  | cons a r =>
    refine ⟨_, rfl, ?_, ?_⟩
    · rw [List.nodup_append]
      refine ⟨h3, by simp, ?_⟩
      intro b hb c hc
      rw [List.mem_singleton] at hc
      subst hc
      intro hbc
      subst hbc
      exact h4 b hb (List.mem_cons_self ..)
    · intro b
      have h6 := h5 b
      rw [List.mem_ofFn' ] at h6
      have h7 : b ∈ a :: r ↔ b = a := by
        constructor
        · intro hb; exact h2 b hb a (List.mem_cons_self ..)
        · rintro rfl; exact List.mem_cons_self ..
      rw [List.mem_append, List.mem_singleton, ← h7, ← h6]
      rfl

/-- The number of distinct labels. -/
noncomputable def numLabels (y : Fin n → ℝ) : ℕ := (Finset.univ.image y).card

lemma yLabels_length (y : Fin n → ℝ) {l : List ℝ} (h : l.Nodup) (hm : ∀ a, a ∈ l ↔ ∃ c, y c = a) : l.length = numLabels y := by
  classical
  have : l.toFinset = Finset.univ.image y := by
    ext a
    simp [hm]
  unfold numLabels
  rw [← this, List.toFinset_card_of_nodup h]

/-- C63: with fewer distinct labels than slices the slicing methods raise instead of assigning cases wrongly. -/
theorem C63_too_few_labels (y : Fin n → ℝ) (hn : 0 < n) (s : ℕ) (hs : numLabels y < s) :
    sliceLabels y s = .error .indexError := by
  obtain ⟨l, hl, hnd, hm⟩ := yLabels_spec y hn
  unfold sliceLabels
  rw [hl]
  dsimp only
  rw [dif_neg]
  rw [yLabels_length y hnd hm]
  omega

/-- C63: otherwise each of the slices has a label of its own, which is an observed one. -/
theorem C63_labels (y : Fin n → ℝ) (hn : 0 < n) (s : ℕ) (hs : s ≤ numLabels y) :
    ∃ lab, sliceLabels y s = .ok lab ∧ Function.Injective lab ∧ ∀ i, ∃ c, y c = lab i := by
  obtain ⟨l, hl, hnd, hm⟩ := yLabels_spec y hn
  have hlen := yLabels_length y hnd hm
  have hsl : s ≤ l.length := by omega
  unfold sliceLabels
  rw [hl]
  dsimp only
  rw [dif_pos hsl]
  refine ⟨_, rfl, ?_, fun i => (hm _).mp (List.get_mem _ _)⟩
  intro i j hij
  have := (List.nodup_iff_injective_get.mp hnd) hij
  simpa [Fin.ext_iff] using this

/-- C63: without slices SIR and DR fail. -/
theorem C63_no_slices (m : SdrMethod) (hm : m ≠ .save) (eigh : Eigh) (X : Fin n → Fin p → ℝ) (y : Fin n → ℝ) (d : ℕ) (cont center scale : Bool) :
    ∃ e, sliceMethod m eigh X y 0 d cont center scale = .error e := by
  unfold sliceMethod
  split
  · exact ⟨_, rfl⟩
  · split
    · exact ⟨_, rfl⟩
    · dsimp only
      split
      · exact ⟨_, rfl⟩
      · split
        · exact ⟨_, rfl⟩
        · rw [if_pos ⟨rfl, hm⟩]; exact ⟨_, rfl⟩

/-- C61: the response that the slicing methods work with: a response declared continuous is replaced by slice numbers that are in order of the response; any other response
is used as it is. -/
theorem C61_response (y : Fin n → ℝ) (s : ℕ) (hn : 0 < n) (hs : 2 ≤ s) :
    sliceResponse false y s = .ok y ∧
    ∃ lab : Fin n → ℕ, sliceResponse true y s = .ok (fun c => (lab c : ℝ)) ∧ (∀ c, 1 ≤ lab c ∧ lab c ≤ s) ∧ ∀ c d, y c ≤ y d → lab c ≤ lab d := by
  refine ⟨rfl, ?_⟩
  obtain ⟨lab, h1, h2, h3, -⟩ := C61_labels y s hn hs
  exact ⟨lab, by rw [sliceResponse, if_pos rfl, h1], h2, h3⟩

lemma sum_sliceProb_le (y : Fin n → ℝ) {s : ℕ} (lab : Fin s → ℝ) (hinj : Function.Injective lab) :
    ∑ i, sliceProb y (lab i) = (Finset.univ.filter fun c => ∃ i, y c = lab i).card / (n : ℝ) := by
  classical
  unfold sliceProb
  rw [← Finset.sum_div]
  congr 1
  rw [← Nat.cast_sum]
  congr 1
  rw [← Finset.card_biUnion]
  · congr 1
    ext c
    simp [inSlice]
  · intro i _ j _ hij
    rw [Function.onFun, Finset.disjoint_left]
    intro c hc hc'
    simp only [inSlice, Finset.mem_filter, Finset.mem_univ, true_and] at hc hc'
    exact hij (hinj (hc.symm.trans hc'))

/-- C63 (partial: as many slices as distinct labels): the slices cover all cases, so their proportions add up to one. -/
theorem C63_proportions_partial (y : Fin n → ℝ) (hn : 0 < n) (s : ℕ) (hs : s = numLabels y) :
    ∃ lab, sliceLabels y s = .ok lab ∧ (∀ c, ∃ i, y c = lab i) ∧ ∑ i, sliceProb y (lab i) = 1 := by
  obtain ⟨l, hl, hnd, hm⟩ := yLabels_spec y hn
  have hlen := yLabels_length y hnd hm
  have hsl : s ≤ l.length := by omega
  have hok : sliceLabels y s = .ok fun i => l.get (Fin.castLE hsl i) := by
    unfold sliceLabels
    rw [hl]
    dsimp only
    rw [dif_pos hsl]
  have hcov : ∀ c, ∃ i : Fin s, y c = l.get (Fin.castLE hsl i) := by
    intro c
    obtain ⟨i, hi⟩ := List.mem_iff_get.mp ((hm (y c)).mpr ⟨c, rfl⟩)
    refine ⟨⟨i.1, by have := i.2; omega⟩, ?_⟩
    rw [← hi]
    rfl
  obtain ⟨lab, hlab, hinj, -⟩ := C63_labels y hn s (by omega)
  rw [hok] at hlab
  cases hlab
  refine ⟨_, hok, hcov, ?_⟩
  rw [sum_sliceProb_le y _ hinj]
  have : (Finset.univ.filter fun c => ∃ i : Fin s, y c = l.get (Fin.castLE hsl i)) = Finset.univ := by
    ext c
    simp only [Finset.mem_filter, Finset.mem_univ, true_and, iff_true]
    exact hcov c
  rw [this, Finset.card_univ, Fintype.card_fin]
  have : (n : ℝ) ≠ 0 := by exact_mod_cast hn.ne'
  field_simp

/-- C63 is violated when there are more distinct labels than slices: the cases of some label are in no slice, and the proportions add up to less
than one. -/
theorem C63_proportions_violated (y : Fin n → ℝ) (hn : 0 < n) (s : ℕ) (hs : s < numLabels y) :
    ∃ lab, sliceLabels y s = .ok lab ∧ (∃ c, ∀ i, y c ≠ lab i) ∧ ∑ i, sliceProb y (lab i) < 1 := by
  classical
  obtain ⟨lab, hlab, hinj, hobs⟩ := C63_labels y hn s (by omega)
  have hex : ∃ c, ∀ i, y c ≠ lab i := by
    by_contra hc
    push Not at hc
    have : Finset.univ.image y ⊆ Finset.univ.image lab := by
      intro a ha
      obtain ⟨c, -, rfl⟩ := Finset.mem_image.mp ha
      obtain ⟨i, hi⟩ := hc c
      exact Finset.mem_image.mpr ⟨i, Finset.mem_univ _, hi.symm⟩
    have h1 := Finset.card_le_card this
    rw [Finset.card_image_of_injective _ hinj, Finset.card_univ, Fintype.card_fin] at h1
    unfold numLabels at hs
    omega
  refine ⟨lab, hlab, hex, ?_⟩
  obtain ⟨c, hc⟩ := hex
  rw [sum_sliceProb_le y lab hinj, div_lt_one (by exact_mod_cast hn)]
  have : (Finset.univ.filter fun c => ∃ i, y c = lab i) ⊂ Finset.univ := by
    rw [Finset.ssubset_univ_iff]
    intro h
    have := h ▸ Finset.mem_univ c
    rw [Finset.mem_filter] at this
    obtain ⟨i, hi⟩ := this.2
    exact hc i hi
  have h1 := Finset.card_lt_card this
  rw [Finset.card_univ, Fintype.card_fin] at h1
  exact_mod_cast h1

/-- Three cases with two labels. -/
example : numLabels (![1, 2, 1] : Fin 3 → ℝ) = 2 := by
  classical
  have : Finset.univ.image (![1, 2, 1] : Fin 3 → ℝ) = {1, 2} := by
    ext a
    simp [Fin.exists_fin_succ, eq_comm]
    tauto
  unfold numLabels
  rw [this, Finset.card_pair (by norm_num)]

/-! ### Kernel matrices -/

lemma quadForm_eq (A : Matrix (Fin p) (Fin p) ℝ) (v : Fin p → ℝ) : quad A v = v ⬝ᵥ A.mulVec v := by
  unfold quad dotProduct Matrix.mulVec dotProduct
  refine Finset.sum_congr rfl fun j _ => ?_
  rw [Finset.mul_sum]
  exact Finset.sum_congr rfl fun k _ => by ring

lemma quad_add (A B : Matrix (Fin p) (Fin p) ℝ) (v : Fin p → ℝ) : quad (A + B) v = quad A v + quad B v := by
  rw [quadForm_eq, quadForm_eq, quadForm_eq, Matrix.add_mulVec, dotProduct_add]

lemma quad_smul (a : ℝ) (A : Matrix (Fin p) (Fin p) ℝ) (v : Fin p → ℝ) : quad (a • A) v = a * quad A v := by
  rw [quadForm_eq, quadForm_eq, Matrix.smul_mulVec, dotProduct_smul, smul_eq_mul]

lemma quad_sum {ι : Type} (s : Finset ι) (A : ι → Matrix (Fin p) (Fin p) ℝ) (v : Fin p → ℝ) :
    quad (∑ i ∈ s, A i) v = ∑ i ∈ s, quad (A i) v := by
  classical
  induction s using Finset.induction_on with
  | empty => simp [quad]
  | insert a s ha ih => rw [Finset.sum_insert ha, Finset.sum_insert ha, quad_add, ih]

/-- `Aᵀ A` has a nonnegative quadratic form. -/
lemma quad_gram {m : ℕ} (A : Matrix (Fin m) (Fin p) ℝ) (v : Fin p → ℝ) : quad (A.transpose * A) v = ∑ i, (A.mulVec v i) ^ 2 := by
  rw [quadForm_eq, ← Matrix.mulVec_mulVec, Matrix.dotProduct_mulVec, Matrix.vecMul_transpose]
  unfold dotProduct
  exact Finset.sum_congr rfl fun i _ => (pow_two _).symm

lemma quad_diag_gram {m : ℕ} (A : Matrix (Fin m) (Fin p) ℝ) (d : Fin m → ℝ) (v : Fin p → ℝ) :
    quad (A.transpose * Matrix.diagonal d * A) v = ∑ i, d i * (A.mulVec v i) ^ 2 := by
  rw [quadForm_eq, ← Matrix.mulVec_mulVec, ← Matrix.mulVec_mulVec, Matrix.dotProduct_mulVec, Matrix.vecMul_transpose]
  unfold dotProduct
  refine Finset.sum_congr rfl fun i _ => ?_
  rw [Matrix.mulVec_diagonal]
  ring

lemma sliceProb_nonneg (y : Fin n → ℝ) (a : ℝ) : 0 ≤ sliceProb y a := by unfold sliceProb; positivity

lemma sliceCov_symm (X : Fin n → Fin p → ℝ) (y : Fin n → ℝ) (a : ℝ) : (sliceCov X y a).transpose = sliceCov X y a := by
  unfold sliceCov
  split
  · ext j k
    simp only [Matrix.transpose_apply, Matrix.of_apply]
    congr 1
    exact Finset.sum_congr rfl fun c _ => mul_comm _ _
  · exact Matrix.transpose_one

lemma outer_symm (v : Fin p → ℝ) : (outer v).transpose = outer v := by
  ext j k; simp [outer, mul_comm]

/-- C62: the SIR matrix is symmetric positive semidefinite. -/
theorem C62_sir_psd {s : ℕ} (X : Fin n → Fin p → ℝ) (y : Fin n → ℝ) (lab : Fin s → ℝ) : IsPSD (sirMat X y lab) := by
  constructor
  · unfold sirMat
    rw [Matrix.transpose_mul, Matrix.transpose_mul, Matrix.transpose_transpose, Matrix.diagonal_transpose, Matrix.mul_assoc]
  · intro v
    unfold sirMat
    rw [quad_diag_gram]
    exact Finset.sum_nonneg fun i _ => mul_nonneg (sliceProb_nonneg _ _) (sq_nonneg _)

/-- C62: the SAVE matrix is symmetric positive semidefinite. -/
theorem C62_save_psd {s : ℕ} (X : Fin n → Fin p → ℝ) (y : Fin n → ℝ) (lab : Fin s → ℝ) : IsPSD (saveMat X y lab) := by
  have hs : ∀ i, (sliceCov X y (lab i) - 1).transpose = sliceCov X y (lab i) - 1 := by
    intro i
    rw [Matrix.transpose_sub, Matrix.transpose_one, sliceCov_symm]
  constructor
  · unfold saveMat
    rw [Matrix.transpose_sum]
    refine Finset.sum_congr rfl fun i _ => ?_
    rw [Matrix.transpose_smul, Matrix.transpose_mul, hs]
  · intro v
    unfold saveMat
    rw [quad_sum]
    refine Finset.sum_nonneg fun i _ => ?_
    rw [quad_smul]
    refine mul_nonneg (sliceProb_nonneg _ _) ?_
    have : (sliceCov X y (lab i) - 1) * (sliceCov X y (lab i) - 1) =
        (sliceCov X y (lab i) - 1).transpose * (sliceCov X y (lab i) - 1) := by rw [hs]
    rw [this, quad_gram]
    exact Finset.sum_nonneg fun i _ => sq_nonneg _

/-- C62: the quadratic form of the SIR matrix is the between slice variation of the projected data. -/
theorem C62_sir_between {s : ℕ} (X : Fin n → Fin p → ℝ) (y : Fin n → ℝ) (lab : Fin s → ℝ) (v : Fin p → ℝ) :
    quad (sirMat X y lab) v = ∑ i, sliceProb y (lab i) * (∑ j, sliceMean X y (lab i) j * v j) ^ 2 := by
  unfold sirMat
  rw [quad_diag_gram]
  rfl

/-- C62: the slice means, weighted by the slice proportions, average to the mean of the data when the slices cover all cases. -/
theorem C62_slice_means (y : Fin n → ℝ) (X : Fin n → Fin p → ℝ) {s : ℕ} (lab : Fin s → ℝ)
    (hinj : Function.Injective lab) (hcov : ∀ c, ∃ i, y c = lab i) (j : Fin p) :
    ∑ i, sliceProb y (lab i) * sliceMean X y (lab i) j = mean fun c => X c j := by
  classical
  have h1 : ∀ i, sliceProb y (lab i) * sliceMean X y (lab i) j = (∑ c ∈ inSlice y (lab i), X c j) / n := by
    intro i
    unfold sliceProb sliceMean
    rcases Nat.eq_zero_or_pos (inSlice y (lab i)).card with h0 | h0
    · rw [Finset.card_eq_zero.mp h0]; simp
    · have : ((inSlice y (lab i)).card : ℝ) ≠ 0 := by exact_mod_cast h0.ne'
      field_simp
  rw [mean_eq, Finset.sum_congr rfl fun i _ => h1 i, ← Finset.sum_div]
  congr 1
  rw [← Finset.sum_biUnion]
  · refine Finset.sum_congr ?_ fun _ _ => rfl
    ext c
    simp only [Finset.mem_biUnion, Finset.mem_univ, true_and, inSlice, Finset.mem_filter, iff_true]
    exact hcov c
  · intro i _ k _ hik
    rw [Function.onFun, Finset.disjoint_left]
    intro c hc hc'
    simp only [inSlice, Finset.mem_filter, Finset.mem_univ, true_and] at hc hc'
    exact hik (hinj (hc.symm.trans hc'))

/-- The hypotheses of the last theorem are met by the labels used in the code whenever there are as many slices as labels. -/
example (y : Fin n → ℝ) (hn : 0 < n) : ∃ lab, sliceLabels y (numLabels y) = .ok lab ∧ Function.Injective lab ∧ ∀ c, ∃ i, y c = lab i := by
  obtain ⟨lab, h1, h2, -⟩ := C63_proportions_partial y hn _ rfl
  obtain ⟨lab', h3, h4, -⟩ := C63_labels y hn _ le_rfl
  rw [h1] at h3
  cases h3
  exact ⟨lab, h1, h4, h2⟩

/-- Symmetry of the kernel of every slicing method. -/
lemma kernel_symm (m : SdrMethod) {s : ℕ} (X : Fin n → Fin p → ℝ) (y : Fin n → ℝ) (lab : Fin s → ℝ) :
    (m.kernel X y lab).transpose = m.kernel X y lab := by
  cases m with
  | sir => exact (C62_sir_psd X y lab).1
  | save => exact (C62_save_psd X y lab).1
  | dr =>
    unfold SdrMethod.kernel drMat
    have h2 : (∑ i, sliceProb y (lab i) • outer (sliceMean X y (lab i))).transpose =
        ∑ i, sliceProb y (lab i) • outer (sliceMean X y (lab i)) := by
      rw [Matrix.transpose_sum]
      exact Finset.sum_congr rfl fun i _ => by rw [Matrix.transpose_smul, outer_symm]
    have hb : ∀ i, (sliceCov X y (lab i) + outer (sliceMean X y (lab i))).transpose =
        sliceCov X y (lab i) + outer (sliceMean X y (lab i)) := by
      intro i; rw [Matrix.transpose_add, sliceCov_symm, outer_symm]
    have h1 : (∑ i, sliceProb y (lab i) • ((sliceCov X y (lab i) + outer (sliceMean X y (lab i))) *
          (sliceCov X y (lab i) + outer (sliceMean X y (lab i))))).transpose =
        ∑ i, sliceProb y (lab i) • ((sliceCov X y (lab i) + outer (sliceMean X y (lab i))) *
          (sliceCov X y (lab i) + outer (sliceMean X y (lab i)))) := by
      rw [Matrix.transpose_sum]
      exact Finset.sum_congr rfl fun i _ => by rw [Matrix.transpose_smul, Matrix.transpose_mul, hb]
    simp only [Matrix.transpose_sub, Matrix.transpose_add, Matrix.transpose_smul, Matrix.transpose_mul, h1, h2, Matrix.transpose_one]

end Direpack
