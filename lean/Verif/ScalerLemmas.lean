import Verif.NumLemmas
import Verif.Scaler

/-! Helper lemmas about arrays, trimmed means and the scaler. -/

set_option linter.unusedSectionVars false

namespace Direpack

lemma mapE_ok {α β : Type} (f : α → Except Err β) (g : α → β) (l : List α)
    (h : ∀ a ∈ l, f a = .ok (g a)) : mapE f l = .ok (l.map g) := by
  induction l with
  | nil => rfl
  | cons a l ih =>
    simp [mapE, h a (by simp), ih (fun b hb => h b (by simp [hb]))]

lemma mapE_inv {α β : Type} (f : α → Except Err β) (l : List α) (r : List β)
    (h : mapE f l = .ok r) : r.length = l.length ∧
      ∀ (i : ℕ) (hi : i < l.length) (hr : i < r.length), f l[i] = .ok r[i] := by
  induction l generalizing r with
  | nil => simp [mapE] at h; subst h; simp
  | cons a l ih =>
    unfold mapE at h
    cases hfa : f a with
    | error e => simp [hfa] at h
    | ok b =>
      cases hl : mapE f l with
      | error e => simp [hfa, hl] at h
      | ok bs =>
        simp [hfa, hl] at h
        subst h
        obtain ⟨h1, h2⟩ := ih bs hl
        refine ⟨by simp [h1], ?_⟩
        intro i hi hr
        cases i with
        | zero => simpa using hfa
        | succ i => simpa using h2 i (by simpa using hi) (by simpa using hr)

lemma mapE_congr {α β : Type} {f g : α → Except Err β} {l : List α}
    (h : ∀ a ∈ l, f a = g a) : mapE f l = mapE g l := by
  induction l with
  | nil => rfl
  | cons a l ih =>
    unfold mapE
    rw [h a (by simp), ih (fun b hb => h b (by simp [hb]))]

section
variable {K : Type} [Field K] [LinearOrder K] [IsStrictOrderedRing K]

lemma idx_lt {n p i j : ℕ} (hi : i < n) (hj : j < p) : i * p + j < n * p := by
  calc i * p + j < i * p + p := by omega
    _ = (i + 1) * p := by ring
    _ ≤ n * p := Nat.mul_le_mul_right p hi

lemma NDArray.col_length {α : Type} (x : NDArray α) {n p j : ℕ} (hx : x.data.length = n * p)
    (hj : j < p) : (x.col n p j).length = n := by
  unfold NDArray.col
  rw [List.length_filterMap_eq_countP, List.countP_eq_length.mpr, List.length_range]
  intro i hi
  rw [List.getElem?_eq_getElem (by rw [hx]; exact idx_lt (List.mem_range.mp hi) hj)]
  rfl

lemma NDArray.col_map {α β : Type} (f : α → β) (x : NDArray α) (sh : List ℕ) (n p j : ℕ) :
    (NDArray.mk sh (x.data.map f)).col n p j = (x.col n p j).map f := by
  unfold NDArray.col
  simp only [List.getElem?_map]
  rw [List.map_filterMap]

/-- The columns of a broadcast row-vector operation. -/
lemma bcast2_col (op : K → K → K) (x : NDArray K) (v : List K) (n p j : ℕ) (hj : j < p)
    (hv : v.length = p) :
    ∃ z, bcast2 op n p x v = .ok z ∧ z.shape = [n, p] ∧ z.data.length = x.data.length ∧
      z.col n p j = (x.col n p j).map (fun a => op a (v.getD j 0)) := by
  unfold bcast2
  rw [if_pos hv]
  refine ⟨_, rfl, rfl, by simp, ?_⟩
  unfold NDArray.col
  rw [List.map_filterMap]
  apply List.filterMap_congr
  intro i _
  have hmod : (i * p + j) % p = j := by
    rw [Nat.add_comm, Nat.add_mul_mod_self_right, Nat.mod_eq_of_lt hj]
  simp only [List.getElem?_map, List.getElem?_zipIdx]
  cases x.data[i * p + j]? <;> simp [hmod]

/-! ### trimmed mean -/

lemma reverse_drop_take {α : Type} (s : List α) (c : ℕ) (hc : c + c ≤ s.length) :
    (s.reverse.drop c).take (s.length - c - c) = ((s.drop c).take (s.length - c - c)).reverse := by
  apply List.ext_getElem
  · simp
  · intro i h1 h2
    simp only [List.length_take, List.length_drop, List.length_reverse] at h1 h2
    simp only [List.getElem_take, List.getElem_drop, List.getElem_reverse, List.length_take,
      List.length_drop]
    congr 1
    omega

lemma meanL_map_affine (a b : K) {l : List K} (hl : l ≠ []) :
    meanL (l.map fun x => a * x + b) = a * meanL l + b := by
  unfold meanL
  have hpos := List.length_pos_of_ne_nil hl
  have hK : (l.length : K) ≠ 0 := by exact_mod_cast hpos.ne'
  have hsum : (l.map fun x => a * x + b).sum = a * l.sum + l.length * b := by
    clear hl hpos hK
    induction l with
    | nil => simp
    | cons x l ih => simp only [List.map_cons, List.sum_cons, ih, List.length_cons]; push_cast; ring
  rw [hsum, List.length_map]
  field_simp

lemma meanL_reverse (l : List K) : meanL l.reverse = meanL l := by
  unfold meanL; rw [List.sum_reverse, List.length_reverse]

lemma meanL_perm {l l' : List K} (h : l.Perm l') : meanL l = meanL l' := by
  unfold meanL; rw [h.sum_eq, h.length_eq]

variable [FloorSemiring K]

/-- Values kept by the trimmed mean. -/
def keptL (l : List K) (t : K) : List K :=
  ((sortL l).drop ⌊t * l.length⌋₊).take (l.length - ⌊t * l.length⌋₊ - ⌊t * l.length⌋₊)

lemma trimMeanL_eq (l : List K) (t : K) :
    trimMeanL l t = if l.length < ⌊t * l.length⌋₊ + ⌊t * l.length⌋₊ then .error .valueError
      else if (keptL l t).length = 0 then .ok none else .ok (some (meanL (keptL l t))) := rfl

lemma keptL_length (l : List K) (t : K) :
    (keptL l t).length = l.length - ⌊t * l.length⌋₊ - ⌊t * l.length⌋₊ := by
  unfold keptL
  simp [sortL_length]

lemma keptL_sublist_perm {l : List K} {t v : K} (h : v ∈ keptL l t) : v ∈ l := by
  unfold keptL at h
  exact sortL_mem.mp (List.mem_of_mem_drop (List.mem_of_mem_take h))

lemma keptL_map_affine (a b : K) (l : List K) (t : K)
    (h : ⌊t * l.length⌋₊ + ⌊t * l.length⌋₊ ≤ l.length) :
    (keptL (l.map fun x => a * x + b) t).Perm ((keptL l t).map fun x => a * x + b) := by
  unfold keptL
  rw [List.length_map]
  rcases le_total 0 a with ha | ha
  · have hf : Monotone (fun x : K => a * x + b) := fun x y h => by
      have := mul_le_mul_of_nonneg_left h ha
      simp only; linarith
    rw [sortL_map_mono hf, ← List.map_drop, ← List.map_take]
  · have hf : Antitone (fun x : K => a * x + b) := fun x y h => by
      have := mul_le_mul_of_nonpos_left h ha
      simp only; linarith
    have hlen : ((sortL l).map fun x => a * x + b).length = l.length := by simp [sortL_length]
    have := reverse_drop_take ((sortL l).map fun x => a * x + b) ⌊t * l.length⌋₊ (by rw [hlen]; exact h)
    rw [hlen] at this
    rw [sortL_map_anti hf, this]
    refine (List.reverse_perm _).trans ?_
    rw [← List.map_drop, ← List.map_take]

lemma trimMeanL_map_affine (a b : K) (l : List K) (t : K) :
    trimMeanL (l.map fun x => a * x + b) t =
      (trimMeanL l t).map (fun o => o.map fun m => a * m + b) := by
  rw [trimMeanL_eq, trimMeanL_eq, List.length_map]
  split_ifs with h1 h2 h3 h3
  · rfl
  · rfl
  · exfalso; rw [keptL_length, List.length_map] at h2; rw [keptL_length] at h3; exact h3 h2
  · exfalso; rw [keptL_length, List.length_map] at h2; rw [keptL_length] at h3; exact h2 h3
  · rw [meanL_perm (keptL_map_affine a b l t (by omega)),
      meanL_map_affine a b (by intro h; simp [h] at h3)]
    rfl

lemma trimMeanL_perm {l l' : List K} (h : l.Perm l') (t : K) : trimMeanL l t = trimMeanL l' t := by
  rw [trimMeanL_eq, trimMeanL_eq]
  unfold keptL
  rw [h.length_eq, sortL_congr h]

end
end Direpack
