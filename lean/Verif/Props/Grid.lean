import Mathlib.Tactic.LinearCombination
import Mathlib.Tactic.FieldSimp
import Mathlib.Tactic.FinCases
import Mathlib.Analysis.SpecialFunctions.Trigonometric.Complex
import Verif.Grid
import Verif.Spec.PP

/-!
Properties of the grid search: C53, C54, C55, C56, C59, C82.
-/

namespace Direpack

/-! ### The angles -/

lemma stop0c_eq : stop0c = 0 := by simp [stop0c, npSign, optrange]
lemma stop0s_eq : stop0s = -(Real.pi / 2) := by
  have : npSign (-1) = -1 := by unfold npSign; norm_num
  simp [stop0s, optrange, this]
lemma stop1s_eq : stop1s = Real.pi / 2 := by simp [stop1s, npSign, optrange]
lemma stop1c_eq : stop1c = Real.pi := by
  have : npSign (-1) = -1 := by unfold npSign; norm_num
  simp [stop1c, optrange, this]

lemma dirOf_eq (θ : ℝ) : dirOf θ = planeDir θ := by
  simp [dirOf, planeDir, optrange]

lemma planeDir_unit (θ : ℝ) : UnitLen (planeDir θ) := by
  simp [UnitLen, planeDir, Fin.sum_univ_two]

lemma cand1_eq (ndir k : ℕ) : cand1 ndir k = planeDir (k * (Real.pi / ndir)) := by
  have h := Real.pi_pos
  unfold cand1 linOpen
  rw [stop0c_eq, stop0s_eq, stop1c_eq, stop1s_eq, dirOf_eq, max_eq_left (by linarith), max_eq_left (by linarith)]
  simp

/-- Angle `k` of the refinement grid. -/
noncomputable def angle2 (ndir k : ℕ) : ℝ :=
  if ndir ≤ 1 then -(Real.pi / 2) else -(Real.pi / 2) + k * (Real.pi / ((ndir : ℝ) - 1))

lemma cand2_eq (ndir k : ℕ) : cand2 ndir k = planeDir (angle2 ndir k) := by
  have h := Real.pi_pos
  unfold cand2 linClosed angle2
  rw [stop0c_eq, stop0s_eq, stop1c_eq, stop1s_eq, dirOf_eq, min_eq_right (by linarith), min_eq_right (by linarith)]
  split
  · rfl
  · congr 3
    ring

/-! ### The maximum over a grid -/

lemma firstMax_some {l : List ℝ} {k : ℕ} {m : ℝ} (h : firstMax l = some (k, m)) :
    ∃ hk : k < l.length, l[k] = m ∧ (∀ v ∈ l, v ≤ m) ∧ ∀ i (hi : i < l.length), i < k → l[i] ≠ m := by
  unfold firstMax at h
  split at h
  · simp at h
  · rename_i m' hm'
    simp only [Option.some.injEq, Prod.mk.injEq] at h
    obtain ⟨rfl, rfl⟩ := h
    obtain ⟨hmem, hle⟩ := List.max?_eq_some_iff.mp hm'
    have hk : l.findIdx (fun v => decide (v = m')) < l.length :=
      List.findIdx_lt_length_of_exists ⟨m', hmem, by simp⟩
    refine ⟨hk, ?_, hle, ?_⟩
    · have := List.findIdx_getElem (w := hk)
      simpa using this
    · intro i hi hlt
      have := List.not_of_lt_findIdx hlt
      simpa using this

lemma firstMax_none {l : List ℝ} (h : firstMax l = none) : l = [] := by
  unfold firstMax at h
  split at h
  · rename_i h'; exact List.max?_eq_none_iff.mp h'
  · simp at h

/-- The best of a list of candidates, characterised without the model's search. -/
def IsFirstBest (N : ℕ) (val : ℕ → ℝ) (k : ℕ) (m : ℝ) : Prop :=
  k < N ∧ val k = m ∧ (∀ i < N, val i ≤ m) ∧ ∀ i < k, val i < m

lemma firstMax_range {N : ℕ} {val : ℕ → ℝ} {k : ℕ} {m : ℝ} (h : firstMax ((List.range N).map val) = some (k, m)) :
    IsFirstBest N val k m := by
  obtain ⟨hk, hv, hle, hne⟩ := firstMax_some h
  simp only [List.length_map, List.length_range] at hk
  have hle' : ∀ i < N, val i ≤ m := fun i hi => hle _ (List.mem_map_of_mem (List.mem_range.mpr hi))
  refine ⟨hk, by simpa using hv, hle', fun i hi => lt_of_le_of_ne (hle' i (hi.trans hk)) ?_⟩
  have := hne i (by simpa using hi.trans hk) hi
  simpa using this

lemma proj2_eq {n : ℕ} (X : Fin n → Fin 2 → ℝ) (a : Fin 2 → ℝ) : proj2 X a = projectOn X a := by
  funext i
  simp [projectOn, proj2, Fin.sum_univ_two]

/-- C54: `gridplane` returns a direction attaining the maximum of the index over the `ndir` equally spaced angles of the half
circle, the first of them in case of ties, with that maximum. -/
theorem C54_gridplane_best {n : ℕ} (φ : (Fin n → ℝ) → ℝ) (sq : Bool) (ndir : ℕ) (X : Fin n → Fin 2 → ℝ)
    (w : Fin 2 → ℝ) (m : ℝ) (h : gridplane φ sq ndir X = .ok (w, m)) :
    ∃ k : ℕ, w = planeDir (k * (Real.pi / ndir)) ∧
      IsFirstBest ndir (fun i => criterion φ sq (projectOn X (planeDir (i * (Real.pi / ndir))))) k m := by
  unfold gridplane at h
  split at h
  · simp at h
  · rename_i k m' hk
    simp only [Except.ok.injEq, Prod.mk.injEq] at h
    obtain ⟨rfl, rfl⟩ := h
    refine ⟨k, cand1_eq _ _, ?_⟩
    have := firstMax_range hk
    simp only [cand1_eq] at this
    simp only [proj2_eq] at this
    exact this

/-- C54: the search succeeds as soon as there is one candidate. -/
theorem C54_gridplane_total {n : ℕ} (φ : (Fin n → ℝ) → ℝ) (sq : Bool) (ndir : ℕ) (hn : 0 < ndir)
    (X : Fin n → Fin 2 → ℝ) : ∃ w m, gridplane φ sq ndir X = .ok (w, m) := by
  unfold gridplane
  split
  · rename_i h
    have := firstMax_none h
    simp at this
    omega
  · exact ⟨_, _, rfl⟩

/-- C53: the candidates, and hence the direction returned, are unit vectors at the equally spaced angles `k π/ndir` of
the half circle; the first is `(1,0)`; and every direction of the plane is, up to sign, within half a step
of some candidate. -/
theorem C53_candidates {n : ℕ} (φ : (Fin n → ℝ) → ℝ) (sq : Bool) (ndir : ℕ) (hn : 0 < ndir) (X : Fin n → Fin 2 → ℝ)
    (w : Fin 2 → ℝ) (m : ℝ) (h : gridplane φ sq ndir X = .ok (w, m)) :
    UnitLen w ∧ (∃ k : ℕ, k < ndir ∧ w = planeDir (k * (Real.pi / ndir))) ∧
    criterion φ sq (fun i => X i 0) ≤ m ∧
    ∀ θ : ℝ, ∃ k : ℕ, k < ndir ∧ ∃ c, (c = planeDir (k * (Real.pi / ndir)) ∨ c = -planeDir (k * (Real.pi / ndir))) ∧
      ∃ δ : ℝ, |δ| ≤ Real.pi / (2 * ndir) ∧ c = planeDir (θ + δ) := by
  obtain ⟨k, rfl, hk, hv, hle, hlt⟩ := C54_gridplane_best φ sq ndir X w m h
  have hN : (0 : ℝ) < ndir := by exact_mod_cast hn
  have hpi := Real.pi_pos
  refine ⟨planeDir_unit _, ⟨k, hk, rfl⟩, ?_, ?_⟩
  · have h0 := hle 0 hn
    have : projectOn X (planeDir (((0 : ℕ) : ℝ) * (Real.pi / ndir))) = fun i => X i 0 := by
      funext i
      simp [projectOn, planeDir, Fin.sum_univ_two]
    simp only [this] at h0
    exact h0
  · intro θ
    let r : ℤ := round (θ * ndir / Real.pi)
    have hr : |θ * ndir / Real.pi - r| ≤ 1 / 2 := abs_sub_round _
    have hNz : (ndir : ℤ) ≠ 0 := by exact_mod_cast hn.ne'
    have hmod0 := Int.emod_nonneg r hNz
    have hmodlt := Int.emod_lt_of_pos r (show (0 : ℤ) < ndir by exact_mod_cast hn)
    let k := (r % ndir).toNat
    have hkr : ((k : ℕ) : ℝ) = ((r % (ndir : ℤ) : ℤ) : ℝ) := by
      have : ((k : ℕ) : ℤ) = r % ndir := Int.toNat_of_nonneg hmod0
      exact_mod_cast this
    have hdm : (r : ℝ) = ndir * ((r / (ndir : ℤ) : ℤ) : ℝ) + k := by
      rw [hkr]
      have := Int.mul_ediv_add_emod r ndir
      exact_mod_cast this.symm
    set m' : ℤ := r / (ndir : ℤ)
    let δ : ℝ := r * (Real.pi / ndir) - θ
    have hδ : |δ| ≤ Real.pi / (2 * ndir) := by
      have h1 : δ = -((θ * ndir / Real.pi - r) * (Real.pi / ndir)) := by
        simp only [δ]; field_simp; ring
      rw [h1, abs_neg, abs_mul, abs_of_pos (div_pos hpi hN)]
      calc _ ≤ 1 / 2 * (Real.pi / ndir) := mul_le_mul_of_nonneg_right hr (div_pos hpi hN).le
        _ = _ := by ring
    have hang : θ + δ = k * (Real.pi / ndir) + m' * Real.pi := by
      simp only [δ]; rw [hdm]; field_simp; ring
    refine ⟨k, by omega, planeDir (θ + δ), ?_, δ, hδ, rfl⟩
    rw [hang]
    rcases Int.even_or_odd' m' with ⟨c, hc | hc⟩
    · left
      have : (m' : ℝ) * Real.pi = c * (2 * Real.pi) := by rw [hc]; push_cast; ring
      simp only [planeDir, this, Real.cos_add_int_mul_two_pi, Real.sin_add_int_mul_two_pi]
    · right
      have : ((k : ℕ) : ℝ) * (Real.pi / ndir) + (m' : ℝ) * Real.pi =
          (k * (Real.pi / ndir) + Real.pi) + c * (2 * Real.pi) := by rw [hc]; push_cast; ring
      simp only [this, planeDir, Real.cos_add_int_mul_two_pi, Real.sin_add_int_mul_two_pi, Real.cos_add_pi,
        Real.sin_add_pi]
      funext a
      fin_cases a <;> simp

/-- Non-vacuity of C53/C54: the default number of directions, any data, the sum of squares as index. -/
example (X : Fin 5 → Fin 2 → ℝ) : ∃ w m, gridplane (fun t => ∑ i, t i ^ 2) false 1000 X = .ok (w, m) ∧ UnitLen w := by
  obtain ⟨w, m, h⟩ := C54_gridplane_total (fun t : Fin 5 → ℝ => ∑ i, t i ^ 2) false 1000 (by norm_num) X
  exact ⟨w, m, h, (C53_candidates _ _ _ (by norm_num) _ _ _ h).1⟩

/-! ### Refinement -/

lemma gridplane2_ok {n : ℕ} {φ : (Fin n → ℝ) → ℝ} {sq : Bool} {ndir : ℕ} {q : ℝ} {X : Fin n → Fin 2 → ℝ}
    {w : Fin 2 → ℝ} {m : ℝ} (h : gridplane2 φ sq ndir q X = .ok (w, m)) :
    (∀ k < ndir, 0 < divSq q (cand2 ndir k)) ∧
    ∃ k, w = rescaled q (cand2 ndir k) ∧
      IsFirstBest ndir (fun i => evalIdx φ sq (proj2 X (rescaled q (cand2 ndir i)))) k m := by
  unfold gridplane2 at h
  split at h
  · simp at h
  · rename_i hdiv
    push Not at hdiv
    split at h
    · simp at h
    · rename_i k m' hk
      simp only [Except.ok.injEq, Prod.mk.injEq] at h
      obtain ⟨rfl, rfl⟩ := h
      exact ⟨hdiv, k, rfl, firstMax_range hk⟩

lemma rescaled_unit {q : ℝ} {a : Fin 2 → ℝ} (ha : UnitLen a) (hd : 0 < divSq q a) :
    rescaled q a 0 ^ 2 + rescaled q a 1 ^ 2 + 2 * (rescaled q a 0 * rescaled q a 1) * q = 1 := by
  unfold UnitLen at ha
  rw [Fin.sum_univ_two] at ha
  unfold rescaled
  have hs := Real.sq_sqrt hd.le
  have hs0 : Real.sqrt (divSq q a) ≠ 0 := (Real.sqrt_pos.mpr hd).ne'
  field_simp
  rw [hs]
  unfold divSq
  linear_combination ha

lemma combine_unit {p : ℕ} {v : Fin p → ℝ} (hv : UnitLen v) (j : Fin p) (w : Fin 2 → ℝ)
    (hw : w 0 ^ 2 + w 1 ^ 2 + 2 * (w 0 * w 1) * v j = 1) :
    UnitLen fun k => v k * w 0 + (if k = j then w 1 else 0) := by
  unfold UnitLen at *
  have h1 : ∀ k, (v k * w 0 + (if k = j then w 1 else 0)) ^ 2 =
      w 0 ^ 2 * v k ^ 2 + (if k = j then 2 * (w 0 * w 1) * v k + w 1 ^ 2 else 0) := by
    intro k; split <;> ring
  simp only [h1, Finset.sum_add_distrib, ← Finset.mul_sum, hv, Finset.sum_ite_eq', Finset.mem_univ, if_true]
  linear_combination hw

/-- C55: `gridplane_2`, applied to the current unit direction `v` and the variable `j` (with `q` the `j`-th component of
`v`), returns a combination that has unit length again. -/
theorem C55_refine_unit {n p : ℕ} (φ : (Fin n → ℝ) → ℝ) (sq : Bool) (ndir : ℕ) (E : Fin n → Fin p → ℝ)
    (v : Fin p → ℝ) (hv : UnitLen v) (j : Fin p) (w : Fin 2 → ℝ) (m : ℝ)
    (h : gridplane2 φ sq ndir (v j) (pairCols (projectOn E v) fun i => E i j) = .ok (w, m)) :
    UnitLen fun k => w 0 * v k + w 1 * (if k = j then 1 else 0) := by
  obtain ⟨hd, k, rfl, hk, -⟩ := gridplane2_ok h
  have := combine_unit hv j _ (rescaled_unit (q := v j) (by rw [cand2_eq]; exact planeDir_unit _) (hd k hk))
  convert this using 2 with k'
  split <;> ring

/-! ### The whole optimiser -/

/-- What is true of the optimiser's variables at all times: the direction has unit length and `Zopt` is the data
projected on it. -/
structure GridInv {n p : ℕ} (φ : (Fin n → ℝ) → ℝ) (sq : Bool) (E : Fin n → Fin p → ℝ) (st : GridState n p) : Prop where
  unit : UnitLen st.a
  z_eq : st.z = projectOn E st.a
  best_eq : st.best = criterion φ sq st.z

lemma proj2_pair {n : ℕ} (z c : Fin n → ℝ) (w : Fin 2 → ℝ) : proj2 (pairCols z c) w = fun i => z i * w 0 + c i * w 1 := by
  funext i; simp [proj2, pairCols]

lemma projectOn_combine {n p : ℕ} (E : Fin n → Fin p → ℝ) (v : Fin p → ℝ) (j : Fin p) (w0 w1 : ℝ) :
    projectOn E (fun k => v k * w0 + (if k = j then w1 else 0)) = fun i => projectOn E v i * w0 + E i j * w1 := by
  funext i
  simp only [projectOn, mul_add, Finset.sum_add_distrib, mul_ite, mul_zero, Finset.sum_ite_eq', Finset.mem_univ, if_true,
    ← mul_assoc, Finset.sum_mul]

lemma grid2Step_inv {n p : ℕ} {φ : (Fin n → ℝ) → ℝ} {sq : Bool} {ndir : ℕ} {E : Fin n → Fin p → ℝ}
    {st st' : GridState n p} {j : Fin p} (hu : UnitLen st.a) (hz : st.z = projectOn E st.a)
    (h : grid2Step φ sq ndir E st j = .ok st') :
    GridInv φ sq E st' ∧ ∀ k < ndir, criterion φ sq
      (fun i => st.z i * rescaled (st.a j) (cand2 ndir k) 0 + E i j * rescaled (st.a j) (cand2 ndir k) 1) ≤ st'.best := by
  unfold grid2Step at h
  split at h
  · simp at h
  · rename_i w m hw
    simp only [Except.ok.injEq] at h
    subst h
    obtain ⟨hd, k, rfl, hk, hv, hle, -⟩ := gridplane2_ok hw
    refine ⟨⟨combine_unit hu j _ (rescaled_unit (by rw [cand2_eq]; exact planeDir_unit _) (hd k hk)), ?_, ?_⟩, ?_⟩
    · rw [projectOn_combine]
      simp only [hz]
    · refine hv.symm.trans ?_
      dsimp only
      rw [proj2_pair]; rfl
    · intro k' hk'
      have := hle k' hk'
      dsimp only at this
      rw [proj2_pair] at this
      exact this

lemma gridSweep_inv {n p : ℕ} {φ : (Fin n → ℝ) → ℝ} {sq : Bool} {ndir : ℕ} {E : Fin n → Fin p → ℝ} :
    ∀ (l : List (Fin p)) {st st' : GridState n p}, UnitLen st.a → st.z = projectOn E st.a →
      l.foldlM (grid2Step φ sq ndir E) st = .ok st' →
      UnitLen st'.a ∧ st'.z = projectOn E st'.a := by
  intro l
  induction l with
  | nil =>
    intro st st' hu hz h
    simp only [List.foldlM_nil, pure, Except.pure, Except.ok.injEq] at h
    subst h
    exact ⟨hu, hz⟩
  | cons j l ih =>
    intro st st' hu hz h
    rw [List.foldlM_cons] at h
    cases hs : grid2Step φ sq ndir E st j with
    | error e => rw [hs] at h; simp [bind, Except.bind] at h
    | ok st1 =>
      rw [hs] at h
      have h1 := (grid2Step_inv hu hz hs).1
      exact ih h1.unit h1.z_eq h

lemma grid1Step_inv {n p : ℕ} {φ : (Fin n → ℝ) → ℝ} {sq : Bool} {ndir : ℕ} (hn : 0 < ndir) {E : Fin n → Fin p → ℝ}
    {st st' : GridState n p} {j : Fin p} (hI : GridInv φ sq E st) (h0 : ∀ k, j ≤ k → st.a k = 0)
    (h : grid1Step φ sq ndir E st j = .ok st') :
    GridInv φ sq E st' ∧ (∀ k, j < k → st'.a k = 0) ∧ st.best ≤ st'.best := by
  unfold grid1Step at h
  split at h
  · simp at h
  · rename_i w m hw
    simp only [Except.ok.injEq] at h
    obtain ⟨hu, -, hx, -⟩ := C53_candidates _ _ _ hn _ _ _ hw
    obtain ⟨k, rfl, hk, hv, hle, -⟩ := C54_gridplane_best _ _ _ _ _ _ hw
    set w := planeDir (k * (Real.pi / ndir))
    have ha : (fun k => if k = j then w 1 else if k ≤ j then st.a k * w 0 else st.a k) =
        fun k => st.a k * w 0 + (if k = j then w 1 else 0) := by
      funext k
      by_cases hkj : k = j
      · subst hkj; simp [h0 k le_rfl]
      · simp only [hkj, if_false, add_zero]
        split
        · rfl
        · rename_i hn'
          rw [h0 k (not_le.mp hn').le, zero_mul]
    subst h
    refine ⟨⟨?_, ?_, ?_⟩, ?_, ?_⟩
    · show UnitLen _
      rw [ha]
      apply combine_unit hI.unit
      rw [h0 j le_rfl]
      unfold UnitLen at hu
      rw [Fin.sum_univ_two] at hu
      linear_combination hu
    · show _ = projectOn E _
      rw [ha, projectOn_combine, hI.z_eq]
    · show m = _
      refine hv.symm.trans ?_
      dsimp only
      rw [← proj2_eq, proj2_pair]
    · intro k hjk
      show (if k = j then w 1 else if k ≤ j then st.a k * w 0 else st.a k) = 0
      rw [if_neg hjk.ne', if_neg (not_le.mpr hjk), h0 k hjk.le]
    · show st.best ≤ m
      rw [hI.best_eq]
      simpa [pairCols] using hx

lemma grid1_fold_inv {n p : ℕ} {φ : (Fin n → ℝ) → ℝ} {sq : Bool} {ndir : ℕ} (hn : 0 < ndir) {E : Fin n → Fin p → ℝ} :
    ∀ (l : List (Fin p)), l.Pairwise (· < ·) → ∀ {st st' : GridState n p}, GridInv φ sq E st →
      (∀ j ∈ l, ∀ k, j ≤ k → st.a k = 0) →
      l.foldlM (grid1Step φ sq ndir E) st = .ok st' → GridInv φ sq E st' ∧ st.best ≤ st'.best := by
  intro l
  induction l with
  | nil =>
    intro _ st st' hI _ h
    simp only [List.foldlM_nil, pure, Except.pure, Except.ok.injEq] at h
    subst h
    exact ⟨hI, le_rfl⟩
  | cons j l ih =>
    intro hp st st' hI h0 h
    rw [List.foldlM_cons] at h
    rw [List.pairwise_cons] at hp
    cases hs : grid1Step φ sq ndir E st j with
    | error e => rw [hs] at h; simp [bind, Except.bind] at h
    | ok st1 =>
      rw [hs] at h
      obtain ⟨hI1, h1, hb⟩ := grid1Step_inv hn hI (h0 j (by simp)) hs
      obtain ⟨hI2, hb2⟩ := ih hp.2 hI1 (fun j' hj' k hk => h1 k (lt_of_lt_of_le (hp.1 j' hj') hk)) h
      exact ⟨hI2, hb.trans hb2⟩

lemma gridStage1_ndir {n m : ℕ} {φ : (Fin n → ℝ) → ℝ} {sq : Bool} {ndir : ℕ} {E : Fin n → Fin (m + 3) → ℝ}
    {st : GridState n (m + 3)} (h : gridStage1 φ sq ndir E = .ok st) : 0 < ndir := by
  rcases Nat.eq_zero_or_pos ndir with rfl | h0
  · unfold gridStage1 gridplane firstMax at h
    simp at h
  · exact h0

lemma gridStage1_inv {n m : ℕ} {φ : (Fin n → ℝ) → ℝ} {sq : Bool} {ndir : ℕ} {E : Fin n → Fin (m + 3) → ℝ}
    {st : GridState n (m + 3)} (h : gridStage1 φ sq ndir E = .ok st) :
    GridInv φ sq E st ∧ criterion φ sq (fun i => E i 0) ≤ st.best := by
  have hn := gridStage1_ndir h
  unfold gridStage1 at h
  split at h
  · simp at h
  · rename_i w b hw
    obtain ⟨hu, -, hx, -⟩ := C53_candidates _ _ _ hn _ _ _ hw
    obtain ⟨k, rfl, hk, hv, hle, -⟩ := C54_gridplane_best _ _ _ _ _ _ hw
    set w := planeDir (k * (Real.pi / ndir))
    have h01 : (0 : Fin (m + 3)) ≠ 1 := by simp
    have hsum : ∀ f : Fin (m + 3) → ℝ, (∑ k, f k * (if k = 0 then w 0 else if k = 1 then w 1 else 0)) =
        f 0 * w 0 + f 1 * w 1 := by
      intro f
      rw [← Finset.sum_subset (s₁ := {0, 1}) (Finset.subset_univ _)]
      · rw [Finset.sum_pair h01]
        simp [h01.symm]
      · intro x _ hx
        simp only [Finset.mem_insert, Finset.mem_singleton, not_or] at hx
        simp [hx.1, hx.2]
    have hI : GridInv φ sq E (⟨fun k => if k = 0 then w 0 else if k = 1 then w 1 else 0,
        proj2 (fun i => ![E i 0, E i 1]) w, b⟩ : GridState n (m + 3)) := by
      refine ⟨?_, ?_, ?_⟩
      · unfold UnitLen at *
        rw [Fin.sum_univ_two] at hu
        have := hsum fun k => if k = 0 then w 0 else if k = 1 then w 1 else 0
        simp only [← pow_two] at this
        rw [this]
        simp only [if_true, h01.symm, if_false]
        linear_combination hu
      · funext i
        unfold projectOn
        dsimp only
        rw [hsum]
        simp [proj2]
      · show b = _
        refine hv.symm.trans ?_
        dsimp only
        rw [← proj2_eq]
    have hpw : ((List.finRange (m + 3)).drop 2).Pairwise (· < ·) :=
      (List.pairwise_lt_finRange _).sublist (List.drop_sublist 2 _)
    have hge : ∀ j ∈ (List.finRange (m + 3)).drop 2, 2 ≤ j.val := by
      intro j hj
      rw [List.mem_iff_getElem] at hj
      obtain ⟨i, hi, rfl⟩ := hj
      simp
    obtain ⟨hI', hb⟩ := grid1_fold_inv hn _ hpw hI (by
      intro j hj k hk
      have h2 := hge j hj
      have hk2 : 2 ≤ k.val := h2.trans hk
      have hk0 : k ≠ 0 := by intro h0; rw [h0] at hk2; simp at hk2
      have hk1 : k ≠ 1 := by intro h0; rw [h0] at hk2; simp at hk2
      simp [hk0, hk1]) h
    refine ⟨hI', le_trans ?_ hb⟩
    simpa using hx

lemma gridLoop_inv {n p : ℕ} {φ : (Fin n → ℝ) → ℝ} {sq : Bool} {ndir : ℕ} {E : Fin n → Fin p → ℝ} (Q : ℝ → Prop)
    (hsweep : ∀ st st' : GridState n p, UnitLen st.a → st.z = projectOn E st.a → gridSweep φ sq ndir E st = .ok st' →
      Q (criterion φ sq (projectOn E st.a)) → Q (criterion φ sq (projectOn E st'.a))) :
    ∀ (left : ℕ) (objfold objf : ℝ) (st : GridState n p) (a : Fin p → ℝ) (o : ℝ), UnitLen st.a →
      st.z = projectOn E st.a → Q (criterion φ sq (projectOn E st.a)) →
      (objf = criterion φ sq (projectOn E st.a) ∨ objf = -1000) →
      gridLoop φ sq ndir E left objfold objf st = .ok (a, o) →
      UnitLen a ∧ Q (criterion φ sq (projectOn E a)) ∧ (o = criterion φ sq (projectOn E a) ∨ o = -1000) := by
  intro left
  induction left with
  | zero =>
    intro objfold objf st a o hu hz hq ho h
    simp only [gridLoop, Except.ok.injEq, Prod.mk.injEq] at h
    obtain ⟨rfl, rfl⟩ := h
    exact ⟨hu, hq, ho⟩
  | succ left ih =>
    intro objfold objf st a o hu hz hq ho h
    rw [gridLoop] at h
    split at h
    · split at h
      · simp at h
      · rename_i st' hs
        obtain ⟨hu', hz'⟩ := gridSweep_inv _ hu hz hs
        exact ih _ _ st' a o hu' hz' (hsweep st st' hu hz hs hq) (Or.inl rfl) h
    · simp only [Except.ok.injEq, Prod.mk.injEq] at h
      obtain ⟨rfl, rfl⟩ := h
      exact ⟨hu, hq, ho⟩

/-- C55: whatever the index, the number of directions, the number of iterations and the data, the direction returned by the grid
optimiser has unit length, and the value stored in `Maxobjf_` is the criterion at that direction (or the
initial value -1000 when not a single sweep was made). -/
theorem C55_grid_unit {n p : ℕ} (φ : (Fin n → ℝ) → ℝ) (sq : Bool) (ndir maxiter : ℕ) (E : Fin n → Fin p → ℝ)
    (a : Fin p → ℝ) (o : ℝ) (h : gridDirection φ sq ndir maxiter E = .ok (a, o)) :
    UnitLen a ∧ (o = criterion φ sq (projectOn E a) ∨ o = -1000) := by
  match p, E, a, h with
  | 0, _, _, h => simp [gridDirection] at h
  | 1, _, _, h => simp [gridDirection] at h
  | 2, _, _, h => simp [gridDirection] at h
  | m + 3, E, a, h =>
    rw [gridDirection] at h
    split at h
    · simp at h
    · rename_i st hst
      split at h
      · simp at h
      · obtain ⟨hI, -⟩ := gridStage1_inv hst
        have := gridLoop_inv (fun _ => True) (fun _ _ _ _ _ _ => trivial) _ _ _ _ _ _ hI.unit hI.z_eq trivial (Or.inr rfl) h
        exact ⟨this.1, this.2.2⟩

/-! ### Refinement and the value of the index -/

lemma cand2_mid (r : ℕ) (hr : 0 < r) : cand2 (2 * r + 1) r = ![1, 0] := by
  rw [cand2_eq, angle2, if_neg (by omega)]
  have hr' : (r : ℝ) ≠ 0 := by exact_mod_cast hr.ne'
  have : -(Real.pi / 2) + (r : ℝ) * (Real.pi / (((2 * r + 1 : ℕ) : ℝ) - 1)) = 0 := by
    push_cast; field_simp; ring
  rw [this]
  simp [planeDir]

lemma cand2_end (ndir : ℕ) (hn : 2 ≤ ndir) : cand2 ndir (ndir - 1) = ![0, 1] := by
  rw [cand2_eq, angle2, if_neg (by omega)]
  have hr' : (ndir : ℝ) - 1 ≠ 0 := by
    have : (2 : ℝ) ≤ ndir := by exact_mod_cast hn
    linarith
  have : -(Real.pi / 2) + ((ndir - 1 : ℕ) : ℝ) * (Real.pi / ((ndir : ℝ) - 1)) = Real.pi / 2 := by
    rw [Nat.cast_sub (by omega)]; push_cast; field_simp; ring
  rw [this]
  simp [planeDir]

lemma rescaled_10 (q : ℝ) : rescaled q ![1, 0] = ![1, 0] := by
  funext k; fin_cases k <;> simp [rescaled, divSq]

lemma rescaled_01 (q : ℝ) : rescaled q ![0, 1] = ![0, 1] := by
  funext k; fin_cases k <;> simp [rescaled, divSq]

lemma grid2Step_col {n p : ℕ} {φ : (Fin n → ℝ) → ℝ} {sq : Bool} {ndir : ℕ} (hn : 2 ≤ ndir) {E : Fin n → Fin p → ℝ}
    {st st' : GridState n p} {j : Fin p} (hu : UnitLen st.a) (hz : st.z = projectOn E st.a)
    (h : grid2Step φ sq ndir E st j = .ok st') : criterion φ sq (fun i => E i j) ≤ criterion φ sq st'.z := by
  obtain ⟨hI, hb⟩ := grid2Step_inv hu hz h
  have := hb (ndir - 1) (by omega)
  rw [cand2_end _ hn, rescaled_01] at this
  rw [← hI.best_eq]
  simpa using this

lemma grid2Step_mono {n p : ℕ} {φ : (Fin n → ℝ) → ℝ} {sq : Bool} {r : ℕ} (hr : 0 < r) {E : Fin n → Fin p → ℝ}
    {st st' : GridState n p} {j : Fin p} (hu : UnitLen st.a) (hz : st.z = projectOn E st.a)
    (h : grid2Step φ sq (2 * r + 1) E st j = .ok st') : criterion φ sq st.z ≤ criterion φ sq st'.z := by
  obtain ⟨hI, hb⟩ := grid2Step_inv hu hz h
  have := hb r (by omega)
  rw [cand2_mid _ hr, rescaled_10] at this
  rw [← hI.best_eq]
  simpa using this

lemma gridSweep_odd {n p : ℕ} {φ : (Fin n → ℝ) → ℝ} {sq : Bool} {r : ℕ} (hr : 0 < r) {E : Fin n → Fin p → ℝ} :
    ∀ (l : List (Fin p)) {st st' : GridState n p}, UnitLen st.a → st.z = projectOn E st.a →
      l.foldlM (grid2Step φ sq (2 * r + 1) E) st = .ok st' →
      criterion φ sq st.z ≤ criterion φ sq st'.z ∧
      ∀ j ∈ l, criterion φ sq (fun i => E i j) ≤ criterion φ sq st'.z := by
  intro l
  induction l with
  | nil =>
    intro st st' hu hz h
    simp only [List.foldlM_nil, pure, Except.pure, Except.ok.injEq] at h
    subst h
    exact ⟨le_rfl, by simp⟩
  | cons j l ih =>
    intro st st' hu hz h
    rw [List.foldlM_cons] at h
    cases hs : grid2Step φ sq (2 * r + 1) E st j with
    | error e => rw [hs] at h; simp [bind, Except.bind] at h
    | ok st1 =>
      rw [hs] at h
      have h1 := (grid2Step_inv hu hz hs).1
      obtain ⟨hm, hc⟩ := ih h1.unit h1.z_eq h
      refine ⟨(grid2Step_mono hr hu hz hs).trans hm, fun j' hj' => ?_⟩
      rcases List.mem_cons.mp hj' with rfl | hj'
      · exact (grid2Step_col (by omega) hu hz hs).trans hm
      · exact hc j' hj'

/-- C56 (partial: odd numbers of directions; see `C56_even_violated` for even ones, among them the default): a refinement
sweep started at a unit direction never decreases the criterion. -/
theorem C56_sweep_partial {n p : ℕ} (φ : (Fin n → ℝ) → ℝ) (sq : Bool) (ndir : ℕ) (hodd : Odd ndir) (h3 : 3 ≤ ndir)
    (E : Fin n → Fin p → ℝ) (st st' : GridState n p) (hu : UnitLen st.a) (hz : st.z = projectOn E st.a)
    (h : gridSweep φ sq ndir E st = .ok st') :
    criterion φ sq (projectOn E st.a) ≤ criterion φ sq (projectOn E st'.a) := by
  obtain ⟨r, rfl⟩ := hodd
  have := (gridSweep_odd (by omega) _ hu hz h).1
  have h2 := (gridSweep_inv _ hu hz h).2
  rwa [hz, h2] at this

/-- C56 (partial, odd numbers of directions): the direction returned by the grid optimiser is at least as good as the direction
found by the first stage. -/
theorem C56_grid_partial {n m : ℕ} (φ : (Fin n → ℝ) → ℝ) (sq : Bool) (ndir maxiter : ℕ) (hodd : Odd ndir) (h3 : 3 ≤ ndir)
    (E : Fin n → Fin (m + 3) → ℝ) (a : Fin (m + 3) → ℝ) (o : ℝ) (h : gridDirection φ sq ndir maxiter E = .ok (a, o)) :
    ∃ st, gridStage1 φ sq ndir E = .ok st ∧ criterion φ sq (projectOn E st.a) ≤ criterion φ sq (projectOn E a) := by
  rw [gridDirection] at h
  split at h
  · simp at h
  · rename_i st hst
    split at h
    · simp at h
    · obtain ⟨hI, -⟩ := gridStage1_inv hst
      refine ⟨st, hst, ?_⟩
      exact (gridLoop_inv (fun v => criterion φ sq (projectOn E st.a) ≤ v)
        (fun s s' hu hz hs hq => hq.trans (C56_sweep_partial φ sq ndir hodd h3 E s s' hu hz hs))
        _ _ _ _ _ _ hI.unit hI.z_eq le_rfl (Or.inr rfl) h).2.1

/-- C82 (partial: odd numbers of directions, at least one sweep): the direction returned by the grid optimiser is at least as
good as every single variable. -/
theorem C82_beats_variables_partial {n p : ℕ} (φ : (Fin n → ℝ) → ℝ) (sq : Bool) (ndir maxiter : ℕ) (hodd : Odd ndir)
    (h3 : 3 ≤ ndir) (E : Fin n → Fin p → ℝ) (a : Fin p → ℝ) (o : ℝ) (h : gridDirection φ sq ndir maxiter E = .ok (a, o))
    (ho : o ≠ -1000) (j : Fin p) : criterion φ sq (fun i => E i j) ≤ criterion φ sq (projectOn E a) := by
  match p, E, a, h, j with
  | 0, _, _, h, _ => simp [gridDirection] at h
  | 1, _, _, h, _ => simp [gridDirection] at h
  | 2, _, _, h, _ => simp [gridDirection] at h
  | m + 3, E, a, h, j =>
    rw [gridDirection] at h
    split at h
    · simp at h
    · rename_i st hst
      split at h
      · simp at h
      · obtain ⟨hI, -⟩ := gridStage1_inv hst
        rw [gridLoop] at h
        split at h
        · split at h
          · simp at h
          · rename_i st1 hs1
            obtain ⟨hu1, hz1⟩ := gridSweep_inv _ hI.unit hI.z_eq hs1
            have hodd' := hodd
            obtain ⟨r, rfl⟩ := hodd'
            have hc := (gridSweep_odd (by omega) _ hI.unit hI.z_eq hs1).2 j (List.mem_finRange j)
            rw [hz1] at hc
            exact (gridLoop_inv (fun v => criterion φ sq (fun i => E i j) ≤ v)
              (fun s s' hu hz hs hq => hq.trans (C56_sweep_partial φ sq _ hodd h3 E s s' hu hz hs))
              _ _ _ _ _ _ hu1 hz1 hc (Or.inl rfl) h).2.1
        · simp only [Except.ok.injEq, Prod.mk.injEq] at h
          exact absurd h.2.symm ho

/-! ### The first stage always succeeds -/

lemma grid1Step_total {n p : ℕ} (φ : (Fin n → ℝ) → ℝ) (sq : Bool) {ndir : ℕ} (hn : 0 < ndir) (E : Fin n → Fin p → ℝ)
    (st : GridState n p) (j : Fin p) : ∃ st', grid1Step φ sq ndir E st j = .ok st' := by
  obtain ⟨w, m, h⟩ := C54_gridplane_total φ sq ndir hn (pairCols st.z fun i => E i j)
  unfold grid1Step
  rw [h]
  exact ⟨_, rfl⟩

lemma foldlM_total {α β : Type} (f : β → α → Except Err β) (hf : ∀ b a, ∃ b', f b a = .ok b') :
    ∀ (l : List α) (b : β), ∃ b', l.foldlM f b = .ok b' := by
  intro l
  induction l with
  | nil => intro b; exact ⟨b, rfl⟩
  | cons a l ih =>
    intro b
    obtain ⟨b', hb'⟩ := hf b a
    rw [List.foldlM_cons, hb']
    exact ih b'

lemma gridStage1_total {n m : ℕ} (φ : (Fin n → ℝ) → ℝ) (sq : Bool) {ndir : ℕ} (hn : 0 < ndir)
    (E : Fin n → Fin (m + 3) → ℝ) : ∃ st, gridStage1 φ sq ndir E = .ok st := by
  obtain ⟨w, b, h⟩ := C54_gridplane_total φ sq ndir hn (fun i => ![E i 0, E i 1])
  unfold gridStage1
  rw [h]
  exact foldlM_total _ (grid1Step_total φ sq hn E) _ _

/-! ### Even numbers of directions: a counterexample for every one of them -/

/-- Two cases, three variables, only the first of which varies. -/
def gridX : Fin 2 → Fin 3 → ℝ := fun i k => if k = 0 then (if i = 0 then 1 else -1) else 0

/-- The sum of squares as projection index (for these centred data, twice the variance). -/
noncomputable def gridPhi : (Fin 2 → ℝ) → ℝ := fun t => ∑ i, t i ^ 2

lemma gridPhi_proj (a : Fin 3 → ℝ) : criterion gridPhi false (projectOn gridX a) = 2 * a 0 ^ 2 := by
  simp [criterion, gridPhi, projectOn, gridX]

lemma gridPhi_col : criterion gridPhi false (fun i => gridX i 0) = 2 := by
  simp [criterion, gridPhi, gridX]

lemma unit3 {a : Fin 3 → ℝ} (h : UnitLen a) : a 0 ^ 2 + a 1 ^ 2 + a 2 ^ 2 = 1 := by
  unfold UnitLen at h
  rwa [Fin.sum_univ_three] at h

lemma even_sin (r : ℕ) (hr : 0 < r) (k : ℕ) : Real.sin (angle2 (2 * r) k) ≠ 0 := by
  have hpi := Real.pi_ne_zero
  have hN : ((2 * r : ℕ) : ℝ) - 1 ≠ 0 := by
    have : (1 : ℝ) ≤ r := by exact_mod_cast hr
    push_cast
    linarith
  unfold angle2
  rw [if_neg (by omega)]
  intro h
  rw [Real.sin_eq_zero_iff] at h
  obtain ⟨m, hm⟩ := h
  field_simp at hm
  have h2 : -(((2 * r : ℕ) : ℝ) - 1) + 2 * k = 2 * m * (((2 * r : ℕ) : ℝ) - 1) := by linarith
  have h3 : -((2 * r : ℤ) - 1) + 2 * (k : ℤ) = 2 * m * ((2 * r : ℤ) - 1) := by exact_mod_cast h2
  have h4 : 2 * m * ((2 * r : ℤ) - 1) = 2 * (m * ((2 * r : ℤ) - 1)) := by ring
  omega

/-- The angles plus or minus 45 degrees are on the refinement grid only if 4 divides `ndir - 1`. -/
lemma cos_two_angle (ndir : ℕ) (h2 : 2 ≤ ndir) (h4 : ¬ 4 ∣ ndir - 1) (k : ℕ) : Real.cos (2 * angle2 ndir k) ≠ 0 := by
  obtain ⟨N, rfl⟩ : ∃ N, ndir = N + 1 := ⟨ndir - 1, by omega⟩
  have hpi := Real.pi_ne_zero
  have hN : (N : ℝ) ≠ 0 := by
    have : 1 ≤ N := by omega
    positivity
  unfold angle2
  rw [if_neg (by omega)]
  intro h
  rw [Real.cos_eq_zero_iff] at h
  obtain ⟨m, hm⟩ := h
  push_cast at hm
  rw [add_sub_cancel_right] at hm
  field_simp at hm
  have h2' : 4 * (k : ℝ) = (2 * m + 3) * N := by linarith
  have h3 : 4 * (k : ℤ) = (2 * m + 3) * (N : ℤ) := by exact_mod_cast h2'
  have hd : (4 : ℤ) ∣ N := by
    have hc : IsCoprime (4 : ℤ) (2 * m + 3) := by
      have h22 : IsCoprime (2 : ℤ) (2 * m + 3) := ⟨-(m + 1), 1, by ring⟩
      have := IsCoprime.mul_left h22 h22
      simpa using this
    exact hc.dvd_of_dvd_mul_left ⟨k, h3.symm⟩
  apply h4
  rw [Nat.add_sub_cancel]
  exact_mod_cast hd

lemma divSq_pos (ndir : ℕ) (h2 : 2 ≤ ndir) (h4 : ¬ 4 ∣ ndir - 1) (k : ℕ) (q : ℝ) (hq : q ^ 2 ≤ 1) :
    0 < divSq q (cand2 ndir k) := by
  rw [cand2_eq]
  have h1 := cos_two_angle ndir h2 h4 k
  set θ := angle2 ndir k
  have h2 : divSq q (planeDir θ) = 1 + Real.sin (2 * θ) * q := by
    simp only [divSq, planeDir, Matrix.cons_val_zero, Matrix.cons_val_one, Real.sin_two_mul]; ring
  rw [h2]
  have h3 : Real.sin (2 * θ) ^ 2 < 1 := by
    have := Real.sin_sq_add_cos_sq (2 * θ)
    have : 0 < Real.cos (2 * θ) ^ 2 := by positivity
    linarith
  have h4 : |Real.sin (2 * θ)| < 1 := by rwa [← sq_lt_one_iff_abs_lt_one]
  have h5 : |q| ≤ 1 := by rwa [← sq_le_one_iff_abs_le_one]
  have h6 : |Real.sin (2 * θ) * q| < 1 := by
    rw [abs_mul]
    calc _ ≤ |Real.sin (2 * θ)| * 1 := mul_le_mul_of_nonneg_left h5 (abs_nonneg _)
      _ < 1 := by rw [mul_one]; exact h4
  have := neg_abs_le (Real.sin (2 * θ) * q)
  linarith

lemma grid2Step_total {n p : ℕ} (φ : (Fin n → ℝ) → ℝ) (sq : Bool) {ndir : ℕ} (hn : 0 < ndir) (E : Fin n → Fin p → ℝ)
    (st : GridState n p) (j : Fin p) (hd : ∀ k < ndir, 0 < divSq (st.a j) (cand2 ndir k)) :
    ∃ st', grid2Step φ sq ndir E st j = .ok st' ∧ ∃ k < ndir, ∀ i,
      st'.a i = st.a i * rescaled (st.a j) (cand2 ndir k) 0 + (if i = j then rescaled (st.a j) (cand2 ndir k) 1 else 0) := by
  have hg : ∃ w m, gridplane2 φ sq ndir (st.a j) (pairCols st.z fun i => E i j) = .ok (w, m) := by
    unfold gridplane2
    rw [if_neg (by push Not; exact hd)]
    split
    · rename_i h
      have := firstMax_none h
      simp at this
      omega
    · exact ⟨_, _, rfl⟩
  obtain ⟨w, m, hwm⟩ := hg
  obtain ⟨-, k, hw, hk, -⟩ := gridplane2_ok hwm
  unfold grid2Step
  rw [hwm]
  refine ⟨_, rfl, k, hk, fun i => ?_⟩
  subst hw
  rfl

lemma gridSweep_even (r : ℕ) (hr : 0 < r) (st : GridState 2 3) (hu : UnitLen st.a) (hz : st.z = projectOn gridX st.a) :
    ∃ st', gridSweep gridPhi false (2 * r) gridX st = .ok st' ∧ st'.a 0 ^ 2 < 1 := by
  have hs := unit3 hu
  obtain ⟨s1, h1, -⟩ := grid2Step_total gridPhi false (by omega : 0 < 2 * r) gridX st 0
    (fun k _ => divSq_pos (2 * r) (by omega) (by omega) k _ (by nlinarith [sq_nonneg (st.a 1), sq_nonneg (st.a 2)]))
  have hI1 := (grid2Step_inv hu hz h1).1
  have hc1 := grid2Step_col (by omega) hu hz h1
  rw [hI1.z_eq, gridPhi_proj, gridPhi_col] at hc1
  have hs1 := unit3 hI1.unit
  have ha1 : s1.a 1 = 0 := by
    have : s1.a 1 ^ 2 = 0 := by nlinarith [sq_nonneg (s1.a 1), sq_nonneg (s1.a 2)]
    exact pow_eq_zero_iff (two_ne_zero) |>.mp this
  have ha2 : s1.a 2 = 0 := by
    have : s1.a 2 ^ 2 = 0 := by nlinarith [sq_nonneg (s1.a 1), sq_nonneg (s1.a 2)]
    exact pow_eq_zero_iff (two_ne_zero) |>.mp this
  have hd0 : ∀ a : Fin 2 → ℝ, divSq 0 a = 1 := fun a => by simp [divSq]
  have hr0 : ∀ a : Fin 2 → ℝ, rescaled 0 a = a := fun a => by funext k; simp [rescaled, hd0]
  obtain ⟨s2, h2, k2, hk2, hf2⟩ := grid2Step_total gridPhi false (by omega : 0 < 2 * r) gridX s1 1
    (fun k _ => by rw [ha1, hd0]; exact one_pos)
  rw [ha1, hr0, cand2_eq] at hf2
  have hI2 := (grid2Step_inv hI1.unit hI1.z_eq h2).1
  have hs2 := unit3 hI2.unit
  have ha22 : s2.a 2 = 0 := by rw [hf2]; simp [ha2]
  have ha20 : s2.a 0 ^ 2 < 1 := by
    have hsin := even_sin r hr k2
    have h21 : s2.a 1 = Real.sin (angle2 (2 * r) k2) := by rw [hf2]; simp [ha1, planeDir]
    have : 0 < s2.a 1 ^ 2 := by rw [h21]; positivity
    nlinarith
  obtain ⟨s3, h3, k3, hk3, hf3⟩ := grid2Step_total gridPhi false (by omega : 0 < 2 * r) gridX s2 2
    (fun k _ => by rw [ha22, hd0]; exact one_pos)
  rw [ha22, hr0, cand2_eq] at hf3
  refine ⟨s3, ?_, ?_⟩
  · unfold gridSweep
    rw [show List.finRange 3 = [0, 1, 2] from rfl]
    simp only [List.foldlM_cons, h1, h2, h3, bind, Except.bind, List.foldlM_nil, pure, Except.pure]
  · have h30 : s3.a 0 = s2.a 0 * Real.cos (angle2 (2 * r) k3) := by rw [hf3]; simp [planeDir]
    rw [h30, mul_pow]
    have := Real.cos_sq_le_one (angle2 (2 * r) k3)
    calc _ ≤ s2.a 0 ^ 2 * 1 := mul_le_mul_of_nonneg_left this (sq_nonneg _)
      _ < 1 := by rw [mul_one]; exact ha20

lemma gridLoop_even (r : ℕ) (hr : 0 < r) : ∀ (left : ℕ) (o1 o2 : ℝ) (st : GridState 2 3), UnitLen st.a →
    st.z = projectOn gridX st.a → st.a 0 ^ 2 < 1 →
    ∃ a o, gridLoop gridPhi false (2 * r) gridX left o1 o2 st = .ok (a, o) ∧ a 0 ^ 2 < 1 := by
  intro left
  induction left with
  | zero => intro o1 o2 st _ _ h; exact ⟨_, _, rfl, h⟩
  | succ left ih =>
    intro o1 o2 st hu hz h
    rw [gridLoop]
    split
    · obtain ⟨st', hs, h'⟩ := gridSweep_even r hr st hu hz
      obtain ⟨hu', hz'⟩ := gridSweep_inv _ hu hz hs
      rw [hs]
      exact ih _ _ st' hu' hz' h'
    · exact ⟨_, _, rfl, h⟩

lemma gridEven (r : ℕ) (hr : 0 < r) (maxiter : ℕ) (hm : 0 < maxiter) :
    ∃ st a o, gridStage1 gridPhi false (2 * r) gridX = .ok st ∧ criterion gridPhi false (projectOn gridX st.a) = 2 ∧
      gridDirection gridPhi false (2 * r) maxiter gridX = .ok (a, o) ∧ criterion gridPhi false (projectOn gridX a) < 2 := by
  obtain ⟨st, hst⟩ := gridStage1_total (m := 0) gridPhi false (by omega : 0 < 2 * r) gridX
  obtain ⟨hI, hb⟩ := gridStage1_inv hst
  have hc : criterion gridPhi false (projectOn gridX st.a) = 2 := by
    have hs := unit3 hI.unit
    have h1 : criterion gridPhi false (fun i => gridX i 0) ≤ st.best := hb
    rw [gridPhi_col, hI.best_eq, hI.z_eq, gridPhi_proj] at h1
    rw [gridPhi_proj]
    nlinarith [sq_nonneg (st.a 1), sq_nonneg (st.a 2)]
  obtain ⟨st', hs, h'⟩ := gridSweep_even r hr st hI.unit hI.z_eq
  obtain ⟨hu', hz'⟩ := gridSweep_inv _ hI.unit hI.z_eq hs
  obtain ⟨a, o, hl, ha⟩ := gridLoop_even r hr maxiter (-1000) (evalIdx gridPhi false (projE gridX st'.a)) st' hu' hz' h'
  refine ⟨st, a, o, hst, hc, ?_, by rw [gridPhi_proj]; linarith⟩
  have hc' : evalIdx gridPhi false (projE gridX st.a) = 2 := hc
  rw [gridDirection, hst]
  dsimp only
  rw [if_neg hm.ne', gridLoop, if_pos (by rw [hc']; norm_num [abs_of_pos]), hs]
  exact hl

/-- C56 is violated for every even number of directions, among them the default 1000: with the sum of squares as index and data in
which only the first variable varies, the first stage finds the optimum (criterion 2) and the refinement returns something
worse, for every number of iterations. -/
theorem C56_even_violated (ndir : ℕ) (he : Even ndir) (h0 : 0 < ndir) (maxiter : ℕ) (hm : 0 < maxiter) :
    ∃ st a o, gridStage1 gridPhi false ndir gridX = .ok st ∧ gridDirection gridPhi false ndir maxiter gridX = .ok (a, o) ∧
      criterion gridPhi false (projectOn gridX a) < criterion gridPhi false (projectOn gridX st.a) := by
  obtain ⟨r, rfl⟩ := he
  obtain ⟨st, a, o, h1, h2, h3, h4⟩ := gridEven r (by omega) maxiter hm
  rw [← two_mul]
  exact ⟨st, a, o, h1, h3, by rw [h2]; exact h4⟩

/-- C82 is violated for every even number of directions: the direction returned is worse than the first variable alone. -/
theorem C82_even_violated (ndir : ℕ) (he : Even ndir) (h0 : 0 < ndir) (maxiter : ℕ) (hm : 0 < maxiter) :
    ∃ a o, gridDirection gridPhi false ndir maxiter gridX = .ok (a, o) ∧
      criterion gridPhi false (projectOn gridX a) < criterion gridPhi false (fun i => gridX i 0) := by
  obtain ⟨r, rfl⟩ := he
  obtain ⟨st, a, o, h1, h2, h3, h4⟩ := gridEven r (by omega) maxiter hm
  rw [← two_mul]
  exact ⟨a, o, h3, by rw [gridPhi_col]; exact h4⟩

/-! ### Number of variables -/

/-- C59 is violated: with two variables (or one) the grid optimiser fails, whatever the data, the index and the options. -/
theorem C59_two_variables_violated {n : ℕ} (φ : (Fin n → ℝ) → ℝ) (sq : Bool) (ndir maxiter : ℕ) (E : Fin n → Fin 2 → ℝ) :
    gridDirection φ sq ndir maxiter E = .error .unboundLocal := rfl

/-- C59 (partial: at least three variables, and `ndir - 1` not divisible by 4): the grid optimiser returns a direction for every
data matrix, every index and every positive number of iterations.  See `C59_zero_length_violated` for the other
numbers of directions. -/
theorem C59_succeeds_partial {n m : ℕ} (φ : (Fin n → ℝ) → ℝ) (sq : Bool) (ndir maxiter : ℕ) (h2 : 2 ≤ ndir)
    (h4 : ¬ 4 ∣ ndir - 1) (hm : 0 < maxiter) (E : Fin n → Fin (m + 3) → ℝ) :
    ∃ a o, gridDirection φ sq ndir maxiter E = .ok (a, o) := by
  have hstep : ∀ (l : List (Fin (m + 3))) (st : GridState n (m + 3)), UnitLen st.a → st.z = projectOn E st.a →
      ∃ st', l.foldlM (grid2Step φ sq ndir E) st = .ok st' := by
    intro l
    induction l with
    | nil => intro st _ _; exact ⟨st, rfl⟩
    | cons j l ih =>
      intro st hu hz
      have hq : st.a j ^ 2 ≤ 1 := by
        unfold UnitLen at hu
        rw [← hu]
        exact Finset.single_le_sum (f := fun k => st.a k ^ 2) (fun k _ => sq_nonneg _) (Finset.mem_univ j)
      obtain ⟨s1, h1, -⟩ := grid2Step_total φ sq (by omega : 0 < ndir) E st j (fun k _ => divSq_pos ndir h2 h4 k _ hq)
      have hI := (grid2Step_inv hu hz h1).1
      obtain ⟨s2, h2⟩ := ih s1 hI.unit hI.z_eq
      exact ⟨s2, by rw [List.foldlM_cons, h1]; exact h2⟩
  have hloop : ∀ (left : ℕ) (o1 o2 : ℝ) (st : GridState n (m + 3)), UnitLen st.a → st.z = projectOn E st.a →
      ∃ a o, gridLoop φ sq ndir E left o1 o2 st = .ok (a, o) := by
    intro left
    induction left with
    | zero => intro o1 o2 st _ _; exact ⟨_, _, rfl⟩
    | succ left ih =>
      intro o1 o2 st hu hz
      rw [gridLoop]
      split
      · obtain ⟨s', hs'⟩ := hstep (List.finRange _) st hu hz
        obtain ⟨hu', hz'⟩ := gridSweep_inv _ hu hz hs'
        have : gridSweep φ sq ndir E st = .ok s' := hs'
        rw [this]
        exact ih _ _ s' hu' hz'
      · exact ⟨_, _, rfl⟩
  obtain ⟨st, hst⟩ := gridStage1_total φ sq (by omega : 0 < ndir) E
  obtain ⟨hI, -⟩ := gridStage1_inv hst
  rw [gridDirection, hst]
  dsimp only
  rw [if_neg hm.ne']
  exact hloop _ _ _ st hI.unit hI.z_eq

/-- C59 is violated, for three variables, for every number of directions `4 s + 1` (5, 9, ..., 1001, ...): when the first stage ends on a
coordinate axis, the refinement examines a combination of length zero and fails. -/
theorem C59_zero_length_violated (s : ℕ) (hs : 0 < s) (maxiter : ℕ) (hm : 0 < maxiter) :
    gridDirection gridPhi false (4 * s + 1) maxiter gridX = .error .valueError := by
  obtain ⟨st, hst⟩ := gridStage1_total (m := 0) gridPhi false (by omega : 0 < 4 * s + 1) gridX
  obtain ⟨hI, hb⟩ := gridStage1_inv hst
  have hu := unit3 hI.unit
  have h1 : criterion gridPhi false (fun i => gridX i 0) ≤ st.best := hb
  rw [gridPhi_col, hI.best_eq, hI.z_eq, gridPhi_proj] at h1
  have ha : st.a 0 ^ 2 = 1 := by nlinarith [sq_nonneg (st.a 1), sq_nonneg (st.a 2)]
  have hc : evalIdx gridPhi false (projE gridX st.a) = 2 := by
    have := gridPhi_proj st.a
    rw [ha, mul_one] at this
    exact this
  have hsR : (s : ℝ) ≠ 0 := by positivity
  have hang : ∀ k : ℕ, angle2 (4 * s + 1) k = -(Real.pi / 2) + k * (Real.pi / (4 * s)) := by
    intro k
    unfold angle2
    rw [if_neg (by omega)]
    push_cast
    rw [add_sub_cancel_right]
  have hdiv : ∀ (q θ : ℝ), divSq q (planeDir θ) = 1 + Real.sin (2 * θ) * q := by
    intro q θ
    simp only [divSq, planeDir, Matrix.cons_val_zero, Matrix.cons_val_one, Real.sin_two_mul]; ring
  have hex : ∃ k < 4 * s + 1, divSq (st.a 0) (cand2 (4 * s + 1) k) ≤ 0 := by
    have ha' : st.a 0 * st.a 0 = 1 := by rw [← pow_two]; exact ha
    rcases mul_self_eq_one_iff.mp ha' with h | h
    · refine ⟨s, by omega, ?_⟩
      rw [cand2_eq, hang, hdiv, h]
      have : 2 * (-(Real.pi / 2) + (s : ℝ) * (Real.pi / (4 * s))) = -(Real.pi / 2) := by field_simp; ring
      rw [this]
      simp
    · refine ⟨3 * s, by omega, ?_⟩
      rw [cand2_eq, hang, hdiv, h]
      have : 2 * (-(Real.pi / 2) + ((3 * s : ℕ) : ℝ) * (Real.pi / (4 * s))) = Real.pi / 2 := by
        push_cast; field_simp; ring
      rw [this]
      simp
  have hstep : grid2Step gridPhi false (4 * s + 1) gridX st 0 = .error .valueError := by
    unfold grid2Step gridplane2
    rw [if_pos hex]
  have hsweep : gridSweep gridPhi false (4 * s + 1) gridX st = .error .valueError := by
    unfold gridSweep
    rw [show List.finRange 3 = [0, 1, 2] from rfl, List.foldlM_cons, hstep]
    rfl
  rw [gridDirection, hst]
  dsimp only
  rw [if_neg hm.ne', gridLoop, if_pos (by rw [hc]; norm_num [abs_of_pos]), hsweep]

/-- Non-vacuity of the theorems about odd numbers of directions: 999 directions, any data with at least three
variables. -/
example (E : Fin 7 → Fin 4 → ℝ) (φ : (Fin 7 → ℝ) → ℝ) : ∃ a o, gridDirection φ true 999 100 E = .ok (a, o) ∧ UnitLen a ∧
    ∃ st, gridStage1 φ true 999 E = .ok st ∧ criterion φ true (projectOn E st.a) ≤ criterion φ true (projectOn E a) := by
  obtain ⟨a, o, h⟩ := C59_succeeds_partial (m := 1) φ true 999 100 (by norm_num) (by norm_num) (by norm_num) E
  exact ⟨a, o, h, (C55_grid_unit _ _ _ _ _ _ _ h).1, C56_grid_partial _ _ _ _ (by decide) (by norm_num) _ _ _ h⟩

/-- With a nonnegative criterion at least one sweep is made, so C82 applies. -/
example (E : Fin 7 → Fin 4 → ℝ) (φ : (Fin 7 → ℝ) → ℝ) (j : Fin 4) : ∃ a o, gridDirection φ true 999 100 E = .ok (a, o) ∧
    criterion φ true (fun i => E i j) ≤ criterion φ true (projectOn E a) := by
  obtain ⟨a, o, h⟩ := C59_succeeds_partial (m := 1) φ true 999 100 (by norm_num) (by norm_num) (by norm_num) E
  refine ⟨a, o, h, ?_⟩
  by_cases ho : o = -1000
  · exfalso
    rw [gridDirection] at h
    obtain ⟨st, hst⟩ := gridStage1_total (m := 1) φ true (by norm_num : 0 < 999) E
    rw [hst] at h
    dsimp only at h
    have hpos : ∀ t, 0 ≤ evalIdx φ true t := fun t => by simp only [evalIdx, if_true]; positivity
    rw [if_neg (by norm_num), gridLoop, if_pos] at h
    · split at h
      · simp at h
      · rename_i st1 hs1
        obtain ⟨hI, -⟩ := gridStage1_inv hst
        obtain ⟨hu1, hz1⟩ := gridSweep_inv _ hI.unit hI.z_eq hs1
        have key : ∀ (left : ℕ) (o1 : ℝ) (o2 : ℝ) (s : GridState 7 4), 0 ≤ o2 →
            gridLoop φ true 999 E left o1 o2 s = .ok (a, o) → 0 ≤ o := by
          intro left
          induction left with
          | zero =>
            intro o1 o2 s h2 h
            simp only [gridLoop, Except.ok.injEq, Prod.mk.injEq] at h
            rw [← h.2]; exact h2
          | succ left ih =>
            intro o1 o2 s h2 h
            rw [gridLoop] at h
            split at h
            · split at h
              · simp at h
              · exact ih _ _ _ (hpos _) h
            · simp only [Except.ok.injEq, Prod.mk.injEq] at h
              rw [← h.2]; exact h2
        have := key _ _ _ _ (hpos _) h
        linarith
    · have := hpos (projE E st.a)
      rw [abs_of_nonneg (by linarith)]
      norm_num
      linarith
  · exact C82_beats_variables_partial _ _ _ _ (by decide) (by norm_num) _ _ _ h ho j

end Direpack
