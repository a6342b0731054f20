import Verif.Props.GridNear
import Verif.Props.RMEquiv
import Verif.Props.RMTotal
import Verif.Props.SniplsEquiv
import Verif.Props.SPRMEquiv

/-! Property C177: variables with the same content are treated alike. -/

namespace Direpack

open scoped BigOperators
open Spec

variable {n p : ℕ}

/-- Variable `j'` is variable `j` in other units: `a` times its values, plus `b`. -/
def Spec.SameVariable (X : Fin n → Fin p → ℝ) (j j' : Fin p) (a b : ℝ) : Prop := a ≠ 0 ∧ ∀ i, X i j' = a * X i j + b

/-- The data with variable `j'` back in the units of variable `j`. -/
lemma backUnits_swap {X : Fin n → Fin p → ℝ} {j j' : Fin p} {a b : ℝ} (h : SameVariable X j j' a b) (hj : j ≠ j') :
    reorder (Equiv.refl (Fin n)) (Equiv.swap j j') (newUnits (fun k => if k = j' then 1 / a else 1) (fun k => if k = j' then -b / a else 0) X) =
      newUnits (fun k => if k = j' then 1 / a else 1) (fun k => if k = j' then -b / a else 0) X := by
  obtain ⟨ha, hX⟩ := h
  funext i k
  simp only [reorder, newUnits, Equiv.refl_apply]
  by_cases h1 : k = j
  · subst h1
    rw [Equiv.swap_apply_left, if_pos rfl, if_pos rfl, if_neg hj, if_neg hj, hX]
    field_simp
    ring
  · by_cases h2 : k = j'
    · subst h2
      rw [Equiv.swap_apply_right, if_pos rfl, if_pos rfl, if_neg hj, if_neg hj, hX]
      field_simp
      ring
    · rw [Equiv.swap_apply_of_ne_of_ne h1 h2]

lemma newUnit_one (y : Fin n → ℝ) : newUnit 1 0 y = y := by funext i; simp [newUnit]

/-- A variable that is another version of itself is that version, or has no scale. -/
lemma sameVariable_self {s : ScaleOpt} (hs : s = .std ∨ s = .mad) (hn : 0 < n) {X : Fin n → Fin p → ℝ} {j : Fin p} {a b : ℝ} (h : SameVariable X j j a b)
    (h0 : s.run X j ≠ 0) : a = 1 := by
  by_contra ha1
  have hcst : ∀ i, X i j = b / (1 - a) := fun i => by
    have := h.2 i
    rw [eq_div_iff (sub_ne_zero.mpr (Ne.symm ha1))]
    linarith
  have e := ScaleOpt.run_units (s := s) hs hn (fun _ => 0) (fun _ => b / (1 - a)) X j
  have hcol : (fun i => newUnits (fun _ => 0) (fun _ => b / (1 - a)) X i j) = fun i => X i j := funext fun i => by simp [newUnits, hcst]
  have h1 : s.run (newUnits (fun _ => 0) (fun _ => b / (1 - a)) X) j = s.run X j := by
    rcases hs with rfl | rfl <;> simp only [ScaleOpt.run, hcol]
  rw [h1, abs_zero, zero_mul] at e
  exact h0 e

/-- The scales of two versions of a variable. -/
lemma sameVariable_scale {s : ScaleOpt} (hs : s = .std ∨ s = .mad) (hn : 0 < n) {X : Fin n → Fin p → ℝ} {j j' : Fin p} {a b : ℝ} (h : SameVariable X j j' a b) :
    s.run X j' = |a| * s.run X j := by
  have e := ScaleOpt.run_units (s := s) hs hn (fun _ => a) (fun _ => b) X j
  have hcol : (fun i => newUnits (fun _ => a) (fun _ => b) X i j) = fun i => X i j' := funext fun i => (h.2 i).symm
  rw [← e]
  rcases hs with rfl | rfl <;> simp only [ScaleOpt.run, hcol]

/-- **C177.** SNIPLS: two variables with the same content in different units both enter or both stay out, and contribute equally: the coefficients are those of one variable in the two units.
Partial, as the property is about all estimators: the grid search of `ppdire` does not have it (`C177_grid_violated`). -/
theorem C177_snipls_partial {pr : SnParams} (hc : pr.centre = .mean ∨ pr.centre = .median) (hs : pr.scale = .std ∨ pr.scale = .mad)
    (hn : 0 < n) {X : Fin n → Fin p → ℝ} {y : Fin n → ℝ} {f : SnFit n p} (h : snFit pr X y = .ok f) {j j' : Fin p} {a b : ℝ} (hj : SameVariable X j j' a b) :
    f.coef j = a * f.coef j' ∧ ((∃ s, colret f.comps = some s ∧ j ∈ s) ↔ ∃ s, colret f.comps = some s ∧ j' ∈ s) := by
  by_cases hjj : j = j'
  · subst hjj
    refine ⟨?_, Iff.rfl⟩
    obtain ⟨-, -, e2, -, -, hne, -⟩ := snFit_inv h
    rw [sameVariable_self hs hn hj (e2 ▸ hne j), one_mul]
  obtain ⟨f1, h1, hr1, hc1, -⟩ := C106_snipls_units hc hs hn h (fun k => if k = j' then 1 / a else 1) (fun k => if k = j' then -b / a else 0)
    (fun k => by split_ifs; exacts [one_div_ne_zero hj.1, one_ne_zero]) 1 0 one_ne_zero
  rw [newUnit_one] at h1
  obtain ⟨f2, h2, hc2, -, -, -, -, hr2, -⟩ := C107_snipls_order (by tauto) (by tauto) h1 (Equiv.refl _) (Equiv.swap j j')
  rw [backUnits_swap hj hjj] at h2
  change snFit pr _ y = _ at h2
  rw [h1, Except.ok.injEq] at h2
  subst h2
  constructor
  · have e := hc2 j
    rw [Equiv.swap_apply_left, hc1, hc1, if_pos rfl, if_neg hjj] at e
    simpa using e
  · have e := hr2 j
    rw [Equiv.swap_apply_left, hr1] at e
    exact e

/-- **C177.** Robust M regression: the same for the coefficients. Partial as for SNIPLS. -/
theorem C177_rm_partial (hn : 0 < n) {ext : RmExt} {pr : RmParams} (hc : pr.centre = .mean ∨ pr.centre = .median) (hs : pr.scale = .std ∨ pr.scale = .mad)
    (hls : ∀ (A : Fin n → Fin p → ℝ) (z : Fin n → ℝ), IsMinNormLS A z (ext.lstsq A z))
    {X : Fin n → Fin p → ℝ} {y : Fin n → ℝ} {f : RmFit n p} (h : rmFit ext pr X y = .ok f) {j j' : Fin p} {a b : ℝ}
    (hj : SameVariable X j j' a b) : f.coef j = a * f.coef j' := by
  obtain ⟨-, -, e2, -, -, hne, _, _, o, -, -, -, -, hco, -⟩ := rmFit_inv h
  by_cases hjj : j = j'
  · subst hjj
    rw [sameVariable_self hs hn hj (e2 ▸ hne j), one_mul]
  by_cases hy : f.ySca = 0
  · rw [hco, hco, hy]; simp
  obtain ⟨f1, h1, hc1, -⟩ := C108_rm_units hc hs hls h hy (fun k => if k = j' then 1 / a else 1) (fun k => if k = j' then -b / a else 0)
    (fun k => by split_ifs; exacts [one_div_ne_zero hj.1, one_ne_zero]) 1 0 one_pos
  rw [newUnit_one] at h1
  obtain ⟨f2, h2, hc2, -⟩ := C109_rm_order hc hs hls h1 (Equiv.refl _) (Equiv.swap j j')
  rw [backUnits_swap hj hjj] at h2
  change rmFit ext pr _ y = _ at h2
  rw [h1, Except.ok.injEq] at h2
  subst h2
  have e := hc2 j
  rw [Equiv.swap_apply_left, hc1, hc1, if_pos rfl, if_neg hjj] at e
  simpa using e

/-- **C177.** Sparse partial robust M regression: equal variables are both kept or both dropped, and have equal coefficients. Partial: no change of units; see the next theorem. -/
theorem C177_sprm_partial {ext : SprmExt} {pr : SprmParams} (hc : pr.centre.Follows (Equiv.refl (Fin n)))
    {X : Fin n → Fin p → ℝ} {y : Fin n → ℝ} {f : SprmFit n p} (h : (sprmFit ext pr X y).2 = .ok f)
    (hs : (sprmAfter pr X).scale.opt.Follows (Equiv.refl (Fin n)))
    (hsvd : pr.pcapp = true → SvdFollows ext (selCols (stdMat X f.xLoc f.xSca) f.keep) (Equiv.refl (Fin n))) {j j' : Fin p} (hj : ∀ i, X i j' = X i j) :
    (j ∈ f.keep ↔ j' ∈ f.keep) ∧ ∀ k k', f.keep.get k = j → f.keep.get k' = j' → f.coef k = f.coef k' := by
  obtain ⟨f2, h2, hk2, hc2, -⟩ := C117_sprm_order (Equiv.refl _) (Equiv.swap j j') hc h hs hsvd
  have hX : reorder (Equiv.refl (Fin n)) (Equiv.swap j j') X = X := by
    funext i k
    simp only [reorder, Equiv.refl_apply]
    rcases eq_or_ne k j with rfl | h1
    · rw [Equiv.swap_apply_left, hj]
    · rcases eq_or_ne k j' with rfl | h2
      · rw [Equiv.swap_apply_right, hj]
      · rw [Equiv.swap_apply_of_ne_of_ne h1 h2]
  rw [hX] at h2
  change (sprmFit ext pr X y).2 = _ at h2
  rw [h, Except.ok.injEq] at h2
  subst h2
  refine ⟨by have := hk2 j; rwa [Equiv.swap_apply_left] at this, fun k k' hk hk' => ?_⟩
  exact hc2 k k' (by rw [hk, hk', Equiv.swap_apply_left])

/-- **C177.** Sparse partial robust M regression, for a variable in two units.  Partial: starting weights from the distances, and both versions kept (by C116 a
version with a scale below `1e-5` is dropped). -/
theorem C177_sprm_units_partial {ext : SprmExt} {pr : SprmParams} (hc : pr.centre = .mean ∨ pr.centre = .median) {s : ScaleOpt} (hps : pr.scale = .plain s)
    (hs : s = .std ∨ s = .mad) (hp : pr.pcapp = false) {X : Fin n → Fin p → ℝ} {y : Fin n → ℝ} {f : SprmFit n p} (h : (sprmFit ext pr X y).2 = .ok f)
    {j j' : Fin p} {a b : ℝ} (hj : SameVariable X j j' a b) {k k' : Fin f.keep.length} (hk : f.keep.get k = j) (hk' : f.keep.get k' = j') :
    f.coef k = a * f.coef k' := by
  have hopt : (sprmAfter pr X).scale.opt = s := by
    change (pr.scale.resolve X).opt = s
    rw [hps]; rfl
  obtain ⟨-, -, e2, -, -, hkf, -, _, _, _, _, o, hdx, -, -, -, -, -, hco, -⟩ := sprmFit_inv h
  have hn : 0 < n := sprmStartX_ncases hdx
  rw [hopt] at e2
  have hkn : f.keep.Nodup := by rw [hkf]; exact keepVars_nodup _
  have hb : ∀ l : Fin f.keep.length, ¬ f.xSca (f.keep.get l) < 1 / 100000 := fun l => by
    have hmem : ∀ i ∈ f.keep, ¬ f.xSca i < 1 / 100000 := by rw [hkf]; exact fun i hi => keepVars_mem.mp hi
    exact hmem _ (List.get_mem f.keep l)
  by_cases hjj : j = j'
  · subst hjj
    have hkk : k = k' := hkn.injective_get (hk.trans hk'.symm)
    have h0 : s.run X j ≠ 0 := fun h0 => by
      apply hb k
      rw [hk, e2, h0]
      norm_num
    rw [hkk, sameVariable_self hs hn hj h0, one_mul]
  by_cases hy : f.ySca = 0
  · rw [hco, hco, hy]; simp
  have hsc : f.xSca j' = |a| * f.xSca j := by rw [e2]; exact sameVariable_scale hs hn hj
  have hapos : 0 < |a| := abs_pos.mpr hj.1
  obtain ⟨f1, h1, hm1, hc1, -⟩ := C116_sprm_units_partial hc hps hs h hy (fun k => if k = j' then 1 / a else 1) (fun k => if k = j' then -b / a else 0)
    (fun k => by split_ifs; exacts [one_div_ne_zero hj.1, one_ne_zero]) (.inl hp) 1 0 one_pos (fun l => by
      by_cases hl : l = j'
      · subst hl
        have h3 := hb k
        have h4 := hb k'
        rw [hk] at h3
        rw [hk'] at h4
        have h5 : |1 / a| * f.xSca l = f.xSca j := by rw [hsc, abs_div, abs_one]; field_simp
        rw [if_pos rfl, h5]
        exact ⟨fun h => absurd h h3, fun h => absurd h h4⟩
      · rw [if_neg hl, abs_one, one_mul])
  rw [newUnit_one] at h1
  have hopt1 : (sprmAfter pr (newUnits (fun k => if k = j' then 1 / a else 1) (fun k => if k = j' then -b / a else 0) X)).scale.opt = s := by
    change (pr.scale.resolve _).opt = s
    rw [hps]; rfl
  obtain ⟨f2, h2, -, hc2, -⟩ := C117_sprm_order (Equiv.refl _) (Equiv.swap j j') (Centre.follows (by tauto) hn _) h1
    (by rw [hopt1]; exact ScaleOpt.follows (by tauto) hn _) (fun h => by rw [hp] at h; simp at h)
  rw [backUnits_swap hj hjj] at h2
  change (sprmFit ext pr _ y).2 = _ at h2
  rw [h1, Except.ok.injEq] at h2
  subst h2
  obtain ⟨l, hl⟩ := List.mem_iff_get.mp ((hm1 j).mpr (hk ▸ List.get_mem f.keep k))
  obtain ⟨l', hl'⟩ := List.mem_iff_get.mp ((hm1 j').mpr (hk' ▸ List.get_mem f.keep k'))
  have e := hc2 l l' (by rw [hl, hl', Equiv.swap_apply_left])
  rw [hc1 l k (hl.trans hk.symm), hc1 l' k' (hl'.trans hk'.symm), hk, hk', if_pos rfl, if_neg hjj] at e
  simpa using e

/-! ### The grid search -/

/-- Two cases, three variables, the first two of which are equal. -/
def dupX : Fin 2 → Fin 3 → ℝ := ![![1, 1, 0], ![-1, -1, 0]]

lemma dupX_crit (a : Fin 3 → ℝ) : criterion varianceOf false (projectOn dupX a) = (a 0 + a 1) ^ 2 := by
  simp [criterion, varianceOf, avg, projectOn, dupX, Fin.sum_univ_succ]
  ring

lemma dup_plane (c : ℝ) (w : Fin 2 → ℝ) (X : Fin 2 → Fin 2 → ℝ) (hX : X = ![![c, 0], ![-c, 0]]) : criterion varianceOf false (projectOn X w) = (c * w 0) ^ 2 := by
  subst hX
  simp [criterion, varianceOf, avg, projectOn, Fin.sum_univ_succ]

lemma planeDir_third : planeDir ((1 : ℕ) * (Real.pi / (3 : ℕ))) = ![1 / 2, √3 / 2] := by
  simp [planeDir]

lemma planeDir_zero3 : planeDir ((0 : ℕ) * (Real.pi / (3 : ℕ))) = ![1, 0] := by
  simp [planeDir]

lemma planeDir_two3 : planeDir ((2 : ℕ) * (Real.pi / (3 : ℕ))) = ![-(1 / 2), √3 / 2] := by
  have h : ((2 : ℕ) : ℝ) * (Real.pi / (3 : ℕ)) = Real.pi - Real.pi / 3 := by push_cast; ring
  rw [h]
  simp [planeDir, Real.cos_pi_sub, Real.sin_pi_sub]

lemma cand2_three (k : ℕ) (hk : k < 3) : cand2 3 k = ![0, -1] ∨ cand2 3 k = ![1, 0] ∨ cand2 3 k = ![0, 1] := by
  interval_cases k
  · left
    rw [cand2_eq, angle2, if_neg (by norm_num)]
    simp [planeDir, Real.sin_neg]
  · right; left
    exact cand2_mid 1 (by norm_num)
  · right; right
    exact cand2_end 3 (by norm_num)

lemma sqrt3_sq : √3 ^ 2 = (3 : ℝ) := Real.sq_sqrt (by norm_num)

lemma sqrt3_pos : 0 < (√3 : ℝ) := Real.sqrt_pos.mpr (by norm_num)

lemma dup_stage1 {st : GridState 2 3} (h : gridStage1 (m := 0) varianceOf false 3 dupX = .ok st) : st.a = ![1 / 2, √3 / 2, 0] := by
  obtain ⟨w, b, hw, hI0, hf, hb⟩ := gridStage1_start (m := 0) h
  have h3 := sqrt3_sq
  have h3p := sqrt3_pos
  have hcr : ∀ u : Fin 2 → ℝ, criterion varianceOf false (projectOn (fun i => ![dupX i 0, dupX i 1]) u) = (u 0 + u 1) ^ 2 := by
    intro u
    simp [criterion, varianceOf, avg, projectOn, dupX, Fin.sum_univ_succ]
    ring
  obtain ⟨k, hwk, hk, hv, hle, -⟩ := C54_gridplane_best _ _ _ _ _ _ hw
  have h1 := hle 1 (by norm_num)
  simp only [hcr] at h1 hv
  rw [planeDir_third] at h1
  have hk1 : w = ![1 / 2, √3 / 2] := by
    interval_cases k
    · exfalso
      rw [planeDir_zero3] at hv
      simp only [Matrix.cons_val_zero, Matrix.cons_val_one] at h1 hv
      nlinarith
    · rw [hwk, planeDir_third]
    · exfalso
      rw [planeDir_two3] at hv
      simp only [Matrix.cons_val_zero, Matrix.cons_val_one] at h1 hv
      nlinarith
  have hd : (List.finRange (0 + 3)).drop 2 = [2] := rfl
  rw [hd, List.foldlM_cons] at hf
  unfold grid1Step at hf
  dsimp only at hf
  have hX : pairCols (proj2 (fun i => ![dupX i 0, dupX i 1]) w) (fun i => dupX i 2) = ![![1 / 2 + √3 / 2, 0], ![-(1 / 2 + √3 / 2), 0]] := by
    funext i k
    fin_cases i <;> fin_cases k <;> simp [pairCols, proj2, dupX, hk1]
    ring
  rw [hX] at hf
  cases hg : gridplane varianceOf false 3 (![![1 / 2 + √3 / 2, 0], ![-(1 / 2 + √3 / 2), 0]] : Fin 2 → Fin 2 → ℝ) with
  | error e => rw [hg] at hf; simp [bind, Except.bind] at hf
  | ok r =>
    obtain ⟨v, m⟩ := r
    rw [hg] at hf
    simp only [bind, Except.bind, List.foldlM_nil, pure, Except.pure, Except.ok.injEq] at hf
    obtain ⟨k, hvk, hk, hv, hle, -⟩ := C54_gridplane_best _ _ _ _ _ _ hg
    have h1 := hle 0 (by norm_num)
    simp only [dup_plane _ _ _ rfl] at h1 hv
    rw [planeDir_zero3] at h1
    have hv1 : v = ![1, 0] := by
      interval_cases k
      · rw [hvk, planeDir_zero3]
      · exfalso
        rw [planeDir_third] at hv
        simp only [Matrix.cons_val_zero] at h1 hv
        nlinarith
      · exfalso
        rw [planeDir_two3] at hv
        simp only [Matrix.cons_val_zero] at h1 hv
        nlinarith
    rw [← hf]
    funext k
    fin_cases k <;> simp [hv1, hk1]

lemma dup_step (st : GridState 2 3) (ha : st.a = ![1 / 2, √3 / 2, 0]) (hu : UnitLen st.a) (hz : st.z = projectOn dupX st.a) (j : Fin 3) :
    ∃ st', grid2Step varianceOf false 3 dupX st j = .ok st' ∧ st'.a = ![1 / 2, √3 / 2, 0] ∧ UnitLen st'.a ∧ st'.z = projectOn dupX st'.a := by
  have h3 := sqrt3_sq
  have h3p := sqrt3_pos
  have hs := unit3 hu
  have hq : st.a j ^ 2 ≤ 1 := by fin_cases j <;> simp only [Fin.zero_eta, Fin.mk_one, Fin.reduceFinMk] <;> nlinarith [sq_nonneg (st.a 0), sq_nonneg (st.a 1), sq_nonneg (st.a 2)]
  obtain ⟨s, e, k, hk, hf⟩ := grid2Step_total varianceOf false (by norm_num : 0 < 3) dupX st j (fun k _ => divSq_pos _ (by norm_num) (by norm_num) k _ hq)
  have hI := (grid2Step_inv hu hz e).1
  have hmono := grid2Step_mono (r := 1) one_pos hu hz e
  rw [hz, hI.z_eq, dupX_crit, dupX_crit, ha] at hmono
  simp only [Matrix.cons_val_zero, Matrix.cons_val_one] at hmono
  refine ⟨s, e, ?_, hI.unit, hI.z_eq⟩
  have hjump : ∀ e' : ℝ, e' ^ 2 = 1 → (∀ i, s.a i = if i = j then e' else 0) → False := by
    intro e' he hs'
    have h5 : (s.a 0 + s.a 1) ^ 2 ≤ 1 := by
      rw [hs', hs']
      fin_cases j <;> simp [he]
    nlinarith
  rcases cand2_three k hk with hc | hc | hc
  · exfalso
    refine hjump (-1) (by norm_num) fun i => ?_
    rw [hf, hc]
    simp [rescaled, divSq]
  · funext i
    rw [hf, hc, rescaled_10, ha]
    simp
  · exfalso
    refine hjump 1 (by norm_num) fun i => ?_
    rw [hf, hc, rescaled_01]
    simp

lemma dup_fold : ∀ (l : List (Fin 3)) (st : GridState 2 3), st.a = ![1 / 2, √3 / 2, 0] → UnitLen st.a → st.z = projectOn dupX st.a →
    ∃ st', l.foldlM (grid2Step varianceOf false 3 dupX) st = .ok st' ∧ st'.a = ![1 / 2, √3 / 2, 0] ∧ UnitLen st'.a ∧ st'.z = projectOn dupX st'.a := by
  intro l
  induction l with
  | nil => intro st ha hu hz; exact ⟨st, rfl, ha, hu, hz⟩
  | cons j l ih =>
    intro st ha hu hz
    obtain ⟨s, e, ha', hu', hz'⟩ := dup_step st ha hu hz j
    rw [List.foldlM_cons, e]
    exact ih s ha' hu' hz'

lemma dup_loop : ∀ (left : ℕ) (o1 o2 : ℝ) (st : GridState 2 3), st.a = ![1 / 2, √3 / 2, 0] → UnitLen st.a → st.z = projectOn dupX st.a →
    ∃ o, gridLoop varianceOf false 3 dupX left o1 o2 st = .ok (![1 / 2, √3 / 2, 0], o) := by
  intro left
  induction left with
  | zero => intro o1 o2 st ha _ _; exact ⟨_, by rw [gridLoop, ha]⟩
  | succ left ih =>
    intro o1 o2 st ha hu hz
    rw [gridLoop]
    split
    · obtain ⟨s, e, ha', hu', hz'⟩ := dup_fold (List.finRange 3) st ha hu hz
      have e' : gridSweep varianceOf false 3 dupX st = .ok s := e
      rw [e']
      exact ih _ _ s ha' hu' hz'
    · exact ⟨_, by rw [ha]⟩

/-- C177 is violated by the grid search of `ppdire`: with three directions and the variance the first of two equal variables gets weight 1/2, the second √3/2, whatever the number of iterations. -/
theorem C177_grid_violated (maxiter : ℕ) (hm : 0 < maxiter) :
    (∀ i, dupX i 1 = dupX i 0) ∧ ∃ a o, gridDirection varianceOf false 3 maxiter dupX = .ok (a, o) ∧ a 0 = 1 / 2 ∧ a 1 = √3 / 2 ∧ a 0 ≠ a 1 := by
  refine ⟨fun i => by fin_cases i <;> simp [dupX], ?_⟩
  obtain ⟨st, hst⟩ := gridStage1_total (m := 0) varianceOf false (by norm_num : 0 < 3) dupX
  have hI := (gridStage1_inv (m := 0) hst).1
  obtain ⟨o, hl⟩ := dup_loop (maxiter + 1) (evalIdx varianceOf false (projE dupX st.a)) (-1000) st (dup_stage1 hst) hI.unit hI.z_eq
  refine ⟨![1 / 2, √3 / 2, 0], o, ?_, rfl, rfl, ?_⟩
  · rw [gridDirection, hst]
    dsimp only
    rw [if_neg hm.ne']
    exact hl
  · have h3 := sqrt3_sq
    simp only [Matrix.cons_val_zero, Matrix.cons_val_one]
    intro h
    nlinarith

/-! ### The conditions can be met -/

/-- A temperature in Celsius and in Fahrenheit. -/
example : SameVariable (![![0, 32], ![10, 50], ![-5, 23]] : Fin 3 → Fin 2 → ℝ) 0 1 (9 / 5) 32 :=
  ⟨by norm_num, fun i => by fin_cases i <;> norm_num⟩

/-- SNIPLS of a temperature in Celsius and in Fahrenheit, and another variable. -/
example : ∃ f, snFit ⟨0, 1, .mean, .std⟩ (![![0, 32, 1], ![10, 50, 0]] : Fin 2 → Fin 3 → ℝ) ![0, 2] = .ok f ∧ f.coef 0 = 9 / 5 * f.coef 1 := by
  obtain ⟨f, hf⟩ := C44_one_component_total ⟨0, 1, .mean, .std⟩ (![![0, 32, 1], ![10, 50, 0]] : Fin 2 → Fin 3 → ℝ) ![0, 2] (le_refl 0) one_pos rfl (by
    intro j
    have : 0 < var fun i => (![![0, 32, 1], ![10, 50, 0]] : Fin 2 → Fin 3 → ℝ) i j := by
      fin_cases j <;> simp [var, varL, List.ofFn_succ, meanL] <;> norm_num
    simp only [ScaleOpt.run]
    exact (Real.sqrt_pos.2 this).ne')
  exact ⟨f, hf, (C177_snipls_partial (.inl rfl) (.inl rfl) (by norm_num) hf (b := 32) ⟨by norm_num, fun i => by fin_cases i <;> norm_num⟩).1⟩

/-- The predictor of the worked RM fit, and the same in other units. -/
noncomputable def twoX : Fin 3 → Fin 2 → ℝ := fun i j => if j = 0 then rmX i 0 else -2 * rmX i 0 + 5

lemma twoX_same : SameVariable twoX 0 1 (-2) 5 := ⟨by norm_num, fun i => by simp [twoX]⟩

/-- Robust M regression on it. -/
example : ∃ f, rmFit rmExt1 (rmPr true) twoX rmY = .ok f ∧ f.coef 0 = -2 * f.coef 1 := by
  have hm := madC_pos
  have hs0 : ScaleOpt.mad.run twoX 0 = 1 / madConst := rm_madX
  have hs1 : ScaleOpt.mad.run twoX 1 = 2 * (1 / madConst) := by
    rw [sameVariable_scale (.inr rfl) (by norm_num) twoX_same, hs0]; norm_num
  have hl0 : Centre.median.run twoX 0 = 0 := rm_medX
  have hl1 : Centre.median.run twoX 1 = 5 := by
    show med (fun i => twoX i 1) = 5
    refine med3 _ _ 2 1 0 (by decide) (by decide) ?_ ?_ ?_ <;> simp [twoX, rmX] <;> norm_num
  suffices h : RmDataOk (rmPr true) twoX rmY by
    obtain ⟨f, hf⟩ := (C145_rm_model_iff rmExt1 rmExt1_ls (rmPr true) twoX rmY).mpr ⟨⟨by norm_num [rmPr], by norm_num [rmPr], fun h => by simp [rmPr] at h⟩, h⟩
    exact ⟨f, hf, C177_rm_partial (by norm_num) (.inr rfl) (.inr rfl) rmExt1_min hf twoX_same⟩
  refine ⟨?_, ?_, .inl ⟨rfl, rfl⟩, ?_⟩
  · intro j
    change ScaleOpt.mad.run twoX j ≠ 0
    fin_cases j
    · exact hs0 ▸ (by positivity)
    · exact hs1 ▸ (by positivity)
  · change med (fun i => Real.sqrt (∑ j, ((twoX i j - Centre.median.run twoX j) / ScaleOpt.mad.run twoX j) ^ 2)) ≠ 0
    have hd : ∀ i, Real.sqrt (∑ j, ((twoX i j - Centre.median.run twoX j) / ScaleOpt.mad.run twoX j) ^ 2) = (![3, 0, 1] : Fin 3 → ℝ) i * (√2 * madConst) := by
      intro i
      rw [Fin.sum_univ_two, hs0, hs1, hl0, hl1]
      have h0 : (0 : ℝ) ≤ (![3, 0, 1] : Fin 3 → ℝ) i * (√2 * madConst) := by
        fin_cases i <;> simp <;> positivity
      rw [← Real.sqrt_sq h0]
      congr 1
      have h2 : (√2 : ℝ) ^ 2 = 2 := Real.sq_sqrt (by norm_num)
      rw [mul_pow, mul_pow, h2]
      fin_cases i <;> simp [twoX, rmX] <;> field_simp <;> norm_num
    simp only [hd]
    rw [med3 (fun i => (![3, 0, 1] : Fin 3 → ℝ) i * (√2 * madConst)) (√2 * madConst) 1 2 0 (by decide) (by decide)
      (by simp; positivity) (by simp) (by simp; nlinarith [mul_pos (Real.sqrt_pos.mpr (by norm_num : (0:ℝ) < 2)) hm])]
    positivity
  · rintro ⟨β, hβ⟩
    have h1 := hβ 1
    change rmY 1 - Centre.median.run (asCol rmY) 0 = ∑ j, (twoX 1 j - Centre.median.run twoX j) * β j at h1
    have hy : Centre.median.run (asCol rmY) 0 = 0 := rm_medY
    rw [Fin.sum_univ_two, hl0, hl1, hy] at h1
    simp [twoX, rmX, rmY] at h1

end Direpack
