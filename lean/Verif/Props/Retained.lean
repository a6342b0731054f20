import Verif.Props.Uncorr
import Verif.Props.SniplsDirections

/-!
Property C181: a sparse SNIPLS model is the model of the variables it retains.
-/

namespace Direpack

open scoped BigOperators
open Matrix Spec

variable {n p q : ℕ} {eta : ℝ}

lemma npSign_smul {r : ℝ} (hr : 0 < r) (x : ℝ) : npSign (r * x) = npSign x := by
  unfold npSign
  simp only [mul_pos_iff_of_pos_left hr]
  by_cases h : 0 < x
  · rw [if_pos h, if_pos h]
  · rw [if_neg h, if_neg h]
    have : r * x < 0 ↔ x < 0 := ⟨fun h => by by_contra h'; exact absurd (mul_nonneg hr.le (not_lt.1 h')) (not_le.2 h), fun h => mul_neg_of_pos_of_neg hr h⟩
    simp only [this]

/-- Dropping columns changes the weights by a positive factor, if a column with largest covariance is kept. -/
lemma snWeights_sub (e : Fin p ↪ Fin q) (eta : ℝ) (X : Fin n → Fin q → ℝ) (y : Fin n → ℝ) (k : Fin p) (hk : ∑ i, X i (e k) * y i ≠ 0)
    (hmax : ∀ j, |∑ i, X i j * y i| ≤ |∑ i, X i (e k) * y i|) :
    ∃ r : ℝ, 0 < r ∧ (∀ j, (snWeights eta (fun i j => X i (e j)) y).1 j = r * (snWeights eta X y).1 (e j)) ∧
      ∀ j, (snWeights eta (fun i j => X i (e j)) y).2 j = r * (snWeights eta X y).2 (e j) := by
  set s : Fin q → ℝ := fun j => ∑ i, X i j * y i with hs
  have hN' : 0 < √(∑ j, s j ^ 2) := by
    apply Real.sqrt_pos.2
    exact Finset.sum_pos' (fun _ _ => sq_nonneg _) ⟨e k, Finset.mem_univ _, by have := hk; positivity⟩
  have hN : 0 < √(∑ j, s (e j) ^ 2) := by
    apply Real.sqrt_pos.2
    exact Finset.sum_pos' (fun _ _ => sq_nonneg _) ⟨k, Finset.mem_univ _, by have := hk; positivity⟩
  set N' := √(∑ j, s j ^ 2) with hN'd
  set N := √(∑ j, s (e j) ^ 2) with hNd
  have hr : 0 < N' / N := div_pos hN' hN
  have hw : ∀ j, s (e j) / N = N' / N * (s (e j) / N') := fun j => by field_simp
  have hm' : maxAbs (fun j => s j / N') = |s (e k)| / N' := by
    refine maxAbs_isGreatest ⟨e k, div_ne_zero hk hN'.ne'⟩ ⟨⟨e k, ?_⟩, ?_⟩
    · simp only [abs_div, abs_of_pos hN']
    · rintro _ ⟨j, rfl⟩
      simp only [abs_div, abs_of_pos hN']
      exact div_le_div_of_nonneg_right (hmax j) hN'.le
  have hm : maxAbs (fun j => s (e j) / N) = |s (e k)| / N := by
    refine maxAbs_isGreatest ⟨k, div_ne_zero hk hN.ne'⟩ ⟨⟨k, ?_⟩, ?_⟩
    · simp only [abs_div, abs_of_pos hN]
    · rintro _ ⟨j, rfl⟩
      simp only [abs_div, abs_of_pos hN]
      exact div_le_div_of_nonneg_right (hmax (e j)) hN.le
  have h1 : ∀ j, (snWeights eta (fun i j => X i (e j)) y).1 j = N' / N * (snWeights eta X y).1 (e j) := by
    intro j
    change |s (e j) / N| - eta * maxAbs (fun j => s (e j) / N) = N' / N * (|s (e j) / N'| - eta * maxAbs (fun j => s j / N'))
    rw [hm, hm', abs_div, abs_div, abs_of_pos hN, abs_of_pos hN']
    field_simp
  refine ⟨N' / N, hr, h1, fun j => ?_⟩
  change (snWeights eta (fun i j => X i (e j)) y).1 j * npSign (s (e j) / N) = N' / N * ((snWeights eta X y).1 (e j) * npSign (s (e j) / N'))
  rw [h1, hw, npSign_smul hr]
  ring

/-- The component `c` of the fit with the columns `e` only, the component `c'` of the fit with all columns. -/
def SubComp (e : Fin p ↪ Fin q) (c : SnComp n p) (c' : SnComp n q) : Prop :=
  ∃ r : ℝ, 0 < r ∧ (∀ j, c.w j = r * c'.w (e j)) ∧ (∀ i, c.t i = r * c'.t i) ∧ c'.good = c.good.map e ∧ ∀ j, j ∉ Set.range e → c'.w j = 0

theorem snLoop_sub (e : Fin p ↪ Fin q) (he1 : eta < 1) (h : ℕ) : ∀ (X : Fin n → Fin q → ℝ) (y : Fin n → ℝ) (old : Finset (Fin p)) (l' : List (SnComp n q)),
    snLoop eta h X y (old.map e) = .ok l' → (∀ c ∈ l', ∀ j ∈ c.good, j ∈ Set.range e) →
    ∃ l, snLoop eta h (fun i j => X i (e j)) y old = .ok l ∧ List.Forall₂ (SubComp e) l l' := by
  induction h with
  | zero =>
    intro X y old l' hl _
    simp only [snLoop, Except.ok.injEq] at hl
    subst hl
    exact ⟨[], rfl, .nil⟩
  | succ h ih =>
    intro X y old l' hl hsub
    simp only [snLoop] at hl ⊢
    by_cases hc : ∀ j, ∑ i, X i j * y i = 0
    · rw [if_pos hc] at hl
      rw [if_pos fun j => hc (e j)]
      by_cases ho : old = ∅
      · rw [if_pos (by simp [ho])] at hl
        rw [if_pos ho]
        simp only [Except.ok.injEq] at hl
        subst hl
        exact ⟨[], rfl, .nil⟩
      · rw [if_neg (by simpa using ho)] at hl
        cases hl
    · rw [if_neg hc] at hl
      push Not at hc
      obtain ⟨j0, hj0⟩ := hc
      have hN : 0 < √(∑ j, (∑ i, X i j * y i) ^ 2) := by
        apply Real.sqrt_pos.2
        exact Finset.sum_pos' (fun _ _ => sq_nonneg _) ⟨j0, Finset.mem_univ _, by positivity⟩
      obtain ⟨m, hm, hmpos⟩ := maxAbs_attained (fun j => (∑ i, X i j * y i) / √(∑ j, (∑ i, X i j * y i) ^ 2)) ⟨j0, div_ne_zero hj0 hN.ne'⟩
      have hgm : 0 < (snWeights eta X y).1 m := by
        have : (snWeights eta X y).1 m = |(∑ i, X i m * y i) / √(∑ j, (∑ i, X i j * y i) ^ 2)| -
            eta * maxAbs (fun j => (∑ i, X i j * y i) / √(∑ j, (∑ i, X i j * y i) ^ 2)) := rfl
        rw [this]
        rw [hm]
        nlinarith
      set good' := old.map e ∪ Finset.univ.filter fun j => 0 < (snWeights eta X y).1 j with hgood'
      have hmg : m ∈ good' := by simp [hgood', hgm]
      rw [if_neg (Finset.ne_empty_of_mem hmg)] at hl
      set w' : Fin q → ℝ := fun j => if j ∈ good' then (snWeights eta X y).2 j else 0 with hw'
      have hwj' : ∀ j, (if j ∈ good' then (snWeights eta X y).2 j else 0) = w' j := fun _ => rfl
      simp only [hwj'] at hl
      set t' : Fin n → ℝ := fun i => ∑ j, X i j * w' j with ht'
      have htj' : ∀ i, ∑ j, X i j * w' j = t' i := fun _ => rfl
      simp only [htj'] at hl
      split_ifs at hl with hz
      split at hl
      · cases hl
      rename_i l2 hl2
      simp only [Except.ok.injEq] at hl
      subst hl
      have hgr : ∀ j ∈ good', j ∈ Set.range e := hsub _ (List.mem_cons_self ..)
      obtain ⟨k, hk⟩ := hgr m hmg
      subst hk
      have hk0 : ∑ i, X i (e k) * y i ≠ 0 := by
        intro h0
        simp only [h0, zero_div, abs_zero] at hm
        exact hmpos.ne hm
      have hmax : ∀ j, |∑ i, X i j * y i| ≤ |∑ i, X i (e k) * y i| := by
        intro j
        have := abs_le_maxAbs (fun j => (∑ i, X i j * y i) / √(∑ j, (∑ i, X i j * y i) ^ 2)) j
        rw [← hm] at this
        simp only [abs_div, abs_of_pos hN] at this
        exact (div_le_div_iff_of_pos_right hN).1 this
      obtain ⟨r, hr, g1, g2⟩ := snWeights_sub e eta X y k hk0 hmax
      rw [if_neg (by push Not; exact ⟨k, hk0⟩)]
      set good := old ∪ Finset.univ.filter fun j => 0 < (snWeights eta (fun i j => X i (e j)) y).1 j with hgood
      have hge : ∀ j, e j ∈ good' ↔ j ∈ good := by
        intro j
        simp [hgood', hgood, g1, mul_pos_iff_of_pos_left hr]
      have hgoodmap : good' = good.map e := by
        ext j
        rw [Finset.mem_map]
        constructor
        · intro hj
          obtain ⟨i, rfl⟩ := hgr j hj
          exact ⟨i, (hge i).1 hj, rfl⟩
        · rintro ⟨i, hi, rfl⟩
          exact (hge i).2 hi
      rw [if_neg (Finset.ne_empty_of_mem ((hge k).1 hmg))]
      set w : Fin p → ℝ := fun j => if j ∈ good then (snWeights eta (fun i j => X i (e j)) y).2 j else 0 with hw
      have hwj : ∀ j, (if j ∈ good then (snWeights eta (fun i j => X i (e j)) y).2 j else 0) = w j := fun _ => rfl
      simp only [hwj]
      have hww : ∀ j, w j = r * w' (e j) := by
        intro j
        simp only [hw, hw', hge]
        split_ifs
        · exact g2 j
        · simp
      have hw0 : ∀ j, j ∉ Set.range e → w' j = 0 := by
        intro j hj
        simp only [hw']
        rw [if_neg fun h => hj (hgr j h)]
      have htt : ∀ i, ∑ j, X i (e j) * w j = r * t' i := by
        intro i
        have : w' = pad e fun j => w' (e j) := eq_pad e _ _ (fun _ => rfl) hw0
        simp only [ht', hww]
        rw [this]
        simp only [fun j => mul_comm (X i j) (pad e (fun j => w' (e j)) j)]
        rw [sum_pad, Finset.mul_sum]
        refine Finset.sum_congr rfl fun j _ => ?_
        rw [pad_apply]
        ring
      simp only [htt]
      have hq : ∑ i, (r * t' i) ^ 2 = r ^ 2 * ∑ i, t' i ^ 2 := by
        rw [Finset.mul_sum]
        exact Finset.sum_congr rfl fun i _ => by ring
      rw [if_neg (by rw [hq]; exact mul_ne_zero (pow_ne_zero 2 hr.ne') hz)]
      have hX2 : (fun i j => X i (e j) - r * t' i * ((∑ i, X i (e j) * (r * t' i)) / ∑ i, (r * t' i) ^ 2)) =
          fun i j => X i (e j) - t' i * ((∑ i, X i (e j) * t' i) / ∑ i, t' i ^ 2) := by
        funext i j
        have : ∑ i, X i (e j) * (r * t' i) = r * ∑ i, X i (e j) * t' i := by
          rw [Finset.mul_sum]
          exact Finset.sum_congr rfl fun i _ => by ring
        rw [hq, this]
        have := hr.ne'
        field_simp
      have hy2 : (fun i => y i - r * t' i * ((∑ i, y i * (r * t' i)) / ∑ i, (r * t' i) ^ 2)) = fun i => y i - t' i * ((∑ i, y i * t' i) / ∑ i, t' i ^ 2) := by
        funext i
        have : ∑ i, y i * (r * t' i) = r * ∑ i, y i * t' i := by
          rw [Finset.mul_sum]
          exact Finset.sum_congr rfl fun i _ => by ring
        rw [hq, this]
        have := hr.ne'
        field_simp
      rw [hX2, hy2]
      rw [hgoodmap] at hl2
      obtain ⟨l, hl, hf⟩ := ih _ _ good _ hl2 fun c hc => hsub c (List.mem_cons_of_mem _ hc)
      rw [hl]
      exact ⟨_, rfl, .cons ⟨r, hr, hww, fun i => rfl, hgoodmap, hw0⟩ hf⟩

/-- Relation of the regression vectors. -/
theorem snCoef_sub (e : Fin p ↪ Fin q) {X : Fin n → Fin q → ℝ} {y : Fin n → ℝ} {h : ℕ} {l : List (SnComp n p)} {l' : List (SnComp n q)}
    (hl : snLoop eta h (fun i j => X i (e j)) y ∅ = .ok l) (hl' : snLoop eta h X y ∅ = .ok l') (hf : List.Forall₂ (SubComp e) l l')
    {R : Matrix (Fin q) (Fin l'.length) ℝ} {B : Fin q → ℝ} (hc : snCoef X y l' = .ok (R, B)) :
    ∃ R', snCoef (fun i j => X i (e j)) y l = .ok (R', fun j => B (e j)) := by
  have hr' := (snLoop_run _ _ _ _ _ _ hl').1
  have hr := (snLoop_run _ _ _ _ _ _ hl).1
  obtain ⟨⟨v, hv⟩, hn⟩ := snCoef_normal hr' hc
  have hlen : l.length = l'.length := hf.length_eq
  have hget : ∀ a : Fin l.length, SubComp e (l.get a) (l'.get (Fin.cast hlen a)) := fun a => List.forall₂_iff_get.1 hf |>.2 a.1 a.2 (by rw [← hlen]; exact a.2)
  choose r hr0 hw ht hg hw0 using hget
  have hB0 : ∀ j, j ∉ Set.range e → B j = 0 := by
    intro j hj
    rw [hv]
    simp only [Matrix.mulVec, dotProduct]
    refine Finset.sum_eq_zero fun a _ => ?_
    have := hw0 (Fin.cast hlen.symm a) j hj
    simp only [compW, Matrix.of_apply]
    rw [show l'.get a = l'.get (Fin.cast hlen (Fin.cast hlen.symm a)) from rfl, this, zero_mul]
  have hlin : ∀ b : Fin q → ℝ, (∀ j, j ∉ Set.range e → b j = 0) → Matrix.of X *ᵥ b = Matrix.of (fun i j => X i (e j)) *ᵥ fun j => b (e j) := by
    intro b hb
    have hb' : b = pad e fun j => b (e j) := eq_pad e _ _ (fun _ => rfl) hb
    have := pad_lin e (fun i j => X i (e j)) X (fun _ _ => rfl) fun j => b (e j)
    rw [← hb'] at this
    exact this
  have hBw : compW l *ᵥ (fun a => (r a)⁻¹ * v (Fin.cast hlen a)) = fun j => B (e j) := by
    funext j
    rw [hv]
    simp only [Matrix.mulVec, dotProduct]
    rw [← Equiv.sum_comp (finCongr hlen)]
    refine Finset.sum_congr rfl fun a _ => ?_
    simp only [compW, Matrix.of_apply, hw, finCongr_apply]
    have := (hr0 a).ne'
    field_simp
  obtain ⟨R', hR⟩ := snCoef_unique (y0 := y) hr (fun a => (r a)⁻¹ * v (Fin.cast hlen a)) (by
    intro c hc
    obtain ⟨a, rfl⟩ := List.get_of_mem hc
    rw [hBw, ← hlin B hB0]
    have h0 := hn _ (List.get_mem l' (Fin.cast hlen a))
    rw [hlin _ (hw0 a)] at h0
    have e1 : (l.get a).w = r a • fun j => (l'.get (Fin.cast hlen a)).w (e j) := by
      funext j
      rw [hw]
      rfl
    rw [e1, Matrix.mulVec_smul, dotProduct_smul, h0, smul_zero])
  rw [hBw] at hR
  exact ⟨R', hR⟩

/-- A location that is computed column by column. -/
lemma Centre.run_sub {c : Centre} (hc : c = .mean ∨ c = .median ∨ c = .noneOpt) (e : Fin p ↪ Fin q) (X : Fin n → Fin q → ℝ) (j : Fin p) :
    c.run (fun i j => X i (e j)) j = c.run X (e j) := by
  rcases hc with rfl | rfl | rfl <;> rfl

lemma ScaleOpt.run_sub {s : ScaleOpt} (hs : s = .std ∨ s = .mad ∨ s = .noneOpt) (e : Fin p ↪ Fin q) (X : Fin n → Fin q → ℝ) (j : Fin p) :
    s.run (fun i j => X i (e j)) j = s.run X (e j) := by
  rcases hs with rfl | rfl | rfl <;> rfl

/-- **C181**: fit SNIPLS, drop any of the variables that the model did not retain (all of them, for instance), and fit again.  The second fit succeeds; it has the same retained variables,
coefficients, intercept, fitted values, residuals and predictions, and the same scores up to a positive factor for each component. -/
theorem C181_refit {pr : SnParams} (hc : pr.centre = .mean ∨ pr.centre = .median ∨ pr.centre = .noneOpt) (hs : pr.scale = .std ∨ pr.scale = .mad ∨ pr.scale = .noneOpt)
    (e : Fin p ↪ Fin q) {X : Fin n → Fin q → ℝ} {y : Fin n → ℝ} {f : SnFit n q} (hf : snFit pr X y = .ok f)
    (hret : ∀ s, colret f.comps = some s → ∀ j ∈ s, j ∈ Set.range e) :
    ∃ f₂, snFit pr (fun i j => X i (e j)) y = .ok f₂ ∧ colret f.comps = (colret f₂.comps).map (fun s => s.map e) ∧
      (∀ j, f₂.coef j = f.coef (e j)) ∧ f₂.intercept = f.intercept ∧ f₂.fitted = f.fitted ∧ f₂.residuals = f.residuals ∧
      List.Forall₂ (fun c₂ c => ∃ r : ℝ, 0 < r ∧ ∀ i, c₂.t i = r * c.t i) f₂.comps f.comps ∧
      ∀ {m : ℕ} (Z : Fin m → Fin q → ℝ), f₂.predict (fun i j => Z i (e j)) = f.predict Z := by
  obtain ⟨⟨p1, p2, p3⟩, a1, a2, a3, a4, a0, a5, a6, a7, a8, a9, a10⟩ := snFit_inv hf
  have hX : stdMat (fun i j => X i (e j)) (pr.centre.run fun i j => X i (e j)) (pr.scale.run fun i j => X i (e j)) = fun i j => stdMat X f.xLoc f.xSca i (e j) := by
    funext i j
    simp only [stdMat, a1, a2, Centre.run_sub hc, ScaleOpt.run_sub hs]
  have hsub : ∀ c ∈ f.comps, ∀ j ∈ c.good, j ∈ Set.range e := by
    intro c hcm j hj
    by_contra hcon
    exact mem_last_good (snLoop_run _ _ _ _ _ _ a5).1 j (fun s hs hjs => hcon (hret s hs j hjs)) c hcm hj
  obtain ⟨l, hl, hfo⟩ := snLoop_sub e p2 pr.nComponents _ _ ∅ f.comps (by rw [Finset.map_empty]; exact a5) hsub
  obtain ⟨f₂, hf₂, hl₂⟩ := snFit_of_loop pr (fun i j => X i (e j)) y p1 p2 p3 (fun j => by rw [ScaleOpt.run_sub hs, ← a2]; exact a0 _) l (by rw [hX, ← a3, ← a4]; exact hl)
  obtain ⟨-, b1, b2, b3, b4, -, b5, b6, b7, b8, b9, b10⟩ := snFit_inv hf₂
  obtain ⟨R', hR'⟩ := snCoef_sub e hl a5 hfo a6
  have hB : f₂.coefScaled = fun j => f.coefScaled (e j) := by
    have b6' : (snCoef (stdMat (fun i j => X i (e j)) f₂.xLoc f₂.xSca) (stdVec y f₂.yLoc f₂.ySca) f₂.comps).map Prod.snd = .ok f₂.coefScaled := by
      rw [b6]; rfl
    rw [b1, b2, hX, b3, b4, ← a3, ← a4, hl₂, hR'] at b6'
    exact (Except.ok.inj b6').symm
  have q3 : ∀ j, f₂.coef j = f.coef (e j) := by
    intro j
    rw [b7, a7, hB, b2, ScaleOpt.run_sub hs, ← a2, b4, ← a4]
  have h0 : ∀ j, j ∉ Set.range e → f.coef j = 0 := fun j hj => (C43_zero_outside_retained hf j fun s hs hjs => hj (hret s hs j hjs)).1
  have hpad : f.coef = pad e f₂.coef := eq_pad e _ _ (fun j => (q3 j).symm) h0
  have q4 : lin (fun i j => X i (e j)) f₂.coef = lin X f.coef := by
    rw [hpad]; exact (pad_lin e (fun i j => X i (e j)) X (fun _ _ => rfl) f₂.coef).symm
  have q5 : f₂.intercept = f.intercept := by rw [b8, a8, q4]
  have q6 : f₂.fitted = f.fitted := by funext i; rw [b9, a9, q4, q5]
  subst hl₂
  refine ⟨f₂, hf₂, ?_, q3, q5, q6, by funext i; rw [b10, a10, q6], hfo.imp fun c c' ⟨r, hr, _, ht, _⟩ => ⟨r, hr, ht⟩, fun Z => ?_⟩
  · have aux : ∀ (l₂ : List (SnComp n p)) (l' : List (SnComp n q)), List.Forall₂ (SubComp e) l₂ l' → colret l' = (colret l₂).map (fun s => s.map e) := by
      intro l₂ l' hh
      induction hh with
      | nil => rfl
      | cons hab htl ih =>
        cases htl with
        | nil =>
          obtain ⟨r, -, -, -, hg, -⟩ := hab
          simp [colret, hg]
        | cons h1 h2 =>
          simpa [colret, List.getLast?_cons_cons] using ih
    exact aux _ _ hfo
  · unfold SnFit.predict
    rw [dif_pos rfl, dif_pos rfl, q5]
    congr 1
    funext i
    congr 1
    have := congrFun (pad_lin e (fun i j => Z i (e j)) Z (fun _ _ => rfl) f₂.coef) i
    rw [← hpad] at this
    exact this.symm

/-- **C181**: predictions and scores of new cases do not depend on the variables that the model did not retain. -/
theorem C181_new_cases {pr : SnParams} {X : Fin n → Fin p → ℝ} {y : Fin n → ℝ} {f : SnFit n p} (hf : snFit pr X y = .ok f) {m : ℕ} (Z Z' : Fin m → Fin p → ℝ)
    (hZ : ∀ s, colret f.comps = some s → ∀ j ∈ s, ∀ i, Z i j = Z' i j) : f.predict Z = f.predict Z' ∧ f.transform Z = f.transform Z' := by
  have hz : ∀ j, (∀ s, colret f.comps = some s → j ∈ s) ∨ (f.coef j = 0 ∧ ∀ a, compW f.comps j a = 0) := by
    intro j
    by_cases h : ∀ s, colret f.comps = some s → j ∉ s
    · exact .inr ⟨(C43_zero_outside_retained hf j h).1, fun a => ((C43_zero_outside_retained hf j h).2.2 a).1⟩
    · push Not at h
      obtain ⟨s, hs, hj⟩ := h
      refine .inl fun s' hs' => ?_
      rw [hs] at hs'
      cases hs'
      exact hj
  obtain ⟨-, a1, a2, a3, a4, a0, a5, a6, -⟩ := snFit_inv hf
  have hR : ∀ j, (∀ a, compW f.comps j a = 0) → ∀ a, f.R j a = 0 := by
    intro j hj a
    rw [snCoef_ok (snLoop_run _ _ _ _ _ _ a5).1, Except.ok.injEq] at a6
    split at a6
    · rename_i h0
      exact absurd a.2 (by omega)
    · have := congrArg Prod.fst a6
      simp only at this
      rw [← this, Matrix.mul_apply]
      exact Finset.sum_eq_zero fun b _ => by rw [hj, zero_mul]
  have hnone : colret f.comps = none → ∀ j, f.coef j = 0 ∧ ∀ a, compW f.comps j a = 0 := by
    intro h j
    have := C43_zero_outside_retained hf j (by rw [h]; simp)
    exact ⟨this.1, fun a => (this.2.2 a).1⟩
  have hcase : ∀ j, (∀ i, Z i j = Z' i j) ∨ (f.coef j = 0 ∧ ∀ a, compW f.comps j a = 0) := by
    intro j
    cases hcr : colret f.comps with
    | none => exact .inr (hnone hcr j)
    | some s =>
      rcases hz j with h | h
      · exact .inl (hZ s hcr j (h s hcr))
      · exact .inr h
  constructor
  · unfold SnFit.predict
    rw [dif_pos rfl, dif_pos rfl]
    congr 1
    funext i
    congr 1
    refine Finset.sum_congr rfl fun j _ => ?_
    rcases hcase j with h | h
    · simp only [Fin.cast_refl, id_eq, h]
    · rw [h.1, mul_zero, mul_zero]
  · unfold SnFit.transform
    rw [dif_pos rfl, dif_pos rfl]
    refine congrArg Except.ok ?_
    ext i a
    rw [Matrix.mul_apply, Matrix.mul_apply]
    refine Finset.sum_congr rfl fun j _ => ?_
    rcases hcase j with h | h
    · simp only [Matrix.of_apply, scaleMat, Fin.cast_refl, id_eq, h]
    · rw [hR j h.2, mul_zero, mul_zero]

/-- Two predictors with covariances 4 and 1; with `eta = 1/2` only the first is retained. -/
example : ∃ f, snFit ⟨1 / 2, 1, .noneOpt, .noneOpt⟩ (![![1, 0], ![0, 1]] : Fin 2 → Fin 2 → ℝ) ![4, 1] = .ok f ∧
    ∀ s, colret f.comps = some s → ∀ j ∈ s, j ∈ Set.range (Fin.castSuccEmb : Fin 1 ↪ Fin 2) := by
  obtain ⟨f, hf⟩ := C44_one_component_total ⟨1 / 2, 1, .noneOpt, .noneOpt⟩ (![![1, 0], ![0, 1]] : Fin 2 → Fin 2 → ℝ) ![4, 1] (by norm_num) (by norm_num) rfl
    (fun j => one_ne_zero)
  refine ⟨f, hf, ?_⟩
  obtain ⟨-, e1, e2, e3, e4, -⟩ := snFit_inv hf
  obtain ⟨s, hs, -, hm⟩ := (C44_first_component hf rfl ![4, 1] (by
    intro j
    rw [e1, e2, e3, e4]
    fin_cases j <;> simp [dot, Fin.sum_univ_two, stdMat, stdVec, std1, Centre.run, ScaleOpt.run])).2 ⟨0, by simp⟩
  intro s' hs' j hj
  rw [hs] at hs'
  cases hs'
  rw [hm] at hj
  fin_cases j
  · exact ⟨0, rfl⟩
  · exfalso
    have := hj
    simp [Fin.forall_fin_two] at this
    norm_num at this

end Direpack
