import Verif.Props.SniplsEquiv
import Verif.Spec.Constant

/-!
Property C169: a constant column carries no information.
-/

namespace Direpack

open scoped BigOperators
open Matrix Spec

variable {n p q : ℕ} {eta : ℝ}

/-! ### Vectors with zeros in the additional places -/

/-- The entries of `v` in the places `e`, zero elsewhere. -/
noncomputable def pad (e : Fin p ↪ Fin q) (v : Fin p → ℝ) : Fin q → ℝ := Function.extend e v 0

@[simp] lemma pad_apply (e : Fin p ↪ Fin q) (v : Fin p → ℝ) (j : Fin p) : pad e v (e j) = v j := e.injective.extend_apply _ _ _

lemma pad_out (e : Fin p ↪ Fin q) (v : Fin p → ℝ) {j : Fin q} (h : j ∉ Set.range e) : pad e v j = 0 := by
  unfold pad
  rw [Function.extend_apply']
  · rfl
  · exact h

/-- A vector with given entries in the places `e` and zeros elsewhere. -/
lemma eq_pad (e : Fin p ↪ Fin q) (v : Fin p → ℝ) (u : Fin q → ℝ) (h1 : ∀ j, u (e j) = v j) (h2 : ∀ j, j ∉ Set.range e → u j = 0) : u = pad e v := by
  funext j
  by_cases h : j ∈ Set.range e
  · obtain ⟨k, rfl⟩ := h
    rw [h1, pad_apply]
  · rw [h2 j h, pad_out e v h]

lemma sum_pad (e : Fin p ↪ Fin q) (u : Fin p → ℝ) (v : Fin q → ℝ) : ∑ j, pad e u j * v j = ∑ j, u j * v (e j) := by
  symm
  refine Fintype.sum_of_injective e e.injective _ _ (fun j hj => ?_) fun j => by rw [pad_apply]
  rw [pad_out e u hj, zero_mul]

lemma sum_pad' (e : Fin p ↪ Fin q) (u v : Fin p → ℝ) : ∑ j, pad e u j * pad e v j = ∑ j, u j * v j := by
  rw [sum_pad]; simp

lemma sum_pad_sq (e : Fin p ↪ Fin q) (u : Fin p → ℝ) : ∑ j, pad e u j ^ 2 = ∑ j, u j ^ 2 := by
  simp only [sq]; exact sum_pad' e u u

lemma maxAbs_pad (e : Fin p ↪ Fin q) (v : Fin p → ℝ) : maxAbs (pad e v) = maxAbs v := by
  apply le_antisymm
  · refine foldr_max_le _ _ (maxAbs_nonneg v) fun x hx => ?_
    obtain ⟨j, rfl⟩ := (List.mem_ofFn' _ _).mp hx
    by_cases h : j ∈ Set.range e
    · obtain ⟨k, rfl⟩ := h
      simp only [pad_apply]
      exact abs_le_maxAbs v _
    · simp only [pad_out e v h, abs_zero]
      exact maxAbs_nonneg v
  · refine foldr_max_le _ _ (maxAbs_nonneg _) fun x hx => ?_
    obtain ⟨j, rfl⟩ := (List.mem_ofFn' _ _).mp hx
    have := abs_le_maxAbs (pad e v) (e j)
    rwa [pad_apply] at this

/-- The data with zeros in the additional columns. -/
noncomputable def padMat (e : Fin p ↪ Fin q) (X : Fin n → Fin p → ℝ) : Fin n → Fin q → ℝ := fun i => pad e (X i)

lemma padMat_cov (e : Fin p ↪ Fin q) (X : Fin n → Fin p → ℝ) (y : Fin n → ℝ) : (fun j => ∑ i, padMat e X i j * y i) = pad e fun j => ∑ i, X i j * y i := by
  refine eq_pad e _ _ (fun j => ?_) fun j hj => ?_
  · simp only [padMat, pad_apply]
  · simp only [padMat, pad_out e _ hj, zero_mul, Finset.sum_const_zero]

lemma pad_div (e : Fin p ↪ Fin q) (v : Fin p → ℝ) (c : ℝ) : (fun j => pad e v j / c) = pad e fun j => v j / c :=
  eq_pad e _ _ (fun j => by rw [pad_apply]) fun j hj => by rw [pad_out e v hj, zero_div]

lemma snWeights_pad (e : Fin p ↪ Fin q) (eta : ℝ) (X : Fin n → Fin p → ℝ) (y : Fin n → ℝ) :
    (∀ j, (snWeights eta (padMat e X) y).1 (e j) = (snWeights eta X y).1 j) ∧
    (∀ j, (snWeights eta (padMat e X) y).2 (e j) = (snWeights eta X y).2 j) ∧
    (∀ j, j ∉ Set.range e → (snWeights eta (padMat e X) y).2 j = 0) ∧
    (0 ≤ eta → ∀ j, j ∉ Set.range e → ¬ 0 < (snWeights eta (padMat e X) y).1 j) := by
  have hs := padMat_cov e X y
  have hs' : ∀ j, ∑ i, padMat e X i j * y i = pad e (fun j => ∑ i, X i j * y i) j := fun j => congrFun hs j
  have hw := pad_div e (fun j => ∑ i, X i j * y i) (Real.sqrt (∑ j, (∑ i, X i j * y i) ^ 2))
  have hw' : ∀ j, pad e (fun j => ∑ i, X i j * y i) j / Real.sqrt (∑ j, (∑ i, X i j * y i) ^ 2) =
      pad e (fun j => (∑ i, X i j * y i) / Real.sqrt (∑ j, (∑ i, X i j * y i) ^ 2)) j := fun j => congrFun hw j
  unfold snWeights
  simp only [hs', sum_pad_sq, hw', pad_apply]
  rw [show maxAbs (fun j => pad e (fun j => (∑ i, X i j * y i) / Real.sqrt (∑ j, (∑ i, X i j * y i) ^ 2)) j) = _ from maxAbs_pad e _]
  refine ⟨fun _ => rfl, fun _ => rfl, fun j hj => ?_, fun he j hj => ?_⟩
  · rw [pad_out e _ hj]; simp [npSign]
  · rw [pad_out e _ hj, abs_zero, zero_sub, not_lt, neg_nonpos]
    exact mul_nonneg he (maxAbs_nonneg _)

/-- A component in the places `e`. -/
noncomputable def padComp (e : Fin p ↪ Fin q) (c : SnComp n p) : SnComp n q := ⟨pad e c.w, pad e c.load, c.c, c.t, c.good.map e⟩

theorem snLoop_pad (e : Fin p ↪ Fin q) (he : 0 ≤ eta) (h : ℕ) : ∀ (X : Fin n → Fin p → ℝ) (y : Fin n → ℝ) (old : Finset (Fin p)),
    snLoop eta h (padMat e X) y (old.map e) = (snLoop eta h X y old).map fun l => l.map (padComp e) := by
  induction h with
  | zero => intro X y old; rfl
  | succ h ih =>
    intro X y old
    simp only [snLoop]
    obtain ⟨w1, w2, w3, w4⟩ := snWeights_pad e eta X y
    have hcov : (∀ j, ∑ i, padMat e X i j * y i = 0) ↔ ∀ j, ∑ i, X i j * y i = 0 := by
      have hs' : ∀ j, ∑ i, padMat e X i j * y i = pad e (fun j => ∑ i, X i j * y i) j := fun j => congrFun (padMat_cov e X y) j
      simp only [hs']
      constructor
      · intro hh j
        have := hh (e j)
        rwa [pad_apply] at this
      · intro hh j
        by_cases hj : j ∈ Set.range e
        · obtain ⟨k, rfl⟩ := hj; rw [pad_apply]; exact hh k
        · exact pad_out e _ hj
    have hold : old.map e = ∅ ↔ old = ∅ := by simp
    by_cases hc : ∀ j, ∑ i, X i j * y i = 0
    · rw [if_pos hc, if_pos (hcov.2 hc)]
      by_cases ho : old = ∅
      · rw [if_pos ho, if_pos (hold.2 ho)]; rfl
      · rw [if_neg ho, if_neg (fun h => ho (hold.1 h))]; rfl
    · rw [if_neg hc, if_neg (fun h => hc (hcov.1 h))]
      set good := old ∪ Finset.univ.filter fun j => 0 < (snWeights eta X y).1 j with hgood
      have hg : old.map e ∪ Finset.univ.filter (fun j => 0 < (snWeights eta (padMat e X) y).1 j) = good.map e := by
        ext j
        simp only [Finset.mem_union, Finset.mem_filter, Finset.mem_univ, true_and, Finset.mem_map, hgood]
        constructor
        · rintro (⟨k, hk, rfl⟩ | hj)
          · exact ⟨k, .inl hk, rfl⟩
          · by_cases hr : j ∈ Set.range e
            · obtain ⟨k, rfl⟩ := hr
              rw [w1] at hj
              exact ⟨k, .inr hj, rfl⟩
            · exact absurd hj (w4 he j hr)
        · rintro ⟨k, hk | hk, rfl⟩
          · exact .inl ⟨k, hk, rfl⟩
          · rw [w1]; exact .inr hk
      rw [hg]
      have hge : good.map e = ∅ ↔ good = ∅ := by simp
      have hgm : ∀ j, e j ∈ good.map e ↔ j ∈ good := fun j => Finset.mem_map' e
      have hgo : ∀ j, j ∉ Set.range e → j ∉ good.map e := by
        intro j hj hm
        obtain ⟨k, -, rfl⟩ := Finset.mem_map.1 hm
        exact hj ⟨k, rfl⟩
      by_cases hgn : good = ∅
      · rw [if_pos hgn, if_pos (hge.2 hgn)]; rfl
      · rw [if_neg hgn, if_neg (fun h => hgn (hge.1 h))]
        set w : Fin p → ℝ := fun j => if j ∈ good then (snWeights eta X y).2 j else 0 with hw
        have hwj : ∀ j, (if j ∈ good then (snWeights eta X y).2 j else 0) = w j := fun _ => rfl
        have hw' : ∀ j, (if j ∈ good.map e then (snWeights eta (padMat e X) y).2 j else 0) = pad e w j := by
          have : (fun j => if j ∈ good.map e then (snWeights eta (padMat e X) y).2 j else 0) = pad e w := by
            refine eq_pad e _ _ (fun j => ?_) fun j hj => ?_
            · simp only [hgm, w2, hw]
            · rw [if_neg (hgo j hj)]
          exact fun j => congrFun this j
        set t : Fin n → ℝ := fun i => ∑ j, X i j * w j with ht
        have htj : ∀ i, ∑ j, X i j * w j = t i := fun _ => rfl
        have ht' : ∀ i, ∑ j, padMat e X i j * pad e w j = t i := fun i => sum_pad' e (X i) w
        simp only [hw', hwj, ht', htj]
        by_cases hz : ∑ i, t i ^ 2 = 0
        · rw [if_pos hz, if_pos hz]; rfl
        · rw [if_neg hz, if_neg hz]
          set ph : Fin p → ℝ := fun j => (∑ i, X i j * t i) / ∑ i, t i ^ 2 with hphdef
          have hph : ∀ j, (∑ i, padMat e X i j * t i) / (∑ i, t i ^ 2) = pad e ph j := by
            intro j
            rw [congrFun (padMat_cov e X t) j]
            exact congrFun (pad_div e (fun j => ∑ i, X i j * t i) (∑ i, t i ^ 2)) j
          simp only [hph]
          have hX' : (fun i j => padMat e X i j - t i * pad e ph j) = padMat e fun i j => X i j - t i * ph j := by
            funext i
            refine eq_pad e _ _ (fun j => ?_) fun j hj => ?_
            · simp only [padMat, pad_apply]
            · simp only [padMat, pad_out e _ hj]; ring
          rw [hX', ih (fun i j => X i j - t i * ph j) (fun i => y i - t i * ((∑ i, y i * t i) / ∑ i, t i ^ 2)) good]
          have hld : (fun j => if j ∈ good.map e then pad e ph j else 0) = pad e fun j => if j ∈ good then ph j else 0 := by
            refine eq_pad e _ _ (fun j => ?_) fun j hj => ?_
            · simp only [hgm, pad_apply]
            · rw [if_neg (hgo j hj)]
          cases hrec : snLoop eta h (fun i j => X i j - t i * ph j) (fun i => y i - t i * ((∑ i, y i * t i) / ∑ i, t i ^ 2)) good with
          | error e => rfl
          | ok l =>
            simp only [Except.map, List.map_cons, hld]
            rfl

/-! ### The fit -/

lemma pad_lin (e : Fin p ↪ Fin q) (X : Fin n → Fin p → ℝ) (X' : Fin n → Fin q → ℝ) (hX : ∀ i j, X' i (e j) = X i j) (b : Fin p → ℝ) : lin X' (pad e b) = lin X b := by
  funext i
  unfold lin
  rw [show ∑ j, X' i j * pad e b j = ∑ j, pad e b j * X' i j from Finset.sum_congr rfl fun j _ => mul_comm _ _, sum_pad]
  exact Finset.sum_congr rfl fun j _ => by rw [hX, mul_comm]

/-- Relation of the regression vectors. -/
theorem snCoef_pad (e : Fin p ↪ Fin q) (he : 0 ≤ eta) {X : Fin n → Fin p → ℝ} {y : Fin n → ℝ} {h : ℕ} {l : List (SnComp n p)} (hl : snLoop eta h X y ∅ = .ok l)
    {R : Matrix (Fin p) (Fin l.length) ℝ} {B : Fin p → ℝ} (hc : snCoef X y l = .ok (R, B)) :
    ∃ R', snCoef (padMat e X) y (l.map (padComp e)) = .ok (R', pad e B) := by
  have hl' := snLoop_pad e he h X y ∅
  rw [hl, Finset.map_empty] at hl'
  have hr' := (snLoop_run _ _ _ _ _ _ hl').1
  have hr := (snLoop_run _ _ _ _ _ _ hl).1
  obtain ⟨⟨v, hv⟩, hn⟩ := snCoef_normal hr hc
  have hlen : (l.map (padComp e)).length = l.length := by simp
  set l' := l.map (padComp e) with hl'def
  have hget : ∀ a, (l'.get a).w = pad e (l.get (Fin.cast hlen a)).w := by
    intro a
    simp only [hl'def, List.get_eq_getElem, List.getElem_map, padComp]
    rfl
  have hB : compW l' *ᵥ (fun a => v (Fin.cast hlen a)) = pad e B := by
    refine eq_pad e _ _ (fun j => ?_) fun j hj => ?_
    · rw [hv]
      simp only [Matrix.mulVec, dotProduct]
      rw [← Equiv.sum_comp (finCongr hlen)]
      refine Finset.sum_congr rfl fun a _ => ?_
      simp only [compW, Matrix.of_apply, hget, pad_apply, finCongr_apply]
    · simp only [Matrix.mulVec, dotProduct]
      refine Finset.sum_eq_zero fun a _ => ?_
      simp only [compW, Matrix.of_apply, hget, pad_out e _ hj, zero_mul]
  have hlin : ∀ b : Fin p → ℝ, Matrix.of (padMat e X) *ᵥ pad e b = Matrix.of X *ᵥ b := by
    intro b
    funext i
    exact sum_pad' e (X i) b
  obtain ⟨R', hR⟩ := snCoef_unique (y0 := y) hr' (fun a => v (Fin.cast hlen a)) (by
    intro c' hc'
    obtain ⟨c, hcl, rfl⟩ := List.mem_map.1 hc'
    rw [hB]
    have h0 := hn c hcl
    simp only [padComp, hlin]
    exact h0)
  rw [hB] at hR
  exact ⟨R', hR⟩

lemma Centre.run_adds {c : Centre} (hc : c = .mean ∨ c = .median) (hn : 0 < n) {e : Fin p ↪ Fin q} {X : Fin n → Fin p → ℝ} {X' : Fin n → Fin q → ℝ} (hX : AddsConstants e X X') :
    (∀ j, c.run X' (e j) = c.run X j) ∧ ∀ j, j ∉ Set.range e → ∀ i, X' i j = c.run X' j := by
  constructor
  · intro j
    rcases hc with rfl | rfl <;> simp only [Centre.run, hX.1]
  · intro j hj i
    obtain ⟨k, hk⟩ := hX.2 j hj
    rcases hc with rfl | rfl <;> simp only [Centre.run, hk]
    · rw [mean_const hn]
    · rw [med_const hn]

lemma ScaleOpt.run_adds {s : ScaleOpt} (hs : s = .std ∨ s = .mad ∨ s = .noneOpt) {e : Fin p ↪ Fin q} {X : Fin n → Fin p → ℝ} {X' : Fin n → Fin q → ℝ} (hX : AddsConstants e X X') :
    ∀ j, s.run X' (e j) = s.run X j := by
  intro j
  rcases hs with rfl | rfl | rfl <;> simp only [ScaleOpt.run, hX.1]

lemma stdMat_adds {c : Centre} (hc : c = .mean ∨ c = .median) {s : ScaleOpt} (hs : s = .std ∨ s = .mad ∨ s = .noneOpt) (hn : 0 < n) {e : Fin p ↪ Fin q}
    {X : Fin n → Fin p → ℝ} {X' : Fin n → Fin q → ℝ} (hX : AddsConstants e X X') :
    stdMat X' (c.run X') (s.run X') = padMat e (stdMat X (c.run X) (s.run X)) := by
  obtain ⟨h1, h2⟩ := Centre.run_adds hc hn hX
  funext i
  refine eq_pad e _ _ (fun j => ?_) fun j hj => ?_
  · simp only [stdMat, h1, hX.1, ScaleOpt.run_adds hs hX]
  · simp only [stdMat, ← h2 j hj i, std1, sub_self, zero_div, ite_self]

/-- A constant column has no spread. -/
lemma ScaleOpt.run_const {s : ScaleOpt} (hs : s = .std ∨ s = .mad) (hn : 0 < n) {X : Fin n → Fin p → ℝ} {j : Fin p} {c : ℝ} (h : ∀ i, X i j = c) : s.run X j = 0 := by
  rcases hs with rfl | rfl
  · simp only [ScaleOpt.run, h]
    rw [var_eq]
    simp only [mean_const hn, sub_self]
    norm_num
  · simp only [ScaleOpt.run, h]
    have := C07_mad_affine hn (0 : ℝ) c (fun _ : Fin n => c)
    simpa using this

/-- C169: SNIPLS without scaling, with the mean or the median as location, ignores constant predictors.  It gives a model for the larger table exactly when it gives one for the smaller; the
constant predictors are never retained and have coefficient zero; the other coefficients, the intercept, the retained variables, the scores, the fitted values, the residuals, and the
predictions of new cases (whatever their values of the constant predictors) are the same.  With scaling see `C169_snipls_violated`. -/
theorem C169_snipls_partial {pr : SnParams} (hc : pr.centre = .mean ∨ pr.centre = .median) (hs : pr.scale = .noneOpt) (hn : 0 < n) {e : Fin p ↪ Fin q} {X : Fin n → Fin p → ℝ}
    {X' : Fin n → Fin q → ℝ} (hX : AddsConstants e X X') (y : Fin n → ℝ) :
    ((∃ f, snFit pr X y = .ok f) ↔ ∃ f', snFit pr X' y = .ok f') ∧
    ∀ f f', snFit pr X y = .ok f → snFit pr X' y = .ok f' →
      (∀ j, f'.coef (e j) = f.coef j) ∧ (∀ j, j ∉ Set.range e → f'.coef j = 0) ∧ f'.intercept = f.intercept ∧
      f'.comps.map (fun c => c.t) = f.comps.map (fun c => c.t) ∧ f'.comps.map (fun c => c.good) = f.comps.map (fun c => c.good.map e) ∧
      f'.fitted = f.fitted ∧ f'.residuals = f.residuals ∧
      ∀ {m : ℕ} (Z : Fin m → Fin p → ℝ) (Z' : Fin m → Fin q → ℝ), (∀ i j, Z' i (e j) = Z i j) → f'.predict Z' = f.predict Z := by
  have hs3 : pr.scale = .std ∨ pr.scale = .mad ∨ pr.scale = .noneOpt := .inr (.inr hs)
  have hst := stdMat_adds hc hs3 hn hX
  have hsc : ∀ {N k : ℕ} (Z : Fin N → Fin k → ℝ) (j : Fin k), pr.scale.run Z j ≠ 0 := fun Z j => by rw [hs]; simp [ScaleOpt.run]
  constructor
  · constructor
    · rintro ⟨f, hf⟩
      obtain ⟨⟨p1, p2, p3⟩, a1, a2, a3, a4, -, a5, -⟩ := snFit_inv hf
      rw [a1, a2, a3, a4] at a5
      have hl := snLoop_pad e p1 pr.nComponents (stdMat X (pr.centre.run X) (pr.scale.run X)) (stdVec y (pr.centre.run (asCol y) 0) (pr.scale.run (asCol y) 0)) ∅
      rw [a5, Finset.map_empty, ← hst] at hl
      obtain ⟨f', hf', -⟩ := snFit_of_loop pr X' y p1 p2 p3 (hsc _) _ hl
      exact ⟨f', hf'⟩
    · rintro ⟨f', hf'⟩
      obtain ⟨⟨p1, p2, p3⟩, a1, a2, a3, a4, -, a5, -⟩ := snFit_inv hf'
      rw [a1, a2, a3, a4] at a5
      have hl := snLoop_pad e p1 pr.nComponents (stdMat X (pr.centre.run X) (pr.scale.run X)) (stdVec y (pr.centre.run (asCol y) 0) (pr.scale.run (asCol y) 0)) ∅
      rw [Finset.map_empty, ← hst, a5] at hl
      cases hx : snLoop pr.eta pr.nComponents (stdMat X (pr.centre.run X) (pr.scale.run X)) (stdVec y (pr.centre.run (asCol y) 0) (pr.scale.run (asCol y) 0)) ∅ with
      | error e => rw [hx] at hl; exact absurd hl (by simp [Except.map])
      | ok l =>
        obtain ⟨f, hf, -⟩ := snFit_of_loop pr X y p1 p2 p3 (hsc _) _ hx
        exact ⟨f, hf⟩
  · intro f f' hf hf'
    obtain ⟨⟨p1, p2, p3⟩, a1, a2, a3, a4, -, a5, a6, a7, a8, a9, a10⟩ := snFit_inv hf
    obtain ⟨-, b1, b2, b3, b4, -, b5, b6, b7, b8, b9, b10⟩ := snFit_inv hf'
    have hXs : stdMat X' f'.xLoc f'.xSca = padMat e (stdMat X f.xLoc f.xSca) := by rw [b1, b2, hst, a1, a2]
    have hys : stdVec y f'.yLoc f'.ySca = stdVec y f.yLoc f.ySca := by rw [b3, b4, a3, a4]
    have hl := snLoop_pad e p1 pr.nComponents (stdMat X f.xLoc f.xSca) (stdVec y f.yLoc f.ySca) ∅
    rw [a5, Finset.map_empty] at hl
    rw [hXs, hys, hl] at b5
    have hcomps : f'.comps = f.comps.map (padComp e) := (Except.ok.inj b5).symm
    obtain ⟨R', hR'⟩ := snCoef_pad e p1 a5 a6
    have hB : f'.coefScaled = pad e f.coefScaled := by
      have b6' : (snCoef (padMat e (stdMat X f.xLoc f.xSca)) (stdVec y f.yLoc f.ySca) f'.comps).map Prod.snd = .ok f'.coefScaled := by
        rw [← hXs, ← hys, b6]; rfl
      rw [hcomps, hR'] at b6'
      exact (Except.ok.inj b6').symm
    have hone : f.ySca = 1 ∧ (∀ j, f.xSca j = 1) ∧ f'.ySca = 1 ∧ ∀ j, f'.xSca j = 1 := by
      refine ⟨?_, fun j => ?_, ?_, fun j => ?_⟩
      · rw [a4, hs]; rfl
      · rw [a2, hs]; rfl
      · rw [b4, hs]; rfl
      · rw [b2, hs]; rfl
    have q1 : f.coef = f.coefScaled := by funext j; rw [a7, hone.1, hone.2.1]; ring
    have q2 : f'.coef = f'.coefScaled := by funext j; rw [b7, hone.2.2.1, hone.2.2.2]; ring
    have q3 : f'.coef = pad e f.coef := by rw [q1, q2, hB]
    have q4 : lin X' f'.coef = lin X f.coef := by rw [q3]; exact pad_lin e X X' hX.1 f.coef
    have q5 : f'.intercept = f.intercept := by rw [b8, a8, q4]
    have q6 : f'.fitted = f.fitted := by funext i; rw [b9, a9, q4, q5]
    refine ⟨fun j => by rw [q3, pad_apply], fun j hj => by rw [q3, pad_out e _ hj], q5, ?_, ?_, q6, by funext i; rw [b10, a10, q6], fun Z Z' hZ => ?_⟩
    · rw [hcomps, List.map_map]; rfl
    · rw [hcomps, List.map_map]; rfl
    · unfold SnFit.predict
      rw [dif_pos rfl, dif_pos rfl, q5]
      congr 1
      funext i
      congr 1
      have := congrFun (pad_lin e Z Z' hZ f.coef) i
      rw [q3]
      exact this

/-- C169 does not hold with scaling: the spread of a constant predictor is zero, the rescaled coefficient is zero divided by zero, and there is never a usable model. -/
theorem C169_snipls_violated {pr : SnParams} (hs : pr.scale = .std ∨ pr.scale = .mad) (hn : 0 < n) (X : Fin n → Fin p → ℝ) (y : Fin n → ℝ) {j : Fin p} {c : ℝ} (h : ∀ i, X i j = c) :
    ∀ f, snFit pr X y ≠ .ok f := by
  intro f hf
  obtain ⟨-, -, a2, -, -, a5, -⟩ := snFit_inv hf
  exact a5 j (by rw [a2]; exact ScaleOpt.run_const hs hn h)

end Direpack
