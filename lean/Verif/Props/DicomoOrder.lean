import Verif.Props.DicomoDist2
import Verif.Props.DicomoClass

/-!
C125: the order of the cases does not matter for any statistic of `dicomo`; C41: requests of order 0.
-/

namespace Direpack

open scoped BigOperators

variable {n p q : ℕ}

lemma med_perm_fn (σ : Equiv.Perm (Fin n)) (x : Fin n → ℝ) : med (fun i => x (σ i)) = med x := med_perm σ x

lemma trimMom_perm (c : Loc) (σ : Equiv.Perm (Fin n)) (x y : Fin n → ℝ) (order : ℕ) (t : ℝ) (opt : ℕ) (b : Bool) :
    trimMom c (fun i => x (σ i)) (fun i => y (σ i)) order t opt b = trimMom c x y order t opt b := by
  have hm : ∀ v : Fin n → ℝ, meanT t (List.ofFn fun i => v (σ i)) = meanT t (List.ofFn v) := fun v => meanT_perm (ofFn_perm' σ v)
  unfold trimMom
  by_cases h0 : order = 0
  · rw [if_pos h0, if_pos h0]
  rw [if_neg h0, if_neg h0]
  by_cases h1 : order = 1
  · rw [if_pos h1, if_pos h1]
    cases c with
    | mean => exact hm x
    | median => simp only [med_perm_fn σ x]
  rw [if_neg h1, if_neg h1]
  cases c with
  | mean =>
    simp only [momMean, hm x, hm y, bind, Except.bind]
    cases meanT t (List.ofFn x) with
    | error e => rfl
    | ok mx =>
      dsimp only
      cases meanT t (List.ofFn y) with
      | error e => rfl
      | ok my =>
        dsimp only
        rw [hm fun i => (x i - mx) ^ (if 2 < order then order - opt else 1) * (y i - my) ^ (if 2 < order then opt else 1)]
  | median =>
    simp only [momMedian]
    rw [med_perm_fn σ x, med_perm_fn σ y]
    have he : (∀ i, x (σ i) = y (σ i)) ↔ ∀ i, x i = y i :=
      ⟨fun h i => by have := h (σ.symm i); rwa [Equiv.apply_symm_apply] at this, fun h i => h (σ i)⟩
    by_cases h : ∀ i, x i = y i
    · rw [if_pos h, if_pos (he.mpr h),
        med_perm_fn σ fun i => (|x i - med x| ^ (if 2 < order then order - opt else 1) * |y i - med y| ^ (if 2 < order then opt else 1)) ^ ((1 : ℝ) / order)]
    · rw [if_neg h, if_neg fun h' => h (he.mp h'),
        med_perm_fn σ fun i => (x i - med x) ^ (if 2 < order then order - opt else 1) * (y i - med y) ^ (if 2 < order then opt else 1)]

lemma col0_perm (σ : Equiv.Perm (Fin n)) (x : Fin n → Fin p → ℝ) : col0 (fun i => x (σ i)) = fun i => col0 x (σ i) := by
  unfold col0
  split <;> rfl

lemma arithX_perm (m : Mode) (c : Loc) (order : ℕ) (a : FitArgs) (σ : Equiv.Perm (Fin n)) (x : Fin n → ℝ) :
    arithX m c order a (fun i => x (σ i)) = arithX m c order a x := by
  unfold arithX
  simp only [trimMom_perm c σ x x]

lemma arithXY_perm (m : Mode) (inner : Inner) (c : Loc) (order : ℕ) (a : FitArgs) (v : ℝ) (σ : Equiv.Perm (Fin n)) (x y : Fin n → ℝ) :
    arithXY m inner c order a v (fun i => x (σ i)) (fun i => y (σ i)) = arithXY m inner c order a v x y := by
  unfold arithXY
  simp only [trimMom_perm c σ x x, trimMom_perm c σ x y, trimMom_perm c σ y y]

lemma arithStage_perm (hn : 0 < n) (m : Mode) (inner : Inner) (c : Loc) (order : ℕ) (a : FitArgs) (σ : Equiv.Perm (Fin n)) (x : Fin n → Fin p → ℝ)
    (y : Fin n → Fin q → ℝ) :
    arithStage m inner c order { a with y := some (dmat fun i => y (σ i)) } (fun i => x (σ i)) =
      arithStage m inner c order { a with y := some (dmat y) } x := by
  unfold arithStage
  simp only [getY_dmat hn, col0_perm, arithX_perm, arithXY_perm, bind, Except.bind]
  rfl

/-- Data with the cases in another order. -/
def Spec.casesIn (σ : Equiv.Perm (Fin n)) (x : Fin n → Fin p → ℝ) : DMat := dmat fun i => x (σ i)

/-- C125: whatever the estimator, the mode, the arguments and the earlier history of the object, a call with the cases of both data sets in another order
returns the same number (or fails in the same way) and leaves the object in the same state. -/
theorem C125_order (hn : 0 < n) (d : Dicomo) (a : FitArgs) (x : Fin n → Fin p → ℝ) (y : Fin n → Fin q → ℝ) (σ : Equiv.Perm (Fin n)) :
    d.fit { a with y := some (Spec.casesIn σ y) } (Spec.casesIn σ x) = d.fit { a with y := some (dmat y) } (dmat x) := by
  have key : ∀ c, Dicomo.compute d.est d.mode c { a with y := some (dmat fun i => y (σ i)) } (dmat fun i => x (σ i)) =
      Dicomo.compute d.est d.mode c { a with y := some (dmat y) } (dmat x) := by
    intro c
    cases he : d.est with
    | distance =>
      rw [compute_distance_all hn, compute_distance_all hn, fastStage_perm hn, naiveStage_perm hn, mddStage_perm hn]
      rfl
    | arithmetic =>
      have h1 : (dmat x).n ≠ 0 := hn.ne'
      have h2 : (dmat fun i => x (σ i)).n ≠ 0 := hn.ne'
      unfold Dicomo.compute
      rw [if_neg h1, if_neg h2]
      dsimp only
      have := arithStage_perm hn d.mode (modeTable d.mode a.order).1 c (modeTable d.mode a.order).2 a σ x y
      change (match arithStage d.mode (modeTable d.mode a.order).1 c (modeTable d.mode a.order).2 { a with y := some (dmat fun i => y (σ i)) }
        (fun i => x (σ i)) with | .error e => _ | .ok pre => _) = _
      rw [this]
      rfl
    | sign =>
      have h1 : (dmat x).n ≠ 0 := hn.ne'
      have h2 : (dmat fun i => x (σ i)).n ≠ 0 := hn.ne'
      unfold Dicomo.compute
      rw [if_neg h1, if_neg h2]
      rfl
    | entropy =>
      have h1 : (dmat x).n ≠ 0 := hn.ne'
      have h2 : (dmat fun i => x (σ i)).n ≠ 0 := hn.ne'
      unfold Dicomo.compute
      rw [if_neg h1, if_neg h2]
      rfl
  unfold Dicomo.fit Spec.casesIn
  dsimp only
  rw [key]

lemma compute_alone (est : Est) {m : Mode} (c : Loc) (a : FitArgs) (hm : (modeTable m a.order).1 = .mom) (x Y : DMat) :
    Dicomo.compute est m c { a with y := none } x = Dicomo.compute est m c { a with y := some Y } x := by
  unfold Dicomo.compute
  by_cases hx : x.n = 0
  · rw [if_pos hx, if_pos hx]
  rw [if_neg hx, if_neg hx]
  dsimp only
  have e1 : ∀ o : Option DMat, arithStage m (modeTable m a.order).1 c (modeTable m a.order).2 { a with y := o } x.e =
      (arithX m c (modeTable m a.order).2 { a with y := none } (col0 x.e)).map fun v => { moment := some v, xmom := v } := by
    intro o
    unfold arithStage
    simp only [hm, bind, Except.bind, reduceCtorEq, if_false, if_true]
    have : arithX m c (modeTable m a.order).2 { a with y := o } (col0 x.e) = arithX m c (modeTable m a.order).2 { a with y := none } (col0 x.e) := rfl
    rw [this]
    cases arithX m c (modeTable m a.order).2 { a with y := none } (col0 x.e) <;> rfl
  have e2 : ∀ o : Option DMat, fastStage (modeTable m a.order).1 { a with y := o } x.e = fastStage (modeTable m a.order).1 { a with y := none } x.e := by
    intro o
    unfold fastStage
    simp only [hm, bind, Except.bind, reduceCtorEq, if_false, if_true]
  have e3 : ∀ o : Option DMat, naiveStage m (modeTable m a.order).1 c (modeTable m a.order).2 { a with y := o } x.e =
      naiveStage m (modeTable m a.order).1 c (modeTable m a.order).2 { a with y := none } x.e := by
    intro o
    unfold naiveStage
    simp only [hm, bind, Except.bind, reduceCtorEq, if_false, if_true]
  cases est with
  | arithmetic =>
    rw [e1 none, e1 (some Y)]
    rfl
  | distance =>
    have h1 : ¬ ((modeTable m a.order).1 = .mdd ∨ (modeTable m a.order).1 = .ballcov) := by rw [hm]; simp
    dsimp only
    rw [if_neg h1, if_neg h1, e2 (some Y), e3 (some Y)]
    rfl
  | sign => rfl
  | entropy => rfl

/-- C125 for statistics of one data set. -/
theorem C125_order_alone (hn : 0 < n) (d : Dicomo) (a : FitArgs) (hm : d.mode = .mom ∨ d.mode = .var ∨ d.mode = .std ∨ d.mode = .skew ∨ d.mode = .kurt)
    (x : Fin n → Fin p → ℝ) (σ : Equiv.Perm (Fin n)) : d.fit { a with y := none } (Spec.casesIn σ x) = d.fit { a with y := none } (dmat x) := by
  have h1 : (modeTable d.mode a.order).1 = .mom := by rcases hm with h | h | h | h | h <;> rw [h] <;> rfl
  have h2 := C125_order hn d a x x σ
  unfold Dicomo.fit at h2 ⊢
  dsimp only at h2 ⊢
  rw [compute_alone d.est _ a h1 (Spec.casesIn σ x) (Spec.casesIn σ x), compute_alone d.est _ a h1 (dmat x) (dmat x)]
  exact h2

/-- A history that meets the hypotheses: a kurtosis after a covariance. -/
example (σ : Equiv.Perm (Fin 4)) (x : Fin 4 → Fin 1 → ℝ) : (⟨.arithmetic, .kurt, .median, some 3⟩ : Dicomo).fit { trimming := 1 / 4, y := some (Spec.casesIn σ x) } (Spec.casesIn σ x) =
    (⟨.arithmetic, .kurt, .median, some 3⟩ : Dicomo).fit { trimming := 1 / 4, y := some (dmat x) } (dmat x) :=
  C125_order (by norm_num) _ { trimming := 1 / 4 } x x σ

/-- C41: the moment and the co-moment of order 0 raise. -/
theorem C41_order_zero (d : Dicomo) (he : d.est = .arithmetic) (hm : d.mode = .mom ∨ d.mode = .com) (a : FitArgs) (ha : a.order = 0) (x : DMat) :
    ∃ e, (d.fit a x).2 = .error e := by
  suffices H : ∀ c, ∃ e, Dicomo.compute d.est d.mode c a x = .error e by
    obtain ⟨e, h⟩ := H (if forcesMean d.mode then Loc.mean else d.center)
    refine ⟨e, ?_⟩
    unfold Dicomo.fit
    simp only [h]
  intro c
  unfold Dicomo.compute
  by_cases hx : x.n = 0
  · rw [if_pos hx]; exact ⟨_, rfl⟩
  rw [if_neg hx, he]
  rcases hm with h | h
  · rw [h]
    simp [modeTable, ha, arithStage, arithX, trimMom, bind, Except.bind]
  · rw [h]
    simp only [modeTable, ha, arithStage, arithXY, trimMom, bind, Except.bind, if_true]
    cases getY x.n a.y with
    | error e => exact ⟨e, by simp⟩
    | ok y => exact ⟨.attributeError, by simp⟩

end Direpack
