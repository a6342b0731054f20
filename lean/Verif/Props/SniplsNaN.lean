import Verif.SniplsNaN
import Verif.Props.Preproc

/-! Properties C156, C157: SNIPLS on data with missing cells. -/

namespace Direpack

open scoped BigOperators
open Spec

/-- A missing cell counts as zero in the products. -/
def zval (o : Option ℝ) : ℝ := o.getD 0

lemma nanMul_eq (a b : Option ℝ) : nanMul a b = zval a * zval b := by
  cases a <;> cases b <;> simp [nanMul, zval]

lemma nandot_eq {p n : ℕ} (x : NMat ℝ p n) (y : Fin n → Option ℝ) (i : Fin p) : nandot x y i = ∑ k, zval (x i k) * zval (y k) := by
  unfold nandot
  rw [List.sum_ofFn]
  exact Finset.sum_congr rfl fun k _ => nanMul_eq _ _

lemma nanmatdot_eq {p n q : ℕ} (x : NMat ℝ p n) (y : NMat ℝ n q) (j : Fin q) (i : Fin p) : nanmatdot x y j i = ∑ k, zval (x i k) * zval (y k j) := by
  unfold nanmatdot
  rw [List.sum_ofFn]
  exact Finset.sum_congr rfl fun k _ => nanMul_eq _ _

/-- A complete matrix, as one with cells that may be missing. -/
def Spec.complete {n p : ℕ} (X : Fin n → Fin p → ℝ) : NMat ℝ n p := fun i j => some (X i j)

/-- A complete vector. -/
def Spec.completeV {n : ℕ} (y : Fin n → ℝ) : Fin n → Option ℝ := fun i => some (y i)

lemma available_complete {n p : ℕ} (X : Fin n → Fin p → ℝ) (j : Fin p) : available (complete X) j = List.ofFn fun i => X i j := by
  unfold available complete
  rw [map_ofFn' (some : ℝ → Option ℝ) (fun i => X i j), List.filterMap_map]
  simp

lemma centre_complete {n p : ℕ} (hn : 0 < n) (c : NCentre) (X : Fin n → Fin p → ℝ) (j : Fin p) : c.run (complete X) j = some (c.full.run X j) := by
  cases c
  · show meanNaN _ _ = _
    rw [C12_mean_missing]; unfold onAvailable
    rw [available_complete, if_neg (ofFn_ne_nil hn _)]; rfl
  · show medianNaN _ _ = _
    rw [C12_median_missing]; unfold onAvailable
    rw [available_complete, if_neg (ofFn_ne_nil hn _)]; rfl
  · rfl

lemma scale_complete {n p : ℕ} (hn : 0 < n) (c : NScale) (X : Fin n → Fin p → ℝ) (j : Fin p) : c.run (complete X) j = some (c.full.run X j) := by
  cases c
  · show stdNaN _ _ _ = _
    rw [C12_std_missing]; unfold onAvailable
    rw [available_complete, if_neg (ofFn_ne_nil hn _)]; rfl
  · show madNaN _ _ = _
    rw [C12_mad_missing]; unfold onAvailable
    rw [available_complete, if_neg (ofFn_ne_nil hn _)]; rfl
  · rfl

lemma snLoopN_complete {n p : ℕ} (eta : ℝ) : ∀ (h : ℕ) (X : Fin n → Fin p → ℝ) (y : Fin n → ℝ) (old : Finset (Fin p)),
    snLoopN eta h (complete X) (completeV y) old = snLoop eta h X y old
  | 0, _, _, _ => rfl
  | h + 1, X, y, old => by
    have hs : nandot (complete X).tr (completeV y) = fun j => ∑ i, X i j * y i := by
      funext j; rw [nandot_eq]; rfl
    have ht : ∀ w : Fin p → ℝ, nandot (complete X) (fun j => some (w j)) = fun i => ∑ j, X i j * w j := by
      intro w; funext i; rw [nandot_eq]; rfl
    have hc : ∀ t : Fin n → ℝ, nandot (asColN (completeV y)).tr (fun i => some (t i)) 0 = ∑ i, y i * t i := by
      intro t; rw [nandot_eq]; rfl
    have hph : ∀ t : Fin n → ℝ, nandot (complete X).tr (fun i => some (t i)) = fun j => ∑ i, X i j * t i := by
      intro t; funext j; rw [nandot_eq]; rfl
    have hrec : ∀ (t : Fin n → ℝ) (ph : Fin p → ℝ) (c : ℝ) (good : Finset (Fin p)),
        snLoopN eta h (fun i j => (complete X i j).map (· - t i * ph j)) (fun i => (completeV y i).map (· - t i * c)) good =
          snLoop eta h (fun i j => X i j - t i * ph j) (fun i => y i - t i * c) good := fun t ph c good => snLoopN_complete eta h _ _ _
    rw [snLoopN, snLoop]
    simp only [hs, ht, hc, hph, hrec]
    rfl

lemma snCoefN_complete {n p : ℕ} (X : Fin n → Fin p → ℝ) (y : Fin n → ℝ) (l : List (SnComp n p)) :
    snCoefN (complete X) (completeV y) l = snCoef X y l := by
  have hs : nandot (complete X).tr (completeV y) = fun j => ∑ i, X i j * y i := by
    funext j; rw [nandot_eq]; rfl
  have hS : nanmatdot (complete X).tr (complete X) = fun j k => ∑ i, X i j * X i k := by
    funext j k
    rw [nanmatdot_eq]
    exact Finset.sum_congr rfl fun i _ => mul_comm _ _
  unfold snCoefN snCoef
  rw [hs, hS]

/-- C156: on complete data the branch for missing cells gives the same model as the other one. -/
theorem C156_complete {n p : ℕ} (hn : 0 < n) (pr : SnParamsN) (X : Fin n → Fin p → ℝ) (y : Fin n → ℝ) :
    snFitBranch pr (complete X) (completeV y) = (snFitBody pr.full X y).map SnFit.toN ∧
    snFitNaN pr (complete X) (completeV y) = (snFitBody pr.full X y).map SnFit.toN := by
  have hmX : pr.centre.run (complete X) = fun j => some (pr.full.centre.run X j) := funext fun j => centre_complete hn _ X j
  have hsX : pr.scale.run (complete X) = fun j => some (pr.full.scale.run X j) := funext fun j => scale_complete hn _ X j
  have hmy : pr.centre.run (asColN (completeV y)) 0 = some (pr.full.centre.run (asCol y) 0) := centre_complete hn pr.centre (asCol y) 0
  have hsy : pr.scale.run (asColN (completeV y)) 0 = some (pr.full.scale.run (asCol y) 0) := scale_complete hn pr.scale (asCol y) 0
  have hX0 : scaleMatN (complete X) (pr.centre.run (complete X)) (pr.scale.run (complete X)) =
      complete (scaleMat X (pr.full.centre.run X) (pr.full.scale.run X)) := by
    rw [hmX, hsX]; rfl
  have hy0 : (fun i => scaleCell (completeV y i) (pr.centre.run (asColN (completeV y)) 0) (pr.scale.run (asColN (completeV y)) 0)) =
      completeV (fun i => scaleMat (asCol y) (pr.full.centre.run (asCol y)) (pr.full.scale.run (asCol y)) i 0) := by
    rw [hmy, hsy]; rfl
  constructor
  · unfold snFitBranch snFitBody
    dsimp only
    have hL : snLoopN pr.eta pr.nComponents (complete (scaleMat X (pr.full.centre.run X) (pr.full.scale.run X)))
        (completeV (fun i => scaleMat (asCol y) (pr.full.centre.run (asCol y)) (pr.full.scale.run (asCol y)) i 0)) ∅ =
        snLoop pr.full.eta pr.full.nComponents (scaleMat X (pr.full.centre.run X) (pr.full.scale.run X))
          (fun i => scaleMat (asCol y) (pr.full.centre.run (asCol y)) (pr.full.scale.run (asCol y)) i 0) ∅ := snLoopN_complete _ _ _ _ _
    rw [hX0, hy0, hL, hsy, hmy, hsX, hmX]
    cases snLoop pr.full.eta pr.full.nComponents (scaleMat X (pr.full.centre.run X) (pr.full.scale.run X))
        (fun i => scaleMat (asCol y) (pr.full.centre.run (asCol y)) (pr.full.scale.run (asCol y)) i 0) ∅ with
    | error e => rfl
    | ok l =>
      dsimp only
      rw [snCoefN_complete]
      cases snCoef (scaleMat X (pr.full.centre.run X) (pr.full.scale.run X))
          (fun i => scaleMat (asCol y) (pr.full.centre.run (asCol y)) (pr.full.scale.run (asCol y)) i 0) l with
      | error e => rfl
      | ok RB =>
        obtain ⟨R, B⟩ := RB
        dsimp only
        have hres : ∀ j, rescaledN (some (pr.full.scale.run (asCol y) 0)) (fun j => some (pr.full.scale.run X j)) B j =
            if pr.full.scale.run X j = 0 then none else some (pr.full.scale.run (asCol y) 0 / pr.full.scale.run X j * B j) := fun j => rfl
        by_cases h0 : ∃ j, pr.full.scale.run X j = 0
        · rw [if_pos h0, if_pos]
          · rfl
          · obtain ⟨j, hj⟩ := h0
            exact ⟨j, by rw [hres, if_pos hj]⟩
        · have h0' : ∀ j, pr.full.scale.run X j ≠ 0 := fun j h => h0 ⟨j, h⟩
          rw [if_neg h0, if_neg]
          swap
          · rintro ⟨j, hj⟩
            rw [hres, if_neg (h0' j)] at hj
            cases hj
          have hBr : (fun j => (rescaledN (some (pr.full.scale.run (asCol y) 0)) (fun j => some (pr.full.scale.run X j)) B j).getD 0) =
              fun j => pr.full.scale.run (asCol y) 0 / pr.full.scale.run X j * B j := by
            funext j; rw [hres, if_neg (h0' j)]; rfl
          have hnd : ∀ b : Fin p → ℝ, nandot (complete X) (fun j => some (b j)) = fun i => ∑ j, X i j * b j := by
            intro b; funext i; rw [nandot_eq]; rfl
          have hbr := fun j => congrFun hBr j
          simp only [hbr, hnd]
          have hint : ∀ r : Fin n → ℝ, snInterceptN pr.centre (fun i => (completeV y i).map (· - r i)) = some (snIntercept pr.full.centre fun i => y i - r i) := by
            intro r
            have hl : (List.ofFn fun i => (completeV y i).map (· - r i)).filterMap id = List.ofFn fun i => y i - r i := by
              have : (fun i => (completeV y i).map (· - r i)) = fun i => some (y i - r i) := rfl
              rw [this, map_ofFn' (some : ℝ → Option ℝ) (fun i => y i - r i), List.filterMap_map]
              simp
            show snInterceptN pr.centre _ = some (snIntercept pr.centre.full _)
            cases pr.centre
            · show npNanReduce _ _ = _
              unfold npNanReduce; rw [hl, if_neg (ofFn_ne_nil hn _)]; rfl
            · show npNanReduce _ _ = _
              unfold npNanReduce; rw [hl, if_neg (ofFn_ne_nil hn _)]; rfl
            · rfl
          rw [hint]
          rfl
  · unfold snFitNaN
    rw [if_neg]
    · rfl
    · rw [hX0]
      rintro (⟨i, j, h⟩ | ⟨i, h⟩)
      · cases h
      · rw [hmy, hsy] at h
        cases h

/-! ### One branch -/

lemma scaleCell_some {a m s : Option ℝ} (h : scaleCell a m s ≠ none) : ∃ v, a = some v := by
  cases a with
  | none => exact absurd rfl h
  | some v => exact ⟨v, rfl⟩

/-- The test for missing cells has no effect on the result: `fit` is the branch for missing cells. -/
lemma snFitNaN_eq {n p : ℕ} (hn : 0 < n) (pr : SnParamsN) (X : NMat ℝ n p) (y : Fin n → Option ℝ) : snFitNaN pr X y = snFitBranch pr X y := by
  unfold snFitNaN
  split_ifs with h
  · rfl
  · push Not at h
    have hX : X = complete fun i j => (X i j).getD 0 := by
      funext i j
      obtain ⟨v, hv⟩ := scaleCell_some (fun e => h.1 ⟨i, j, e⟩)
      rw [hv]
      simp [complete, hv]
    have hy : y = completeV fun i => (y i).getD 0 := by
      funext i
      obtain ⟨v, hv⟩ := scaleCell_some (h.2 i)
      rw [hv]
      simp [completeV, hv]
    rw [← (C156_complete hn pr _ _).1, ← hX, ← hy]

/-! ### The estimates see the available values only -/

lemma ncentre_congr (c : NCentre) {n m p q : ℕ} {X : NMat ℝ n p} {Y : NMat ℝ m q} {j : Fin p} {k : Fin q} (h : available X j = available Y k) :
    c.run X j = c.run Y k := by
  cases c
  · show meanNaN _ _ = meanNaN _ _
    rw [C12_mean_missing, C12_mean_missing]; unfold onAvailable; rw [h]
  · show medianNaN _ _ = medianNaN _ _
    rw [C12_median_missing, C12_median_missing]; unfold onAvailable; rw [h]
  · rfl

lemma nscale_congr (c : NScale) {n m p q : ℕ} {X : NMat ℝ n p} {Y : NMat ℝ m q} {j : Fin p} {k : Fin q} (h : available X j = available Y k) :
    c.run X j = c.run Y k := by
  cases c
  · show stdNaN _ _ _ = stdNaN _ _ _
    rw [C12_std_missing, C12_std_missing]; unfold onAvailable; rw [h]
  · show madNaN _ _ = madNaN _ _
    rw [C12_mad_missing, C12_mad_missing]; unfold onAvailable; rw [h]
  · rfl

lemma filterMap_drop {n : ℕ} : ∀ (i0 : Fin (n + 1)) (f : Fin (n + 1) → Option ℝ), f i0 = none →
    (List.ofFn fun i => f (i0.succAbove i)).filterMap id = (List.ofFn f).filterMap id := by
  induction n with
  | zero =>
    intro i0 f h
    have : i0 = 0 := Fin.ext (by omega)
    subst this
    rw [List.ofFn_succ, List.filterMap_cons]
    simp [h]
  | succ n ih =>
    intro i0 f h
    cases i0 using Fin.cases with
    | zero =>
      rw [List.ofFn_succ (f := f), List.filterMap_cons]
      simp [h]
    | succ k =>
      rw [List.ofFn_succ (f := f), List.ofFn_succ]
      have h1 : f (k.succ.succAbove 0) = f 0 := by rw [Fin.succ_succAbove_zero]
      have h2 : (fun i : Fin n => f (k.succ.succAbove i.succ)) = fun i => (fun i => f i.succ) (k.succAbove i) := by
        funext i; rw [Fin.succ_succAbove_succ]
      rw [h1, h2, List.filterMap_cons, List.filterMap_cons, ih k (fun i => f i.succ) h]

/-! ### The coefficients from the weights -/

/-- `snCoefN` in terms of the matrices. -/
noncomputable def coefOf {p : ℕ} (k : ℕ) (W P : Matrix (Fin p) (Fin k) ℝ) (S : Matrix (Fin p) (Fin p) ℝ) (s0 : Fin p → ℝ) :
    Except Err (Matrix (Fin p) (Fin k) ℝ × (Fin p → ℝ)) :=
  if k = 0 then .ok (0, fun _ => 0)
  else do
    let M1 ← npInv (P.transpose * W)
    let M2 ← npInv (W.transpose * S * W)
    .ok (W * M1, (W * (M2 * W.transpose)).mulVec s0)

lemma snCoefN_coefOf {n p : ℕ} (X0 : NMat ℝ n p) (y0 : Fin n → Option ℝ) (l : List (SnComp n p)) :
    snCoefN X0 y0 l = coefOf l.length (compW l) (compP l) (Matrix.of (nanmatdot X0.tr X0)) (nandot X0.tr y0) := rfl

lemma coefOf_cast {p : ℕ} {k k' : ℕ} (h : k' = k) {W P : Matrix (Fin p) (Fin k) ℝ} {W' P' : Matrix (Fin p) (Fin k') ℝ} (S : Matrix (Fin p) (Fin p) ℝ)
    (s0 : Fin p → ℝ) (hW : ∀ j a, W' j a = W j (Fin.cast h a)) (hP : ∀ j a, P' j a = P j (Fin.cast h a)) :
    (coefOf k' W' P' S s0).map Prod.snd = (coefOf k W P S s0).map Prod.snd := by
  subst h
  have e1 : W' = W := by ext j a; exact hW j a
  have e2 : P' = P := by ext j a; exact hP j a
  rw [e1, e2]

lemma coef_map {n m p : ℕ} {X : NMat ℝ n p} {y : Fin n → Option ℝ} {X' : NMat ℝ m p} {y' : Fin m → Option ℝ} (l : List (SnComp n p))
    (φ : SnComp n p → SnComp m p) (hw : ∀ c, (φ c).w = c.w) (hl : ∀ c, (φ c).load = c.load)
    (hS : nanmatdot X'.tr X' = nanmatdot X.tr X) (hs : nandot X'.tr y' = nandot X.tr y) :
    (snCoefN X' y' (l.map φ)).map Prod.snd = (snCoefN X y l).map Prod.snd := by
  rw [snCoefN_coefOf, snCoefN_coefOf, hS, hs]
  refine coefOf_cast (List.length_map _) _ _ ?_ ?_
  · intro j a
    simp [compW, hw]
  · intro j a
    simp [compP, hl]

/-! ### A case without data -/

/-- A stored component without the score of case `i0`. -/
def dropCase {n p : ℕ} (i0 : Fin (n + 1)) (c : SnComp (n + 1) p) : SnComp n p := ⟨c.w, c.load, c.c, fun i => c.t (i0.succAbove i), c.good⟩

section Blank

variable {n p : ℕ} {i0 : Fin (n + 1)} {X : NMat ℝ (n + 1) p}

lemma blank_cross (hX : ∀ j, X i0 j = none) (v : Fin (n + 1) → Option ℝ) : nandot (NMat.tr fun i => X (i0.succAbove i)) (fun i => v (i0.succAbove i)) = nandot X.tr v := by
  funext j
  rw [nandot_eq, nandot_eq, Fin.sum_univ_succAbove _ i0]
  show _ = zval (X i0 j) * _ + _
  rw [hX j]
  simp [zval, NMat.tr]

lemma blank_gram (hX : ∀ j, X i0 j = none) : nanmatdot (NMat.tr fun i => X (i0.succAbove i)) (fun i => X (i0.succAbove i)) = nanmatdot X.tr X := by
  funext j k
  rw [nanmatdot_eq, nanmatdot_eq, Fin.sum_univ_succAbove _ i0]
  show _ = zval (X i0 k) * _ + _
  rw [hX k]
  simp [zval, NMat.tr]

lemma blank_resp (y : Fin (n + 1) → Option ℝ) {v : Fin (n + 1) → Option ℝ} (hv : v i0 = some 0) :
    nandot (asColN fun i => y (i0.succAbove i)).tr (fun i => v (i0.succAbove i)) 0 = nandot (asColN y).tr v 0 := by
  rw [nandot_eq, nandot_eq, Fin.sum_univ_succAbove _ i0]
  show _ = _ * zval (v i0) + _
  rw [hv]
  simp [zval, NMat.tr, asColN]

end Blank

lemma snLoopN_blank {n p : ℕ} {i0 : Fin (n + 1)} (eta : ℝ) : ∀ (h : ℕ) (X : NMat ℝ (n + 1) p) (y : Fin (n + 1) → Option ℝ) (old : Finset (Fin p)),
    (∀ j, X i0 j = none) → snLoopN eta h (fun i => X (i0.succAbove i)) (fun i => y (i0.succAbove i)) old = (snLoopN eta h X y old).map (List.map (dropCase i0))
  | 0, _, _, _, _ => rfl
  | h + 1, X, y, old, hX => by
    have hs := blank_cross hX y
    have ht0 : ∀ w : Fin p → ℝ, nandot X (fun j => some (w j)) i0 = 0 := by
      intro w
      rw [nandot_eq]
      exact Finset.sum_eq_zero fun j _ => by rw [hX j]; simp [zval]
    have ht : ∀ w : Fin p → ℝ, nandot (fun i => X (i0.succAbove i)) (fun j => some (w j)) = fun i => nandot X (fun j => some (w j)) (i0.succAbove i) := fun w => rfl
    have hn2 : ∀ w : Fin p → ℝ, (∑ i, nandot X (fun j => some (w j)) (i0.succAbove i) ^ 2) = ∑ i, nandot X (fun j => some (w j)) i ^ 2 := by
      intro w
      rw [Fin.sum_univ_succAbove _ i0, ht0]
      simp
    have hc : ∀ w : Fin p → ℝ, nandot (asColN fun i => y (i0.succAbove i)).tr (fun i => some (nandot X (fun j => some (w j)) (i0.succAbove i))) 0 =
        nandot (asColN y).tr (fun i => some (nandot X (fun j => some (w j)) i)) 0 :=
      fun w => blank_resp y (v := fun i => some (nandot X (fun j => some (w j)) i)) (congrArg some (ht0 w))
    have hph : ∀ t : Fin (n + 1) → ℝ, nandot (NMat.tr fun i => X (i0.succAbove i)) (fun i => some (t (i0.succAbove i))) = nandot X.tr (fun i => some (t i)) :=
      fun t => blank_cross hX fun i => some (t i)
    have hrec : ∀ (t : Fin (n + 1) → ℝ) (ph : Fin p → ℝ) (c : ℝ) (good : Finset (Fin p)),
        snLoopN eta h (fun i j => (X (i0.succAbove i) j).map (· - t (i0.succAbove i) * ph j)) (fun i => (y (i0.succAbove i)).map (· - t (i0.succAbove i) * c)) good =
          (snLoopN eta h (fun i j => (X i j).map (· - t i * ph j)) (fun i => (y i).map (· - t i * c)) good).map (List.map (dropCase i0)) :=
      fun t ph c good => snLoopN_blank eta h (fun i j => (X i j).map (· - t i * ph j)) (fun i => (y i).map (· - t i * c)) good
        (fun j => by rw [hX j]; rfl)
    rw [snLoopN, snLoopN]
    simp only [hs, ht, hn2, hc, hph, hrec]
    split_ifs
    all_goals try rfl
    generalize snLoopN eta h _ _ _ = r
    cases r <;> rfl

/-- The model with a case without data (`f`) and the one without the case (`f'`) are the same. -/
def Spec.SameWithout {n p : ℕ} (i0 : Fin (n + 1)) (f : SnFitN (n + 1) p) (f' : SnFitN n p) : Prop :=
  f'.coef = f.coef ∧ f'.coefScaled = f.coefScaled ∧ f'.intercept = f.intercept ∧ f'.xLoc = f.xLoc ∧ f'.xSca = f.xSca ∧ f'.yLoc = f.yLoc ∧ f'.ySca = f.ySca ∧
    (∀ i, f'.fitted i = f.fitted (i0.succAbove i)) ∧ (∀ i, f'.residuals i = f.residuals (i0.succAbove i)) ∧ f'.comps = f.comps.map (dropCase i0)

/-- C156: a case without any data, neither predictors nor response, has no influence: without it the fit gives the same model or fails in the same way. -/
theorem C156_blank_case {n p : ℕ} (hn : 0 < n) (pr : SnParamsN) (i0 : Fin (n + 1)) (X : NMat ℝ (n + 1) p) (y : Fin (n + 1) → Option ℝ) (hX : ∀ j, X i0 j = none)
    (hy : y i0 = none) :
    (∀ e, snFitNaN pr X y = .error e → snFitNaN pr (fun i => X (i0.succAbove i)) (fun i => y (i0.succAbove i)) = .error e) ∧
    (∀ f, snFitNaN pr X y = .ok f → ∃ f', snFitNaN pr (fun i => X (i0.succAbove i)) (fun i => y (i0.succAbove i)) = .ok f' ∧ SameWithout i0 f f') := by
  rw [snFitNaN_eq (Nat.succ_pos n), snFitNaN_eq hn]
  have hav : ∀ j, available (fun i => X (i0.succAbove i)) j = available X j := fun j => filterMap_drop i0 (fun i => X i j) (hX j)
  have hmX : pr.centre.run (fun i => X (i0.succAbove i)) = pr.centre.run X := funext fun j => ncentre_congr _ (hav j)
  have hsX : pr.scale.run (fun i => X (i0.succAbove i)) = pr.scale.run X := funext fun j => nscale_congr _ (hav j)
  have havy : available (asColN fun i => y (i0.succAbove i)) 0 = available (asColN y) 0 := filterMap_drop i0 y hy
  have hmy : pr.centre.run (asColN fun i => y (i0.succAbove i)) 0 = pr.centre.run (asColN y) 0 := ncentre_congr _ havy
  have hsy : pr.scale.run (asColN fun i => y (i0.succAbove i)) 0 = pr.scale.run (asColN y) 0 := nscale_congr _ havy
  unfold snFitBranch
  simp only [hmX, hsX, hmy, hsy]
  generalize hm : pr.centre.run (asColN y) 0 = my
  generalize hs : pr.scale.run (asColN y) 0 = sy
  generalize pr.centre.run X = mX
  generalize pr.scale.run X = sX
  have hX0 : scaleMatN (fun i => X (i0.succAbove i)) mX sX = fun i => scaleMatN X mX sX (i0.succAbove i) := rfl
  have hX0n : ∀ j, scaleMatN X mX sX i0 j = none := fun j => by unfold scaleMatN; rw [hX j]; rfl
  have hloop := snLoopN_blank pr.eta pr.nComponents (scaleMatN X mX sX) (fun i => scaleCell (y i) my sy) ∅ hX0n
  rw [hX0, hloop]
  cases snLoopN pr.eta pr.nComponents (scaleMatN X mX sX) (fun i => scaleCell (y i) my sy) ∅ with
  | error e => exact ⟨fun e' h => (by cases h; rfl), fun f h => (by cases h)⟩
  | ok l =>
    dsimp only [Except.map]
    have hco := coef_map (X := scaleMatN X mX sX) (y := fun i => scaleCell (y i) my sy) (X' := fun i => scaleMatN X mX sX (i0.succAbove i))
      (y' := fun i => scaleCell (y (i0.succAbove i)) my sy) l (dropCase i0) (fun _ => rfl) (fun _ => rfl) (blank_gram hX0n)
      (blank_cross (X := scaleMatN X mX sX) hX0n fun i => scaleCell (y i) my sy)
    revert hco
    cases snCoefN (scaleMatN X mX sX) (fun i => scaleCell (y i) my sy) l with
    | error e =>
      cases snCoefN (fun i => scaleMatN X mX sX (i0.succAbove i)) (fun i => scaleCell (y (i0.succAbove i)) my sy) (l.map (dropCase i0)) with
      | error e' =>
        intro hco
        have : e' = e := by simpa [Except.map] using hco
        subst this
        exact ⟨fun e' h => (by cases h; rfl), fun f h => (by cases h)⟩
      | ok r => intro hco; cases hco
    | ok RB =>
      obtain ⟨R, B⟩ := RB
      cases snCoefN (fun i => scaleMatN X mX sX (i0.succAbove i)) (fun i => scaleCell (y (i0.succAbove i)) my sy) (l.map (dropCase i0)) with
      | error e' => intro hco; cases hco
      | ok r =>
        obtain ⟨R', B'⟩ := r
        intro hco
        have : B' = B := by simpa [Except.map] using hco
        subst this
        dsimp only
        by_cases hr : ∃ j, rescaledN sy sX B' j = none
        · rw [if_pos hr, if_pos hr]
          exact ⟨fun e' h => (by cases h; rfl), fun f h => (by cases h)⟩
        · rw [if_neg hr, if_neg hr]
          have hint : ∀ r : Fin (n + 1) → ℝ, snInterceptN pr.centre (fun i => (y (i0.succAbove i)).map (· - r (i0.succAbove i))) =
              snInterceptN pr.centre fun i => (y i).map (· - r i) := by
            intro r
            have hl := filterMap_drop i0 (fun i => (y i).map (· - r i)) (by rw [hy]; rfl)
            cases pr.centre
            · show npNanReduce _ _ = npNanReduce _ _
              unfold npNanReduce; rw [hl]
            · show npNanReduce _ _ = npNanReduce _ _
              unfold npNanReduce; rw [hl]
            · rfl
          have hyp : nandot (fun i => X (i0.succAbove i)) (fun j => some ((rescaledN sy sX B' j).getD 0)) =
              fun i => nandot X (fun j => some ((rescaledN sy sX B' j).getD 0)) (i0.succAbove i) := rfl
          rw [hyp]
          have := hint (nandot X fun j => some ((rescaledN sy sX B' j).getD 0))
          rw [this]
          cases snInterceptN pr.centre (fun i => (y i).map (· - nandot X (fun j => some ((rescaledN sy sX B' j).getD 0)) i)) with
          | none => exact ⟨fun e' h => (by cases h; rfl), fun f h => (by cases h)⟩
          | some b0 =>
            refine ⟨fun e' h => (by cases h), fun f h => ?_⟩
            cases h
            exact ⟨_, rfl, rfl, rfl, rfl, rfl, rfl, rfl, rfl, fun _ => rfl, fun _ => rfl, rfl⟩

end Direpack
