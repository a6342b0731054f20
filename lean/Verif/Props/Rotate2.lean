import Verif.Props.Rotate
import Verif.Props.Replicate3

/-! Property C166 for SNIPLS without sparsity and for RM. -/

set_option linter.unusedSectionVars false

namespace Direpack

open scoped BigOperators
open Matrix Spec

variable {n p : ℕ} {Q : Fin p → Fin p → ℝ}

/-! ### The component loop -/

/-- Components of two fits that differ by the choice of the axes: rotated weights, same scores, same coefficient of the score. -/
def Spec.RotComp (Q : Fin p → Fin p → ℝ) (a b : SnComp n p) : Prop := b.w = rotVec Q a.w ∧ b.t = a.t ∧ b.c = a.c

/-- Normalised covariances. -/
noncomputable def covDir (X : Fin n → Fin p → ℝ) (y : Fin n → ℝ) : Fin p → ℝ :=
  fun j => crossVec X y j * (Real.sqrt (∑ j, crossVec X y j ^ 2))⁻¹

lemma snWeights_dense (X : Fin n → Fin p → ℝ) (y : Fin n → ℝ) : snWeights 0 X y = (fun j => |covDir X y j|, covDir X y) := by
  have hsg : ∀ a : ℝ, |a| * npSign a = a := by
    intro a
    unfold npSign
    split
    · rename_i h; rw [abs_of_pos h, mul_one]
    · split
      · rename_i h; rw [abs_of_neg h]; ring
      · rename_i h h'; have : a = 0 := le_antisymm (not_lt.mp h) (not_lt.mp h'); rw [this]; simp
  have e : ∀ j, (∑ i, X i j * y i) / Real.sqrt (∑ j, (∑ i, X i j * y i) ^ 2) = covDir X y j := fun j => div_eq_mul_inv _ _
  simp only [snWeights, e, zero_mul, sub_zero, hsg]

lemma Spec.Orthogonal.covDir (h : Orthogonal Q) (X : Fin n → Fin p → ℝ) (y : Fin n → ℝ) :
    Direpack.covDir (rotMat Q X) y = rotVec Q (Direpack.covDir X y) := by
  unfold Direpack.covDir
  rw [rotVec_mul]
  simp only [crossVec_rot, h.sq]

/-- The state after one pass of the loop without sparsity. -/
noncomputable def denseGood (X : Fin n → Fin p → ℝ) (y : Fin n → ℝ) (old : Finset (Fin p)) : Finset (Fin p) :=
  open Classical in old ∪ Finset.univ.filter fun j => 0 < |covDir X y j|

lemma denseGood_ne (X : Fin n → Fin p → ℝ) (y : Fin n → ℝ) (old : Finset (Fin p)) (hcov : ¬ ∀ j, crossVec X y j = 0) : denseGood X y old ≠ ∅ := by
  classical
  push Not at hcov
  obtain ⟨j, hj⟩ := hcov
  have hp : 0 < Real.sqrt (∑ j, crossVec X y j ^ 2) :=
    Real.sqrt_pos.2 (lt_of_lt_of_le (by positivity) (Finset.single_le_sum (f := fun j => crossVec X y j ^ 2) (fun j _ => sq_nonneg _) (Finset.mem_univ j)))
  refine Finset.Nonempty.ne_empty ⟨j, ?_⟩
  simp only [denseGood, Finset.mem_union, Finset.mem_filter, Finset.mem_univ, true_and]
  refine .inr (abs_pos.mpr (mul_ne_zero hj (inv_ne_zero hp.ne')))

open Classical in
/-- One pass without sparsity and with covariances that do not all vanish, for the score `t`. -/
noncomputable def densePass (k : ℕ) (X : Fin n → Fin p → ℝ) (y : Fin n → ℝ) (old : Finset (Fin p)) (t : Fin n → ℝ) : Except Err (List (SnComp n p)) :=
  if ∑ i, t i ^ 2 = 0 then .error .other
  else
    match snLoop 0 k (fun i j => X i j - t i * (crossVec X t j * (∑ i, t i ^ 2)⁻¹)) (fun i => y i - t i * ((∑ i, y i * t i) * (∑ i, t i ^ 2)⁻¹)) (denseGood X y old) with
    | .error e => .error e
    | .ok l => .ok (⟨covDir X y, fun j => if j ∈ denseGood X y old then crossVec X t j * (∑ i, t i ^ 2)⁻¹ else 0, (∑ i, y i * t i) * (∑ i, t i ^ 2)⁻¹, t,
        denseGood X y old⟩ :: l)

lemma snLoop_dense (k : ℕ) (X : Fin n → Fin p → ℝ) (y : Fin n → ℝ) (old : Finset (Fin p)) (hcov : ¬ ∀ j, crossVec X y j = 0) :
    snLoop 0 (k + 1) X y old = densePass k X y old fun i => ∑ j, X i j * covDir X y j := by
  classical
  have hw : ∀ j, (if j ∈ denseGood X y old then covDir X y j else 0) = covDir X y j := by
    intro j
    split
    · rfl
    · rename_i hj
      simp only [denseGood, Finset.mem_union, Finset.mem_filter, Finset.mem_univ, true_and, not_or, abs_pos, not_not] at hj
      exact hj.2.symm
  have hcov' : ¬ ∀ j, ∑ i, X i j * y i = 0 := hcov
  rw [snLoop, if_neg hcov']
  simp only [snWeights_dense]
  have hg : (old ∪ Finset.univ.filter fun j => 0 < |covDir X y j|) = denseGood X y old := by
    unfold denseGood; congr!
  simp only [hg]
  rw [if_neg (denseGood_ne X y old hcov)]
  simp only [hw, div_eq_mul_inv, densePass, crossVec]
  rfl

lemma rotMat_defl (X : Fin n → Fin p → ℝ) (t : Fin n → ℝ) (ph : Fin p → ℝ) :
    (fun i l => rotMat Q X i l - t i * rotVec Q ph l) = rotMat Q fun i j => X i j - t i * ph j := by
  funext i l
  show _ = rotVec Q (fun j => X i j - t i * ph j) l
  rw [rotVec_sub (Q := Q) (X i) fun j => t i * ph j, rotVec_mul_left]
  rfl

/-- Without sparsity the loop gives the same components in every choice of the axes. -/
lemma Spec.Orthogonal.snLoop (h : Orthogonal Q) : ∀ (k : ℕ) (X : Fin n → Fin p → ℝ) (y : Fin n → ℝ) (old old' : Finset (Fin p)), (old = ∅ ↔ old' = ∅) →
    (∃ e, snLoop 0 k X y old = .error e ∧ snLoop 0 k (rotMat Q X) y old' = .error e) ∨
    ∃ l l', snLoop 0 k X y old = .ok l ∧ snLoop 0 k (rotMat Q X) y old' = .ok l' ∧ List.Forall₂ (RotComp Q) l l' := by
  intro k
  induction k with
  | zero => intro X y old old' _; exact .inr ⟨[], [], rfl, rfl, .nil⟩
  | succ k ih =>
    intro X y old old' hold
    have hiff : (∀ l, crossVec (rotMat Q X) y l = 0) ↔ ∀ j, crossVec X y j = 0 := by rw [crossVec_rot]; exact h.eq_zero
    by_cases hcov : ∀ j, crossVec X y j = 0
    · have hcov' := hiff.mpr hcov
      by_cases ho : old = ∅
      · refine .inr ⟨[], [], ?_, ?_, .nil⟩
        · rw [Direpack.snLoop, if_pos (show ∀ j, ∑ i, X i j * y i = 0 from hcov), if_pos ho]
        · rw [Direpack.snLoop, if_pos (show ∀ j, ∑ i, rotMat Q X i j * y i = 0 from hcov'), if_pos (hold.mp ho)]
      · refine .inl ⟨.other, ?_, ?_⟩
        · rw [Direpack.snLoop, if_pos (show ∀ j, ∑ i, X i j * y i = 0 from hcov), if_neg ho]
        · rw [Direpack.snLoop, if_pos (show ∀ j, ∑ i, rotMat Q X i j * y i = 0 from hcov'), if_neg (mt hold.mpr ho)]
    · have hcov' := mt hiff.mp hcov
      rw [snLoop_dense k X y old hcov, snLoop_dense k (rotMat Q X) y old' hcov']
      have et : (fun i => ∑ l, rotMat Q X i l * Direpack.covDir (rotMat Q X) y l) = fun i => ∑ j, X i j * Direpack.covDir X y j := by
        funext i; rw [h.covDir]; exact h.lin X _ i
      rw [et]
      generalize (fun i => ∑ j, X i j * Direpack.covDir X y j) = t
      unfold densePass
      by_cases h0 : ∑ i, t i ^ 2 = 0
      · rw [if_pos h0, if_pos h0]; exact .inl ⟨_, rfl, rfl⟩
      rw [if_neg h0, if_neg h0]
      have eph : (fun l => crossVec (rotMat Q X) t l * (∑ i, t i ^ 2)⁻¹) = rotVec Q fun j => crossVec X t j * (∑ i, t i ^ 2)⁻¹ := by
        rw [rotVec_mul, crossVec_rot]
      have eX : (fun i l => rotMat Q X i l - t i * (crossVec (rotMat Q X) t l * (∑ i, t i ^ 2)⁻¹)) =
          rotMat Q fun i j => X i j - t i * (crossVec X t j * (∑ i, t i ^ 2)⁻¹) := by
        rw [← rotMat_defl, ← eph]
      rw [eX]
      rcases ih (fun i j => X i j - t i * (crossVec X t j * (∑ i, t i ^ 2)⁻¹)) (fun i => y i - t i * ((∑ i, y i * t i) * (∑ i, t i ^ 2)⁻¹))
          (denseGood X y old) (denseGood (rotMat Q X) y old')
          ⟨fun e => absurd e (denseGood_ne X y old hcov), fun e => absurd e (denseGood_ne _ y old' hcov')⟩ with ⟨e, e1, e2⟩ | ⟨l, l', e1, e2, e3⟩
      · rw [e1, e2]; exact .inl ⟨e, rfl, rfl⟩
      · rw [e1, e2]
        exact .inr ⟨_, _, rfl, rfl, .cons ⟨h.covDir X y, rfl, rfl⟩ e3⟩

/-! ### The coefficients -/

/-- Regression vector from weights, cross products and covariances. -/
noncomputable def wCoef (m : ℕ) (W : Matrix (Fin p) (Fin m) ℝ) (S : Matrix (Fin p) (Fin p) ℝ) (s : Fin p → ℝ) : Fin p → ℝ :=
  (W * ((W.transpose * S * W)⁻¹ * W.transpose)) *ᵥ s

lemma Spec.Orthogonal.wCoef (h : Orthogonal Q) {m m' : ℕ} (hm : m' = m) (W : Matrix (Fin p) (Fin m) ℝ) (W' : Matrix (Fin p) (Fin m') ℝ)
    (hW : ∀ j a, W' j a = ((Matrix.of Q).transpose * W) j (Fin.cast hm a)) (X : Fin n → Fin p → ℝ) (y : Fin n → ℝ) :
    Direpack.wCoef m' W' ((Matrix.of (rotMat Q X)).transpose * Matrix.of (rotMat Q X)) ((Matrix.of (rotMat Q X)).transpose *ᵥ y) =
      rotVec Q (Direpack.wCoef m W ((Matrix.of X).transpose * Matrix.of X) ((Matrix.of X).transpose *ᵥ y)) := by
  subst hm
  have e : W' = (Matrix.of Q).transpose * W := by funext j a; exact hW j a
  subst e
  set A := Matrix.of Q with hA
  have hAA : A * A.transpose = 1 := h.mul_transpose
  unfold Direpack.wCoef
  rw [rotMat_eq, ← hA, rotVec_eq, ← hA, ← Matrix.mulVec_transpose]
  have c1 : ∀ {r : ℕ} (M : Matrix (Fin p) (Fin r) ℝ), A * (A.transpose * M) = M := fun M => by rw [← Matrix.mul_assoc, hAA, Matrix.one_mul]
  have e1 : (A.transpose * W).transpose * ((Matrix.of X * A).transpose * (Matrix.of X * A)) * (A.transpose * W) =
      W.transpose * ((Matrix.of X).transpose * Matrix.of X) * W := by
    simp only [Matrix.transpose_mul, Matrix.transpose_transpose, Matrix.mul_assoc, c1]
  rw [e1]
  simp only [Matrix.transpose_mul, Matrix.transpose_transpose, Matrix.mulVec_mulVec, Matrix.mul_assoc]
  rw [c1]

lemma forall₂_W {l l' : List (SnComp n p)} (h : List.Forall₂ (RotComp Q) l l') (j : Fin p) (a : Fin l'.length) :
    compW l' j a = ((Matrix.of Q).transpose * compW l) j (Fin.cast h.length_eq.symm a) := by
  have h1 := (List.forall₂_iff_get.mp h).2 a.1 (by rw [h.length_eq]; exact a.2) a.2
  show (l'.get a).w j = _
  have h2 : (l'.get a).w = rotVec Q (l.get (Fin.cast h.length_eq.symm a)).w := h1.1
  rw [h2, Matrix.mul_apply]
  exact Finset.sum_congr rfl fun k _ => mul_comm _ _

lemma snCoef_B {eta : ℝ} {X : Fin n → Fin p → ℝ} {y : Fin n → ℝ} {l : List (SnComp n p)} (h : SnRun eta (Matrix.of X) y ∅ l)
    {R : Matrix (Fin p) (Fin l.length) ℝ} {B : Fin p → ℝ} (hc : snCoef X y l = .ok (R, B)) :
    B = wCoef l.length (compW l) ((Matrix.of X).transpose * Matrix.of X) ((Matrix.of X).transpose *ᵥ y) := by
  rw [snCoef_ok h] at hc
  split at hc
  · rename_i h0
    have hB : B = fun _ => 0 := by
      have := Except.ok.inj hc
      exact (congrArg Prod.snd this).symm
    rw [hB]
    have : IsEmpty (Fin l.length) := by rw [h0]; infer_instance
    funext j
    unfold wCoef
    rw [← Matrix.mulVec_mulVec]
    simp [Matrix.mulVec, dotProduct]
  · have := Except.ok.inj hc
    exact (congrArg Prod.snd this).symm

/-! ### SNIPLS -/

lemma stdMat_one (X : Fin n → Fin p → ℝ) (m : Fin p → ℝ) : stdMat X m (ScaleOpt.noneOpt.run X) = fun i j => X i j - m j := by
  funext i j; simp [stdMat, std1, ScaleOpt.run]

lemma stdMat_rot {X : Fin n → Fin p → ℝ} {m : Fin p → ℝ} :
    stdMat (rotMat Q X) (rotVec Q m) (ScaleOpt.noneOpt.run (rotMat Q X)) = rotMat Q (stdMat X m (ScaleOpt.noneOpt.run X)) := by
  rw [stdMat_one, stdMat_one]
  funext i l
  show rotVec Q (X i) l - rotVec Q m l = rotVec Q (fun j => X i j - m j) l
  rw [rotVec_sub]

lemma Spec.Orthogonal.predict (h : Orthogonal Q) {f f' : SnFit n p} (hc : f'.coef = rotVec Q f.coef) (hi : f'.intercept = f.intercept) {m : ℕ} (Xn : Fin m → Fin p → ℝ) :
    f'.predict (rotMat Q Xn) = f.predict Xn := by
  unfold SnFit.predict
  rw [dif_pos rfl, dif_pos rfl, hi]
  congr 1
  funext i
  congr 1
  rw [hc]
  exact h.lin Xn f.coef i

/-- C166: without sparsity and without scaling, SNIPLS with a location that follows the rotation gives the same model in every choice of the axes: it fails in one exactly when it fails in
the other (with the same exception), and otherwise the weights and the coefficients are rotated, while the scores, the intercept, the fitted values, the residuals and all predictions
are the same. -/
theorem C166_snipls (h : Orthogonal Q) {pr : SnParams} (he : pr.eta = 0) (hs : pr.scale = .noneOpt) (X : Fin n → Fin p → ℝ) (y : Fin n → ℝ)
    (hc : pr.centre.run (rotMat Q X) = rotVec Q (pr.centre.run X)) :
    (∀ e, snFit pr X y = .error e ↔ snFit pr (rotMat Q X) y = .error e) ∧
    ∀ f, snFit pr X y = .ok f → ∃ f', snFit pr (rotMat Q X) y = .ok f' ∧ List.Forall₂ (RotComp Q) f.comps f'.comps ∧
      f'.coef = rotVec Q f.coef ∧ f'.intercept = f.intercept ∧ f'.fitted = f.fitted ∧ f'.residuals = f.residuals ∧
      ∀ {m : ℕ} (Xn : Fin m → Fin p → ℝ), f'.predict (rotMat Q Xn) = f.predict Xn := by
  have hsc : ∀ {N q : ℕ} (Z : Fin N → Fin q → ℝ) (j : Fin q), pr.scale.run Z j ≠ 0 := fun Z j => by rw [hs]; simp [ScaleOpt.run]
  have hpos : ∀ f, snFit pr X y = .ok f → ∃ f', snFit pr (rotMat Q X) y = .ok f' ∧ List.Forall₂ (RotComp Q) f.comps f'.comps ∧
      f'.coef = rotVec Q f.coef ∧ f'.intercept = f.intercept ∧ f'.fitted = f.fitted ∧ f'.residuals = f.residuals ∧
      ∀ {m : ℕ} (Xn : Fin m → Fin p → ℝ), f'.predict (rotMat Q Xn) = f.predict Xn := by
    intro f hf
    obtain ⟨⟨p1, p2, p3⟩, a1, a2, a3, a4, -, a5, a6, a7, a8, a9, a10⟩ := snFit_inv hf
    rw [a1, a2, a3, a4, hs, he] at a5
    have hst : stdMat (rotMat Q X) (pr.centre.run (rotMat Q X)) (pr.scale.run (rotMat Q X)) = rotMat Q (stdMat X (pr.centre.run X) (ScaleOpt.noneOpt.run X)) := by
      rw [hc, hs, stdMat_rot]
    rcases h.snLoop pr.nComponents (stdMat X (pr.centre.run X) (ScaleOpt.noneOpt.run X)) (stdVec y (pr.centre.run (asCol y) 0) (ScaleOpt.noneOpt.run (asCol y) 0)) ∅ ∅ Iff.rfl with
      ⟨e, e1, -⟩ | ⟨l, l', e1, e2, e3⟩
    · rw [e1] at a5; exact absurd a5 (by simp)
    rw [e1] at a5
    obtain ⟨f', hf', hl'⟩ := snFit_of_loop pr (rotMat Q X) y p1 p2 p3 (hsc _) l' (by rw [hst, hs, he]; exact e2)
    have hll : f.comps = l := (Except.ok.inj a5).symm
    have hcomps : List.Forall₂ (RotComp Q) f.comps f'.comps := by rw [hll, hl']; exact e3
    have hr := snFit_run hf
    have hr' := snFit_run hf'
    obtain ⟨-, b1, b2, b3, b4, -, -, b6, b7, b8, b9, b10⟩ := snFit_inv hf'
    have hB := snCoef_B hr a6
    have hB' := snCoef_B hr' b6
    have hX' : stdMat (rotMat Q X) f'.xLoc f'.xSca = rotMat Q (stdMat X f.xLoc f.xSca) := by
      rw [b1, b2, hst, a1, a2, hs]
    have hco : f'.coefScaled = rotVec Q f.coefScaled := by
      rw [hB', hB, hX', b3, b4, ← a3, ← a4]
      exact h.wCoef hcomps.length_eq.symm _ _ (fun j a => forall₂_W hcomps j a) _ _
    have hone : f.ySca = 1 ∧ (∀ j, f.xSca j = 1) ∧ f'.ySca = 1 ∧ ∀ j, f'.xSca j = 1 := by
      refine ⟨?_, fun j => ?_, ?_, fun j => ?_⟩
      · rw [a4, hs]; rfl
      · rw [a2, hs]; rfl
      · rw [b4, hs]; rfl
      · rw [b2, hs]; rfl
    have q1 : f.coef = f.coefScaled := by funext j; rw [a7, hone.1, hone.2.1]; ring
    have q2 : f'.coef = f'.coefScaled := by funext j; rw [b7, hone.2.2.1, hone.2.2.2]; ring
    have q3 : f'.coef = rotVec Q f.coef := by rw [q1, q2, hco]
    have q4 : lin (rotMat Q X) f'.coef = lin X f.coef := by
      funext i; rw [q3]; exact h.lin X f.coef i
    have q5 : f'.intercept = f.intercept := by rw [b8, a8, q4]
    have q6 : f'.fitted = f.fitted := by funext i; rw [b9, a9, q4, q5]
    exact ⟨f', hf', hcomps, q3, q5, q6, by funext i; rw [b10, a10, q6], h.predict q3 q5⟩
  refine ⟨fun e => ?_, hpos⟩
  by_cases hpar : ¬ (0 ≤ pr.eta ∧ pr.eta < 1) ∨ pr.nComponents = 0
  · unfold snFit; rw [if_pos hpar, if_pos hpar]
  · push Not at hpar
    have hst : stdMat (rotMat Q X) (pr.centre.run (rotMat Q X)) (pr.scale.run (rotMat Q X)) = rotMat Q (stdMat X (pr.centre.run X) (ScaleOpt.noneOpt.run X)) := by
      rw [hc, hs, stdMat_rot]
    rcases h.snLoop pr.nComponents (stdMat X (pr.centre.run X) (ScaleOpt.noneOpt.run X)) (stdVec y (pr.centre.run (asCol y) 0) (ScaleOpt.noneOpt.run (asCol y) 0)) ∅ ∅ Iff.rfl with
      ⟨e0, e1, e2⟩ | ⟨l, l', e1, e2, e3⟩
    · have k1 : snFit pr X y = .error e0 := by
        unfold snFit snFitBody
        rw [if_neg (by push Not; exact hpar)]
        have hy : (fun i => scaleMat (asCol y) (pr.centre.run (asCol y)) (pr.scale.run (asCol y)) i 0)
            = stdVec y (pr.centre.run (asCol y) 0) (pr.scale.run (asCol y) 0) := by rw [scaleMat_eq]; rfl
        simp only [hy]
        simp only [scaleMat_eq, he, hs, e1]
      have k2 : snFit pr (rotMat Q X) y = .error e0 := by
        unfold snFit snFitBody
        rw [if_neg (by push Not; exact hpar)]
        have hy : (fun i => scaleMat (asCol y) (pr.centre.run (asCol y)) (pr.scale.run (asCol y)) i 0)
            = stdVec y (pr.centre.run (asCol y) 0) (pr.scale.run (asCol y) 0) := by rw [scaleMat_eq]; rfl
        simp only [hy]
        simp only [scaleMat_eq, hst]
        simp only [he, hs, e2]
      rw [k1, k2]
    · obtain ⟨f, hf, -⟩ := snFit_of_loop pr X y hpar.1.1 hpar.1.2 (Nat.pos_of_ne_zero hpar.2) (hsc _) l (by rw [hs, he]; exact e1)
      obtain ⟨f', hf', -⟩ := hpos f hf
      rw [hf, hf']
      simp

/-! ### RM -/

/-- The same fit with coefficients and location in the new coordinates. -/
def RmFit.rot (Q : Fin p → Fin p → ℝ) (f : RmFit n p) : RmFit n p :=
  { coef := rotVec Q f.coef, intercept := f.intercept, coefScaled := rotVec Q f.coefScaled, interceptScaled := f.interceptScaled
    residuals := f.residuals, fitted := f.fitted, xCaseweights := f.xCaseweights, yCaseweights := f.yCaseweights, caseweights := f.caseweights
    xLoc := rotVec Q f.xLoc, yLoc := f.yLoc, xSca := f.xSca, ySca := f.ySca, trainCols := f.trainCols, fits := f.fits }

lemma Spec.Orthogonal.rss (h : Orthogonal Q) (A : Fin n → Fin p → ℝ) (z : Fin n → ℝ) (b : Fin p → ℝ) : Spec.rss (rotMat Q A) z (rotVec Q b) = Spec.rss A z b := by
  unfold Spec.rss
  exact Finset.sum_congr rfl fun i _ => by rw [h.lin]

lemma Spec.Orthogonal.minNorm (h : Orthogonal Q) {A : Fin n → Fin p → ℝ} {z : Fin n → ℝ} {b : Fin p → ℝ} (hb : IsMinNormLS A z b) :
    IsMinNormLS (rotMat Q A) z (rotVec Q b) := by
  constructor
  · intro b'
    obtain ⟨b', rfl⟩ := h.surj b'
    rw [h.rss, h.rss]
    exact hb.1 b'
  · intro b' hb'
    obtain ⟨b', rfl⟩ := h.surj b'
    rw [h.sq, h.sq]
    refine hb.2 b' fun b'' => ?_
    have := hb' (rotVec Q b'')
    rwa [h.rss, h.rss] at this

lemma weightRows_rot (X : Fin n → Fin p → ℝ) (we : Fin n → ℝ) : weightRows (rotMat Q X) we = rotMat Q (weightRows X we) := by
  funext i l
  show rotVec Q (X i) l * Real.sqrt (we i) = rotVec Q (fun j => X i j * Real.sqrt (we i)) l
  rw [rotVec_mul]

lemma Spec.Orthogonal.rowDistances (h : Orthogonal Q) (X : Fin n → Fin p → ℝ) : Direpack.rowDistances (rotMat Q X) = Direpack.rowDistances X := by
  have : ∀ i, Real.sqrt (∑ j, rotMat Q X i j ^ 2) = Real.sqrt (∑ j, X i j ^ 2) := fun i => congrFun (h.rowNorms X) i
  unfold Direpack.rowDistances
  simp only [this]

lemma Spec.Orthogonal.rmStep (h : Orthogonal Q) {ext : RmExt} (hls : ∀ (A : Fin n → Fin p → ℝ) (z : Fin n → ℝ), IsMinNormLS A z (ext.lstsq A z)) (fn : WFun) (cy : ℝ × ℝ × ℝ)
    (Xs : Fin n → Fin p → ℝ) (ys wx we : Fin n → ℝ) :
    Direpack.rmStep ext fn cy (rotMat Q Xs) ys wx we = (Direpack.rmStep ext fn cy Xs ys wx we).map fun q => (rotVec Q q.1, q.2.1, q.2.2.1, q.2.2.2) := by
  have e : ext.lstsq (weightRows (rotMat Q Xs) we) (fun i => ys i * Real.sqrt (we i)) = rotVec Q (ext.lstsq (weightRows Xs we) fun i => ys i * Real.sqrt (we i)) := by
    rw [weightRows_rot]
    exact IsMinNormLS.unique (hls _ _) (h.minNorm (hls _ _))
  unfold Direpack.rmStep
  simp only [e, h.lin, h.sq]
  cases Direpack.scaleRes fun i => ys i - ∑ j, Xs i j * ext.lstsq (weightRows Xs we) (fun i => ys i * Real.sqrt (we i)) j with
  | error e => rfl
  | ok d => rfl

lemma Spec.Orthogonal.rmIntercepts (h : Orthogonal Q) (c : Centre) (s : ScaleOpt) (X Xs : Fin n → Fin p → ℝ) (y ys : Fin n → ℝ) (b : Fin p → ℝ) (i : ℝ) :
    Direpack.rmIntercepts c s (rotMat Q X) y (rotMat Q Xs) ys (rotVec Q b) i = Direpack.rmIntercepts c s X y Xs ys b i := by
  unfold Direpack.rmIntercepts
  simp only [h.lin]

lemma repeats_id : Repeats (id : Fin n → Fin n) 1 := by
  refine ⟨one_pos, fun i => ?_⟩
  have : Unique {I : Fin n // id I = i} := ⟨⟨⟨i, rfl⟩⟩, fun a => Subtype.ext a.2⟩
  exact Nat.card_unique

lemma scaleMat_none (X : Fin n → Fin p → ℝ) (m : Fin p → ℝ) : scaleMat X m (ScaleOpt.noneOpt.run X) = fun i j => X i j - m j := by
  funext i j; simp [scaleMat, ScaleOpt.run]

lemma scaleMat_rot {X : Fin n → Fin p → ℝ} {m : Fin p → ℝ} :
    scaleMat (rotMat Q X) (rotVec Q m) (ScaleOpt.noneOpt.run (rotMat Q X)) = rotMat Q (scaleMat X m (ScaleOpt.noneOpt.run X)) := by
  rw [scaleMat_none, scaleMat_none]
  funext i l
  show rotVec Q (X i) l - rotVec Q m l = rotVec Q (fun j => X i j - m j) l
  rw [rotVec_sub]

lemma RwOut.rep_id {β β' : Type} (g : β → β') (o : RwOut β n) : o.rep g id = ⟨g o.b, o.we, o.wye, o.wte, o.w0, o.fits⟩ := by
  unfold RwOut.rep
  congr 1
  ext i
  simp

/-- C166: without scaling and with a location that follows the rotation, RM has the same outcome in every choice of the axes: the same exception, or rotated coefficients and location with the
same intercepts, fitted values, residuals, case weights and number of iterations. -/
theorem C166_rm (h : Orthogonal Q) {ext : RmExt} {pr : RmParams} (hs : pr.scale = .noneOpt)
    (hls : ∀ (A : Fin n → Fin p → ℝ) (z : Fin n → ℝ), IsMinNormLS A z (ext.lstsq A z)) (X : Fin n → Fin p → ℝ) (y : Fin n → ℝ)
    (hc : pr.centre.run (rotMat Q X) = rotVec Q (pr.centre.run X)) :
    rmFit ext pr (rotMat Q X) y = (rmFit ext pr X y).map (RmFit.rot Q) := by
  unfold rmFit
  rw [hc, hs]
  cases checkProbs pr.fn pr.probp1 pr.probp2 pr.probp3 with
  | error e => rfl
  | ok _ =>
    simp only [scaleMat_rot, h.rowDistances]
    set Xs := scaleMat X (pr.centre.run X) (ScaleOpt.noneOpt.run X) with hXs
    set ys : Fin n → ℝ := fun i => scaleMat (asCol y) (pr.centre.run (asCol y)) (ScaleOpt.noneOpt.run (asCol y)) i 0 with hys
    cases rowDistances Xs with
    | error e => rfl
    | ok dx =>
      simp only
      cases startY pr.centre .noneOpt ys y with
      | error e => rfl
      | ok dy =>
        simp only
        have hl := repeats_id.rwLoop (rotVec Q) (fun we => h.rmStep hls pr.fn (cutY ext pr.probp1 pr.probp2 pr.probp3) Xs ys
          (pr.fn.run dx (cutX ext pr.specific p pr.probp1 pr.probp2 pr.probp3)) we) pr.tol pr.maxit (pr.maxit.toNat + 1) 1 (1 / 100000) (pr.tol < 1)
          (clipW fun i => pr.fn.run dx (cutX ext pr.specific p pr.probp1 pr.probp2 pr.probp3) i *
            pr.fn.run dy (cutY ext pr.probp1 pr.probp2 pr.probp3) i) none
        have hl2 : rwLoop (rmStep ext pr.fn (cutY ext pr.probp1 pr.probp2 pr.probp3) (rotMat Q Xs) ys
            (pr.fn.run dx (cutX ext pr.specific p pr.probp1 pr.probp2 pr.probp3))) pr.tol pr.maxit (pr.maxit.toNat + 1) 1 (1 / 100000) (pr.tol < 1)
            (clipW fun i => pr.fn.run dx (cutX ext pr.specific p pr.probp1 pr.probp2 pr.probp3) i *
              pr.fn.run dy (cutY ext pr.probp1 pr.probp2 pr.probp3) i) none = _ := hl
        rw [hl2]
        cases rwLoop (rmStep ext pr.fn (cutY ext pr.probp1 pr.probp2 pr.probp3) Xs ys
            (pr.fn.run dx (cutX ext pr.specific p pr.probp1 pr.probp2 pr.probp3))) pr.tol pr.maxit (pr.maxit.toNat + 1) 1 (1 / 100000) (pr.tol < 1)
            (clipW fun i => pr.fn.run dx (cutX ext pr.specific p pr.probp1 pr.probp2 pr.probp3) i *
              pr.fn.run dy (cutY ext pr.probp1 pr.probp2 pr.probp3) i) none with
        | none => rfl
        | some z =>
          cases z with
          | error e => rfl
          | ok o =>
            cases o with
            | none => rfl
            | some o =>
              simp only [Option.map, Except.map, RwOut.rep_id]
              unfold rmFinish
              simp only
              have h1 : ∀ {N q : ℕ} (Z : Fin N → Fin q → ℝ), ¬ ∃ j, ScaleOpt.noneOpt.run Z j = 0 := fun Z => by simp [ScaleOpt.run]
              rw [if_neg (h1 _), if_neg (h1 _)]
              have e1 : ∀ j, ScaleOpt.noneOpt.run (asCol y) 0 / ScaleOpt.noneOpt.run X j = 1 := fun j => by simp [ScaleOpt.run]
              have e2 : ∀ j, ScaleOpt.noneOpt.run (asCol y) 0 / ScaleOpt.noneOpt.run (rotMat Q X) j = 1 := fun j => by simp [ScaleOpt.run]
              simp only [e1, e2, one_mul, h.lin, h.rmIntercepts]
              cases rmIntercepts pr.centre pr.scale X y Xs ys o.b _ with
              | error e => rfl
              | ok q => rfl

end Direpack
