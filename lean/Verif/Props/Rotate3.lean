import Verif.Props.Rotate2

/-! Property C166 for SPRM without sparsity. -/

set_option linter.unusedSectionVars false

namespace Direpack

open scoped BigOperators
open Matrix Spec

variable {n p : ℕ} {Q : Fin p → Fin p → ℝ}

/-! ### The reweighting loop for two programs in step -/

/-- Two outcomes of the reweighting loop that differ only in the stored fits, which are related by `R`. -/
def RwSame {β β' : Type} (R : β → β' → Prop) : Option (RwOut β n) → Option (RwOut β' n) → Prop
  | none, none => True
  | some o, some o' => R o.b o'.b ∧ o'.we = o.we ∧ o'.wye = o.wye ∧ o'.wte = o.wte ∧ o'.w0 = o.w0 ∧ o'.fits = o.fits
  | _, _ => False

/-- Two passes of the loop that fail in the same way, or differ only in the stored fits. -/
def StepSame {β β' : Type} (R : β → β' → Prop) (a : Except Err (β × ℝ × (Fin n → ℝ) × (Fin n → ℝ))) (a' : Except Err (β' × ℝ × (Fin n → ℝ) × (Fin n → ℝ))) : Prop :=
  (∃ e, a = .error e ∧ a' = .error e) ∨ ∃ b b' q, R b b' ∧ a = .ok (b, q) ∧ a' = .ok (b', q)

open Classical in
lemma rwLoop_same {β β' : Type} (R : β → β' → Prop) {step : (Fin n → ℝ) → Except Err (β × ℝ × (Fin n → ℝ) × (Fin n → ℝ))}
    {step' : (Fin n → ℝ) → Except Err (β' × ℝ × (Fin n → ℝ) × (Fin n → ℝ))} (hstep : ∀ we, StepSame R (step we) (step' we)) (tol : ℝ) (maxit : ℤ) :
    ∀ (fuel : ℕ) (loops : ℤ) (rold : ℝ) (go : Prop) (we : Fin n → ℝ) (out : Option (RwOut β n)) (out' : Option (RwOut β' n)), RwSame R out out' →
      (rwLoop step tol maxit fuel loops rold go we out = none ∧ rwLoop step' tol maxit fuel loops rold go we out' = none) ∨
      (∃ e, rwLoop step tol maxit fuel loops rold go we out = some (.error e) ∧ rwLoop step' tol maxit fuel loops rold go we out' = some (.error e)) ∨
      ∃ o o', RwSame R o o' ∧ rwLoop step tol maxit fuel loops rold go we out = some (.ok o) ∧ rwLoop step' tol maxit fuel loops rold go we out' = some (.ok o') := by
  intro fuel
  induction fuel with
  | zero => intros; exact .inl ⟨rfl, rfl⟩
  | succ fuel ih =>
    intro loops rold go we out out' hrel
    rw [rwLoop, rwLoop]
    by_cases hg : go ∧ loops < maxit
    · rw [if_pos hg, if_pos hg]
      rcases hstep we with ⟨e, e1, e2⟩ | ⟨b, b', ⟨b2, wye, wte⟩, hR, e1, e2⟩
      · rw [e1, e2]; exact .inr (.inl ⟨e, rfl, rfl⟩)
      · rw [e1, e2]
        simp only
        have hf : (out'.elim 0 fun o => o.fits) = out.elim 0 fun o => o.fits := by
          cases out with
          | none => cases out' with
            | none => rfl
            | some _ => exact absurd hrel (by simp [RwSame])
          | some o => cases out' with
            | none => exact absurd hrel (by simp [RwSame])
            | some o' => exact hrel.2.2.2.2.2
        rw [hf]
        split
        · exact .inr (.inr ⟨some _, some _, ⟨hR, rfl, rfl, rfl, rfl, rfl⟩, rfl, rfl⟩)
        · exact ih _ _ _ _ _ _ ⟨hR, rfl, rfl, rfl, rfl, rfl⟩
    · rw [if_neg hg, if_neg hg]
      exact .inr (.inr ⟨out, out', hrel, rfl, rfl⟩)

/-! ### One pass of SPRM -/

lemma scoreDistances_cast (c : Centre) (s : ScaleOpt) {m m' : ℕ} (e : m' = m) (T : Fin n → Fin m → ℝ) (T' : Fin n → Fin m' → ℝ) (hT : ∀ i a, T' i a = T i (Fin.cast e a)) :
    Direpack.rowDistances (scaleMat T' (c.run T') (s.run T')) = Direpack.rowDistances (scaleMat T (c.run T) (s.run T)) := by
  subst e
  have : T' = T := by funext i a; exact hT i a
  rw [this]

lemma forall₂_T {l l' : List (SnComp n p)} (h : List.Forall₂ (RotComp Q) l l') (i : Fin n) (a : Fin l'.length) :
    compT l' i a = compT l i (Fin.cast h.length_eq.symm a) := by
  have h1 := (List.forall₂_iff_get.mp h).2 a.1 (by rw [h.length_eq]; exact a.2) a.2
  exact congrFun h1.2.1 i

/-- SNIPLS fits that differ by the choice of the axes. -/
def RotFit (Q : Fin p → Fin p → ℝ) (f f' : SnFit n p) : Prop := f'.coef = rotVec Q f.coef

lemma Spec.Orthogonal.sprmStep (h : Orthogonal Q) (ext : SprmExt) (pr : SprmParams) (he : pr.eta = 0) (sc : ScaleOpt) (cx : ℝ × ℝ × ℝ) (Xs : Fin n → Fin p → ℝ) (ys we : Fin n → ℝ) :
    StepSame (RotFit Q) (Direpack.sprmStep ext pr sc cx Xs ys we) (Direpack.sprmStep ext pr sc cx (rotMat Q Xs) ys we) := by
  have hsn := C166_snipls h (pr := ⟨pr.eta, pr.nComponents.toNat, .mean, .noneOpt⟩) he rfl (weightRows Xs we) (fun i => ys i * Real.sqrt (we i)) (C166_mean Q _)
  unfold Direpack.sprmStep
  rw [weightRows_rot]
  cases hf : snFit ⟨pr.eta, pr.nComponents.toNat, .mean, .noneOpt⟩ (weightRows Xs we) (fun i => ys i * Real.sqrt (we i)) with
  | error e =>
    rw [(hsn.1 e).mp hf]
    exact .inl ⟨e, rfl, rfl⟩
  | ok f =>
    obtain ⟨f', hf', hcomp, hco, -, hfit, -, -⟩ := hsn.2 f hf
    rw [hf']
    simp only [hfit]
    cases scaleRes fun i => ys i - f.fitted i with
    | error e => exact .inl ⟨e, rfl, rfl⟩
    | ok r =>
      simp only
      have e3 := scoreDistances_cast pr.centre (scoreScale sc) hcomp.length_eq.symm (fun i a => compT f.comps i a / Real.sqrt (we i))
        (fun i a => compT f'.comps i a / Real.sqrt (we i)) fun i a => congrArg (· / Real.sqrt (we i)) (forall₂_T hcomp i a)
      rw [e3]
      cases Direpack.rowDistances (scaleMat (fun i a => compT f.comps i a / Real.sqrt (we i)) (pr.centre.run fun i a => compT f.comps i a / Real.sqrt (we i))
          ((scoreScale sc).run fun i a => compT f.comps i a / Real.sqrt (we i))) with
      | error e => exact .inl ⟨e, rfl, rfl⟩
      | ok w =>
        simp only [hco, h.sq]
        exact .inr ⟨f, f', _, hco, rfl, rfl⟩

/-! ### The variables that are kept -/

/-- The rotation for the columns in the list of all columns. -/
def rotKeep (Q : Fin p → Fin p → ℝ) : Fin (List.finRange p).length → Fin (List.finRange p).length → ℝ := fun a b => Q ((List.finRange p).get a) ((List.finRange p).get b)

lemma sum_finRange (F : Fin p → ℝ) : ∑ a : Fin (List.finRange p).length, F ((List.finRange p).get a) = ∑ j, F j := by
  rw [← Equiv.sum_comp (finCongr (List.length_finRange (n := p))) F]
  refine Finset.sum_congr rfl fun a _ => ?_
  simp

lemma finRange_get_inj {a b : Fin (List.finRange p).length} : (List.finRange p).get a = (List.finRange p).get b ↔ a = b := by
  constructor
  · intro h
    simp only [List.get_eq_getElem, List.getElem_finRange] at h
    ext
    simpa using congrArg Fin.val h
  · rintro rfl; rfl

lemma Spec.Orthogonal.keep (h : Orthogonal Q) : Orthogonal (rotKeep Q) := by
  intro a b
  unfold rotKeep
  rw [sum_finRange fun l => Q ((List.finRange p).get a) l * Q ((List.finRange p).get b) l, h]
  simp only [finRange_get_inj]

lemma selCols_rot (Z : Fin n → Fin p → ℝ) : selCols (rotMat Q Z) (List.finRange p) = rotMat (rotKeep Q) (selCols Z (List.finRange p)) := by
  funext i b
  show ∑ j, Z i j * Q j ((List.finRange p).get b) = ∑ a, Z i ((List.finRange p).get a) * Q ((List.finRange p).get a) ((List.finRange p).get b)
  rw [sum_finRange fun j => Z i j * Q j ((List.finRange p).get b)]

lemma keepVars_none (X : Fin n → Fin p → ℝ) : keepVars (ScaleOpt.noneOpt.run X) = List.finRange p := by
  unfold keepVars
  rw [List.filter_eq_self]
  intro j _
  simp [ScaleOpt.run]
  norm_num

/-- The coefficient of every predictor of a fitted SPRM model: zero for those that were left out. -/
noncomputable def Spec.SprmFit.slope (f : SprmFit n p) : Fin p → ℝ := fun j => ∑ a, if f.keep.get a = j then f.coef a else 0

/-- What two SPRM fits have in common that differ by the choice of the axes. -/
structure Spec.SprmRotated (Q : Fin p → Fin p → ℝ) (f f' : SprmFit n p) : Prop where
  slope : Spec.SprmFit.slope f' = rotVec Q (Spec.SprmFit.slope f)
  intercept : f'.intercept = f.intercept
  interceptScaled : f'.interceptScaled = f.interceptScaled
  fitted : f'.fitted = f.fitted
  residuals : f'.residuals = f.residuals
  xCaseweights : f'.xCaseweights = f.xCaseweights
  yCaseweights : f'.yCaseweights = f.yCaseweights
  caseweights : f'.caseweights = f.caseweights
  fits : f'.fits = f.fits
  predict : ∀ {m : ℕ} (Xn : Fin m → Fin p → ℝ), f'.predict (rotMat Q Xn) = f.predict Xn

lemma slope_finRange (b : Fin (List.finRange p).length → ℝ) (j : Fin p) :
    (∑ a, if (List.finRange p).get a = j then b a else 0) = b (Fin.cast (List.length_finRange (n := p)).symm j) := by
  rw [Finset.sum_eq_single (Fin.cast (List.length_finRange (n := p)).symm j)]
  · simp
  · intro a _ ha
    rw [if_neg]
    intro h
    apply ha
    subst h
    ext
    simp
  · simp

lemma Spec.Orthogonal.sprmRest (h : Orthogonal Q) (ext : SprmExt) (pr : SprmParams) (he : pr.eta = 0) (hpc : pr.pcapp = false) (X : Fin n → Fin p → ℝ) (y : Fin n → ℝ)
    (mX : Fin p → ℝ) (mY : Fin 1 → ℝ) :
    (∃ e, sprmRest ext pr .noneOpt X y mX (fun _ => 1) mY (fun _ => 1) (List.finRange p) = .error e ∧
      sprmRest ext pr .noneOpt (rotMat Q X) y (rotVec Q mX) (fun _ => 1) mY (fun _ => 1) (List.finRange p) = .error e) ∨
    ∃ f f', sprmRest ext pr .noneOpt X y mX (fun _ => 1) mY (fun _ => 1) (List.finRange p) = .ok f ∧
      sprmRest ext pr .noneOpt (rotMat Q X) y (rotVec Q mX) (fun _ => 1) mY (fun _ => 1) (List.finRange p) = .ok f' ∧ SprmRotated Q f f' := by
  have hQ := h.keep
  have eX : scaleMat (rotMat Q X) (rotVec Q mX) (fun _ => 1) = rotMat Q (scaleMat X mX fun _ => 1) := scaleMat_rot (X := X)
  unfold Direpack.sprmRest
  simp only
  by_cases hk : pr.nComponents > (List.finRange p).length
  · rw [if_pos hk, if_pos hk]; exact .inl ⟨_, rfl, rfl⟩
  rw [if_neg hk, if_neg hk, eX, selCols_rot]
  set Xs := selCols (scaleMat X mX fun _ => 1) (List.finRange p) with hXs
  set ys : Fin n → ℝ := fun i => scaleMat (asCol y) mY (fun _ => 1) i 0 with hys
  have hst : Direpack.sprmStartX ext pr .noneOpt (rotMat (rotKeep Q) Xs) = Direpack.sprmStartX ext pr .noneOpt Xs := by
    unfold Direpack.sprmStartX
    simp only [hpc, Bool.false_eq_true, if_false, hQ.rowDistances]
  rw [hst]
  cases sprmStartX ext pr .noneOpt Xs with
  | error e => exact .inl ⟨e, rfl, rfl⟩
  | ok q =>
    obtain ⟨rc, dx⟩ := q
    simp only
    cases startY pr.centre .noneOpt ys y with
    | error e => exact .inl ⟨e, rfl, rfl⟩
    | ok dy =>
      simp only
      cases sprmStartCut ext pr rc with
      | error e => exact .inl ⟨e, rfl, rfl⟩
      | ok cx =>
        simp only
        rcases rwLoop_same (RotFit (rotKeep Q)) (fun we => hQ.sprmStep ext pr he .noneOpt cx Xs ys we) pr.tol pr.maxit (pr.maxit.toNat + 1) 1 (1 / 100000) (pr.tol < 1)
          (clipW fun i => pr.fn.run dx cx i * pr.fn.run dy (cutY ext.toRm pr.probp1 pr.probp2 pr.probp3) i) none none trivial with
          ⟨e1, e2⟩ | ⟨e, e1, e2⟩ | ⟨o, o', hR, e1, e2⟩
        · rw [e1, e2]; exact .inl ⟨_, rfl, rfl⟩
        · rw [e1, e2]; exact .inl ⟨e, rfl, rfl⟩
        · rw [e1, e2]
          cases o with
          | none => cases o' with
            | none => exact .inl ⟨_, rfl, rfl⟩
            | some _ => exact absurd hR (by simp [RwSame])
          | some o => cases o' with
            | none => exact absurd hR (by simp [RwSame])
            | some o' =>
              obtain ⟨r1, r2, r3, r4, r5, r6⟩ := hR
              have r1' : o'.b.coef = rotVec (rotKeep Q) o.b.coef := r1
              refine .inr ⟨_, _, rfl, rfl, ?_⟩
              have hyp : ∀ i, ∑ a, selCols (rotMat Q X) (List.finRange p) i a * o'.b.coef a = ∑ a, selCols X (List.finRange p) i a * o.b.coef a := by
                intro i
                rw [selCols_rot, r1']
                exact hQ.lin _ _ i
              have hi : (snIntercept pr.centre fun i => y i - ∑ a, selCols (rotMat Q X) (List.finRange p) i a * (1 / 1 * o'.b.coef a)) =
                  snIntercept pr.centre fun i => y i - ∑ a, selCols X (List.finRange p) i a * (1 / 1 * o.b.coef a) := by
                simp only [div_one, one_mul, hyp]
              have hfit : (fun i => (∑ a, selCols (rotMat Q X) (List.finRange p) i a * (1 / 1 * o'.b.coef a)) +
                    snIntercept pr.centre fun i => y i - ∑ a, selCols (rotMat Q X) (List.finRange p) i a * (1 / 1 * o'.b.coef a)) =
                  fun i => (∑ a, selCols X (List.finRange p) i a * (1 / 1 * o.b.coef a)) +
                    snIntercept pr.centre fun i => y i - ∑ a, selCols X (List.finRange p) i a * (1 / 1 * o.b.coef a) := by
                simp only [div_one, one_mul, hyp]
              constructor
              · funext l
                show (∑ a, if (List.finRange p).get a = l then (1 : ℝ) / 1 * o'.b.coef a else 0) =
                  ∑ j, (∑ a, if (List.finRange p).get a = j then (1 : ℝ) / 1 * o.b.coef a else 0) * Q j l
                rw [slope_finRange fun a => (1 : ℝ) / 1 * o'.b.coef a]
                simp only [div_one, one_mul, slope_finRange o.b.coef]
                rw [r1', ← sum_finRange fun j => o.b.coef (Fin.cast (List.length_finRange (n := p)).symm j) * Q j l]
                refine Finset.sum_congr rfl fun a _ => ?_
                simp [rotKeep]
              · exact hi
              · show sprmB0 pr.centre .noneOpt (selCols (rotMat Q X) (List.finRange p)) y (rotMat (rotKeep Q) Xs) ys o'.b.coef = sprmB0 pr.centre .noneOpt (selCols X (List.finRange p)) y Xs ys o.b.coef
                simp only [sprmB0, ScaleOpt.isNone, if_true, hyp]
              · exact hfit
              · funext i
                exact congrArg (y i - ·) (congrFun hfit i)
              · show zeroOut o'.wte o'.w0 = zeroOut o.wte o.w0
                rw [r4, r5]
              · show zeroOut o'.wye o'.w0 = zeroOut o.wye o.w0
                rw [r3, r5]
              · show zeroOut o'.we o'.w0 = zeroOut o.we o.w0
                rw [r2, r5]
              · exact r6
              · intro m Xn
                unfold SprmFit.predict
                cases pr.copy with
                | false => rfl
                | true =>
                  simp only [if_true]
                  rw [dif_pos trivial, dif_pos trivial]
                  refine congrArg Except.ok ?_
                  funext i
                  have hx : ∑ a, selCols (rotMat Q Xn) (List.finRange p) i a * (1 / 1 * o'.b.coef a) = ∑ a, selCols Xn (List.finRange p) i a * (1 / 1 * o.b.coef a) := by
                    simp only [div_one, one_mul]
                    rw [selCols_rot, r1']
                    exact hQ.lin _ _ i
                  exact congrArg₂ (· + ·) hx hi

/-- C166: SPRM without sparsity and without scaling, with a location that follows the rotation and starting weights that are not derived from principal components, has the same outcome
in every choice of the axes: the same exception, or a model with rotated coefficients and the same intercept, fitted values, residuals, case weights, number of iterations and
predictions. -/
theorem C166_sprm (h : Orthogonal Q) {ext : SprmExt} {pr : SprmParams} (he : pr.eta = 0) (hs : pr.scale = .plain .noneOpt) (hpc : pr.pcapp = false) (X : Fin n → Fin p → ℝ) (y : Fin n → ℝ)
    (hc : pr.centre.run (rotMat Q X) = rotVec Q (pr.centre.run X)) :
    (∃ e, (sprmFit ext pr X y).2 = .error e ∧ (sprmFit ext pr (rotMat Q X) y).2 = .error e) ∨
    ∃ f f', (sprmFit ext pr X y).2 = .ok f ∧ (sprmFit ext pr (rotMat Q X) y).2 = .ok f' ∧ SprmRotated Q f f' := by
  rw [sprmFit_rest, sprmFit_rest]
  cases sprmCheck pr n p with
  | error e => exact .inl ⟨e, rfl, rfl⟩
  | ok _ =>
    have e1 : (pr.scale.resolve X).opt = .noneOpt := by rw [hs]; rfl
    have e2 : (pr.scale.resolve (rotMat Q X)).opt = .noneOpt := by rw [hs]; rfl
    simp only [e1, e2, keepVars_none, hc]
    exact h.sprmRest ext pr he hpc X y _ _

end Direpack
