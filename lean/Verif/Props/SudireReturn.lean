import Verif.Props.SudireScale
import Verif.Props.SudireCrit2

/-! Property C159: `return_scaling_object` of sudire; and C134 without scaling. -/

namespace Direpack

open scoped BigOperators
open Spec

variable {n p : ℕ}

/-- The same object with another value of `return_scaling_object`. -/
def Spec.returning (b : Bool) (o : SdObj) : SdObj := ⟨{ o.params with returnScaling := b }, o.state⟩

lemma whitened_returning (pr : SdParams) (b : Bool) : SdParams.whitened { pr with returnScaling := b } = { pr.whitened with returnScaling := b } := by
  obtain ⟨m, nc, tr, cd, c, sd, w, ns, cp, ct, rs⟩ := pr
  cases w <;> rfl

lemma sdPre_returning (ext : SdExt) (pr : SdParams) (b : Bool) (X : Fin n → Fin p → ℝ) : sdPre ext { pr with returnScaling := b } X = sdPre ext pr X := rfl

lemma sdDirections_returning (ext : SdExt) (pr : SdParams) (b : Bool) (st : SdState) (q : SdPre n p) (y : Fin n → ℝ) :
    sdDirections ext { pr with returnScaling := b } st q y = sdDirections ext pr st q y := by
  have h1 : ∀ m s, sdStartMat ext { pr with returnScaling := b } m s q y = sdStartMat ext pr m s q y := by
    intro m s
    unfold sdStartMat
    dsimp only
    cases sliceMethod m ext.eigh q.Xs y s pr.nComp false pr.scaleData true <;> rfl
  have h2 : sdStart ext { pr with returnScaling := b } q y = sdStart ext pr q y := by
    unfold sdStart
    rw [h1, h1, h1]
    cases sdStartMat ext pr .save 3 q y with
    | error e => rfl
    | ok b1 =>
      cases sdStartMat ext pr .sir 6 q y with
      | error e => rfl
      | ok b2 => cases sdStartMat ext pr .dr 6 q y <;> rfl
  have h3 : ∀ o s a c, sdRun ext { pr with returnScaling := b } q o s a c = sdRun ext pr q o s a c := by
    intro o s a c
    unfold sdRun
    cases ext.solve o s a c with
    | error e => rfl
    | ok x =>
      dsimp only
      cases reshapeF p pr.nComp x <;> rfl
  have h4 : ∀ o, sdOptimise ext { pr with returnScaling := b } st q y o = sdOptimise ext pr st q y o := by
    intro o
    unfold sdOptimise
    rw [h2]
    cases st.start with
    | some start =>
      dsimp only
      have e1 : sdCons { pr with returnScaling := b } q = sdCons pr q := rfl
      have e2 : sdArgs { pr with returnScaling := b } q y = sdArgs pr q y := rfl
      rw [h3, e1, e2]
      cases sdRun ext pr q .dcov start (st.args.getD (sdArgs pr q y)) (st.cons.getD (sdCons pr q)) with
      | error e => rfl
      | ok B =>
        cases o with
        | none => rfl
        | some o =>
          dsimp only
          rw [h3]
          cases sdRun ext pr q o (vecF B) (st.args.getD (sdArgs pr q y)) (st.cons.getD (sdCons pr q)) <;> rfl
    | none =>
      cases sdStart ext pr q y with
      | error e => rfl
      | ok start =>
        dsimp only
        have e1 : sdCons { pr with returnScaling := b } q = sdCons pr q := rfl
        have e2 : sdArgs { pr with returnScaling := b } q y = sdArgs pr q y := rfl
        rw [h3, e1, e2]
        cases sdRun ext pr q .dcov start (st.args.getD (sdArgs pr q y)) (st.cons.getD (sdCons pr q)) with
        | error e => rfl
        | ok B =>
          cases o with
          | none => rfl
          | some o =>
            dsimp only
            rw [h3]
            cases sdRun ext pr q o (vecF B) (st.args.getD (sdArgs pr q y)) (st.cons.getD (sdCons pr q)) <;> rfl
  unfold sdDirections
  dsimp only
  simp only [h4]
  cases pr.meth with
  | slice m =>
    dsimp only
    cases sliceMethod m ext.eigh q.Xs y pr.nSlices pr.nComp pr.continuous pr.centerData pr.scaleData <;> rfl
  | phd =>
    dsimp only
    cases phd ext.eigh q.Xs y pr.nComp pr.centerData pr.scaleData <;> rfl
  | iht =>
    dsimp only
    cases iht ext.eigh q.Xs y pr.nComp pr.centerData pr.scaleData <;> rfl
  | dcov => rfl
  | opt o => rfl

/-- The fit up to the line that publishes the scaling object. -/
noncomputable def sdBeforeReturn (ext : SdExt) (o : SdObj) (X : Fin n → Fin p → ℝ) (y : Fin n → ℝ) : Except Err (SdPre n p × SdState × SdFit n p) :=
  match sdPre ext o.params.whitened X with
  | .error e => .error e
  | .ok q =>
    match sdDirections ext o.params.whitened (o.state.setX0 o.params.whitened.copy X) q y with
    | .error e => .error e
    | .ok (L, st') =>
      match projMat L.P with
      | .error e => .error e
      | .ok pm =>
        match sdScores st'.x0 n L with
        | .error e => .error e
        | .ok T => .ok (q, st', ⟨L.h, L.P, pm, T, (addConstant T).1, ext.ols (addConstant T).2 y, q.loc, q.sca⟩)

lemma fit_before (ext : SdExt) (o : SdObj) (X : Fin n → Fin p → ℝ) (y : Fin n → ℝ) : o.fit ext X y =
    match sdBeforeReturn ext o X y with
    | .error e => .error e
    | .ok (q, st', f) => if o.params.whitened.returnScaling ∧ o.params.whitened.center.isMean = false ∧ q.centring = false then .error .unboundLocal
        else .ok (⟨o.params.whitened, st'⟩, f) := by
  unfold SdObj.fit sdBeforeReturn
  dsimp only
  cases sdPre ext o.params.whitened X with
  | error e => rfl
  | ok q =>
    dsimp only
    cases sdDirections ext o.params.whitened (o.state.setX0 o.params.whitened.copy X) q y with
    | error e => rfl
    | ok Ls =>
      obtain ⟨L, st'⟩ := Ls
      dsimp only
      cases projMat L.P with
      | error e => rfl
      | ok pm =>
        dsimp only
        cases sdScores st'.x0 n L <;> rfl

lemma before_returning (ext : SdExt) (o : SdObj) (b : Bool) (X : Fin n → Fin p → ℝ) (y : Fin n → ℝ) :
    sdBeforeReturn ext (returning b o) X y = sdBeforeReturn ext o X y := by
  unfold sdBeforeReturn returning
  simp only [whitened_returning, sdPre_returning, sdDirections_returning]

lemma before_centring {ext : SdExt} {o : SdObj} {X : Fin n → Fin p → ℝ} {y : Fin n → ℝ} {q : SdPre n p} {st : SdState} {f : SdFit n p}
    (h : sdBeforeReturn ext o X y = .ok (q, st, f)) : q.centring = ((o.params.centerData || o.params.scaleData || o.params.whiten) && !o.params.center.isMean) := by
  unfold sdBeforeReturn at h
  cases hq : sdPre ext o.params.whitened X with
  | error e => rw [hq] at h; cases h
  | ok q' =>
    rw [hq] at h
    dsimp only at h
    have hqq : q' = q := by
      cases hd : sdDirections ext o.params.whitened (o.state.setX0 o.params.whitened.copy X) q' y with
      | error e => rw [hd] at h; cases h
      | ok Ls =>
        rw [hd] at h
        obtain ⟨L, st'⟩ := Ls
        dsimp only at h
        cases hp : projMat L.P with
        | error e => rw [hp] at h; cases h
        | ok pm =>
          rw [hp] at h
          dsimp only at h
          cases hT : sdScores st'.x0 n L with
          | error e => rw [hT] at h; cases h
          | ok T => rw [hT] at h; cases h; rfl
    subst hqq
    clear h
    obtain ⟨pr, st0⟩ := o
    dsimp only at hq ⊢
    unfold sdPre at hq
    cases hr : ext.rootInv (covMat X) with
    | error e => rw [hr] at hq; split_ifs at hq
    | ok N2 =>
      rw [hr] at hq
      dsimp only at hq
      split_ifs at hq
      cases hq
      have hw : ∀ (pr : SdParams) (q : SdPre n p), (sdWhitenStep ext pr q).centring = q.centring := by
        intro pr q; unfold sdWhitenStep; split_ifs <;> rfl
      rw [hw]
      obtain ⟨m, nc, tr, cd, c, sd, w, ns, cp, ct, rs⟩ := pr
      cases cd <;> cases c <;> cases sd <;> cases w <;> rfl

/-- C159, the part that holds: unless the centre is the median and the data are neither centred, scaled nor whitened, `return_scaling_object` has no influence on the results, the
state of the object, or the failure.  Missing: `C159_return_violated`. -/
theorem C159_return_partial (ext : SdExt) (o : SdObj) (b b' : Bool) (X : Fin n → Fin p → ℝ) (y : Fin n → ℝ)
    (hc : o.params.center = .mean ∨ o.params.centerData = true ∨ o.params.scaleData = true ∨ o.params.whiten = true) :
    (∀ e, (returning b o).fit ext X y = .error e → (returning b' o).fit ext X y = .error e) ∧
    (∀ o1 f, (returning b o).fit ext X y = .ok (o1, f) → ∃ o2, (returning b' o).fit ext X y = .ok (o2, f) ∧ o2.state = o1.state) := by
  rw [fit_before, fit_before, before_returning, before_returning]
  cases hB : sdBeforeReturn ext o X y with
  | error e => exact ⟨fun e' h => h, fun o1 f h => (by cases h)⟩
  | ok t =>
    obtain ⟨q, st, f⟩ := t
    have hce := before_centring hB
    dsimp only
    have hno : ∀ b, ¬ ((returning b o).params.whitened.returnScaling = true ∧ (returning b o).params.whitened.center.isMean = false ∧ q.centring = false) := by
      rintro b ⟨-, h2, h3⟩
      have h2' : o.params.center.isMean = false := by
        rw [← h2]
        show _ = (SdParams.whitened { o.params with returnScaling := b }).center.isMean
        rw [whitened_returning]
        show _ = o.params.whitened.center.isMean
        unfold SdParams.whitened
        split_ifs <;> rfl
      rw [hce, h2'] at h3
      rcases hc with h | h | h | h
      · rw [h] at h2'; cases h2'
      all_goals rw [h] at h3; simp at h3
    rw [if_neg (hno b), if_neg (hno b')]
    refine ⟨fun e h => (by cases h), fun o1 f' h => ?_⟩
    cases h
    exact ⟨_, rfl, rfl⟩

/-- C159 is violated with `center='median'`, `center_data=False`, `scale_data=False`: for all data, if a fit with `return_scaling_object=False` works, the one with the default
`True` raises an UnboundLocalError, after the computation has been done. -/
theorem C159_return_violated (ext : SdExt) (o : SdObj) (X : Fin n → Fin p → ℝ) (y : Fin n → ℝ) (hc : o.params.center = .median) (h1 : o.params.centerData = false)
    (h2 : o.params.scaleData = false) (h3 : o.params.whiten = false) {o1 : SdObj} {f : SdFit n p} (hf : (returning false o).fit ext X y = .ok (o1, f)) :
    (returning true o).fit ext X y = .error .unboundLocal := by
  rw [fit_before, before_returning] at hf ⊢
  cases hB : sdBeforeReturn ext o X y with
  | error e => rw [hB] at hf; cases hf
  | ok t =>
    obtain ⟨q, st, f'⟩ := t
    have hce := before_centring hB
    rw [h1, h2, h3] at hce
    dsimp only
    have hw : (returning true o).params.whitened = { o.params with returnScaling := true } := by
      unfold SdParams.whitened returning
      dsimp only
      rw [h3]
      rfl
    rw [hw]
    refine if_pos ⟨rfl, ?_, hce⟩
    show o.params.center.isMean = false
    rw [hc]
    rfl

/-- PHD with one component on raw data. -/
def rawParams : SdParams := { phdParams .median with centerData := false, scaleData := false, returnScaling := false }

lemma rawFit {ext : SdExt} (he : IsEigh ext.eigh) {N2 : Matrix (Fin 2) (Fin 2) ℝ} (hr : ext.rootInv (covMat crossX) = .ok N2) (y : Fin 4 → ℝ) :
    ∃ o f, (returning false (SdObj.new rawParams)).fit ext crossX y = .ok (o, f) := by
  have hB : ∃ B, phd ext.eigh crossX y 1 false false = .ok B := by
    rw [phd, if_neg (by norm_num)]
    exact ⟨_, rfl⟩
  obtain ⟨B, hB⟩ := hB
  have horth : B.transpose * B = 1 := by
    have := C89_phd he _ _ _ _ _ _ hB
    simp only [Bool.false_eq_true, if_false] at this
    unfold OrthonormalIn at this
    rwa [Matrix.mul_one] at this
  have hpre : sdPre ext rawParams crossX = .ok ⟨crossX, N2, fun _ => 0, fun _ => 1, false⟩ := by
    rw [sdPre, if_neg (by decide), if_neg (by norm_num), hr]
    dsimp only
    rw [if_neg]
    · rfl
    · rw [not_not]
      show trimOk (0 : ℝ) 4
      unfold trimOk
      norm_num
  have hdir : sdDirections ext rawParams (SdState.init.setX0 rawParams.copy crossX) ⟨crossX, N2, fun _ => 0, fun _ => 1, false⟩ y =
      .ok (⟨_, B⟩, SdState.init.setX0 rawParams.copy crossX) := by
    rw [sdDirections]
    have hB' : phd ext.eigh crossX y rawParams.nComp rawParams.centerData rawParams.scaleData = .ok B := hB
    have : rawParams.meth = .phd := rfl
    rw [this]
    dsimp only
    rw [hB']
    rfl
  rw [fit_before, before_returning]
  unfold sdBeforeReturn
  have hw : (SdObj.new rawParams).params.whitened = rawParams := rfl
  rw [hw, hpre]
  dsimp only
  have hst : (SdObj.new rawParams).state = SdState.init := rfl
  rw [hst, hdir]
  dsimp only
  have hpm : projMat B = .ok (B * (B.transpose * B)⁻¹ * B.transpose) := by
    unfold projMat
    rw [if_pos (by rw [horth, Matrix.det_one]; exact isUnit_one)]
  rw [hpm]
  dsimp only
  have hsc' : sdScores (SdState.init.setX0 rawParams.copy crossX).x0 4 (⟨_, B⟩ : SdLoad 2) = .ok (matX crossX B) := sdScores_self crossX
  rw [hsc']
  exact ⟨_, _, rfl⟩

example : ∃ (ext : SdExt) (o1 : SdObj) (f : SdFit 4 2), rawParams.center = .median ∧ rawParams.centerData = false ∧ rawParams.scaleData = false ∧ rawParams.whiten = false ∧
    (returning false (SdObj.new rawParams)).fit ext crossX (fun c => (c : ℝ)) = .ok (o1, f) := by
  obtain ⟨eigh, he⟩ := exists_eigh
  have hi : Inhabited (Except Err (List ℝ)) := ⟨.error .other⟩
  obtain ⟨o, f, h⟩ := rawFit (ext := ⟨eigh, fun _ => .ok 1, fun B => ⟨_, B⟩, fun _ _ => 0, fun _ _ _ _ => .error .other, fun _ => 1, fun _ _ _ => 0⟩) he rfl (fun c => (c : ℝ))
  exact ⟨_, o, f, rfl, rfl, rfl, rfl, h⟩

/-! ### Iterative Hessian transformation without scaling -/

/-- `matpower(A, i)` is the power of the matrix. -/
lemma matPow_eq {eigh : Eigh} (he : IsEigh eigh) {A : Matrix (Fin p) (Fin p) ℝ} (hA : A.transpose = A) (i : ℕ) : matPow eigh A i = A ^ i := by
  have h2 : (1 / 2 : ℝ) • (A + A.transpose) = A := by rw [hA, ← two_smul ℝ A, smul_smul]; norm_num
  unfold matPow
  dsimp only
  rw [h2]
  have ho := he.orth A hA
  have ho' : (eigh A).2 * (eigh A).2.transpose = 1 := mul_eq_one_comm.mp ho
  have hd := he.decomp A hA
  have hpow : ∀ i, A ^ i * (eigh A).2 = (eigh A).2 * Matrix.diagonal (fun j => (eigh A).1 j ^ i) := by
    intro i
    induction i with
    | zero => simp
    | succ i ih =>
      rw [pow_succ, Matrix.mul_assoc, hd, ← Matrix.mul_assoc, ih, Matrix.mul_assoc, Matrix.diagonal_mul_diagonal]
      congr 2
  rw [← hpow i, Matrix.mul_assoc, ho', Matrix.mul_one]

/-- The sum of the squared products of `v` with the vectors `Σ^i c`, `i < p`, for the covariance matrix `Σ` of the predictors and their covariances `c` with the response. -/
noncomputable def Spec.krylovIndex (X : Fin n → Fin p → ℝ) (y : Fin n → ℝ) (v : Fin p → ℝ) : ℝ :=
  ∑ i : Fin p, (∑ k, ((covMat X) ^ (i : ℕ)).mulVec (covWith X y) k * v k) ^ 2

/-- C134 without scaling (partial: it says what the directions are, not that they are in the space of the method): they are orthonormal, and each of them maximises the sum of the
squared products with the vectors `Σ^i c` among the unit vectors orthogonal to the earlier ones. -/
theorem C134_unscaled_partial {eigh : Eigh} (he : IsEigh eigh) (X : Fin n → Fin p → ℝ) (y : Fin n → ℝ) (d : ℕ) (center : Bool)
    (B : Matrix (Fin p) (Fin (min d p)) ℝ) (h : iht eigh X y d center false = .ok B) :
    B.transpose * B = 1 ∧ ∀ (k : Fin (min d p)) (v : Fin p → ℝ), ∑ j, v j ^ 2 = 1 → (∀ l, l < k → ∑ j, B j l * v j = 0) → krylovIndex X y v ≤ krylovIndex X y fun j => B j k := by
  obtain ⟨⟨hn, hp⟩, S, hS, hB⟩ := iht_ok h
  have hZ : sdrScale false (sdrCentre center X) S = sdrCentre center X := rfl
  have hb : ∀ M : Matrix (Fin p) (Fin (min d p)) ℝ, sdrBack false S M = M := fun _ => rfl
  rw [hZ, hb] at hB
  set C := ihtCols eigh (sdrCentre center X) y with hC
  have hsym : (C * C.transpose).transpose = C * C.transpose := by rw [Matrix.transpose_mul, Matrix.transpose_transpose]
  have hcol : ∀ k i, C k i = ((covMat X) ^ (i : ℕ)).mulVec (covWith X y) k := by
    intro k i
    rw [hC, ihtCols, Matrix.of_apply, covXY_centre (by omega), covMat_centre (by omega), matPow_eq he (covMat_symm X), covWith_eq]
    split_ifs with h0
    · rw [h0, pow_zero, Matrix.one_mulVec]
    · rfl
  have hq : ∀ v, quad (C * C.transpose) v = krylovIndex X y v := by
    intro v
    have := quad_gram C.transpose v
    rw [Matrix.transpose_transpose] at this
    rw [this, krylovIndex]
    refine Finset.sum_congr rfl fun i _ => ?_
    congr 1
    simp only [Matrix.mulVec, dotProduct, Matrix.transpose_apply]
    exact Finset.sum_congr rfl fun k _ => by rw [hcol]; rfl
  constructor
  · rw [hB]; exact leading_orth he hsym d
  · intro k v hv ho
    rw [← hq, ← hq, hB]
    exact leading_max he hsym k v hv (fun l hl => by rw [← ho l hl, hB])

example : ∃ (eigh : Eigh) (B : Matrix (Fin 2) (Fin (min 1 2)) ℝ), IsEigh eigh ∧ iht eigh crossX (fun c => (c : ℝ)) 1 true false = .ok B := by
  obtain ⟨eigh, he⟩ := exists_eigh
  have : ∃ B, iht eigh crossX (fun c => (c : ℝ)) 1 true false = .ok B := by
    rw [iht, if_neg (by norm_num)]
    exact ⟨_, rfl⟩
  obtain ⟨B, hB⟩ := this
  exact ⟨eigh, B, he, hB⟩

end Direpack
