import Verif.FailObj
import Verif.Props.SPRMExample

/-!
# C192: a call of `fit` that fails does not damage the model

A user who refits an object inside `try`/`except` expects the object to go on answering as before when the
refit raises.  The theorems say what is true of this for `snipls`, `rm` and `sprm`.
-/

namespace Direpack

open Spec

/-! ### Histories of failed refits -/

/-- `o'` is reached from `o` by finitely many calls of `fit` (with any parameters and any data of `p` columns), all of
which raise. -/
inductive SnFailed (p : ℕ) : SnState → SnState → Prop
  | refl (o : SnState) : SnFailed p o o
  | step {o o' : SnState} (pr : SnParams) {n m : ℕ} (X : Fin n → Fin p → ℝ) (y : Fin m → ℝ) (e : Err) :
      SnFailed p o o' → (o'.fit pr X y).2 = .raised e → SnFailed p o (o'.fit pr X y).1

/-- The same for `rm`. -/
inductive RmFailed (ext : RmExt) (p : ℕ) : RmState → RmState → Prop
  | refl (o : RmState) : RmFailed ext p o o
  | step {o o' : RmState} (pr : RmParams) {n m : ℕ} (X : Fin n → Fin p → ℝ) (y : Fin m → ℝ) (e : Err) :
      RmFailed ext p o o' → (o'.fit ext pr X y).2 = .raised e → RmFailed ext p o (o'.fit ext pr X y).1

/-- The same for `sprm`, for parameters that are not `start_cutoff_mode='specific'` without the start
`'pcapp'`. -/
inductive SprmFailed (ext : SprmExt) (p : ℕ) : SprmState → SprmState → Prop
  | refl (o : SprmState) : SprmFailed ext p o o
  | step {o o' : SprmState} (pr : SprmParams) {n m : ℕ} (X : Fin n → Fin p → ℝ) (y : Fin m → ℝ) (e : Err) :
      SprmFailed ext p o o' → (pr.specific = true → pr.pcapp = true) → (o'.fit ext pr X y).2 = .raised e →
      SprmFailed ext p o (o'.fit ext pr X y).1

lemma sn_raised {pr : SnParams} {o : SnState} {n p m : ℕ} {X : Fin n → Fin p → ℝ} {y : Fin m → ℝ} {e : Err}
    (h : (o.fit pr X y).2 = .raised e) : (o.fit pr X y).1 = { o with xCols := some p } := by
  unfold SnState.fit at h ⊢
  dsimp only at h ⊢
  split_ifs at h ⊢ with h1 h2
  · split at h <;> simp at h
  · rfl

lemma rm_raised {ext : RmExt} {pr : RmParams} {o : RmState} {n p m : ℕ} {X : Fin n → Fin p → ℝ} {y : Fin m → ℝ}
    {e : Err} (h : (o.fit ext pr X y).2 = .raised e) :
    (o.fit ext pr X y).1 = if pr.copy then { o with xCols := some p } else o := by
  unfold RmState.fit at h ⊢
  dsimp only at h ⊢
  split at h
  · simp_all
  · split_ifs at h ⊢ with h1 h2
    · split at h <;> simp at h
    · split at h <;> simp at h
    · simp_all
    · simp_all

lemma sprm_raised {ext : SprmExt} {pr : SprmParams} {o : SprmState} {n p m : ℕ} {X : Fin n → Fin p → ℝ}
    {y : Fin m → ℝ} {e : Err} (hsp : pr.specific = true → pr.pcapp = true)
    (h : (o.fit ext pr X y).2 = .raised e) :
    (o.fit ext pr X y).1.xCols = (if pr.copy then some p else o.xCols) ∧ (o.fit ext pr X y).1.keep = o.keep ∧
      (o.fit ext pr X y).1.model = o.model := by
  have hc : ∀ (b : Bool) (o : SprmState), (if b = true then { o with xCols := some p } else o).xCols = (if b = true then some p else o.xCols) ∧
      (if b = true then { o with xCols := some p } else o).keep = o.keep ∧
      (if b = true then { o with xCols := some p } else o).model = o.model := by
    intro b o; cases b <;> simp
  have hns : ¬ (pr.specific = true ∧ pr.pcapp = false) := fun ⟨h1, h2⟩ => by simp [hsp h1] at h2
  unfold SprmState.fit at h ⊢
  dsimp only at h ⊢
  cases hchk : sprmCheck pr n p with
  | error e' => simpa only [hchk] using hc pr.copy o
  | ok u =>
    simp only [hchk] at h ⊢
    by_cases hm : m = n
    · simp only [dif_pos hm] at h ⊢
      by_cases hk : pr.nComponents > (keepVars ((pr.scale.resolve X).opt.run X)).length
      · simp only [if_pos hk]
        exact hc pr.copy o
      · simp only [if_neg hk, if_neg hns] at h
        split at h <;> simp at h
    · simp only [dif_neg hm]
      exact hc pr.copy o

/-- **C192** (`snipls`): an object that has been fitted on `p` columns answers `predict` and `transform` for every
new data as before, after any number of refits on data with `p` columns that raise.
Missing: refits with another number of columns (`C192_snipls_violated`). -/
theorem C192_snipls_partial {p : ℕ} {o o' : SnState} (hfit : o.xCols = some p) (h : SnFailed p o o') :
    (∀ (m q : ℕ) (Xn : Fin m → Fin q → ℝ), o'.predict Xn = o.predict Xn) ∧
      ∀ (m q : ℕ) (Xn : Fin m → Fin q → ℝ), o'.transform Xn = o.transform Xn := by
  have : o' = o := by
    induction h with
    | refl => rfl
    | step pr X y e _ hr ih =>
      rw [sn_raised hr, ih]
      cases o; simp_all
  rw [this]
  exact ⟨fun _ _ _ => rfl, fun _ _ _ => rfl⟩

/-- **C192** (`rm`): the same for robust M regression, whatever the value of `copy` in the refits.
Missing: refits with another number of columns (`C192_rm_violated`). -/
theorem C192_rm_partial {ext : RmExt} {p : ℕ} {o o' : RmState} (hfit : o.xCols = some p) (h : RmFailed ext p o o')
    (m q : ℕ) (Xn : Fin m → Fin q → ℝ) : o'.predict Xn = o.predict Xn := by
  have : o' = o := by
    induction h with
    | refl => rfl
    | step pr X y e _ hr ih =>
      rw [rm_raised hr, ih]
      cases o; simp_all
  rw [this]

/-- **C192** (`sprm`): predictions are as before after any number of refits on data with `p` columns that
raise.  Missing: refits with another number of columns (`C192_sprm_violated`), scores
(`C192_sprm_transform_violated`), and `start_cutoff_mode='specific'` without `start_X_init='pcapp'`, which raises after
the variables used by `predict` have been replaced. -/
theorem C192_sprm_partial {ext : SprmExt} {p : ℕ} {o o' : SprmState} (hfit : o.xCols = some p)
    (h : SprmFailed ext p o o') (m q : ℕ) (Xn : Fin m → Fin q → ℝ) : o'.predict Xn = o.predict Xn := by
  have : o'.xCols = o.xCols ∧ o'.keep = o.keep ∧ o'.model = o.model := by
    induction h with
    | refl => exact ⟨rfl, rfl, rfl⟩
    | step pr X y e _ hsp hr ih =>
      obtain ⟨h1, h2, h3⟩ := sprm_raised hsp hr
      refine ⟨?_, h2.trans ih.2.1, h3.trans ih.2.2⟩
      rw [h1, ih.1, hfit]; simp
  unfold SprmState.predict
  rw [this.1, this.2.1, this.2.2]

/-! ### What a refit with another number of columns does -/

/-- **C192** (`snipls`, part of the violation): after a refit that raises, on data with another number of columns than
the model was trained with, `predict` and `transform` raise for every input, also for the training data. -/
theorem C192_snipls_lost {n p : ℕ} {pr pr' : SnParams} {o : SnState} {X : Fin n → Fin p → ℝ} {y : Fin n → ℝ}
    (hfit : (o.fit pr X y).2 = .done) {n' p' m' : ℕ} {X' : Fin n' → Fin p' → ℝ} {y' : Fin m' → ℝ} {e : Err}
    (hne : p' ≠ p) (hr : ((o.fit pr X y).1.fit pr' X' y').2 = .raised e) (m q : ℕ) (Xn : Fin m → Fin q → ℝ) :
    (∃ e', ((o.fit pr X y).1.fit pr' X' y').1.predict Xn = .error e') ∧
      ∃ e', ((o.fit pr X y).1.fit pr' X' y').1.transform Xn = .error e' := by
  rw [sn_raised hr]
  unfold SnState.fit at hfit ⊢
  dsimp only at hfit ⊢
  simp only [dif_pos trivial] at hfit ⊢
  cases hf : snFit pr X (fun i => y (Fin.cast rfl i)) with
  | error _ => exact absurd hfit (by simp only [Fin.cast_eq_self] at hf; simp [hf])
  | ok f =>
    simp only [hf, SnState.predict, SnState.transform]
    by_cases hq : q = p'
    · have hqp : q ≠ p := fun h => hne (hq.symm.trans h)
      simp only [if_pos hq, SnFit.predict, SnFit.transform, dif_neg hqp]
      exact ⟨⟨_, rfl⟩, ⟨_, rfl⟩⟩
    · simp only [if_neg hq]
      exact ⟨⟨_, rfl⟩, ⟨_, rfl⟩⟩

/-- **C192** (`rm`, part of the violation). -/
theorem C192_rm_lost {ext : RmExt} {n p : ℕ} {pr pr' : RmParams} {o : RmState} {X : Fin n → Fin p → ℝ} {y : Fin n → ℝ}
    (hfit : (o.fit ext pr X y).2 = .done) {n' p' m' : ℕ} {X' : Fin n' → Fin p' → ℝ} {y' : Fin m' → ℝ} {e : Err}
    (hne : p' ≠ p) (hcopy : pr'.copy = true) (hr : ((o.fit ext pr X y).1.fit ext pr' X' y').2 = .raised e)
    (m q : ℕ) (Xn : Fin m → Fin q → ℝ) :
    ∃ e', ((o.fit ext pr X y).1.fit ext pr' X' y').1.predict Xn = .error e' := by
  rw [rm_raised hr, if_pos hcopy]
  unfold RmState.fit at hfit ⊢
  dsimp only at hfit ⊢
  cases hchk : checkProbs pr.fn pr.probp1 pr.probp2 pr.probp3 with
  | error _ => simp [hchk] at hfit
  | ok u =>
    simp only [hchk, dif_pos trivial] at hfit ⊢
    cases hf : rmFit ext pr X (fun i => y (Fin.cast rfl i)) with
    | error _ => exact absurd hfit (by simp only [Fin.cast_eq_self] at hf; simp [hf])
    | ok f =>
      simp only [hf, RmState.predict]
      by_cases hq : q = p'
      · have hqp : q ≠ p := fun h => hne (hq.symm.trans h)
        simp only [if_pos hq, dif_neg hqp]
        exact ⟨_, rfl⟩
      · simp only [if_neg hq]
        exact ⟨_, rfl⟩

/-- A completed `sprm` fit: the attributes of the object. -/
lemma sprm_done {ext : SprmExt} {pr : SprmParams} {o : SprmState} {n p : ℕ} {X : Fin n → Fin p → ℝ} {y : Fin n → ℝ}
    (h : (o.fit ext pr X y).2 = .done) : ∃ f, (sprmFit ext pr X y).2 = .ok f ∧
      (o.fit ext pr X y).1 = ⟨if pr.copy then some p else o.xCols, some ⟨p, pr.centre.run X, (pr.scale.resolve X).opt.run X⟩,
        some ((keepVars ((pr.scale.resolve X).opt.run X)).map Fin.val), some ⟨n, p, f⟩⟩ := by
  unfold SprmState.fit at h ⊢
  dsimp only at h ⊢
  cases hchk : sprmCheck pr n p with
  | error e' => simp [hchk] at h
  | ok u =>
    simp only [hchk, dif_pos trivial] at h ⊢
    split_ifs at h ⊢ with hk hs hc hc
    all_goals first
      | (simp at h; done)
      | (cases hf : (sprmFit ext pr X fun i => y (Fin.cast rfl i)).2 with
        | error _ => exact absurd h (by simp only [Fin.cast_eq_self] at hf; simp [hf])
        | ok f => exact ⟨f, hf, by simp [hc]⟩)

lemma sprm_keep_eq {ext : SprmExt} {pr : SprmParams} {n p : ℕ} {X : Fin n → Fin p → ℝ} {y : Fin n → ℝ}
    {f : SprmFit n p} (h : (sprmFit ext pr X y).2 = .ok f) :
    f.keep = keepVars ((pr.scale.resolve X).opt.run X) ∧ f.xLoc = pr.centre.run X ∧
      f.xSca = (pr.scale.resolve X).opt.run X ∧ (f.trainCols = if pr.copy then some p else none) := by
  unfold sprmFit at h
  split at h
  · simp at h
  · dsimp only at h
    split_ifs at h
    split at h
    · simp at h
    · split at h
      · simp at h
      · split at h
        · simp at h
        · split at h
          · simp at h
          · simp at h
          · unfold sprmFinish at h
            split at h
            · simp at h
            · simp only [Except.ok.injEq] at h
              subst h
              exact ⟨rfl, rfl, rfl, rfl⟩

/-- After a completed fit with `copy` the object predicts and transforms as the fitted model does. -/
lemma sprm_state_predict {ext : SprmExt} {pr : SprmParams} {o : SprmState} {n p : ℕ} {X : Fin n → Fin p → ℝ}
    {y : Fin n → ℝ} {f : SprmFit n p} (hcopy : pr.copy = true) (hf : (sprmFit ext pr X y).2 = .ok f)
    (h : (o.fit ext pr X y).2 = .done) {m : ℕ} (Xn : Fin m → Fin p → ℝ) :
    (o.fit ext pr X y).1.predict Xn = f.predict Xn ∧
      (o.fit ext pr X y).1.transform Xn = (f.transform Xn).map fun T => ⟨_, T⟩ := by
  obtain ⟨g, hg, ho⟩ := sprm_done h
  have hgf : g = f := by rw [hf] at hg; exact (Except.ok.inj hg).symm
  subst hgf
  obtain ⟨e1, e2, e3, e4⟩ := sprm_keep_eq hf
  rw [ho, ← e1, ← e2, ← e3]
  have hlt : ¬ ∃ k ∈ g.keep.map Fin.val, ¬ k < p := by
    rintro ⟨k, hk, hkp⟩
    obtain ⟨j, _, rfl⟩ := List.mem_map.1 hk
    exact hkp j.2
  have hp : ∀ a : Fin (g.keep.map Fin.val).length, (g.keep.map Fin.val).get a < p := fun a =>
    by simp
  have hlen : (g.keep.map Fin.val).length = g.keep.length := by simp
  have htk : ∀ (i : Fin m) (a : Fin (g.keep.map Fin.val).length),
      takeCols Xn (g.keep.map Fin.val) i a = Xn i (g.keep.get (Fin.cast hlen a)) := by
    intro i a
    simp only [takeCols, dif_pos (hp a)]
    congr 1
    apply Fin.ext
    simp
  constructor
  · simp only [SprmState.predict, hcopy, if_true, ne_eq, not_true_eq_false, if_false, if_neg hlt, dif_pos hlen,
      SprmFit.predict, e4, dif_pos trivial, Except.ok.injEq]
    funext i
    congr 1
    refine Fintype.sum_equiv (finCongr hlen) _ _ fun a => ?_
    rw [htk]; rfl
  · simp only [SprmState.transform, hcopy, if_true, ne_eq, not_true_eq_false, if_false, if_neg hlt, dif_pos hlen, dif_pos hp,
      SprmFit.transform, e4, dif_pos trivial, Except.map]
    refine congrArg Except.ok (congrArg (Sigma.mk _) (congrArg (· * g.inner.R) ?_))
    ext i a
    simp only [Matrix.of_apply, scaleMat, htk, selCols]
    simp

/-- **C192** (`sprm`, part of the violation): after a refit with `copy` that raises, on data with another number of
columns, `predict` and `transform` raise for all data with the number of columns of the
training data. -/
theorem C192_sprm_lost {ext : SprmExt} {n p : ℕ} {pr pr' : SprmParams} {o : SprmState} {X : Fin n → Fin p → ℝ}
    {y : Fin n → ℝ} (_hfit : (o.fit ext pr X y).2 = .done) {n' p' m' : ℕ} {X' : Fin n' → Fin p' → ℝ} {y' : Fin m' → ℝ}
    {e : Err} (hne : p' ≠ p) (hcopy : pr'.copy = true) (hsp : pr'.specific = true → pr'.pcapp = true)
    (hr : ((o.fit ext pr X y).1.fit ext pr' X' y').2 = .raised e) (m : ℕ) (Xn : Fin m → Fin p → ℝ) :
    ((o.fit ext pr X y).1.fit ext pr' X' y').1.predict Xn = .error .valueError ∧
      ((o.fit ext pr X y).1.fit ext pr' X' y').1.transform Xn = .error .valueError := by
  have h := (sprm_raised hsp hr).1
  rw [if_pos hcopy] at h
  simp only [SprmState.predict, SprmState.transform, h, if_pos hne.symm, ne_eq]
  simp [hne.symm]

/-! ### Witnesses -/

lemma sn_ex_done : (SnState.new.fit ⟨0, 1, .mean, .noneOpt⟩ spXs spYs).2 = .done := by
  obtain ⟨g, c, hg, _⟩ := sp_snfit
  simp only [SnState.fit, dif_pos trivial, Fin.cast_eq_self]
  rw [hg]

/-- **C192** is false for `snipls` when the refit has another number of columns: a model that predicts
its training data raises `ValueError` for them after a failed refit on two columns with a
response of the wrong length. -/
theorem C192_snipls_violated : ∃ (o : SnState) (X' : Fin 3 → Fin 2 → ℝ) (y' : Fin 2 → ℝ) (yhat : Fin 3 → ℝ),
    o = (SnState.new.fit ⟨0, 1, .mean, .noneOpt⟩ spXs spYs).1 ∧ o.predict spXs = .ok yhat ∧
      (o.fit ⟨0, 1, .mean, .noneOpt⟩ X' y').2 = .raised .valueError ∧
      ∃ e, (o.fit ⟨0, 1, .mean, .noneOpt⟩ X' y').1.predict spXs = .error e := by
  obtain ⟨g, c, hg, _⟩ := sp_snfit
  have hr : ((SnState.new.fit ⟨0, 1, .mean, .noneOpt⟩ spXs spYs).1.fit ⟨0, 1, .mean, .noneOpt⟩ (fun (_ : Fin 3) (_ : Fin 2) => (0 : ℝ))
      (fun _ : Fin 2 => 0)).2 = .raised .valueError := by
    simp [SnState.fit]
  refine ⟨_, fun _ _ => 0, fun _ => 0, fun i => (∑ j : Fin 1, spXs i j * g.coef j) + g.intercept, rfl, ?_, hr,
    (C192_snipls_lost sn_ex_done (by decide) hr 3 1 spXs).1⟩
  simp only [SnState.fit, dif_pos trivial, Fin.cast_eq_self]
  rw [hg]
  simp [SnState.predict, SnFit.predict]

lemma rm_ex_done : ∃ f, rmFit rmExt0 (rmPr true) rmX rmY = .ok f ∧ (RmState.new.fit rmExt0 (rmPr true) rmX rmY).2 = .done ∧
    (RmState.new.fit rmExt0 (rmPr true) rmX rmY).1 = ⟨some 1, some ⟨3, 1, f⟩⟩ := by
  obtain ⟨f, hf⟩ : ∃ f, rmFit rmExt0 (rmPr true) rmX rmY = .ok f := by
    obtain ⟨f, hf, -⟩ := rmExFit rmExt0 rmExt0_lstsq (by simp only [rmExt0]; norm_num) (by simp only [rmExt0]; norm_num) true
    exact ⟨f, hf⟩
  have hchk : checkProbs (rmPr true).fn (rmPr true).probp1 (rmPr true).probp2 (rmPr true).probp3 = .ok () := by
    unfold checkProbs rmPr; norm_num
  refine ⟨f, hf, ?_⟩
  simp only [RmState.fit, hchk, dif_pos trivial, Fin.cast_eq_self]
  rw [hf]
  simp [rmPr]

/-- **C192** is false for `rm` when the refit has another number of columns. -/
theorem C192_rm_violated : ∃ (o : RmState) (X' : Fin 3 → Fin 2 → ℝ) (y' : Fin 2 → ℝ) (yhat : Fin 3 → ℝ),
    o = (RmState.new.fit rmExt0 (rmPr true) rmX rmY).1 ∧ o.predict rmX = .ok yhat ∧
      (o.fit rmExt0 (rmPr true) X' y').2 = .raised .other ∧
      ∃ e, (o.fit rmExt0 (rmPr true) X' y').1.predict rmX = .error e := by
  obtain ⟨f, hf, hd, ho⟩ := rm_ex_done
  have hchk : checkProbs (rmPr true).fn (rmPr true).probp1 (rmPr true).probp2 (rmPr true).probp3 = .ok () := by
    unfold checkProbs rmPr; norm_num
  have hr : ((RmState.new.fit rmExt0 (rmPr true) rmX rmY).1.fit rmExt0 (rmPr true) (fun (_ : Fin 3) (_ : Fin 2) => (0 : ℝ))
      (fun _ : Fin 2 => 0)).2 = .raised .other := by
    simp only [RmState.fit, hchk, dif_neg (show ¬ (2 = 3) by decide)]
  refine ⟨_, fun _ _ => 0, fun _ => 0, fun i => (∑ j : Fin 1, rmX i j * f.coef j) + f.intercept, rfl, ?_, hr,
    C192_rm_lost hd (by decide) rfl hr 3 1 rmX⟩
  rw [ho]
  simp [RmState.predict]

lemma sp_chk (c : Bool) : sprmCheck (spPr c) 3 1 = .ok () := by
  unfold sprmCheck checkProbs spPr; norm_num

lemma sp_ex_done {f : SprmFit 3 1} (hf : (sprmFit spExt0 (spPr true) spX rmY).2 = .ok f) :
    (SprmState.new.fit spExt0 (spPr true) spX rmY).2 = .done := by
  have hk : ¬ (spPr true).nComponents > (keepVars (((spPr true).scale.resolve spX).opt.run spX)).length := by
    intro hk
    have : (sprmFit spExt0 (spPr true) spX rmY).2 = .error .other := by
      unfold sprmFit
      simp only [sp_chk]
      rw [if_pos hk]
    rw [this] at hf; cases hf
  have hns : ¬ ((spPr true).specific = true ∧ (spPr true).pcapp = false) := by simp [spPr]
  simp only [SprmState.fit, sp_chk, dif_pos trivial, if_neg hk, if_neg hns, Fin.cast_eq_self]
  rw [hf]

/-- **C192** is false for `sprm` when the refit has another number of columns. -/
theorem C192_sprm_violated : ∃ (o : SprmState) (X' : Fin 3 → Fin 2 → ℝ) (y' : Fin 2 → ℝ) (yhat : Fin 3 → ℝ),
    o = (SprmState.new.fit spExt0 (spPr true) spX rmY).1 ∧ o.predict spX = .ok yhat ∧
      (o.fit spExt0 (spPr true) X' y').2 = .raised .other ∧
      (o.fit spExt0 (spPr true) X' y').1.predict spX = .error .valueError := by
  obtain ⟨f, hf⟩ := spExFit spExt0 (by simp only [spExt0, rmExt0]; norm_num) true
  have hd := sp_ex_done hf
  have hchk : sprmCheck (spPr true) 3 2 = .ok () := by
    unfold sprmCheck checkProbs spPr; norm_num
  have hr : ((SprmState.new.fit spExt0 (spPr true) spX rmY).1.fit spExt0 (spPr true) (fun (_ : Fin 3) (_ : Fin 2) => (0 : ℝ))
      (fun _ : Fin 2 => 0)).2 = .raised .other := by
    simp only [SprmState.fit, hchk, dif_neg (show ¬ (2 = 3) by decide)]
  refine ⟨_, fun _ _ => 0, fun _ => 0, f.fitted, rfl, ?_, hr,
    (C192_sprm_lost hd (by decide) rfl (by simp [spPr]) hr 3 spX).1⟩
  rw [(sprm_state_predict rfl hf hd spX).1]
  exact (C49_sprm_predict_partial _ _ _ _ _ hf rfl).1

/-- **C192** is false for the scores of `sprm` even when nothing but the data change: a refit on the same number of
columns with constant values raises, but the locations and scales used by `transform` have
been replaced, and the scores of the same new data are silently different. -/
theorem C192_sprm_transform_violated : ∃ (o : SprmState) (X' : Fin 3 → Fin 1 → ℝ) (y' : Fin 3 → ℝ)
    (Xn : Fin 1 → Fin 1 → ℝ) (h : ℕ) (T T' : Matrix (Fin 1) (Fin h) ℝ),
    o = (SprmState.new.fit spExt0 (spPr true) spX rmY).1 ∧ o.transform Xn = .ok ⟨h, T⟩ ∧
      (o.fit spExt0 (spPr true) X' y').2 = .raised .other ∧
      (o.fit spExt0 (spPr true) X' y').1.transform Xn = .ok ⟨h, T'⟩ ∧ T' ≠ T := by
  obtain ⟨f, hf, j, a, hR⟩ := spExFitR spExt0 (by simp only [spExt0, rmExt0]; norm_num) true
  have hd := sp_ex_done hf
  obtain ⟨e1, e2, e3, e4⟩ := sprm_keep_eq hf
  have hk1 : f.keep = [0] := e1.trans sp_keep
  have hl1 : f.keep.length = 1 := by rw [hk1]; rfl
  have hloc : f.xLoc = fun _ => 0 := by
    rw [e2]; funext k
    have : k = 0 := Subsingleton.elim _ _
    subst this
    exact sp_medX
  have hmC : Centre.median.run (fun (_ : Fin 3) (_ : Fin 1) => (-1 : ℝ)) = fun _ => -1 := by
    funext k
    exact med_const (by decide) _
  have hsC : ScaleOpt.mad.run (fun (_ : Fin 3) (_ : Fin 1) => (-1 : ℝ)) = fun _ => 0 := by
    funext k
    show Direpack.mad (fun _ : Fin 3 => (-1 : ℝ)) = 0
    rw [rm_mad_eq, med_const (by decide)]
    simp [med_const]
  have hkC : keepVars (fun _ : Fin 1 => (0 : ℝ)) = [] := by
    simp [keepVars]
  have hkgt : (spPr true).nComponents > ((keepVars (fun _ : Fin 1 => (0 : ℝ))).length : ℤ) := by
    rw [hkC]; simp [spPr]
  have hfit' : ∀ o : SprmState, o.fit spExt0 (spPr true) (fun (_ : Fin 3) (_ : Fin 1) => (-1 : ℝ)) (fun _ : Fin 3 => 0) =
      ({ o with xCols := some 1, scal := some ⟨1, fun _ => -1, fun _ => 0⟩ }, .raised .other) := by
    intro o
    have hs' : ((spPr true).scale.resolve (fun (_ : Fin 3) (_ : Fin 1) => (-1 : ℝ))).opt.run
        (fun (_ : Fin 3) (_ : Fin 1) => (-1 : ℝ)) = fun _ => 0 := hsC
    have hc' : (spPr true).centre.run (fun (_ : Fin 3) (_ : Fin 1) => (-1 : ℝ)) = fun _ => -1 := hmC
    simp only [SprmState.fit, sp_chk, dif_pos trivial, hs', hc', if_pos hkgt]
    rfl
  have hT : ∀ Xn : Fin 1 → Fin 1 → ℝ, (SprmState.new.fit spExt0 (spPr true) spX rmY).1.transform Xn =
      .ok ⟨_, Matrix.of (scaleMat (selCols Xn f.keep) (fun a => f.xLoc (f.keep.get a)) (fun a => f.xSca (f.keep.get a))) *
        f.inner.R⟩ := by
    intro Xn
    rw [(sprm_state_predict rfl hf hd Xn).2]
    simp [SprmFit.transform, e4, spPr, Except.map]
  refine ⟨_, fun _ _ => -1, fun _ => 0, fun _ _ => 0, _, _,
    (Matrix.of (fun _ _ => (1 : ℝ)) : Matrix (Fin 1) (Fin f.keep.length) ℝ) * f.inner.R, rfl, hT _, by rw [hfit'], ?_, ?_⟩
  · rw [hfit']
    obtain ⟨g, hg, ho⟩ := sprm_done hd
    have hgf : g = f := by rw [hf] at hg; exact (Except.ok.inj hg).symm
    subst hgf
    rw [ho, ← e1]
    have hkm : ∀ a : Fin (g.keep.map Fin.val).length, (g.keep.map Fin.val).get a < 1 := fun a => by simp
    have hlen : (g.keep.map Fin.val).length = g.keep.length := by simp
    have hlt : ¬ ∃ k ∈ g.keep.map Fin.val, ¬ k < 1 := by
      rintro ⟨k, hk, hkp⟩
      obtain ⟨j, _, rfl⟩ := List.mem_map.1 hk
      exact hkp j.2
    simp only [SprmState.transform, ne_eq, not_true_eq_false, if_false, if_neg hlt, dif_pos hkm, dif_pos hlen]
    refine congrArg Except.ok (congrArg (Sigma.mk _) (congrArg (· * g.inner.R) ?_))
    ext i b
    simp [scaleMat, takeCols]
  · intro hcon
    have h1 := congrFun (congrFun hcon 0) a
    have hz : ∀ b, scaleMat (selCols (fun (_ : Fin 1) (_ : Fin 1) => (0 : ℝ)) f.keep) (fun a => f.xLoc (f.keep.get a))
        (fun a => f.xSca (f.keep.get a)) 0 b = 0 := by
      intro b; simp [scaleMat, selCols, hloc]
    rw [Matrix.mul_apply, Matrix.mul_apply] at h1
    simp only [Matrix.of_apply, hz, zero_mul, Finset.sum_const_zero, one_mul] at h1
    haveI : Subsingleton (Fin f.keep.length) := by rw [hl1]; infer_instance
    rw [Fintype.sum_subsingleton _ j] at h1
    exact hR h1

/-- Non-vacuity of the partial theorems: the example models are followed by refits that raise (a response of the
wrong length), and go on predicting their training data. -/
example : ∃ f : RmFit 3 1, rmFit rmExt0 (rmPr true) rmX rmY = .ok f ∧
    ((RmState.new.fit rmExt0 (rmPr true) rmX rmY).1.fit rmExt0 (rmPr true) rmX (fun _ : Fin 2 => 0)).1.predict rmX =
      .ok f.fitted := by
  obtain ⟨f, hf, hd, ho⟩ := rm_ex_done
  have hchk : checkProbs (rmPr true).fn (rmPr true).probp1 (rmPr true).probp2 (rmPr true).probp3 = .ok () := by
    unfold checkProbs rmPr; norm_num
  have hr : ((RmState.new.fit rmExt0 (rmPr true) rmX rmY).1.fit rmExt0 (rmPr true) rmX
      (fun _ : Fin 2 => 0)).2 = .raised .other := by
    simp only [RmState.fit, hchk, dif_neg (show ¬ (2 = 3) by decide)]
  refine ⟨f, hf, ?_⟩
  rw [C192_rm_partial (p := 1) (by rw [ho]) (.step (rmPr true) rmX _ _ (.refl _) hr), ho]
  have h1 := (C49_rm_predict_partial _ _ _ _ _ hf rfl).1
  cases ht : f.trainCols with
  | none => simp [RmFit.predict, ht] at h1
  | some c => simpa [RmState.predict, RmFit.predict, ht] using h1

example : SnFailed 1 (SnState.new.fit ⟨0, 1, .mean, .noneOpt⟩ spXs spYs).1
    ((SnState.new.fit ⟨0, 1, .mean, .noneOpt⟩ spXs spYs).1.fit ⟨0, 1, .mean, .noneOpt⟩ spXs (fun _ : Fin 2 => 0)).1 ∧
    (SnState.new.fit ⟨0, 1, .mean, .noneOpt⟩ spXs spYs).1.xCols = some 1 := by
  obtain ⟨g, c, hg, _⟩ := sp_snfit
  refine ⟨.step _ spXs _ .valueError (.refl _) (by simp [SnState.fit]), ?_⟩
  simp only [SnState.fit, dif_pos trivial, Fin.cast_eq_self]
  rw [hg]

example : SprmFailed spExt0 1 (SprmState.new.fit spExt0 (spPr true) spX rmY).1
    ((SprmState.new.fit spExt0 (spPr true) spX rmY).1.fit spExt0 (spPr true) spX (fun _ : Fin 2 => 0)).1 ∧
    (SprmState.new.fit spExt0 (spPr true) spX rmY).1.xCols = some 1 := by
  obtain ⟨f, hf⟩ := spExFit spExt0 (by simp only [spExt0, rmExt0]; norm_num) true
  refine ⟨.step _ spX _ .other (.refl _) (by simp [spPr]) ?_, ?_⟩
  · simp only [SprmState.fit, sp_chk, dif_neg (show ¬ (2 = 3) by decide)]
  · obtain ⟨g, _, ho⟩ := sprm_done (sp_ex_done hf)
    rw [ho]; rfl

end Direpack
