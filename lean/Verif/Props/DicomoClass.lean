import Verif.Props.DicomoDist

/-!
Properties of the `dicomo` class over sequences of calls.
-/

namespace Direpack

/-- Does a fit with this estimator and mode store a result?  (Internal description used in the proofs.) -/
def setsMoment (est : Est) (m : Mode) : Bool :=
  match est with
  | .arithmetic => decide (m ≠ .mdd ∧ m ≠ .ballcov)
  | .distance => true
  | _ => false

lemma finalStage_some {m : Mode} {inner : Inner} {order : ℕ} {a : FitArgs} {pre : Pre} {o : Option ℝ}
    (h : finalStage m inner order a pre = .ok o) :
    o.isSome = (pre.moment.isSome || decide (inner = .corr ∨ inner = .continuum) || (isCoMode m && a.standardized)) := by
  unfold finalStage at h
  simp only [bind, Except.bind] at h
  have hc' : (isCoMode m && a.standardized) = decide (isCoMode m = true ∧ a.standardized = true) := by
    cases h1 : isCoMode m <;> cases h2 : a.standardized <;> rfl
  rw [hc']
  cases inner <;> simp only [sqrtE] at h <;> (repeat' split at h) <;> simp_all <;> (subst h; simp)

lemma arithXY_moment {n : ℕ} {m : Mode} {inner : Inner} {c : Loc} {order : ℕ} {a : FitArgs} {xm : ℝ} {x y : Fin n → ℝ} {pre : Pre}
    (h : arithXY m inner c order a xm x y = .ok pre) : pre.moment.isSome = decide (inner = .com) := by
  unfold arithXY at h
  simp only [bind, Except.bind] at h
  cases h1 : trimMom c x y order a.trimming (if 2 < order then a.option else 0) a.biascorr with
  | error e => rw [h1] at h; cases h
  | ok co =>
    rw [h1] at h
    simp only at h
    by_cases hi : inner = .com
    · subst hi
      repeat' split at h
      all_goals first | (cases h; done) | (simp only [Except.ok.injEq] at h; subst h; simp) | skip
      all_goals simp_all
      all_goals (subst h; simp)
    · repeat' split at h
      all_goals first | (cases h; done) | (simp only [Except.ok.injEq] at h; subst h; simp [hi]) | skip
      all_goals simp_all
      all_goals (subst h; simp)

lemma arithStage_moment {n p : ℕ} {m : Mode} {inner : Inner} {c : Loc} {order : ℕ} {a : FitArgs} {x : Fin n → Fin p → ℝ} {pre : Pre}
    (h : arithStage m inner c order a x = .ok pre) : pre.moment.isSome = decide (inner = .com ∨ inner = .mom) := by
  unfold arithStage at h
  simp only [bind, Except.bind] at h
  repeat' split at h
  all_goals first | (cases h; done) | skip
  all_goals first | (have := arithXY_moment h; simp_all; done) | (simp only [Except.ok.injEq] at h; subst h; simp_all; done)

lemma fastStage_moment {n p : ℕ} {inner : Inner} {a : FitArgs} {x : Fin n → Fin p → ℝ} {pre : Pre}
    (h : fastStage inner a x = .ok pre) : pre.moment.isSome = true := by
  unfold fastStage at h
  simp only [bind, Except.bind] at h
  repeat' split at h
  all_goals first | (cases h; done) | (simp only [Except.ok.injEq] at h; subst h; rfl)

lemma mddStage_moment {n p : ℕ} {inner : Inner} {c : Loc} {a : FitArgs} {x : Fin n → Fin p → ℝ} {pre : Pre}
    (h : mddStage inner c a x = .ok pre) : pre.moment.isSome = true := by
  unfold mddStage at h
  simp only [bind, Except.bind] at h
  repeat' split at h
  all_goals first | (cases h; done) | (simp only [Except.ok.injEq] at h; subst h; rfl)

set_option maxHeartbeats 2000000 in
lemma naiveStage_moment {n p : ℕ} {m : Mode} {inner : Inner} {c : Loc} {order : ℕ} {a : FitArgs} {x : Fin n → Fin p → ℝ} {pre : Pre}
    (h : naiveStage m inner c order a x = .ok pre) : pre.moment.isSome = decide (inner = .com ∨ inner = .mom) := by
  unfold naiveStage at h
  simp only [bind, Except.bind] at h
  by_cases hi : inner = .com
  · subst hi
    repeat' split at h
    all_goals first | (cases h; done) | (simp only [Except.ok.injEq] at h; subst h; simp_all; done) | skip
    all_goals simp_all
    all_goals (subst h; simp)
  · by_cases hi2 : inner = .mom
    · subst hi2
      repeat' split at h
      all_goals first | (cases h; done) | (simp only [Except.ok.injEq] at h; subst h; simp_all; done) | skip
      all_goals simp_all
    · simp only [hi, hi2, if_false] at h
      repeat' split at h
      all_goals first | (cases h; done) | (simp only [Except.ok.injEq] at h; subst h; simp_all; done) | skip
      all_goals simp_all
      all_goals (subst h; simp)

/-- Whether a fit stores a result depends on estimator and mode only. -/
lemma compute_sets {est : Est} {m : Mode} {c : Loc} {a : FitArgs} {x : DMat} {o : Option ℝ}
    (h : Dicomo.compute est m c a x = .ok o) : o.isSome = setsMoment est m := by
  unfold Dicomo.compute at h
  simp only at h
  split at h
  · cases h
  · split at h
    · cases h
    · rename_i pre hpre
      have hf := finalStage_some h
      rw [hf]
      cases est with
      | arithmetic =>
        have := arithStage_moment hpre
        rw [this]
        cases m <;> simp [setsMoment, modeTable, isCoMode]
      | distance =>
        simp only at hpre
        split at hpre
        · rw [mddStage_moment hpre]; simp [setsMoment]
        · rename_i hnm
          split at hpre
          · rw [fastStage_moment hpre]; simp [setsMoment]
          · rw [naiveStage_moment hpre]
            cases m <;> simp_all [setsMoment, modeTable, isCoMode]
      | sign =>
        simp only at hpre
        split at hpre
        · cases hpre
        · rename_i hnm
          simp only [Except.ok.injEq] at hpre
          subst hpre
          cases m <;> simp_all [setsMoment, modeTable, isCoMode]
      | entropy =>
        simp only at hpre
        split at hpre
        · cases hpre
        · rename_i hnm
          simp only [Except.ok.injEq] at hpre
          subst hpre
          cases m <;> simp_all [setsMoment, modeTable, isCoMode]

/-- The object after a sequence of fits (whatever they returned). -/
noncomputable def afterFits (d : Dicomo) : List (FitArgs × DMat) → Dicomo
  | [] => d
  | (a, x) :: hist => afterFits (d.fit a x).1 hist

lemma fit_est_mode (d : Dicomo) (a : FitArgs) (x : DMat) : (d.fit a x).1.est = d.est ∧ (d.fit a x).1.mode = d.mode := by
  unfold Dicomo.fit
  simp only
  split
  · exact ⟨rfl, rfl⟩
  · exact ⟨rfl, rfl⟩
  · split <;> exact ⟨rfl, rfl⟩

lemma fit_center (d : Dicomo) (a : FitArgs) (x : DMat) :
    (d.fit a x).1.center = if forcesMean d.mode then Loc.mean else d.center := by
  unfold Dicomo.fit
  simp only
  split
  · rfl
  · rfl
  · split <;> rfl

lemma fit_moment_none (d : Dicomo) (a : FitArgs) (x : DMat) (hs : setsMoment d.est d.mode = false) (h : d.moment = none) :
    (d.fit a x).1.moment = none := by
  unfold Dicomo.fit
  simp only
  split
  · exact h
  · rename_i hv
    have := compute_sets hv
    rw [hs] at this
    cases this
  · split <;> assumption

/-- What a fit returns depends on the parameters only, if the mode stores a result or none is stored. -/
lemma fit_result (d d' : Dicomo) (a : FitArgs) (x : DMat) (he : d.est = d'.est) (hm : d.mode = d'.mode)
    (hc : (if forcesMean d.mode then Loc.mean else d.center) = (if forcesMean d'.mode then Loc.mean else d'.center))
    (h : setsMoment d.est d.mode = true ∨ (d.moment = none ∧ d'.moment = none)) : (d.fit a x).2 = (d'.fit a x).2 := by
  unfold Dicomo.fit
  simp only [← he, ← hm] at hc ⊢
  rw [← hc]
  cases hcomp : Dicomo.compute d.est d.mode (if forcesMean d.mode then Loc.mean else d.center) a x with
  | error e => rfl
  | ok o =>
    cases o with
    | some v => rfl
    | none =>
      have := compute_sets hcomp
      rcases h with h | ⟨h1, h2⟩
      · rw [h] at this; cases this
      · simp only [h1, h2]

/-- C40 (partial): whatever fits (successful or not, with whatever data and arguments) an object made by the constructor has
been through, the next fit returns exactly what it would have returned as the first one. -/
theorem C40_refit_partial (est mode center : String) (d : Dicomo) (hd : Dicomo.init est mode center = .ok d)
    (hist : List (FitArgs × DMat)) (a : FitArgs) (x : DMat) : ((afterFits d hist).fit a x).2 = (d.fit a x).2 := by
  have hnone : d.moment = none := by
    unfold Dicomo.init at hd
    split at hd
    · split at hd
      · cases hd
      · simp only [Except.ok.injEq] at hd; subst hd; rfl
    · cases hd
  have key : ∀ (hist : List (FitArgs × DMat)) (e : Dicomo), e.est = d.est → e.mode = d.mode →
      (if forcesMean e.mode then Loc.mean else e.center) = (if forcesMean d.mode then Loc.mean else d.center) →
      (setsMoment d.est d.mode = true ∨ e.moment = none) → ((afterFits e hist).fit a x).2 = (d.fit a x).2 := by
    intro hist
    induction hist with
    | nil =>
      intro e he hm hc hs
      refine fit_result e d a x he hm hc ?_
      rw [he, hm]
      rcases hs with hs | hs
      · exact Or.inl hs
      · exact Or.inr ⟨hs, hnone⟩
    | cons ax hist ih =>
      intro e he hm hc hs
      refine ih _ ((fit_est_mode e _ _).1.trans he) ((fit_est_mode e _ _).2.trans hm) ?_ ?_
      · rw [fit_center, (fit_est_mode e _ _).2]
        rw [hm] at hc ⊢
        by_cases hf : forcesMean d.mode = true
        · simp [hf]
        · simp only [hf] at hc ⊢
          exact hc
      · rcases hs with hs | hs
        · exact Or.inl hs
        · cases hsm : setsMoment d.est d.mode with
          | true => exact Or.inl rfl
          | false =>
            refine Or.inr (fit_moment_none e _ _ ?_ hs)
            rw [he, hm]; exact hsm
  exact key hist d rfl rfl rfl (Or.inr hnone)

/-- C40 (partial): fits leave `est` and `mode` alone, and `center` for every mode except std, skew, kurt, cos, cok, M3. -/
theorem C40_params_partial (d : Dicomo) (a : FitArgs) (x : DMat) :
    (d.fit a x).1.est = d.est ∧ (d.fit a x).1.mode = d.mode ∧
      (d.mode ∉ [Mode.std, .skew, .kurt, .cos, .cok, .m3] → (d.fit a x).1.center = d.center) := by
  refine ⟨(fit_est_mode d a x).1, (fit_est_mode d a x).2, fun h => ?_⟩
  rw [fit_center]
  cases hm : d.mode <;> simp_all [forcesMean]

/-- `set_params(mode=...)` of scikit-learn's `BaseEstimator`, which `dicomo` inherits (`dicomo.py:23`): assigns the attribute. -/
def Dicomo.setMode (d : Dicomo) (m : Mode) : Dicomo := { d with mode := m }

/-- `set_params(est=...)`, as above. -/
def Dicomo.setEst (d : Dicomo) (e : Est) : Dicomo := { d with est := e }

/-- C40 fails: fitting `dicomo(mode='skew', center='median')` changes the parameter `center` to `mean`, on every data set; a
later `set_params(mode='var')` then gives the mean based variance 2/3 of (0,1,2) instead of the median based 1.4826. -/
theorem C40_center_violated :
    (∀ (a : FitArgs) (x : DMat) (e : Est) (o : Option ℝ), ((Dicomo.mk e .skew .median o).fit a x).1.center = .mean) ∧
    ∀ x0 : DMat,
      ((((Dicomo.mk .arithmetic .skew .median none).fit {} x0).1.setMode .var).fit {} (colMat (![0, 1, 2] : Fin 3 → ℝ))).2 =
        .ok (2 / 3) ∧
      (((Dicomo.mk .arithmetic .skew .median none).setMode .var).fit {} (colMat (![0, 1, 2] : Fin 3 → ℝ))).2 =
        .ok (14826 / 10000) := by
  have hnoy : ∀ (c : Loc) (x y : Fin 3 → ℝ) (o : Option ℝ), ((Dicomo.mk .arithmetic .var c o).fit {} (colMat x)).2 =
      trimMom c x x 2 0 0 false := by
    intro c x y o
    unfold Dicomo.fit Dicomo.compute
    simp only [forcesMean, Bool.false_eq_true, if_false, modeTable]
    have h3 : (colMat x).n ≠ 0 := by simp [colMat]
    rw [if_neg h3]
    have e : ∀ r, trimMom c x x 2 ({} : FitArgs).trimming 0 ({} : FitArgs).biascorr = r → arithStage .var .mom c 2 {} (colMat x).e =
        (match r with
          | .error e => .error e
          | .ok v => .ok { moment := some v, xmom := v }) := by
      intro r hr
      unfold arithStage arithX
      simp only [col0_colMat, isStdMode, bind, Except.bind, reduceCtorEq, if_false, if_true, lt_irrefl, or_self, decide_false,
        Bool.false_eq_true]
      have hr' : trimMom (n := (colMat x).n) c x x 2 0 0 false = r := hr
      rw [hr']
      cases r <;> rfl
    rw [e _ rfl]
    change _ = trimMom c x x 2 ({} : FitArgs).trimming 0 ({} : FitArgs).biascorr
    cases trimMom c x x 2 ({} : FitArgs).trimming 0 ({} : FitArgs).biascorr <;> simp [finalStage, isCoMode, bind, Except.bind]
  refine ⟨fun a x e o => fit_center _ _ _, fun x0 => ⟨?_, ?_⟩⟩
  · have hd : ((Dicomo.mk .arithmetic .skew .median none).fit {} x0).1.setMode .var =
        ⟨.arithmetic, .var, .mean, ((Dicomo.mk .arithmetic .skew .median none).fit {} x0).1.moment⟩ := by
      have h1 := fit_est_mode (Dicomo.mk .arithmetic .skew .median none) {} x0
      have h2 := fit_center (Dicomo.mk .arithmetic .skew .median none) {} x0
      unfold Dicomo.setMode
      rw [h1.1, h2]
      rfl
    rw [hd, hnoy _ _ ![0, 1, 2], trimMom_mean0 _ _ _ (le_refl 2), momFactor_false, cmom_self]
    congr 1
    simp [Spec.avg, Fin.sum_univ_three, exps]
    norm_num
  · refine (hnoy _ _ ![0, 1, 2] _).trans ?_
    rw [trimMom_ge2 _ _ _ _ (le_refl 2)]
    simp only [exps, lt_irrefl, if_false]
    have hx : med (![0, 1, 2] : Fin 3 → ℝ) = 1 := med_triple _ (a := 0) (c := 2) (by simp) (by norm_num) (by norm_num)
    congr 1
    unfold momMedian
    rw [if_pos (fun _ => rfl)]
    have : (fun i => (|(![0, 1, 2] : Fin 3 → ℝ) i - med ![0, 1, 2]| ^ 1 * |(![0, 1, 2] : Fin 3 → ℝ) i - med ![0, 1, 2]| ^ 1) ^
        ((1 : ℝ) / (2 : ℕ))) = fun i => |(![0, 1, 2] : Fin 3 → ℝ) i - med ![0, 1, 2]| := by
      funext i
      rw [pow_one, ← sq, Nat.cast_ofNat, ← Real.sqrt_eq_rpow, Real.sqrt_sq (abs_nonneg _)]
    rw [this, hx, med_triple _ (a := 0) (b := 1) (c := 1) _ (by norm_num) (by norm_num)]
    · norm_num
    · simp; norm_num
      exact List.Perm.swap _ _ _

/-! ### C41 -/

/-- The modes listed in the documentation of the class, except `mdc`. -/
def documentedModes : List String :=
  ["mom", "var", "std", "skew", "kurt", "com", "M3", "cov", "cos", "cok", "corr", "continuum", "mdd", "ballcov"]

/-- C41 (partial): the constructor accepts every documented mode except `mdc` with `est='distance'`, and every one but `mdd` with
`est='arithmetic'`; anything outside the lists is rejected. -/
theorem C41_constructor_partial (center : String) (hc : center = "mean" ∨ center = "median") :
    (∀ m ∈ documentedModes, ∃ d, Dicomo.init "distance" m center = .ok d ∧ d.moment = none) ∧
    (∀ m ∈ documentedModes, m ≠ "mdd" → ∃ d, Dicomo.init "arithmetic" m center = .ok d ∧ d.moment = none) ∧
    (∀ est m, m ∉ documentedModes → Dicomo.init est m center = .error .other) ∧
    (∀ est m, est ∉ ["arithmetic", "distance", "sign", "entropy"] → Dicomo.init est m center = .error .other) := by
  have h : ∃ c, parseLoc center = some c := by
    rcases hc with h | h <;> subst h
    · exact ⟨.mean, by simp [parseLoc]⟩
    · exact ⟨.median, by simp [parseLoc]⟩
  obtain ⟨c, hc⟩ := h
  refine ⟨fun m hm => ?_, fun m hm hne => ?_, fun est m hm => ?_, fun est m he => ?_⟩
  · simp only [documentedModes, List.mem_cons, List.not_mem_nil, or_false] at hm
    rcases hm with h | h | h | h | h | h | h | h | h | h | h | h | h | h <;> subst h <;>
      simp [Dicomo.init, parseMode, parseEst, hc]
  · simp only [documentedModes, List.mem_cons, List.not_mem_nil, or_false] at hm
    rcases hm with h | h | h | h | h | h | h | h | h | h | h | h | h | h <;> subst h <;>
      first | (exact absurd rfl hne) | simp [Dicomo.init, parseMode, parseEst, hc]
  · have : parseMode m = none := by
      simp only [documentedModes, List.mem_cons, List.not_mem_nil, or_false, not_or] at hm
      unfold parseMode
      simp [hm]
    simp [Dicomo.init, this]
  · have : parseEst est = none := by
      simp only [List.mem_cons, List.not_mem_nil, or_false, not_or] at he
      unfold parseEst
      simp [he]
    unfold Dicomo.init
    rw [this]
    cases parseMode m <;> rfl

/-- The documented names of the estimators, modes and centres. -/
def Spec.estName : Est → String
  | .arithmetic => "arithmetic"
  | .distance => "distance"
  | .sign => "sign"
  | .entropy => "entropy"

def Spec.modeName : Mode → String
  | .mom => "mom"
  | .var => "var"
  | .std => "std"
  | .skew => "skew"
  | .kurt => "kurt"
  | .com => "com"
  | .cov => "cov"
  | .cok => "cok"
  | .cos => "cos"
  | .corr => "corr"
  | .continuum => "continuum"
  | .m3 => "M3"
  | .mdd => "mdd"
  | .ballcov => "ballcov"

def Spec.locName : Loc → String
  | .mean => "mean"
  | .median => "median"

/-- C41: the constructor returns an object exactly for the names of an estimator, a mode and a centre that go together, and the object has that estimator, mode and
centre. -/
theorem C41_constructor_iff (est mode center : String) (d : Dicomo) :
    Dicomo.init est mode center = .ok d ↔
      est = Spec.estName d.est ∧ mode = Spec.modeName d.mode ∧ center = Spec.locName d.center ∧ d.moment = none ∧ ¬ (d.est = .arithmetic ∧ d.mode = .mdd) := by
  have h1 : ∀ e, parseEst est = some e ↔ est = Spec.estName e := by
    intro e
    unfold parseEst
    constructor
    · intro h
      split_ifs at h <;> first | (cases h; assumption) | cases h
    · intro h
      subst h
      cases e <;> simp [Spec.estName]
  have h2 : ∀ m, parseMode mode = some m ↔ mode = Spec.modeName m := by
    intro m
    constructor
    · intro h
      unfold parseMode at h
      by_cases e0 : mode = "mom"
      · rw [if_pos e0] at h
        cases h
        exact e0
      rw [if_neg e0] at h
      by_cases e1 : mode = "var"
      · rw [if_pos e1] at h
        cases h
        exact e1
      rw [if_neg e1] at h
      by_cases e2 : mode = "std"
      · rw [if_pos e2] at h
        cases h
        exact e2
      rw [if_neg e2] at h
      by_cases e3 : mode = "skew"
      · rw [if_pos e3] at h
        cases h
        exact e3
      rw [if_neg e3] at h
      by_cases e4 : mode = "kurt"
      · rw [if_pos e4] at h
        cases h
        exact e4
      rw [if_neg e4] at h
      by_cases e5 : mode = "com"
      · rw [if_pos e5] at h
        cases h
        exact e5
      rw [if_neg e5] at h
      by_cases e6 : mode = "cov"
      · rw [if_pos e6] at h
        cases h
        exact e6
      rw [if_neg e6] at h
      by_cases e7 : mode = "cok"
      · rw [if_pos e7] at h
        cases h
        exact e7
      rw [if_neg e7] at h
      by_cases e8 : mode = "cos"
      · rw [if_pos e8] at h
        cases h
        exact e8
      rw [if_neg e8] at h
      by_cases e9 : mode = "corr"
      · rw [if_pos e9] at h
        cases h
        exact e9
      rw [if_neg e9] at h
      by_cases e10 : mode = "continuum"
      · rw [if_pos e10] at h
        cases h
        exact e10
      rw [if_neg e10] at h
      by_cases e11 : mode = "M3"
      · rw [if_pos e11] at h
        cases h
        exact e11
      rw [if_neg e11] at h
      by_cases e12 : mode = "mdd"
      · rw [if_pos e12] at h
        cases h
        exact e12
      rw [if_neg e12] at h
      by_cases e13 : mode = "ballcov"
      · rw [if_pos e13] at h
        cases h
        exact e13
      rw [if_neg e13] at h
      cases h
    · intro h
      subst h
      cases m <;> rfl
  have h3 : ∀ c, parseLoc center = some c ↔ center = Spec.locName c := by
    intro c
    unfold parseLoc
    constructor
    · intro h
      split_ifs at h <;> first | (cases h; assumption) | cases h
    · intro h
      subst h
      cases c <;> simp [Spec.locName]
  rw [← h1, ← h2, ← h3]
  obtain ⟨e, m, c, o⟩ := d
  unfold Dicomo.init
  constructor
  · intro h
    split at h
    · rename_i m' e' c' hm he hc
      split_ifs at h with hd
      simp only [Except.ok.injEq, Dicomo.mk.injEq] at h
      obtain ⟨rfl, rfl, rfl, rfl⟩ := h
      exact ⟨he, hm, hc, rfl, hd⟩
    · cases h
  · rintro ⟨he, hm, hc, ho, hd⟩
    simp only at he hm hc ho hd
    rw [he, hm, hc, ho]
    dsimp only
    rw [if_neg hd]

/-- C41: data without cases raise. -/
theorem C41_empty_data (d : Dicomo) (a : FitArgs) (x : DMat) (hx : x.n = 0) : (d.fit a x).2 = .error .other := by
  have : ∀ c, Dicomo.compute d.est d.mode c a x = .error .other := by
    intro c
    unfold Dicomo.compute
    rw [if_pos hx]
  unfold Dicomo.fit
  simp only [this]

/-- The modes that describe two data sets. -/
def Spec.twoData (m : Mode) : Prop := m = .com ∨ m = .cov ∨ m = .cok ∨ m = .cos ∨ m = .corr ∨ m = .continuum ∨ m = .m3 ∨ m = .mdd ∨ m = .ballcov

lemma getY_error {n : ℕ} {y : Option DMat} (hy : ∀ z, y = some z → z.n ≠ n) : ∃ e, getY n y = .error e := by
  unfold getY
  cases y with
  | none => exact ⟨_, rfl⟩
  | some z =>
    dsimp only
    split_ifs with h1 h2
    · exact ⟨_, rfl⟩
    · exact absurd h2 (hy z rfl)
    · exact ⟨_, rfl⟩

lemma bind_error {α β : Type} (r : Except Err α) (k : α → Except Err β) (hk : ∀ v, ∃ e, k v = .error e) : ∃ e, (r >>= k) = .error e := by
  cases r with
  | error e => exact ⟨e, rfl⟩
  | ok v => exact hk v

section
variable {n p : ℕ} (m : Mode) (inner : Inner) (c : Loc) (order : ℕ) (a : FitArgs) (x : Fin n → Fin p → ℝ) {e0 : Err}

lemma arithStage_noY (hin : inner ≠ .mom) (hg : getY n a.y = .error e0) : ∃ e, arithStage m inner c order a x = .error e := by
  unfold arithStage
  by_cases h : inner = .com
  · simp only [h, if_true, hg]
    exact ⟨_, rfl⟩
  · simp only [h, if_false, hg, hin]
    exact bind_error _ _ fun v => ⟨_, rfl⟩

lemma mddStage_noY (hg : getY n a.y = .error e0) : ∃ e, mddStage inner c a x = .error e := by
  unfold mddStage
  rw [hg]
  exact ⟨_, rfl⟩

lemma fastStage_noY (hin : inner ≠ .mom) (hg : getY n a.y = .error e0) : ∃ e, fastStage inner a x = .error e := by
  unfold fastStage
  by_cases h : inner = .com
  · simp only [h, if_true, hg]
    exact ⟨_, rfl⟩
  · simp only [h, if_false, hg, hin]
    exact bind_error _ _ fun v => ⟨_, rfl⟩

lemma naiveStage_noY (hin : inner ≠ .mom) (hg : getY n a.y = .error e0) : ∃ e, naiveStage m inner c order a x = .error e := by
  unfold naiveStage
  refine bind_error _ _ fun dm => ?_
  by_cases h : inner = .com
  · simp only [h, if_true, hg]
    exact ⟨_, rfl⟩
  · simp only [h, if_false, hg, hin]
    refine bind_error _ _ fun v => ?_
    by_cases hs : isStdMode m = true
    · simp only [hs, if_true]
      exact bind_error _ _ fun _ => ⟨_, rfl⟩
    · simp only [hs]
      exact ⟨_, rfl⟩
end

/-- C41: for a mode that describes two data sets, the arithmetic and distance estimators raise if there is no second data set or if it has another number of cases. -/
theorem C41_second_data (d : Dicomo) (he : d.est = .arithmetic ∨ d.est = .distance) (hm : Spec.twoData d.mode) (a : FitArgs) (x : DMat)
    (hy : ∀ z, a.y = some z → z.n ≠ x.n) : ∃ e, (d.fit a x).2 = .error e := by
  suffices H : ∀ c, ∃ e, Dicomo.compute d.est d.mode c a x = .error e by
    obtain ⟨e, h⟩ := H (if forcesMean d.mode then Loc.mean else d.center)
    refine ⟨e, ?_⟩
    unfold Dicomo.fit
    simp only [h]
  intro c
  obtain ⟨e0, hg⟩ := getY_error hy
  have hin : (modeTable d.mode a.order).1 ≠ .mom := by
    rcases hm with h | h | h | h | h | h | h | h | h <;> rw [h] <;> simp [modeTable]
  unfold Dicomo.compute
  dsimp only
  generalize (modeTable d.mode a.order).1 = inner at hin
  generalize (modeTable d.mode a.order).2 = order
  by_cases h0 : x.n = 0
  · rw [if_pos h0]
    exact ⟨_, rfl⟩
  rw [if_neg h0]
  rcases he with h | h
  · rw [h]
    dsimp only
    obtain ⟨e, h1⟩ := arithStage_noY d.mode inner c order a x.e hin hg
    exact ⟨e, by rw [h1]⟩
  · rw [h]
    dsimp only
    by_cases hb : inner = .mdd ∨ inner = .ballcov
    · obtain ⟨e, h1⟩ := mddStage_noY inner c a x.e hg
      exact ⟨e, by rw [if_pos hb, h1]⟩
    · by_cases hf : a.fast ∧ c = .mean ∧ a.trimming = 0 ∧ order = 2
      · obtain ⟨e, h1⟩ := fastStage_noY inner a x.e hin hg
        exact ⟨e, by rw [if_neg hb, if_pos hf, h1]⟩
      · obtain ⟨e, h1⟩ := naiveStage_noY d.mode inner c order a x.e hin hg
        exact ⟨e, by rw [if_neg hb, if_neg hf, h1]⟩

/-- Non-vacuity: a co-kurtosis object exists, and data with another number of cases. -/
example : ∃ d, Dicomo.init "distance" "cok" "mean" = .ok d ∧ Spec.twoData d.mode ∧ d.est = .distance := ⟨_, rfl, by simp [Spec.twoData], rfl⟩

/-- C41 fails: the documented mode `mdc` is rejected by the constructor, whatever the other arguments. -/
theorem C41_mdc_violated (est center : String) : Dicomo.init est "mdc" center = .error .other := by
  simp [Dicomo.init, parseMode]

/-- C41 (partial): for an arithmetic (not mdd, ballcov) or distance estimator a fit that returns a number returns the number
computed from its own data and arguments, and stores it; it never returns an earlier result. -/
theorem C41_no_stale_partial (d : Dicomo) (a : FitArgs) (x : DMat) (v : ℝ)
    (hd : d.est = .distance ∨ (d.est = .arithmetic ∧ d.mode ≠ .mdd ∧ d.mode ≠ .ballcov)) (h : (d.fit a x).2 = .ok v) :
    (d.fit a x).1.moment = some v ∧ ∀ o, ({ d with moment := o }.fit a x).2 = .ok v := by
  have hs : setsMoment d.est d.mode = true := by
    rcases hd with h | ⟨h, h1, h2⟩
    · rw [h]; rfl
    · rw [h]; simp [setsMoment, h1, h2]
  have hall : ∀ o, ({ d with moment := o }.fit a x).2 = .ok v := by
    intro o
    rw [← h]
    exact fit_result _ _ a x rfl rfl rfl (Or.inl hs)
  refine ⟨?_, hall⟩
  unfold Dicomo.fit at h ⊢
  simp only at h ⊢
  cases hcomp : Dicomo.compute d.est d.mode (if forcesMean d.mode then Loc.mean else d.center) a x with
  | error e => rw [hcomp] at h; cases h
  | ok o =>
    rw [hcomp] at h
    cases o with
    | some w => simp only [Except.ok.injEq] at h; subst h; rfl
    | none =>
      have := compute_sets hcomp
      rw [hs] at this; cases this

/-- C41 fails: after an arithmetic fit that stored `v`, `set_params(est='sign')` leads to fits that return `v` for every nonempty data
set, computing nothing. -/
theorem C41_stale_violated (d : Dicomo) (v : ℝ) (hm : d.mode = .mom ∨ d.mode = .var ∨ d.mode = .cov) (hv : d.moment = some v)
    (a : FitArgs) (x : DMat) (hx : x.n ≠ 0) : ((d.setEst .sign).fit a x).2 = .ok v := by
  obtain ⟨e, m, c, o⟩ := d
  simp only at hm hv
  subst hv
  have : ∀ c', Dicomo.compute .sign m c' a x = .ok none := by
    intro c'
    unfold Dicomo.compute
    rcases hm with h | h | h <;> subst h <;>
      simp [hx, modeTable, isCoMode, finalStage, bind, Except.bind]
  unfold Dicomo.fit Dicomo.setEst
  simp only [this]

/-- Such objects exist: a fitted variance. -/
example : ((Dicomo.mk .arithmetic .var .mean none).fit {} (colMat (![0, 1, 2] : Fin 3 → ℝ))).1.moment.isSome = true := by
  have h : ∃ v, ((Dicomo.mk .arithmetic .var .mean none).fit {} (colMat (![0, 1, 2] : Fin 3 → ℝ))).2 = .ok v :=
    ⟨2 / 3, by
      have := (C40_center_violated.2 (colMat (![0, 1, 2] : Fin 3 → ℝ))).1
      rw [← this]
      have h1 := fit_est_mode (Dicomo.mk .arithmetic .skew .median none) {} (colMat (![0, 1, 2] : Fin 3 → ℝ))
      have h2 := fit_center (Dicomo.mk .arithmetic .skew .median none) {} (colMat (![0, 1, 2] : Fin 3 → ℝ))
      refine fit_result _ _ _ _ h1.1.symm rfl ?_ (Or.inl (by simp [setsMoment]))
      simp [Dicomo.setMode, forcesMean, h2]⟩
  obtain ⟨v, hv⟩ := h
  rw [(C41_no_stale_partial _ _ _ v (Or.inr ⟨rfl, by simp, by simp⟩) hv).1]
  rfl

end Direpack
