import Verif.CapiObj
import Verif.Props.DicomoClass
import Verif.Props.Dicomo2

/-! Property C155: the value of CAPI is a function of the data. -/

namespace Direpack

open scoped BigOperators
open Spec

/-- The co-moment that CAPI asks for, from a `dicomo` object made for it alone. -/
noncomputable def Spec.freshMoment (est : Est) (c : Loc) (a : FitArgs) (x y : DMat) (m : Mode) (i : ℕ) (j : ℤ) : Except Err ℝ :=
  run est m c { a with order := i, option := j.toNat } x y

/-- The estimators for which every co-moment is computed. -/
def Spec.Computes (e : Est) : Prop := e = .arithmetic ∨ e = .distance

lemma capi_setsMoment {e : Est} (he : Computes e) {m : Mode} (h : m = .cov ∨ m = .cos ∨ m = .cok ∨ m = .com) : setsMoment e m = true := by
  rcases he with rfl | rfl <;> rcases h with rfl | rfl | rfl | rfl <;> rfl

/-- The modes do not move the centre. -/
def Spec.KeepsCentre (c : Loc) (m : Mode) : Prop := c = .mean ∨ forcesMean m = false

lemma capiDegreeO_eq {e : Est} (he : Computes e) {c : Loc} (a : FitArgs) (x y : DMat) (i : ℕ) (k : ℤ) {m : Mode} (hm : m = .cov ∨ m = .cos ∨ m = .cok ∨ m = .com)
    (hc : KeepsCentre c m) : ∀ (l : List ℤ) (d : Dicomo) (M : Fin 6 → ℝ), d.est = e → d.mode = m → d.center = c →
      (capiDegreeO a x y i k l d M).2 = capiDegree (freshMoment e c a x y) m i k l M ∧
      (capiDegreeO a x y i k l d M).1.est = e ∧ (capiDegreeO a x y i k l d M).1.center = c
  | [], d, M, h1, _, h3 => ⟨rfl, h1, h3⟩
  | j :: js, d, M, h1, h2, h3 => by
    have hfit : (d.fit (capiArgs1 a i j y) x).2 = freshMoment e c a x y m i j := by
      unfold freshMoment run
      refine fit_result _ _ _ _ h1 h2 ?_ (Or.inl ?_)
      · simp [h2, h3]
      · rw [h1, h2]; exact capi_setsMoment he hm
    have hem := fit_est_mode d (capiArgs1 a i j y) x
    have hce := fit_center d (capiArgs1 a i j y) x
    have hce' : (d.fit (capiArgs1 a i j y) x).1.center = c := by
      rw [hce, h2, h3]
      rcases hc with rfl | h
      · simp
      · simp [h]
    rw [capiDegreeO, capiDegree, hfit]
    cases freshMoment e c a x y m i j with
    | error er => exact ⟨rfl, hem.1.trans h1, hce'⟩
    | ok v =>
      dsimp only
      cases capiStore M ((i : ℤ) - 3 + j + k) v with
      | error er => exact ⟨rfl, hem.1.trans h1, hce'⟩
      | ok M' => exact capiDegreeO_eq he a x y i k hm hc js _ M' (hem.1.trans h1) (hem.2.trans h2) hce'

lemma capiMode_cases {s : Bool} {i : ℕ} {m : Mode} (h : capiMode s i = .ok m) :
    (m = .cov ∨ m = .cos ∨ m = .cok ∨ m = .com) ∧ (s = false → forcesMean m = false) ∧ (i = 2 → forcesMean m = false) := by
  unfold capiMode at h
  rcases s with _ | _
  · simp only [Bool.false_eq_true, if_false] at h
    have : m = .com := by
      rcases hk : i - 2 with _ | _ | _ | k <;> simp [hk] at h <;> exact h.symm
    subst this
    simp [forcesMean]
  · simp only [if_true] at h
    rcases hk : i - 2 with _ | _ | _ | k <;> simp [hk] at h <;> subst h <;> simp [forcesMean] <;> omega

lemma capiLoopO_eq {e : Est} (he : Computes e) {c : Loc} (a : FitArgs) (x y : DMat) (s : Bool) (opts : List ℤ) :
    ∀ (steps i : ℕ) (k : ℤ) (d : Dicomo) (M : Fin 6 → ℝ), (c = .mean ∨ s = false ∨ i + steps ≤ 3) → 2 ≤ i → d.est = e → d.center = c →
      (capiLoopO a x y s opts steps i k d M).2 = capiLoop (freshMoment e c a x y) s opts steps i k M ∧
      (capiLoopO a x y s opts steps i k d M).1.est = e ∧ (capiLoopO a x y s opts steps i k d M).1.center = c
  | 0, _, _, d, M, _, _, h1, h3 => ⟨rfl, h1, h3⟩
  | steps + 1, i, k, d, M, hk, hi, h1, h3 => by
    rw [capiLoopO, capiLoop]
    cases hm : capiMode s i with
    | error er => exact ⟨rfl, h1, h3⟩
    | ok m =>
      dsimp only
      obtain ⟨hm1, hm2, hm3⟩ := capiMode_cases hm
      have hkeep : KeepsCentre c m := by
        rcases hk with h | h | h
        · exact Or.inl h
        · exact Or.inr (hm2 h)
        · exact Or.inr (hm3 (by omega))
      obtain ⟨e1, e2, e3⟩ := capiDegreeO_eq he a x y i k hm1 hkeep (opts.take (min (i - 1) opts.length)) { d with mode := m } M h1 rfl h3
      rw [e1]
      cases capiDegree (freshMoment e c a x y) m i k (opts.take (min (i - 1) opts.length)) M with
      | error er => exact ⟨rfl, e2, e3⟩
      | ok M' =>
        exact capiLoopO_eq he a x y s opts steps (i + 1) _ _ M' (by rcases hk with h | h | h; exacts [Or.inl h, Or.inr (Or.inl h), Or.inr (Or.inr (by omega))]) (by omega) e2 e3

/-- The settings for which the centre is never moved. -/
def Spec.CentreKept (o : CapiObj) : Prop := o.most.center = .mean ∨ o.scaling = false ∨ o.maxDegree ≤ 2

lemma capi_fit_eq {o : CapiObj} (he : Computes o.most.est) (hc : CentreKept o) (a : FitArgs) (x y : DMat) :
    (o.fit a x y).2 = (capiFit (freshMoment o.most.est o.most.center a x y) o.scaling o.options o.maxDegree o.weights).map (·.1) ∧
    (o.fit a x y).1.most.est = o.most.est ∧ (o.fit a x y).1.most.center = o.most.center ∧ (o.fit a x y).1.maxDegree = o.maxDegree ∧
    (o.fit a x y).1.scaling = o.scaling ∧ (o.fit a x y).1.options = o.options ∧ (o.fit a x y).1.weights = o.weights := by
  unfold CapiObj.fit capiFit
  by_cases hd : o.maxDegree < 2
  · rw [if_pos hd, if_pos hd]
    exact ⟨rfl, rfl, rfl, rfl, rfl, rfl, rfl⟩
  · rw [if_neg hd, if_neg hd]
    obtain ⟨h1, h2, h3⟩ := capiLoopO_eq he (c := o.most.center) a x y o.scaling o.options.run (o.maxDegree - 1) 2 0 o.most (fun _ => 0)
      (by rcases hc with h | h | h; exacts [Or.inl h, Or.inr (Or.inl h), Or.inr (Or.inr (by omega))]) le_rfl rfl rfl
    refine ⟨?_, h2, h3, rfl, rfl, rfl, rfl⟩
    dsimp only
    rw [h1]
    cases capiLoop (freshMoment o.most.est o.most.center a x y) o.scaling o.options.run (o.maxDegree - 1) 2 0 (fun _ => 0) with
    | error e => rfl
    | ok m =>
      dsimp only
      by_cases h : o.weights.length = 6
      · rw [dif_pos h, dif_pos h]; rfl
      · rw [dif_neg h, dif_neg h]; rfl

/-- C155 for centring at the mean, for unscaled co-moments and for `max_degree=2`: after whatever fits, the index is the combination (C60) of co-moments each of which is
what a new `dicomo` object gives for the data.  Missing: scaled co-moments with the median (`C155_refit_violated`). -/
theorem C155_value_partial {o : CapiObj} (he : Computes o.most.est) (hc : CentreKept o) (hist : List (FitArgs × DMat × DMat)) (a : FitArgs) (x y : DMat) :
    ((o.after hist).fit a x y).2 = (capiFit (freshMoment o.most.est o.most.center a x y) o.scaling o.options o.maxDegree o.weights).map (·.1) := by
  induction hist generalizing o with
  | nil => exact (capi_fit_eq he hc a x y).1
  | cons h t ih =>
    obtain ⟨-, e1, e2, e3, e4, e5, e6⟩ := capi_fit_eq he hc h.1 h.2.1 h.2.2
    have := ih (o := (o.fit h.1 h.2.1 h.2.2).1) (by rw [e1]; exact he) (by unfold CentreKept at hc ⊢; rw [e2, e3, e4]; exact hc)
    rw [e1, e2, e3, e4, e5, e6] at this
    exact this

/-! ### The median -/

lemma capiDegreeO_center (a : FitArgs) (x y : DMat) (i : ℕ) (k : ℤ) : ∀ (l : List ℤ) (d : Dicomo) (M : Fin 6 → ℝ),
    (capiDegreeO a x y i k l d M).1.est = d.est ∧ (capiDegreeO a x y i k l d M).1.center = if forcesMean d.mode ∧ l ≠ [] then .mean else d.center
  | [], d, M => ⟨rfl, by simp [capiDegreeO]⟩
  | j :: js, d, M => by
    have hem := fit_est_mode d (capiArgs1 a i j y) x
    have hce := fit_center d (capiArgs1 a i j y) x
    have hgoal : (d.fit (capiArgs1 a i j y) x).1.center = if forcesMean d.mode ∧ j :: js ≠ [] then .mean else d.center := by
      rw [hce]
      simp
    rw [capiDegreeO]
    cases (d.fit (capiArgs1 a i j y) x).2 with
    | error e => exact ⟨hem.1, hgoal⟩
    | ok v =>
      dsimp only
      cases capiStore M ((i : ℤ) - 3 + j + k) v with
      | error e => exact ⟨hem.1, hgoal⟩
      | ok M' =>
        obtain ⟨h1, h2⟩ := capiDegreeO_center a x y i k js (d.fit (capiArgs1 a i j y) x).1 M'
        refine ⟨h1.trans hem.1, h2.trans ?_⟩
        rw [hem.2, hgoal]
        by_cases hf : forcesMean d.mode = true <;> simp [hf]

lemma capiLoopO_est (a : FitArgs) (x y : DMat) (s : Bool) (opts : List ℤ) : ∀ (steps i : ℕ) (k : ℤ) (d : Dicomo) (M : Fin 6 → ℝ),
    (capiLoopO a x y s opts steps i k d M).1.est = d.est ∧ (d.center = .mean → (capiLoopO a x y s opts steps i k d M).1.center = .mean)
  | 0, _, _, d, M => ⟨rfl, id⟩
  | steps + 1, i, k, d, M => by
    rw [capiLoopO]
    cases capiMode s i with
    | error e => exact ⟨rfl, id⟩
    | ok m =>
      dsimp only
      obtain ⟨h1, h2⟩ := capiDegreeO_center a x y i k (opts.take (min (i - 1) opts.length)) { d with mode := m } M
      have h3 : d.center = .mean → (capiDegreeO a x y i k (opts.take (min (i - 1) opts.length)) { d with mode := m } M).1.center = .mean := by
        intro h
        rw [h2]
        split <;> [rfl; exact h]
      cases (capiDegreeO a x y i k (opts.take (min (i - 1) opts.length)) { d with mode := m } M).2 with
      | error e => exact ⟨h1, h3⟩
      | ok M' =>
        obtain ⟨h4, h5⟩ := capiLoopO_est a x y s opts steps (i + 1) (if i = 3 then k + 1 else k)
          (capiDegreeO a x y i k (opts.take (min (i - 1) opts.length)) { d with mode := m } M).1 M'
        exact ⟨h4.trans h1, fun h => h5 (h3 h)⟩

/-- A fit with scaled co-moments of degree three leaves the centre at the mean. -/
lemma capi_centre_moved {o : CapiObj} {a : FitArgs} {x y : DMat} {v : ℝ} (h3 : 3 ≤ o.maxDegree) (hs : o.scaling = true) (ho : o.options.run ≠ [])
    (h : (o.fit a x y).2 = .ok v) : (o.fit a x y).1.most.est = o.most.est ∧ (o.fit a x y).1.most.center = .mean := by
  obtain ⟨t, ht⟩ : ∃ t, o.maxDegree - 1 = t + 2 := ⟨o.maxDegree - 3, by omega⟩
  unfold CapiObj.fit at h ⊢
  rw [if_neg (by omega)] at h ⊢
  dsimp only at h ⊢
  refine ⟨(capiLoopO_est a x y _ _ _ _ _ _ _).1, ?_⟩
  rw [ht, hs] at h ⊢
  rw [capiLoopO] at h ⊢
  have hm2 : capiMode true 2 = .ok .cov := rfl
  have hm3 : capiMode true 3 = .ok .cos := rfl
  rw [hm2] at h ⊢
  dsimp only at h ⊢
  obtain ⟨l, hl⟩ : ∃ l, l = o.options.run := ⟨_, rfl⟩
  rw [← hl] at h ho ⊢
  generalize hd2 : capiDegreeO a x y 2 0 (l.take (min (2 - 1) l.length)) { o.most with mode := .cov } (fun _ => 0) = r2 at h ⊢
  obtain ⟨d2, m2⟩ := r2
  cases m2 with
  | error e => exact absurd h (by simp)
  | ok m2 =>
    dsimp only at h ⊢
    rw [capiLoopO]
    rw [capiLoopO] at h
    rw [hm3] at h ⊢
    dsimp only at h ⊢
    have hne : l.take (min (3 - 1) l.length) ≠ [] := by
      intro hn
      have := congrArg List.length hn
      rw [List.length_take, List.length_nil] at this
      have hl0 : 0 < l.length := List.length_pos_iff.2 ho
      omega
    generalize hk : (if (2 : ℕ) = 3 then (0 : ℤ) + 1 else 0) = k at h ⊢
    have hc3 := (capiDegreeO_center a x y (2 + 1) k (l.take (min (2 + 1 - 1) l.length)) { d2 with mode := .cos } m2).2
    rw [if_pos ⟨rfl, hne⟩] at hc3
    generalize capiDegreeO a x y (2 + 1) k (l.take (min (2 + 1 - 1) l.length)) { d2 with mode := .cos } m2 = r3 at h hc3 ⊢
    obtain ⟨d3, m3⟩ := r3
    cases m3 with
    | error e => exact absurd h (by simp)
    | ok m3 => exact (capiLoopO_est a x y _ _ _ _ _ _ _).2 hc3

/-- C155 is violated for scaled co-moments of degree three and more with the median as centre: once the object has been fitted, the covariance is the one about the mean, in this
and all later fits, whatever the data. -/
theorem C155_refit_violated {o : CapiObj} (he : Computes o.most.est) (h3 : 3 ≤ o.maxDegree) (hs : o.scaling = true) (ho : o.options.run ≠ []) {a : FitArgs}
    {x y : DMat} {v : ℝ} (h : (o.fit a x y).2 = .ok v) (hist : List (FitArgs × DMat × DMat)) (a' : FitArgs) (x' y' : DMat) :
    (((o.fit a x y).1.after hist).fit a' x' y').2 =
      (capiFit (freshMoment o.most.est .mean a' x' y') o.scaling o.options o.maxDegree o.weights).map (·.1) := by
  obtain ⟨e1, e2⟩ := capi_centre_moved h3 hs ho h
  have := C155_value_partial (o := (o.fit a x y).1) (by rw [e1]; exact he) (Or.inl e2) hist a' x' y'
  rw [e1, e2] at this
  have e3 : (o.fit a x y).1.scaling = o.scaling ∧ (o.fit a x y).1.options = o.options ∧ (o.fit a x y).1.maxDegree = o.maxDegree ∧
      (o.fit a x y).1.weights = o.weights := by
    unfold CapiObj.fit
    split <;> exact ⟨rfl, rfl, rfl, rfl⟩
  rw [e3.1, e3.2.1, e3.2.2.1, e3.2.2.2] at this
  exact this

/-! ### The first fit -/

lemma capiDegreeO_first {e : Est} (he : Computes e) {c : Loc} (a : FitArgs) (x y : DMat) (i : ℕ) (k : ℤ) {m : Mode}
    (hm : m = .cov ∨ m = .cos ∨ m = .cok ∨ m = .com) : ∀ (l : List ℤ) (d : Dicomo) (M : Fin 6 → ℝ), d.est = e → d.mode = m → (forcesMean m = true ∨ d.center = c) →
      (capiDegreeO a x y i k l d M).2 = capiDegree (freshMoment e c a x y) m i k l M
  | [], d, M, _, _, _ => rfl
  | j :: js, d, M, h1, h2, h3 => by
    have hfit : (d.fit (capiArgs1 a i j y) x).2 = freshMoment e c a x y m i j := by
      unfold freshMoment run
      refine fit_result _ _ _ _ h1 h2 ?_ (Or.inl ?_)
      · rcases h3 with h | h
        · simp [h2, h]
        · simp [h2, h]
      · rw [h1, h2]; exact capi_setsMoment he hm
    have hem := fit_est_mode d (capiArgs1 a i j y) x
    have hce := fit_center d (capiArgs1 a i j y) x
    have hnext : forcesMean m = true ∨ (d.fit (capiArgs1 a i j y) x).1.center = c := by
      rcases h3 with h | h
      · exact Or.inl h
      · cases hf : forcesMean m with
        | true => exact Or.inl rfl
        | false => right; rw [hce, h2, hf]; simpa using h
    rw [capiDegreeO, capiDegree, hfit]
    cases freshMoment e c a x y m i j with
    | error er => rfl
    | ok v =>
      dsimp only
      cases capiStore M ((i : ℤ) - 3 + j + k) v with
      | error er => rfl
      | ok M' => exact capiDegreeO_first he a x y i k hm js _ M' (hem.1.trans h1) (hem.2.trans h2) hnext

lemma capiMode_forces {i : ℕ} {m : Mode} (h : capiMode true i = .ok m) (hi : 3 ≤ i) : forcesMean m = true := by
  unfold capiMode at h
  simp only [if_true] at h
  rcases hk : i - 2 with _ | _ | _ | k
  · omega
  all_goals simp [hk] at h
  all_goals subst h; rfl

lemma capiLoopO_first {e : Est} (he : Computes e) {c : Loc} (a : FitArgs) (x y : DMat) (s : Bool) (opts : List ℤ) :
    ∀ (steps i : ℕ) (k : ℤ) (d : Dicomo) (M : Fin 6 → ℝ), (d.center = c ∨ (s = true ∧ 3 ≤ i)) → 2 ≤ i → d.est = e →
      (capiLoopO a x y s opts steps i k d M).2 = capiLoop (freshMoment e c a x y) s opts steps i k M
  | 0, _, _, d, M, _, _, _ => rfl
  | steps + 1, i, k, d, M, hk, hi, h1 => by
    rw [capiLoopO, capiLoop]
    cases hm : capiMode s i with
    | error er => rfl
    | ok m =>
      dsimp only
      obtain ⟨hm1, hm2, hm3⟩ := capiMode_cases hm
      have hk' : forcesMean m = true ∨ d.center = c := by
        rcases hk with h | ⟨rfl, h⟩
        · exact Or.inr h
        · exact Or.inl (capiMode_forces hm h)
      have e1 := capiDegreeO_first (c := c) he a x y i k hm1 (opts.take (min (i - 1) opts.length)) { d with mode := m } M h1 rfl hk'
      obtain ⟨e2, e3⟩ := capiDegreeO_center a x y i k (opts.take (min (i - 1) opts.length)) { d with mode := m } M
      rw [e1]
      cases capiDegree (freshMoment e c a x y) m i k (opts.take (min (i - 1) opts.length)) M with
      | error er => rfl
      | ok M' =>
        refine capiLoopO_first he a x y s opts steps (i + 1) _ _ M' ?_ (by omega) (e2.trans h1)
        cases s with
        | true => exact Or.inr ⟨rfl, by omega⟩
        | false =>
          left
          rw [e3]
          rcases hk with h | ⟨h, _⟩
          · simpa [hm2 rfl] using h
          · cases h

/-- The first fit of an object, whatever its settings, gives the index for the centre that was asked for. -/
theorem C155_first (o : CapiObj) (he : Computes o.most.est) (a : FitArgs) (x y : DMat) :
    (o.fit a x y).2 = (capiFit (freshMoment o.most.est o.most.center a x y) o.scaling o.options o.maxDegree o.weights).map (·.1) := by
  unfold CapiObj.fit capiFit
  by_cases hd : o.maxDegree < 2
  · rw [if_pos hd, if_pos hd]; rfl
  · rw [if_neg hd, if_neg hd]
    have h1 := capiLoopO_first he (c := o.most.center) a x y o.scaling o.options.run (o.maxDegree - 1) 2 0 o.most (fun _ => 0) (Or.inl rfl) le_rfl rfl
    dsimp only
    rw [h1]
    cases capiLoop (freshMoment o.most.est o.most.center a x y) o.scaling o.options.run (o.maxDegree - 1) 2 0 (fun _ => 0) with
    | error e => rfl
    | ok m =>
      dsimp only
      by_cases h : o.weights.length = 6
      · rw [dif_pos h, dif_pos h]; rfl
      · rw [dif_neg h, dif_neg h]; rfl

/-- What the constructor was asked for is what the first fit computes: the estimator and centre of `pi_arguments`, the weights, `scaling`, the options and the degree that were passed. -/
theorem C155_new {est mode center : String} {e : Est} {c : Loc} (h1 : parseEst est = some e) (h2 : parseLoc center = some c) (he : Computes e) {deg : ℕ} {w : List ℝ} {s : Bool} {opt : CapiOptions}
    {o : CapiObj} (h : CapiObj.new deg est mode center w s opt = .ok o) (a : FitArgs) (x y : DMat) :
    (o.fit a x y).2 = (capiFit (freshMoment e c a x y) s opt deg w).map (·.1) := by
  unfold CapiObj.new Dicomo.init at h
  rw [h1, h2] at h
  cases hm : parseMode mode with
  | none => rw [hm] at h; simp at h
  | some m =>
    rw [hm] at h
    dsimp only at h
    by_cases hi : e = .arithmetic ∧ m = .mdd
    · rw [if_pos hi] at h; simp at h
    · rw [if_neg hi] at h
      dsimp only at h
      cases hd : capiInit deg with
      | error _ => rw [hd] at h; simp at h
      | ok _ =>
        rw [hd] at h
        simp only [Except.ok.injEq] at h
        subst h
        exact C155_first _ he a x y

/-! ### A witness -/

/-- `capi(max_degree=3, pi_arguments={'est':'arithmetic','mode':'var','center':'median'}, weights=w)`. -/
noncomputable def exCapi (w : Fin 6 → ℝ) : CapiObj := ⟨⟨.arithmetic, .var, .median, none⟩, 3, true, .all, List.ofFn w⟩

/-- The constructor makes it. -/
example (w : Fin 6 → ℝ) : CapiObj.new 3 "arithmetic" "var" "median" (List.ofFn w) true .all = .ok (exCapi w) := by
  unfold CapiObj.new
  have h : Dicomo.init "arithmetic" "var" "median" = .ok ⟨.arithmetic, .var, .median, none⟩ := rfl
  rw [h]
  rfl

/-- A case of `C155_new`: a constructor call that succeeds. -/
example (w : Fin 6 → ℝ) (a : FitArgs) (x y : DMat) : ∃ o, CapiObj.new 3 "arithmetic" "var" "median" (List.ofFn w) false .all = .ok o ∧
    (o.fit a x y).2 = (capiFit (freshMoment .arithmetic .median a x y) false .all 3 (List.ofFn w)).map (·.1) :=
  ⟨_, rfl, C155_new rfl rfl (Or.inl rfl) (est := "arithmetic") (mode := "var") (center := "median") rfl a x y⟩

lemma capiFit_three {mom : Mode → ℕ → ℤ → Except Err ℝ} (w : Fin 6 → ℝ) {v c1 c2 : ℝ} (h1 : mom .cov 2 1 = .ok v) (h2 : mom .cos 3 1 = .ok c1)
    (h3 : mom .cos 3 2 = .ok c2) : (capiFit mom true .all 3 (List.ofFn w)).map (·.1) = .ok (w 0 * v + w 1 * c1 + w 2 * c2) := by
  have hlen : (List.ofFn w).length = 6 := by simp
  simp [capiFit, capiLoop, capiMode, capiDegree, capiStore, CapiOptions.run, Fin.sum_univ_succ, h1, h2, h3, Except.map]
  ring

lemma trimMom_mean_012 : trimMom .mean (![0, 1, 2] : Fin 3 → ℝ) ![0, 1, 2] 2 0 0 false = .ok (2 / 3) := by
  rw [trimMom_mean0 _ _ _ (le_refl 2), momFactor_false, cmom_self]
  congr 1
  simp [Spec.avg, Fin.sum_univ_three, exps]
  norm_num

lemma trimMom_median_012 : trimMom .median (![0, 1, 2] : Fin 3 → ℝ) ![0, 1, 2] 2 0 0 false = .ok (14826 / 10000) := by
  rw [trimMom_ge2 _ _ _ _ (le_refl 2)]
  simp only [exps, lt_irrefl, if_false]
  have hx : med (![0, 1, 2] : Fin 3 → ℝ) = 1 := med_triple _ (a := 0) (c := 2) (by simp) (by norm_num) (by norm_num)
  congr 1
  unfold momMedian
  rw [if_pos (fun _ => rfl)]
  have : (fun i => (|(![0, 1, 2] : Fin 3 → ℝ) i - med ![0, 1, 2]| ^ 1 * |(![0, 1, 2] : Fin 3 → ℝ) i - med ![0, 1, 2]| ^ 1) ^
      ((1 : ℝ) / (2 : ℕ))) = fun i => |(![0, 1, 2] : Fin 3 → ℝ) i - med ![0, 1, 2]| := by
    funext i
    rw [pow_one, ← sq, Nat.cast_ofNat, ← Real.sqrt_eq_rpow, Real.sqrt_sq (abs_nonneg _)]
  rw [this, hx, med_triple _ (a := 0) (b := 1) (c := 1) _ (by norm_num) (by norm_num)]
  · norm_num
  · simp; norm_num
    exact List.Perm.swap _ _ _

/-- Fitting the object twice to the same data (a column (0,1,2) and the same response) gives two values: their difference is the weight of the covariance times the
difference of the covariances about the median and about the mean. -/
theorem C155_twice_violated (w : Fin 6 → ℝ) (hw : w 0 ≠ 0) : ∃ v1 v2 : ℝ,
    ((exCapi w).fit {} (colMat (![0, 1, 2] : Fin 3 → ℝ)) (colMat (![0, 1, 2] : Fin 3 → ℝ))).2 = .ok v1 ∧
    (((exCapi w).fit {} (colMat (![0, 1, 2] : Fin 3 → ℝ)) (colMat (![0, 1, 2] : Fin 3 → ℝ))).1.fit {} (colMat (![0, 1, 2] : Fin 3 → ℝ))
      (colMat (![0, 1, 2] : Fin 3 → ℝ))).2 = .ok v2 ∧ v1 - v2 = w 0 * (14826 / 10000 - 2 / 3) ∧ v1 ≠ v2 := by
  set x : Fin 3 → ℝ := ![0, 1, 2] with hx
  have he : Computes (exCapi w).most.est := Or.inl rfl
  have hT : TrimOK 3 0 := by unfold TrimOK; norm_num
  have hco : ∀ j : ℕ, ∃ v, ∀ c, run .arithmetic .cos c { order := 3, option := j } (colMat x) (colMat x) = .ok v := by
    intro j
    obtain ⟨co, hco⟩ := trimMom_ok (by norm_num) hT x x 3 (by norm_num) j false
    obtain ⟨v2, h2, h0⟩ := trimMom_var_ok (by norm_num) hT x
    exact ⟨_, fun c => run_co (by norm_num) .cos (Or.inl rfl) c { order := 3, option := j } rfl rfl x x co v2 v2 hco (h2 j) (h2 j) h0 h0⟩
  obtain ⟨c1, h1⟩ := hco 1
  obtain ⟨c2, h2⟩ := hco 2
  have hcov : ∀ c, freshMoment .arithmetic c {} (colMat x) (colMat x) .cov 2 1 = trimMom c x x 2 0 0 false := fun c => run_cov (by norm_num) c _ x x
  have f1 : ((exCapi w).fit {} (colMat x) (colMat x)).2 = .ok (w 0 * (14826 / 10000) + w 1 * c1 + w 2 * c2) := by
    rw [C155_first _ he]
    exact capiFit_three w ((hcov .median).trans trimMom_median_012) (h1 _) (h2 _)
  have f2 := C155_refit_violated he (by exact le_rfl) rfl (by simp [exCapi, CapiOptions.run]) f1 [] {} (colMat x) (colMat x)
  have f3 : (capiFit (freshMoment (exCapi w).most.est .mean {} (colMat x) (colMat x)) (exCapi w).scaling (exCapi w).options (exCapi w).maxDegree (exCapi w).weights).map
      (·.1) = .ok (w 0 * (2 / 3) + w 1 * c1 + w 2 * c2) := capiFit_three w ((hcov .mean).trans trimMom_mean_012) (h1 _) (h2 _)
  refine ⟨_, _, f1, f2.trans f3, by ring, fun h => hw ?_⟩
  linarith

/-- A case of `C155_value_partial`: the mean as centre, an object that has been fitted before. -/
example (w : Fin 6 → ℝ) (hist : List (FitArgs × DMat × DMat)) (a : FitArgs) (x y : DMat) :
    (((CapiObj.mk ⟨.arithmetic, .var, .mean, none⟩ 4 true .all (List.ofFn w)).after hist).fit a x y).2 =
      (capiFit (freshMoment .arithmetic .mean a x y) true .all 4 (List.ofFn w)).map (·.1) :=
  C155_value_partial (o := ⟨⟨.arithmetic, .var, .mean, none⟩, 4, true, .all, List.ofFn w⟩) (Or.inl rfl) (Or.inl rfl) hist a x y

end Direpack
