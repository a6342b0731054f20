import Verif.ScalerObj
import Verif.Props.Scaler
import Verif.Props.Preproc

/-! C138 and C139: histories of calls of a `VersatileScaler` object. -/

set_option linter.unusedSectionVars false

namespace Direpack

variable {K : Type} [Field K] [LinearOrder K]

namespace Spec

/-- The data that a call fits to, if it does. -/
def fitData : ScalerCall K → Option (NDArray K)
  | .fit X => some X
  | .fitTransform X => some X
  | _ => none

/-- The new estimate, or the old one if estimation failed. -/
def keepOk {S : Type} (r : Except Err S) (old : Option S) : Option S :=
  match r with
  | .ok s => some s
  | .error _ => old

/-- The last data set of a history for which estimation succeeds. -/
def lastFit {S : Type} (est : NDArray K → Except Err S) (cs : List (ScalerCall K)) : Option S :=
  cs.foldl (fun acc c => match fitData c with
    | none => acc
    | some X => keepOk (est X) acc) none

end Spec

variable [FloorSemiring K]

/-- `fit` of the object against the estimation of location and scale. -/
lemma ScalerObj.fit_spec (c : LocOpt K) (s : ScaOpt K) (sq : K → K) (t : K) (o : ScalerObj K) (X : NDArray K) :
    (∃ sc, Scaler.fit c s sq t X = .ok sc ∧ o.fit c s sq t X = ({ o with center := some sc.center, scale := some sc.scale }, .ok ())) ∨
    (∃ e, Scaler.fit c s sq t X = .error e ∧ (o.fit c s sq t X).2 = .error e ∧ (o.fit c s sq t X).1.scale = o.scale ∧
      (o.fit c s sq t X).1.datas = o.datas ∧ (o.fit c s sq t X).1.datans = o.datans ∧
      ((o.fit c s sq t X).1.center = o.center ∨ ∃ x n p m, checkInput X = .ok x ∧ x.shape = [n, p] ∧ c.run t x n p = .ok m ∧ s.run sq t x n p = .error e ∧
        (o.fit c s sq t X).1.center = some m)) := by
  unfold ScalerObj.fit Scaler.fit
  cases h1 : checkInput X with
  | error e => exact .inr ⟨e, rfl, rfl, rfl, rfl, rfl, .inl rfl⟩
  | ok x =>
    cases h2 : checkTrimming t with
    | error e => exact .inr ⟨e, rfl, rfl, rfl, rfl, rfl, .inl rfl⟩
    | ok u =>
      obtain ⟨shape, data⟩ := x
      match shape with
      | [] => exact .inr ⟨.valueError, rfl, rfl, rfl, rfl, rfl, .inl rfl⟩
      | [_] => exact .inr ⟨.valueError, rfl, rfl, rfl, rfl, rfl, .inl rfl⟩
      | _ :: _ :: _ :: _ => exact .inr ⟨.valueError, rfl, rfl, rfl, rfl, rfl, .inl rfl⟩
      | [n, p] =>
        simp only [bind, Except.bind]
        cases h3 : c.run t ⟨[n, p], data⟩ n p with
        | error e => exact .inr ⟨e, rfl, rfl, rfl, rfl, rfl, .inl rfl⟩
        | ok m =>
          simp only
          cases h4 : s.run sq t ⟨[n, p], data⟩ n p with
          | error e => exact .inr ⟨e, rfl, rfl, rfl, rfl, rfl, .inr ⟨_, n, p, m, rfl, rfl, h3, h4, rfl⟩⟩
          | ok v => exact .inl ⟨⟨m, v⟩, rfl, rfl⟩

/-- Location and scale after a call of `transform`, `predict` or `inverse_transform` are as before. -/
lemma ScalerObj.transform_state (o : ScalerObj K) (X : NDArray K) : (o.transform X).1.center = o.center ∧ (o.transform X).1.scale = o.scale := by
  unfold ScalerObj.transform; split <;> exact ⟨rfl, rfl⟩

lemma ScalerObj.predict_state (o : ScalerObj K) (X : NDArray K) :
    (o.predict X).1.center = o.center ∧ (o.predict X).1.scale = o.scale ∧ (o.predict X).1.datas = o.datas := by
  unfold ScalerObj.predict; split <;> exact ⟨rfl, rfl, rfl⟩

/-- C138 (partial: the scale can be estimated wherever the location can): after any history of calls, including calls that raised, the object holds the location and
scale of the last data set it was fitted to successfully, and nothing if there is none. -/
theorem C138_last_fit_partial (c : LocOpt K) (s : ScaOpt K) (sq : K → K) (t : K) (cs : List (ScalerCall K))
    (hs : ∀ X ∈ cs.filterMap Spec.fitData, ∀ x n p m e, checkInput X = .ok x → x.shape = [n, p] → c.run t x n p = .ok m → s.run sq t x n p ≠ .error e) :
    (ScalerObj.new.run c s sq t cs).center = (Spec.lastFit (Scaler.fit c s sq t) cs).map Scaler.center ∧
    (ScalerObj.new.run c s sq t cs).scale = (Spec.lastFit (Scaler.fit c s sq t) cs).map Scaler.scale := by
  induction cs using List.reverseRecOn with
  | nil => exact ⟨rfl, rfl⟩
  | append_singleton cs x ih =>
    have ih' := ih fun X hX => hs X (by rw [List.filterMap_append]; exact List.mem_append_left _ hX)
    unfold ScalerObj.run Spec.lastFit at ih' ⊢
    rw [List.foldl_append, List.foldl_append]
    simp only [List.foldl_cons, List.foldl_nil]
    generalize List.foldl (fun o x => (ScalerObj.call c s sq t o x).1) ScalerObj.new cs = o at ih' ⊢
    generalize List.foldl _ none cs = l at ih' ⊢
    have key : ∀ X, X ∈ (cs ++ [x]).filterMap Spec.fitData →
        (o.fit c s sq t X).1.center = (Spec.keepOk (Scaler.fit c s sq t X) l).map Scaler.center ∧
        (o.fit c s sq t X).1.scale = (Spec.keepOk (Scaler.fit c s sq t X) l).map Scaler.scale := by
      intro X hX
      rcases ScalerObj.fit_spec c s sq t o X with ⟨sc, h1, h2⟩ | ⟨e, h1, h2, h3, -, -, h4⟩
      · rw [h1, h2]; exact ⟨rfl, rfl⟩
      · rw [h1]
        rcases h4 with h4 | ⟨x, n, p, m, k1, k2, k3, k4, -⟩
        · rw [h3, h4]; exact ih'
        · exact absurd k4 (hs X hX x n p m e k1 k2 k3)
    cases x with
    | fit X => exact key X (by simp [Spec.fitData])
    | transform X =>
      obtain ⟨h1, h2⟩ := o.transform_state X
      simp only [ScalerObj.call, Spec.fitData]
      rw [h1, h2]; exact ih'
    | predict X =>
      obtain ⟨h1, h2, -⟩ := o.predict_state X
      simp only [ScalerObj.call, Spec.fitData]
      rw [h1, h2]; exact ih'
    | inverse X => exact ih'
    | fitTransform X =>
      have := key X (by simp [Spec.fitData])
      simp only [ScalerObj.call, Spec.fitData]
      split
      · exact this
      · simp only
        obtain ⟨h1, h2⟩ := (o.fit c s sq t X).1.transform_state X
        rw [h1, h2]; exact this

lemma mapE_ok2 {α β γ : Type} {f : α → Except Err β} {g : α → Except Err γ} (h : ∀ a b, f a = .ok b → ∃ c, g a = .ok c) :
    ∀ (l : List α) {m}, mapE f l = .ok m → ∃ v, mapE g l = .ok v
  | [], _, _ => ⟨[], rfl⟩
  | a :: l, m, hm => by
    simp only [mapE] at hm ⊢
    cases h1 : f a with
    | error e => rw [h1] at hm; simp at hm
    | ok b =>
      obtain ⟨c, hc⟩ := h a b h1
      rw [h1] at hm
      simp only at hm
      cases h2 : mapE f l with
      | error e => rw [h2] at hm; simp at hm
      | ok bs =>
        obtain ⟨v, hv⟩ := mapE_ok2 h l h2
        rw [hc, hv]
        exact ⟨_, rfl⟩

lemma stdT_of_meanT [IsStrictOrderedRing K] {sq : K → K} {t : K} {l : List K} {m : K} (h : meanT t l = .ok m) : ∃ v, stdT sq t l = .ok v := by
  unfold meanT at h
  unfold stdT
  by_cases ht : t = 0
  · rw [if_pos ht]; exact ⟨_, rfl⟩
  · rw [if_neg ht] at h ⊢
    rw [h]
    simp only
    have h1 : meanT t l = .ok m := by unfold meanT; rw [if_neg ht]; exact h
    have h2 : ∃ v, meanT t (l.map fun v => (v - m) ^ 2) = .ok v := by
      rw [C11_trim_defined_iff _ _ ht]
      have := (C11_trim_defined_iff l t ht).mp ⟨m, h1⟩
      simpa using this
    obtain ⟨v, hv⟩ := h2
    unfold meanT at hv
    rw [if_neg ht] at hv
    rw [hv]
    exact ⟨_, rfl⟩

/-- C138 for the pairs of estimators of which the second does not fail if the first succeeds: the default `'mean'` and `'std'`, and any location with `'mad'` or
`'None'`. -/
theorem C138_last_fit [IsStrictOrderedRing K] (c : LocOpt K) (s : ScaOpt K) (sq : K → K) (t : K) (cs : List (ScalerCall K))
    (hs : s = .mad ∨ s = .noneOpt ∨ (c = .mean ∧ s = .std)) :
    (ScalerObj.new.run c s sq t cs).center = (Spec.lastFit (Scaler.fit c s sq t) cs).map Scaler.center ∧
    (ScalerObj.new.run c s sq t cs).scale = (Spec.lastFit (Scaler.fit c s sq t) cs).map Scaler.scale := by
  refine C138_last_fit_partial c s sq t cs fun X _ x n p m e _ _ hm he => ?_
  suffices h : ∃ v, s.run sq t x n p = .ok v by
    obtain ⟨v, hv⟩ := h
    rw [hv] at he
    simp at he
  rcases hs with rfl | rfl | ⟨rfl, rfl⟩
  · have : ∀ l : List ℕ, ∃ v, mapE (fun j => (.ok (madL (x.col n p j)) : Except Err K)) l = .ok v := by
      intro l
      induction l with
      | nil => exact ⟨[], rfl⟩
      | cons a l ih =>
        obtain ⟨v, hv⟩ := ih
        simp only [mapE, hv]
        exact ⟨_, rfl⟩
    exact this _
  · exact ⟨_, rfl⟩
  · exact mapE_ok2 (fun j b hb => stdT_of_meanT hb) _ hm

/-- C138: with location and scale of one fit, `transform` and `predict` give the same standardised data, that of a scaler fitted to these data. -/
theorem C138_transform (o : ScalerObj K) (sc : Scaler K) (hc : o.center = some sc.center) (hs : o.scale = some sc.scale) (X : NDArray K) :
    (o.transform X).2 = sc.transform X ∧ (o.predict X).2 = sc.transform X := by
  have h : ∀ e, o.apply e X = sc.transform X := by
    intro e
    unfold ScalerObj.apply Scaler.transform
    rw [hc, hs]
    cases checkInput X <;> rfl
  unfold ScalerObj.transform ScalerObj.predict
  rw [h, h]
  cases sc.transform X <;> exact ⟨rfl, rfl⟩

/-- C138 is violated when a refit fails after the location has been computed: with `center='median'`, `scale='std'` and `trimming=0.6`, a scaler fitted to
three cases and then to five raises in the second fit, and afterwards standardises with the location of the second data set and the scale of the first. -/
theorem C138_mixed_violated (sq : ℚ → ℚ) :
    let o := ScalerObj.new.run .median .std sq (3 / 5) [.fit ⟨[3, 1], [0, 2, 5]⟩]
    ∃ v, o.center = some [2] ∧ o.scale = some [v] ∧
      (∃ e, (o.fit .median .std sq (3 / 5) ⟨[5, 1], [10, 20, 30, 40, 50]⟩).2 = .error e) ∧
      (o.fit .median .std sq (3 / 5) ⟨[5, 1], [10, 20, 30, 40, 50]⟩).1.center = some [30] ∧
      (o.fit .median .std sq (3 / 5) ⟨[5, 1], [10, 20, 30, 40, 50]⟩).1.scale = some [v] := by
  have h1 : stdT sq (3 / 5) [0, 2, 5] = .ok (sq 4) := by
    unfold stdT
    have e1 : ofNaN (trimMeanL ([0, 2, 5] : List ℚ) (3 / 5)) = .ok 2 := by decide +kernel
    have e2 : ofNaN (trimMeanL (([0, 2, 5] : List ℚ).map fun v => (v - 2) ^ 2) (3 / 5)) = .ok 4 := by decide +kernel
    rw [if_neg (by norm_num), e1]
    simp only
    rw [e2]
  have h2 : ∃ e, stdT sq (3 / 5) [10, 20, 30, 40, 50] = .error e := by
    unfold stdT
    have e1 : ofNaN (trimMeanL ([10, 20, 30, 40, 50] : List ℚ) (3 / 5)) = .error .valueError := by decide +kernel
    rw [if_neg (by norm_num), e1]
    exact ⟨_, rfl⟩
  obtain ⟨e, h2⟩ := h2
  have ht : checkTrimming (3 / 5 : ℚ) = .ok () := by decide +kernel
  have hA : ∀ o : ScalerObj ℚ, o.fit .median .std sq (3 / 5) ⟨[3, 1], [0, 2, 5]⟩ = ({ o with center := some [2], scale := some [sq 4] }, .ok ()) := by
    intro o
    have hm : LocOpt.median.run (3 / 5 : ℚ) ⟨[3, 1], [0, 2, 5]⟩ 3 1 = .ok [2] := by decide +kernel
    have hsd : ScaOpt.std.run sq (3 / 5 : ℚ) ⟨[3, 1], [0, 2, 5]⟩ 3 1 = .ok [sq 4] := by
      show mapE (fun j => stdT sq (3 / 5) _) [0] = _
      simp only [mapE]
      have : NDArray.col (⟨[3, 1], [0, 2, 5]⟩ : NDArray ℚ) 3 1 0 = [0, 2, 5] := by decide +kernel
      rw [this, h1]
    have hc : checkInput (⟨[3, 1], [0, 2, 5]⟩ : NDArray ℚ) = .ok ⟨[3, 1], [0, 2, 5]⟩ := rfl
    unfold ScalerObj.fit
    rw [hc]
    simp only [ht, hm, hsd]
  have hB : ∀ o : ScalerObj ℚ, o.fit .median .std sq (3 / 5) ⟨[5, 1], [10, 20, 30, 40, 50]⟩ = ({ o with center := some [30] }, .error e) := by
    intro o
    have hm : LocOpt.median.run (3 / 5 : ℚ) ⟨[5, 1], [10, 20, 30, 40, 50]⟩ 5 1 = .ok [30] := by decide +kernel
    have hsd : ScaOpt.std.run sq (3 / 5 : ℚ) ⟨[5, 1], [10, 20, 30, 40, 50]⟩ 5 1 = .error e := by
      show mapE (fun j => stdT sq (3 / 5) _) [0] = _
      simp only [mapE]
      have : NDArray.col (⟨[5, 1], [10, 20, 30, 40, 50]⟩ : NDArray ℚ) 5 1 0 = [10, 20, 30, 40, 50] := by decide +kernel
      rw [this, h2]
    have hc : checkInput (⟨[5, 1], [10, 20, 30, 40, 50]⟩ : NDArray ℚ) = .ok ⟨[5, 1], [10, 20, 30, 40, 50]⟩ := rfl
    unfold ScalerObj.fit
    rw [hc]
    simp only [ht, hm, hsd]
  have ho : ScalerObj.new.run .median .std sq (3 / 5) [.fit ⟨[3, 1], [0, 2, 5]⟩] = ⟨some [2], some [sq 4], none, none⟩ := by
    show (ScalerObj.fit .median .std sq (3 / 5) ScalerObj.new ⟨[3, 1], [0, 2, 5]⟩).1 = _
    rw [hA]
    rfl
  rw [ho]
  refine ⟨sq 4, rfl, rfl, ⟨e, by rw [hB]⟩, by rw [hB], by rw [hB]⟩

/-! ### C139 -/

namespace Spec

/-- Calls that change neither the location and scale nor the data that were transformed last. -/
def ScalerReads : ScalerCall K → Prop
  | .predict _ => True
  | .inverse _ => True
  | _ => False

end Spec

/-- Broadcasting of a table with more than one column does not change its shape. -/
lemma bcast2_shape {op : K → K → K} {n p : ℕ} {x y : NDArray K} {v : List K} (hp : p ≠ 1) (h : bcast2 op n p x v = .ok y) : y.shape = [n, p] := by
  unfold bcast2 at h
  split at h
  · simp only [Except.ok.injEq] at h; subst h; rfl
  · split at h
    · simp only [Except.ok.injEq] at h; subst h; rfl
    · simp at h

/-- What has passed `_check_input` is not a single row of two or more values. -/
lemma checkInput_shape {x y : NDArray K} {n p : ℕ} (h : checkInput x = .ok y) (hs : y.shape = [n, p]) : ¬ (n = 1 ∧ 2 ≤ p) := by
  rintro ⟨rfl, hp⟩
  unfold checkInput at h
  dsimp only at h
  split at h
  · rename_i n' p' _
    split at h
    · split at h
      · simp only [Except.ok.injEq] at h; subst h; simp at hs; omega
      · simp only [Except.ok.injEq] at h; subst h; rename_i h1 _ h2; rw [h1] at hs; simp at hs; omega
    · simp only [Except.ok.injEq] at h; subst h; rename_i h1 h2; rw [h1] at hs; simp at hs; omega
  · simp at h

/-- C139 (partial: no fit in between): after `transform(X)` and any number of calls of `predict` and `inverse_transform`, `inverse_transform()` without an argument is
`np.multiply(T, scale) + loc` with the location and scale of the object and the table `T` that `transform` returned.  So it undoes `transform` whenever
`inverse_transform(T)` does (C09). -/
theorem C139_inverse_partial (c : LocOpt K) (s : ScaOpt K) (sq : K → K) (t : K) (o : ScalerObj K) (X T : NDArray K) (m sc : List K) (hm : o.center = some m)
    (hs : o.scale = some sc) (hT : (o.transform X).2 = .ok T) (cs : List (ScalerCall K)) (hcs : ∀ x ∈ cs, Spec.ScalerReads x) :
    (((o.transform X).1.run c s sq t cs).inverse none) = Scaler.inverse ⟨m, sc⟩ T := by
  have hst : ((o.transform X).1.run c s sq t cs).center = some m ∧ ((o.transform X).1.run c s sq t cs).scale = some sc ∧
      ((o.transform X).1.run c s sq t cs).datas = some T := by
    induction cs using List.reverseRecOn with
    | nil =>
      show (o.transform X).1.center = _ ∧ (o.transform X).1.scale = _ ∧ (o.transform X).1.datas = _
      unfold ScalerObj.transform at hT ⊢
      split at hT
      · simp at hT
      · simp only [Except.ok.injEq] at hT
        subst hT
        exact ⟨hm, hs, rfl⟩
    | append_singleton cs x ih =>
      have ih' := ih fun y hy => hcs y (List.mem_append_left _ hy)
      have hx := hcs x (by simp)
      unfold ScalerObj.run at ih' ⊢
      rw [List.foldl_append]
      simp only [List.foldl_cons, List.foldl_nil]
      generalize List.foldl _ (o.transform X).1 cs = q at ih' ⊢
      cases x with
      | predict Y =>
        obtain ⟨h1, h2, h3⟩ := q.predict_state Y
        simp only [ScalerObj.call]
        rw [h1, h2, h3]; exact ih'
      | inverse Y => exact ih'
      | fit Y => exact absurd hx id
      | transform Y => exact absurd hx id
      | fitTransform Y => exact absurd hx id
  generalize (o.transform X).1.run c s sq t cs = q at hst ⊢
  obtain ⟨h1, h2, h3⟩ := hst
  have hTs : ∃ a b, T.shape = [a, b] ∧ ¬ (a = 1 ∧ 2 ≤ b) := by
    unfold ScalerObj.transform at hT
    split at hT
    · simp at hT
    · rename_i r hr
      simp only [Except.ok.injEq] at hT
      subst hT
      unfold ScalerObj.apply at hr
      rw [hm, hs] at hr
      split at hr
      · simp at hr
      · rename_i x hx
        simp only at hr
        unfold scaleData at hr
        dsimp only at hr
        split at hr
        · rename_i n p hxs
          split at hr
          · split at hr
            · simp only [Except.ok.injEq] at hr; subst hr; exact ⟨_, _, rfl, checkInput_shape hx hxs⟩
            · simp at hr
          · rename_i hp1
            simp only [bind, Except.bind] at hr
            split at hr
            · simp at hr
            · exact ⟨_, _, bcast2_shape hp1 hr, checkInput_shape hx hxs⟩
        · simp at hr
  obtain ⟨a, b, hab, hn⟩ := hTs
  have hchk : checkInput T = .ok T := by
    obtain ⟨sh, d⟩ := T
    simp only at hab
    subst hab
    unfold checkInput
    dsimp only
    split
    · rename_i h; rw [if_neg (by intro h'; exact hn ⟨h, h'⟩)]
    · rfl
  unfold ScalerObj.inverse Scaler.inverse
  rw [h1, h2, h3]
  simp only [hab, hchk, bind, Except.bind]
  cases bcast2 (fun a b => a * b) a b T sc with
  | error e => rfl
  | ok y => rfl

/-- The hypotheses of `C139_inverse_partial` hold for two columns after a fit, with other data transformed and predictions in between, and the result is the data. -/
example (sq : ℚ → ℚ) :
    let o := ScalerObj.new.run .mean .noneOpt sq 0 [.fit ⟨[2, 2], [0, 2, 4, 8]⟩]
    o.center = some [2, 5] ∧ o.scale = some [1, 1] ∧ (o.transform ⟨[3, 2], [1, 2, 3, 4, 5, 6]⟩).2 = .ok ⟨[3, 2], [-1, -3, 1, -1, 3, 1]⟩ ∧
      (((o.transform ⟨[3, 2], [1, 2, 3, 4, 5, 6]⟩).1.run .mean .noneOpt sq 0 [.predict ⟨[2, 2], [7, 7, 7, 8]⟩, .inverse none]).inverse none)
        = .ok ⟨[3, 2], [1, 2, 3, 4, 5, 6]⟩ := by
  have h : ScalerObj.new.run .mean .noneOpt sq 0 [.fit ⟨[2, 2], [0, 2, 4, 8]⟩] = ScalerObj.new.run .mean .noneOpt id 0 [.fit ⟨[2, 2], [0, 2, 4, 8]⟩] := rfl
  have h' : ∀ o : ScalerObj ℚ, o.run .mean .noneOpt sq 0 [.predict ⟨[2, 2], [7, 7, 7, 8]⟩, .inverse none]
      = o.run .mean .noneOpt id 0 [.predict ⟨[2, 2], [7, 7, 7, 8]⟩, .inverse none] := fun _ => rfl
  dsimp only
  rw [h, h']
  decide +kernel

/-- C139 is violated by a fit in between: `inverse_transform()` after `fit(X)`, `transform(X)` and `fit(Y)` uses the old standardised data with the new location and
scale, and gives neither `X` nor `Y`. -/
theorem C139_refit_violated (sq : ℚ → ℚ) :
    (ScalerObj.new.run .mean .noneOpt sq 0 [.fit ⟨[2, 1], [0, 2]⟩, .transform ⟨[2, 1], [0, 2]⟩, .fit ⟨[2, 1], [10, 30]⟩]).inverse none
      = .ok ⟨[2, 1], [19, 21]⟩ := by
  have h : (ScalerObj.new.run .mean .noneOpt sq 0 [.fit ⟨[2, 1], [0, 2]⟩, .transform ⟨[2, 1], [0, 2]⟩, .fit ⟨[2, 1], [10, 30]⟩]).inverse none
      = (ScalerObj.new.run .mean .noneOpt id 0 [.fit ⟨[2, 1], [0, 2]⟩, .transform ⟨[2, 1], [0, 2]⟩, .fit ⟨[2, 1], [10, 30]⟩]).inverse none := rfl
  rw [h]
  decide +kernel

end Direpack
