import Verif.Props.ScalerObj

/-! C138: what the calls of a `VersatileScaler` object return. -/

set_option linter.unusedSectionVars false

namespace Direpack

variable {K : Type} [Field K] [LinearOrder K] [FloorSemiring K]

/-- C138: `fit_transform` returns the data standardised by their own location and scale, or the exception of that, whatever the object did before; the object then
holds this location, scale and result. -/
theorem C138_fit_transform (c : LocOpt K) (s : ScaOpt K) (sq : K → K) (t : K) (o : ScalerObj K) (X : NDArray K) :
    (o.call c s sq t (.fitTransform X)).2 = (Scaler.fitTransform c s sq t X).map some ∧
    ∀ T, Scaler.fitTransform c s sq t X = .ok T → ∃ sc, Scaler.fit c s sq t X = .ok sc ∧
      (o.call c s sq t (.fitTransform X)).1 = ⟨some sc.center, some sc.scale, some T, o.datans⟩ := by
  rcases ScalerObj.fit_spec c s sq t o X with ⟨sc, h1, h2⟩ | ⟨e, h1, h2, -⟩
  · have h3 := (C138_transform ({ o with center := some sc.center, scale := some sc.scale } : ScalerObj K) sc rfl rfl X).1
    have h4 : (o.fit c s sq t X).2 = .ok () := by rw [h2]
    have h5 : (o.fit c s sq t X).1 = { o with center := some sc.center, scale := some sc.scale } := by rw [h2]
    have hT : Scaler.fitTransform c s sq t X = sc.transform X := by
      unfold Scaler.fitTransform; rw [h1]; rfl
    simp only [ScalerObj.call, h4, h5, h3, hT]
    refine ⟨trivial, fun T hT' => ⟨sc, h1, ?_⟩⟩
    rw [hT'] at h3
    unfold ScalerObj.transform at h3 ⊢
    split at h3
    · simp at h3
    · simp only [Except.ok.injEq] at h3
      subst h3
      rfl
  · have hT : Scaler.fitTransform c s sq t X = .error e := by
      unfold Scaler.fitTransform; rw [h1]; rfl
    simp only [ScalerObj.call, h2, hT]
    refine ⟨rfl, fun T hT' => ?_⟩
    simp at hT'

/-- C138: after any history of calls (with the estimators of `C138_last_fit`), `transform` and `predict` return the data standardised by the last successful fit,
`inverse_transform` undoes that standardisation, and all three raise if there was no successful fit. -/
theorem C138_returns [IsStrictOrderedRing K] (c : LocOpt K) (s : ScaOpt K) (sq : K → K) (t : K) (cs : List (ScalerCall K))
    (hs : s = .mad ∨ s = .noneOpt ∨ (c = .mean ∧ s = .std)) (X : NDArray K) :
    let o := ScalerObj.new.run c s sq t cs
    (∀ sc, Spec.lastFit (Scaler.fit c s sq t) cs = some sc →
      (o.call c s sq t (.transform X)).2 = (sc.transform X).map some ∧ (o.call c s sq t (.predict X)).2 = (sc.transform X).map some ∧
      (o.call c s sq t (.inverse (some X))).2 = (sc.inverse X).map some) ∧
    (Spec.lastFit (Scaler.fit c s sq t) cs = none → (∃ e, (o.call c s sq t (.transform X)).2 = .error e) ∧ (∃ e, (o.call c s sq t (.predict X)).2 = .error e) ∧
      ∃ e, (o.call c s sq t (.inverse (some X))).2 = .error e) := by
  intro o
  obtain ⟨h1, h2⟩ := C138_last_fit c s sq t cs hs
  constructor
  · intro sc hsc
    rw [hsc] at h1 h2
    obtain ⟨h3, h4⟩ := C138_transform o sc h1 h2 X
    refine ⟨by simp only [ScalerObj.call, h3], by simp only [ScalerObj.call, h4], ?_⟩
    simp only [ScalerObj.call, ScalerObj.inverse]
    have h1' : o.center = some sc.center := h1
    have h2' : o.scale = some sc.scale := h2
    rw [h1', h2']
  · intro hn
    rw [hn] at h1 h2
    have h1' : o.center = none := h1
    have h2' : o.scale = none := h2
    have ha : ∀ e0, ∃ e, o.apply e0 X = .error e := by
      intro e0
      unfold ScalerObj.apply
      rw [h1', h2']
      cases checkInput X <;> exact ⟨_, rfl⟩
    obtain ⟨e1, he1⟩ := ha .valueError
    obtain ⟨e2, he2⟩ := ha .attributeError
    refine ⟨⟨e1, ?_⟩, ⟨e2, ?_⟩, ⟨.valueError, ?_⟩⟩
    · simp only [ScalerObj.call, ScalerObj.transform, he1]; rfl
    · simp only [ScalerObj.call, ScalerObj.predict, he2]; rfl
    · simp only [ScalerObj.call, ScalerObj.inverse, h1', h2']; rfl

/-- C138: what a call leaves in the object: a table that `transform` or `fit_transform` returned is stored as the last transformed data, and one that `predict` returned as the last
predicted data; every other call leaves both as they were. -/
theorem C138_stored (c : LocOpt K) (s : ScaOpt K) (sq : K → K) (t : K) (o : ScalerObj K) (X T : NDArray K) :
    ((o.call c s sq t (.transform X)).2 = .ok (some T) → (o.call c s sq t (.transform X)).1 = { o with datas := some T }) ∧
    ((o.call c s sq t (.predict X)).2 = .ok (some T) → (o.call c s sq t (.predict X)).1 = { o with datans := some T }) ∧
    (∀ e, (o.call c s sq t (.transform X)).2 = .error e → (o.call c s sq t (.transform X)).1 = o) ∧
    (∀ e, (o.call c s sq t (.predict X)).2 = .error e → (o.call c s sq t (.predict X)).1 = o) ∧
    ((o.call c s sq t (.fit X)).1.datas = o.datas ∧ (o.call c s sq t (.fit X)).1.datans = o.datans) ∧
    ∀ Xs, (o.call c s sq t (.inverse Xs)).1 = o := by
  refine ⟨fun h => ?_, fun h => ?_, fun e h => ?_, fun e h => ?_, ?_, fun Xs => rfl⟩
  · simp only [ScalerObj.call, ScalerObj.transform] at h ⊢
    cases ha : o.apply .valueError X with
    | error e => rw [ha] at h; simp [Except.map] at h
    | ok r => rw [ha] at h; simp only [Except.map, Except.ok.injEq, Option.some.injEq] at h; subst h; rfl
  · simp only [ScalerObj.call, ScalerObj.predict] at h ⊢
    cases ha : o.apply .attributeError X with
    | error e => rw [ha] at h; simp [Except.map] at h
    | ok r => rw [ha] at h; simp only [Except.map, Except.ok.injEq, Option.some.injEq] at h; subst h; rfl
  · simp only [ScalerObj.call, ScalerObj.transform] at h ⊢
    cases ha : o.apply .valueError X with
    | error e => rfl
    | ok r => rw [ha] at h; simp [Except.map] at h
  · simp only [ScalerObj.call, ScalerObj.predict] at h ⊢
    cases ha : o.apply .attributeError X with
    | error e => rfl
    | ok r => rw [ha] at h; simp [Except.map] at h
  · rcases ScalerObj.fit_spec c s sq t o X with ⟨sc, -, h2⟩ | ⟨e, -, -, -, h4, h5, -⟩
    · simp only [ScalerObj.call, h2]; exact ⟨trivial, trivial⟩
    · exact ⟨h4, h5⟩

/-- A history in which the last fit is not the last call: `transform` uses it. -/
example (sq : ℚ → ℚ) : (((ScalerObj.new : ScalerObj ℚ).run .median .noneOpt sq 0 [.fit ⟨[3, 1], [0, 2, 5]⟩, .predict ⟨[3, 1], [7, 7, 7]⟩]).call .median .noneOpt sq 0
    (.transform ⟨[3, 1], [2, 3, 4]⟩)).2 = .ok (some ⟨[3, 1], [0, 1, 2]⟩) := by
  have hfit : Scaler.fit .median .noneOpt sq (0 : ℚ) ⟨[3, 1], [0, 2, 5]⟩ = .ok ⟨[2], [1]⟩ := by
    have hm : LocOpt.median.run (0 : ℚ) ⟨[3, 1], [0, 2, 5]⟩ 3 1 = .ok [2] := by decide +kernel
    have hc : checkInput (⟨[3, 1], [0, 2, 5]⟩ : NDArray ℚ) = .ok ⟨[3, 1], [0, 2, 5]⟩ := rfl
    have ht : checkTrimming (0 : ℚ) = .ok () := by decide +kernel
    unfold Scaler.fit
    rw [hc, ht]
    simp only [bind, Except.bind, hm]
    rfl
  have h := (C138_returns .median .noneOpt sq (0 : ℚ) [.fit ⟨[3, 1], [0, 2, 5]⟩, .predict ⟨[3, 1], [7, 7, 7]⟩] (Or.inr (Or.inl rfl)) ⟨[3, 1], [2, 3, 4]⟩).1 ⟨[2], [1]⟩
    (by simp [Spec.lastFit, Spec.fitData, Spec.keepOk, hfit])
  rw [h.1]
  decide +kernel

end Direpack
