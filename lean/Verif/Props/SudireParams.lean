import Verif.Props.SudireHist
import Verif.Props.SudireStart

/-! C137: what `fit` of `sudire` does to the parameters of the estimator; and which start value is used (C64). -/

namespace Direpack

open scoped BigOperators
open Spec

variable {n p : ℕ}

/-- C64 (partial: which of the candidates is used): the start value is made of the directions of SAVE with three slices, SIR with six or DR with six, whichever have the
largest distance covariance with the response. -/
theorem C64_best_start_partial {ext : SdExt} {pr : SdParams} {q : SdPre n p} {y : Fin n → ℝ} {v : List ℝ} (h : sdStart ext pr q y = .ok v) :
    ∃ bSave bSir bDr, sdStartMat ext pr .save 3 q y = .ok bSave ∧ sdStartMat ext pr .sir 6 q y = .ok bSir ∧ sdStartMat ext pr .dr 6 q y = .ok bDr ∧
      ∃ B, (B = bSave ∨ B = bSir ∨ B = bDr) ∧ v = vecF B ∧
        ∀ B', B' = bSave ∨ B' = bSir ∨ B' = bDr → ext.dcov2 (matX q.Xs (ext.orth B').2) y ≤ ext.dcov2 (matX q.Xs (ext.orth B).2) y := by
  unfold sdStart at h
  cases h1 : sdStartMat ext pr .save 3 q y with
  | error e => rw [h1] at h; exact absurd h (by simp)
  | ok b1 =>
    cases h2 : sdStartMat ext pr .sir 6 q y with
    | error e => rw [h1, h2] at h; exact absurd h (by simp)
    | ok b2 =>
      cases h3 : sdStartMat ext pr .dr 6 q y with
      | error e => rw [h1, h2, h3] at h; exact absurd h (by simp)
      | ok b3 =>
        rw [h1, h2, h3] at h
        simp only [Except.ok.injEq] at h
        refine ⟨b1, b2, b3, rfl, rfl, rfl, ?_⟩
        split at h
        · rename_i hc
          refine ⟨b1, .inl rfl, h.symm, ?_⟩
          rintro B' (rfl | rfl | rfl)
          · exact le_rfl
          · exact hc.1
          · exact hc.2
        · rename_i hc1
          split at h
          · rename_i hc
            refine ⟨b2, .inr (.inl rfl), h.symm, ?_⟩
            rintro B' (rfl | rfl | rfl)
            · exact hc.1
            · exact le_rfl
            · exact hc.2
          · rename_i hc2
            refine ⟨b3, .inr (.inr rfl), h.symm, ?_⟩
            simp only [ge_iff_le, not_and_or, not_le] at hc1 hc2
            rintro B' (rfl | rfl | rfl)
            · rcases hc1 with h4 | h4
              · rcases hc2 with h5 | h5
                · exact absurd h4 (not_lt.mpr h5.le)
                · exact (h4.trans h5).le
              · exact h4.le
            · rcases hc2 with h5 | h5
              · rcases hc1 with h4 | h4
                · exact absurd h4 (not_lt.mpr h5.le)
                · exact (h5.trans h4).le
              · exact h5.le
            · exact le_rfl

/-- Start values of six cases and two variables. -/
example : ∃ (ext : SdExt) (pr : SdParams) (q : SdPre 6 2) (v : List ℝ), sdStart ext pr q sixY = .ok v := by
  obtain ⟨eigh, he⟩ := exists_eigh
  obtain ⟨v, hv⟩ := exStart he one_ne_zero (q := ⟨sixX 1, 1, fun _ => 0, fun _ => 1, false⟩) rfl
  exact ⟨_, _, _, v, hv⟩

/-! ### C137 -/

/-- C137 (partial: no whitening, and a method that needs no optimisation): `fit` leaves the parameters of the estimator as they are, including the start value,
constraints and arguments of the solver. -/
theorem C137_unchanged_partial {ext : SdExt} {o o' : SdObj} {X : Fin n → Fin p → ℝ} {y : Fin n → ℝ} {f : SdFit n p} (h : o.fit ext X y = .ok (o', f))
    (hw : o.params.whiten = false) :
    o'.params = o.params ∧
      (o.params.meth.direct → o'.state.start = o.state.start ∧ o'.state.cons = o.state.cons ∧ o'.state.args = o.state.args) := by
  obtain ⟨q, L, st', pm, T, hq, hd, -, -, rfl, -⟩ := SdObj.fit_ok h
  have hwp : o.params.whitened = o.params := by unfold SdParams.whitened; simp [hw]
  rw [hwp] at hd
  refine ⟨hwp, fun hm => ?_⟩
  have hs : st' = o.state.setX0 o.params.copy X := by
    unfold SdMeth.direct at hm
    unfold sdDirections at hd
    split at hd
    · split at hd
      · exact absurd hd (by simp)
      · simp only [Except.ok.injEq, Prod.mk.injEq] at hd; exact hd.2.symm
    · split at hd
      · exact absurd hd (by simp)
      · simp only [Except.ok.injEq, Prod.mk.injEq] at hd; exact hd.2.symm
    · split at hd
      · exact absurd hd (by simp)
      · simp only [Except.ok.injEq, Prod.mk.injEq] at hd; exact hd.2.symm
    · rename_i hmm; rw [hmm] at hm; exact absurd hm (by simp)
    · rename_i hmm; rw [hmm] at hm; exact absurd hm (by simp)
  dsimp only
  rw [hs]
  unfold SdState.setX0
  split <;> exact ⟨rfl, rfl, rfl⟩

/-- C137 is violated with whitening: afterwards the estimator has `center_data=True` and `scale_data=False`, whatever they were, also when whitening is switched
off again. -/
theorem C137_whiten_violated {ext : SdExt} {o o' : SdObj} {X : Fin n → Fin p → ℝ} {y : Fin n → ℝ} {f : SdFit n p} (h : o.fit ext X y = .ok (o', f))
    (hw : o.params.whiten = true) (hp : o.params.centerData = false ∨ o.params.scaleData = true) :
    o'.params ≠ o.params ∧ { o'.params with whiten := false } ≠ { o.params with whiten := false } := by
  obtain ⟨q, L, st', pm, T, -, -, -, -, rfl, -⟩ := SdObj.fit_ok h
  have hwp : o.params.whitened = { o.params with centerData := true, scaleData := false } := by unfold SdParams.whitened; rw [if_pos hw]
  rw [hwp]
  constructor
  · intro e
    have e1 := congrArg SdParams.centerData e
    have e2 := congrArg SdParams.scaleData e
    simp only at e1 e2
    rcases hp with h1 | h1
    · rw [h1] at e1; exact absurd e1 (by simp)
    · rw [h1] at e2; exact absurd e2 (by simp)
  · intro e
    have e1 := congrArg SdParams.centerData e
    have e2 := congrArg SdParams.scaleData e
    simp only at e1 e2
    rcases hp with h1 | h1
    · rw [h1] at e1; exact absurd e1 (by simp)
    · rw [h1] at e2; exact absurd e2 (by simp)

/-- C137 is violated by the methods that use optimisation: after a fit of an object made without a start value, constraints and arguments for the solver, these
parameters have values. -/
theorem C137_solver_violated {ext : SdExt} {pr : SdParams} {o' : SdObj} {X : Fin n → Fin p → ℝ} {y : Fin n → ℝ} {f : SdFit n p}
    (h : (SdObj.new pr).fit ext X y = .ok (o', f)) (hm : pr.meth = .dcov) :
    (SdObj.new pr).state.start = none ∧ o'.state.start ≠ none ∧ o'.state.cons ≠ none ∧ o'.state.args ≠ none := by
  obtain ⟨q, L, st', pm, T, hq, hd, -, -, rfl, -⟩ := SdObj.fit_ok h
  have : (SdObj.new pr).params.whitened.meth = .dcov := by rw [← hm]; exact whitened_meth pr
  rw [sdDirections, this] at hd
  obtain ⟨start, cons, args, B, e1, e2, e3, -⟩ := sdOptimise_ok hd
  refine ⟨rfl, ?_, ?_, ?_⟩
  · show st'.start ≠ none; rw [e1]; simp
  · show st'.cons ≠ none; rw [e2]; simp
  · show st'.args ≠ none; rw [e3]; simp

/-- A fit of dcov-sdr without whitening: the settings of the data preparation are kept, the start value is not. -/
example : ∃ (ext : SdExt) (pr : SdParams) (o : SdObj) (f : SdFit 6 2), (SdObj.new pr).fit ext (sixX 1) sixY = .ok (o, f) ∧
    o.params = pr ∧ o.state.start ≠ (SdObj.new pr).state.start := by
  obtain ⟨eigh, he⟩ := exists_eigh
  obtain ⟨o, f, h, -⟩ := exFit he (a := 1) one_ne_zero
  refine ⟨_, _, o, f, h, (C137_unchanged_partial h rfl).1, ?_⟩
  obtain ⟨h1, h2, -⟩ := C137_solver_violated h rfl
  rw [h1]
  exact h2

end Direpack
