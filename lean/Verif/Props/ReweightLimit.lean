import Verif.Props.ReweightRun
import Verif.Props.CaseWeights

/-! Property C162: the iteration limit of the robust regressions, and the fit that the published case weights belong to. -/

set_option linter.unusedSectionVars false

namespace Direpack

open scoped BigOperators
open Spec

variable {n p : ℕ}

section loop

variable {β : Type} (step : (Fin n → ℝ) → Except Err (β × ℝ × (Fin n → ℝ) × (Fin n → ℝ))) (tol : ℝ)

/-- The outcome of a run under a limit that is higher by one: the same, or that of one more fit with the weights left behind. -/
lemma rwLoop_succ (M : ℤ) (fuel : ℕ) : ∀ (fuel' : ℕ) (loops : ℤ) (rold : ℝ) (go : Prop) (we : Fin n → ℝ) (out res : Option (RwOut β n)), loops ≤ M → M + 1 - loops < fuel' →
    (∀ o, out = some o → o.we = we) → rwLoop step tol M fuel loops rold go we out = some (.ok res) →
    rwLoop step tol (M + 1) fuel' loops rold go we out = some (.ok res) ∨
    (∃ e, step (res.elim we fun o => o.we) = .error e ∧ rwLoop step tol (M + 1) fuel' loops rold go we out = some (.error e)) ∨
    (∃ o' b2, step (res.elim we fun o => o.we) = .ok (o'.b, b2, o'.wye, o'.wte) ∧ rwLoop step tol (M + 1) fuel' loops rold go we out = some (.ok (some o')) ∧
      o'.fits = fitsOf res + 1) := by
  induction fuel with
  | zero => intro fuel' loops rold go we out res _ _ _ h; simp [rwLoop] at h
  | succ fuel ih =>
    intro fuel' loops rold go we out res hl hf ho h
    obtain ⟨fuel', rfl⟩ : ∃ k, fuel' = k + 1 := ⟨fuel' - 1, by omega⟩
    rw [rwLoop] at h ⊢
    by_cases hg : go
    · by_cases hlt : loops < M
      · rw [if_pos ⟨hg, hlt⟩] at h
        rw [if_pos ⟨hg, by omega⟩]
        cases hs : step we with
        | error e => rw [hs] at h; simp at h
        | ok t =>
          obtain ⟨b, b2, wye, wte⟩ := t
          rw [hs] at h
          simp only at h ⊢
          split at h
          · rename_i hhalf
            rw [if_pos hhalf]
            exact Or.inl h
          · rename_i hhalf
            rw [if_neg hhalf]
            have hfit := (rwLoop_fits step tol M fuel _ _ _ _ _ _ h).2.1
            obtain ⟨o, rfl⟩ : ∃ o, res = some o := by
              cases res with
              | none => simp [fitsOf] at hfit
              | some o => exact ⟨o, rfl⟩
            exact ih fuel' _ _ _ _ _ _ (by omega) (by push_cast at hf ⊢; omega) (fun o ho => by cases ho; rfl) h
      · have hM : loops = M := by omega
        subst hM
        rw [if_neg (fun hc => hlt hc.2)] at h
        simp only [Option.some.injEq, Except.ok.injEq] at h
        subst h
        rw [if_pos ⟨hg, by omega⟩]
        have hw : (out.elim we fun o => o.we) = we := by
          cases out with
          | none => rfl
          | some o => exact ho o rfl
        rw [hw]
        right
        cases hs : step we with
        | error e => exact Or.inl ⟨e, rfl, rfl⟩
        | ok t =>
          obtain ⟨b, b2, wye, wte⟩ := t
          refine Or.inr ⟨⟨b, fun i => if wye i * wte i < wMin then wMin else wye i * wte i, wye, wte, Finset.univ.filter fun i => wye i * wte i < wMin,
            (out.elim 0 fun o => o.fits) + 1⟩, b2, rfl, ?_, rfl⟩
          · simp only
            split
            · rfl
            · obtain ⟨k, rfl⟩ : ∃ k, fuel' = k + 1 := ⟨fuel' - 1, by omega⟩
              rw [rwLoop, if_neg (fun hc => by have := hc.2; omega)]
    · rw [if_neg (fun hc => hg hc.1)] at h
      rw [if_neg (fun hc => hg hc.1)]
      exact Or.inl h

/-- A run that ends before its limit ends in the same way under every limit that admits as many fits. -/
lemma rwLoop_limit (M : ℤ) (fuel : ℕ) : ∀ (M' : ℤ) (fuel' : ℕ) (loops : ℤ) (rold : ℝ) (go : Prop) (we : Fin n → ℝ) (out res : Option (RwOut β n)), M' - loops < fuel' → 0 < fuel' →
    rwLoop step tol M fuel loops rold go we out = some (.ok res) → (fitsOf res : ℤ) < fitsOf out + (M - loops) → (fitsOf res : ℤ) ≤ fitsOf out + (M' - loops) →
    rwLoop step tol M' fuel' loops rold go we out = some (.ok res) := by
  induction fuel with
  | zero => intro M' fuel' loops rold go we out res _ _ h; simp [rwLoop] at h
  | succ fuel ih =>
    intro M' fuel' loops rold go we out res hf hf0 h h1 h2
    obtain ⟨fuel', rfl⟩ : ∃ k, fuel' = k + 1 := ⟨fuel' - 1, by omega⟩
    rw [rwLoop] at h ⊢
    by_cases hg : go
    · by_cases hlt : loops < M
      · rw [if_pos ⟨hg, hlt⟩] at h
        cases hs : step we with
        | error e => rw [hs] at h; simp at h
        | ok t =>
          obtain ⟨b, b2, wye, wte⟩ := t
          rw [hs] at h
          simp only at h
          split at h
          · rename_i hhalf
            simp only [Option.some.injEq, Except.ok.injEq] at h
            subst h
            have : loops < M' := by
              have e : fitsOf (some (⟨b, fun i => if wye i * wte i < wMin then wMin else wye i * wte i, wye, wte, Finset.univ.filter fun i => wye i * wte i < wMin,
                (out.elim 0 fun o => o.fits) + 1⟩ : RwOut β n)) = fitsOf out + 1 := rfl
              rw [e] at h2
              push_cast at h2
              omega
            rw [if_pos ⟨hg, this⟩]
            simp only
            rw [if_pos hhalf]
          · rename_i hhalf
            have hfit := (rwLoop_fits step tol M fuel _ _ _ _ _ _ h).2.1
            have e : fitsOf (some (⟨b, fun i => if wye i * wte i < wMin then wMin else wye i * wte i, wye, wte, Finset.univ.filter fun i => wye i * wte i < wMin,
                (out.elim 0 fun o => o.fits) + 1⟩ : RwOut β n)) = fitsOf out + 1 := rfl
            rw [e] at hfit
            rw [if_pos ⟨hg, by omega⟩]
            simp only
            rw [if_neg hhalf]
            refine ih M' fuel' _ _ _ _ _ _ (by push_cast at hf ⊢; omega) ?_ h ?_ ?_
            · push_cast at hf; omega
            · rw [e]; push_cast; omega
            · rw [e]; push_cast; omega
      · exfalso
        rw [if_neg (fun hc => hlt hc.2)] at h
        simp only [Option.some.injEq, Except.ok.injEq] at h
        subst h
        omega
    · rw [if_neg (fun hc => hg hc.1)] at h
      rw [if_neg (fun hc => hg hc.1)]
      exact h

/-- A run that reaches its end also does so under a lower limit. -/
lemma rwLoop_lower (M : ℤ) (fuel : ℕ) : ∀ (M' : ℤ) (fuel' : ℕ) (loops : ℤ) (rold : ℝ) (go : Prop) (we : Fin n → ℝ) (out res : Option (RwOut β n)), M' ≤ M → M' - loops < fuel' → 0 < fuel' →
    rwLoop step tol M fuel loops rold go we out = some (.ok res) → ∃ res', rwLoop step tol M' fuel' loops rold go we out = some (.ok res') := by
  induction fuel with
  | zero => intro M' fuel' loops rold go we out res _ _ _ h; simp [rwLoop] at h
  | succ fuel ih =>
    intro M' fuel' loops rold go we out res hM hf hf0 h
    obtain ⟨fuel', rfl⟩ : ∃ k, fuel' = k + 1 := ⟨fuel' - 1, by omega⟩
    rw [rwLoop] at h ⊢
    by_cases hg : go ∧ loops < M'
    · rw [if_pos hg]
      rw [if_pos ⟨hg.1, by omega⟩] at h
      cases hs : step we with
      | error e => rw [hs] at h; simp at h
      | ok t =>
        obtain ⟨b, b2, wye, wte⟩ := t
        rw [hs] at h
        simp only at h ⊢
        split at h
        · rename_i hhalf
          rw [if_pos hhalf]
          exact ⟨_, rfl⟩
        · rename_i hhalf
          rw [if_neg hhalf]
          exact ih M' fuel' _ _ _ _ _ _ hM (by push_cast at hf ⊢; omega) (by push_cast at hf; omega) h
    · rw [if_neg hg]
      exact ⟨_, rfl⟩

end loop

/-! ### RM -/

/-- What the end of a fit makes of the outcome of the loop. -/
noncomputable def afterLoop {β φ : Type} (fin : Option (RwOut β n) → Except Err φ) : Option (Except Err (Option (RwOut β n))) → Except Err φ
  | none => .error .other
  | some (.error e) => .error e
  | some (.ok o) => fin o

/-- The limit enters a fit only through the loop. -/
lemma rmFit_loop (ext : RmExt) (pr : RmParams) (X : Fin n → Fin p → ℝ) (y : Fin n → ℝ) {f : RmFit n p} (h : rmFit ext pr X y = .ok f) :
    ∃ (wx we : Fin n → ℝ) (fin : Option (RwOut (Fin p → ℝ) n) → Except Err (RmFit n p)),
      (∀ m, rmFit ext { pr with maxit := m } X y = afterLoop fin (rwLoop (rmStep ext pr.fn (cutY ext pr.probp1 pr.probp2 pr.probp3) (stdMat X f.xLoc f.xSca)
        (stdVec y f.yLoc f.ySca) wx) pr.tol m (m.toNat + 1) 1 (1 / 100000) (pr.tol < 1) we none)) ∧
      (∀ i, wMin ≤ we i) ∧ fin none = .error .unboundLocal ∧
      ∀ o, ∃ g, fin (some o) = .ok g ∧ g.coefScaled = o.b ∧ g.caseweights = zeroOut o.we o.w0 ∧ g.fits = o.fits := by
  have hinv := rmFit_inv h
  obtain ⟨-, hmX, hsX, hmy, hsy, hs, dx, dy, o, hdx, hdy, hl, -, -, -, hi, -⟩ := hinv
  have hy : stdVec y f.yLoc f.ySca = fun i => scaleMat (asCol y) (pr.centre.run (asCol y)) (pr.scale.run (asCol y)) i 0 := by
    rw [hmy, hsy, scaleMat_eq]; rfl
  have hX : stdMat X f.xLoc f.xSca = scaleMat X (pr.centre.run X) (pr.scale.run X) := by
    rw [hmX, hsX, scaleMat_eq]
  rw [hX] at hdx
  rw [hy] at hdy
  rw [hX, hy]
  have hc : checkProbs pr.fn pr.probp1 pr.probp2 pr.probp3 = .ok () := by
    unfold rmFit at h
    split at h
    · simp at h
    · rename_i u hu; exact hu
  refine ⟨pr.fn.run dx (cutX ext pr.specific p pr.probp1 pr.probp2 pr.probp3), clipW fun i => pr.fn.run dx (cutX ext pr.specific p pr.probp1 pr.probp2 pr.probp3) i *
    pr.fn.run dy (cutY ext pr.probp1 pr.probp2 pr.probp3) i,
    rmFinish pr X y (scaleMat X (pr.centre.run X) (pr.scale.run X)) (fun i => scaleMat (asCol y) (pr.centre.run (asCol y)) (pr.scale.run (asCol y)) i 0)
      (pr.fn.run dx (cutX ext pr.specific p pr.probp1 pr.probp2 pr.probp3)) (pr.centre.run X) (pr.scale.run X) (pr.centre.run (asCol y) 0) (pr.scale.run (asCol y) 0),
    fun m => ?_, fun i => clip_ge _ i, rfl, fun o' => ?_⟩
  · unfold rmFit
    dsimp only
    rw [hc]
    dsimp only
    rw [hdx]
    dsimp only
    rw [hdy]
    dsimp only
    cases rwLoop (rmStep ext pr.fn (cutY ext pr.probp1 pr.probp2 pr.probp3) (scaleMat X (pr.centre.run X) (pr.scale.run X))
        (fun i => scaleMat (asCol y) (pr.centre.run (asCol y)) (pr.scale.run (asCol y)) i 0) (pr.fn.run dx (cutX ext pr.specific p pr.probp1 pr.probp2 pr.probp3))) pr.tol m
        (m.toNat + 1) 1 (1 / 100000) (pr.tol < 1) (clipW fun i => pr.fn.run dx (cutX ext pr.specific p pr.probp1 pr.probp2 pr.probp3) i *
        pr.fn.run dy (cutY ext pr.probp1 pr.probp2 pr.probp3) i) none with
    | none => rfl
    | some r =>
      cases r with
      | error e => rfl
      | ok o => rfl
  · unfold rmFinish
    dsimp only
    rw [if_neg (by push Not; rw [← hsX]; exact hs)]
    have hcs : pr.scale.isNone = true → pr.centre.isMean = true := by
      intro h1
      unfold rmIntercepts at hi
      rw [if_pos h1] at hi
      by_contra h2
      rw [if_neg h2] at hi
      simp at hi
    have hint : ∀ b i1, ∃ r, rmIntercepts pr.centre pr.scale X y (scaleMat X (pr.centre.run X) (pr.scale.run X))
        (fun i => scaleMat (asCol y) (pr.centre.run (asCol y)) (pr.scale.run (asCol y)) i 0) b i1 = .ok r := by
      intro b i1
      unfold rmIntercepts
      dsimp only
      split
      · rename_i h1
        rw [if_pos (hcs h1)]
        exact ⟨_, rfl⟩
      · exact ⟨_, rfl⟩
    obtain ⟨⟨r1, r2⟩, hr⟩ := hint o'.b (rmIntercept pr.centre fun i => y i - ∑ j, X i j * (pr.scale.run (asCol y) 0 / pr.scale.run X j * o'.b j))
    rw [hr]
    exact ⟨_, rfl, rfl, rfl, rfl⟩

/-- The weights of a fit, from the published ones. -/
lemma raised_zeroOut {β : Type} {step : (Fin n → ℝ) → Except Err (β × ℝ × (Fin n → ℝ) × (Fin n → ℝ))} {o : RwOut β n} (hp : Pass step o) : raised (zeroOut o.we o.w0) = o.we := by
  funext i
  unfold raised zeroOut
  split
  · rename_i hi
    rw [hp.we i, if_pos ((hp.w0 i).mp hi)]
    exact max_eq_right (by norm_num)
  · rename_i hi
    have hi' : ¬ o.wye i * o.wte i < wMin := fun hc => hi ((hp.w0 i).mpr hc)
    rw [hp.we i, if_neg hi']
    exact max_eq_left (not_lt.mp hi')

/-- C162 (partial): raising the iteration limit by one either leaves the model as it is, or gives the coefficients of the weighted least squares fit for the case weights published under the
lower limit.  Missing: the case weights that are published with coefficients need not be the ones of their fit (`C162_rm_violated`). -/
theorem C162_rm_partial (ext : RmExt) (pr : RmParams) (k : ℤ) (X : Fin n → Fin p → ℝ) (y : Fin n → ℝ) (f g : RmFit n p) (hf : rmFit ext { pr with maxit := k } X y = .ok f)
    (hg : rmFit ext { pr with maxit := k + 1 } X y = .ok g) :
    g = f ∨ (g.fits = f.fits + 1 ∧ g.coefScaled = ext.lstsq (fun i j => stdMat X f.xLoc f.xSca i j * Real.sqrt (max (f.caseweights i) (1 / 1000000)))
      (fun i => stdVec y f.yLoc f.ySca i * Real.sqrt (max (f.caseweights i) (1 / 1000000)))) := by
  obtain ⟨wx, we, fin, hm, hwe, hnone, hfin⟩ := rmFit_loop ext { pr with maxit := k } X y hf
  dsimp only at hm
  rw [hm k] at hf
  rw [hm (k + 1)] at hg
  cases hr : rwLoop (rmStep ext pr.fn (cutY ext pr.probp1 pr.probp2 pr.probp3) (stdMat X f.xLoc f.xSca) (stdVec y f.yLoc f.ySca) wx) pr.tol k (k.toNat + 1) 1 (1 / 100000)
      (pr.tol < 1) we none with
  | none => rw [hr] at hf; simp [afterLoop] at hf
  | some r =>
    cases r with
    | error e => rw [hr] at hf; simp [afterLoop] at hf
    | ok res =>
      cases res with
      | none => rw [hr] at hf; rw [show afterLoop fin (some (.ok none)) = fin none from rfl, hnone] at hf; simp at hf
      | some o =>
        rw [hr] at hf
        have hk : 1 ≤ k := by
          by_contra hc
          rw [rwLoop, if_neg (fun hh => by have := hh.2; omega)] at hr
          simp at hr
        have hp := rwLoop_pass _ _ _ _ _ _ _ _ _ _ hwe (fun o h => by simp at h) hr o rfl
        obtain ⟨f', hf', hfb, hfw, hff⟩ := hfin o
        have hff' : f' = f := by
          have : fin (some o) = .ok f := hf
          rw [hf'] at this
          exact Except.ok.inj this
        subst hff'
        rcases rwLoop_succ _ _ k _ ((k + 1).toNat + 1) _ _ _ _ _ _ hk (by have := Int.self_le_toNat (k + 1); push_cast; omega) (fun o h => by simp at h) hr with h | ⟨e, -, h⟩ | ⟨o', b2, hs, h, hfit⟩
        · left
          rw [h] at hg
          have : fin (some o) = .ok g := hg
          rw [hf'] at this
          exact (Except.ok.inj this).symm
        · rw [h] at hg
          simp [afterLoop] at hg
        · right
          rw [h] at hg
          obtain ⟨g', hg', hgb, hgw, hgf⟩ := hfin o'
          have : g' = g := by
            have : fin (some o') = .ok g := hg
            rw [hg'] at this
            exact Except.ok.inj this
          subst this
          refine ⟨by rw [hgf, hfit, hff]; rfl, ?_⟩
          have hw : (fun i => max (f'.caseweights i) (1 / 1000000)) = o.we := by
            rw [hfw]; exact raised_zeroOut hp
          have hw' : ∀ i, max (f'.caseweights i) (1 / 1000000) = o.we i := fun i => congrFun hw i
          simp only [hw']
          unfold rmStep at hs
          dsimp only [Option.elim] at hs
          split at hs
          · simp at hs
          · simp only [Except.ok.injEq, Prod.mk.injEq] at hs
            rw [hgb, ← hs.1]
            rfl

/-- C162: a fit that ends before the limit is the fit under every limit that admits as many weighted fits. -/
theorem C162_rm_limit (ext : RmExt) (pr : RmParams) (k k' : ℤ) (X : Fin n → Fin p → ℝ) (y : Fin n → ℝ) (f : RmFit n p) (hf : rmFit ext { pr with maxit := k } X y = .ok f)
    (h1 : (f.fits : ℤ) + 1 < k) (h2 : (f.fits : ℤ) + 1 ≤ k') : rmFit ext { pr with maxit := k' } X y = .ok f := by
  obtain ⟨wx, we, fin, hm, hwe, hnone, hfin⟩ := rmFit_loop ext { pr with maxit := k } X y hf
  dsimp only at hm
  rw [hm k] at hf
  rw [hm k']
  cases hr : rwLoop (rmStep ext pr.fn (cutY ext pr.probp1 pr.probp2 pr.probp3) (stdMat X f.xLoc f.xSca) (stdVec y f.yLoc f.ySca) wx) pr.tol k (k.toNat + 1) 1 (1 / 100000)
      (pr.tol < 1) we none with
  | none => rw [hr] at hf; simp [afterLoop] at hf
  | some r =>
    cases r with
    | error e => rw [hr] at hf; simp [afterLoop] at hf
    | ok res =>
      cases res with
      | none => rw [hr] at hf; rw [show afterLoop fin (some (.ok none)) = fin none from rfl, hnone] at hf; simp at hf
      | some o =>
        rw [hr] at hf
        obtain ⟨f', hf', -, -, hff⟩ := hfin o
        have hff' : f' = f := by
          have : fin (some o) = .ok f := hf
          rw [hf'] at this
          exact Except.ok.inj this
        subst hff'
        rw [rwLoop_limit _ _ k _ k' (k'.toNat + 1) _ _ _ _ _ _ (by have := Int.self_le_toNat k'; push_cast; omega) (by omega) hr
          (by show (o.fits : ℤ) < 0 + (k - 1); rw [← hff]; omega) (by show (o.fits : ℤ) ≤ 0 + (k' - 1); rw [← hff]; omega)]
        exact hf

/-- C162: a fit that succeeds succeeds under every lower limit that admits a weighted fit. -/
theorem C162_rm_lower (ext : RmExt) (pr : RmParams) (k k' : ℤ) (X : Fin n → Fin p → ℝ) (y : Fin n → ℝ) (f : RmFit n p) (hf : rmFit ext { pr with maxit := k } X y = .ok f)
    (h1 : 2 ≤ k') (h2 : k' ≤ k) : ∃ g, rmFit ext { pr with maxit := k' } X y = .ok g := by
  obtain ⟨wx, we, fin, hm, hwe, hnone, hfin⟩ := rmFit_loop ext { pr with maxit := k } X y hf
  dsimp only at hm
  rw [hm k] at hf
  rw [hm k']
  cases hr : rwLoop (rmStep ext pr.fn (cutY ext pr.probp1 pr.probp2 pr.probp3) (stdMat X f.xLoc f.xSca) (stdVec y f.yLoc f.ySca) wx) pr.tol k (k.toNat + 1) 1 (1 / 100000)
      (pr.tol < 1) we none with
  | none => rw [hr] at hf; simp [afterLoop] at hf
  | some r =>
    cases r with
    | error e => rw [hr] at hf; simp [afterLoop] at hf
    | ok res =>
      have ht : pr.tol < 1 := by
        by_contra hc
        rw [rwLoop, if_neg (fun hh => hc hh.1)] at hr
        simp only [Option.some.injEq, Except.ok.injEq] at hr
        subst hr
        rw [rwLoop, if_neg (fun hh => hc hh.1), show afterLoop fin (some (.ok none)) = fin none from rfl, hnone] at hf
        simp at hf
      obtain ⟨res', hr'⟩ := rwLoop_lower _ _ k _ k' (k'.toNat + 1) _ _ _ _ _ _ h2 (by have := Int.self_le_toNat k'; push_cast; omega) (by omega) hr
      rw [hr']
      have := ((rwLoop_fits _ _ _ _ _ _ _ _ _ _ hr').2.2 ⟨ht, by omega⟩).1
      cases res' with
      | none => simp at this
      | some o =>
        obtain ⟨g, hg, -⟩ := hfin o
        exact ⟨g, hg⟩

/-- Five cases. -/
noncomputable def rlX : Fin 5 → Fin 1 → ℝ := fun i _ => ![-2, -2, 0, 0, 4] i
noncomputable def rlY : Fin 5 → ℝ := ![-3, -1, 0, 1, 4]

lemma rl_medX : med (fun i => rlX i 0) = 0 := med_pinned _ 0 {0, 1, 2} {2, 3, 4} (by decide) (by decide) (by simp [rlX]) (by simp [rlX])
lemma rl_absX : med (fun i => |rlX i 0|) = 2 := med_pinned _ 2 {0, 1, 2} {0, 1, 4} (by decide) (by decide) (by simp [rlX]) (by simp [rlX]; norm_num)
lemma rl_medY : med rlY = 0 := med_pinned _ 0 {0, 1, 2} {2, 3, 4} (by decide) (by decide) (by simp [rlY]) (by simp [rlY])
lemma rl_absY : med (fun i => |rlY i|) = 1 := med_pinned _ 1 {1, 2, 3} {0, 1, 3} (by decide) (by decide) (by simp [rlY]) (by simp [rlY])
lemma rl_madX : mad (fun i => rlX i 0) = 2 / madConst := by
  rw [mad_med, rl_medX]; simp only [sub_zero]; rw [rl_absX]
lemma rl_madY : mad rlY = 1 / madConst := by
  rw [mad_med, rl_medY]; simp only [sub_zero]; rw [rl_absY]

lemma rl_row : med (fun i => |rlX i 0| * (madConst / 2)) = madConst := by
  have hm := madC_pos
  refine med_pinned _ madConst {0, 1, 2} {0, 1, 4} (by decide) (by decide) ?_ ?_
  all_goals
    intro i hi
    simp only [Finset.mem_insert, Finset.mem_singleton] at hi
    rcases hi with rfl | rfl | rfl <;> simp [rlX] <;> linarith

lemma rl_rel (β : ℝ) (hβ1 : 0 < 1 - β) (hβ2 : 1 - β ≤ 3 / 100) (c : ℝ) (hc1 : 16 / 10 ≤ c) (i : Fin 5) :
    relSize (fun i => (![-3 + 2 * β, -1 + 2 * β, 0, 1, 4 - 4 * β] : Fin 5 → ℝ) i * madConst) i ≤ c := by
  have hm := madC_pos
  have hab : ∀ i : Fin 5, |(![-3 + 2 * β, -1 + 2 * β, 0, 1, 4 - 4 * β] : Fin 5 → ℝ) i * madConst| = (![3 - 2 * β, 2 * β - 1, 0, 1, 4 - 4 * β] : Fin 5 → ℝ) i * madConst := by
    intro i
    rw [abs_mul, abs_of_pos hm]
    congr 1
    fin_cases i
    · show |(-3 + 2 * β)| = 3 - 2 * β
      rw [abs_of_neg (by linarith)]; ring
    · show |(-1 + 2 * β)| = 2 * β - 1
      rw [abs_of_pos (by linarith)]; ring
    · show |(0 : ℝ)| = 0
      simp
    · show |(1 : ℝ)| = 1
      simp
    · show |(4 - 4 * β)| = 4 - 4 * β
      rw [abs_of_pos (by linarith)]
  have hmr : med (fun i => |(![-3 + 2 * β, -1 + 2 * β, 0, 1, 4 - 4 * β] : Fin 5 → ℝ) i * madConst|) = (2 * β - 1) * madConst := by
    simp only [hab]
    refine med_pinned _ _ {1, 2, 4} {0, 1, 3} (by decide) (by decide) ?_ ?_
    all_goals
      intro i hi
      simp only [Finset.mem_insert, Finset.mem_singleton] at hi
      rcases hi with rfl | rfl | rfl <;> simp <;> nlinarith
  have hta : typicalAbs (fun i => (![-3 + 2 * β, -1 + 2 * β, 0, 1, 4 - 4 * β] : Fin 5 → ℝ) i * madConst) = (2 * β - 1) * madConst := by
    classical
    unfold typicalAbs
    rw [if_pos, hmr]
    have : (Finset.univ.filter fun i => (![-3 + 2 * β, -1 + 2 * β, 0, 1, 4 - 4 * β] : Fin 5 → ℝ) i * madConst = 0) ⊆ {2} := by
      intro i hi
      rw [Finset.mem_filter] at hi
      have hz := (mul_eq_zero.mp hi.2).resolve_right hm.ne'
      fin_cases i
      · exfalso; change -3 + 2 * β = 0 at hz; linarith
      · exfalso; change -1 + 2 * β = 0 at hz; linarith
      · simp
      · exfalso; change (1 : ℝ) = 0 at hz; norm_num at hz
      · exfalso; change 4 - 4 * β = 0 at hz; linarith
    have := Finset.card_le_card this
    refine lt_of_le_of_lt (Nat.mul_le_mul_left 2 (le_trans (le_of_eq ?_) this)) (by simp)
    congr!
  simp only [relSize, hta]
  rw [hab, div_le_iff₀ (by have : 0 < 2 * β - 1 := by linarith
                           positivity)]
  have hle : (![3 - 2 * β, 2 * β - 1, 0, 1, 4 - 4 * β] : Fin 5 → ℝ) i ≤ 106 / 100 := by
    fin_cases i <;> simp <;> linarith
  have h5 : (106 / 100 : ℝ) ≤ c * (14826 / 10000 * (2 * β - 1)) := by nlinarith
  have := mul_le_mul_of_nonneg_right (hle.trans h5) hm.le
  linarith

/-- C162 fails: the published case weights need not be those of the fit that gave the coefficients.  Here all five are one, but the slope is smaller than that of the least squares fit, which is one. -/
theorem C162_rm_violated (ext : RmExt) (hq : IsQuantiles ext.normPpf ext.chi2Ppf)
    (hls : ∀ {n p : ℕ} (X : Fin n → Fin p → ℝ) (y : Fin n → ℝ), IsLeastSquares X y (ext.lstsq X y)) (hc1 : 16 / 10 ≤ ext.normPpf (95 / 100)) (hc2 : ext.normPpf (95 / 100) ≤ 17 / 10)
    (hx : 2 ≤ ext.chi2Ppf (95 / 100) 1) (copy : Bool) :
    ∃ f, rmFit ext ⟨.huber, 95 / 100, 975 / 1000, 999 / 1000, .median, .mad, true, 2, 1 / 100, copy⟩ rlX rlY = .ok f ∧ (∀ i, f.caseweights i = 1) ∧
      ¬ IsLeastSquares (stdMat rlX f.xLoc f.xSca) (stdVec rlY f.yLoc f.ySca) f.coefScaled := by
  have hm := madC_pos
  have hm1 : (674 / 1000 : ℝ) ≤ madConst := by unfold madConst; norm_num
  have hm2 : madConst ≤ (675 / 1000 : ℝ) := by unfold madConst; norm_num
  have hcy : UsualCutoffs (cutY ext (95 / 100) (975 / 1000) (999 / 1000)) :=
    ⟨by show 1 ≤ ext.normPpf (95 / 100); linarith, (hq.norm_mono _ _ (by norm_num) (by norm_num) (by norm_num)).le, (hq.norm_mono _ _ (by norm_num) (by norm_num) (by norm_num)).le⟩
  have hcx : UsualCutoffs (cutX ext true 1 (95 / 100) (975 / 1000) (999 / 1000)) :=
    ⟨by show 1 ≤ ext.chi2Ppf (95 / 100) 1; linarith, (hq.chi_mono _ _ _ one_pos (by norm_num) (by norm_num) (by norm_num)).le,
      (hq.chi_mono _ _ _ one_pos (by norm_num) (by norm_num) (by norm_num)).le⟩
  have h0 : (1 : ℝ) / madConst ≠ 0 := by positivity
  have h02 : (2 : ℝ) / madConst ≠ 0 := by positivity
  obtain ⟨f, hf⟩ := (C145_rm_model_iff ext hls ⟨.huber, 95 / 100, 975 / 1000, 999 / 1000, .median, .mad, true, 2, 1 / 100, copy⟩ rlX rlY).mpr
    ⟨⟨⟨by norm_num, by norm_num, fun h => by simp at h⟩, ⟨by norm_num, by norm_num⟩, fun h => by simp at h⟩,
     ⟨fun j => by rw [Subsingleton.elim j 0]; show mad (fun i => rlX i 0) ≠ 0; rw [rl_madX]; exact h02, by
        have e : (fun i => Real.sqrt (∑ j, ((rlX i j - Centre.median.run rlX j) / ScaleOpt.mad.run rlX j) ^ 2)) = fun i => |rlX i 0| * (madConst / 2) := by
          funext i
          have h1 : Centre.median.run rlX 0 = 0 := rl_medX
          have h2 : ScaleOpt.mad.run rlX 0 = 2 / madConst := rl_madX
          rw [Fin.sum_univ_one, h1, h2, Real.sqrt_sq_eq_abs, sub_zero, div_div_eq_mul_div, abs_div, abs_mul, abs_of_pos hm, abs_of_pos (two_pos : (0 : ℝ) < 2)]
          ring
        rw [e, rl_row]
        exact hm.ne', .inl ⟨rfl, rfl⟩, by
        rintro ⟨β, hβ⟩
        have h1 : Centre.median.run rlX 0 = 0 := rl_medX
        have h3 : Centre.median.run (asCol rlY) 0 = 0 := rl_medY
        have e0 := hβ 3
        rw [Fin.sum_univ_one, h1, h3] at e0
        simp [rlX, rlY] at e0⟩⟩
  obtain ⟨-, e1, e2, e3, e4, -, dx, dy, o, hdx, hdy, hl, hcs, -⟩ := rmFit_inv hf
  have h1 : f.xLoc 0 = 0 := by rw [e1]; exact rl_medX
  have h2 : f.xSca 0 = 2 / madConst := by rw [e2]; exact rl_madX
  have h3 : f.yLoc = 0 := by rw [e3]; exact rl_medY
  have h4 : f.ySca = 1 / madConst := by rw [e4]; exact rl_madY
  have hZ : stdMat rlX f.xLoc f.xSca = fun i _ => rlX i 0 * (madConst / 2) := by
    funext i j
    rw [Subsingleton.elim j 0]
    simp only [stdMat, std1, h1, h2, if_neg h02, sub_zero]; field_simp
  have hY : stdVec rlY f.yLoc f.ySca = fun i => rlY i * madConst := by
    funext i
    simp only [stdVec, std1, h3, h4, if_neg h0, sub_zero]; field_simp
  have hrow : rowLengths (stdMat rlX f.xLoc f.xSca) = fun i => |rlX i 0| * (madConst / 2) := by
    rw [hZ]; funext i
    simp only [rowLengths]
    rw [Fin.sum_univ_one, Real.sqrt_sq_eq_abs, abs_mul, abs_of_pos (by positivity : (0 : ℝ) < madConst / 2)]
  have hmrow := rl_row
  -- no predictor weight is below one
  have hdx1 : WFun.huber.run dx (cutX ext true 1 (95 / 100) (975 / 1000) (999 / 1000)) = fun _ => 1 := by
    refine wfun_one (by simp) hcx _ fun i => ?_
    rw [rowDistances_inv' hdx, hrow]
    show |rlX i 0| * (madConst / 2) / med (fun i => |rlX i 0| * (madConst / 2)) ≤ ext.chi2Ppf (95 / 100) 1
    rw [hmrow, div_le_iff₀ hm]
    have hb : |rlX i 0| ≤ 4 := by fin_cases i <;> simp [rlX] <;> norm_num
    nlinarith
  -- the starting weights of the response
  obtain ⟨c, hc⟩ : ∃ c, c = ext.normPpf (95 / 100) := ⟨_, rfl⟩
  rw [← hc] at hc1 hc2
  have hdy' : dy = fun i => |rlY i| * madConst := by
    simp only [startY, isMedianMad, if_true, Except.ok.injEq] at hdy
    rw [← hdy, hY]
    funext i
    rw [abs_mul, abs_of_pos hm]
  obtain ⟨w0, hw0⟩ : ∃ w0, w0 = c / (3 * madConst) := ⟨_, rfl⟩
  obtain ⟨w4, hw4⟩ : ∃ w4, w4 = c / (4 * madConst) := ⟨_, rfl⟩
  have hw0a : 79 / 100 ≤ w0 := by rw [hw0, le_div_iff₀ (by positivity)]; linarith
  have hw0b : w0 ≤ 85 / 100 := by rw [hw0, div_le_iff₀ (by positivity)]; linarith
  have hw4a : 59 / 100 ≤ w4 := by rw [hw4, le_div_iff₀ (by positivity)]; linarith
  have hwy : WFun.huber.run dy (cutY ext (95 / 100) (975 / 1000) (999 / 1000)) = ![w0, 1, 1, 1, w4] := by
    have : ∀ t : ℝ, huber (fun _ : Fin 5 => t) c = fun _ => if t ≤ c then (if 1 > c then c / |(1 : ℝ)| else 1) else (if t > c then c / |t| else t) := by
      intro t
      funext i
      simp only [huber, maskSet]
      split <;> simp
    have hp : ∀ i, huber dy c i = huber (fun _ : Fin 5 => dy i) c i := fun i => by simp only [huber, maskSet]
    have hone : ¬ (1 : ℝ) > c := by linarith
    show huber dy (ext.normPpf (95 / 100)) = _
    rw [← hc]
    funext i
    rw [hp, this, hdy']
    dsimp only
    rw [if_neg hone]
    fin_cases i
    · show (if |rlY 0| * madConst ≤ c then 1 else if |rlY 0| * madConst > c then c / |(|rlY 0| * madConst)| else |rlY 0| * madConst) = w0
      have : |rlY 0| = 3 := by simp [rlY]
      rw [this, if_neg (by linarith), if_pos (by linarith), abs_of_pos (by positivity), hw0]
    · show (if |rlY 1| * madConst ≤ c then 1 else if |rlY 1| * madConst > c then c / |(|rlY 1| * madConst)| else |rlY 1| * madConst) = 1
      have : |rlY 1| = 1 := by simp [rlY]
      rw [this, if_pos (by linarith)]
    · show (if |rlY 2| * madConst ≤ c then 1 else if |rlY 2| * madConst > c then c / |(|rlY 2| * madConst)| else |rlY 2| * madConst) = 1
      have : |rlY 2| = 0 := by simp [rlY]
      rw [this, if_pos (by linarith)]
    · show (if |rlY 3| * madConst ≤ c then 1 else if |rlY 3| * madConst > c then c / |(|rlY 3| * madConst)| else |rlY 3| * madConst) = 1
      have : |rlY 3| = 1 := by simp [rlY]
      rw [this, if_pos (by linarith)]
    · show (if |rlY 4| * madConst ≤ c then 1 else if |rlY 4| * madConst > c then c / |(|rlY 4| * madConst)| else |rlY 4| * madConst) = w4
      have : |rlY 4| = 4 := by simp [rlY]
      rw [this, if_neg (by linarith), if_pos (by linarith), abs_of_pos (by positivity), hw4]
  have hwe : (clipW fun i => WFun.huber.run dx (cutX ext true 1 (95 / 100) (975 / 1000) (999 / 1000)) i * WFun.huber.run dy (cutY ext (95 / 100) (975 / 1000) (999 / 1000)) i) =
      ![w0, 1, 1, 1, w4] := by
    rw [hdx1, hwy]
    funext i
    unfold clipW wMin
    simp only [one_mul]
    rw [if_neg]
    rw [not_lt]
    fin_cases i <;> simp <;> linarith
  -- the only fit
  have hb : o.b = ext.lstsq (weightRows (stdMat rlX f.xLoc f.xSca) ![w0, 1, 1, 1, w4]) (fun i => stdVec rlY f.yLoc f.ySca i * Real.sqrt ((![w0, 1, 1, 1, w4] : Fin 5 → ℝ) i)) := by
    dsimp only at hl
    rw [hwe, rwLoop, if_pos (by norm_num)] at hl
    split at hl
    · simp at hl
    · rename_i b b2 wye wte hst
      have hbb : b = ext.lstsq (weightRows (stdMat rlX f.xLoc f.xSca) ![w0, 1, 1, 1, w4]) (fun i => stdVec rlY f.yLoc f.ySca i * Real.sqrt ((![w0, 1, 1, 1, w4] : Fin 5 → ℝ) i)) := by
        unfold rmStep at hst
        dsimp only at hst
        split at hst
        · simp at hst
        · simp only [Except.ok.injEq, Prod.mk.injEq] at hst
          exact hst.1.symm
      rw [← hbb]
      dsimp only at hl
      split at hl
      · simp only [Option.some.injEq, Except.ok.injEq] at hl
        rw [← hl]
      · rw [show ((2 : ℤ).toNat) = 1 + 1 from rfl, rwLoop, if_neg (by norm_num)] at hl
        simp only [Option.some.injEq, Except.ok.injEq] at hl
        rw [← hl]
  have hn := hls (weightRows (stdMat rlX f.xLoc f.xSca) ![w0, 1, 1, 1, w4]) (fun i => stdVec rlY f.yLoc f.ySca i * Real.sqrt ((![w0, 1, 1, 1, w4] : Fin 5 → ℝ) i)) 0
  rw [← hb, ← hcs] at hn
  obtain ⟨β, hβ⟩ : ∃ β, β = f.coefScaled 0 / 2 := ⟨_, rfl⟩
  have hcoef : f.coefScaled 0 = 2 * β := by rw [hβ]; ring
  have s0 : Real.sqrt w0 * Real.sqrt w0 = w0 := Real.mul_self_sqrt (by linarith)
  have s4 : Real.sqrt w4 * Real.sqrt w4 = w4 := Real.mul_self_sqrt (by linarith)
  have hβe : (4 * w0 + 4 + 16 * w4) * (1 - β) = 2 - 2 * w0 := by
    rw [hZ, hY] at hn
    simp only [weightRows, Fin.sum_univ_one, hcoef] at hn
    simp [Fin.sum_univ_succ, rlX, rlY] at hn
    have hk : madConst ^ 2 * ((4 * w0 + 4 + 16 * w4) * (1 - β) - (2 - 2 * w0)) = 0 := by
      linear_combination (2 : ℝ) * hn - (6 - 4 * β) * madConst ^ 2 * s0 - (16 - 16 * β) * madConst ^ 2 * s4
    have := (mul_eq_zero.mp hk).resolve_left (by positivity)
    linarith
  have hβ1 : 0 < 1 - β := by
    by_contra hcon
    have : (4 * w0 + 4 + 16 * w4) * (1 - β) ≤ 0 := mul_nonpos_of_nonneg_of_nonpos (by linarith) (not_lt.mp hcon)
    linarith
  have hβ2 : 1 - β ≤ 3 / 100 := by
    by_contra hcon
    push Not at hcon
    nlinarith
  refine ⟨f, hf, fun i => ?_, fun hcon => ?_⟩
  · obtain ⟨-, hW⟩ := C161_rm_scaled hf _ rfl _ rfl
    have hr : (fun i => stdVec rlY f.yLoc f.ySca i - lin (stdMat rlX f.xLoc f.xSca) f.coefScaled i) = fun i => (![-3 + 2 * β, -1 + 2 * β, 0, 1, 4 - 4 * β] : Fin 5 → ℝ) i * madConst := by
      rw [hZ, hY]
      funext i
      simp only [lin, Fin.sum_univ_one, hcoef]
      fin_cases i <;> simp [rlX, rlY] <;> ring
    have hwr : WFun.huber.run (relSize fun i => stdVec rlY f.yLoc f.ySca i - lin (stdMat rlX f.xLoc f.xSca) f.coefScaled i) (cutY ext (95 / 100) (975 / 1000) (999 / 1000)) = fun _ => 1 := by
      refine wfun_one (by simp) hcy _ fun i => ?_
      rw [hr]
      show _ ≤ ext.normPpf (95 / 100)
      rw [← hc]
      exact rl_rel β hβ1 hβ2 c hc1 i
    have hwx : WFun.huber.run (fun i => rowLengths (stdMat rlX f.xLoc f.xSca) i / med (rowLengths (stdMat rlX f.xLoc f.xSca))) (cutX ext true 1 (95 / 100) (975 / 1000) (999 / 1000)) =
        fun _ => 1 := by
      rw [← rowDistances_inv' hdx]; exact hdx1
    have := hW i
    dsimp only at this
    rw [hwr, hwx, if_neg (by norm_num)] at this
    rw [this.1]; norm_num
  · have := hcon 0
    rw [hZ, hY] at this
    simp only [Fin.sum_univ_one, hcoef] at this
    simp [Fin.sum_univ_succ, rlX, rlY] at this
    have hk : madConst ^ 2 * (1 - β) = 0 := by
      linear_combination (1 / 12 : ℝ) * this
    have := (mul_eq_zero.mp hk).resolve_left (by positivity)
    linarith

/-- With equal weights the run ends after two fits. -/
lemma rwLoop_clean_fits {β : Type} {step : (Fin n → ℝ) → Except Err (β × ℝ × (Fin n → ℝ) × (Fin n → ℝ))} {tol : ℝ} {maxit : ℤ} (ht : 0 ≤ tol) (hn : 0 < n) {b : β} {s : ℝ}
    (hs : step (fun _ => 1) = .ok (b, s, fun _ => 1, fun _ => 1)) {fuel : ℕ} {loops : ℤ} {rold : ℝ} {go : Prop} {o : RwOut β n}
    (h : rwLoop step tol maxit fuel loops rold go (fun _ => 1) none = some (.ok (some o))) : o.fits ≤ 2 := by
  have h1 : ¬ ((1 : ℝ) * 1 < wMin) := by norm_num [wMin]
  have hd : ¬ diffExceeds tol s s := by
    unfold diffExceeds
    split
    · simp_all
    · simp only [sub_self, abs_zero, zero_div, not_lt]; exact ht
  cases fuel with
  | zero => simp [rwLoop] at h
  | succ fuel =>
    rw [rwLoop] at h
    split at h
    · rw [hs] at h
      dsimp only at h
      simp only [h1, if_false, Finset.filter_false, Finset.card_empty, Nat.cast_zero] at h
      rw [if_neg (by push Not; positivity)] at h
      simp only [mul_one] at h
      cases fuel with
      | zero => simp [rwLoop] at h
      | succ fuel =>
        rw [rwLoop] at h
        split at h
        · rw [hs] at h
          dsimp only at h
          simp only [h1, if_false, Finset.filter_false, Finset.card_empty, Nat.cast_zero] at h
          rw [if_neg (by push Not; positivity)] at h
          cases fuel with
          | zero => simp [rwLoop] at h
          | succ fuel =>
            rw [rwLoop, if_neg (fun hc => hd hc.1)] at h
            simp only [Option.some.injEq, Except.ok.injEq] at h
            rw [← h]
            simp
        · simp only [Option.some.injEq, Except.ok.injEq] at h
          rw [← h]
          simp
    · simp at h

/-- C162: if no case lies beyond the cutoffs there are at most two weighted fits. -/
theorem C162_rm_clean {ext : RmExt} {pr : RmParams} {X : Fin n → Fin p → ℝ} {y : Fin n → ℝ} {f : RmFit n p} (h : rmFit ext pr X y = .ok f) (ht : 0 ≤ pr.tol) (hn : 0 < n) (hfn : pr.fn ≠ .fair)
    (hcy : UsualCutoffs (cutY ext pr.probp1 pr.probp2 pr.probp3)) (hcx : UsualCutoffs (cutX ext pr.specific p pr.probp1 pr.probp2 pr.probp3))
    (hX : TypicalSizes (cutX ext pr.specific p pr.probp1 pr.probp2 pr.probp3).1 (rowLengths (stdMat X f.xLoc f.xSca)))
    (hy : TypicalValues (ext.normPpf pr.probp1) fun i => y i - med y) (b : Fin p → ℝ) (hb : b = ext.lstsq (stdMat X f.xLoc f.xSca) (stdVec y f.yLoc f.ySca))
    (r : Fin n → ℝ) (hr : r = fun i => stdVec y f.yLoc f.ySca i - lin (stdMat X f.xLoc f.xSca) b i)
    (hr1 : TypicalValues (ext.normPpf pr.probp1) r) (hr2 : 2 * (Finset.univ.filter fun i => r i = 0).card < n) :
    f.fits ≤ 2 := by
  obtain ⟨-, e1, e2, e3, e4, -, dx, dy, o, hdx, hdy, hl, -, -, -, -, -, -, -, -, hft, -⟩ := rmFit_inv h
  obtain ⟨dx', hdx', hle⟩ := rowDistances_typical hX
  rw [hdx] at hdx'
  obtain rfl := Except.ok.inj hdx'
  rw [e3, e4] at hdy
  have hle2 := startY_typical (zero_le_one.trans hcy.1) _ _ y hy hdy
  have w1 := wfun_one hfn hcx dx hle
  have w2 := wfun_one hfn hcy dy hle2
  rw [w1, w2, clipW_one] at hl
  obtain ⟨d, hd1, hd2⟩ := scaleRes_typical hr1 hr2
  have hstep : rmStep ext pr.fn (cutY ext pr.probp1 pr.probp2 pr.probp3) (stdMat X f.xLoc f.xSca) (stdVec y f.yLoc f.ySca) (fun _ => 1) (fun _ => 1) =
      .ok (b, ∑ j, b j ^ 2, fun _ => 1, fun _ => 1) := by
    have ew : weightRows (stdMat X f.xLoc f.xSca) (fun _ => 1) = stdMat X f.xLoc f.xSca := by
      funext i j; simp [weightRows]
    have ey : (fun i => stdVec y f.yLoc f.ySca i * Real.sqrt ((fun _ : Fin n => (1 : ℝ)) i)) = stdVec y f.yLoc f.ySca := by
      funext i; simp
    unfold rmStep
    rw [ew, ey]
    dsimp only
    rw [← hb]
    have er : (fun i => stdVec y f.yLoc f.ySca i - ∑ j, stdMat X f.xLoc f.xSca i j * b j) = r := hr.symm
    rw [er, hd1]
    dsimp only
    rw [wfun_one hfn hcy d hd2]
  rw [hft]
  exact rwLoop_clean_fits ht hn hstep hl

/-- Non-vacuity: three cases without outliers are fitted with less than three weighted fits, so that the limit 100 is not reached. -/
example : ∃ f, rmFit rmExt0 ⟨.huber, 95 / 100, 975 / 1000, 999 / 1000, .mean, .noneOpt, false, 100, 1 / 100, true⟩ spXs spYs = .ok f ∧ (f.fits : ℤ) + 1 < 100 := by
  have hm := madC_pos
  have hmx : Centre.mean.run spXs = fun _ => 0 := by
    funext j; rw [Subsingleton.elim j 0]; exact sp_mean_x
  have hmy : Centre.mean.run (asCol spYs) 0 = -1 / 3 * madConst := sp_mean_y
  have hX0 : stdMat spXs (fun _ => 0) (fun _ => 1) = spXs := by
    funext i j; simp [stdMat, std1]
  have hy0 : stdVec spYs (-1 / 3 * madConst) 1 = fun i => spYs i + 1 / 3 * madConst := by
    funext i; simp [stdVec, std1]; ring
  obtain ⟨f, hf⟩ := (C145_rm_model_iff rmExt0 rmExt0_lstsq ⟨.huber, 95 / 100, 975 / 1000, 999 / 1000, .mean, .noneOpt, false, 100, 1 / 100, true⟩ spXs spYs).mpr
    ⟨⟨by norm_num, by norm_num, fun _ => rfl⟩, ⟨fun j => one_ne_zero, by
      have := (cl_rows (c := 1) le_rfl rfl spXs (fun i a => by rw [Subsingleton.elim a 0])).1
      simp only [hmx, sub_zero, ScaleOpt.run, div_one]
      exact this.ne', .inr (cl_y le_rfl).1.ne', by
      rintro ⟨β, hβ⟩
      simp only [hmx, hmy, Fin.sum_univ_one, sub_zero] at hβ
      have h1 := hβ 1
      simp [spYs, spXs] at h1
      linarith⟩⟩
  obtain ⟨-, e1, e2, e3, e4, -⟩ := rmFit_inv hf
  have e2' : f.xSca = fun _ => 1 := e2
  have e4' : f.ySca = 1 := e4
  simp only [hmx, hmy] at e1 e3
  have hls : rmExt0.lstsq spXs (fun i => spYs i + 1 / 3 * madConst) 0 = 1 := by
    have := rmExt0_lstsq spXs (fun i => spYs i + 1 / 3 * madConst) 0
    generalize rmExt0.lstsq spXs (fun i => spYs i + 1 / 3 * madConst) = b at this ⊢
    simp [Fin.sum_univ_succ, spXs, spYs] at this
    have h2 : (madConst : ℝ) ^ 2 * (b 0 - 1) = 0 := by linear_combination (-1 / 2) * this
    rcases mul_eq_zero.mp h2 with h3 | h3
    · exact absurd h3 (by positivity)
    · linarith
  have hr : (fun i => stdVec spYs f.yLoc f.ySca i - lin (stdMat spXs f.xLoc f.xSca) (rmExt0.lstsq (stdMat spXs f.xLoc f.xSca) (stdVec spYs f.yLoc f.ySca)) i) =
      fun i => ![-2 / 3, 4 / 3, -2 / 3] i * madConst := by
    rw [e1, e2', e3, e4', hX0, hy0]
    funext i
    simp only [lin, Fin.sum_univ_one, Fin.isValue, hls]
    fin_cases i <;> simp [spXs, spYs] <;> ring
  obtain ⟨r1, r2⟩ := cl_r cl_cut.2 hr
  have hX : TypicalSizes (cutX rmExt0 false 1 (95 / 100) (975 / 1000) (999 / 1000)).1 (rowLengths (stdMat spXs f.xLoc f.xSca)) := by
    rw [e1, e2', hX0]
    exact cl_rows cl_cut.1.1 rfl _ (fun i a => by rw [Subsingleton.elim a 0])
  have := C162_rm_clean hf (by norm_num) (by norm_num) (by simp) cl_cut.1 cl_cut.1 hX (cl_y cl_cut.2) _ rfl _ rfl r1 r2
  exact ⟨f, hf, by omega⟩

/-! ### SPRM -/

/-- The limit enters a fit only through the loop. -/
lemma sprmFit_loop (ext : SprmExt) (pr : SprmParams) (X : Fin n → Fin p → ℝ) (y : Fin n → ℝ) {f : SprmFit n p} (h : (sprmFit ext pr X y).2 = .ok f) :
    ∃ (cx : ℝ × ℝ × ℝ) (we : Fin n → ℝ) (fin : Option (RwOut (SnFit n f.keep.length) n) → Except Err (SprmFit n p)),
      (∀ m, (sprmFit ext { pr with maxit := m } X y).2 = afterLoop fin (rwLoop (sprmStep ext pr (sprmAfter pr X).scale.opt cx (selCols (stdMat X f.xLoc f.xSca) f.keep)
        (stdVec y f.yLoc f.ySca)) pr.tol m (m.toNat + 1) 1 (1 / 100000) (pr.tol < 1) we none)) ∧
      (∀ i, wMin ≤ we i) ∧ fin none = .error .unboundLocal ∧
      ∀ o, ∃ g, fin (some o) = .ok g ∧ g.caseweights = zeroOut o.we o.w0 ∧ g.fits = o.fits ∧
        ∀ w ys, snFit ⟨pr.eta, pr.nComponents.toNat, .mean, .noneOpt⟩ (weightRows (selCols (stdMat X f.xLoc f.xSca) f.keep) w) ys = .ok o.b →
          snFit ⟨pr.eta, pr.nComponents.toNat, .mean, .noneOpt⟩ (weightRows (selCols (stdMat X g.xLoc g.xSca) g.keep) w) ys = .ok g.inner := by
  have hinv := sprmFit_inv h
  obtain ⟨⟨u, hc⟩, hmX, hsX, hmy, hsy, hk, hnk, rc, dx, dy, cx, o, hdx, hdy, hcx, -⟩ := hinv
  have hy : stdVec y f.yLoc f.ySca = fun i => scaleMat (asCol y) (pr.centre.run (asCol y)) ((sprmAfter pr X).scale.opt.run (asCol y)) i 0 := by
    rw [hmy, hsy, scaleMat_eq]; rfl
  have hX : stdMat X f.xLoc f.xSca = scaleMat X (pr.centre.run X) ((sprmAfter pr X).scale.opt.run X) := by
    rw [hmX, hsX, scaleMat_eq]
  rw [hsX] at hk
  rw [hX] at hdx
  rw [hy] at hdy
  rw [hX, hy]
  obtain ⟨keep, hke⟩ : ∃ keep, keep = f.keep := ⟨_, rfl⟩
  rw [← hke] at hk hnk hdx ⊢
  subst hk
  refine ⟨cx, clipW fun i => pr.fn.run dx cx i * pr.fn.run dy (cutY ext.toRm pr.probp1 pr.probp2 pr.probp3) i,
    sprmFinish pr (sprmAfter pr X).scale.opt X y (pr.centre.run X) ((sprmAfter pr X).scale.opt.run X) (pr.centre.run (asCol y) 0) ((sprmAfter pr X).scale.opt.run (asCol y) 0) _
      (selCols (scaleMat X (pr.centre.run X) ((sprmAfter pr X).scale.opt.run X)) _)
      (fun i => scaleMat (asCol y) (pr.centre.run (asCol y)) ((sprmAfter pr X).scale.opt.run (asCol y)) i 0),
    fun m => ?_, fun i => clip_ge _ i, rfl, fun o' => ?_⟩
  · have hc' : sprmCheck { pr with maxit := m } n p = .ok u := hc
    unfold sprmFit
    rw [hc']
    dsimp only
    rw [if_neg (show ¬ pr.nComponents > ((keepVars ((pr.scale.resolve X).opt.run X)).length : ℤ) from not_lt.mpr hnk)]
    have hdx' : sprmStartX ext { pr with maxit := m } (pr.scale.resolve X).opt (selCols (scaleMat X (pr.centre.run X) ((pr.scale.resolve X).opt.run X))
      (keepVars ((pr.scale.resolve X).opt.run X))) = .ok (rc, dx) := hdx
    have hdy' : startY pr.centre (pr.scale.resolve X).opt (fun i => scaleMat (asCol y) (pr.centre.run (asCol y)) ((pr.scale.resolve X).opt.run (asCol y)) i 0) y = .ok dy := hdy
    have hcx' : sprmStartCut ext { pr with maxit := m } rc = .ok cx := hcx
    rw [hdx']
    dsimp only
    rw [hdy']
    dsimp only
    rw [hcx']
    dsimp only
    change _ = afterLoop _ (rwLoop (sprmStep ext { pr with maxit := m } (pr.scale.resolve X).opt cx (selCols (scaleMat X (pr.centre.run X) ((pr.scale.resolve X).opt.run X))
      (keepVars ((pr.scale.resolve X).opt.run X))) (fun i => scaleMat (asCol y) (pr.centre.run (asCol y)) ((pr.scale.resolve X).opt.run (asCol y)) i 0)) pr.tol m (m.toNat + 1) 1
      (1 / 100000) (pr.tol < 1) (clipW fun i => pr.fn.run dx cx i * pr.fn.run dy (cutY ext.toRm pr.probp1 pr.probp2 pr.probp3) i) none)
    generalize rwLoop (sprmStep ext { pr with maxit := m } (pr.scale.resolve X).opt cx (selCols (scaleMat X (pr.centre.run X) ((pr.scale.resolve X).opt.run X))
      (keepVars ((pr.scale.resolve X).opt.run X))) (fun i => scaleMat (asCol y) (pr.centre.run (asCol y)) ((pr.scale.resolve X).opt.run (asCol y)) i 0)) pr.tol m (m.toNat + 1) 1
      (1 / 100000) (pr.tol < 1) (clipW fun i => pr.fn.run dx cx i * pr.fn.run dy (cutY ext.toRm pr.probp1 pr.probp2 pr.probp3) i) none = r
    cases r with
    | none => rfl
    | some r =>
      cases r with
      | error e => rfl
      | ok o => rfl
  · refine ⟨_, rfl, rfl, rfl, fun w ys hw => ?_⟩
    dsimp only
    rw [scaleMat_eq] at hw
    exact hw

lemma sprmStep_fit {ext : SprmExt} {pr : SprmParams} {sc : ScaleOpt} {cx : ℝ × ℝ × ℝ} {q : ℕ} {Xs : Fin n → Fin q → ℝ} {ys we : Fin n → ℝ} {f : SnFit n q} {b2 : ℝ}
    {wye wte : Fin n → ℝ} (h : sprmStep ext pr sc cx Xs ys we = .ok (f, b2, wye, wte)) :
    snFit ⟨pr.eta, pr.nComponents.toNat, .mean, .noneOpt⟩ (weightRows Xs we) (fun i => ys i * Real.sqrt (we i)) = .ok f := by
  unfold sprmStep at h
  split at h
  · simp at h
  · rename_i f' hf'
    dsimp only at h
    split at h
    · simp at h
    · split at h
      · simp at h
      · simp only [Except.ok.injEq, Prod.mk.injEq] at h
        rw [hf', h.1]

/-- C162 (partial): raising the iteration limit of sparse partial robust M regression by one either leaves the model as it is, or gives the sparse partial least squares model of the data
weighted with the case weights published under the lower limit.  Missing: as for `C162_rm_partial`. -/
theorem C162_sprm_partial (ext : SprmExt) (pr : SprmParams) (k : ℤ) (X : Fin n → Fin p → ℝ) (y : Fin n → ℝ) (f g : SprmFit n p)
    (hf : (sprmFit ext { pr with maxit := k } X y).2 = .ok f) (hg : (sprmFit ext { pr with maxit := k + 1 } X y).2 = .ok g) :
    g = f ∨ (g.fits = f.fits + 1 ∧
      snFit ⟨pr.eta, pr.nComponents.toNat, .mean, .noneOpt⟩ (fun i a => stdMat X g.xLoc g.xSca i (g.keep.get a) * Real.sqrt (max (f.caseweights i) (1 / 1000000)))
        (fun i => stdVec y f.yLoc f.ySca i * Real.sqrt (max (f.caseweights i) (1 / 1000000))) = .ok g.inner) := by
  obtain ⟨cx, we, fin, hm, hwe, hnone, hfin⟩ := sprmFit_loop ext { pr with maxit := k } X y hf
  dsimp only at hm
  rw [hm k] at hf
  rw [hm (k + 1)] at hg
  cases hr : rwLoop (sprmStep ext { pr with maxit := k } (sprmAfter { pr with maxit := k } X).scale.opt cx (selCols (stdMat X f.xLoc f.xSca) f.keep)
        (stdVec y f.yLoc f.ySca)) pr.tol k (k.toNat + 1) 1 (1 / 100000) (pr.tol < 1) we none with
  | none => rw [hr] at hf; simp [afterLoop] at hf
  | some r =>
    cases r with
    | error e => rw [hr] at hf; simp [afterLoop] at hf
    | ok res =>
      cases res with
      | none => rw [hr] at hf; rw [show afterLoop fin (some (.ok none)) = fin none from rfl, hnone] at hf; simp at hf
      | some o =>
        rw [hr] at hf
        have hk : 1 ≤ k := by
          by_contra hc
          rw [rwLoop, if_neg (fun hh => by have := hh.2; omega)] at hr
          simp at hr
        have hp := rwLoop_pass _ _ _ _ _ _ _ _ _ _ hwe (fun o h => by simp at h) hr o rfl
        obtain ⟨f', hf', hfw, hff, -⟩ := hfin o
        have hff' : f' = f := by
          have : fin (some o) = .ok f := hf
          rw [hf'] at this
          exact Except.ok.inj this
        rw [hff'] at hf' hfw hff
        rcases rwLoop_succ _ _ k _ ((k + 1).toNat + 1) _ _ _ _ _ _ hk (by have := Int.self_le_toNat (k + 1); push_cast; omega) (fun o h => by simp at h) hr with h | ⟨e, -, h⟩ | ⟨o', b2, hs, h, hfit⟩
        · left
          rw [h] at hg
          have : fin (some o) = .ok g := hg
          rw [hf'] at this
          exact (Except.ok.inj this).symm
        · rw [h] at hg
          simp [afterLoop] at hg
        · right
          rw [h] at hg
          obtain ⟨g', hg', hgw, hgf, hgi⟩ := hfin o'
          have hgg : g' = g := by
            have : fin (some o') = .ok g := hg
            rw [hg'] at this
            exact Except.ok.inj this
          rw [hgg] at hgf hgi
          refine ⟨by rw [hgf, hfit, hff]; rfl, ?_⟩
          have hw : (fun i => max (f.caseweights i) (1 / 1000000)) = o.we := by
            rw [hfw]; exact raised_zeroOut hp
          have hw' : ∀ i, max (f.caseweights i) (1 / 1000000) = o.we i := fun i => congrFun hw i
          simp only [hw']
          exact hgi _ _ (sprmStep_fit hs)

/-- C162: a fit that ends before the limit is the fit under every limit that admits as many weighted fits. -/
theorem C162_sprm_limit (ext : SprmExt) (pr : SprmParams) (k k' : ℤ) (X : Fin n → Fin p → ℝ) (y : Fin n → ℝ) (f : SprmFit n p)
    (hf : (sprmFit ext { pr with maxit := k } X y).2 = .ok f) (h1 : (f.fits : ℤ) + 1 < k) (h2 : (f.fits : ℤ) + 1 ≤ k') :
    (sprmFit ext { pr with maxit := k' } X y).2 = .ok f := by
  obtain ⟨cx, we, fin, hm, hwe, hnone, hfin⟩ := sprmFit_loop ext { pr with maxit := k } X y hf
  dsimp only at hm
  rw [hm k] at hf
  rw [hm k']
  cases hr : rwLoop (sprmStep ext { pr with maxit := k } (sprmAfter { pr with maxit := k } X).scale.opt cx (selCols (stdMat X f.xLoc f.xSca) f.keep)
        (stdVec y f.yLoc f.ySca)) pr.tol k (k.toNat + 1) 1 (1 / 100000) (pr.tol < 1) we none with
  | none => rw [hr] at hf; simp [afterLoop] at hf
  | some r =>
    cases r with
    | error e => rw [hr] at hf; simp [afterLoop] at hf
    | ok res =>
      cases res with
      | none => rw [hr] at hf; rw [show afterLoop fin (some (.ok none)) = fin none from rfl, hnone] at hf; simp at hf
      | some o =>
        rw [hr] at hf
        obtain ⟨f', hf', -, hff, -⟩ := hfin o
        have hff' : f' = f := by
          have : fin (some o) = .ok f := hf
          rw [hf'] at this
          exact Except.ok.inj this
        rw [hff'] at hff
        rw [rwLoop_limit _ _ k _ k' (k'.toNat + 1) _ _ _ _ _ _ (by have := Int.self_le_toNat k'; push_cast; omega) (by omega) hr
          (by show (o.fits : ℤ) < 0 + (k - 1); rw [← hff]; omega) (by show (o.fits : ℤ) ≤ 0 + (k' - 1); rw [← hff]; omega)]
        exact hf

/-- C162: a fit that succeeds succeeds under every lower limit that admits a weighted fit. -/
theorem C162_sprm_lower (ext : SprmExt) (pr : SprmParams) (k k' : ℤ) (X : Fin n → Fin p → ℝ) (y : Fin n → ℝ) (f : SprmFit n p)
    (hf : (sprmFit ext { pr with maxit := k } X y).2 = .ok f) (h1 : 2 ≤ k') (h2 : k' ≤ k) : ∃ g, (sprmFit ext { pr with maxit := k' } X y).2 = .ok g := by
  obtain ⟨cx, we, fin, hm, hwe, hnone, hfin⟩ := sprmFit_loop ext { pr with maxit := k } X y hf
  dsimp only at hm
  rw [hm k] at hf
  rw [hm k']
  cases hr : rwLoop (sprmStep ext { pr with maxit := k } (sprmAfter { pr with maxit := k } X).scale.opt cx (selCols (stdMat X f.xLoc f.xSca) f.keep)
        (stdVec y f.yLoc f.ySca)) pr.tol k (k.toNat + 1) 1 (1 / 100000) (pr.tol < 1) we none with
  | none => rw [hr] at hf; simp [afterLoop] at hf
  | some r =>
    cases r with
    | error e => rw [hr] at hf; simp [afterLoop] at hf
    | ok res =>
      have ht : pr.tol < 1 := by
        by_contra hc
        rw [rwLoop, if_neg (fun hh => hc hh.1)] at hr
        simp only [Option.some.injEq, Except.ok.injEq] at hr
        subst hr
        rw [rwLoop, if_neg (fun hh => hc hh.1), show afterLoop fin (some (.ok none)) = fin none from rfl, hnone] at hf
        simp at hf
      obtain ⟨res', hr'⟩ := rwLoop_lower _ _ k _ k' (k'.toNat + 1) _ _ _ _ _ _ h2 (by have := Int.self_le_toNat k'; push_cast; omega) (by omega) hr
      rw [hr']
      have := ((rwLoop_fits _ _ _ _ _ _ _ _ _ _ hr').2.2 ⟨ht, by omega⟩).1
      cases res' with
      | none => simp at this
      | some o =>
        obtain ⟨g, hg, -⟩ := hfin o
        exact ⟨g, hg⟩

/-- C162: if no case lies beyond the cutoffs (as in C151) there are at most two weighted fits. -/
theorem C162_sprm_clean {ext : SprmExt} {pr : SprmParams} {s : ScaleOpt} (hsc : pr.scale = .plain s) (hm : pr.centre = .mean) {X : Fin n → Fin p → ℝ} {y : Fin n → ℝ} {f : SprmFit n p}
    (h : (sprmFit ext pr X y).2 = .ok f) (ht : 0 ≤ pr.tol) (hn : 0 < n) (hfn : pr.fn ≠ .fair) (hcol : ∀ a, s.run (selCols X f.keep) a = s.run X (f.keep.get a))
    {g : SnFit n f.keep.length} (hg : snFit ⟨pr.eta, pr.nComponents.toNat, .mean, s⟩ (selCols X f.keep) y = .ok g) (hsy : g.ySca ≠ 0)
    {rc : Option ℕ} {dx : Fin n → ℝ} {cx : ℝ × ℝ × ℝ} (hdx : sprmStartX ext pr s (selCols (stdMat X f.xLoc f.xSca) f.keep) = .ok (rc, dx))
    (hcx : sprmStartCut ext pr rc = .ok cx) (hcx1 : UsualCutoffs cx) (hX : ∀ i, dx i ≤ cx.1)
    (hcy : UsualCutoffs (cutY ext.toRm pr.probp1 pr.probp2 pr.probp3)) (hy : TypicalValues (ext.normPpf pr.probp1) fun i => y i - med y)
    (hr1 : TypicalValues (ext.normPpf pr.probp1) g.residuals) (hr2 : 2 * (Finset.univ.filter fun i => g.residuals i = 0).card < n)
    (ct : ℝ × ℝ × ℝ) (hct : ct = if pr.fn = .hampel then cutX ext.toRm true pr.nComponents.toNat pr.probp1 pr.probp2 pr.probp3 else cx) (hct1 : UsualCutoffs ct)
    (hT : TypicalSizes ct.1 (scoreLengths (scoreScale s) g.comps)) :
    f.fits ≤ 2 := by
  obtain ⟨⟨u, hu⟩, e1, e2, e3, e4, -, -, rc', dx', dy, cx', o, hdx', hdy, hcx', hl, -, -, -, -, -, -, -, -, -, -, hft, -⟩ := sprmFit_inv h
  have ha : (sprmAfter pr X).scale.opt = s := by simp [sprmAfter, hsc, SprmScale.resolve, SprmScale.opt]
  rw [ha] at e2 e4 hdx' hdy hl
  rw [hdx] at hdx'
  obtain ⟨rfl, rfl⟩ := Prod.mk.inj (Except.ok.inj hdx')
  rw [hcx] at hcx'
  obtain rfl := Except.ok.inj hcx'
  obtain ⟨q, hqcoef, hstep⟩ := sprmStep_clean (ext := ext) (cx := cx) hm hn hfn hcol hg hsy hcy hr1 hr2 ct hct hct1 hT
  obtain ⟨-, g1, g2, g3, g4, gs, gl, gc, gco, gint, gfit, gres⟩ := snFit_inv hg
  have hw1 := wfun_one hfn hcx1 dx hX
  rw [e3, e4] at hdy
  have hle2 := startY_typical (zero_le_one.trans hcy.1) _ _ y hy hdy
  have hw2 := wfun_one hfn hcy dy hle2
  rw [hw1, hw2, clipW_one, e1, e2, e3, e4, hm] at hl
  rw [hft]
  exact rwLoop_clean_fits ht hn hstep hl

/-- Non-vacuity: the witness of `C162_rm_violated` exists, and there is a fit of its data under the next limit too. -/
example : ∃ f g : RmFit 5 1, rmFit cwExt ⟨.huber, 95 / 100, 975 / 1000, 999 / 1000, .median, .mad, true, 2, 1 / 100, true⟩ rlX rlY = .ok f ∧
    rmFit cwExt ⟨.huber, 95 / 100, 975 / 1000, 999 / 1000, .median, .mad, true, 2 + 1, 1 / 100, true⟩ rlX rlY = .ok g := by
  have hls : ∀ {n p : ℕ} (X : Fin n → Fin p → ℝ) (y : Fin n → ℝ), IsLeastSquares X y (cwExt.lstsq X y) := fun X y => Classical.choose_spec (exists_leastSquares X y)
  obtain ⟨f, hf, -⟩ := C162_rm_violated cwExt cwExt_quantiles hls (by norm_num [cwExt]) (by norm_num [cwExt]) (by norm_num [cwExt]) true
  have h1 := (C145_rm_model_iff cwExt hls _ rlX rlY).mp ⟨f, hf⟩
  obtain ⟨g, hg⟩ := (C145_rm_model_iff cwExt hls ⟨.huber, 95 / 100, 975 / 1000, 999 / 1000, .median, .mad, true, 2 + 1, 1 / 100, true⟩ rlX rlY).mpr
    ⟨⟨h1.1.probs, ⟨by norm_num, by norm_num⟩, h1.1.unscaled⟩, ⟨h1.2.scales, h1.2.distances, h1.2.response, h1.2.inexact⟩⟩
  exact ⟨f, g, hf, hg⟩

/-- Non-vacuity for sparse partial robust M regression: the limit 100 is not reached, and the limits three and four give models. -/
example : ∃ f : SprmFit 3 1, (sprmFit spExt0 ⟨1, 0, .huber, 95 / 100, 975 / 1000, 999 / 1000, .mean, .plain .noneOpt, 100, 1 / 100, false, false, true⟩ spXs spYs).2 = .ok f ∧
    (f.fits : ℤ) + 1 < 100 ∧ (sprmFit spExt0 ⟨1, 0, .huber, 95 / 100, 975 / 1000, 999 / 1000, .mean, .plain .noneOpt, 3, 1 / 100, false, false, true⟩ spXs spYs).2 = .ok f ∧
    (sprmFit spExt0 ⟨1, 0, .huber, 95 / 100, 975 / 1000, 999 / 1000, .mean, .plain .noneOpt, 3 + 1, 1 / 100, false, false, true⟩ spXs spYs).2 = .ok f := by
  have hm := madC_pos
  have hmx : Centre.mean.run spXs = fun _ => 0 := by
    funext j; rw [Subsingleton.elim j 0]; exact sp_mean_x
  have hX0 : stdMat spXs (Centre.mean.run spXs) (ScaleOpt.noneOpt.run spXs) = spXs := by
    rw [hmx]; funext i j; simp [stdMat, std1, ScaleOpt.run]
  obtain ⟨g, c, hg, hgc, hct, hres⟩ := sp_snfit
  have e4 : g.ySca = 1 := (snFit_inv hg).2.2.2.2.1
  have hgr : g.residuals = fun i => ![-2 / 3, 4 / 3, -2 / 3] i * madConst := by
    funext i
    obtain ⟨-, -, -, -, -, -, -, -, -, -, -, gres⟩ := snFit_inv hg
    rw [gres, hres]
  obtain ⟨r1, r2⟩ := cl_r cl_cut.2 hgr
  have hdx : sprmStartX spExt0 ⟨1, 0, .huber, 95 / 100, 975 / 1000, 999 / 1000, .mean, .plain .noneOpt, 100, 1 / 100, false, false, true⟩ .noneOpt
      (selCols (stdMat spXs (Centre.mean.run spXs) (ScaleOpt.noneOpt.run spXs)) [0]) = .ok (none, ![1, 0, 1]) := by
    rw [hX0]
    unfold sprmStartX
    simp only [Bool.false_eq_true, if_false]
    rw [sp_dist_of _ rfl (fun i a => by
      have : a = (0 : Fin 1) := Subsingleton.elim (α := Fin 1) _ _
      rw [this]; rfl)]
  have hle : ∀ i, (![1, 0, 1] : Fin 3 → ℝ) i ≤ (cutY spExt0.toRm (95 / 100) (975 / 1000) (999 / 1000)).1 := by
    have : (2 : ℝ) ≤ (cutY spExt0.toRm (95 / 100) (975 / 1000) (999 / 1000)).1 := cl_cut.2
    intro i; fin_cases i <;> simp <;> linarith
  have hT : TypicalSizes (cutY spExt0.toRm (95 / 100) (975 / 1000) (999 / 1000)).1 (scoreLengths (scoreScale .noneOpt) g.comps) := by
    have aux : ∀ l : List (SnComp 3 1), l = [c] → TypicalSizes (cutY spExt0.toRm (95 / 100) (975 / 1000) (999 / 1000)).1 (scoreLengths (scoreScale .noneOpt) l) := by
      intro l hl
      subst hl
      have hT1 : ∀ i a, compT [c] i a = spXs i 0 := fun i a => by
        have : a = (0 : Fin 1) := Subsingleton.elim (α := Fin 1) _ _
        rw [this]; exact hct i
      have hmad : Direpack.mad (fun i => spXs i 0) = 1 := by
        have hmed : med (fun i => spXs i 0) = 0 :=
          med3 _ 0 0 1 2 (by decide) (by decide) (by simp [spXs, hm.le]) (by simp [spXs]) (by simp [spXs, hm.le])
        rw [rm_mad_eq, hmed, med3 (fun i => |spXs i 0 - 0|) madConst 1 2 0 (by decide) (by decide) (by simp [spXs, hm.le])
          (by simp [spXs, abs_of_pos hm]) (by simp [spXs, abs_of_pos hm])]
        exact div_self hm.ne'
      refine cl_rows cl_cut.1.1 rfl _ fun i a => ?_
      show std1 (compT [c] i a) (mean fun i => compT [c] i a) (Direpack.mad fun i => compT [c] i a) = _
      simp only [hT1, hmad, sp_mean_x, std1, one_ne_zero, if_false, sub_zero, div_one]
    exact aux _ hgc
  have hkeep : [0] = (List.finRange 1).filter fun j => ¬ ScaleOpt.noneOpt.run spXs j < 1 / 100000 := by
    have : ¬ (1 : ℝ) < 1 / 100000 := by norm_num
    simp only [ScaleOpt.run, this, not_false_eq_true, decide_true]
    rfl
  have hcol : ∀ k : List (Fin 1), ∀ a, ScaleOpt.noneOpt.run (selCols spXs k) a = ScaleOpt.noneOpt.run spXs (k.get a) := fun k a => rfl
  obtain ⟨f, hf, hk⟩ := C151_sprm_fits (ext := spExt0) (pr := ⟨1, 0, .huber, 95 / 100, 975 / 1000, 999 / 1000, .mean, .plain .noneOpt, 100, 1 / 100, false, false, true⟩)
    (s := .noneOpt) rfl rfl (X := spXs) (y := spYs) (by unfold sprmCheck checkProbs; norm_num) (by norm_num) (by norm_num) (by norm_num) (by simp) [0] hkeep (by simp) (hcol _)
    (g := g) hg (by rw [e4]; exact one_ne_zero) hdx (cx := cutY spExt0.toRm (95 / 100) (975 / 1000) (999 / 1000)) rfl cl_cut.1 hle cl_cut.1 (cl_y cl_cut.2) r1 r2 _ rfl cl_cut.1 hT
  obtain ⟨-, e1, e2, -⟩ := sprmFit_inv hf
  have aux : ∀ k : List (Fin 1), k = [0] → ∃ g : SnFit 3 k.length, snFit ⟨0, 1, .mean, .noneOpt⟩ (selCols spXs k) spYs = .ok g ∧ g.ySca ≠ 0 ∧
      sprmStartX spExt0 ⟨1, 0, .huber, 95 / 100, 975 / 1000, 999 / 1000, .mean, .plain .noneOpt, 100, 1 / 100, false, false, true⟩ .noneOpt
      (selCols (stdMat spXs (Centre.mean.run spXs) (ScaleOpt.noneOpt.run spXs)) k) = .ok (none, ![1, 0, 1]) ∧ TypicalValues (spExt0.normPpf (95 / 100)) g.residuals ∧
      2 * (Finset.univ.filter fun i => g.residuals i = 0).card < 3 ∧
      TypicalSizes (cutY spExt0.toRm (95 / 100) (975 / 1000) (999 / 1000)).1 (scoreLengths (scoreScale .noneOpt) g.comps) := by
    intro k hk
    subst hk
    exact ⟨g, hg, by rw [e4]; exact one_ne_zero, hdx, r1, r2, hT⟩
  obtain ⟨g', a1, a2, a3, a4, a5, a6⟩ := aux _ hk
  have h := C162_sprm_clean (s := .noneOpt) rfl rfl hf (by norm_num) (by norm_num) (by simp) (hcol _) a1 a2 (rc := none) (dx := ![1, 0, 1]) (by rw [e1, e2]; exact a3) rfl cl_cut.1 hle cl_cut.1
    (cl_y cl_cut.2) a4 a5 _ rfl cl_cut.1 a6
  exact ⟨f, hf, by omega, C162_sprm_limit spExt0 ⟨1, 0, .huber, 95 / 100, 975 / 1000, 999 / 1000, .mean, .plain .noneOpt, 100, 1 / 100, false, false, true⟩ 100 3 spXs spYs f hf (by omega) (by omega),
    C162_sprm_limit spExt0 ⟨1, 0, .huber, 95 / 100, 975 / 1000, 999 / 1000, .mean, .plain .noneOpt, 100, 1 / 100, false, false, true⟩ 100 (3 + 1) spXs spYs f hf (by omega) (by omega)⟩

end Direpack
