import Verif.Props.PPDireExample
import Verif.Props.Preproc
import Verif.Props.Scaler
import Verif.EquivRobust
import Verif.Props.RMExample
import Verif.Spec.Units
import Verif.Spec.Regress
import Verif.DicomoLemmas
import Verif.Props.DicomoDist2

/-!
`ppdire` under changes of units (C112) and of the order of the cases (C113), and its scaled intercept (C115).
-/

namespace Direpack

open scoped BigOperators
open Spec

variable {n p : ℕ}

/-! ### Location and scale -/

lemma meanT_ok_of_trimOk {t : ℝ} (ht : trimOk t n) (x : Fin n → ℝ) : meanT t (List.ofFn x) = .ok (ppMean t x) := by
  have h : ∃ v, meanT t (List.ofFn x) = .ok v := by
    unfold meanT
    split_ifs with h0
    · exact ⟨_, rfl⟩
    · have h2 : 2 * ⌊t * n⌋₊ < n := ht.2.2.resolve_left h0
      rw [trimMeanL_eq, List.length_ofFn, if_neg (by omega), keptL_length, List.length_ofFn, if_neg (by omega)]
      exact ⟨_, rfl⟩
  obtain ⟨v, hv⟩ := h
  rw [ppMean, hv]

lemma ppMean_affine {t : ℝ} (hn : 0 < n) (ht : trimOk t n) (a b : ℝ) (x : Fin n → ℝ) :
    ppMean t (fun i => a * x i + b) = a * ppMean t x + b := by
  have h := meanT_affine hn t a b x
  rw [meanT_ok_of_trimOk ht, meanT_ok_of_trimOk ht] at h
  exact Except.ok.inj h

lemma ppStd_affine (hn : 0 < n) (t a b : ℝ) (x : Fin n → ℝ) : ppStd t (fun i => a * x i + b) = |a| * ppStd t x := by
  have h := stdT_map_affine (sq := Real.sqrt) real_isSqrt t a b (ofFn_ne_nil hn x)
  rw [List.map_ofFn] at h
  unfold ppStd
  change (match stdT Real.sqrt t (List.ofFn ((fun x => a * x + b) ∘ x)) with | .ok v => v | .error _ => 0) = _
  rw [h]
  cases stdT Real.sqrt t (List.ofFn x) with
  | error e => simp [Except.map]
  | ok v => rfl

lemma ppMean_perm (t : ℝ) (σ : Equiv.Perm (Fin n)) (x : Fin n → ℝ) : ppMean t (fun i => x (σ i)) = ppMean t x := by
  unfold ppMean
  rw [meanT_perm (ofFn_perm x σ)]

lemma ppStd_perm (t : ℝ) (σ : Equiv.Perm (Fin n)) (x : Fin n → ℝ) : ppStd t (fun i => x (σ i)) = ppStd t x := by
  have h : stdT Real.sqrt t (List.ofFn fun i => x (σ i)) = stdT Real.sqrt t (List.ofFn x) := by
    have hp := ofFn_perm x σ
    unfold stdT
    rw [trimMeanL_perm hp, varL, varL, meanL_perm hp, meanL_perm (hp.map fun v => (v - meanL (List.ofFn x)) ^ 2)]
    split_ifs
    · rfl
    · cases ofNaN (trimMeanL (List.ofFn x) t) with
      | error e => rfl
      | ok m => simp only [trimMeanL_perm (hp.map fun v => (v - m) ^ 2)]
  rw [ppStd, ppStd, h]

lemma PpCentre.loc_affine (c : PpCentre) {t : ℝ} (hn : 0 < n) (ht : trimOk t n) (a b : ℝ) (x : Fin n → ℝ) :
    c.loc t (fun i => a * x i + b) = a * c.loc t x + b := by
  cases c
  · exact ppMean_affine hn ht a b x
  · exact med_affine hn a b x

lemma PpCentre.sca_affine (c : PpCentre) (t : ℝ) (hn : 0 < n) (a b : ℝ) (x : Fin n → ℝ) :
    c.sca true t (fun i => a * x i + b) = |a| * c.sca true t x := by
  cases c
  · exact ppStd_affine hn t a b x
  · exact C07_mad_affine hn a b x

lemma PpCentre.loc_perm (c : PpCentre) (t : ℝ) (σ : Equiv.Perm (Fin n)) (x : Fin n → ℝ) : c.loc t (fun i => x (σ i)) = c.loc t x := by
  cases c
  · exact ppMean_perm t σ x
  · exact C05_median_perm σ x

lemma PpCentre.sca_perm (c : PpCentre) (s : Bool) (t : ℝ) (σ : Equiv.Perm (Fin n)) (x : Fin n → ℝ) :
    c.sca s t (fun i => x (σ i)) = c.sca s t x := by
  unfold PpCentre.sca
  cases c
  · simp only [ppStd_perm t σ x]
  · simp only [show mad (fun i => x (σ i)) = mad x from C07_mad_perm σ x]

/-! ### C112: units -/

/-- A fitted model expressed in other units: variable `k` is `a k * x + b k` and the response `c * y + d`.  The components are those of the
given model. -/
noncomputable def PpFit.inUnits (f : PpFit n p) (a b : Fin p → ℝ) (c d : ℝ) : PpFit n p :=
  { f with
    coef := fun k => c / a k * f.coef k
    intercept := c * f.intercept + d - ∑ k, c / a k * f.coef k * b k
    fitted := fun i => c * f.fitted i + d
    residuals := fun i => c * f.residuals i
    xLoc := fun k => a k * f.xLoc k + b k
    xSca := fun k => a k * f.xSca k
    yLoc := c * f.yLoc + d
    ySca := c * f.ySca
    scalerLoc := [c * f.yLoc + d]
    scalerSca := [c * f.ySca] }

set_option maxHeartbeats 1000000 in
/-- C112 (partial: OLS and robust regression; with centring and scaling, which are the defaults): for every optimiser and index, a
model fitted to data in other units has the same components and scores, its coefficients are converted, and its predictions and scores
for new data in the new units are those of the original model, converted. -/
theorem C112_units_partial (pr : PpParams) (hcen : pr.centerData = true) (hsca : pr.scaleData = true) (pinv : Pinv) (rg : PpReg)
    (hrg : ∀ g, rg ≠ .raw g) (φ : (Fin n → ℝ) → (Fin n → ℝ) → ℝ) (X : Fin n → Fin p → ℝ) (y : Fin n → ℝ) (f : PpFit n p) (hn : 0 < n)
    (h : ppFit pr pinv rg φ X y = .ok f) (hy : f.ySca ≠ 0) (a b : Fin p → ℝ) (ha : ∀ k, 0 < a k) (c d : ℝ) (hc : 0 < c) :
    ∃ f', ppFit pr pinv rg φ (newUnits a b X) (newUnit c d y) = .ok f' ∧
      f'.comps = f.comps ∧
      (∀ i, f'.fitted i = c * f.fitted i + d) ∧
      (∀ k, f'.coef k = c / a k * f.coef k) ∧
      (∀ {m : ℕ} (Xn : Fin m → Fin p → ℝ), f'.predict (newUnits a b Xn) = (f.predict Xn).map (newUnit c d)) ∧
      (∀ {m : ℕ} (Xn : Fin m → Fin p → ℝ), HEq (f'.transform (newUnits a b Xn)) (f.transform Xn)) := by
  obtain ⟨Xs, ys, hXs, hys, hxl, hxs, hyl, hysc, hk, ht, hl, hnz, hrot, hcs, hco, hic, hfi, hre, hlm, hsl, hss⟩ := ppFit_inv h
  rw [hcen] at hXs hys hxl hxs hyl hysc hlm hsl hss
  rw [hsca] at hxs hysc
  simp only [if_true] at hXs hys hxl hxs hyl hysc hsl hss
  have e1 : (fun k => pr.centre.loc pr.trimming fun i => newUnits a b X i k) = fun k => a k * f.xLoc k + b k := by
    funext k; rw [hxl]; exact pr.centre.loc_affine hn ht _ _ fun i => X i k
  have e2 : (fun k => pr.centre.sca true pr.trimming fun i => newUnits a b X i k) = fun k => a k * f.xSca k := by
    funext k; rw [hxs, ← abs_of_pos (ha k)]; exact pr.centre.sca_affine _ hn _ _ fun i => X i k
  have e3 : pr.centre.loc pr.trimming (newUnit c d y) = c * f.yLoc + d := by
    rw [hyl]; exact pr.centre.loc_affine hn ht _ _ y
  have e4 : pr.centre.sca true pr.trimming (newUnit c d y) = c * f.ySca := by
    rw [hysc]; nth_rw 2 [← abs_of_pos hc]; exact pr.centre.sca_affine _ hn _ _ y
  have hcy : c * f.ySca ≠ 0 := mul_ne_zero hc.ne' hy
  have e5 : scaleMat (newUnits a b X) (fun k => a k * f.xLoc k + b k) (fun k => a k * f.xSca k) = Xs := by
    rw [hXs]
    funext i k
    have := (ha k).ne'
    have := hnz k
    simp only [scaleMat, newUnits, if_neg (mul_ne_zero (ha k).ne' (hnz k)), if_neg (hnz k)]
    field_simp
    ring
  have e6 : (fun i => scaleMat (asCol (newUnit c d y)) (fun _ => c * f.yLoc + d) (fun _ => c * f.ySca) i 0) = ys := by
    rw [hys]
    funext i
    simp only [scaleMat, asCol, newUnit, if_neg hcy, if_neg hy]
    have := hc.ne'
    field_simp
    ring
  have e7 : rg.run ys (newUnit c d y) = rg.run ys y := by
    cases rg with
    | ols => rfl
    | ext g => rfl
    | raw g => exact absurd rfl (hrg g)
  have hcoef : (fun k => c * f.ySca / (a k * f.xSca k) * f.coefScaled k) = fun k => c / a k * f.coef k := by
    funext k
    rw [hco]
    ring_nf
  have hxb : ∀ {m : ℕ} (Z : Fin m → Fin p → ℝ) i, ∑ k, newUnits a b Z i k * (c / a k * f.coef k)
      = c * (∑ k, Z i k * f.coef k) + ∑ k, c / a k * f.coef k * b k := by
    intro m Z i
    rw [Finset.mul_sum, ← Finset.sum_add_distrib]
    refine Finset.sum_congr rfl fun k _ => ?_
    have := (ha k).ne'
    simp only [newUnits]
    field_simp
  have hint : (pr.centre.loc pr.trimming fun i => newUnit c d y i - ∑ k, newUnits a b X i k * (c / a k * f.coef k))
      = c * f.intercept + d - ∑ k, c / a k * f.coef k * b k := by
    have e8 : (fun i => newUnit c d y i - ∑ k, newUnits a b X i k * (c / a k * f.coef k))
        = fun i => c * (y i - ∑ k, X i k * f.coef k) + (d - ∑ k, c / a k * f.coef k * b k) := by
      funext i
      rw [hxb, newUnit]
      ring
    rw [e8, pr.centre.loc_affine hn ht, ← hic]
    ring
  have key : ∃ s, ppFit pr pinv rg φ (newUnits a b X) (newUnit c d y) = .ok { f.inUnits a b c d with interceptScaled := s } := by
    have hnz' : ¬ ∃ k, a k * f.xSca k = 0 := by
      push Not
      exact fun k => mul_ne_zero (ha k).ne' (hnz k)
    unfold ppFit
    rw [if_neg (not_lt.mpr hk), if_neg (not_not.mpr ht)]
    simp only [hcen, hsca, if_true, e3, e4]
    simp only [e1, e2, e5, e6, e7, hl]
    simp only [show ∀ k, (pr.centre.loc pr.trimming fun i => newUnits a b X i k) = a k * f.xLoc k + b k from fun k => congrFun e1 k,
      show ∀ k, (pr.centre.sca true pr.trimming fun i => newUnits a b X i k) = a k * f.xSca k from fun k => congrFun e2 k]
    rw [if_neg hnz']
    rw [← hrot, ← hcs]
    simp only [show ∀ k, c * f.ySca / (a k * f.xSca k) * f.coefScaled k = c / a k * f.coef k from fun k => congrFun hcoef k]
    rw [hint]
    refine ⟨if true = true then match pr.centre with
        | .mean => mean fun i => ys i - ∑ k, Xs i k * (c / a k * f.coef k)
        | .median => med fun i => ys i - ∑ k, Xs i k * (c / a k * f.coef k) else 0, ?_⟩
    congr 1
    simp only [PpFit.inUnits, hrot, hcs, hlm, if_true]
    congr 1
    · cases pr.centre <;> simp only [show ∀ i, scaleMat (asCol (newUnit c d y)) (fun _ => c * f.yLoc + d) (fun _ => c * f.ySca) i 0 = ys i from congrFun e6]
    · funext i
      rw [hxb, hfi]
      ring
    · funext i
      rw [hxb, hre, hfi]
      simp only [newUnit]
      ring
  obtain ⟨s, hs⟩ := key
  refine ⟨_, hs, rfl, fun i => rfl, fun k => rfl, ?_, ?_⟩
  · intro m Xn
    unfold PpFit.predict
    rw [dif_pos rfl, dif_pos rfl]
    simp only [Except.map, PpFit.inUnits, Except.ok.injEq]
    funext i
    change ∑ k, newUnits a b Xn i k * (c / a k * f.coef k) + _ = c * ((∑ k, Xn i k * f.coef k) + f.intercept) + d
    rw [hxb]
    ring
  · intro m Xn
    apply heq_of_eq
    have e : scaleMat (newUnits a b Xn) (fun k => a k * f.xLoc k + b k) (fun k => a k * f.xSca k) = scaleMat Xn f.xLoc f.xSca := by
      funext i k
      have := (ha k).ne'
      have := hnz k
      simp only [scaleMat, newUnits, if_neg (mul_ne_zero (ha k).ne' (hnz k)), if_neg (hnz k)]
      field_simp
      ring
    unfold PpFit.transform
    rw [dif_pos rfl, dif_pos rfl]
    simp only [PpFit.inUnits]
    change (if _ then Except.ok (Scores.cube fun _ b_1 a_1 => (Matrix.of (scaleMat (newUnits a b Xn) (fun k => a k * f.xLoc k + b k) (fun k => a k * f.xSca k)) * f.rot) b_1 a_1)
      else Except.ok (Scores.mat (Matrix.of (scaleMat (newUnits a b Xn) (fun k => a k * f.xLoc k + b k) (fun k => a k * f.xSca k)) * f.rot))) = _
    rw [e]
    rfl

/-- One predictor, two cases. -/
def ppQX : Fin 2 → Fin 1 → ℝ := ![![-1], ![1]]

/-- One component, default centring and scaling. -/
noncomputable def ppQPr : PpParams :=
  { nComponents := 1, trimming := 0, optimizer := .ext fun _ _ => 1, centre := .mean, centerData := true, scaleData := true,
    squarePi := false }

/-- C112 is violated for quantile regression: whatever median regression routine is used, for a response that is exactly `k` times the single
predictor the fitted values are `k` times too large (the routine is given the response in its own units, and its coefficients are then
multiplied by the scale of the response again). -/
theorem C112_quantile_violated (g : {n : ℕ} → (Fin n → ℝ) → (Fin n → ℝ) → ℝ)
    (hg : ∀ {n : ℕ} (t y : Fin n → ℝ), (∃ c, IsQuantileFit (1 / 2) t y c) → IsQuantileFit (1 / 2) t y (g t y)) (pinv : Pinv) (hp : IsGenInverse pinv)
    (φ : (Fin 2 → ℝ) → (Fin 2 → ℝ) → ℝ) (k : ℝ) (hk : 0 < k) :
    ∃ f, ppFit ppQPr pinv (.raw g) φ ppQX (fun i => k * ppQX i 0) = .ok f ∧ ∀ i, f.fitted i = k * (k * ppQX i 0) := by
  have hm : ∀ c : ℝ, ppMean 0 (fun i => c * ppQX i 0) = 0 := by
    intro c
    rw [ppMean_zero, mean_eq]
    simp [ppQX, Fin.sum_univ_succ]
  have hs : ∀ c : ℝ, 0 < c → ppStd 0 (fun i => c * ppQX i 0) = c := by
    intro c hc
    have e : stdT Real.sqrt 0 (List.ofFn fun i => c * ppQX i 0) = .ok (Real.sqrt (var fun i => c * ppQX i 0)) := by
      simp [stdT, var]
    rw [ppStd, e]
    have e2 : var (fun i => c * ppQX i 0) = c ^ 2 := by
      rw [var_eq, ← ppMean_zero (fun i => c * ppQX i 0), hm, mean_eq]
      simp [ppQX, Fin.sum_univ_succ]
    simp only [e2]
    exact Real.sqrt_sq hc.le
  have hm1 : ∀ j, ppMean 0 (fun i => ppQX i j) = 0 := by
    intro j
    have := hm 1
    simp only [one_mul] at this
    rw [Subsingleton.elim j 0, this]
  have hs1 : ∀ j, ppStd 0 (fun i => ppQX i j) = 1 := by
    intro j
    have := hs 1 one_pos
    simp only [one_mul] at this
    rw [Subsingleton.elim j 0, this]
  have hgv : g (fun i => ppQX i 0) (fun i => k * ppQX i 0) = k := by
    have h := hg (fun i => ppQX i 0) (fun i => k * ppQX i 0) ⟨k, fun c' => by
      have h0 : ∀ r, 0 ≤ checkLoss (1 / 2) r := by
        intro r
        unfold checkLoss
        split_ifs with hr
        · linarith
        · linarith
      have h1 : ∀ i : Fin 2, checkLoss (1 / 2) (k * ppQX i 0 - k * ppQX i 0) = 0 := by
        intro i; rw [sub_self]; simp [checkLoss]
      simp only [h1, Finset.sum_const_zero]
      exact Finset.sum_nonneg fun i _ => h0 _⟩ k
    generalize g (fun i => ppQX i 0) (fun i => k * ppQX i 0) = v at h ⊢
    simp [Fin.sum_univ_succ, ppQX, checkLoss] at h
    split_ifs at h <;> linarith
  have hX : scaleMat ppQX (fun _ => 0) (fun _ => 1) = ppQX := by
    funext i j; simp [scaleMat]
  have hloop : ∀ ψ : (Fin 2 → ℝ) → ℝ, ∃ o c, ppLoop ppQPr.optimizer ψ false (fun t => g t fun i => k * ppQX i 0) 1 ppQX
      = .ok [⟨fun _ => 1, fun _ => 1, fun i => ppQX i 0, k, o, c⟩] := by
    intro ψ
    have hpE : projE ppQX (fun _ => 1) = fun i => ppQX i 0 := by
      funext i; simp [projE]
    have hd : ppDirection ppQPr.optimizer ψ false ppQX = .ok (fun _ => 1, ψ fun i => ppQX i 0) := by
      simp only [ppDirection, ppQPr]
      simp [hpE]
    rw [ppLoop, hd]
    dsimp only
    rw [hpE]
    have h2 : ∑ i, ppQX i 0 ^ 2 = 2 := by simp [ppQX, Fin.sum_univ_succ]; norm_num
    rw [h2, if_neg (by norm_num), ppLoop]
    refine ⟨ψ fun i => ppQX i 0, evalIdx ψ false fun i => ppQX i 0, ?_⟩
    simp only [hgv]
    congr 3
    funext j
    rw [Subsingleton.elim j 0]
    simp [ppQX, Fin.sum_univ_succ]
  unfold ppFit
  rw [if_neg (by simp [ppQPr]), if_neg (by simp [ppQPr, trimOk]; norm_num)]
  have c1 : ppQPr.centerData = true := rfl
  have c2 : ppQPr.scaleData = true := rfl
  have c3 : ppQPr.centre = .mean := rfl
  have c4 : ppQPr.trimming = 0 := rfl
  have c5 : ppQPr.squarePi = false := rfl
  have c6 : ppQPr.nComponents = 1 := rfl
  simp only [c1, c2, c3, c4, c5, c6, if_true, PpCentre.loc, PpCentre.sca, hm, hs k hk, hm1, hs1, hX]
  obtain ⟨o, c, hl⟩ := hloop (φ fun i => scaleMat (asCol fun i => k * ppQX i 0) (fun _ => 0) (fun _ => k) i 0)
  have hl' : ppLoop ppQPr.optimizer (φ fun i => scaleMat (asCol fun i => k * ppQX i 0) (fun _ => 0) (fun _ => k) i 0) false
      ((PpReg.raw g).run (fun i => scaleMat (asCol fun i => k * ppQX i 0) (fun _ => 0) (fun _ => k) i 0) fun i => k * ppQX i 0) 1 ppQX = _ := hl
  rw [hl']
  simp only [one_ne_zero, exists_false, if_false]
  refine ⟨_, rfl, ?_⟩
  have hR : ∀ (l : List (PpComp 2 1)) (hl : l = [⟨fun _ => 1, fun _ => 1, fun i => ppQX i 0, k, o, c⟩]) j,
      (ppR pinv l).mulVec (ppC l) j = k := by
    rintro l rfl j
    have hA : (ppP [(⟨fun _ => 1, fun _ => 1, fun i => ppQX i 0, k, o, c⟩ : PpComp 2 1)]).transpose
        * ppW [(⟨fun _ => 1, fun _ => 1, fun i => ppQX i 0, k, o, c⟩ : PpComp 2 1)] = 1 := by
      ext a b
      have ha : a = 0 := Subsingleton.elim (α := Fin 1) a 0
      have hb : b = 0 := Subsingleton.elim (α := Fin 1) b 0
      subst ha; subst hb
      simp [Matrix.mul_apply, ppP, ppW]
    have hB := hp ((ppP [(⟨fun _ => 1, fun _ => 1, fun i => ppQX i 0, k, o, c⟩ : PpComp 2 1)]).transpose
        * ppW [(⟨fun _ => 1, fun _ => 1, fun i => ppQX i 0, k, o, c⟩ : PpComp 2 1)])
    rw [ppR]
    rw [hA] at hB ⊢
    rw [Matrix.one_mul, Matrix.mul_one] at hB
    dsimp only at hB
    rw [hB, Matrix.mul_one]
    simp [Matrix.mulVec, dotProduct, ppW, ppC, Fin.sum_univ_succ]
  simp only [hR _ rfl]
  have h0 : (fun i => k * ppQX i 0 - ∑ j, ppQX i j * (k / 1 * k)) = fun i => (k - k * k) * ppQX i 0 := by
    funext i; simp; ring
  intro i
  rw [h0, hm]
  simp
  ring

/-! ### C113: order of the cases -/

lemma ppFit_ok {pr : PpParams} {pinv : Pinv} {rg : PpReg} {φ : (Fin n → ℝ) → (Fin n → ℝ) → ℝ} {X : Fin n → Fin p → ℝ}
    {y : Fin n → ℝ} {l : List (PpComp n p)} (hk : pr.nComponents ≤ min n p) (ht : trimOk pr.trimming n) (Xs : Fin n → Fin p → ℝ)
    (ys : Fin n → ℝ)
    (hXs : (if pr.centerData = true then scaleMat X (fun k => if pr.centerData = true then pr.centre.loc pr.trimming fun i => X i k else 0)
        (fun k => if pr.centerData = true then pr.centre.sca pr.scaleData pr.trimming fun i => X i k else 1) else X) = Xs)
    (hys : (if pr.centerData = true then (fun i => scaleMat (asCol y) (fun _ => if pr.centerData = true then pr.centre.loc pr.trimming y else 0)
        (fun _ => if pr.centerData = true then pr.centre.sca pr.scaleData pr.trimming y else 1) i 0) else y) = ys)
    (hl : ppLoop pr.optimizer (φ ys) pr.squarePi (rg.run ys y) pr.nComponents Xs = .ok l)
    (hnz : ∀ k, (if pr.centerData = true then pr.centre.sca pr.scaleData pr.trimming fun i => X i k else 1) ≠ 0) :
    ∃ f, ppFit pr pinv rg φ X y = .ok f ∧ f.comps = l := by
  unfold ppFit
  rw [if_neg (not_lt.mpr hk), if_neg (not_not.mpr ht)]
  dsimp only
  rw [hXs, hys, hl]
  have hnz' : ¬ ∃ k, (if pr.centerData = true then pr.centre.sca pr.scaleData pr.trimming fun i => X i k else 1) = 0 := by
    push Not
    exact hnz
  dsimp only
  rw [if_neg hnz']
  exact ⟨_, rfl, rfl⟩

section grid
variable {φ φ' : (Fin n → ℝ) → ℝ} (σ : Equiv.Perm (Fin n)) (hφ : ∀ t, φ' (fun i => t (σ i)) = φ t) (sq : Bool) (ndir : ℕ)
include hφ

lemma evalIdx_order (t : Fin n → ℝ) : evalIdx φ' sq (fun i => t (σ i)) = evalIdx φ sq t := by
  simp only [evalIdx, hφ]

lemma gridplane_order (X : Fin n → Fin 2 → ℝ) : gridplane φ' sq ndir (fun i => X (σ i)) = gridplane φ sq ndir X := by
  have h : ∀ k, evalIdx φ' sq (proj2 (fun i => X (σ i)) (cand1 ndir k)) = evalIdx φ sq (proj2 X (cand1 ndir k)) := fun k =>
    evalIdx_order σ hφ sq (proj2 X (cand1 ndir k))
  simp only [gridplane, h]

lemma gridplane2_order (q : ℝ) (X : Fin n → Fin 2 → ℝ) : gridplane2 φ' sq ndir q (fun i => X (σ i)) = gridplane2 φ sq ndir q X := by
  have h : ∀ k, evalIdx φ' sq (proj2 (fun i => X (σ i)) (rescaled q (cand2 ndir k))) = evalIdx φ sq (proj2 X (rescaled q (cand2 ndir k))) :=
    fun k => evalIdx_order σ hφ sq (proj2 X (rescaled q (cand2 ndir k)))
  simp only [gridplane2, h]

/-- The state of the grid search for reordered cases. -/
def GridState.order (σ : Equiv.Perm (Fin n)) (st : GridState n p) : GridState n p := ⟨st.a, fun i => st.z (σ i), st.best⟩

lemma grid1Step_order (E : Fin n → Fin p → ℝ) (st : GridState n p) (j : Fin p) :
    grid1Step φ' sq ndir (fun i => E (σ i)) (st.order σ) j = (grid1Step φ sq ndir E st j).map (GridState.order σ) := by
  have h := gridplane_order σ hφ sq ndir (pairCols st.z fun i => E i j)
  have h' : gridplane φ' sq ndir (pairCols (fun i => st.z (σ i)) fun i => E (σ i) j) = gridplane φ sq ndir (pairCols st.z fun i => E i j) := h
  simp only [grid1Step, GridState.order, h']
  cases gridplane φ sq ndir (pairCols st.z fun i => E i j) <;> rfl

lemma grid2Step_order (E : Fin n → Fin p → ℝ) (st : GridState n p) (j : Fin p) :
    grid2Step φ' sq ndir (fun i => E (σ i)) (st.order σ) j = (grid2Step φ sq ndir E st j).map (GridState.order σ) := by
  have h' : gridplane2 φ' sq ndir (st.a j) (pairCols (fun i => st.z (σ i)) fun i => E (σ i) j)
      = gridplane2 φ sq ndir (st.a j) (pairCols st.z fun i => E i j) :=
    gridplane2_order σ hφ sq ndir (st.a j) (pairCols st.z fun i => E i j)
  simp only [grid2Step, GridState.order, h']
  cases gridplane2 φ sq ndir (st.a j) (pairCols st.z fun i => E i j) <;> rfl

omit hφ in
lemma foldlM_map {α β : Type} {s s' : α → β → Except Err α} {g : α → α} (h : ∀ a b, s' (g a) b = (s a b).map g) (l : List β) (a : α) :
    l.foldlM s' (g a) = (l.foldlM s a).map g := by
  induction l generalizing a with
  | nil => rfl
  | cons b l ih =>
    simp only [List.foldlM_cons, bind, Except.bind, h]
    cases s a b with
    | error e => rfl
    | ok a' => exact ih a'

lemma gridSweep_order (E : Fin n → Fin p → ℝ) (st : GridState n p) :
    gridSweep φ' sq ndir (fun i => E (σ i)) (st.order σ) = (gridSweep φ sq ndir E st).map (GridState.order σ) :=
  foldlM_map (grid2Step_order σ hφ sq ndir E) _ _

lemma gridStage1_order {m : ℕ} (E : Fin n → Fin (m + 3) → ℝ) :
    gridStage1 φ' sq ndir (fun i => E (σ i)) = (gridStage1 φ sq ndir E).map (GridState.order σ) := by
  have h : gridplane φ' sq ndir (fun i => ![E (σ i) 0, E (σ i) 1]) = gridplane φ sq ndir (fun i => ![E i 0, E i 1]) :=
    gridplane_order σ hφ sq ndir fun i => ![E i 0, E i 1]
  simp only [gridStage1, h]
  cases gridplane φ sq ndir (fun i => ![E i 0, E i 1]) with
  | error e => rfl
  | ok r =>
    obtain ⟨w, b⟩ := r
    exact foldlM_map (grid1Step_order σ hφ sq ndir E) _
      ⟨fun k => if k = 0 then w 0 else if k = 1 then w 1 else 0, proj2 (fun i => ![E i 0, E i 1]) w, b⟩

lemma gridLoop_order (E : Fin n → Fin p → ℝ) : ∀ (left : ℕ) (o o' : ℝ) (st : GridState n p),
    gridLoop φ' sq ndir (fun i => E (σ i)) left o o' (st.order σ) = gridLoop φ sq ndir E left o o' st
  | 0, _, _, _ => rfl
  | left + 1, o, o', st => by
    rw [gridLoop, gridLoop, gridSweep_order σ hφ sq ndir E st]
    split_ifs with hc
    · cases gridSweep φ sq ndir E st with
      | error e => rfl
      | ok st' =>
        simp only [Except.map]
        have h : evalIdx φ' sq (projE (fun i => E (σ i)) (st'.order σ).a) = evalIdx φ sq (projE E st'.a) := evalIdx_order σ hφ sq (projE E st'.a)
        rw [h]
        exact gridLoop_order E left o' _ st'
    · rfl

lemma gridDirection_order (maxiter : ℕ) : ∀ {p : ℕ} (E : Fin n → Fin p → ℝ),
    gridDirection φ' sq ndir maxiter (fun i => E (σ i)) = gridDirection φ sq ndir maxiter E
  | 0, _ => rfl
  | 1, _ => rfl
  | 2, _ => rfl
  | m + 3, E => by
    rw [gridDirection, gridDirection, gridStage1_order σ hφ sq ndir E]
    cases gridStage1 φ sq ndir E with
    | error e => rfl
    | ok st =>
      simp only [Except.map]
      split_ifs
      · rfl
      · have h : evalIdx φ' sq (projE (fun i => E (σ i)) (st.order σ).a) = evalIdx φ sq (projE E st.a) := evalIdx_order σ hφ sq (projE E st.a)
        rw [h]
        exact gridLoop_order σ hφ sq ndir E _ _ _ st

end grid

/-- An optimiser whose result does not depend on the order of the cases.  The grid search is one (see `C113_case_order`). -/
def PpOptimizer.OrderFree : PpOptimizer → Prop
  | .grid _ _ => True
  | .ext find => ∀ {n p : ℕ} (σ : Equiv.Perm (Fin n)) (E : Fin n → Fin p → ℝ), find (fun i => E (σ i)) = find E

lemma ppDirection_order {opt : PpOptimizer} (ho : opt.OrderFree) {φ φ' : (Fin n → ℝ) → ℝ} (σ : Equiv.Perm (Fin n))
    (hφ : ∀ t, φ' (fun i => t (σ i)) = φ t) (sq : Bool) (E : Fin n → Fin p → ℝ) :
    ppDirection opt φ' sq (fun i => E (σ i)) = ppDirection opt φ sq E := by
  cases opt with
  | grid ndir maxiter => exact gridDirection_order σ hφ sq ndir maxiter E
  | ext find =>
    have h1 : find (fun i => E (σ i)) = find E := ho σ E
    have h2 : ∀ w : Fin p → ℝ, φ' (projE (fun i => E (σ i)) w) = φ (projE E w) := fun w => hφ (projE E w)
    simp only [ppDirection, h1, h2]

/-- A component for reordered cases: the scores are reordered. -/
def PpComp.order (σ : Equiv.Perm (Fin n)) (c : PpComp n p) : PpComp n p := { c with t := fun i => c.t (σ i) }

lemma ppLoop_order {opt : PpOptimizer} (ho : opt.OrderFree) {φ φ' : (Fin n → ℝ) → ℝ} (σ : Equiv.Perm (Fin n))
    (hφ : ∀ t, φ' (fun i => t (σ i)) = φ t) (sq : Bool) {reg reg' : (Fin n → ℝ) → ℝ} (hr : ∀ t, reg' (fun i => t (σ i)) = reg t) :
    ∀ (h : ℕ) (E : Fin n → Fin p → ℝ),
      ppLoop opt φ' sq reg' h (fun i => E (σ i)) = (ppLoop opt φ sq reg h E).map (List.map (PpComp.order σ))
  | 0, _ => rfl
  | h + 1, E => by
    rw [ppLoop, ppLoop, ppDirection_order ho σ hφ sq E]
    cases ppDirection opt φ sq E with
    | error e => rfl
    | ok wo =>
      obtain ⟨w, o⟩ := wo
      dsimp only
      have h0 : projE (fun i => E (σ i)) w = fun i => projE E w (σ i) := rfl
      have h1 : ∑ i, projE E w (σ i) ^ 2 = ∑ i, projE E w i ^ 2 := Equiv.sum_comp σ fun i => projE E w i ^ 2
      have h2 : ∀ k, ∑ i, E (σ i) k * projE E w (σ i) = ∑ i, E i k * projE E w i := fun k =>
        Equiv.sum_comp σ fun i => E i k * projE E w i
      simp only [h0, h1, h2]
      split_ifs with hz
      · rfl
      · have ih := ppLoop_order ho σ hφ sq hr h fun i k => E i k - projE E w i * ((∑ i, E i k * projE E w i) / ∑ i, projE E w i ^ 2)
        simp only [ih]
        cases ppLoop opt φ sq reg h fun i k => E i k - projE E w i * ((∑ i, E i k * projE E w i) / ∑ i, projE E w i ^ 2) with
        | error e => rfl
        | ok l =>
          simp only [Except.map, List.map_cons, PpComp.order, hr, evalIdx_order σ hφ sq]

/-- The rotations depend on the weights and loadings only. -/
lemma ppR_congr (pinv : Pinv) {m : ℕ} {l : List (PpComp n p)} {l' : List (PpComp m p)} (h : l'.length = l.length)
    (hw : ∀ a : Fin l'.length, (l'.get a).w = (l.get (a.cast h)).w) (hp : ∀ a : Fin l'.length, (l'.get a).load = (l.get (a.cast h)).load)
    (k : Fin p) (a : Fin l'.length) : ppR pinv l' k a = ppR pinv l k (a.cast h) := by
  have aux : ∀ {r r' : ℕ} (e : r' = r) (W P : Matrix (Fin p) (Fin r) ℝ) (W' P' : Matrix (Fin p) (Fin r') ℝ)
      (_ : ∀ k a, W' k a = W k (a.cast e)) (_ : ∀ k a, P' k a = P k (a.cast e)) (a : Fin r'),
      (W' * pinv (P'.transpose * W')) k a = (W * pinv (P.transpose * W)) k (a.cast e) := by
    rintro r r' rfl W P W' P' h1 h2 a
    have e1 : W' = W := by ext k a; exact h1 k a
    have e2 : P' = P := by ext k a; exact h2 k a
    rw [e1, e2]
    rfl
  exact aux h (ppW l) (ppP l) (ppW l') (ppP l') (fun k a => congrFun (hw a) k) (fun k a => congrFun (hp a) k) a

set_option maxHeartbeats 1000000 in
/-- C113: for the grid search (and any optimiser that does not look at the order of the cases), an index and a regression that ignore the order of
the cases, a model fitted to reordered cases has the reordered scores and fitted values, and the same coefficients, predictions and scores for new
data. -/
theorem C113_case_order_partial (pr : PpParams) (ho : pr.optimizer.OrderFree) (pinv : Pinv) (rg : PpReg)
    (φ : (Fin n → ℝ) → (Fin n → ℝ) → ℝ) (σ : Equiv.Perm (Fin n))
    (hφ : ∀ ys t, φ (fun i => ys (σ i)) (fun i => t (σ i)) = φ ys t)
    (hrg : ∀ ys y t, rg.run (fun i => ys (σ i)) (fun i => y (σ i)) (fun i => t (σ i)) = rg.run ys y t)
    (X : Fin n → Fin p → ℝ) (y : Fin n → ℝ) (f : PpFit n p) (h : ppFit pr pinv rg φ X y = .ok f) :
    ∃ f', ppFit pr pinv rg φ (fun i => X (σ i)) (fun i => y (σ i)) = .ok f' ∧
      (∃ hlen : f'.comps.length = f.comps.length,
        (∀ i a, ppT f'.comps i a = ppT f.comps (σ i) (a.cast hlen)) ∧
        (∀ k a, ppW f'.comps k a = ppW f.comps k (a.cast hlen)) ∧
        (∀ k a, f'.rot k a = f.rot k (a.cast hlen))) ∧
      f'.xLoc = f.xLoc ∧ f'.xSca = f.xSca ∧ f'.coef = f.coef ∧ f'.intercept = f.intercept ∧
      (∀ i, f'.fitted i = f.fitted (σ i)) ∧
      (∀ {m : ℕ} (Xn : Fin m → Fin p → ℝ), f'.predict Xn = f.predict Xn) := by
  obtain ⟨Xs, ys, hXs, hys, hxl, hxs, hyl, hysc, hk, ht, hl, hnz, hrot, hcs, hco, hic, hfi, hre, hlm, hsl, hss⟩ := ppFit_inv h
  have e1 : (fun k => if pr.centerData = true then pr.centre.loc pr.trimming fun i => X (σ i) k else 0) = f.xLoc := by
    rw [hxl]; funext k; rw [pr.centre.loc_perm _ σ fun i => X i k]
  have e2 : (fun k => if pr.centerData = true then pr.centre.sca pr.scaleData pr.trimming fun i => X (σ i) k else 1) = f.xSca := by
    rw [hxs]; funext k; rw [pr.centre.sca_perm _ _ σ fun i => X i k]
  have e3 : (if pr.centerData = true then pr.centre.loc pr.trimming fun i => y (σ i) else 0) = f.yLoc := by
    rw [hyl, pr.centre.loc_perm _ σ y]
  have e4 : (if pr.centerData = true then pr.centre.sca pr.scaleData pr.trimming fun i => y (σ i) else 1) = f.ySca := by
    rw [hysc, pr.centre.sca_perm _ _ σ y]
  have e5 : (if pr.centerData = true then scaleMat (fun i => X (σ i)) f.xLoc f.xSca else fun i => X (σ i)) = fun i => Xs (σ i) := by
    rw [hXs]; split_ifs <;> rfl
  have e6 : (if pr.centerData = true then (fun i => scaleMat (asCol fun i => y (σ i)) (fun _ => f.yLoc) (fun _ => f.ySca) i 0) else fun i => y (σ i))
      = fun i => ys (σ i) := by
    rw [hys]
    by_cases hcd : pr.centerData = true
    · simp only [if_pos hcd]; rfl
    · simp only [if_neg hcd]
  have hl' := ppLoop_order (opt := pr.optimizer) ho σ (fun t => hφ ys t) pr.squarePi (fun t => hrg ys y t) pr.nComponents Xs
  rw [hl] at hl'
  have hlen : (f.comps.map (PpComp.order σ)).length = f.comps.length := List.length_map _
  have hR : ∀ k a, ppR pinv (f.comps.map (PpComp.order σ)) k a = f.rot k (a.cast hlen) := by
    intro k a
    rw [hrot]
    exact ppR_congr pinv hlen (fun a => by simp [PpComp.order]) (fun a => by simp [PpComp.order]) k a
  have hbs : (ppR pinv (f.comps.map (PpComp.order σ))).mulVec (ppC (f.comps.map (PpComp.order σ))) = f.coefScaled := by
    rw [hcs]
    funext k
    simp only [Matrix.mulVec, dotProduct]
    rw [← Equiv.sum_comp (finCongr hlen)]
    refine Finset.sum_congr rfl fun a _ => ?_
    rw [hR]
    simp [ppC, PpComp.order]
  have hxb : ∀ i, ∑ k, X (σ i) k * f.coef k = (fun i => ∑ k, X i k * f.coef k) (σ i) := fun _ => rfl
  have hint : (pr.centre.loc pr.trimming fun i => y (σ i) - ∑ k, X (σ i) k * f.coef k) = f.intercept := by
    rw [hic]; exact pr.centre.loc_perm _ σ fun i => y i - ∑ k, X i k * f.coef k
  have key : ∃ f', ppFit pr pinv rg φ (fun i => X (σ i)) (fun i => y (σ i)) = .ok f' ∧ f'.comps = f.comps.map (PpComp.order σ) := by
    refine ppFit_ok hk ht (fun i => Xs (σ i)) (fun i => ys (σ i)) ?_ ?_ hl' ?_
    · rw [e1, e2, e5]
    · rw [e3, e4, e6]
    · intro k
      have := congrFun e2 k
      rw [this]
      exact hnz k
  obtain ⟨f', hf', hcomps⟩ := key
  refine ⟨f', hf', ?_⟩
  obtain ⟨Xs', ys', hXs', hys', hxl', hxs', hyl', hysc', hk', ht', hl'', hnz', hrot', hcs', hco', hic', hfi', hre', hlm', hsl', hss'⟩ := ppFit_inv hf'
  have q1 : f'.xLoc = f.xLoc := hxl'.trans e1
  have q2 : f'.xSca = f.xSca := hxs'.trans e2
  have q3 : f'.ySca = f.ySca := hysc'.trans e4
  have hlen' : f'.comps.length = f.comps.length := by rw [hcomps, List.length_map]
  have q4 : f'.coefScaled = f.coefScaled := by
    rw [hcs', hrot']
    have : ∀ l : List (PpComp n p), l = f.comps.map (PpComp.order σ) → (ppR pinv l).mulVec (ppC l) = f.coefScaled := by
      rintro l rfl; exact hbs
    exact this _ hcomps
  have q5 : f'.coef = f.coef := by rw [hco', hco, q2, q3, q4]
  have q6 : f'.intercept = f.intercept := by rw [hic', q5, hint]
  have qc : ∀ a : Fin f'.comps.length, f'.comps.get a = (f.comps.get (a.cast hlen')).order σ := by
    intro a
    have : ∀ (l : List (PpComp n p)) (e : l = f.comps.map (PpComp.order σ)) (e' : l.length = f.comps.length) (a : Fin l.length),
        l.get a = (f.comps.get (a.cast e')).order σ := by
      rintro l rfl e' a
      simp
    exact this _ hcomps _ a
  refine ⟨⟨hlen', fun i a => ?_, fun k a => ?_, fun k a => ?_⟩, q1, q2, q5, q6, fun i => ?_, fun Xn => ?_⟩
  · simp only [ppT, Matrix.of_apply]
    rw [qc]
    rfl
  · simp only [ppW, Matrix.of_apply]
    rw [qc]
    rfl
  · rw [hrot', hrot]
    exact ppR_congr pinv hlen' (fun a => by rw [qc]; rfl) (fun a => by rw [qc]; rfl) k a
  · rw [hfi', hfi, q5, q6]
  · unfold PpFit.predict
    rw [q5, q6]

lemma PpReg.ols_order (σ : Equiv.Perm (Fin n)) (ys y t : Fin n → ℝ) :
    PpReg.ols.run (fun i => ys (σ i)) (fun i => y (σ i)) (fun i => t (σ i)) = PpReg.ols.run ys y t := by
  simp only [PpReg.run]
  rw [Equiv.sum_comp σ fun i => t i * ys i, Equiv.sum_comp σ fun i => t i ^ 2]

/-- C113 for the default configuration (grid search, OLS): the coefficients do not depend on the order of the cases and the scores are reordered,
for every index that ignores the order of the cases. -/
theorem C113_grid_ols (pr : PpParams) (ndir maxiter : ℕ) (ho : pr.optimizer = .grid ndir maxiter) (pinv : Pinv)
    (φ : (Fin n → ℝ) → (Fin n → ℝ) → ℝ) (hφ : ∀ (σ : Equiv.Perm (Fin n)) ys t, φ (fun i => ys (σ i)) (fun i => t (σ i)) = φ ys t)
    (σ : Equiv.Perm (Fin n)) (X : Fin n → Fin p → ℝ) (y : Fin n → ℝ) (f : PpFit n p) (h : ppFit pr pinv .ols φ X y = .ok f) :
    ∃ f', ppFit pr pinv .ols φ (fun i => X (σ i)) (fun i => y (σ i)) = .ok f' ∧ f'.coef = f.coef ∧ f'.intercept = f.intercept ∧
      ∃ hlen : f'.comps.length = f.comps.length, ∀ i a, ppT f'.comps i a = ppT f.comps (σ i) (a.cast hlen) := by
  obtain ⟨f', h1, ⟨hlen, h2, -⟩, -, -, h3, h4, -⟩ :=
    C113_case_order_partial pr (by rw [ho]; trivial) pinv .ols φ σ (hφ σ) (PpReg.ols_order σ) X y f h
  exact ⟨f', h1, h3, h4, hlen, h2⟩

/-- The optimisers of scipy and Ipopt are started at the first case (`E[0,:]`, `ppdire.py:590, 607, 626`).  One that returns its start value. -/
noncomputable def startOpt : PpOptimizer := .ext fun {n _} E => if h : 0 < n then E ⟨0, h⟩ else 0

/-- C113 is violated for the optimisers that are started at the first case: there is one for which exchanging two cases gives another
direction. -/
theorem C113_start_violated (pinv : Pinv) (φ : (Fin 3 → ℝ) → (Fin 3 → ℝ) → ℝ) (y : Fin 3 → ℝ) :
    ∃ (pr : PpParams) (f f' : PpFit 3 2), pr.optimizer = startOpt ∧ ppFit pr pinv .ols φ ppExX y = .ok f ∧
      ppFit pr pinv .ols φ (fun i => ppExX (Equiv.swap 0 1 i)) (fun i => y (Equiv.swap 0 1 i)) = .ok f' ∧
      (∀ a, ppW f.comps 0 a ≠ 0) ∧ ∀ a, ppW f'.comps 0 a = 0 := by
  let pr : PpParams := { nComponents := 1, trimming := 0, optimizer := startOpt, centre := .mean, centerData := false, scaleData := false,
                         squarePi := false }
  have one : ∀ (ψ : (Fin 3 → ℝ) → ℝ) (reg : (Fin 3 → ℝ) → ℝ) (X : Fin 3 → Fin 2 → ℝ) (_ : ∑ k, X 0 k ^ 2 ≠ 0), ∃ l : List (PpComp 3 2),
      ppLoop startOpt ψ false reg 1 X = .ok l ∧ ∀ a : Fin l.length, (l.get a).w = fun k => X 0 k / Real.sqrt (∑ k, X 0 k ^ 2) := by
    intro ψ reg X h0
    have hpos : 0 < ∑ k, X 0 k ^ 2 := lt_of_le_of_ne (Finset.sum_nonneg fun k _ => sq_nonneg _) (Ne.symm h0)
    have hs : Real.sqrt (∑ k, X 0 k ^ 2) ≠ 0 := (Real.sqrt_pos.mpr hpos).ne'
    have hd : ppDirection startOpt ψ false X
        = .ok (fun k => X 0 k / Real.sqrt (∑ k, X 0 k ^ 2), ψ (projE X fun k => X 0 k / Real.sqrt (∑ k, X 0 k ^ 2))) := by
      simp only [ppDirection, startOpt]
      have : (if h : 0 < 3 then X ⟨0, h⟩ else 0) = X 0 := rfl
      rw [this, if_neg hs]
    have ht : ∑ i, projE X (fun k => X 0 k / Real.sqrt (∑ k, X 0 k ^ 2)) i ^ 2 ≠ 0 := by
      have h1 : projE X (fun k => X 0 k / Real.sqrt (∑ k, X 0 k ^ 2)) 0 = Real.sqrt (∑ k, X 0 k ^ 2) := by
        simp only [projE]
        have : ∀ k, X 0 k * (X 0 k / Real.sqrt (∑ k, X 0 k ^ 2)) = X 0 k ^ 2 / Real.sqrt (∑ k, X 0 k ^ 2) := fun k => by ring
        simp only [this, ← Finset.sum_div]
        exact Real.div_sqrt
      intro h
      have := (Finset.sum_eq_zero_iff_of_nonneg fun i _ => sq_nonneg _).mp h 0 (Finset.mem_univ _)
      rw [h1] at this
      exact hs (pow_eq_zero_iff two_ne_zero |>.mp this)
    refine ⟨_, by rw [ppLoop, hd]; dsimp only; rw [if_neg ht, ppLoop], ?_⟩
    intro a
    have : a = (0 : Fin 1) := Subsingleton.elim (α := Fin 1) a 0
    rw [this]
    rfl
  have fit : ∀ (X : Fin 3 → Fin 2 → ℝ) (y : Fin 3 → ℝ) (_ : ∑ k, X 0 k ^ 2 ≠ 0), ∃ f, ppFit pr pinv .ols φ X y = .ok f ∧
      ∀ a k, ppW f.comps k a = X 0 k / Real.sqrt (∑ k, X 0 k ^ 2) := by
    intro X y h0
    obtain ⟨l, hl, hw⟩ := one (φ y) (PpReg.ols.run y y) X h0
    obtain ⟨f, hf, hc⟩ := ppFit_ok (pr := pr) (pinv := pinv) (rg := .ols) (φ := φ) (X := X) (y := y) (l := l) (by simp [pr])
      (by simp [pr, trimOk]; norm_num) X y (by simp [pr]) (by simp [pr]) hl (by simp [pr])
    subst hc
    exact ⟨f, hf, fun a k => congrFun (hw a) k⟩
  obtain ⟨f, hf, hw⟩ := fit ppExX y (by simp [ppExX, Fin.sum_univ_succ])
  obtain ⟨f', hf', hw'⟩ := fit (fun i => ppExX (Equiv.swap 0 1 i)) (fun i => y (Equiv.swap 0 1 i)) (by simp [ppExX, Fin.sum_univ_succ])
  refine ⟨pr, f, f', rfl, hf, hf', fun a => ?_, fun a => ?_⟩
  · rw [hw]
    have : (0 : ℝ) < ∑ k, ppExX 0 k ^ 2 := by simp [ppExX, Fin.sum_univ_succ]
    refine div_ne_zero (by simp [ppExX]) (Real.sqrt_pos.mpr this).ne'
  · rw [hw']
    simp [ppExX]

/-! ### C115: the scaled intercept -/

lemma ppFit_interceptScaled {pr : PpParams} {pinv : Pinv} {rg : PpReg} {φ : (Fin n → ℝ) → (Fin n → ℝ) → ℝ} {X : Fin n → Fin p → ℝ}
    {y : Fin n → ℝ} {f : PpFit n p} (h : ppFit pr pinv rg φ X y = .ok f) :
    f.interceptScaled = if pr.scaleData = true then
        match pr.centre with
        | .mean => mean fun i => (if pr.centerData = true then (fun i => scaleMat (asCol y) (fun _ => f.yLoc) (fun _ => f.ySca) i 0) else y) i
            - ∑ k, (if pr.centerData = true then scaleMat X f.xLoc f.xSca else X) i k * f.coef k
        | .median => med fun i => (if pr.centerData = true then (fun i => scaleMat (asCol y) (fun _ => f.yLoc) (fun _ => f.ySca) i 0) else y) i
            - ∑ k, (if pr.centerData = true then scaleMat X f.xLoc f.xSca else X) i k * f.coef k
      else f.intercept := by
  unfold ppFit at h
  split at h
  · simp at h
  · split at h
    · simp at h
    · dsimp only at h
      split at h
      · simp at h
      · rename_i l hl
        by_cases hs : ∃ k, (if pr.centerData = true then pr.centre.sca pr.scaleData pr.trimming fun i => X i k else 1) = 0
        · rw [if_pos hs] at h
          simp at h
        · rw [if_neg hs] at h
          simp only [Except.ok.injEq] at h
          subst h
          rfl

/-- The model in standardised units: what the scaled coefficients and the scaled intercept predict for case `i`. -/
noncomputable def PpFit.scaledFit (f : PpFit n p) (X : Fin n → Fin p → ℝ) (i : Fin n) : ℝ :=
  (∑ k, (X i k - f.xLoc k) / f.xSca k * f.coefScaled k) + f.interceptScaled

lemma ppMean_sub (u v : Fin n → ℝ) : mean (fun i => u i - v i) = mean u - mean v := by
  rw [mean_eq, mean_eq, mean_eq, Finset.sum_sub_distrib, sub_div]

lemma pp_lin_eq (f : PpFit n p) (hco : f.coef = fun k => f.ySca / f.xSca k * f.coefScaled k) (X : Fin n → Fin p → ℝ) (i : Fin n) :
    f.ySca * ∑ k, (X i k - f.xLoc k) / f.xSca k * f.coefScaled k = ∑ k, X i k * f.coef k - ∑ k, f.xLoc k * f.coef k := by
  rw [hco, Finset.mul_sum, ← Finset.sum_sub_distrib]
  exact Finset.sum_congr rfl fun k _ => by ring

/-- C115 (partial: centre 'mean' without trimming, with centring and scaling): the scaled coefficients and the scaled intercept give the fitted
values after standardising the response. -/
theorem C115_scaled_partial (pr : PpParams) (hcen : pr.centerData = true) (hsca : pr.scaleData = true) (hm : pr.centre = .mean)
    (htr : pr.trimming = 0) (pinv : Pinv) (rg : PpReg) (φ : (Fin n → ℝ) → (Fin n → ℝ) → ℝ) (X : Fin n → Fin p → ℝ) (y : Fin n → ℝ)
    (f : PpFit n p) (h : ppFit pr pinv rg φ X y = .ok f) (i : Fin n) : f.yLoc + f.ySca * f.scaledFit X i = f.fitted i := by
  obtain ⟨Xs, ys, hXs, hys, hxl, hxs, hyl, hysc, hk, ht, hl, hnz, hrot, hcs, hco, hic, hfi, hre, hlm, hsl, hss⟩ := ppFit_inv h
  have hb := ppFit_interceptScaled h
  rw [hcen, hsca, hm] at hb
  rw [hcen, hm, htr] at hxl hyl
  rw [hm, htr] at hic
  simp only [if_true, PpCentre.loc, ppMean_zero] at hb hxl hyl hic
  have hn : 0 < n := i.pos
  have c0 : ∀ (x : Fin n → ℝ) (s : ℝ), mean (fun i => (x i - mean x) / s) = 0 := by
    intro x s
    have : (fun i => (x i - mean x) / s) = fun i => s⁻¹ * x i + (- (s⁻¹ * mean x)) := by funext i; ring
    rw [this, mean_affine hn]
    ring
  have hb0 : f.interceptScaled = 0 := by
    rw [hb, ppMean_sub]
    have h1 : mean (fun i => scaleMat (asCol y) (fun _ => f.yLoc) (fun _ => f.ySca) i 0) = 0 := by
      have : (fun i => scaleMat (asCol y) (fun _ => f.yLoc) (fun _ => f.ySca) i 0) = fun i => (y i - mean y) / (if f.ySca = 0 then 1 else f.ySca) := by
        funext i; simp only [scaleMat, asCol, hyl]
      rw [this, c0]
    have h2 : mean (fun i => ∑ k, scaleMat X f.xLoc f.xSca i k * f.coef k) = 0 := by
      rw [mean_eq, Finset.sum_comm]
      have : ∀ k, ∑ i, scaleMat X f.xLoc f.xSca i k * f.coef k = 0 := by
        intro k
        have e := c0 (fun i => X i k) (if f.xSca k = 0 then 1 else f.xSca k)
        rw [mean_eq, div_eq_zero_iff] at e
        rcases e with e | e
        · rw [← Finset.sum_mul]
          have e2 : ∑ i, scaleMat X f.xLoc f.xSca i k = 0 := by
            rw [← e]; exact Finset.sum_congr rfl fun i _ => by simp only [scaleMat, hxl]
          rw [e2, zero_mul]
        · exact absurd e (Nat.cast_ne_zero.mpr hn.ne')
      simp only [this, Finset.sum_const_zero, zero_div]
    rw [h1, h2, sub_zero]
  have hxm : mean (fun i => ∑ k, X i k * f.coef k) = ∑ k, f.xLoc k * f.coef k := by
    rw [mean_eq, Finset.sum_comm, Finset.sum_div]
    refine Finset.sum_congr rfl fun k _ => ?_
    rw [hxl, ← Finset.sum_mul]
    dsimp only
    rw [mean_eq]
    ring
  rw [PpFit.scaledFit, hb0, add_zero, pp_lin_eq f hco, hfi]
  dsimp only
  rw [hic, ppMean_sub, hxm, hyl]
  ring

/-- C115 is violated for `scale_data=False` (centre 'mean', no trimming): the scaled intercept is the unscaled one, so the two versions
of the model agree only when that is zero. -/
theorem C115_unscaled_violated (pr : PpParams) (hcen : pr.centerData = true) (hsca : pr.scaleData = false) (hm : pr.centre = .mean)
    (htr : pr.trimming = 0) (pinv : Pinv) (rg : PpReg) (φ : (Fin n → ℝ) → (Fin n → ℝ) → ℝ) (X : Fin n → Fin p → ℝ) (y : Fin n → ℝ)
    (f : PpFit n p) (h : ppFit pr pinv rg φ X y = .ok f) (i : Fin n) :
    f.yLoc + f.ySca * f.scaledFit X i = f.fitted i ↔ f.intercept = 0 := by
  obtain ⟨Xs, ys, hXs, hys, hxl, hxs, hyl, hysc, hk, ht, hl, hnz, hrot, hcs, hco, hic, hfi, hre, hlm, hsl, hss⟩ := ppFit_inv h
  have hb := ppFit_interceptScaled h
  rw [hsca] at hb
  rw [hcen, hm, htr] at hxl hyl
  rw [hcen, hsca] at hysc
  rw [hm, htr] at hic
  simp only [if_true, PpCentre.loc, PpCentre.sca, ppMean_zero, Bool.false_eq_true, if_false] at hb hxl hyl hic hysc
  have hxm : mean (fun i => ∑ k, X i k * f.coef k) = ∑ k, f.xLoc k * f.coef k := by
    rw [mean_eq, Finset.sum_comm, Finset.sum_div]
    refine Finset.sum_congr rfl fun k _ => ?_
    rw [hxl, ← Finset.sum_mul]
    dsimp only
    rw [mean_eq]
    ring
  have h1 := pp_lin_eq f hco X i
  rw [ppMean_sub, hxm, ← hyl] at hic
  rw [PpFit.scaledFit, mul_add, h1, hfi, hb, hysc]
  dsimp only
  constructor
  · intro e; linarith
  · intro e; linarith

/-- With one predictor and an optimiser that returns 1: the scaled coefficient is the regression coefficient on the standardised
predictor. -/
lemma ppOne_fit {pr : PpParams} (h1 : pr.nComponents = 1) (ho : pr.optimizer = .ext fun _ _ => 1) (ht : trimOk pr.trimming n) {pinv : Pinv}
    (hp : IsGenInverse pinv) {rg : PpReg} {φ : (Fin n → ℝ) → (Fin n → ℝ) → ℝ} {X : Fin n → Fin 1 → ℝ} {y : Fin n → ℝ} (hn : 0 < n)
    (Xs : Fin n → Fin 1 → ℝ) (ys : Fin n → ℝ)
    (hXs : (if pr.centerData = true then scaleMat X (fun k => if pr.centerData = true then pr.centre.loc pr.trimming fun i => X i k else 0)
        (fun k => if pr.centerData = true then pr.centre.sca pr.scaleData pr.trimming fun i => X i k else 1) else X) = Xs)
    (hys : (if pr.centerData = true then (fun i => scaleMat (asCol y) (fun _ => if pr.centerData = true then pr.centre.loc pr.trimming y else 0)
        (fun _ => if pr.centerData = true then pr.centre.sca pr.scaleData pr.trimming y else 1) i 0) else y) = ys)
    (hnz : ∀ k, (if pr.centerData = true then pr.centre.sca pr.scaleData pr.trimming fun i => X i k else 1) ≠ 0)
    (h0 : ∑ i, Xs i 0 ^ 2 ≠ 0) :
    ∃ f, ppFit pr pinv rg φ X y = .ok f ∧ f.coefScaled = fun _ => rg.run ys y fun i => Xs i 0 := by
  have hpE : projE Xs (fun _ => 1) = fun i => Xs i 0 := by
    funext i; simp [projE]
  have hd : ppDirection pr.optimizer (φ ys) pr.squarePi Xs = .ok (fun _ => 1, φ ys fun i => Xs i 0) := by
    simp only [ppDirection, ho]
    simp [hpE]
  have hl : ppLoop pr.optimizer (φ ys) pr.squarePi (rg.run ys y) pr.nComponents Xs
      = .ok [⟨fun _ => 1, fun _ => 1, fun i => Xs i 0, rg.run ys y fun i => Xs i 0, φ ys fun i => Xs i 0,
          evalIdx (φ ys) pr.squarePi fun i => Xs i 0⟩] := by
    rw [h1, ppLoop, hd]
    dsimp only
    rw [hpE, if_neg h0, ppLoop]
    simp only
    congr 3
    funext j
    rw [Subsingleton.elim j 0, div_eq_one_iff_eq h0]
    exact Finset.sum_congr rfl fun i _ => (pow_two _).symm
  obtain ⟨f, hf, hc⟩ := ppFit_ok (pinv := pinv) (by rw [h1]; omega) ht Xs ys hXs hys hl hnz
  refine ⟨f, hf, ?_⟩
  obtain ⟨-, -, -, -, -, -, -, -, -, -, -, -, hrot, hcs, -⟩ := ppFit_inv hf
  rw [hcs, hrot]
  generalize f.comps = l at hc
  subst hc
  funext j
  generalize rg.run ys y (fun i => Xs i 0) = v
  generalize φ ys (fun i => Xs i 0) = o
  generalize evalIdx (φ ys) pr.squarePi (fun i => Xs i 0) = c
  have hA : (ppP [(⟨fun _ => 1, fun _ => 1, fun i => Xs i 0, v, o, c⟩ : PpComp n 1)]).transpose
      * ppW [(⟨fun _ => 1, fun _ => 1, fun i => Xs i 0, v, o, c⟩ : PpComp n 1)] = 1 := by
    ext a b
    have ha : a = 0 := Subsingleton.elim (α := Fin 1) a 0
    have hb : b = 0 := Subsingleton.elim (α := Fin 1) b 0
    subst ha; subst hb
    simp [Matrix.mul_apply, ppP, ppW]
  have hB := hp ((ppP [(⟨fun _ => 1, fun _ => 1, fun i => Xs i 0, v, o, c⟩ : PpComp n 1)]).transpose
      * ppW [(⟨fun _ => 1, fun _ => 1, fun i => Xs i 0, v, o, c⟩ : PpComp n 1)])
  rw [ppR]
  rw [hA] at hB ⊢
  rw [Matrix.one_mul, Matrix.mul_one] at hB
  dsimp only at hB
  rw [hB, Matrix.mul_one]
  simp [Matrix.mulVec, dotProduct, ppW, ppC, Fin.sum_univ_succ]

/-- Median and MAD, default scaling, one component. -/
noncomputable def ppMPr : PpParams :=
  { nComponents := 1, trimming := 0, optimizer := .ext fun _ _ => 1, centre := .median, centerData := true, scaleData := true,
    squarePi := false }

/-- C115 is violated for the centre 'median', also with scaling: the scaled intercept is computed with the unscaled coefficients.  For the three
cases (0, 0), (1, 4), (3, 2) the scaled version of the model is off by 2/5 for every case. -/
theorem C115_median_violated (pinv : Pinv) (hp : IsGenInverse pinv) (φ : (Fin 3 → ℝ) → (Fin 3 → ℝ) → ℝ) :
    ∃ f, ppFit ppMPr pinv .ols φ ![![0], ![1], ![3]] ![0, 4, 2] = .ok f ∧
      ∀ i, f.yLoc + f.ySca * f.scaledFit ![![0], ![1], ![3]] i = f.fitted i - 2 / 5 := by
  have hX : ∀ k : Fin 1, (fun i => (![![0], ![1], ![3]] : Fin 3 → Fin 1 → ℝ) i k) = ![0, 1, 3] := by
    intro k; rw [Subsingleton.elim k 0]; funext i; fin_cases i <;> rfl
  have mX : med (![0, 1, 3] : Fin 3 → ℝ) = 1 :=
    med3 _ 1 0 1 2 (by decide) (by decide) (by simp) (by simp) (by simp)
  have mY : med (![0, 4, 2] : Fin 3 → ℝ) = 2 :=
    med3 _ 2 0 2 1 (by decide) (by decide) (by simp) (by simp) (by simp; norm_num)
  have sX : mad (![0, 1, 3] : Fin 3 → ℝ) = 1 / madConst := by
    rw [rm_mad_eq, mX, med3 _ 1 1 0 2 (by decide) (by decide) (by simp) (by simp) (by simp; norm_num)]
  have sY : mad (![0, 4, 2] : Fin 3 → ℝ) = 2 / madConst := by
    rw [rm_mad_eq, mY, med3 _ 2 2 0 1 (by decide) (by decide) (by simp) (by simp) (by simp; norm_num)]
  have hq := madC_pos
  have hXs : scaleMat (![![0], ![1], ![3]] : Fin 3 → Fin 1 → ℝ) (fun _ => 1) (fun _ => 1 / madConst) = fun i _ => ![-1, 0, 2] i * madConst := by
    funext i j
    rw [Subsingleton.elim j 0]
    simp only [scaleMat, if_neg (show (1 : ℝ) / madConst ≠ 0 by positivity)]
    fin_cases i <;> simp <;> norm_num
  have hYs : (fun i => scaleMat (asCol (![0, 4, 2] : Fin 3 → ℝ)) (fun _ => 2) (fun _ => 2 / madConst) i 0) = fun i => ![-1, 1, 0] i * madConst := by
    funext i
    simp only [scaleMat, asCol, if_neg (show (2 : ℝ) / madConst ≠ 0 by positivity)]
    fin_cases i
    · simp; field_simp
    · simp; field_simp; norm_num
    · simp
  obtain ⟨f, hf, hc⟩ := ppOne_fit (n := 3) (pr := ppMPr) rfl rfl (by simp [ppMPr, trimOk]; norm_num) (pinv := pinv) hp (rg := .ols) (φ := φ)
    (X := ![![0], ![1], ![3]]) (y := ![0, 4, 2]) (by norm_num) (fun i _ => ![-1, 0, 2] i * madConst) (fun i => ![-1, 1, 0] i * madConst)
    (by simp only [ppMPr, if_true, PpCentre.loc, PpCentre.sca, hX, mX, sX]; exact hXs)
    (by simp only [ppMPr, if_true, PpCentre.loc, PpCentre.sca, mY, sY]; exact hYs)
    (by intro k; simp only [ppMPr, if_true, PpCentre.sca, hX, sX]; positivity)
    (by simp [Fin.sum_univ_succ]; positivity)
  refine ⟨f, hf, ?_⟩
  have hb := ppFit_interceptScaled hf
  obtain ⟨Xs, ys, -, -, hxl, hxs, hyl, hysc, -, -, -, -, -, -, hco, hic, hfi, -⟩ := ppFit_inv hf
  simp only [ppMPr, if_true, PpCentre.loc, PpCentre.sca, hX, mX, sX, mY, sY] at hb hxl hxs hyl hysc hic
  have hc' : f.coefScaled = fun _ => 1 / 5 := by
    rw [hc]
    funext _
    simp only [PpReg.run]
    simp [Fin.sum_univ_succ]
    field_simp
    norm_num
  have hco' : f.coef = fun _ => 2 / 5 := by
    rw [hco, hc', hxs, hysc]
    funext _
    field_simp
  have hb' : f.interceptScaled = -3 / 5 * madConst := by
    rw [hb, hxl, hxs, hyl, hysc, hXs, hYs, hco']
    refine med3 _ _ 2 0 1 (by decide) (by decide) ?_ ?_ ?_
    · simp; nlinarith
    · simp; ring
    · simp; nlinarith
  have hi' : f.intercept = 4 / 5 := by
    rw [hic, hco']
    refine med3 _ _ 0 2 1 (by decide) (by decide) ?_ ?_ ?_
    · simp; norm_num
    · simp; norm_num
    · simp; norm_num
  intro i
  rw [PpFit.scaledFit, hfi, hb', hc', hyl, hysc, hxl, hxs, hco', hi']
  simp only [Finset.univ_unique, Finset.sum_singleton]
  field_simp
  ring

/-- The hypotheses of C112 and C113 can be met: three cases, one predictor, median and MAD. -/
example : ∃ (pinv : Pinv) (f : PpFit 3 1), ppFit ppMPr pinv .ols (fun _ t => ∑ i, t i ^ 2) ![![0], ![1], ![3]] ![0, 4, 2] = .ok f ∧ f.ySca ≠ 0 := by
  obtain ⟨pinv, hp⟩ := exists_pinv
  obtain ⟨f, hf, h⟩ := C115_median_violated pinv hp fun _ t => ∑ i, t i ^ 2
  refine ⟨pinv, f, hf, fun h0 => ?_⟩
  have h1 := h 0
  have h2 := h 1
  rw [h0] at h1 h2
  obtain ⟨-, -, -, -, hxl, hxs, hyl, hysc, -, -, -, -, -, -, hco, hic, hfi, -⟩ := ppFit_inv hf
  have mY : med (![0, 4, 2] : Fin 3 → ℝ) = 2 :=
    med3 _ 2 0 2 1 (by decide) (by decide) (by simp) (by simp) (by simp; norm_num)
  have sY : mad (![0, 4, 2] : Fin 3 → ℝ) = 2 / madConst := by
    rw [rm_mad_eq, mY, med3 _ 2 2 0 1 (by decide) (by decide) (by simp) (by simp) (by simp; norm_num)]
  simp only [ppMPr, if_true, PpCentre.sca, sY] at hysc
  have := madC_pos
  rw [hysc] at h0
  exact absurd h0 (by positivity)

example : startOpt.OrderFree → False := by
  intro h
  have := congrFun (h (n := 2) (p := 1) (Equiv.swap 0 1) (fun i _ => (i : ℝ))) 0
  simp at this

end Direpack
