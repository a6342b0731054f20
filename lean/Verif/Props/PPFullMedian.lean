import Mathlib.Data.List.OfFn
import Mathlib.Logic.Equiv.Fin.Basic
import Verif.Props.Stats
import Verif.Props.PPFullExample

/-! C85: which number is the intercept after compression with `center='median'`. -/

namespace Direpack

open scoped BigOperators
open Spec

variable {n p : ℕ}

/-- Difference number `k` of the `n × n` differences between a response and a linear part, row by row. -/
lemma ppAllDiffs_ofFn (y xb : Fin n → ℝ) :
    ppAllDiffs y xb = List.ofFn fun k : Fin (n * n) => y (finProdFinEquiv.symm k).1 - xb (finProdFinEquiv.symm k).2 := by
  rw [List.ofFn_mul]
  unfold ppAllDiffs
  rw [List.flatMap, List.ofFn_eq_map]
  congr 1
  refine List.map_congr_left fun r _ => ?_
  rw [List.ofFn_eq_map]
  refine List.map_congr_left fun c _ => ?_
  have e : (⟨r.1 * n + c.1, by
      calc r.1 * n + c.1 < (r.1 + 1) * n := by rw [add_mul]; have := c.2; omega
        _ ≤ n * n := Nat.mul_le_mul_right _ r.2⟩ : Fin (n * n)) = finProdFinEquiv (r, c) := by
    apply Fin.ext
    simp [finProdFinEquiv]
    ring
  simp only [e, Equiv.symm_apply_apply]

/-- C85 (partial: `center='median'`): fitted values and predictions are the reported coefficients applied to the variables, plus the median of the `n²` differences
between the response of any case and the linear part of any case. -/
theorem C85_median_intercept_partial (cf : PpConf) (h : Option ℕ) (svd : PpSvd) (pinv : Pinv) (rg : PpReg) (φ : (Fin n → ℝ) → (Fin n → ℝ) → ℝ)
    (X : Fin n → Fin p → ℝ) (y : Fin n → ℝ) (f : PpCompFit n p) (hf : (cf.fit h svd pinv rg φ X y).2 = .ok (.compressed f)) (hc : cf.base.centre = .median) (hn : 0 < n) :
    ∃ b0, IsMedianOf (fun k : Fin (n * n) => y (finProdFinEquiv.symm k).1 - ∑ j, X (finProdFinEquiv.symm k).2 j * f.coef j) b0 ∧ (∀ i, f.fitted i = affine f.coef b0 (X i)) ∧
      ∀ {m : ℕ} (Xn : Fin m → Fin p → ℝ), f.predict Xn = .ok (List.ofFn fun i => affine f.coef b0 (Xn i)) := by
  obtain ⟨-, -, -, hq⟩ := PpConf.fit_compressed hf
  obtain ⟨-, g, -, -, ic, fit, -, hic, h1, h2, rfl⟩ := ppCompressed_inv hq
  have hc' : (cf.withComponents h).base.centre = .median := by
    rw [← hc]; unfold PpConf.withComponents; split <;> rfl
  have hi := hic hc'
  refine ⟨medL (ppAllDiffs y fun c => ∑ k, X c k * (svd.flat X).1.mulVec g.coef k), ?_, fun i => ?_, fun Xn => ?_⟩
  · rw [ppAllDiffs_ofFn]
    exact med_isMedian (Nat.mul_pos hn hn) _
  · dsimp only
    rw [h1 _ hi]
    rfl
  · unfold PpCompFit.predict
    rw [hi]
    rfl

/-- One component, `center='median'`, compression, no scaling. -/
noncomputable def cmpMed : PpConf := { cmpConf false with base := { (cmpConf false).base with centre := .median } }

lemma cmpMed_fit (pinv : Pinv) (rg : PpReg) (φ : (Fin 2 → ℝ) → (Fin 2 → ℝ) → ℝ) (y : Fin 2 → ℝ) :
    ∃ g : PpFit 2 2, ppFit cmpMed.base pinv rg φ ![![2, 0], ![0, 1]] y = .ok g := by
  have hsca : ∀ k, cmpMed.base.centre.sca cmpMed.base.scaleData cmpMed.base.trimming (fun i => (![![2, 0], ![0, 1]] : Fin 2 → Fin 2 → ℝ) i k) = 1 := fun k => rfl
  have hloc : ∀ k, cmpMed.base.centre.loc cmpMed.base.trimming (fun i => (![![2, 0], ![0, 1]] : Fin 2 → Fin 2 → ℝ) i k) = ![1, 1 / 2] k := by
    intro k
    show med _ = _
    rw [med_two]
    fin_cases k <;> simp
  have hcd : cmpMed.base.centerData = true := rfl
  unfold ppFit
  rw [if_neg (by simp [cmpMed, cmpConf]), if_neg (by simp [cmpMed, cmpConf, trimOk]; norm_num)]
  simp only [hcd, if_true, hsca, hloc]
  have hX : scaleMat (![![2, 0], ![0, 1]] : Fin 2 → Fin 2 → ℝ) (fun k => ![1, 1 / 2] k) (fun _ => 1) = cmpXs false := by
    funext i k
    fin_cases i <;> fin_cases k <;> simp [scaleMat, cmpXs] <;> norm_num
  rw [hX]
  generalize (fun i => scaleMat (asCol y) _ _ i 0) = ys
  have hdir : ppDirection cmpMed.base.optimizer (φ ys) cmpMed.base.squarePi (cmpXs false) = .ok (![1, 0], φ ys (projE (cmpXs false) ![1, 0])) := by
    have hf : (firstVar (cmpXs false) : Fin 2 → ℝ) = ![1, 0] := by
      funext k; fin_cases k <;> simp [firstVar]
    show ppDirection (.ext firstVar) (φ ys) _ (cmpXs false) = _
    unfold ppDirection
    simp only [hf]
    have hn : Real.sqrt (∑ k, (![1, 0] : Fin 2 → ℝ) k ^ 2) = 1 := by simp [Fin.sum_univ_succ]
    rw [hn, if_neg one_ne_zero]
    simp
  have ht : projE (cmpXs false) ![1, 0] = ![1, -1] := by
    funext i; fin_cases i <;> simp [projE, cmpXs, Fin.sum_univ_succ]
  have ht2 : ∑ i, (![1, -1] : Fin 2 → ℝ) i ^ 2 = 2 := by simp [Fin.sum_univ_succ]; norm_num
  have hloop : ∃ c, ppLoop cmpMed.base.optimizer (φ ys) cmpMed.base.squarePi (rg.run ys y) cmpMed.base.nComponents (cmpXs false) = .ok [c] := by
    show ∃ c, ppLoop cmpMed.base.optimizer (φ ys) cmpMed.base.squarePi (rg.run ys y) (0 + 1) (cmpXs false) = .ok [c]
    rw [ppLoop, hdir]
    dsimp only
    rw [ht, ht2, if_neg two_ne_zero, ppLoop]
    exact ⟨_, rfl⟩
  obtain ⟨c, hl⟩ := hloop
  rw [hl]
  dsimp only
  rw [if_neg]
  · exact ⟨_, rfl⟩
  · rintro ⟨k, hk⟩
    exact one_ne_zero hk

/-- A fit after compression with the median as centre. -/
example (y : Fin 2 → ℝ) : ∃ (pinv : Pinv) (f : PpCompFit 2 3), IsGenInverse pinv ∧ cmpMed.base.centre = .median ∧
    (cmpMed.fit none cmpSvd pinv .ols (fun _ t => t 0) cmpX y).2 = .ok (.compressed f) := by
  obtain ⟨pinv, hpi⟩ := exists_pinv
  obtain ⟨g, hg⟩ := cmpMed_fit pinv .ols (fun _ t => t 0) y
  have hq : ∃ f, ppCompressed cmpMed.base cmpSvd pinv .ols (fun _ t => t 0) cmpX y = .ok f := by
    unfold ppCompressed
    dsimp only
    rw [if_neg, cmpX_eq, hg]
    · dsimp only
      rw [if_neg (by simp [cmpMed, cmpConf])]
      exact ⟨_, rfl⟩
    · rintro ⟨k, hk⟩
      rw [cmpX_eq] at hk
      revert hk
      fin_cases k
      · exact mad_two _ (by simp)
      · exact mad_two _ (by simp)
  obtain ⟨f, hf⟩ := hq
  refine ⟨pinv, f, hpi, rfl, ?_⟩
  have h1 : cmpMed.whitened = cmpMed := rfl
  have h2 : cmpMed.withComponents none = cmpMed := rfl
  unfold PpConf.fit
  dsimp only
  rw [h2, h1, if_neg (by simp [cmpMed, cmpConf])]
  dsimp only
  rw [if_neg (by simp [cmpMed, cmpConf]), if_pos ⟨by norm_num, rfl⟩, hf]
  rfl

end Direpack
