import Verif.Props.PPFullMedian
import Verif.Props.RMExample

/-! C85: `transform` after compression without centring. -/

namespace Direpack

open scoped BigOperators
open Spec

variable {n p : ℕ}

/-- C85 is violated without centring: after compression with `center_data=False`, `transform` fails for every table, the training data included. -/
theorem C85_uncentred_violated (cf : PpConf) (h : Option ℕ) (svd : PpSvd) (pinv : Pinv) (rg : PpReg) (φ : (Fin n → ℝ) → (Fin n → ℝ) → ℝ)
    (X : Fin n → Fin p → ℝ) (y : Fin n → ℝ) (f : PpCompFit n p) (hf : (cf.fit h svd pinv rg φ X y).2 = .ok (.compressed f)) (hc : cf.base.centerData = false)
    {m : ℕ} (Xn : Fin m → Fin p → ℝ) : ∃ e, f.transform Xn = .error e := by
  obtain ⟨-, -, -, hq⟩ := PpConf.fit_compressed hf
  obtain ⟨hmad, g, -, -, ic, fit, -, -, -, -, rfl⟩ := ppCompressed_inv hq
  have hn : n ≠ 1 := by
    rintro rfl
    refine hmad 0 ?_
    rw [rm_mad_eq, med_pinned (fun i => |ppCompressedX svd X i 0 - med fun i => ppCompressedX svd X i 0|) 0 {0} {0} (by simp) (by simp), zero_div]
    · intro i hi
      rw [med_pinned (fun i => ppCompressedX svd X i 0) (ppCompressedX svd X 0 0) {0} {0} (by simp) (by simp) (by simp) (by simp)]
      rw [Finset.mem_singleton.mp hi]
      simp
    · intro i _
      exact abs_nonneg _
  have hc' : (cf.withComponents h).base.centerData = false := by
    rw [← hc]; unfold PpConf.withComponents; split <;> rfl
  refine ⟨.valueError, ?_⟩
  unfold PpCompFit.transform
  simp only [hc', Bool.false_eq_true, if_false]
  rw [if_neg hn]

/-- One component, no centring, compression. -/
noncomputable def cmpRaw : PpConf := { cmpConf false with base := { (cmpConf false).base with centerData := false } }

lemma cmpRaw_fit (pinv : Pinv) (rg : PpReg) (φ : (Fin 2 → ℝ) → (Fin 2 → ℝ) → ℝ) (y : Fin 2 → ℝ) :
    ∃ g : PpFit 2 2, ppFit cmpRaw.base pinv rg φ ![![2, 0], ![0, 1]] y = .ok g := by
  have hcd : cmpRaw.base.centerData = false := rfl
  unfold ppFit
  rw [if_neg (by simp [cmpRaw, cmpConf]), if_neg (by simp [cmpRaw, cmpConf, trimOk]; norm_num)]
  simp only [hcd, Bool.false_eq_true, if_false]
  have hf : (firstVar (![![2, 0], ![0, 1]] : Fin 2 → Fin 2 → ℝ) : Fin 2 → ℝ) = ![1, 0] := by
    funext k; fin_cases k <;> simp [firstVar]
  have hdir : ppDirection cmpRaw.base.optimizer (φ y) cmpRaw.base.squarePi (![![2, 0], ![0, 1]] : Fin 2 → Fin 2 → ℝ) =
      .ok (![1, 0], φ y (projE ![![2, 0], ![0, 1]] ![1, 0])) := by
    show ppDirection (.ext firstVar) (φ y) _ _ = _
    unfold ppDirection
    simp only [hf]
    have hn : Real.sqrt (∑ k, (![1, 0] : Fin 2 → ℝ) k ^ 2) = 1 := by simp [Fin.sum_univ_succ]
    rw [hn, if_neg one_ne_zero]
    simp
  have ht : projE (![![2, 0], ![0, 1]] : Fin 2 → Fin 2 → ℝ) ![1, 0] = ![2, 0] := by
    funext i; fin_cases i <;> simp [projE, Fin.sum_univ_succ]
  have ht2 : ∑ i, (![2, 0] : Fin 2 → ℝ) i ^ 2 = 4 := by simp [Fin.sum_univ_succ]; norm_num
  have hloop : ∃ c, ppLoop cmpRaw.base.optimizer (φ y) cmpRaw.base.squarePi (rg.run y y) cmpRaw.base.nComponents (![![2, 0], ![0, 1]] : Fin 2 → Fin 2 → ℝ) = .ok [c] := by
    show ∃ c, ppLoop cmpRaw.base.optimizer (φ y) cmpRaw.base.squarePi (rg.run y y) (0 + 1) _ = .ok [c]
    rw [ppLoop, hdir]
    dsimp only
    rw [ht, ht2, if_neg four_ne_zero, ppLoop]
    exact ⟨_, rfl⟩
  obtain ⟨c, hl⟩ := hloop
  rw [hl]
  dsimp only
  rw [if_neg]
  · exact ⟨_, rfl⟩
  · rintro ⟨k, hk⟩
    exact one_ne_zero hk

/-- A fit after compression without centring, and what `transform` does with it. -/
example (y : Fin 2 → ℝ) : ∃ (pinv : Pinv) (f : PpCompFit 2 3), IsGenInverse pinv ∧
    (cmpRaw.fit none cmpSvd pinv .ols (fun _ t => t 0) cmpX y).2 = .ok (.compressed f) ∧ ∃ e, f.transform cmpX = .error e := by
  obtain ⟨pinv, hpi⟩ := exists_pinv
  obtain ⟨g, hg⟩ := cmpRaw_fit pinv .ols (fun _ t => t 0) y
  have hq : ∃ f, ppCompressed cmpRaw.base cmpSvd pinv .ols (fun _ t => t 0) cmpX y = .ok f := by
    unfold ppCompressed
    dsimp only
    rw [if_neg, cmpX_eq, hg]
    · dsimp only
      rw [if_neg (by simp [cmpRaw, cmpConf])]
      exact ⟨_, rfl⟩
    · rintro ⟨k, hk⟩
      rw [cmpX_eq] at hk
      revert hk
      fin_cases k
      · exact mad_two _ (by simp)
      · exact mad_two _ (by simp)
  obtain ⟨f, hf⟩ := hq
  have hfit : (cmpRaw.fit none cmpSvd pinv .ols (fun _ t => t 0) cmpX y).2 = .ok (.compressed f) := by
    have h1 : cmpRaw.whitened = cmpRaw := rfl
    have h2 : cmpRaw.withComponents none = cmpRaw := rfl
    unfold PpConf.fit
    dsimp only
    rw [h2, h1, if_neg (by simp [cmpRaw, cmpConf])]
    dsimp only
    rw [if_neg (by simp [cmpRaw, cmpConf]), if_pos ⟨by norm_num, rfl⟩, hf]
    rfl
  exact ⟨pinv, f, hpi, hfit, C85_uncentred_violated cmpRaw none cmpSvd pinv .ols _ cmpX y f hfit rfl cmpX⟩

end Direpack
