import Verif.Props.PPDireEquiv

/-!
Fits of `ppdire` without a response (C57), and histories of fits on one object (C114).
-/

namespace Direpack

open scoped BigOperators
open Spec

variable {n p : ℕ}

lemma ppFit1_inv {pr : PpParams} {pinv : Pinv} {φ : (Fin n → ℝ) → ℝ} {X : Fin n → Fin p → ℝ} {f : PpFit1 n p}
    (h : ppFit1 pr pinv φ X = .ok f) :
    ∃ l, ppLoop pr.optimizer φ pr.squarePi (fun _ => 0) pr.nComponents (if pr.centerData then scaleMat X f.xLoc f.xSca else X) = .ok l ∧
      f.comps = l.map (fun c => { c with crit := 0 }) ∧ f.rot = ppR pinv f.comps ∧ f.locIsMatrix = (! pr.centerData) ∧
      f.xLoc = (fun k => if pr.centerData then pr.centre.loc pr.trimming fun i => X i k else 0) ∧
      f.xSca = (fun k => if pr.centerData then pr.centre.sca pr.scaleData pr.trimming fun i => X i k else 1) := by
  unfold ppFit1 at h
  split at h
  · simp at h
  · split at h
    · simp at h
    · dsimp only at h
      split at h
      · simp at h
      · rename_i l hl
        simp only [Except.ok.injEq] at h
        subst h
        exact ⟨l, hl, rfl, rfl, rfl, rfl, rfl⟩

lemma PpInv.map_crit {E : Fin n → Fin p → ℝ} {reg : (Fin n → ℝ) → ℝ} {l : List (PpComp n p)} (h : PpInv E reg l) :
    PpInv E reg (l.map fun c => { c with crit := 0 }) where
  unit := by intro c hc; obtain ⟨d, hd, rfl⟩ := List.mem_map.mp hc; exact h.unit d hd
  nz := by intro c hc; obtain ⟨d, hd, rfl⟩ := List.mem_map.mp hc; exact h.nz d hd
  reg := by intro c hc; obtain ⟨d, hd, rfl⟩ := List.mem_map.mp hc; exact h.reg d hd
  diag := by intro c hc; obtain ⟨d, hd, rfl⟩ := List.mem_map.mp hc; exact h.diag d hd
  left := by intro u hu c hc; obtain ⟨d, hd, rfl⟩ := List.mem_map.mp hc; exact h.left u hu d hd
  right := by intro u hu c hc; obtain ⟨d, hd, rfl⟩ := List.mem_map.mp hc; exact h.right u hu d hd
  orth := List.pairwise_map.mpr h.orth
  tri := List.pairwise_map.mpr h.tri
  recon := by
    intro c hc i
    obtain ⟨d, hd, rfl⟩ := List.mem_map.mp hc
    rw [h.recon d hd i, List.map_map]
    rfl

/-- C57 without a response: for any optimiser, index and data, the weight vectors of a fitted one-block model have unit length, its score vectors
are nonzero and mutually orthogonal, and for centred data `transform` of the training data gives the scores. -/
theorem C57_one_block (pr : PpParams) (pinv : Pinv) (hp : IsGenInverse pinv) (φ : (Fin n → ℝ) → ℝ) (X : Fin n → Fin p → ℝ)
    (f : PpFit1 n p) (h : ppFit1 pr pinv φ X = .ok f) :
    f.comps.length = pr.nComponents ∧ (∀ a, UnitLen fun k => ppW f.comps k a) ∧
    PairwiseOrthogonal (fun i a => ppT f.comps i a) ∧ (∀ a, ∑ i, ppT f.comps i a ^ 2 ≠ 0) ∧
    (pr.centerData = true → ∀ i a, ∑ k, std1 (X i k) (f.xLoc k) (f.xSca k) * f.rot k a = ppT f.comps i a) := by
  obtain ⟨l, hl, hc, hrot, -⟩ := ppFit1_inv h
  obtain ⟨hlen, hI⟩ := ppLoop_inv _ _ _ hl
  have hI' := hI.map_crit
  rw [← hc] at hI'
  refine ⟨by rw [hc, List.length_map, hlen], fun a => hI'.unit _ (List.get_mem _ _), ?_, fun a => hI'.nz _ (List.get_mem _ _), ?_⟩
  · intro a b hab
    rcases lt_or_gt_of_ne hab with hlt | hgt
    · exact List.pairwise_iff_get.mp hI'.orth a b hlt
    · have := List.pairwise_iff_get.mp hI'.orth b a hgt
      rw [← this]
      exact Finset.sum_congr rfl fun i _ => mul_comm _ _
  · intro hcen i a
    have := ppScores_eq hp hI'
    rw [← hrot] at this
    rw [← this, Matrix.mul_apply]
    refine Finset.sum_congr rfl fun k _ => ?_
    rw [hcen]
    simp only [Matrix.of_apply, if_true, scaleMat, std1]
    split_ifs <;> simp

/-! ### C114 -/

/-- Transforming with the object is transforming with its x-block: a fitted two-block model on a used object. -/
theorem C114_refit_partial (pr : PpParams) (pinv : Pinv) (rg : PpReg) (hist : List PpCall) (φ : (Fin n → ℝ) → (Fin n → ℝ) → ℝ)
    (X : Fin n → Fin p → ℝ) (y : Fin n → ℝ) (f : PpFit n p) (h : ppFit pr pinv rg φ X y = .ok f) :
    let used := hist.foldl (PpObj.after pr pinv rg) PpObj.new
    (∀ {m : ℕ} (Xn : Fin m → Fin p → ℝ),
      (used.after pr pinv rg (.two n p φ X y)).predict Xn = (PpObj.new.after pr pinv rg (.two n p φ X y)).predict Xn ∧
      (used.after pr pinv rg (.two n p φ X y)).predict Xn = f.predict Xn ∧
      (used.after pr pinv rg (.two n p φ X y)).transform Xn = (PpObj.new.after pr pinv rg (.two n p φ X y)).transform Xn) := by
  intro used m Xn
  simp only [PpObj.after, PpObj.fit, h]
  exact ⟨trivial, rfl, trivial⟩

/-- C114 for fits without a response: the scores are those of a new object. -/
theorem C114_one_block_transform (pr : PpParams) (pinv : Pinv) (rg : PpReg) (hist : List PpCall) (φ : (Fin n → ℝ) → ℝ)
    (X : Fin n → Fin p → ℝ) (f : PpFit1 n p) (h : ppFit1 pr pinv φ X = .ok f) {m : ℕ} (Xn : Fin m → Fin p → ℝ) :
    ((hist.foldl (PpObj.after pr pinv rg) PpObj.new).after pr pinv rg (.one n p φ X)).transform Xn
      = (PpObj.new.after pr pinv rg (.one n p φ X)).transform Xn := by
  simp only [PpObj.after, PpObj.fit, h]
  rfl

/-- C114: calls that raise leave the model as it was.  After a successful fit and any number of failed ones, predictions and scores are those of that fit. -/
theorem C114_failed (pr : PpParams) (pinv : Pinv) (rg : PpReg) (o : PpObj) (c : PpCall) (o' : PpObj) (hc : o.fit pr pinv rg c = .ok o')
    (later : List PpCall) (hl : ∀ c ∈ later, match c with
      | .two _ _ φ X y => ∃ e, ppFit pr pinv rg φ X y = .error e
      | .one _ _ φ X => ∃ e, ppFit1 pr pinv φ X = .error e) :
    later.foldl (PpObj.after pr pinv rg) (o.after pr pinv rg c) = o' := by
  have h0 : o.after pr pinv rg c = o' := by unfold PpObj.after; rw [hc]
  rw [h0]
  induction later with
  | nil => rfl
  | cons a l ih =>
    rw [List.foldl_cons]
    have ha := hl a (by simp)
    have : o'.after pr pinv rg a = o' := by
      unfold PpObj.after PpObj.fit
      cases a with
      | two n p φ X y =>
        obtain ⟨e, he⟩ := ha
        simp only [he]
      | one n p φ X =>
        obtain ⟨e, he⟩ := ha
        simp only [he]
    rw [this]
    exact ih fun c hc => hl c (List.mem_cons_of_mem _ hc)

/-- C114 is violated: fitted without a response after a fit with one, `predict` goes on giving the predictions of the earlier fit, whatever the
new data are (even for another number of variables than the model now has); a new object fitted to the same data raises. -/
theorem C114_stale_violated (pr : PpParams) (pinv : Pinv) (rg : PpReg) (hist : List PpCall) (φ : (Fin n → ℝ) → (Fin n → ℝ) → ℝ)
    (X : Fin n → Fin p → ℝ) (y : Fin n → ℝ) (f : PpFit n p) (h : ppFit pr pinv rg φ X y = .ok f) {n2 p2 : ℕ} (φ2 : (Fin n2 → ℝ) → ℝ)
    (X2 : Fin n2 → Fin p2 → ℝ) (f2 : PpFit1 n2 p2) (h2 : ppFit1 pr pinv φ2 X2 = .ok f2) {m : ℕ} (Xn : Fin m → Fin p → ℝ) :
    (((hist.foldl (PpObj.after pr pinv rg) PpObj.new).after pr pinv rg (.two n p φ X y)).after pr pinv rg (.one n2 p2 φ2 X2)).predict Xn
      = f.predict Xn ∧
    (PpObj.new.after pr pinv rg (.one n2 p2 φ2 X2)).predict Xn = .error .attributeError := by
  simp only [PpObj.after, PpObj.fit, h, h2]
  exact ⟨rfl, rfl⟩

/-- A one-block fit that succeeds. -/
theorem ppExFit1 (c : Bool) (pinv : Pinv) (φ : (Fin 3 → ℝ) → ℝ) : ∃ f, ppFit1 (ppExPr c) pinv φ ppExX = .ok f := by
  unfold ppFit1
  rw [if_neg (by simp [ppExPr]), if_neg (by simp [ppExPr, trimOk]; norm_num)]
  dsimp only
  have hm : ∀ k, ppMean 0 (fun i => ppExX i k) = 0 := by
    intro k
    rw [ppMean_zero, mean_eq]
    fin_cases k <;> simp [ppExX, Fin.sum_univ_succ]
    norm_num
  have hX : (if (ppExPr c).centerData = true then
        scaleMat ppExX (fun k => if (ppExPr c).centerData = true then (ppExPr c).centre.loc (ppExPr c).trimming fun i => ppExX i k else 0) fun k =>
          if (ppExPr c).centerData = true then (ppExPr c).centre.sca (ppExPr c).scaleData (ppExPr c).trimming fun i => ppExX i k else 1
      else ppExX) = ppExX := by
    split
    · funext i k
      simp only [scaleMat]
      simp [ppExPr, PpCentre.loc, PpCentre.sca, hm]
    · rfl
  rw [hX]
  obtain ⟨l, hl⟩ := ppEx_loop φ fun _ => 0
  have : ppLoop (ppExPr c).optimizer φ (ppExPr c).squarePi (fun _ => 0) (ppExPr c).nComponents ppExX = .ok l := hl
  rw [this]
  exact ⟨_, rfl⟩

/-- The hypotheses of C114 can be met. -/
example : ∃ (pinv : Pinv) (f : PpFit 3 2) (f2 : PpFit1 3 2), IsGenInverse pinv ∧
    ppFit (ppExPr true) pinv .ols (fun _ t => t 0) ppExX ![1, 5, 2] = .ok f ∧ ppFit1 (ppExPr true) pinv (fun t => t 0) ppExX = .ok f2 := by
  obtain ⟨pinv, h⟩ := exists_pinv
  obtain ⟨f, hf⟩ := ppExFit true pinv .ols (fun _ t => t 0) ![1, 5, 2]
  obtain ⟨f2, hf2⟩ := ppExFit1 true pinv fun t => t 0
  exact ⟨pinv, f, f2, h, hf, hf2⟩

end Direpack
