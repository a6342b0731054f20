import Verif.Props.SniplsNaN
import Verif.Props.Snipls
import Mathlib.Tactic.FieldSimp
import Mathlib.Tactic.Linarith

/-! Property C156, continued: cases without a response. -/

namespace Direpack

open scoped BigOperators
open Spec

/-- The cases twice. -/
def Spec.twice {n p : ℕ} (X : Fin n → Fin p → ℝ) : NMat ℝ (n + n) p := Fin.append (complete X) (complete X)

/-- The responses of the first half; the second half has none. -/
def Spec.firstHalf {n : ℕ} (y : Fin n → ℝ) : Fin (n + n) → Option ℝ := Fin.append (completeV y) fun _ => none

section

variable {n p : ℕ} (X : Fin n → Fin p → ℝ)

lemma twice_cross (z : Fin n → ℝ) : nandot (twice X).tr (firstHalf z) = fun j => ∑ i, X i j * z i := by
  funext j
  rw [nandot_eq, Fin.sum_univ_add]
  simp [-Fin.natAdd_eq_addNat, NMat.tr, twice, firstHalf, complete, completeV, zval]

lemma twice_gram : nanmatdot (twice X).tr (twice X) = fun j k => 2 * ∑ i, X i j * X i k := by
  funext j k
  rw [nanmatdot_eq, Fin.sum_univ_add]
  simp only [NMat.tr, twice, complete, zval, Fin.append_left, Fin.append_right, Option.getD_some, mul_comm (X _ k)]
  ring

lemma twice_scores (w : Fin p → ℝ) : nandot (twice X) (fun j => some (w j)) = Fin.append (fun i => ∑ j, X i j * w j) (fun i => ∑ j, X i j * w j) := by
  funext i
  rw [nandot_eq]
  refine Fin.addCases (fun i => ?_) (fun i => ?_) i <;> simp [-Fin.natAdd_eq_addNat, twice, complete, zval]

lemma twice_loads (t : Fin n → ℝ) : nandot (twice X).tr (fun i => some (Fin.append t t i)) = fun j => 2 * ∑ i, X i j * t i := by
  funext j
  rw [nandot_eq, Fin.sum_univ_add]
  simp only [NMat.tr, twice, complete, zval, Fin.append_left, Fin.append_right, Option.getD_some]
  ring

lemma twice_sq (t : Fin n → ℝ) : ∑ i, Fin.append t t i ^ 2 = 2 * ∑ i, t i ^ 2 := by
  rw [Fin.sum_univ_add]
  simp only [Fin.append_left, Fin.append_right]
  ring

lemma half_resp (z t : Fin n → ℝ) : nandot (asColN (firstHalf z)).tr (fun i => some (Fin.append t t i)) 0 = ∑ i, z i * t i := by
  rw [nandot_eq, Fin.sum_univ_add]
  simp [-Fin.natAdd_eq_addNat, NMat.tr, asColN, firstHalf, completeV, zval]

lemma twice_deflate (t : Fin n → ℝ) (ph : Fin p → ℝ) :
    (fun i j => (twice X i j).map (· - Fin.append t t i * ph j)) = twice fun i j => X i j - t i * ph j := by
  funext i j
  refine Fin.addCases (fun i => ?_) (fun i => ?_) i <;> simp [-Fin.natAdd_eq_addNat, twice, complete]

lemma half_deflate (z t : Fin n → ℝ) (c : ℝ) : (fun i => (firstHalf z i).map (· - Fin.append t t i * c)) = firstHalf fun i => z i - t i * c := by
  funext i
  refine Fin.addCases (fun i => ?_) (fun i => ?_) i <;> simp [-Fin.natAdd_eq_addNat, firstHalf, completeV]

end

/-- The component for the cases taken twice. -/
noncomputable def twiceComp {n p : ℕ} (c : SnComp n p) : SnComp (n + n) p := ⟨c.w, c.load, c.c / 2, Fin.append c.t c.t, c.good⟩

lemma snLoopN_twice {n p : ℕ} (eta : ℝ) : ∀ (h : ℕ) (X : Fin n → Fin p → ℝ) (y z : Fin n → ℝ) (old : Finset (Fin p)),
    (∀ j, ∑ i, X i j * z i = ∑ i, X i j * y i) → snLoopN eta h (twice X) (firstHalf z) old = (snLoop eta h X y old).map (List.map twiceComp)
  | 0, _, _, _, _, _ => rfl
  | h + 1, X, y, z, old, hz => by
    have hs : nandot (twice X).tr (firstHalf z) = fun j => ∑ i, X i j * y i := by
      rw [twice_cross]; funext j; exact hz j
    have hzt : ∀ w : Fin p → ℝ, ∑ i, z i * (∑ j, X i j * w j) = ∑ i, y i * (∑ j, X i j * w j) := by
      intro w
      have : ∀ v : Fin n → ℝ, ∑ i, v i * (∑ j, X i j * w j) = ∑ j, w j * ∑ i, X i j * v i := by
        intro v
        simp only [Finset.mul_sum]
        rw [Finset.sum_comm]
        exact Finset.sum_congr rfl fun j _ => Finset.sum_congr rfl fun i _ => by ring
      rw [this, this]
      exact Finset.sum_congr rfl fun j _ => by rw [hz j]
    have h2 : ∀ a : ℝ, (2 * a = 0) = (a = 0) := fun a => by simp
    have hph : ∀ a b : ℝ, 2 * a / (2 * b) = a / b := fun a b => mul_div_mul_left a b two_ne_zero
    have hwt : (snWeightsOf eta fun j => ∑ i, X i j * y i) = snWeights eta X y := rfl
    have hrec : ∀ (w : Fin p → ℝ) (good : Finset (Fin p)), (∑ i, (∑ j, X i j * w j) ^ 2) ≠ 0 →
        snLoopN eta h (twice fun i j => X i j - (∑ j, X i j * w j) * ((∑ i, X i j * ∑ j, X i j * w j) / ∑ i, (∑ j, X i j * w j) ^ 2))
          (firstHalf fun i => z i - (∑ j, X i j * w j) * ((∑ i, y i * ∑ j, X i j * w j) / (2 * ∑ i, (∑ j, X i j * w j) ^ 2))) good =
        (snLoop eta h (fun i j => X i j - (∑ j, X i j * w j) * ((∑ i, X i j * ∑ j, X i j * w j) / ∑ i, (∑ j, X i j * w j) ^ 2))
          (fun i => y i - (∑ j, X i j * w j) * ((∑ i, y i * ∑ j, X i j * w j) / ∑ i, (∑ j, X i j * w j) ^ 2)) good).map (List.map twiceComp) := by
      intro w good hne
      apply snLoopN_twice
      intro j
      have hz' := hzt w
      set t : Fin n → ℝ := fun i => ∑ j, X i j * w j with ht
      have hne' : (∑ i, t i ^ 2) ≠ 0 := hne
      change ∑ i, (X i j - t i * ((∑ i, X i j * t i) / ∑ i, t i ^ 2)) * (z i - t i * ((∑ i, y i * t i) / (2 * ∑ i, t i ^ 2))) =
        ∑ i, (X i j - t i * ((∑ i, X i j * t i) / ∑ i, t i ^ 2)) * (y i - t i * ((∑ i, y i * t i) / ∑ i, t i ^ 2))
      have key : ∀ (v : Fin n → ℝ) (c : ℝ), ∑ i, (X i j - t i * ((∑ i, X i j * t i) / ∑ i, t i ^ 2)) * (v i - t i * c) =
          ∑ i, X i j * v i - (∑ i, X i j * t i) / (∑ i, t i ^ 2) * ∑ i, v i * t i := by
        intro v c
        have e : ∀ i, (X i j - t i * ((∑ i, X i j * t i) / ∑ i, t i ^ 2)) * (v i - t i * c) =
            X i j * v i - c * (X i j * t i) - (∑ i, X i j * t i) / (∑ i, t i ^ 2) * (v i * t i) + c * ((∑ i, X i j * t i) / (∑ i, t i ^ 2)) * t i ^ 2 := fun i => by ring
        simp only [e, Finset.sum_add_distrib, Finset.sum_sub_distrib, ← Finset.mul_sum]
        have e2 : c * ((∑ i, X i j * t i) / ∑ i, t i ^ 2) * ∑ i, t i ^ 2 = c * ∑ i, X i j * t i := by
          rw [mul_assoc, div_mul_cancel₀ _ hne']
        rw [e2]
        ring
      rw [key, key, hz j]
      have : ∑ i, z i * t i = ∑ i, y i * t i := hz'
      rw [this]
    rw [snLoopN, snLoop]
    simp only [hs, twice_scores, twice_sq, half_resp, twice_loads, h2, hph, twice_deflate, half_deflate, hzt, hwt]
    by_cases h0 : ∀ j, ∑ i, X i j * y i = 0
    · rw [if_pos h0, if_pos h0]
      split_ifs <;> rfl
    · rw [if_neg h0, if_neg h0]
      by_cases h1 : old ∪ Finset.univ.filter (fun j => 0 < (snWeights eta X y).1 j) = ∅
      · rw [if_pos h1, if_pos h1]; rfl
      · rw [if_neg h1, if_neg h1]
        set good := old ∪ Finset.univ.filter (fun j => 0 < (snWeights eta X y).1 j) with hg
        set w : Fin p → ℝ := fun j => if j ∈ good then (snWeights eta X y).2 j else 0 with hw
        by_cases h3 : ∑ i, (∑ j, X i j * w j) ^ 2 = 0
        · rw [if_pos h3, if_pos h3]; rfl
        · rw [if_neg h3, if_neg h3]
          have hr := hrec w good h3
          rw [hr]
          have hc : (∑ i, y i * ∑ j, X i j * w j) / (2 * ∑ i, (∑ j, X i j * w j) ^ 2) = (∑ i, y i * ∑ j, X i j * w j) / (∑ i, (∑ j, X i j * w j) ^ 2) / 2 := by
            rw [div_div, mul_comm]
          rw [hc]
          generalize snLoop eta h _ _ good = r
          cases r <;> rfl

/-! ### Coefficients -/

lemma npInv_smul {k : ℕ} (A : Matrix (Fin k) (Fin k) ℝ) : npInv ((2 : ℝ) • A) = (npInv A).map fun M => (1 / 2 : ℝ) • M := by
  unfold npInv
  have hd : ((2 : ℝ) • A).det = 0 ↔ A.det = 0 := by
    rw [Matrix.det_smul]
    simp
  by_cases h : A.det = 0
  · rw [if_pos h, if_pos (hd.2 h)]; rfl
  · rw [if_neg h, if_neg (fun e => h (hd.1 e))]
    have : ((2 : ℝ) • A)⁻¹ = (1 / 2 : ℝ) • A⁻¹ := by
      apply Matrix.inv_eq_right_inv
      rw [Matrix.smul_mul, Matrix.mul_smul, smul_smul, Matrix.mul_nonsing_inv _ (isUnit_iff_ne_zero.2 h)]
      norm_num
    rw [this]; rfl

lemma coefOf_two {p : ℕ} (k : ℕ) (W P : Matrix (Fin p) (Fin k) ℝ) (S : Matrix (Fin p) (Fin p) ℝ) (s0 : Fin p → ℝ) :
    coefOf k W P ((2 : ℝ) • S) s0 = (coefOf k W P S s0).map fun r => (r.1, fun j => r.2 j / 2) := by
  unfold coefOf
  split_ifs
  · simp [Except.map]
  · have e : W.transpose * ((2 : ℝ) • S) * W = (2 : ℝ) • (W.transpose * S * W) := by
      rw [Matrix.mul_smul, Matrix.smul_mul]
    rw [e, npInv_smul]
    cases npInv (P.transpose * W) with
    | error e => rfl
    | ok M1 =>
      cases npInv (W.transpose * S * W) with
      | error e => rfl
      | ok M2 =>
        simp only [bind, Except.bind, Except.map]
        congr 2
        funext j
        rw [Matrix.smul_mul, Matrix.mul_smul, Matrix.smul_mulVec]
        simp
        ring

lemma snCoefN_twice {n p : ℕ} (X : Fin n → Fin p → ℝ) (y : Fin n → ℝ) (l : List (SnComp n p)) :
    (snCoefN (twice X) (firstHalf y) (l.map twiceComp)).map Prod.snd = (snCoef X y l).map fun r => fun j => r.2 j / 2 := by
  have e : (snCoefN (twice X) (firstHalf y) (l.map twiceComp)).map Prod.snd =
      (coefOf l.length (compW l) (compP l) ((2 : ℝ) • Matrix.of fun j k => ∑ i, X i j * X i k) (fun j => ∑ i, X i j * y i)).map Prod.snd := by
    rw [snCoefN_coefOf, twice_gram, twice_cross]
    refine coefOf_cast (List.length_map _) _ _ ?_ ?_
    · intro j a
      simp [compW, twiceComp]
    · intro j a
      simp [compP, twiceComp]
  rw [e, coefOf_two]
  have e2 : snCoef X y l = coefOf l.length (compW l) (compP l) (Matrix.of fun j k => ∑ i, X i j * X i k) (fun j => ∑ i, X i j * y i) := rfl
  rw [e2]
  cases coefOf l.length (compW l) (compP l) (Matrix.of fun j k => ∑ i, X i j * X i k) (fun j => ∑ i, X i j * y i) <;> rfl

/-! ### Location and scale -/

lemma available_twice {n p : ℕ} (X : Fin n → Fin p → ℝ) (j : Fin p) : available (twice X) j = (List.ofFn fun i => X i j) ++ List.ofFn fun i => X i j := by
  have h : (List.ofFn fun i => twice X i j) = (List.ofFn fun i => complete X i j) ++ List.ofFn fun i => complete X i j := by
    rw [← List.ofFn_fin_append]
    congr 1
    funext i
    refine Fin.addCases (fun i => ?_) (fun i => ?_) i <;> simp [-Fin.natAdd_eq_addNat, twice]
  unfold available
  rw [h, List.filterMap_append]
  have := available_complete X j
  unfold available at this
  rw [this]

lemma available_half {n : ℕ} (y : Fin n → ℝ) : available (asColN (firstHalf y)) 0 = List.ofFn y := by
  have h : (List.ofFn fun i => asColN (firstHalf y) i 0) = (List.ofFn fun i => completeV y i) ++ List.ofFn fun _ : Fin n => none := by
    rw [← List.ofFn_fin_append]
    rfl
  unfold available
  rw [h, List.filterMap_append]
  have := available_complete (asCol y) 0
  unfold available complete asCol at this
  unfold completeV
  rw [this, List.ofFn_const, List.filterMap_replicate]
  simp

lemma meanL_double (l : List ℝ) : meanL (l ++ l) = meanL l := by
  unfold meanL
  rw [List.sum_append, List.length_append]
  by_cases h : (l.length : ℝ) = 0
  · have : l = [] := by
      have : l.length = 0 := by exact_mod_cast h
      exact List.length_eq_zero_iff.1 this
    simp [this]
  · push_cast
    field_simp

lemma varL_double (l : List ℝ) : varL (l ++ l) = varL l := by
  unfold varL
  rw [meanL_double, List.map_append, meanL_double]

lemma run_twice {n p : ℕ} (hn : 0 < n) (X : Fin n → Fin p → ℝ) (j : Fin p) : NCentre.mean.run (twice X) j = some (Centre.mean.run X j) ∧
    (∀ s : NScale, s ≠ .mad → s.run (twice X) j = some (s.full.run X j)) := by
  have hne : (List.ofFn fun i => X i j) ++ (List.ofFn fun i => X i j) ≠ [] := by
    have := ofFn_ne_nil hn fun i => X i j
    simpa using this
  refine ⟨?_, fun s hs => ?_⟩
  · show meanNaN _ _ = _
    rw [C12_mean_missing]; unfold onAvailable
    rw [available_twice, if_neg hne, meanL_double]; rfl
  · cases s with
    | mad => exact absurd rfl hs
    | noneOpt => rfl
    | std =>
      show stdNaN _ _ _ = _
      rw [C12_std_missing]; unfold onAvailable
      rw [available_twice, if_neg hne]; dsimp only; rw [varL_double]; rfl

/-! ### The claim fails -/

/-- C156 is violated by cases without a response: if to any complete data set (centre `mean`, scale `std` or `None`) one adds its cases again without their responses, all
coefficients are halved, for every number of components and every sparsity; the predictions are half way between the old ones and the mean response. -/
theorem C156_unlabelled_violated {n p : ℕ} (hn : 0 < n) (pr : SnParamsN) (hc : pr.centre = .mean) (hs : pr.scale ≠ .mad) (X : Fin n → Fin p → ℝ) (y : Fin n → ℝ)
    (f : SnFit n p) (hf : snFit pr.full X y = .ok f) :
    ∃ f2, snFitNaN pr (twice X) (firstHalf y) = .ok f2 ∧ (∀ j, f2.coef j = f.coef j / 2) ∧
      ∀ x : Fin p → ℝ, f2.predict (completeV x) = some (((∑ j, x j * f.coef j + f.intercept) + mean y) / 2) := by
  rw [snFitNaN_eq (by omega)]
  obtain ⟨eta, nc, c, s⟩ := pr
  dsimp only at hc hs
  subst hc
  have hmX : NCentre.mean.run (twice X) = fun j => some (Centre.mean.run X j) := funext fun j => (run_twice hn X j).1
  have hsX : s.run (twice X) = fun j => some (s.full.run X j) := funext fun j => (run_twice hn X j).2 s hs
  have hav : available (asColN (firstHalf y)) 0 = available (complete (asCol y)) 0 := by rw [available_half, available_complete]; rfl
  have hmy : NCentre.mean.run (asColN (firstHalf y)) 0 = some (Centre.mean.run (asCol y) 0) := (ncentre_congr _ hav).trans (centre_complete hn _ _ _)
  have hsy : s.run (asColN (firstHalf y)) 0 = some (s.full.run (asCol y) 0) := (nscale_congr _ hav).trans (scale_complete hn _ _ _)
  have hX0 : scaleMatN (twice X) (fun j => some (Centre.mean.run X j)) (fun j => some (s.full.run X j)) = twice (scaleMat X (Centre.mean.run X) (s.full.run X)) := by
    funext i j
    refine Fin.addCases (fun i => ?_) (fun i => ?_) i <;> simp [-Fin.natAdd_eq_addNat, twice, scaleMatN, complete, scaleCell, scaleMat]
  have hy0 : (fun i => scaleCell (firstHalf y i) (some (Centre.mean.run (asCol y) 0)) (some (s.full.run (asCol y) 0))) =
      firstHalf (fun i => scaleMat (asCol y) (Centre.mean.run (asCol y)) (s.full.run (asCol y)) i 0) := by
    funext i
    refine Fin.addCases (fun i => ?_) (fun i => ?_) i <;> simp [-Fin.natAdd_eq_addNat, firstHalf, completeV, scaleCell, scaleMat, asCol]
  obtain ⟨-, e1, e2, e3, e4, hne, hl, hcf, hco, hint, -, -⟩ := snFit_inv hf
  have e1' : f.xLoc = Centre.mean.run X := e1
  have e2' : f.xSca = s.full.run X := e2
  have e3' : f.yLoc = Centre.mean.run (asCol y) 0 := e3
  have e4' : f.ySca = s.full.run (asCol y) 0 := e4
  have hX1 : scaleMat X (Centre.mean.run X) (s.full.run X) = stdMat X f.xLoc f.xSca := by rw [scaleMat_eq, e1', e2']
  have hy1 : (fun i => scaleMat (asCol y) (Centre.mean.run (asCol y)) (s.full.run (asCol y)) i 0) = stdVec y f.yLoc f.ySca := by
    rw [scaleMat_eq, e3', e4']; rfl
  have hl' : snLoop eta nc (stdMat X f.xLoc f.xSca) (stdVec y f.yLoc f.ySca) ∅ = .ok f.comps := hl
  have hloop : snLoopN eta nc (twice (stdMat X f.xLoc f.xSca)) (firstHalf (stdVec y f.yLoc f.ySca)) ∅ = .ok (f.comps.map twiceComp) := by
    rw [snLoopN_twice eta nc _ (stdVec y f.yLoc f.ySca) _ ∅ fun j => rfl, hl']; rfl
  have hcoef := snCoefN_twice (stdMat X f.xLoc f.xSca) (stdVec y f.yLoc f.ySca) f.comps
  rw [hcf] at hcoef
  obtain ⟨R2, hR2⟩ : ∃ R2, snCoefN (twice (stdMat X f.xLoc f.xSca)) (firstHalf (stdVec y f.yLoc f.ySca)) (f.comps.map twiceComp) =
      .ok (R2, fun j => f.coefScaled j / 2) := by
    revert hcoef
    cases snCoefN (twice (stdMat X f.xLoc f.xSca)) (firstHalf (stdVec y f.yLoc f.ySca)) (f.comps.map twiceComp) with
    | error e => intro h; cases h
    | ok r =>
      intro h
      have : r.2 = fun j => f.coefScaled j / 2 := by simpa [Except.map] using h
      exact ⟨r.1, by rw [← this]⟩
  have hres : ∀ j, rescaledN (some f.ySca) (fun j => some (f.xSca j)) (fun j => f.coefScaled j / 2) j = some (f.coef j / 2) := by
    intro j
    show (if f.xSca j = 0 then none else some (f.ySca / f.xSca j * (f.coefScaled j / 2))) = _
    rw [if_neg (hne j), hco j]
    congr 1
    ring
  have hyp : nandot (twice X) (fun j => some (f.coef j / 2)) = Fin.append (fun i => ∑ j, X i j * (f.coef j / 2)) (fun i => ∑ j, X i j * (f.coef j / 2)) :=
    twice_scores X _
  have hr : (List.ofFn fun i => (firstHalf y i).map (· - nandot (twice X) (fun j => some (f.coef j / 2)) i)).filterMap id =
      List.ofFn fun i => y i - ∑ j, X i j * (f.coef j / 2) := by
    rw [hyp]
    have : (fun i => (firstHalf y i).map (· - Fin.append (fun i => ∑ j, X i j * (f.coef j / 2)) (fun i => ∑ j, X i j * (f.coef j / 2)) i)) =
        firstHalf fun i => y i - ∑ j, X i j * (f.coef j / 2) := by
      funext i
      refine Fin.addCases (fun i => ?_) (fun i => ?_) i <;> simp [-Fin.natAdd_eq_addNat, firstHalf, completeV]
    rw [this]
    exact available_half _
  have hfit : ∃ f2, snFitBranch ⟨eta, nc, .mean, s⟩ (twice X) (firstHalf y) = .ok f2 ∧ f2.coef = (fun j => f.coef j / 2) ∧
      f2.intercept = mean fun i => y i - ∑ j, X i j * (f.coef j / 2) := by
    unfold snFitBranch
    dsimp only
    rw [hmX, hsX, hmy, hsy, hX0, hy0, hX1, hy1, hloop]
    dsimp only
    rw [hR2, ← e2', ← e4', ← e1', ← e3']
    dsimp only
    rw [if_neg (by rintro ⟨j, h⟩; rw [hres] at h; cases h)]
    simp only [hres, Option.getD_some]
    have hi : snInterceptN .mean (fun i => (firstHalf y i).map (· - nandot (twice X) (fun j => some (f.coef j / 2)) i)) =
        some (mean fun i => y i - ∑ j, X i j * (f.coef j / 2)) := by
      show npNanReduce _ _ = _
      unfold npNanReduce
      rw [hr, if_neg (ofFn_ne_nil hn _)]
      rfl
    rw [hi]
    exact ⟨_, rfl, rfl, rfl⟩
  obtain ⟨f2, h1, h2, h3⟩ := hfit
  refine ⟨f2, h1, fun j => by rw [h2], ?_⟩
  intro x
  unfold SnFitN.predict
  rw [if_neg (by rintro ⟨j, h⟩; cases h)]
  congr 1
  rw [h2, h3]
  show ∑ j, x j * (f.coef j / 2) + mean (fun i => y i - ∑ j, X i j * (f.coef j / 2)) = _
  have hint' : f.intercept = mean fun i => y i - lin X f.coef i := hint
  have hn' : (n : ℝ) ≠ 0 := by exact_mod_cast hn.ne'
  have m1 : mean (fun i => y i - ∑ j, X i j * (f.coef j / 2)) = (mean (fun i => y i - lin X f.coef i) + mean y) / 2 := by
    unfold mean meanL
    simp only [List.sum_ofFn, List.length_ofFn]
    have : ∀ i, y i - ∑ j, X i j * (f.coef j / 2) = ((y i - lin X f.coef i) + y i) / 2 := by
      intro i
      have : ∑ j, X i j * (f.coef j / 2) = lin X f.coef i / 2 := by
        unfold lin
        rw [Finset.sum_div]
        exact Finset.sum_congr rfl fun j _ => by ring
      rw [this]; ring
    simp only [this, ← Finset.sum_div, Finset.sum_add_distrib]
    ring
  rw [m1, hint']
  have : ∑ j, x j * (f.coef j / 2) = (∑ j, x j * f.coef j) / 2 := by
    rw [Finset.sum_div]
    exact Finset.sum_congr rfl fun j _ => by ring
  rw [this]
  ring

end Direpack
