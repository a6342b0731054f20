import Mathlib.Tactic.Linarith
import Mathlib.Tactic.FieldSimp
import Mathlib.Tactic.Ring
import Verif.Props.Krylov
import Verif.Props.Nested

/-! Property C183: without sparsity SNIPLS shrinks; the scaled coefficients grow with the number of components and are never longer than those of least squares. -/

set_option linter.unusedSectionVars false

namespace Direpack

open scoped BigOperators
open Matrix Spec

variable {n p : ℕ}

lemma dotProduct_self_nonneg' {k : ℕ} (u : Fin k → ℝ) : 0 ≤ u ⬝ᵥ u := Finset.sum_nonneg fun i _ => mul_self_nonneg (u i)

/-- The loadings that the deflation uses. -/
noncomputable def plsLoad (X : Matrix (Fin n) (Fin p) ℝ) (t : Fin n → ℝ) : Fin p → ℝ := fun j => (t ᵥ* X) j / (t ⬝ᵥ t)

/-- The coefficients, component by component from the last one on (a proof device, equal to `coefScaled` by `coefScaled_eq_plsB`). -/
noncomputable def plsB : Matrix (Fin n) (Fin p) ℝ → List (SnComp n p) → Fin p → ℝ
  | _, [] => 0
  | X, a :: l => (a.c - plsLoad X a.t ⬝ᵥ plsB (X - vecMulVec a.t (plsLoad X a.t)) l) • a.w + plsB (X - vecMulVec a.t (plsLoad X a.t)) l

lemma plsLoad_dot (X : Matrix (Fin n) (Fin p) ℝ) (t : Fin n → ℝ) (u : Fin p → ℝ) : plsLoad X t ⬝ᵥ u = (t ⬝ᵥ (X *ᵥ u)) / (t ⬝ᵥ t) := by
  rw [dotProduct_mulVec]
  simp only [plsLoad, dotProduct, Finset.sum_div]
  exact Finset.sum_congr rfl fun j _ => by ring

lemma deflate_mulVec (X : Matrix (Fin n) (Fin p) ℝ) (t : Fin n → ℝ) (q u : Fin p → ℝ) : (X - vecMulVec t q) *ᵥ u = X *ᵥ u - (q ⬝ᵥ u) • t := by
  rw [sub_mulVec, vecMulVec_mulVec]
  simp

/-- What one step of the loop without sparsity does. -/
lemma pls_step {X : Matrix (Fin n) (Fin p) ℝ} {y t : Fin n → ℝ} {w : Fin p → ℝ} {c : ℝ} {good : Finset (Fin p)} (hcov : ¬ ∀ j, ∑ i, X i j * y i = 0)
    (hg : ∀ j, 0 < (snWeights 0 X y).1 j → j ∈ good) (hw : w = fun j => if j ∈ good then (snWeights 0 X y).2 j else 0) (ht : t = X *ᵥ w) (hnz : t ⬝ᵥ t ≠ 0)
    (hc : c = (y ⬝ᵥ t) / (t ⬝ᵥ t)) :
    ∃ a : ℝ, 0 < a ∧ w = a • (y ᵥ* X) ∧ 0 < w ⬝ᵥ w ∧ 0 < y ⬝ᵥ t ∧ 0 < c ∧ (X - vecMulVec t (plsLoad X t)) *ᵥ w = 0 ∧
      (y - c • t) ᵥ* (X - vecMulVec t (plsLoad X t)) = y ᵥ* X - (y ⬝ᵥ t) • plsLoad X t := by
  obtain ⟨a, ha, hwa⟩ := snWeights_pls X y hcov good hg
  have hwa' : w = a • (y ᵥ* X) := by rw [hw, hwa, vecMul_crossVec]
  have hs : y ᵥ* X ≠ 0 := by
    intro h
    apply hcov
    intro j
    have := congrFun h j
    rw [vecMul_crossVec] at this
    exact this
  have hss : 0 < (y ᵥ* X) ⬝ᵥ (y ᵥ* X) := by
    rcases (dotProduct_self_nonneg' (y ᵥ* X)).lt_or_eq with h | h
    · exact h
    · exact absurd (dotProduct_self_eq_zero.mp h.symm) hs
  have hyt : y ⬝ᵥ t = a * ((y ᵥ* X) ⬝ᵥ (y ᵥ* X)) := by
    rw [ht, dotProduct_mulVec, hwa', dotProduct_smul, smul_eq_mul]
  have hpos : 0 < y ⬝ᵥ t := by rw [hyt]; positivity
  have htt : 0 < t ⬝ᵥ t := lt_of_le_of_ne (dotProduct_self_nonneg' t) (Ne.symm hnz)
  refine ⟨a, ha, hwa', ?_, hpos, by rw [hc]; positivity, ?_, ?_⟩
  · rw [hwa', smul_dotProduct, dotProduct_smul, smul_eq_mul, smul_eq_mul]; positivity
  · rw [deflate_mulVec, plsLoad_dot, ← ht, div_self hnz, one_smul, sub_self]
  · have h0 : (y - c • t) ⬝ᵥ t = 0 := by
      rw [sub_dotProduct, smul_dotProduct, hc, smul_eq_mul, div_mul_cancel₀ _ hnz, sub_self]
    rw [vecMul_sub, vecMul_vecMulVec, h0]
    rw [sub_vecMul]
    funext j
    simp only [Pi.sub_apply, smul_vecMul, Pi.smul_apply, smul_eq_mul, plsLoad, hc]
    simp
    field_simp

/-- The coefficients give the part of the response that the components explain. -/
lemma SnRun.plsB_fit {eta : ℝ} {X : Matrix (Fin n) (Fin p) ℝ} {y : Fin n → ℝ} {old : Finset (Fin p)} {l : List (SnComp n p)} (h : SnRun eta X y old l) :
    X *ᵥ plsB X l = y - unexplained y l := by
  induction h with
  | stop => funext i; simp [plsB, unexplained]
  | step X y old good w t c ld l hcov hg hne hw ht hnz hc hld hrun ih =>
    rw [unexplained_cons]
    have e : (fun i => y i - t i * c) = y - c • t := by funext i; simp [mul_comm]
    simp only [e]
    simp only [plsB]
    change (X - vecMulVec t (plsLoad X t)) *ᵥ plsB (X - vecMulVec t (plsLoad X t)) l = _ at ih
    rw [mulVec_add, mulVec_smul, ← ht]
    rw [deflate_mulVec] at ih
    rw [sub_eq_iff_eq_add] at ih
    rw [ih]
    funext i
    simp only [Pi.add_apply, Pi.sub_apply, Pi.smul_apply, smul_eq_mul]
    ring

/-- Weights and coefficients are orthogonal to everything that the predictors map to zero. -/
lemma SnRun.plsB_null {X : Matrix (Fin n) (Fin p) ℝ} {y : Fin n → ℝ} {old : Finset (Fin p)} {l : List (SnComp n p)} (h : SnRun 0 X y old l) (u : Fin p → ℝ)
    (hu : X *ᵥ u = 0) : (∀ k, u ⬝ᵥ plsB X (l.take k) = 0) ∧ ∀ a ∈ l, u ⬝ᵥ a.w = 0 := by
  induction h with
  | stop => exact ⟨fun k => by simp [plsB], fun a ha => by simp at ha⟩
  | step X y old good w t c ld l hcov hg hne hw ht hnz hc hld hrun ih =>
    obtain ⟨a, ha, hwa, -⟩ := pls_step hcov (fun j hj => by rw [hg]; exact Finset.mem_union_right _ (by simpa using hj)) hw ht hnz hc
    have h1 : u ⬝ᵥ w = 0 := by
      rw [hwa, dotProduct_smul, dotProduct_comm, ← dotProduct_mulVec, hu, dotProduct_zero, smul_zero]
    have h2 : (X - vecMulVec t (plsLoad X t)) *ᵥ u = 0 := by
      rw [deflate_mulVec, plsLoad_dot, hu, dotProduct_zero, zero_div, zero_smul, sub_zero]
    obtain ⟨h3, h4⟩ := ih h2
    refine ⟨fun k => ?_, fun b hb => ?_⟩
    · cases k with
      | zero => simp [plsB]
      | succ k =>
        simp only [List.take_succ_cons, plsB]
        rw [dotProduct_add, dotProduct_smul, h1, smul_zero, zero_add]
        exact h3 k
    · rcases List.mem_cons.mp hb with rfl | hb
      · exact h1
      · exact h4 b hb

/-- With every further component the coefficients get longer, and so does their covariance with the response. -/
lemma SnRun.plsB_mono {X : Matrix (Fin n) (Fin p) ℝ} {y : Fin n → ℝ} {old : Finset (Fin p)} {l : List (SnComp n p)} (h : SnRun 0 X y old l) (k m : ℕ) (hkm : k < m)
    (hm : m ≤ l.length) :
    0 ≤ (y ᵥ* X) ⬝ᵥ plsB X (l.take k) ∧ (y ᵥ* X) ⬝ᵥ plsB X (l.take k) < (y ᵥ* X) ⬝ᵥ plsB X (l.take m) ∧
      plsB X (l.take k) ⬝ᵥ plsB X (l.take k) < plsB X (l.take m) ⬝ᵥ plsB X (l.take m) := by
  induction h generalizing k m with
  | stop => simp at hm; omega
  | step X y old good w t c ld l hcov hg hne hw ht hnz hc hld hrun ih =>
    obtain ⟨a, ha, hwa, hww, hyt, hc0, hXw, hs'⟩ := pls_step hcov (fun j hj => by rw [hg]; exact Finset.mem_union_right _ (by simpa using hj)) hw ht hnz hc
    obtain ⟨m, rfl⟩ : ∃ m', m = m' + 1 := ⟨m - 1, by omega⟩
    have hm' : m ≤ l.length := by simpa using hm
    set X' := X - vecMulVec t (plsLoad X t) with hX'
    have hnull := fun j => (SnRun.plsB_null hrun w hXw).1 j
    change ∀ j, w ⬝ᵥ plsB X' (l.take j) = 0 at hnull
    change ∀ k m : ℕ, k < m → m ≤ l.length → 0 ≤ ((y - c • t) ᵥ* X') ⬝ᵥ plsB X' (l.take k) ∧ ((y - c • t) ᵥ* X') ⬝ᵥ plsB X' (l.take k) < ((y - c • t) ᵥ* X') ⬝ᵥ plsB X' (l.take m) ∧
      plsB X' (l.take k) ⬝ᵥ plsB X' (l.take k) < plsB X' (l.take m) ⬝ᵥ plsB X' (l.take m) at ih
    have hsw : y ᵥ* X = a⁻¹ • w := by rw [hwa, smul_smul, inv_mul_cancel₀ ha.ne', one_smul]
    -- the coefficient of the first weights
    set g : ℕ → ℝ := fun j => c + (((y - c • t) ᵥ* X') ⬝ᵥ plsB X' (l.take j)) / (y ⬝ᵥ t) with hgd
    have hq : ∀ j, c - plsLoad X t ⬝ᵥ plsB X' (l.take j) = g j := by
      intro j
      have h1 : (y ᵥ* X) ⬝ᵥ plsB X' (l.take j) = 0 := by rw [hsw, smul_dotProduct, hnull, smul_zero]
      simp only [hgd]
      rw [hs', sub_dotProduct, h1, smul_dotProduct, smul_eq_mul, zero_sub, neg_div, mul_div_cancel_left₀ _ hyt.ne']
      ring
    have hB : ∀ j, plsB X ((⟨w, ld, c, t, good⟩ :: l : List (SnComp n p)).take (j + 1)) = g j • w + plsB X' (l.take j) := by
      intro j
      simp only [List.take_succ_cons, plsB]
      rw [← hX', hq]
    have hcovB : ∀ j, (y ᵥ* X) ⬝ᵥ (g j • w + plsB X' (l.take j)) = a⁻¹ * (g j * (w ⬝ᵥ w)) := by
      intro j
      rw [hsw, smul_dotProduct, dotProduct_add, hnull, dotProduct_smul, add_zero, smul_eq_mul, smul_eq_mul]
    have hBB : ∀ j, (g j • w + plsB X' (l.take j)) ⬝ᵥ (g j • w + plsB X' (l.take j)) = g j ^ 2 * (w ⬝ᵥ w) + plsB X' (l.take j) ⬝ᵥ plsB X' (l.take j) := by
      intro j
      have h2 : plsB X' (l.take j) ⬝ᵥ w = 0 := by rw [dotProduct_comm]; exact hnull j
      simp only [add_dotProduct, dotProduct_add, smul_dotProduct, dotProduct_smul, smul_eq_mul, hnull, h2]
      ring
    have hgm : ∀ j, j ≤ l.length → c ≤ g j := by
      intro j hj
      have h3 : 0 ≤ ((y - c • t) ᵥ* X') ⬝ᵥ plsB X' (l.take j) := by
        rcases Nat.eq_zero_or_pos j with h0 | h0
        · subst h0; simp [plsB]
        · have := ih 0 j h0 hj
          exact this.1.trans this.2.1.le
      have := div_nonneg h3 hyt.le
      simp only [hgd]
      linarith
    rw [hB]
    rcases Nat.eq_zero_or_pos k with hk | hk
    · subst hk
      have hg0 := hgm m hm'
      have hgp : 0 < g m := hc0.trans_le hg0
      simp only [List.take_zero, plsB, dotProduct_zero]
      refine ⟨le_refl _, ?_, ?_⟩
      · rw [hcovB]; positivity
      · rw [hBB]
        have := dotProduct_self_nonneg' (plsB X' (l.take m))
        positivity
    · obtain ⟨k, rfl⟩ : ∃ k', k = k' + 1 := ⟨k - 1, by omega⟩
      have hk0 := hc0.trans_le (hgm k (by omega))
      obtain ⟨i1, i2, i3⟩ := ih k m (by omega) hm'
      have hgk : g k < g m := by
        simp only [hgd]
        have := div_lt_div_of_pos_right i2 hyt
        linarith
      rw [hB, hcovB, hcovB, hBB, hBB]
      have ha' : 0 < a⁻¹ := inv_pos.mpr ha
      refine ⟨by positivity, ?_, ?_⟩
      · exact mul_lt_mul_of_pos_left (mul_lt_mul_of_pos_right hgk hww) ha'
      · have : g k ^ 2 ≤ g m ^ 2 := by nlinarith
        have := mul_le_mul_of_nonneg_right this hww.le
        linarith

/-- The scaled coefficients of a model without sparsity. -/
lemma coefScaled_eq_plsB {pr : SnParams} {X : Fin n → Fin p → ℝ} {y : Fin n → ℝ} {f : SnFit n p} (h : snFit pr X y = .ok f) (he : pr.eta = 0) :
    f.coefScaled = plsB (Matrix.of (stdMat X f.xLoc f.xSca)) f.comps := by
  have hrun := snFit_run h
  obtain ⟨hne, q, hq⟩ := C45_normal_equations h
  obtain ⟨hmem, -⟩ := C160_pls h he
  rw [he] at hrun
  set Z := stdMat X f.xLoc f.xSca with hZ
  set v := stdVec y f.yLoc f.ySca with hv
  set B := plsB (Matrix.of Z) f.comps with hB
  have hfit : Matrix.of Z *ᵥ B = v - unexplained v f.comps := hrun.plsB_fit
  have hq' : Matrix.of Z *ᵥ f.coefScaled = ∑ a, q a • fun i => compT f.comps i a := by
    funext i
    rw [← lin_eq_mulVec, hq, Finset.sum_apply]
    exact Finset.sum_congr rfl fun a _ => mul_comm _ _
  set e : Fin n → ℝ := Matrix.of Z *ᵥ (f.coefScaled - B) with hed
  have he1 : ∀ a : Fin f.comps.length, e ⬝ᵥ (fun i => compT f.comps i a) = 0 := by
    intro a
    have h1 := hrun.unexplained_orth _ (List.get_mem f.comps a)
    rw [dotProduct_comm] at h1
    have h2 := hne a
    have h3 : e = unexplained v f.comps - fun i => v i - lin Z f.coefScaled i := by
      rw [hed, mulVec_sub, hfit]
      funext i
      simp only [Pi.sub_apply]
      rw [← lin_eq_mulVec]
      ring
    rw [h3, sub_dotProduct]
    exact sub_eq_zero.mpr (h1.trans h2.symm)
  have he2 : e ⬝ᵥ (v - unexplained v f.comps) = 0 := by
    have h1 : v - unexplained v f.comps = -unexplained 0 f.comps := by
      funext i; simp [unexplained]
    rw [h1, dotProduct_neg, neg_eq_zero]
    apply sum_unexplained_orth (dotProduct_zero _)
    intro b hb
    obtain ⟨a, rfl⟩ := List.get_of_mem hb
    exact he1 a
  have he3 : e ⬝ᵥ e = 0 := by
    have h1 : e = (∑ a, q a • fun i => compT f.comps i a) - (v - unexplained v f.comps) := by rw [hed, mulVec_sub, hfit, hq']
    have h2 : e ⬝ᵥ e = e ⬝ᵥ (∑ a, q a • fun i => compT f.comps i a) - e ⬝ᵥ (v - unexplained v f.comps) := by
      rw [← dotProduct_sub, ← h1]
    rw [h2, he2, dotProduct_sum, sub_zero]
    exact Finset.sum_eq_zero fun a _ => by rw [dotProduct_smul, he1, smul_zero]
  have he4 : Matrix.of Z *ᵥ (f.coefScaled - B) = 0 := dotProduct_self_eq_zero.mp he3
  obtain ⟨n1, n2⟩ := hrun.plsB_null _ he4
  have n3 : (f.coefScaled - B) ⬝ᵥ B = 0 := by
    have := n1 f.comps.length
    rwa [List.take_length] at this
  have n4 : (f.coefScaled - B) ⬝ᵥ f.coefScaled = 0 := by
    rw [← hrun.span_W] at hmem
    generalize f.coefScaled - B = d at n2
    generalize f.coefScaled = b at hmem
    induction hmem using Submodule.span_induction with
    | mem u hu => obtain ⟨a, rfl⟩ := hu; exact n2 _ (List.get_mem _ _)
    | zero => simp
    | add x z _ _ hx hz => rw [dotProduct_add, hx, hz, add_zero]
    | smul c x _ hx => rw [dotProduct_smul, hx, smul_zero]
  have n5 : (f.coefScaled - B) ⬝ᵥ (f.coefScaled - B) = 0 := by rw [dotProduct_sub, n3, n4, sub_zero]
  exact sub_eq_zero.mp (dotProduct_self_eq_zero.mp n5)

lemma dot_self_sum {k : ℕ} (u : Fin k → ℝ) : u ⬝ᵥ u = ∑ j, u j ^ 2 := Finset.sum_congr rfl fun j _ => (sq (u j)).symm

/-- **C183.** Without sparsity, fewer components give shorter coefficients: if a model with some number of components exists, then so does one with `k` fewer, and its vector of scaled coefficients is
strictly shorter (unless no predictor is correlated with the response, and both vanish). -/
theorem C183_grows {pr : SnParams} {X : Fin n → Fin p → ℝ} {y : Fin n → ℝ} {f : SnFit n p} (h : snFit pr X y = .ok f) (he : pr.eta = 0) (k : ℕ) (hk0 : 0 < k)
    (hk : k < pr.nComponents) :
    ∃ g, snFit { pr with nComponents := k } X y = .ok g ∧
      ((∀ j, f.coefScaled j = 0) ∧ (∀ j, g.coefScaled j = 0) ∨ ∑ j, g.coefScaled j ^ 2 < ∑ j, f.coefScaled j ^ 2) := by
  obtain ⟨g, hg, -⟩ := C140_snipls h k hk0 hk.le
  refine ⟨g, hg, ?_⟩
  have hf1 := coefScaled_eq_plsB h he
  have hg1 := coefScaled_eq_plsB hg he
  have hrun := snFit_run h
  rw [he] at hrun
  obtain ⟨⟨h0, h1, -⟩, e1, e2, e3, e4, -, hl, -⟩ := snFit_inv h
  obtain ⟨-, g1, g2, g3, g4, -, hlg, -⟩ := snFit_inv hg
  dsimp only at g1 g2 g3 g4 hlg
  rw [← e1] at g1
  rw [← e2] at g2
  rw [← e3] at g3
  rw [← e4] at g4
  rw [g1, g2, g3, g4] at hlg
  rw [g1, g2] at hg1
  have hcomps : g.comps = f.comps.take k := by
    have := snLoop_take k pr.nComponents hk.le _ _ _ _ hl
    rw [hlg] at this
    exact Except.ok.inj this
  rw [hcomps] at hg1
  rcases snLoop_length h0 h1 _ _ _ _ _ hl with hlen | ⟨-, hnil, -⟩
  · right
    have := (hrun.plsB_mono k pr.nComponents hk hlen.ge).2.2
    rw [← hlen, List.take_length, ← hg1, ← hf1, dot_self_sum, dot_self_sum] at this
    exact this
  · left
    rw [hnil] at hf1 hg1
    rw [List.take_nil] at hg1
    exact ⟨fun j => by rw [hf1]; rfl, fun j => by rw [hg1]; rfl⟩

/-- **C183.** Without sparsity, the vector of scaled coefficients is never longer than that of any least squares solution for the standardised data. -/
theorem C183_least_squares {pr : SnParams} {X : Fin n → Fin p → ℝ} {y : Fin n → ℝ} {f : SnFit n p} (h : snFit pr X y = .ok f) (he : pr.eta = 0) (β : Fin p → ℝ)
    (hβ : IsLeastSquares (stdMat X f.xLoc f.xSca) (stdVec y f.yLoc f.ySca) β) : ∑ j, f.coefScaled j ^ 2 ≤ ∑ j, β j ^ 2 := by
  have hf1 := coefScaled_eq_plsB h he
  obtain ⟨⟨h0, h1, hN⟩, -, -, -, -, -, hl, -⟩ := snFit_inv h
  rw [he] at hl
  set Z := stdMat X f.xLoc f.xSca with hZ
  set v := stdVec y f.yLoc f.ySca with hv
  rcases snLoop_length (le_refl 0) one_pos _ _ _ _ _ hl with hlen | ⟨-, hnil, -⟩
  · by_cases hcz : crossVec Z v = 0
    · exfalso
      obtain ⟨m, hm⟩ : ∃ m, pr.nComponents = m + 1 := ⟨pr.nComponents - 1, by omega⟩
      rw [hm, snLoop, if_pos (show ∀ j, ∑ i, Z i j * v i = 0 from fun j => congrFun hcz j), if_pos rfl] at hl
      have : f.comps = [] := (Except.ok.inj hl).symm
      rw [this] at hlen
      simp at hlen
      omega
    have hD := ((snLoop_pls_iff Z v hN).mp ⟨_, hl⟩).resolve_left hcz
    set D := Module.finrank ℝ (krylovAll Z v) with hDd
    obtain ⟨l', hl'⟩ := (snLoop_pls_iff Z v (hN.trans_le hD)).mpr (.inr le_rfl)
    have hlen' : l'.length = D := by
      rcases snLoop_length (le_refl 0) one_pos _ _ _ _ _ hl' with h2 | ⟨-, -, hz⟩
      · exact h2
      · exact absurd (funext hz) hcz
    have hun : ∀ j, ∑ i, Z i j * unexplained v l' i = 0 := by
      by_contra hc
      obtain ⟨l2, hl2⟩ := snLoop_pls_succ D Z v ∅ l' hl' hlen' hc
      have := ((snLoop_pls_iff Z v (Nat.succ_pos D)).mp ⟨l2, hl2⟩).resolve_left hcz
      omega
    have hrun := (snLoop_run _ _ _ _ _ _ hl').1
    have hcomps : f.comps = l'.take pr.nComponents := by
      have := snLoop_take pr.nComponents D hD _ _ _ _ hl'
      rw [hl] at this
      exact Except.ok.inj this
    set b := plsB (Matrix.of Z) l' with hb
    have hle : f.coefScaled ⬝ᵥ f.coefScaled ≤ b ⬝ᵥ b := by
      rw [hf1, hcomps]
      rcases hD.lt_or_eq with hlt | heq
      · have := (hrun.plsB_mono pr.nComponents D hlt hlen'.ge).2.2
        rw [← hlen', List.take_length] at this
        exact this.le
      · rw [heq, ← hlen', List.take_length]
    have hfit : Matrix.of Z *ᵥ b = v - unexplained v l' := hrun.plsB_fit
    have hcb : crossVec Z (Matrix.of Z *ᵥ (β - b)) = 0 := by
      have h2 : Matrix.of Z *ᵥ (β - b) = unexplained v l' - fun i => v i - ∑ k, Z i k * β k := by
        rw [mulVec_sub, hfit]
        funext i
        simp only [Pi.sub_apply, mulVec, dotProduct, Matrix.of_apply]
        ring
      rw [h2, crossVec_sub]
      exact sub_eq_zero.mpr ((funext hun).trans (funext hβ).symm)
    have hz : Matrix.of Z *ᵥ (β - b) = 0 := by
      apply dotProduct_self_eq_zero.mp
      have h3 := dotProduct_mulVec (Matrix.of Z *ᵥ (β - b)) (Matrix.of Z) (β - b)
      rw [h3, vecMul_crossVec]
      exact (congrArg (· ⬝ᵥ (β - b)) hcb).trans (zero_dotProduct _)
    have hn := (hrun.plsB_null _ hz).1 l'.length
    rw [List.take_length, ← hb] at hn
    rw [← dot_self_sum, ← dot_self_sum]
    refine hle.trans ?_
    have hd := dotProduct_self_nonneg' (β - b)
    have h4 : β ⬝ᵥ β = (β - b) ⬝ᵥ (β - b) + 2 * ((β - b) ⬝ᵥ b) + b ⬝ᵥ b := by
      have : β = (β - b) + b := by simp
      conv_lhs => rw [this]
      rw [add_dotProduct, dotProduct_add, dotProduct_add, dotProduct_comm b (β - b)]
      ring
    rw [h4, hn]
    linarith
  · rw [hf1, hnil]
    simp only [plsB, Pi.zero_apply]
    simp only [ne_eq, OfNat.ofNat_ne_zero, not_false_eq_true, zero_pow, Finset.sum_const_zero]
    exact Finset.sum_nonneg fun j _ => sq_nonneg _

/-- C183 is about models that exist: for the data of the example of C160 with two components, the coefficients with one component are strictly shorter. -/
example : ∃ f g : SnFit 2 2, snFit ⟨0, 2, .noneOpt, .noneOpt⟩ (![![2, 0], ![0, 1]] : Fin 2 → Fin 2 → ℝ) ![2, 3] = .ok f ∧
    snFit ⟨0, 1, .noneOpt, .noneOpt⟩ (![![2, 0], ![0, 1]] : Fin 2 → Fin 2 → ℝ) ![2, 3] = .ok g ∧ ∑ j, g.coefScaled j ^ 2 < ∑ j, f.coefScaled j ^ 2 ∧
    ∑ j, f.coefScaled j ^ 2 ≤ 10 := by
  have e1 : stdMat (![![2, 0], ![0, 1]] : Fin 2 → Fin 2 → ℝ) (Centre.noneOpt.run ![![2, 0], ![0, 1]]) (ScaleOpt.noneOpt.run ![![2, 0], ![0, 1]]) =
      ![![2, 0], ![0, 1]] := by
    funext i j; simp [stdMat, std1, Centre.run, ScaleOpt.run]
  have e2 : stdVec (![2, 3] : Fin 2 → ℝ) (Centre.noneOpt.run (asCol ![2, 3]) 0) (ScaleOpt.noneOpt.run (asCol ![2, 3]) 0) = ![2, 3] := by
    funext i; simp [stdVec, std1, Centre.run, ScaleOpt.run]
  obtain ⟨f, hf, hc⟩ := snFit_of_loop ⟨0, 2, .noneOpt, .noneOpt⟩ (![![2, 0], ![0, 1]] : Fin 2 → Fin 2 → ℝ) ![2, 3] (by norm_num) (by norm_num) (by simp)
    (fun j => by simp [ScaleOpt.run]) _ (by rw [e1, e2]; exact sdLoop_pls)
  have hlen : f.comps.length = 2 := by rw [hc]; rfl
  obtain ⟨-, a1, a2, a3, a4, -⟩ := snFit_inv hf
  have hls := C152_all_components hf le_rfl
  have hz : ¬ ∀ j, f.coefScaled j = 0 := by
    intro h0
    rw [a1, a2, a3, a4, e1, e2] at hls
    have := hls 0
    simp [Fin.sum_univ_two, h0] at this
  obtain ⟨g, hg, hgc⟩ := C183_grows hf rfl 1 one_pos (by simp)
  refine ⟨f, g, hf, hg, hgc.resolve_left fun h => hz h.1, ?_⟩
  have := C183_least_squares hf rfl ![1, 3] (by
    rw [a1, a2, a3, a4, e1, e2]
    intro j
    fin_cases j <;> simp [Fin.sum_univ_two])
  refine this.trans ?_
  simp [Fin.sum_univ_two]
  norm_num

end Direpack
