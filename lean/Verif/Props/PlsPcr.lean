import Verif.Props.Krylov
import Verif.Props.BestSpace
import Verif.Props.PPDirePLS
import Verif.Props.FullRank

/-! Property C200: partial least squares fits at least as closely as principal component regression with the same number of components. -/

namespace Direpack

open scoped BigOperators
open Matrix Spec

variable {n p h : ℕ}

/-- The scores on axis `b`. -/
def axisScore (Z : Fin n → Fin p → ℝ) (W : Fin p → Fin h → ℝ) (b : Fin h) : Fin n → ℝ := Matrix.of Z *ᵥ fun k => W k b

lemma spread_eq (Z : Fin n → Fin p → ℝ) (u : Fin p → ℝ) : spread Z u = (Matrix.of Z *ᵥ u) ⬝ᵥ (Matrix.of Z *ᵥ u) := by
  unfold spread
  exact Finset.sum_congr rfl fun i _ => sq _

/-- The spread in a direction of any length. -/
lemma spread_le_any {Z : Fin n → Fin p → ℝ} {W : Fin p → Fin h → ℝ} (hp : PrincipalAxes Z W) {u : Fin p → ℝ} (hu : ∀ b, (u ⬝ᵥ fun k => W k b) = 0) (m : Fin h) :
    spread Z u ≤ (spread Z fun k => W k m) * (u ⬝ᵥ u) := by
  have h0 : 0 ≤ u ⬝ᵥ u := Finset.sum_nonneg fun k _ => mul_self_nonneg _
  rcases h0.eq_or_lt with h1 | h1
  · have : u = 0 := dotProduct_self_eq_zero.mp h1.symm
    subst this
    simp [spread, projectOn]
  · set c := Real.sqrt (u ⬝ᵥ u) with hc
    have hc0 : 0 < c := Real.sqrt_pos.mpr h1
    have hcc : c * c = u ⬝ᵥ u := Real.mul_self_sqrt h0
    have hm := hp.maximal m (c⁻¹ • u) (by
      change ∑ k, (c⁻¹ • u) k ^ 2 = 1
      have : ∑ k, (c⁻¹ • u) k ^ 2 = c⁻¹ ^ 2 * (u ⬝ᵥ u) := by
        simp only [dotProduct, Finset.mul_sum]
        exact Finset.sum_congr rfl fun k _ => by simp only [Pi.smul_apply, smul_eq_mul]; ring
      rw [this, ← hcc]; field_simp) (fun b _ => by
      have : ∑ k, (c⁻¹ • u) k * W k b = c⁻¹ * (u ⬝ᵥ fun k => W k b) := by
        simp only [dotProduct, Finset.mul_sum]
        exact Finset.sum_congr rfl fun k _ => by simp only [Pi.smul_apply, smul_eq_mul]; ring
      rw [this, hu, mul_zero])
    rw [spread_eq, mulVec_smul, smul_dotProduct, dotProduct_smul, ← spread_eq, smul_eq_mul, smul_eq_mul] at hm
    rw [← hcc]
    have h2 := mul_le_mul_of_nonneg_left hm (mul_pos hc0 hc0).le
    have e : c * c * (c⁻¹ * (c⁻¹ * spread Z u)) = spread Z u := by field_simp
    rw [e] at h2
    linarith

lemma axis_eigen {Z : Fin n → Fin p → ℝ} {W : Fin p → Fin h → ℝ} (hp : PrincipalAxes Z W) (b : Fin h) :
    (Matrix.of Z)ᵀ *ᵥ axisScore Z W b = (spread Z fun k => W k b) • fun k => W k b := by
  unfold axisScore
  rw [mulVec_mulVec]
  funext k
  rw [Pi.smul_apply, smul_eq_mul, ← hp.eigen b k]
  rfl

/-- The polynomial that vanishes at the first eigenvalues, factor by factor: the first axes are removed from the response, and what is left does not grow. -/
lemma pls_beats_axes {Z : Fin n → Fin p → ℝ} {W : Fin p → Fin h → ℝ} (hp : PrincipalAxes Z W) (v r : Fin n → ℝ) (d0 : Fin h → ℝ)
    (hv : v = r + ∑ b, d0 b • axisScore Z W b) (hr : ∀ b, r ⬝ᵥ axisScore Z W b = 0) :
    ∀ m ≤ h, ∃ β ∈ krylov Z v m, ∃ (r' : Fin n → ℝ) (d : Fin h → ℝ), v - Matrix.of Z *ᵥ β = r' + ∑ b, d b • axisScore Z W b ∧ (∀ b, r' ⬝ᵥ axisScore Z W b = 0) ∧
      (∀ b : Fin h, b.1 < m → d b • axisScore Z W b = 0) ∧ r' ⬝ᵥ r' ≤ r ⬝ᵥ r := by
  intro m
  induction m with
  | zero => exact fun _ => ⟨0, Submodule.zero_mem _, r, d0, by rw [mulVec_zero, sub_zero]; exact hv, hr, fun b hb => absurd hb (Nat.not_lt_zero _), le_rfl⟩
  | succ m ih =>
    intro hm
    obtain ⟨β, hβ, r', d, he, hr', hd, hle⟩ := ih (by omega)
    set a : Fin h := ⟨m, by omega⟩ with ha
    set lam := spread Z fun k => W k a with hlam
    have hlam0 : 0 ≤ lam := Finset.sum_nonneg fun i _ => sq_nonneg _
    rcases hlam0.eq_or_lt with h0 | hpos
    · refine ⟨β, krylov_mono Z v (Nat.le_succ m) hβ, r', d, he, hr', fun b hb => ?_, hle⟩
      rcases Nat.lt_succ_iff_lt_or_eq.mp hb with h1 | h1
      · exact hd b h1
      · have hb : b = a := Fin.ext h1
        have : axisScore Z W a = 0 := dotProduct_self_eq_zero.mp (by unfold axisScore; rw [← spread_eq, ← hlam, ← h0])
        rw [hb, this, smul_zero]
    · set M := Matrix.of Z with hM
      set u := Mᵀ *ᵥ r' with hu
      have huW : ∀ b, (u ⬝ᵥ fun k => W k b) = 0 := by
        intro b
        rw [hu, mulVec_transpose, ← dotProduct_mulVec]
        exact hr' b
      have hMu : r' ⬝ᵥ (M *ᵥ u) = u ⬝ᵥ u := by
        rw [dotProduct_mulVec, ← mulVec_transpose]
      refine ⟨β + lam⁻¹ • (crossVec Z v - crossProd Z *ᵥ β), ?_, r' - lam⁻¹ • (M *ᵥ u), fun b => d b * (1 - lam⁻¹ * spread Z fun k => W k b), ?_, ?_, ?_, ?_⟩
      · exact Submodule.add_mem _ (krylov_mono Z v (Nat.le_succ m) hβ) (Submodule.smul_mem _ _ (Submodule.sub_mem _ (crossVec_mem_krylov Z v (Nat.succ_pos m))
          (mulVec_mem_krylov Z v hβ)))
      · have e1 : crossVec Z v - crossProd Z *ᵥ β = Mᵀ *ᵥ (v - M *ᵥ β) := by
          rw [mulVec_sub, mulVec_mulVec]
          rfl
        have e2 : Mᵀ *ᵥ (v - M *ᵥ β) = u + ∑ b, d b • ((spread Z fun k => W k b) • fun k => W k b) := by
          rw [he, mulVec_add, mulVec_sum]
          congr 1
          exact Finset.sum_congr rfl fun b _ => by rw [mulVec_smul, axis_eigen hp]
        rw [e1, e2, mulVec_add, mulVec_smul, mulVec_add, mulVec_sum, ← sub_sub, he]
        have e3 : ∀ b, M *ᵥ (d b • ((spread Z fun k => W k b) • fun k => W k b)) = (d b * spread Z fun k => W k b) • axisScore Z W b := fun b => by
          rw [smul_smul, mulVec_smul]; rfl
        simp only [e3]
        have e4 : ∑ b, (d b * (1 - lam⁻¹ * spread Z fun k => W k b)) • axisScore Z W b =
            ∑ b, d b • axisScore Z W b - lam⁻¹ • ∑ b, (d b * spread Z fun k => W k b) • axisScore Z W b := by
          rw [Finset.smul_sum, ← Finset.sum_sub_distrib]
          refine Finset.sum_congr rfl fun b _ => ?_
          rw [smul_smul, ← sub_smul]
          congr 1; ring
        rw [e4, smul_add]
        abel
      · intro b
        rw [sub_dotProduct, hr', smul_dotProduct]
        have : (M *ᵥ u) ⬝ᵥ axisScore Z W b = 0 := by
          rw [dotProduct_comm, dotProduct_mulVec, ← mulVec_transpose, axis_eigen hp, smul_dotProduct, dotProduct_comm, huW, smul_zero]
        rw [this, smul_zero, sub_zero]
      · intro b hb
        rcases Nat.lt_succ_iff_lt_or_eq.mp hb with h1 | h1
        · have h2 := hd b h1
          dsimp only
          rw [mul_comm, ← smul_smul, h2, smul_zero]
        · have hb : b = a := Fin.ext h1
          dsimp only
          rw [hb, ← hlam, inv_mul_cancel₀ hpos.ne', sub_self, mul_zero, zero_smul]
      · refine le_trans ?_ hle
        have h1 := spread_le_any hp huW a
        rw [spread_eq, ← hM, ← hlam] at h1
        rw [sub_dotProduct, dotProduct_sub, dotProduct_sub, smul_dotProduct, smul_dotProduct, dotProduct_smul, dotProduct_smul, dotProduct_comm (M *ᵥ u) r', hMu]
        simp only [smul_eq_mul]
        have hi : 0 < lam⁻¹ := inv_pos.mpr hpos
        have h2 : lam⁻¹ * (lam⁻¹ * ((M *ᵥ u) ⬝ᵥ (M *ᵥ u))) ≤ lam⁻¹ * (u ⬝ᵥ u) := by
          refine mul_le_mul_of_nonneg_left ?_ hi.le
          rw [inv_mul_le_iff₀ hpos]; exact h1
        have h3 : 0 ≤ lam⁻¹ * (u ⬝ᵥ u) := mul_nonneg hi.le (Finset.sum_nonneg fun k _ => mul_self_nonneg _)
        linarith

lemma axis_orth {Z : Fin n → Fin p → ℝ} {W : Fin p → Fin h → ℝ} (hp : PrincipalAxes Z W) {a b : Fin h} (hab : a ≠ b) : axisScore Z W a ⬝ᵥ axisScore Z W b = 0 := by
  conv_lhs => rhs; unfold axisScore
  rw [dotProduct_mulVec, ← mulVec_transpose, axis_eigen hp, smul_dotProduct]
  have : (fun k => W k a) ⬝ᵥ (fun k => W k b) = 0 := hp.orthogonal a b hab
  rw [this, smul_zero]

lemma axis_self (Z : Fin n → Fin p → ℝ) (W : Fin p → Fin h → ℝ) (b : Fin h) : axisScore Z W b ⬝ᵥ axisScore Z W b = spread Z fun k => W k b := (spread_eq Z _).symm

/-- **C200**, for the standardised data: no combination of the scores on at most as many principal axes as there are components is closer to the response than partial least squares. -/
theorem C200_scaled {pr : SnParams} {X : Fin n → Fin p → ℝ} {y : Fin n → ℝ} {g : SnFit n p} (hg : snFit pr X y = .ok g) (he : pr.eta = 0)
    {W : Fin p → Fin h → ℝ} (hp : PrincipalAxes (stdMat X g.xLoc g.xSca) W) (hh : h ≤ pr.nComponents) (c : Fin h → ℝ) :
    ∑ i, (stdVec y g.yLoc g.ySca i - lin (stdMat X g.xLoc g.xSca) g.coefScaled i) ^ 2 ≤
      ∑ i, (stdVec y g.yLoc g.ySca i - ∑ b, c b * projectOn (stdMat X g.xLoc g.xSca) (fun k => W k b) i) ^ 2 := by
  obtain ⟨⟨h0, h1, -⟩, -, -, -, -, -, hl, -⟩ := snFit_inv hg
  have hbest := (C160_pls hg he).2
  set Z := stdMat X g.xLoc g.xSca
  set v := stdVec y g.yLoc g.ySca
  set d0 : Fin h → ℝ := fun b => (v ⬝ᵥ axisScore Z W b) / spread Z fun k => W k b with hd0
  set r : Fin n → ℝ := v - ∑ b, d0 b • axisScore Z W b with hr
  have hrt : ∀ b, r ⬝ᵥ axisScore Z W b = 0 := by
    intro b
    rw [hr, sub_dotProduct, sum_dotProduct, Finset.sum_eq_single b (fun a _ hab => by rw [smul_dotProduct, axis_orth hp hab, smul_zero]) (fun hb => absurd (Finset.mem_univ b) hb),
      smul_dotProduct, axis_self, smul_eq_mul]
    by_cases hs : (spread Z fun k => W k b) = 0
    · have : axisScore Z W b = 0 := dotProduct_self_eq_zero.mp (by rw [axis_self, hs])
      rw [this, hs, dotProduct_zero, mul_zero, sub_zero]
    · rw [hd0]
      dsimp only
      rw [div_mul_cancel₀ _ hs, sub_self]
  obtain ⟨β, hβ, r', d, hres, hr', hd, hle⟩ := pls_beats_axes hp v r d0 (by rw [hr]; abel) hrt h le_rfl
  have hres' : v - Matrix.of Z *ᵥ β = r' := by
    rw [hres, Finset.sum_eq_zero fun b _ => hd b b.2, add_zero]
  have hβ' : β ∈ krylov Z v g.comps.length := by
    rcases snLoop_length h0 h1 _ _ _ _ _ hl with hlen | ⟨-, -, hz⟩
    · rw [hlen]; exact krylov_mono Z v hh hβ
    · have hcz : crossVec Z v = 0 := funext fun j => hz j
      have hbot : krylov Z v h = ⊥ := by
        unfold Spec.krylov
        rw [Submodule.span_eq_bot]
        rintro _ ⟨m, -, rfl⟩
        rw [hcz, mulVec_zero]
      rw [hbot, Submodule.mem_bot] at hβ
      rw [hβ]; exact Submodule.zero_mem _
  refine (hbest β hβ').trans ?_
  have e1 : ∑ i, (v i - lin Z β i) ^ 2 = r' ⬝ᵥ r' := by
    rw [← hres']
    exact Finset.sum_congr rfl fun i _ => sq _
  rw [e1]
  refine hle.trans ?_
  set q : Fin n → ℝ := ∑ b, (d0 b - c b) • axisScore Z W b with hq
  have hrq : r ⬝ᵥ q = 0 := by
    rw [hq, dotProduct_sum]
    exact Finset.sum_eq_zero fun b _ => by rw [dotProduct_smul, hrt, smul_zero]
  have e2 : (fun i => v i - ∑ b, c b * projectOn Z (fun k => W k b) i) = r + q := by
    have : (fun i => ∑ b, c b * projectOn Z (fun k => W k b) i) = ∑ b, c b • axisScore Z W b := by
      funext i
      rw [Finset.sum_apply]
      rfl
    have h3 : (fun i => v i - ∑ b, c b * projectOn Z (fun k => W k b) i) = v - ∑ b, c b • axisScore Z W b := by
      rw [← this]; rfl
    rw [h3, hr, hq]
    simp only [sub_smul, Finset.sum_sub_distrib]
    abel
  have e3 : ∑ i, (v i - ∑ b, c b * projectOn Z (fun k => W k b) i) ^ 2 = (r + q) ⬝ᵥ (r + q) := by
    rw [← e2]
    exact Finset.sum_congr rfl fun i _ => sq _
  rw [e3, add_dotProduct, dotProduct_add, dotProduct_add, dotProduct_comm q r, hrq]
  have : 0 ≤ q ⬝ᵥ q := Finset.sum_nonneg fun i _ => mul_self_nonneg _
  linarith

lemma sum_std_mean {n : ℕ} (hn : 0 < n) (x : Fin n → ℝ) (s : ℝ) : ∑ i, std1 (x i) ((∑ i, x i) / n) s = 0 := by
  have hn' : (n : ℝ) ≠ 0 := by exact_mod_cast hn.ne'
  have h0 : ∑ i, (x i - (∑ i, x i) / n) = 0 := by
    rw [Finset.sum_sub_distrib, Finset.sum_const, Finset.card_univ, Fintype.card_fin, nsmul_eq_mul]
    field_simp
    ring
  unfold std1
  split_ifs
  · exact h0
  · rw [← Finset.sum_div, h0, zero_div]

/-- **C200**, in the units of the response: for a model of `snipls` with `eta=0` and `centre='mean'` and a response whose scale is not zero, the residual sum of squares is at most that of
every regression, with any intercept and any coefficients, on the scores on at most as many principal axes of the standardised predictors. -/
theorem C200_axes {pr : SnParams} {X : Fin n → Fin p → ℝ} {y : Fin n → ℝ} {g : SnFit n p} (hn : 0 < n) (hg : snFit pr X y = .ok g) (he : pr.eta = 0) (hc : pr.centre = .mean)
    (hy : g.ySca ≠ 0) {W : Fin p → Fin h → ℝ} (hp : PrincipalAxes (stdMat X g.xLoc g.xSca) W) (hh : h ≤ pr.nComponents) (a : ℝ) (c : Fin h → ℝ) :
    ∑ i, (y i - g.fitted i) ^ 2 ≤ ∑ i, (y i - (a + ∑ b, c b * projectOn (stdMat X g.xLoc g.xSca) (fun k => W k b) i)) ^ 2 := by
  obtain ⟨-, ex, -, ey, -, -, -⟩ := snFit_inv hg
  have hs := C200_scaled hg he hp hh fun b => c b / g.ySca
  have hfit := C46_original_scale hn hg (.inl hc)
  have hv0 : ∑ i, stdVec y g.yLoc g.ySca i = 0 := by
    have : g.yLoc = (∑ i, y i) / n := by rw [ey, hc]; exact mean_eq _
    rw [this]; exact sum_std_mean hn y _
  have hZ0 : ∀ k, ∑ i, stdMat X g.xLoc g.xSca i k = 0 := by
    intro k
    have : g.xLoc k = (∑ i, X i k) / n := by rw [ex, hc]; exact mean_eq _
    unfold stdMat
    rw [this]; exact sum_std_mean hn (fun i => X i k) _
  have hyv : ∀ i, y i = g.yLoc + g.ySca * stdVec y g.yLoc g.ySca i := by
    intro i
    unfold stdVec std1
    rw [if_neg hy]
    field_simp
    ring
  set Z := stdMat X g.xLoc g.xSca
  set v := stdVec y g.yLoc g.ySca
  set t : Fin n → ℝ := fun i => ∑ b, c b / g.ySca * projectOn Z (fun k => W k b) i with ht
  have ht0 : ∑ i, t i = 0 := by
    rw [ht, Finset.sum_comm]
    refine Finset.sum_eq_zero fun b _ => ?_
    rw [← Finset.mul_sum]
    have : ∑ i, projectOn Z (fun k => W k b) i = 0 := by
      unfold projectOn
      rw [Finset.sum_comm]
      exact Finset.sum_eq_zero fun k _ => by rw [← Finset.sum_mul, hZ0, zero_mul]
    rw [this, mul_zero]
  have hct : ∀ i, ∑ b, c b * projectOn Z (fun k => W k b) i = g.ySca * t i := by
    intro i
    rw [ht, Finset.mul_sum]
    exact Finset.sum_congr rfl fun b _ => by field_simp
  have e1 : ∑ i, (y i - g.fitted i) ^ 2 = g.ySca ^ 2 * ∑ i, (v i - lin Z g.coefScaled i) ^ 2 := by
    rw [Finset.mul_sum]
    exact Finset.sum_congr rfl fun i _ => by rw [hfit, hyv]; ring
  have e2 : ∑ i, (y i - (a + ∑ b, c b * projectOn Z (fun k => W k b) i)) ^ 2 = g.ySca ^ 2 * ∑ i, (v i - t i) ^ 2 + n * (g.yLoc - a) ^ 2 := by
    have : ∀ i, (y i - (a + ∑ b, c b * projectOn Z (fun k => W k b) i)) ^ 2 =
        g.ySca ^ 2 * (v i - t i) ^ 2 + (g.yLoc - a) ^ 2 + 2 * (g.yLoc - a) * g.ySca * (v i - t i) := by
      intro i
      rw [hct, hyv]; ring
    simp only [this, Finset.sum_add_distrib, ← Finset.mul_sum, Finset.sum_sub_distrib, hv0, ht0, Finset.sum_const, Finset.card_univ, Fintype.card_fin, nsmul_eq_mul]
    ring
  rw [e1, e2]
  have h1 := mul_le_mul_of_nonneg_left hs (sq_nonneg g.ySca)
  have h2 : (0 : ℝ) ≤ n * (g.yLoc - a) ^ 2 := by positivity
  linarith

/-- **C200.** Partial least squares (`snipls` with `eta=0`) fits at least as closely as principal component regression (a regression on the scores of `ppdire` with the variance as index, with the best
directions found) with the same number of components and the same standardisation: whatever the intercept and the coefficients of that regression, its residual sum of squares is not smaller. -/
theorem C200_pcr (hn : 2 ≤ n) (pr : PpParams) (hcen : pr.centre = .mean) (htr : pr.trimming = 0) (hcd : pr.centerData = true)
    (find : {n p : ℕ} → (Fin n → Fin p → ℝ) → (Fin p → ℝ)) (hopt : pr.optimizer = .ext find) (pinv : Pinv) (hpi : IsGenInverse pinv)
    (d : Dicomo) (hd : d.est = .arithmetic) (hm : d.mode = .var) (hdc : d.center = .mean) (fa : FitArgs) (ht : fa.trimming = 0) (hfy : fa.y = none)
    (hf : ∀ E : Fin n → Fin p → ℝ, (∀ k, ∑ i, E i k = 0) → SolvesOnSphere (ppObjective (dicomoIndex d fa) E) (find E))
    (X : Fin n → Fin p → ℝ) (y : Fin n → ℝ) (f : PpFit1 n p) (h : ppFit1 pr pinv (dicomoIndex d fa) X = .ok f)
    (sp : SnParams) (hs1 : sp.eta = 0) (hs2 : pr.nComponents ≤ sp.nComponents) (hs3 : sp.centre = .mean) (hs4 : sp.scale = plsScale pr.scaleData)
    (g : SnFit n p) (hg : snFit sp X y = .ok g) (a : ℝ) (c : Fin f.comps.length → ℝ) :
    ∑ i, (y i - g.fitted i) ^ 2 ≤ ∑ i, (y i - (a + ∑ b, c b * ppT f.comps i b)) ^ 2 := by
  obtain ⟨hax, hlen, -, -, hT, hloc, hsca⟩ := C126_pca hn pr hcen htr hcd find hopt pinv hpi d hd hm hdc fa ht hfy hf X f h
  obtain ⟨-, gx, gs, gy, gsy, -, -, -, -, -, -, -⟩ := snFit_inv hg
  have e1 : g.xLoc = f.xLoc := by
    funext k
    rw [gx, hs3, hloc]; exact mean_eq _
  have e2 : g.xSca = f.xSca := by
    funext k
    rw [gs, hs4, hsca]
    unfold plsScale
    split_ifs
    · change Real.sqrt (var fun i => X i k) = _
      rw [var_eq, mean_eq, mean_eq]
      rfl
    · rfl
  by_cases hy : g.ySca = 0
  · have hfit := C46_original_scale (by omega) hg (.inl hs3)
    have : ∀ i, y i - g.fitted i = 0 := by
      intro i
      rw [hfit, hy, zero_mul, add_zero, gy, hs3]
      rw [gsy, hs4] at hy
      unfold plsScale at hy
      split_ifs at hy
      · have h0 : var y = 0 := (Real.sqrt_eq_zero (var_nonneg y)).mp hy
        exact sub_eq_zero.mpr ((var_eq_zero_iff (by omega) y).mp h0 i)
      · exact absurd hy one_ne_zero
    simp only [this, ne_eq, OfNat.ofNat_ne_zero, not_false_eq_true, zero_pow, Finset.sum_const_zero]
    exact Finset.sum_nonneg fun i _ => sq_nonneg _
  · rw [← e1, ← e2] at hax hT
    simp only [hT]
    exact C200_axes (by omega) hg hs1 hs3 hy hax (by rw [hlen]; exact hs2) a c

/-- The variance as index when the response is passed along: it is not used. -/
lemma dicomoIndex2_var (hn : 2 ≤ n) {d : Dicomo} (he : d.est = .arithmetic) (hm : d.mode = .var) (hc : d.center = .mean) {a : FitArgs}
    (ht : a.trimming = 0) (ys : Fin n → ℝ) {t : Fin n → ℝ} (h0 : ∑ i, t i = 0) :
    dicomoIndex2 d a ys t = (momFactor n 0 2 a.biascorr / n) * ∑ i, t i ^ 2 := by
  have h2 := run_var (n := n) (by omega) .mean a t ys
  rw [ht, trimMom_mean0 _ _ _ (le_refl 2)] at h2
  have h3 : ((Dicomo.mk d.est d.mode d.center none).fit { a with y := some (colMat ys) } (colMat t)).2 =
      run .arithmetic .var .mean a (colMat t) (colMat ys) := by
    rw [he, hm, hc]
    rfl
  unfold dicomoIndex2 dicomoIndex
  have e1 : (⟨n, 1, fun i _ => t i⟩ : DMat) = colMat t := rfl
  have e2 : (⟨n, 1, fun i _ => ys i⟩ : DMat) = colMat ys := rfl
  rw [e1, e2, fit_history (h3.trans h2)]
  dsimp only
  unfold cmom
  simp only [exps, lt_irrefl, if_false, pow_one, avg_of_sum_zero h0, sub_zero]
  unfold avg
  simp only [← sq]
  ring

/-- The components of the loop with an index proportional to the variance are the principal axes. -/
lemma pca_axes {find : {n p : ℕ} → (Fin n → Fin p → ℝ) → (Fin p → ℝ)} {φ : (Fin n → ℝ) → ℝ} {κ : ℝ} (hκ : 0 < κ) {b2 : Bool}
    {reg : (Fin n → ℝ) → ℝ} (hφ : ∀ t : Fin n → ℝ, ∑ i, t i = 0 → φ t = κ * ∑ i, t i ^ 2)
    (hf : ∀ E : Fin n → Fin p → ℝ, (∀ k, ∑ i, E i k = 0) → SolvesOnSphere (ppObjective φ E) (find E)) {k : ℕ} {Z : Fin n → Fin p → ℝ} {l : List (PpComp n p)}
    (hZ0 : ∀ k, ∑ i, Z i k = 0) (hl : ppLoop (.ext find) φ b2 reg k Z = .ok l) {pinv : Pinv} (hp : IsGenInverse pinv) :
    PrincipalAxes Z (ppW l) ∧ l.length = k ∧ ppR pinv l = ppW l := by
  obtain ⟨h1', h2'⟩ := pca_loop hκ hφ hf _ _ _ hZ0 hl
  obtain ⟨hlen, hI'⟩ := ppLoop_inv _ _ _ hl
  have hPW : ppP l = ppW l := by
    ext k b
    exact congrFun (h1' _ (List.get_mem _ _)).1 k
  have hort : ∀ b e : Fin l.length, b < e → ∑ k, (l.get e).w k * (l.get b).w k = 0 := by
    intro b e hbe
    have := List.pairwise_iff_get.mp hI'.tri b e hbe
    rw [(h1' _ (List.get_mem _ _)).1] at this
    exact this
  have hort2 : ∀ b e : Fin l.length, b ≠ e → ∑ k, ppW l k b * ppW l k e = 0 := by
    intro b e hbe
    rcases lt_or_gt_of_ne hbe with hlt | hgt
    · rw [← hort b e hlt]
      exact Finset.sum_congr rfl fun k _ => mul_comm _ _
    · exact hort e b hgt
  have hone : (ppP l).transpose * ppW l = 1 := by
    ext b e
    rw [hPW, Matrix.mul_apply, Matrix.one_apply]
    simp only [Matrix.transpose_apply]
    split_ifs with hbe
    · subst hbe
      have := hI'.unit _ (List.get_mem l b)
      rw [← this]
      exact Finset.sum_congr rfl fun k _ => (sq _).symm
    · exact hort2 b e hbe
  refine ⟨⟨fun b => hI'.unit _ (List.get_mem _ _), hort2, h2', ?_, ?_⟩, hlen, ?_⟩
  · intro b k
    have h3 := (h1' _ (List.get_mem l b)).2.2 k
    rw [(h1' _ (List.get_mem l b)).2.1] at h3
    have : ∑ j, (∑ i, Z i k * Z i j) * ppW l j b = ∑ i, Z i k * projectOn Z (l.get b).w i := by
      unfold projectOn
      simp only [Finset.sum_mul, Finset.mul_sum]
      rw [Finset.sum_comm]
      exact Finset.sum_congr rfl fun i _ => Finset.sum_congr rfl fun j _ => by
        show Z i k * Z i j * (l.get b).w j = _
        ring
    rw [this, h3]
    rfl
  · intro b e hbe
    rcases hbe.eq_or_lt with rfl | hlt
    · exact le_refl _
    · exact h2' b _ (hI'.unit _ (List.get_mem l e)) fun e' he' => hort e' e (he'.trans hlt)
  · unfold ppR
    have hpi : pinv ((ppP l).transpose * ppW l) = 1 := by
      rw [hone]
      have := hp (1 : Matrix (Fin l.length) (Fin l.length) ℝ)
      simpa using this
    show ppW l * pinv ((ppP l).transpose * ppW l) = ppW l
    rw [hpi, Matrix.mul_one]

/-- **C200**, for the regression inside `ppdire`: with the variance as index, the residual sum of squares of `ppdire` (principal component regression) is not smaller than that of `snipls` with `eta=0`,
whatever regression `ppdire` uses for the coefficients of the scores (least squares, quantile or robust). -/
theorem C200_ppdire (hn : 2 ≤ n) (pr : PpParams) (hcen : pr.centre = .mean) (htr : pr.trimming = 0) (hcd : pr.centerData = true)
    (find : {n p : ℕ} → (Fin n → Fin p → ℝ) → (Fin p → ℝ)) (hopt : pr.optimizer = .ext find) (pinv : Pinv) (hpi : IsGenInverse pinv) (rg : PpReg)
    (d : Dicomo) (hd : d.est = .arithmetic) (hm : d.mode = .var) (hdc : d.center = .mean) (fa : FitArgs) (ht : fa.trimming = 0)
    (X : Fin n → Fin p → ℝ) (y : Fin n → ℝ) (f : PpFit n p) (h : ppFit pr pinv rg (dicomoIndex2 d fa) X y = .ok f)
    (hf : ∀ E : Fin n → Fin p → ℝ, (∀ k, ∑ i, E i k = 0) → SolvesOnSphere (ppObjective (dicomoIndex2 d fa (stdVec y f.yLoc f.ySca)) E) (find E))
    (sp : SnParams) (hs1 : sp.eta = 0) (hs2 : pr.nComponents ≤ sp.nComponents) (hs3 : sp.centre = .mean) (hs4 : sp.scale = plsScale pr.scaleData)
    (g : SnFit n p) (hg : snFit sp X y = .ok g) :
    ∑ i, (y i - g.fitted i) ^ 2 ≤ ∑ i, (y i - f.fitted i) ^ 2 := by
  obtain ⟨Xs, ys, hXs, hys, hmX, hsX, hmy, hsy, -, -, hl, hs, hrot, hbs, hb, hb0, hfit, hres, -⟩ := ppFit_inv h
  obtain ⟨-, gx, gs, gy, gsy, -, -, -, -, -, -, -⟩ := snFit_inv hg
  simp only [hcd, if_true, hcen, htr, PpCentre.loc, ppMean_zero] at hXs hys hmX hmy hb0 hsX hsy
  have hZ0 : ∀ k, ∑ i, stdMat X f.xLoc f.xSca i k = 0 := by
    intro k
    unfold stdMat std1
    simp only [hs k, if_false, ← Finset.sum_div]
    rw [hmX]
    simp only [pp_sum_center, zero_div]
  have e1 : g.xLoc = f.xLoc := by rw [gx, hmX, hs3]; rfl
  have e2 : g.xSca = f.xSca := by
    rw [gs, hsX, hs4]
    funext k
    unfold plsScale PpCentre.sca
    split_ifs
    · rw [ppStd_zero]; rfl
    · rfl
  have e5 : ys = stdVec y f.yLoc f.ySca := by
    rw [hys]
    funext i
    unfold stdVec std1
    split <;> simp
  rw [scaleMat_eq] at hXs
  rw [hXs, e5, hopt] at hl
  have hn' : (0 : ℝ) < n := by exact_mod_cast (by omega : 0 < n)
  have hκ : 0 < momFactor n 0 2 fa.biascorr / n := div_pos (momFactor_two_pos hn _) hn'
  obtain ⟨hax, hlen, hR⟩ := pca_axes hκ (fun t h0 => dicomoIndex2_var hn hd hm hdc ht _ h0) hf hZ0 hl hpi
  by_cases hy : g.ySca = 0
  · have hfit := C46_original_scale (by omega) hg (.inl hs3)
    have : ∀ i, y i - g.fitted i = 0 := by
      intro i
      rw [hfit, hy, zero_mul, add_zero, gy, hs3]
      rw [gsy, hs4] at hy
      unfold plsScale at hy
      split_ifs at hy
      · have h0 : var y = 0 := (Real.sqrt_eq_zero (var_nonneg y)).mp hy
        exact sub_eq_zero.mpr ((var_eq_zero_iff (by omega) y).mp h0 i)
      · exact absurd hy one_ne_zero
    simp only [this, ne_eq, OfNat.ofNat_ne_zero, not_false_eq_true, zero_pow, Finset.sum_const_zero]
    exact Finset.sum_nonneg fun i _ => sq_nonneg _
  · rw [← e1, ← e2] at hax
    have hbest := C200_axes (by omega) hg hs1 hs3 hy hax (by rw [hlen]; exact hs2) (f.intercept + ∑ k, f.xLoc k * f.coef k) fun b => f.ySca * ppC f.comps b
    refine hbest.trans (le_of_eq (Finset.sum_congr rfl fun i _ => ?_))
    congr 2
    rw [hfit]
    have hlin := Matrix_lin_rescale X f.xLoc f.xSca f.coefScaled f.ySca hs i
    have hbk : ∀ k, f.ySca / f.xSca k * f.coefScaled k = f.coef k := fun k => (congrFun hb k).symm
    simp only [hbk] at hlin
    have hZc : lin (stdMat X f.xLoc f.xSca) f.coefScaled i = ∑ b, ppC f.comps b * projectOn (stdMat X f.xLoc f.xSca) (fun k => ppW f.comps k b) i := by
      rw [hbs, hrot, hR]
      unfold lin projectOn
      simp only [Matrix.mulVec, dotProduct, Finset.mul_sum]
      rw [Finset.sum_comm]
      exact Finset.sum_congr rfl fun b _ => Finset.sum_congr rfl fun k _ => by ring
    dsimp only
    rw [hlin, hZc, e1, e2, Finset.mul_sum]
    simp only [mul_assoc]
    ring

/-- One principal component of three cases. -/
noncomputable def pcrPr : PpParams := { pcaPr with nComponents := 1 }

theorem pcrExFit (pinv : Pinv) : ∃ f, ppFit1 pcrPr pinv (dicomoIndex varObj {}) ppExX = .ok f := by
  unfold ppFit1
  rw [if_neg (by simp [pcrPr, pcaPr]), if_neg (by simp [pcrPr, pcaPr, trimOk]; norm_num)]
  dsimp only
  have hm : ∀ k, ppMean 0 (fun i => ppExX i k) = 0 := by
    intro k
    rw [ppMean_zero, mean_eq]
    fin_cases k <;> simp [ppExX, Fin.sum_univ_succ]
    norm_num
  have hX : (if pcrPr.centerData = true then
        scaleMat ppExX (fun k => if pcrPr.centerData = true then pcrPr.centre.loc pcrPr.trimming fun i => ppExX i k else 0) fun k =>
          if pcrPr.centerData = true then pcrPr.centre.sca pcrPr.scaleData pcrPr.trimming fun i => ppExX i k else 1
      else ppExX) = ppExX := by
    split
    · funext i k
      simp only [scaleMat]
      simp [pcrPr, pcaPr, PpCentre.loc, PpCentre.sca, hm]
    · rfl
  rw [hX]
  have h0 : ∀ k, ∑ i, ppExX i k = 0 := by
    intro k
    fin_cases k <;> simp [ppExX, Fin.sum_univ_succ]
    norm_num
  obtain ⟨l, hl⟩ : ∃ l, ppLoop pcrPr.optimizer (dicomoIndex varObj {}) pcrPr.squarePi (fun _ => 0) 1 ppExX = .ok l :=
    ppLoop_ext_ok (find := bestFind (dicomoIndex varObj {})) (varObj_solves (by norm_num) _ h0).1
      (spread_best_ne (varObj_max (by norm_num) _ h0) (i := 0) (k := 0) (by simp [ppExX])) ⟨[], rfl⟩
  have hl' : ppLoop pcrPr.optimizer (dicomoIndex varObj {}) pcrPr.squarePi (fun _ => 0) pcrPr.nComponents ppExX = .ok l := hl
  rw [hl']
  exact ⟨_, rfl⟩

/-- The hypotheses of `C200_pcr` can be met, with one component of each kind and a response correlated with the predictors. -/
example : ∃ (pinv : Pinv) (f : PpFit1 3 2) (g : SnFit 3 2), ppFit1 pcrPr pinv (dicomoIndex varObj {}) ppExX = .ok f ∧ f.comps.length = 1 ∧
    snFit ⟨0, 1, .mean, .noneOpt⟩ ppExX plsY = .ok g ∧ ∑ i, ppExX i 0 * plsY i ≠ 0 ∧
    ∀ (a : ℝ) (c : Fin f.comps.length → ℝ), ∑ i, (plsY i - g.fitted i) ^ 2 ≤ ∑ i, (plsY i - (a + ∑ b, c b * ppT f.comps i b)) ^ 2 := by
  obtain ⟨pinv, hp⟩ := exists_pinv
  obtain ⟨f, hf⟩ := pcrExFit pinv
  obtain ⟨g, hg⟩ := C44_one_component_total ⟨0, 1, .mean, .noneOpt⟩ ppExX plsY (le_refl _) (by norm_num) rfl (fun j => one_ne_zero)
  have hl := (C126_pca (by norm_num) pcrPr rfl rfl rfl (bestFind (dicomoIndex varObj {})) rfl pinv hp varObj rfl rfl rfl {} rfl rfl
    (fun E hE => varObj_solves (by norm_num) E hE) ppExX f hf).2.1
  refine ⟨pinv, f, g, hf, hl, hg, by simp [ppExX, plsY, Fin.sum_univ_succ], fun a c => ?_⟩
  exact C200_pcr (by norm_num) pcrPr rfl rfl rfl (bestFind (dicomoIndex varObj {})) rfl pinv hp varObj rfl rfl rfl {} rfl rfl
    (fun E hE => varObj_solves (by norm_num) E hE) ppExX plsY f hf ⟨0, 1, .mean, .noneOpt⟩ rfl le_rfl rfl rfl g hg a c

/-- The hypotheses of `C200_scaled` and `C200_axes` can be met; the first axis has nothing to do with the response here. -/
example : ∃ g : SnFit 3 2, snFit ⟨0, 1, .mean, .noneOpt⟩ ppExX plsY = .ok g ∧ g.ySca ≠ 0 ∧
    PrincipalAxes (stdMat ppExX g.xLoc g.xSca) (fun (k : Fin 2) (_ : Fin 1) => (![0, 1] : Fin 2 → ℝ) k) ∧
    ∑ i, projectOn (stdMat ppExX g.xLoc g.xSca) ![0, 1] i * plsY i = 0 := by
  obtain ⟨g, hg⟩ := C44_one_component_total ⟨0, 1, .mean, .noneOpt⟩ ppExX plsY (le_refl _) (by norm_num) rfl (fun j => one_ne_zero)
  obtain ⟨-, gx, gs, gy, gsy, -, -⟩ := snFit_inv hg
  have hZ : stdMat ppExX g.xLoc g.xSca = ppExX := by
    funext i k
    have h1 : g.xLoc k = 0 := by
      rw [gx]
      refine (mean_eq _).trans ?_
      fin_cases k <;> simp [ppExX, Fin.sum_univ_succ]
      norm_num
    have h2 : g.xSca k = 1 := by rw [gs]; rfl
    simp [stdMat, std1, h1, h2]
  have hsp : ∀ v : Fin 2 → ℝ, spread ppExX v = 2 * v 0 ^ 2 + 6 * v 1 ^ 2 := by
    intro v
    simp [spread, projectOn, ppExX, Fin.sum_univ_succ]
    ring
  refine ⟨g, hg, by rw [gsy]; exact one_ne_zero, ?_, ?_⟩
  · rw [hZ]
    refine ⟨fun a => ?_, fun a b hab => absurd (Subsingleton.elim a b) hab, fun a v hv _ => ?_, fun a k => ?_, fun a b _ => le_rfl⟩
    · simp [UnitLen]
    · have hv' : v 0 ^ 2 + v 1 ^ 2 = 1 := by simpa [UnitLen] using hv
      rw [hsp, hsp]
      simp
      nlinarith [sq_nonneg (v 0)]
    · rw [hsp]
      fin_cases k <;> simp [ppExX, Fin.sum_univ_succ]
      norm_num
  · rw [hZ]
    simp [projectOn, ppExX, plsY, Fin.sum_univ_succ]

lemma var2_solves (ys : Fin 3 → ℝ) (E : Fin 3 → Fin 2 → ℝ) (hE : ∀ k, ∑ i, E i k = 0) :
    SolvesOnSphere (ppObjective (dicomoIndex2 varObj {} ys) E) (bestFind (dicomoIndex varObj {}) E) := by
  obtain ⟨h1, h2⟩ := varObj_solves (by norm_num) E hE
  refine ⟨h1, fun v hv => ?_⟩
  have h3 := h2 v hv
  unfold ppObjective at h3 ⊢
  rw [dicomoIndex_var (by norm_num) rfl rfl rfl rfl rfl (sum_proj_zero hE _), dicomoIndex_var (by norm_num) rfl rfl rfl rfl rfl (sum_proj_zero hE _)] at h3
  rw [dicomoIndex2_var (by norm_num) rfl rfl rfl rfl _ (sum_proj_zero hE _), dicomoIndex2_var (by norm_num) rfl rfl rfl rfl _ (sum_proj_zero hE _)]
  exact h3

theorem pcrExFit2 (pinv : Pinv) : ∃ f, ppFit pcrPr pinv .ols (dicomoIndex2 varObj {}) ppExX plsY = .ok f := by
  have hm : ∀ k, ppMean 0 (fun i => ppExX i k) = 0 := by
    intro k
    rw [ppMean_zero, mean_eq]
    fin_cases k <;> simp [ppExX, Fin.sum_univ_succ]
    norm_num
  have hmy : ppMean 0 plsY = 0 := by
    rw [ppMean_zero, mean_eq]
    simp [plsY, Fin.sum_univ_succ]
  have h0 : ∀ k, ∑ i, ppExX i k = 0 := by
    intro k
    fin_cases k <;> simp [ppExX, Fin.sum_univ_succ]
    norm_num
  unfold ppFit
  rw [if_neg (by simp [pcrPr, pcaPr]), if_neg (by simp [pcrPr, pcaPr, trimOk]; norm_num)]
  dsimp only
  have hX : (if pcrPr.centerData = true then
        scaleMat ppExX (fun k => if pcrPr.centerData = true then pcrPr.centre.loc pcrPr.trimming fun i => ppExX i k else 0) fun k =>
          if pcrPr.centerData = true then pcrPr.centre.sca pcrPr.scaleData pcrPr.trimming fun i => ppExX i k else 1
      else ppExX) = ppExX := by
    split
    · funext i k
      simp only [scaleMat]
      simp [pcrPr, pcaPr, PpCentre.loc, PpCentre.sca, hm]
    · rfl
  have hY : (if pcrPr.centerData = true then (fun i => scaleMat (asCol plsY) (fun _ => if pcrPr.centerData = true then pcrPr.centre.loc pcrPr.trimming plsY else 0)
      (fun _ => if pcrPr.centerData = true then pcrPr.centre.sca pcrPr.scaleData pcrPr.trimming plsY else 1) i 0) else plsY) = plsY := by
    split
    · funext i
      simp only [scaleMat]
      simp [pcrPr, pcaPr, PpCentre.loc, PpCentre.sca, hmy, asCol]
    · rfl
  rw [hX, hY]
  obtain ⟨l, hl⟩ : ∃ l, ppLoop pcrPr.optimizer (dicomoIndex2 varObj {} plsY) pcrPr.squarePi (PpReg.ols.run plsY plsY) 1 ppExX = .ok l :=
    ppLoop_ext_ok (find := bestFind (dicomoIndex varObj {})) (varObj_solves (by norm_num) _ h0).1
      (spread_best_ne (varObj_max (by norm_num) _ h0) (i := 0) (k := 0) (by simp [ppExX])) ⟨[], rfl⟩
  have hl' : ppLoop pcrPr.optimizer (dicomoIndex2 varObj {} plsY) pcrPr.squarePi (PpReg.ols.run plsY plsY) pcrPr.nComponents ppExX = .ok l := hl
  rw [hl']
  dsimp only
  rw [if_neg (by simp [pcrPr, pcaPr, PpCentre.sca])]
  exact ⟨_, rfl⟩

/-- The hypotheses of `C200_ppdire` can be met. -/
example : ∃ (pinv : Pinv) (f : PpFit 3 2) (g : SnFit 3 2), ppFit pcrPr pinv .ols (dicomoIndex2 varObj {}) ppExX plsY = .ok f ∧
    snFit ⟨0, 1, .mean, .noneOpt⟩ ppExX plsY = .ok g ∧ ∑ i, (plsY i - g.fitted i) ^ 2 ≤ ∑ i, (plsY i - f.fitted i) ^ 2 := by
  obtain ⟨pinv, hp⟩ := exists_pinv
  obtain ⟨f, hf⟩ := pcrExFit2 pinv
  obtain ⟨g, hg⟩ := C44_one_component_total ⟨0, 1, .mean, .noneOpt⟩ ppExX plsY (le_refl _) (by norm_num) rfl (fun j => one_ne_zero)
  exact ⟨pinv, f, g, hf, hg, C200_ppdire (by norm_num) pcrPr rfl rfl rfl (bestFind (dicomoIndex varObj {})) rfl pinv hp .ols varObj rfl rfl rfl {} rfl ppExX plsY f hf
    (fun E hE => var2_solves _ E hE) ⟨0, 1, .mean, .noneOpt⟩ rfl le_rfl rfl rfl g hg⟩

end Direpack
