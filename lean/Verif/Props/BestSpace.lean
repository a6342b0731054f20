import Mathlib.Analysis.InnerProductSpace.PiL2
import Mathlib.LinearAlgebra.Dimension.Constructions
import Verif.Props.KyFan
import Verif.Props.PPDirePCA
import Verif.Props.Reproduce

/-! Property C188: principal components reproduce the predictors best. -/

namespace Direpack

open scoped BigOperators
open Spec

variable {n p : ℕ}

/-! ### The first principal axes together -/

lemma spread_dot (Z : Fin n → Fin p → ℝ) (v : Fin p → ℝ) : spread Z v = v ⬝ᵥ ((Matrix.of Z).transpose * Matrix.of Z).mulVec v := by
  rw [← Matrix.mulVec_mulVec, Matrix.dotProduct_mulVec, Matrix.vecMul_transpose]
  unfold spread projectOn dotProduct Matrix.mulVec dotProduct
  exact Finset.sum_congr rfl fun i _ => by simp only [Matrix.of_apply]; ring

lemma gram_eigen {Z : Fin n → Fin p → ℝ} {w : Fin p → ℝ} {lam : ℝ} (h : ∀ k, ∑ j, (∑ i, Z i k * Z i j) * w j = lam * w k) :
    ((Matrix.of Z).transpose * Matrix.of Z).mulVec w = lam • w := by
  funext k
  rw [Pi.smul_apply, smul_eq_mul, ← h k]
  rfl

lemma pa_sys {h : ℕ} {Z : Fin n → Fin p → ℝ} {W : Fin p → Fin h → ℝ} (hp : PrincipalAxes Z W) : OrthoSys fun a k => W k a := by
  intro a b
  split_ifs with hab
  · subst hab
    rw [← show ∑ k, W k a ^ 2 = 1 from hp.unit a]
    exact Finset.sum_congr rfl fun k _ => (sq _).symm
  · exact hp.orthogonal a b hab

/-- No system of at most as many orthonormal directions has a larger sum of spreads. -/
lemma pa_joint {h d : ℕ} {Z : Fin n → Fin p → ℝ} {W : Fin p → Fin h → ℝ} (hp : PrincipalAxes Z W) {V : Fin d → Fin p → ℝ} (hV : OrthoSys V) (hd : d ≤ h) :
    ∑ b, spread Z (V b) ≤ ∑ a, spread Z fun k => W k a := by
  rcases h with _ | h
  · obtain rfl : d = 0 := by omega
    simp
  · simp only [spread_dot]
    have hlast : ∀ v, UnitLen v → (∀ b, ∑ k, v k * W k b = 0) → spread Z v ≤ spread Z fun k => W k (Fin.last h) :=
      fun v hv ho => hp.maximal (Fin.last h) v hv fun b _ => ho b
    refine ky_fan (mu := spread Z fun k => W k (Fin.last h)) (by rw [Matrix.transpose_mul, Matrix.transpose_transpose]) (pa_sys hp)
      (lam := fun a => (fun k => W k a) ⬝ᵥ ((Matrix.of Z).transpose * Matrix.of Z).mulVec fun k => W k a) (fun a => ?_) (fun a => ?_) (fun r hr => ?_) hV ?_
    · rw [← spread_dot]
      exact gram_eigen (hp.eigen a)
    · rw [← spread_dot]
      exact hp.ordered a _ (Fin.le_last a)
    · rw [← spread_dot]
      rcases (dot_self_nonneg r).eq_or_lt with h0 | h0
      · have : r = 0 := dotProduct_self_eq_zero.mp h0.symm
        subst this
        simp [spread, projectOn]
      · have hl : UnitLen fun k => r k / Real.sqrt (r ⬝ᵥ r) := by
          unfold UnitLen
          simp only [div_pow, ← Finset.sum_div]
          rw [Real.sq_sqrt h0.le]
          have : ∑ k, r k ^ 2 = r ⬝ᵥ r := Finset.sum_congr rfl fun k _ => sq _
          rw [this]
          exact div_self h0.ne'
        have h1 := hlast _ hl fun b => by
          have := hr b
          have e : ∑ k, r k / Real.sqrt (r ⬝ᵥ r) * W k b = ((fun k => W k b) ⬝ᵥ r) / Real.sqrt (r ⬝ᵥ r) := by
            unfold dotProduct
            rw [Finset.sum_div]
            exact Finset.sum_congr rfl fun k _ => by ring
          rw [e, this, zero_div]
        have h2 : spread Z (fun k => r k / Real.sqrt (r ⬝ᵥ r)) = spread Z r / (r ⬝ᵥ r) := by
          unfold spread projectOn
          rw [Finset.sum_div]
          refine Finset.sum_congr rfl fun i _ => ?_
          simp only [← mul_div_assoc, ← Finset.sum_div]
          rw [div_pow, Real.sq_sqrt h0.le]
        rw [h2, div_le_iff₀ h0] at h1
        exact h1
    · exact mul_le_mul_of_nonneg_right (by exact_mod_cast hd) (spread_nonneg _ _)

/-! ### Approximation by scores and loadings -/

/-- Vectors are combinations of an orthonormal system of at most as many vectors. -/
lemma exists_orthoSys {h : ℕ} (P : Fin p → Fin h → ℝ) : ∃ (d : ℕ) (V : Fin d → Fin p → ℝ), d ≤ h ∧ OrthoSys V ∧ ∀ a, ∃ c : Fin d → ℝ, (fun k => P k a) = ∑ b, c b • V b := by
  set g : Fin h → EuclideanSpace ℝ (Fin p) := fun a => WithLp.toLp 2 fun k => P k a with hg
  set S := Submodule.span ℝ (Set.range g) with hS
  have hd : Module.finrank ℝ S ≤ h := by
    have := finrank_range_le_card (R := ℝ) g
    simpa [Set.finrank] using this
  let bs := stdOrthonormalBasis ℝ S
  refine ⟨_, fun b => WithLp.ofLp (bs b : EuclideanSpace ℝ (Fin p)), hd, ?_, ?_⟩
  · intro a b
    have h1 := orthonormal_iff_ite.mp bs.orthonormal a b
    rw [← h1, Submodule.coe_inner, EuclideanSpace.inner_eq_star_dotProduct, dotProduct_comm]
    simp
  · intro a
    have hm : g a ∈ S := Submodule.subset_span ⟨a, rfl⟩
    have h1 := bs.sum_repr ⟨g a, hm⟩
    refine ⟨fun b => bs.repr ⟨g a, hm⟩ b, ?_⟩
    have h2 := congrArg (fun z : S => WithLp.ofLp (z : EuclideanSpace ℝ (Fin p))) h1
    simp only [Submodule.coe_sum, Submodule.coe_smul, WithLp.ofLp_sum, WithLp.ofLp_smul] at h2
    exact h2.symm

lemma sum_spread (Z : Fin n → Fin p → ℝ) (v : Fin p → ℝ) : spread Z v = ∑ i, (Z i ⬝ᵥ v) ^ 2 := rfl

/-- Approximations by scores times loadings leave at least what remains of the projections on an orthonormal system. -/
lemma misfit_ge {h : ℕ} (Z : Fin n → Fin p → ℝ) (T : Fin n → Fin h → ℝ) (P : Fin p → Fin h → ℝ) : ∃ (d : ℕ) (V : Fin d → Fin p → ℝ), d ≤ h ∧ OrthoSys V ∧
    ∑ i, Z i ⬝ᵥ Z i - ∑ b, spread Z (V b) ≤ misfit Z T P := by
  obtain ⟨d, V, hd, hV, hP⟩ := exists_orthoSys P
  choose c hc using hP
  refine ⟨d, V, hd, hV, ?_⟩
  have h1 : ∀ i, Z i ⬝ᵥ Z i - ∑ b, (Z i ⬝ᵥ V b) ^ 2 ≤ ∑ j, (Z i j - ∑ a, T i a * P j a) ^ 2 := by
    intro i
    have h2 := hV.dist (Z i) fun b => ∑ a, T i a * c a b
    have h3 : (fun j => Z i j - ∑ a, T i a * P j a) = Z i - ∑ b, (∑ a, T i a * c a b) • V b := by
      funext j
      rw [Pi.sub_apply, Finset.sum_apply]
      congr 1
      have : ∀ a, P j a = ∑ b, c a b * V b j := by
        intro a
        have := congrFun (hc a) j
        rw [this, Finset.sum_apply]
        rfl
      simp only [this, Pi.smul_apply, smul_eq_mul, Finset.sum_mul, Finset.mul_sum]
      rw [Finset.sum_comm]
      exact Finset.sum_congr rfl fun b _ => Finset.sum_congr rfl fun a _ => by ring
    rw [← h3] at h2
    have h4 : ∑ j, (Z i j - ∑ a, T i a * P j a) ^ 2 = (fun j => Z i j - ∑ a, T i a * P j a) ⬝ᵥ fun j => Z i j - ∑ a, T i a * P j a :=
      Finset.sum_congr rfl fun j _ => sq _
    rw [h4, h2]
    exact le_add_of_nonneg_right (Finset.sum_nonneg fun b _ => sq_nonneg _)
  have h5 : ∑ i, Z i ⬝ᵥ Z i - ∑ b, spread Z (V b) = ∑ i, (Z i ⬝ᵥ Z i - ∑ b, (Z i ⬝ᵥ V b) ^ 2) := by
    rw [Finset.sum_sub_distrib]
    simp only [sum_spread]
    rw [Finset.sum_comm]
  rw [h5]
  exact Finset.sum_le_sum fun i _ => h1 i

/-- What the principal components leave. -/
lemma pa_misfit_eq {h : ℕ} {Z : Fin n → Fin p → ℝ} {W : Fin p → Fin h → ℝ} (hp : PrincipalAxes Z W) :
    misfit Z (fun i a => projectOn Z (fun k => W k a) i) W = ∑ i, Z i ⬝ᵥ Z i - ∑ a, spread Z fun k => W k a := by
  have h1 : ∀ i, ∑ j, (Z i j - ∑ a, projectOn Z (fun k => W k a) i * W j a) ^ 2 = Z i ⬝ᵥ Z i - ∑ a, (Z i ⬝ᵥ fun k => W k a) ^ 2 := by
    intro i
    have h2 := (pa_sys hp).dist (Z i) fun a => Z i ⬝ᵥ fun k => W k a
    simp only [sub_self, ne_eq, OfNat.ofNat_ne_zero, not_false_eq_true, zero_pow, Finset.sum_const_zero, add_zero] at h2
    rw [← h2]
    unfold dotProduct
    refine Finset.sum_congr rfl fun j _ => ?_
    rw [← sq, Pi.sub_apply, Finset.sum_apply]
    rfl
  unfold misfit
  rw [Finset.sum_congr rfl fun i _ => h1 i, Finset.sum_sub_distrib]
  simp only [sum_spread]
  rw [Finset.sum_comm (f := fun a i => (Z i ⬝ᵥ fun k => W k a) ^ 2)]

/-! ### C188 -/

section
variable (hn : 2 ≤ n) (pr : PpParams) (hcen : pr.centre = .mean) (htr : pr.trimming = 0) (hcd : pr.centerData = true)
    (find : {n p : ℕ} → (Fin n → Fin p → ℝ) → (Fin p → ℝ)) (hopt : pr.optimizer = .ext find) (pinv : Pinv) (hp : IsGenInverse pinv)
    (d : Dicomo) (he : d.est = .arithmetic) (hm : d.mode = .var) (hc : d.center = .mean) (a : FitArgs) (ht : a.trimming = 0) (hy : a.y = none)
    (hf : ∀ E : Fin n → Fin p → ℝ, (∀ k, ∑ i, E i k = 0) → SolvesOnSphere (ppObjective (dicomoIndex d a) E) (find E))
    (X : Fin n → Fin p → ℝ) (f : PpFit1 n p) (h : ppFit1 pr pinv (dicomoIndex d a) X = .ok f)
include hn hcen htr hcd hopt hp he hm hc ht hy hf h

/-- **C188**: scores and loadings of ppdire with the variance (`center='mean'`, no trimming) and an optimiser that finds the best direction approximate the standardised
predictors best: no other scores and loadings, of as many components, leave less. -/
theorem C188_best (T : Fin n → Fin f.comps.length → ℝ) (P : Fin p → Fin f.comps.length → ℝ) :
    misfit (stdMat X f.xLoc f.xSca) (ppT f.comps) (ppP f.comps) ≤ misfit (stdMat X f.xLoc f.xSca) T P := by
  obtain ⟨hpa, -, hP, -, hT, -⟩ := C126_pca hn pr hcen htr hcd find hopt pinv hp d he hm hc a ht hy hf X f h
  obtain ⟨d', V, hd, hV, hle⟩ := misfit_ge (stdMat X f.xLoc f.xSca) T P
  have e : misfit (stdMat X f.xLoc f.xSca) (ppT f.comps) (ppP f.comps) =
      misfit (stdMat X f.xLoc f.xSca) (fun i b => projectOn (stdMat X f.xLoc f.xSca) (fun k => ppW f.comps k b) i) (ppW f.comps) := by
    unfold misfit
    simp only [hT, hP]
  rw [e, pa_misfit_eq hpa]
  exact le_trans (sub_le_sub_left (pa_joint hpa hV hd) _) hle

/-- **C188**, variances: no other orthonormal directions, of at most as many, have scores with a larger total sum of squares. -/
theorem C188_variance {q : ℕ} (hq : q ≤ pr.nComponents) (V : Fin q → Fin p → ℝ) (hV : ∀ b, UnitLen (V b)) (hV2 : ∀ b c, b ≠ c → ∑ k, V b k * V c k = 0) :
    ∑ b, ∑ i, projectOn (stdMat X f.xLoc f.xSca) (V b) i ^ 2 ≤ ∑ c, ∑ i, ppT f.comps i c ^ 2 := by
  obtain ⟨hpa, hl, -, -, hT, -⟩ := C126_pca hn pr hcen htr hcd find hopt pinv hp d he hm hc a ht hy hf X f h
  have hsys : OrthoSys V := by
    intro b c
    split_ifs with hbc
    · subst hbc
      rw [← show ∑ k, V b k ^ 2 = 1 from hV b]
      exact Finset.sum_congr rfl fun k _ => (sq _).symm
    · exact hV2 b c hbc
  have := pa_joint hpa hsys (hq.trans_eq hl.symm)
  simp only [hT]
  exact this

end

/-! ### A model for every number of components up to the rank -/

lemma mat_rank_add_le (A B : Matrix (Fin n) (Fin p) ℝ) : (A + B).rank ≤ A.rank + B.rank := by
  unfold Matrix.rank
  rw [Matrix.mulVecLin_add]
  exact (Submodule.finrank_mono (LinearMap.range_add_le _ _)).trans (Submodule.finrank_add_le_finrank_add_finrank _ _)

lemma rank_deflate (E : Fin n → Fin p → ℝ) (t : Fin n → ℝ) (q : Fin p → ℝ) :
    (Matrix.of E).rank ≤ (Matrix.of fun i k => E i k - t i * q k).rank + 1 := by
  have e : Matrix.of E = (Matrix.of fun i k => E i k - t i * q k) + Matrix.vecMulVec t q := by
    ext i k
    simp [Matrix.vecMulVec_apply]
  calc (Matrix.of E).rank = ((Matrix.of fun i k => E i k - t i * q k) + Matrix.vecMulVec t q).rank := by rw [← e]
    _ ≤ _ := (mat_rank_add_le _ _).trans (Nat.add_le_add_left (Matrix.rank_vecMulVec_le _ _) _)

lemma pca_exists {find : {n p : ℕ} → (Fin n → Fin p → ℝ) → (Fin p → ℝ)} {φ : (Fin n → ℝ) → ℝ} {κ : ℝ} (hκ : 0 < κ) {sq : Bool}
    {reg : (Fin n → ℝ) → ℝ} (hφ : ∀ t : Fin n → ℝ, ∑ i, t i = 0 → φ t = κ * ∑ i, t i ^ 2)
    (hf : ∀ E : Fin n → Fin p → ℝ, (∀ k, ∑ i, E i k = 0) → SolvesOnSphere (ppObjective φ E) (find E)) :
    ∀ (h : ℕ) (E : Fin n → Fin p → ℝ), (∀ k, ∑ i, E i k = 0) → h ≤ (Matrix.of E).rank → ∃ l, ppLoop (.ext find) φ sq reg h E = .ok l := by
  intro h
  induction h with
  | zero => exact fun E _ _ => ⟨[], rfl⟩
  | succ h ih =>
    intro E hE hr
    have hs := hf E hE
    have hmax : ∀ v, UnitLen v → spread E v ≤ spread E (find E) := by
      intro v hv
      have h2 := hs.2 v hv
      unfold ppObjective at h2
      rw [hφ _ (sum_proj_zero hE _), hφ _ (sum_proj_zero hE _)] at h2
      have h3 : κ * ∑ i, projE E v i ^ 2 ≤ κ * ∑ i, projE E (find E) i ^ 2 := by linarith
      exact le_of_mul_le_mul_left h3 hκ
    have hne : ∃ i k, E i k ≠ 0 := by
      by_contra hcon
      push Not at hcon
      have : Matrix.of E = 0 := by ext i k; exact hcon i k
      rw [this, Matrix.rank_zero] at hr
      omega
    obtain ⟨i, k, hik⟩ := hne
    refine ppLoop_ext_ok hs.1 (spread_best_ne hmax hik) (ih _ (fun k => ?_) ?_)
    · rw [Finset.sum_sub_distrib, hE, ← Finset.sum_mul, sum_proj_zero hE, zero_mul, sub_zero]
    · have := rank_deflate E (projE E (find E)) fun k => (∑ i, E i k * projE E (find E) i) / ∑ i, projE E (find E) i ^ 2
      omega

/-- **C188**, existence: with an optimiser that finds the best direction there is a model for every number of components up to the rank of the standardised predictors, and
for no larger number. -/
theorem C188_exists (hn : 2 ≤ n) (pr : PpParams) (hcen : pr.centre = .mean) (htr : pr.trimming = 0) (hcd : pr.centerData = true)
    (find : {n p : ℕ} → (Fin n → Fin p → ℝ) → (Fin p → ℝ)) (hopt : pr.optimizer = .ext find) (pinv : Pinv)
    (d : Dicomo) (he : d.est = .arithmetic) (hm : d.mode = .var) (hc : d.center = .mean) (a : FitArgs) (ht : a.trimming = 0) (hy : a.y = none)
    (hf : ∀ E : Fin n → Fin p → ℝ, (∀ k, ∑ i, E i k = 0) → SolvesOnSphere (ppObjective (dicomoIndex d a) E) (find E)) (X : Fin n → Fin p → ℝ) :
    (∃ f, ppFit1 pr pinv (dicomoIndex d a) X = .ok f) ↔
      pr.nComponents ≤ (Matrix.of (stdMat X (fun k => avg fun i => X i k)
        fun k => if pr.scaleData then Real.sqrt (avg fun i => (X i k - avg fun i => X i k) ^ 2) else 1)).rank := by
  have hloc : ∀ k, (pr.centre.loc pr.trimming fun i => X i k) = avg fun i => X i k := by
    intro k
    rw [hcen, htr]
    exact (ppMean_zero _).trans (mean_eq _)
  have hsca : ∀ k, (pr.centre.sca pr.scaleData pr.trimming fun i => X i k) = if pr.scaleData then Real.sqrt (avg fun i => (X i k - avg fun i => X i k) ^ 2) else 1 := by
    intro k
    rw [hcen, htr]
    unfold PpCentre.sca
    dsimp only
    split_ifs
    · rw [ppStd_zero, var, varL]
      have : meanL (List.map (fun v => (v - meanL (List.ofFn fun i => X i k)) ^ 2) (List.ofFn fun i => X i k)) =
          avg fun i => (X i k - avg fun i => X i k) ^ 2 := by
        rw [meanL_ofFn, List.map_ofFn, meanL_ofFn]
        rfl
      rw [this]
    · rfl
  constructor
  · rintro ⟨f, h⟩
    have h1 := (C186_ppdire_one_block pr pinv _ X f h).2.1
    obtain ⟨-, -, -, -, -, h2, h3⟩ := ppFit1_inv h
    simp only [hcd, if_true, hloc, hsca] at h2 h3
    rw [h2, h3] at h1
    exact h1
  · intro hr
    set Z := stdMat X (fun k => avg fun i => X i k) fun k => if pr.scaleData then Real.sqrt (avg fun i => (X i k - avg fun i => X i k) ^ 2) else 1 with hZ
    have hmin : ¬ pr.nComponents > min n p := by
      have h1 := Matrix.rank_le_width (Matrix.of Z)
      have h2 := Matrix.rank_le_height (Matrix.of Z)
      omega
    have hn' : (0 : ℝ) < n := by exact_mod_cast (by omega : 0 < n)
    have hZ0 : ∀ k, ∑ i, Z i k = 0 := by
      intro k
      rw [hZ]
      unfold stdMat std1
      have h0 : ∑ i, (X i k - avg fun i => X i k) = 0 := by
        have := pp_sum_center (fun i => X i k)
        rw [mean_eq] at this
        exact this
      dsimp only
      by_cases hg : (if pr.scaleData = true then Real.sqrt (avg fun i => (X i k - avg fun i => X i k) ^ 2) else 1) = 0
      · simp only [if_pos hg]
        exact h0
      · simp only [if_neg hg]
        rw [← Finset.sum_div, h0, zero_div]
    obtain ⟨l, hl⟩ := pca_exists (sq := pr.squarePi) (reg := fun _ => 0) (div_pos (momFactor_two_pos hn a.biascorr) hn')
      (fun t h0 => dicomoIndex_var hn he hm hc ht hy h0) hf _ Z hZ0 hr
    unfold ppFit1
    rw [if_neg hmin, if_neg (by rw [not_not, htr]; exact ⟨le_refl _, by norm_num, .inl rfl⟩)]
    simp only [hcd, if_true, hloc, hsca]
    rw [scaleMat_eq, ← hZ, hopt, hl]
    exact ⟨_, rfl⟩

/-- The hypotheses of C188 can be met: two principal components of data of rank two. -/
example : ∃ (pinv : Pinv) (f : PpFit1 3 2), IsGenInverse pinv ∧ ppFit1 pcaPr pinv (dicomoIndex varObj {}) ppExX = .ok f ∧
    (∀ E : Fin 3 → Fin 2 → ℝ, (∀ k, ∑ i, E i k = 0) → SolvesOnSphere (ppObjective (dicomoIndex varObj {}) E) (bestFind (dicomoIndex varObj {}) E)) ∧
    ∀ (T : Fin 3 → Fin f.comps.length → ℝ) (P : Fin 2 → Fin f.comps.length → ℝ), misfit (stdMat ppExX f.xLoc f.xSca) (ppT f.comps) (ppP f.comps) ≤ misfit (stdMat ppExX f.xLoc f.xSca) T P := by
  obtain ⟨pinv, hp⟩ := exists_pinv
  obtain ⟨f, hf⟩ := pcaExFit pinv
  exact ⟨pinv, f, hp, hf, fun E hE => varObj_solves (by norm_num) E hE,
    C188_best (by norm_num) pcaPr rfl rfl rfl (bestFind (dicomoIndex varObj {})) rfl pinv hp varObj rfl rfl rfl {} rfl rfl
      (fun E hE => varObj_solves (by norm_num) E hE) ppExX f hf⟩

end Direpack
