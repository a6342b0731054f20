import Mathlib.LinearAlgebra.Basis.VectorSpace
import Mathlib.LinearAlgebra.Matrix.ToLin
import Verif.Props.PPDire

/-! A worked `ppdire` fit with two components: the hypotheses of the C57, C58, C83 and C86 theorems can be met. -/

namespace Direpack

open scoped BigOperators

/-- Three cases, two uncorrelated variables with mean zero. -/
def ppExX : Fin 3 → Fin 2 → ℝ := ![![-1, -1], ![0, 2], ![1, -1]]

/-- An optimiser that picks the first variable that is not constant zero. -/
noncomputable def ppExFind {n p : ℕ} (E : Fin n → Fin p → ℝ) : Fin p → ℝ :=
  open Classical in fun k => if (∑ i, E i k ^ 2) ≠ 0 ∧ ∀ j < k, ∑ i, E i j ^ 2 = 0 then 1 else 0

noncomputable def ppExPr (centerData : Bool) : PpParams :=
  { nComponents := 2, trimming := 0, optimizer := .ext ppExFind, centre := .mean, centerData := centerData, scaleData := false,
    squarePi := false }

lemma ppEx_find1 : ppExFind ppExX = ![1, 0] := by
  funext k
  fin_cases k
  · have h : ∑ i, ppExX i 0 ^ 2 = 2 := by simp [ppExX, Fin.sum_univ_succ]; norm_num
    have h2 : ∀ j : Fin 2, j < 0 → ∑ i, ppExX i j ^ 2 = 0 := fun j hj => absurd hj (Fin.not_lt_zero j)
    show ppExFind ppExX 0 = 1
    unfold ppExFind
    rw [if_pos ⟨by rw [h]; norm_num, h2⟩]
  · have h : ∑ i, ppExX i 0 ^ 2 = 2 := by simp [ppExX, Fin.sum_univ_succ]; norm_num
    show ppExFind ppExX 1 = 0
    unfold ppExFind
    rw [if_neg]
    rintro ⟨-, h1⟩
    have := h1 0 (by decide)
    rw [h] at this
    norm_num at this

def ppExX2 : Fin 3 → Fin 2 → ℝ := ![![0, -1], ![0, 2], ![0, -1]]

lemma ppEx_find2 : ppExFind ppExX2 = ![0, 1] := by
  have h0 : ∑ i, ppExX2 i 0 ^ 2 = 0 := by simp [ppExX2, Fin.sum_univ_succ]
  have h1 : ∑ i, ppExX2 i 1 ^ 2 = 6 := by simp [ppExX2, Fin.sum_univ_succ]; norm_num
  funext k
  fin_cases k
  · show ppExFind ppExX2 0 = 0
    unfold ppExFind
    rw [if_neg]
    rintro ⟨h, -⟩
    exact h h0
  · show ppExFind ppExX2 1 = 1
    unfold ppExFind
    rw [if_pos]
    refine ⟨by rw [h1]; norm_num, fun j hj => ?_⟩
    have : j = 0 := by
      have := Fin.lt_def.mp hj
      ext
      simp at this ⊢
      omega
    rw [this, h0]

lemma ppEx_dir1 (φ : (Fin 3 → ℝ) → ℝ) : ∃ o, ppDirection (.ext ppExFind) φ false ppExX = .ok (![1, 0], o) := by
  · unfold ppDirection
    dsimp only
    have h : Real.sqrt (∑ k, (![1, 0] : Fin 2 → ℝ) k ^ 2) = 1 := by simp [Fin.sum_univ_succ]
    simp only [ppEx_find1, h, one_ne_zero, if_false, div_one]
    exact ⟨_, rfl⟩

lemma ppEx_dir2 (φ : (Fin 3 → ℝ) → ℝ) : ∃ o, ppDirection (.ext ppExFind) φ false ppExX2 = .ok (![0, 1], o) := by
  · unfold ppDirection
    dsimp only
    have h : Real.sqrt (∑ k, (![0, 1] : Fin 2 → ℝ) k ^ 2) = 1 := by simp [Fin.sum_univ_succ]
    simp only [ppEx_find2, h, one_ne_zero, if_false, div_one]
    exact ⟨_, rfl⟩

lemma ppEx_loop (φ : (Fin 3 → ℝ) → ℝ) (reg : (Fin 3 → ℝ) → ℝ) :
    ∃ l, ppLoop (.ext ppExFind) φ false reg 2 ppExX = .ok l := by
  obtain ⟨o1, h1⟩ := ppEx_dir1 φ
  obtain ⟨o2, h2⟩ := ppEx_dir2 φ
  have ht1 : projE ppExX ![1, 0] = ![-1, 0, 1] := by
    funext i; fin_cases i <;> simp [projE, ppExX, Fin.sum_univ_succ]
  have hs1 : ∑ i, (![-1, 0, 1] : Fin 3 → ℝ) i ^ 2 = 2 := by simp [Fin.sum_univ_succ]; norm_num
  have ht2 : projE ppExX2 ![0, 1] = ![-1, 2, -1] := by
    funext i; fin_cases i <;> simp [projE, ppExX2, Fin.sum_univ_succ]
  have hs2 : ∑ i, (![-1, 2, -1] : Fin 3 → ℝ) i ^ 2 = 6 := by simp [Fin.sum_univ_succ]; norm_num
  rw [ppLoop, h1]
  dsimp only
  rw [ht1, hs1, if_neg (by norm_num)]
  have hE : (fun (i : Fin 3) (k : Fin 2) => ppExX i k - (![-1, 0, 1] : Fin 3 → ℝ) i * ((∑ i, ppExX i k * (![-1, 0, 1] : Fin 3 → ℝ) i) / 2))
      = ppExX2 := by
    funext i k
    fin_cases i <;> fin_cases k <;> simp [ppExX, ppExX2, Fin.sum_univ_succ]
  rw [hE, ppLoop, h2]
  dsimp only
  rw [ht2, hs2, if_neg (by norm_num)]
  rw [ppLoop]
  exact ⟨_, rfl⟩

theorem ppExFit (c : Bool) (pinv : Pinv) (rg : PpReg) (φ : (Fin 3 → ℝ) → (Fin 3 → ℝ) → ℝ) (y : Fin 3 → ℝ) :
    ∃ f, ppFit (ppExPr c) pinv rg φ ppExX y = .ok f := by
  unfold ppFit
  rw [if_neg (by simp [ppExPr]), if_neg (by simp [ppExPr, trimOk]; norm_num)]
  dsimp only
  have hm : ∀ k, ppMean 0 (fun i => ppExX i k) = 0 := by
    intro k
    rw [ppMean_zero, mean_eq]
    fin_cases k <;> simp [ppExX, Fin.sum_univ_succ]
    norm_num
  have hX : (if (ppExPr c).centerData = true then
        scaleMat ppExX (fun k => if (ppExPr c).centerData = true then (ppExPr c).centre.loc (ppExPr c).trimming fun i => ppExX i k else 0) fun k =>
          if (ppExPr c).centerData = true then (ppExPr c).centre.sca (ppExPr c).scaleData (ppExPr c).trimming fun i => ppExX i k else 1
      else ppExX) = ppExX := by
    split
    · funext i k
      simp only [scaleMat]
      simp [ppExPr, PpCentre.loc, PpCentre.sca, hm]
    · rfl
  rw [hX]
  generalize hys : (if (ppExPr c).centerData = true then _ else y) = ys
  obtain ⟨l, hl⟩ := ppEx_loop (φ ys) (rg.run ys y)
  have : ppLoop (ppExPr c).optimizer (φ ys) (ppExPr c).squarePi (rg.run ys y) (ppExPr c).nComponents ppExX = .ok l := hl
  rw [this]
  dsimp only
  rw [if_neg]
  · exact ⟨_, rfl⟩
  · rintro ⟨k, hk⟩
    revert hk
    split
    · simp [PpCentre.sca, ppExPr]
    · exact one_ne_zero

/-- Every square matrix has a generalised inverse. -/
theorem exists_genInverse {k : ℕ} (A : Matrix (Fin k) (Fin k) ℝ) : ∃ B, A * B * A = A := by
  let f := Matrix.toLin' A
  obtain ⟨g, hg⟩ := f.rangeRestrict.exists_rightInverse_of_surjective (LinearMap.range_rangeRestrict f)
  obtain ⟨g', hg'⟩ := LinearMap.exists_extend g
  refine ⟨LinearMap.toMatrix' g', ?_⟩
  apply Matrix.toLin'.injective
  rw [Matrix.toLin'_mul, Matrix.toLin'_mul, Matrix.toLin'_toMatrix']
  ext1 i
  apply LinearMap.ext_ring
  have h1 : ∀ x, f (g' (f x)) = f x := by
    intro x
    have h2 : g' (f x) = g (f.rangeRestrict x) := by rw [← hg']; rfl
    have h3 := LinearMap.congr_fun hg (f.rangeRestrict x)
    rw [h2]
    exact congrArg Subtype.val h3
  exact h1 _

/-- The assumption on `pinv` can be met. -/
theorem exists_pinv : ∃ pinv : Pinv, IsGenInverse pinv :=
  ⟨fun A => (exists_genInverse A).choose, fun A => (exists_genInverse A).choose_spec⟩

/-- The hypotheses of C57, C58, C83 and C86 are met by a model with two components. -/
example : ∃ (pinv : Pinv) (f : PpFit 3 2), IsGenInverse pinv ∧
    ppFit (ppExPr true) pinv .ols (fun _ t => t 0) ppExX ![1, 5, 2] = .ok f := by
  obtain ⟨pinv, h⟩ := exists_pinv
  obtain ⟨f, hf⟩ := ppExFit true pinv .ols (fun _ t => t 0) ![1, 5, 2]
  exact ⟨pinv, f, h, hf⟩

/-- The hypotheses of the violation of C57 are met. -/
example : ∃ (pinv : Pinv) (f : PpFit 3 2), ppFit (ppExPr false) pinv .ols (fun _ t => t 0) ppExX ![1, 5, 2] = .ok f := by
  obtain ⟨pinv, h⟩ := exists_pinv
  exact ⟨pinv, ppExFit false pinv .ols (fun _ t => t 0) ![1, 5, 2]⟩

end Direpack
